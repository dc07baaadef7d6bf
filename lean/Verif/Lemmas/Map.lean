import Verif.Spec.Limit
/-!
# Matrix operations commute with maps of the entries
-/
namespace Cnn
variable {α β γ : Type}

namespace Res

theorem map_res_bind {σ τ υ : Type} (g : τ → υ) (x : Res σ) (f : σ → Res τ) : g <$> (x >>= f) = x >>= fun a => g <$> f a := by
  cases x <;> rfl

theorem bind_res_map {σ τ υ : Type} (g : σ → τ) (x : Res σ) (f : τ → Res υ) : (g <$> x) >>= f = x >>= fun a => f (g a) := by
  cases x <;> rfl

theorem map_res_map {σ τ υ : Type} (g : τ → υ) (f : σ → τ) (x : Res σ) : g <$> (f <$> x) = (fun a => g (f a)) <$> x := by
  cases x <;> rfl

@[simp] theorem map_throw {σ τ : Type} (g : σ → τ) (e : Exc) : g <$> (.throw e : Res σ) = .throw e := rfl
@[simp] theorem map_ub {σ τ : Type} (g : σ → τ) : g <$> (.ub : Res σ) = .ub := rfl
@[simp] theorem map_abort {σ τ : Type} (g : σ → τ) : g <$> (.abort : Res σ) = .abort := rfl

theorem map_ofOption {σ τ : Type} (g : σ → τ) (x : Option σ) : g <$> ofOption x = ofOption (x.map g) := by
  cases x <;> rfl

theorem bind_congr' {σ τ : Type} {x y : Res σ} {f g : σ → Res τ} (h : x = y) (hf : ∀ a, f a = g a) : x >>= f = y >>= g := by
  subst h
  cases x <;> first | rfl | exact hf _

end Res

open Res

/-! ## Loops -/

section
variable {σ τ : Type}

theorem loop_map (g : σ → τ) (last : Iter) (body : σ → Iter → Res σ) (body' : τ → Iter → Res τ)
    (h : ∀ s it, body' (g s) it = g <$> body s it) (n : Nat) (it : Iter) (s : σ) :
    Iter.loop last body' n it (g s) = g <$> Iter.loop last body n it s := by
  induction n generalizing it s with
  | zero => unfold Iter.loop; split <;> rfl
  | succ n ih =>
    unfold Iter.loop
    split
    · rfl
    · rw [h, bind_res_map, map_res_bind]
      exact bind_congr' rfl fun a => ih _ _

theorem copyLoop_map (g : σ → τ) (body : σ → Iter → Res σ) (body' : τ → Iter → Res τ)
    (h : ∀ s it, body' (g s) it = g <$> body s it) (n : Nat) (it : Iter) (s : σ) :
    copyLoop body' n it (g s) = g <$> copyLoop body n it s := by
  induction n generalizing it s with
  | zero => rfl
  | succ n ih =>
    unfold copyLoop
    rw [h, bind_res_map, map_res_bind]
    exact bind_congr' rfl fun a => ih _ _

theorem forRange_map (g : σ → τ) (d : Dim3) {body : σ → Iter → Res σ} {body' : τ → Iter → Res τ}
    (h : ∀ s it, body' (g s) it = g <$> body s it) (s : σ) : forRange d body' (g s) = g <$> forRange d body s :=
  loop_map g _ _ _ h _ _ _

theorem forRangeView_map (g : σ → τ) (d : Dim3) {body : σ → Iter → Res σ} {body' : τ → Iter → Res τ}
    (h : ∀ s it, body' (g s) it = g <$> body s it) (s : σ) : forRangeView d body' (g s) = g <$> forRangeView d body s :=
  loop_map g _ _ _ h _ _ _

theorem copyRange_map (g : σ → τ) (d : Dim3) (last : Iter) {body : σ → Iter → Res σ} {body' : τ → Iter → Res τ}
    (h : ∀ s it, body' (g s) it = g <$> body s it) (s : σ) : copyRange d last body' (g s) = g <$> copyRange d last body s :=
  copyLoop_map g _ _ h _ _ _

theorem foldlM_map {ρ : Type} (g : σ → τ) (l : List ρ) {body : σ → ρ → Res σ} {body' : τ → ρ → Res τ}
    (h : ∀ s a, body' (g s) a = g <$> body s a) (s : σ) : l.foldlM body' (g s) = g <$> l.foldlM body s := by
  induction l generalizing s with
  | nil => rfl
  | cons a l ih =>
    rw [List.foldlM_cons, List.foldlM_cons, h, bind_res_map, map_res_bind]
    exact bind_congr' rfl fun a => ih _

end

/-! ## Matrices -/

namespace Matrix

@[simp] theorem map_dim (φ : α → β) (M : Matrix α) : (M.map φ).dim = M.dim := rfl
@[simp] theorem map_vals (φ : α → β) (M : Matrix α) : (M.map φ).vals = M.vals.map φ := rfl
@[simp] theorem map_empty (φ : α → β) : (Matrix.empty : Matrix α).map φ = Matrix.empty := rfl

theorem flat_map (φ : α → β) (M : Matrix α) (n : Nat) : (M.map φ).flat n = φ <$> M.flat n := by
  rw [flat, flat, map_ofOption, map_vals, List.getElem?_map]

theorem mem_of_flat {M : Matrix α} {n : Nat} {a : α} (h : M.flat n = .ok a) : a ∈ M.vals := by
  unfold flat at h
  cases e : M.vals[n]? with
  | none => rw [e] at h; cases h
  | some b => rw [e] at h; cases h; exact List.mem_of_getElem? e

theorem mem_of_read {M : Matrix α} {i : Dim3} {a : α} (h : M.read i = .ok a) : a ∈ M.vals := mem_of_flat h

theorem setFlat_map (φ : α → β) (M : Matrix α) (n : Nat) (v : α) : (M.map φ).setFlat n (φ v) = Matrix.map φ <$> M.setFlat n v := by
  unfold setFlat
  rw [map_vals, List.length_map]
  split
  · simp [Matrix.map, List.map_set]
  · rfl

theorem read_map (φ : α → β) (M : Matrix α) (i : Dim3) : (M.map φ).read i = φ <$> M.read i := flat_map φ M _

theorem write_map (φ : α → β) (M : Matrix α) (i : Dim3) (v : α) : (M.map φ).write i (φ v) = Matrix.map φ <$> M.write i v :=
  setFlat_map φ M _ v

theorem ofDim_map (φ : α → β) (d : Dim3) (v : α) : Matrix.ofDim d (φ v) = Matrix.map φ <$> Matrix.ofDim d v := by
  unfold ofDim
  rw [map_res_bind]
  exact bind_congr' rfl fun n => by simp [Matrix.map]

theorem vecResize_map (φ : α → β) (l : List α) (n : Nat) (v : α) : vecResize (l.map φ) n (φ v) = (vecResize l n v).map φ := by
  simp [vecResize, List.map_take]

theorem resize_map (φ : α → β) (M : Matrix α) (d : Dim3) (v : α) : (M.map φ).resize d (φ v) = Matrix.map φ <$> M.resize d v := by
  unfold resize
  rw [map_res_bind]
  exact bind_congr' rfl fun n => by simp [Matrix.map, vecResize_map]

theorem reshape_map (φ : α → β) (M : Matrix α) (d : Dim3) : (M.map φ).reshape d = Matrix.map φ <$> M.reshape d := by
  unfold reshape
  simp only [map_res_bind, map_dim]
  refine bind_congr' rfl fun a => bind_congr' rfl fun b => ?_
  split <;> rfl

end Matrix

/-! ## Expressions -/

/-- The expression with every entry mapped. -/
def MExpr.map (φ : α → β) (e : MExpr α) : MExpr β := ⟨e.dim, fun i => φ <$> e.get i, fun it => φ <$> e.deref it⟩

namespace MExpr

@[simp] theorem map_dim (φ : α → β) (e : MExpr α) : (e.map φ).dim = e.dim := rfl
@[simp] theorem map_get (φ : α → β) (e : MExpr α) (i : Dim3) : (e.map φ).get i = φ <$> e.get i := rfl
@[simp] theorem map_deref (φ : α → β) (e : MExpr α) (it : Iter) : (e.map φ).deref it = φ <$> e.deref it := rfl

theorem _root_.Cnn.Matrix.expr_map (φ : α → β) (M : Matrix α) : (M.map φ).expr = M.expr.map φ := by
  unfold Matrix.expr MExpr.map
  congr 1
  · funext i; exact Matrix.read_map φ M i
  · funext it; exact Matrix.flat_map φ M _

theorem _root_.Cnn.View.read_map (φ : α → β) (v : View) (M : Matrix α) (i : Dim3) : v.read (M.map φ) i = φ <$> v.read M i :=
  Matrix.read_map φ M _

theorem _root_.Cnn.View.write_map (φ : α → β) (v : View) (M : Matrix α) (i : Dim3) (a : α) :
    v.write (M.map φ) i (φ a) = Matrix.map φ <$> v.write M i a := Matrix.write_map φ M _ a

theorem _root_.Cnn.View.expr_map (φ : α → β) (v : View) (M : Matrix α) : v.expr (M.map φ) = (v.expr M).map φ := by
  unfold View.expr MExpr.map
  congr 1
  · funext i; exact v.read_map φ M i
  · funext it; exact v.read_map φ M _

theorem un_map {α' γ' : Type} (φ : α → α') (ψ : γ → γ') (op : α → γ) (op' : α' → γ') (A : MExpr α)
    (h : ∀ i a, A.get i = .ok a → op' (φ a) = ψ (op a)) : un op' (A.map φ) = (un op A).map ψ := by
  have e : ∀ i, (do let a ← φ <$> A.get i; Res.ok (op' a)) = ψ <$> (do let a ← A.get i; Res.ok (op a)) := by
    intro i
    rw [bind_res_map, map_res_bind]
    cases ha : A.get i with
    | ok a => rw [bind_ok, bind_ok, h i a ha]; rfl
    | _ => rfl
  unfold un MExpr.map
  congr 1
  · funext i; exact e i
  · funext i; exact e _

theorem scal_map {α' γ' : Type} (φ : α → α') (ψ : γ → γ') (op : α → γ) (op' : α' → γ') (A : MExpr α)
    (h : ∀ i a, A.get i = .ok a → op' (φ a) = ψ (op a)) : scal op' (A.map φ) = (scal op A).map ψ := un_map φ ψ op op' A h

theorem bin_map {α' γ' δ δ' : Type} (φ : α → α') (χ : δ → δ') (ψ : γ → γ') (op : α → δ → γ) (op' : α' → δ' → γ')
    (h : ∀ a b, op' (φ a) (χ b) = ψ (op a b)) (A : MExpr α) (B : MExpr δ) :
    bin op' (A.map φ) (B.map χ) = MExpr.map ψ <$> bin op A B := by
  have e : ∀ i, (do let a ← φ <$> A.get i; let b ← χ <$> B.get i; Res.ok (op' a b)) =
      ψ <$> (do let a ← A.get i; let b ← B.get i; Res.ok (op a b)) := by
    intro i
    rw [bind_res_map, map_res_bind]
    refine bind_congr' rfl fun a => ?_
    rw [bind_res_map, map_res_bind]
    exact bind_congr' rfl fun b => by rw [h]; rfl
  unfold bin
  rw [map_res_bind]
  refine bind_congr' rfl fun _ => ?_
  unfold MExpr.map
  rw [map_ok]
  congr 2
  · funext i; exact e i
  · funext i; exact e _

theorem transpose_map (φ : α → β) (A : MExpr α) : transpose (A.map φ) = (transpose A).map φ := rfl

theorem rotate_map (φ : α → β) (n : Nat) (A : MExpr α) : rotate n (A.map φ) = MExpr.map φ <$> rotate n A := by
  unfold rotate
  rw [map_dim]
  split <;> rfl

end MExpr

/-- `φ` respects what a sum of products needs. -/
structure SumHom [Zero α] [Add α] [Mul α] [Zero β] [Add β] [Mul β] (φ : α → β) : Prop where
  zero : φ 0 = 0
  add : ∀ a b, φ (a + b) = φ a + φ b
  mul : ∀ a b, φ (a * b) = φ a * φ b

namespace MExpr
section
variable [Zero α] [Add α] [Mul α] [Zero β] [Add β] [Mul β] {φ : α → β}

theorem mulEntry_map (h : SumHom φ) (A B : MExpr α) (idx : Dim3) : mulEntry (A.map φ) (B.map φ) idx = φ <$> mulEntry A B idx := by
  unfold mulEntry
  rw [map_dim, ← h.zero]
  refine foldlM_map φ _ (fun s i => ?_) 0
  rw [map_get, map_get, bind_res_map, map_res_bind]
  refine bind_congr' rfl fun a => ?_
  rw [bind_res_map, map_res_bind]
  exact bind_congr' rfl fun b => by rw [← h.mul, ← h.add]; rfl

theorem matMulP_map (h : SumHom φ) (p q : Pass) (A B : MExpr α) : matMulP p q (A.map φ) (B.map φ) = MExpr.map φ <$> matMulP p q A B := by
  unfold matMulP
  rw [map_dim, map_dim]
  split
  · rfl
  · rw [map_ok]
    unfold MExpr.map
    congr 2
    · funext i; exact mulEntry_map h A B i
    · funext i; exact mulEntry_map h A B _

theorem matMul_map (h : SumHom φ) (A B : MExpr α) : matMul (A.map φ) (B.map φ) = MExpr.map φ <$> matMul A B := matMulP_map h _ _ A B

theorem convEntry_map (h : SumHom φ) (A B : MExpr α) (st : Dim2) (idx : Dim3) : convEntry (A.map φ) (B.map φ) st idx = φ <$> convEntry A B st idx := by
  unfold convEntry
  rw [map_dim, ← h.zero]
  refine foldlM_map φ _ (fun s x => ?_) 0
  refine foldlM_map φ _ (fun s y => ?_) s
  rw [map_get, map_get, bind_res_map, map_res_bind]
  refine bind_congr' rfl fun a => ?_
  rw [bind_res_map, map_res_bind]
  exact bind_congr' rfl fun b => by rw [← h.mul, ← h.add]; rfl

theorem convolve_map (h : SumHom φ) (A B : MExpr α) (st : Dim2) : convolve (A.map φ) (B.map φ) st = MExpr.map φ <$> convolve A B st := by
  unfold convolve
  rw [map_dim, map_dim]
  split
  · rw [map_ok]
    unfold MExpr.map
    congr 2
    · funext i; exact convEntry_map h A B st i
    · funext i; exact convEntry_map h A B st _
  · rfl

theorem sum_map (h : SumHom φ) (A : MExpr α) : (A.map φ).sum = φ <$> A.sum := by
  unfold sum
  rw [map_dim, ← h.zero]
  refine forRange_map φ _ (fun s it => ?_) 0
  rw [map_deref, bind_res_map, map_res_bind]
  exact bind_congr' rfl fun a => by rw [← h.add]; rfl

end

/-- The comparisons of entries come out the same. -/
theorem bestElem_map {φ : α → β} {better : α → α → Bool} {better' : β → β → Bool} {A : MExpr α}
    (h : ∀ it it' a b, A.deref it = .ok a → A.deref it' = .ok b → better' (φ a) (φ b) = better a b) :
    bestElem better' (A.map φ) = bestElem better A := by
  have key : ∀ (last : Iter) (n : Nat) (it s : Iter),
      Iter.loop last (fun (result : Iter) it => do
        let a ← (A.map φ).deref result
        let b ← (A.map φ).deref it
        .ok (if better' a b then it else result)) n it s =
      Iter.loop last (fun (result : Iter) it => do
        let a ← A.deref result
        let b ← A.deref it
        .ok (if better a b then it else result)) n it s := by
    intro last n it s
    have := loop_map (id : Iter → Iter) last (fun (result : Iter) it => do
        let a ← A.deref result
        let b ← A.deref it
        .ok (if better a b then it else result)) (fun (result : Iter) it => do
        let a ← (A.map φ).deref result
        let b ← (A.map φ).deref it
        .ok (if better' a b then it else result)) (fun s it => by
          simp only [map_deref, id]
          rw [bind_res_map, map_res_bind]
          cases ha : A.deref s with
          | ok a =>
            rw [bind_ok, bind_ok, bind_res_map, map_res_bind]
            cases hb : A.deref it with
            | ok b => rw [bind_ok, bind_ok, h _ _ _ _ ha hb]; rfl
            | _ => rfl
          | _ => rfl) n it s
    rw [show (id s : Iter) = s from rfl] at this
    rw [this]
    exact id_map _
  unfold bestElem
  rw [map_dim]
  split
  · rfl
  · exact key _ _ _ _

end MExpr

/-! ## Construction, assignment -/

namespace Matrix

theorem ofExpr_map [Zero α] [Zero β] [Zero γ] {δ : Type} (φ : δ → γ) (ψ : α → β) (h0 : ψ 0 = 0) (cast : δ → α) (cast' : γ → β)
    (h : ∀ a, cast' (φ a) = ψ (cast a)) (e : MExpr δ) : Matrix.ofExpr cast' (e.map φ) = Matrix.map ψ <$> Matrix.ofExpr cast e := by
  unfold ofExpr
  rw [map_res_bind, MExpr.map_dim]
  refine bind_congr' rfl fun n => ?_
  rw [show (⟨e.dim, List.replicate n 0⟩ : Matrix β) = Matrix.map ψ ⟨e.dim, List.replicate n 0⟩ by simp [Matrix.map, h0]]
  refine forRange_map _ _ (fun s it => ?_) _
  rw [MExpr.map_deref, bind_res_map, map_res_bind]
  exact bind_congr' rfl fun a => by rw [h]; exact setFlat_map ψ _ _ _

theorem ofExpr_id_map [Zero α] [Zero β] (φ : α → β) (h0 : φ 0 = 0) (e : MExpr α) :
    Matrix.ofExpr id (e.map φ) = Matrix.map φ <$> Matrix.ofExpr id e := ofExpr_map φ φ h0 id id (fun _ => rfl) e

theorem assignExpr_map [Zero α] [Zero β] (φ : α → β) (h0 : φ 0 = 0) (M : Matrix α) (d : Dim3) (f : Matrix α → Iter → Res α)
    (f' : Matrix β → Iter → Res β) (h : ∀ M it, f' (M.map φ) it = φ <$> f M it) :
    (M.map φ).assignExpr d f' = Matrix.map φ <$> M.assignExpr d f := by
  unfold assignExpr
  rw [map_res_bind]
  refine bind_congr' rfl fun n => ?_
  rw [show (⟨d, vecResize (M.map φ).vals n 0⟩ : Matrix β) = Matrix.map φ ⟨d, vecResize M.vals n 0⟩ by
    rw [map_vals, ← h0, vecResize_map]; rfl]
  refine copyRange_map _ _ _ (fun s it => ?_) _
  rw [h, bind_res_map, map_res_bind]
  exact bind_congr' rfl fun a => setFlat_map φ _ _ _

theorem opAssign_map {δ δ' : Type} (φ : α → β) (ψ : δ → δ') (op : α → δ → α) (op' : β → δ' → β)
    (hop : ∀ a b, op' (φ a) (ψ b) = φ (op a b)) (M : Matrix α) (d : Dim3) (f : Matrix α → Dim3 → Res δ) (f' : Matrix β → Dim3 → Res δ')
    (h : ∀ M i, f' (M.map φ) i = ψ <$> f M i) : (M.map φ).opAssign op' d f' = Matrix.map φ <$> M.opAssign op d f := by
  unfold opAssign
  rw [map_res_bind, map_dim]
  refine bind_congr' rfl fun _ => ?_
  refine forRange_map _ _ (fun s it => ?_) _
  rw [h, bind_res_map, map_res_bind]
  refine bind_congr' rfl fun b => ?_
  rw [flat_map, bind_res_map, map_res_bind]
  exact bind_congr' rfl fun a => by rw [hop]; exact setFlat_map φ _ _ _

/-- The operator need only be respected for the scalars that occur. -/
theorem opScalar_map {δ δ' : Type} (φ : α → β) (ψ : δ → δ') (op : α → δ → α) (op' : β → δ' → β) (M : Matrix α) (f : Matrix α → Res δ)
    (f' : Matrix β → Res δ') (h : ∀ M, f' (M.map φ) = ψ <$> f M) (hop : ∀ M a b, f M = .ok b → op' (φ a) (ψ b) = φ (op a b)) :
    (M.map φ).opScalar op' f' = Matrix.map φ <$> M.opScalar op f := by
  unfold opScalar
  rw [map_dim]
  refine forRange_map _ _ (fun s it => ?_) _
  rw [flat_map, bind_res_map, map_res_bind]
  refine bind_congr' rfl fun a => ?_
  rw [h, bind_res_map, map_res_bind]
  cases hb : f s with
  | ok b => rw [bind_ok, bind_ok, hop s a b hb]; exact setFlat_map φ _ _ _
  | _ => rfl

end Matrix

namespace View

theorem assign_map (φ : α → β) (v : View) (M : Matrix α) (d : Dim3) (last : Iter) (f : Matrix α → Iter → Res α)
    (f' : Matrix β → Iter → Res β) (h : ∀ M it, f' (M.map φ) it = φ <$> f M it) :
    v.assign (M.map φ) d last f' = Matrix.map φ <$> v.assign M d last f := by
  unfold assign
  rw [map_res_bind]
  refine bind_congr' rfl fun _ => ?_
  refine copyRange_map _ _ _ (fun s it => ?_) _
  rw [h, bind_res_map, map_res_bind]
  exact bind_congr' rfl fun a => v.write_map φ _ _ _

theorem opAssign_map {δ δ' : Type} (φ : α → β) (ψ : δ → δ') (op : α → δ → α) (op' : β → δ' → β)
    (hop : ∀ a b, op' (φ a) (ψ b) = φ (op a b)) (v : View) (M : Matrix α) (d : Dim3) (f : Matrix α → Dim3 → Res δ)
    (f' : Matrix β → Dim3 → Res δ') (h : ∀ M i, f' (M.map φ) i = ψ <$> f M i) :
    v.opAssign op' (M.map φ) d f' = Matrix.map φ <$> v.opAssign op M d f := by
  unfold opAssign
  rw [map_res_bind]
  refine bind_congr' rfl fun _ => ?_
  refine forRangeView_map _ _ (fun s it => ?_) _
  rw [h, bind_res_map, map_res_bind]
  refine bind_congr' rfl fun b => ?_
  rw [v.read_map, bind_res_map, map_res_bind]
  exact bind_congr' rfl fun a => by rw [hop]; exact v.write_map φ _ _ _

theorem opScalar_map {δ δ' : Type} (φ : α → β) (ψ : δ → δ') (op : α → δ → α) (op' : β → δ' → β) (v : View) (M : Matrix α)
    (f : Matrix α → Res δ) (f' : Matrix β → Res δ') (h : ∀ M, f' (M.map φ) = ψ <$> f M)
    (hop : ∀ a b, op' (φ a) (ψ b) = φ (op a b)) : v.opScalar op' (M.map φ) f' = Matrix.map φ <$> v.opScalar op M f := by
  unfold opScalar
  refine forRangeView_map _ _ (fun s it => ?_) _
  rw [v.read_map, bind_res_map, map_res_bind]
  refine bind_congr' rfl fun a => ?_
  rw [h, bind_res_map, map_res_bind]
  exact bind_congr' rfl fun b => by rw [hop]; exact v.write_map φ _ _ _

end View
end Cnn
