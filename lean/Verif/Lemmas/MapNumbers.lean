import Verif.Lemmas.MapLayers
/-!
# Layers commute with homomorphisms of arithmetics: divisions, functions, comparisons
-/
set_option linter.unusedSectionVars false
namespace Cnn
open Res
variable {α β : Type} [Zero α] [One α] [Add α] [Sub α] [Mul α] [Div α] [Neg α] [Zero β] [One β] [Add β] [Sub β] [Mul β] [Div β] [Neg β]

/-- `φ` respects all operations on ideal numbers; nothing is said of comparisons, `log2`, `eps`. -/
structure Hom (E : Env α) (val : α → ℝ) (E' : Env β) (φ : α → β) : Prop extends SumHom φ where
  ideal : Ideal E val
  one : φ 1 = 1
  neg : ∀ a, φ (-a) = -φ a
  sub : ∀ a b, φ (a - b) = φ a - φ b
  div : ∀ a b, val b ≠ 0 → φ (a / b) = φ a / φ b
  exp : ∀ a, φ (E.num.exp a) = E'.num.exp (φ a)
  tanh : ∀ a, φ (E.num.tanh a) = E'.num.tanh (φ a)
  sqrt : ∀ a, 0 < val a → φ (E.num.sqrt a) = E'.num.sqrt (φ a)
  ofNat : ∀ n, φ (E.num.ofNat n) = E'.num.ofNat n
  slopeF : φ E.num.slopeF = E'.num.slopeF
  slopeD : φ E.num.slopeD = E'.num.slopeD
  toFloat : ∀ a, φ (E.toFloat a) = E'.toFloat (φ a)
  draws : ∀ i n, φ (E.draws i n) = E'.draws i n
  order : E'.order = E.order

/-- The comparison of `a` and `b` comes out the same. -/
def Alike (E : Env α) (E' : Env β) (φ : α → β) (a b : α) : Prop := E'.num.lt (φ a) (φ b) = E.num.lt a b

variable {E : Env α} {val : α → ℝ} {E' : Env β} {φ : α → β}

/-! ## Activation -/

theorem Hom.sigmoid_map (h : Hom E val E' φ) (a : α) : ActFn.sigmoid.eval E'.num (φ a) = φ (ActFn.sigmoid.eval E.num a) := by
  show 1 / (1 + E'.num.exp (-φ a)) = φ (1 / (1 + E.num.exp (-a)))
  rw [h.div, h.one, h.add, h.one, h.exp, h.neg]
  rw [h.ideal.add, h.ideal.one, h.ideal.exp]
  have := Real.exp_pos (val (-a))
  linarith

theorem Hom.eval_map (h : Hom E val E' φ) (f : ActFn) (a : α) (h0 : f = .relu → Alike E E' φ 0 a)
    (h1 : f = .leaky → Alike E E' φ (E.num.slopeF * a) a) : f.eval E'.num (φ a) = φ (f.eval E.num a) := by
  cases f with
  | relu =>
    show (if E'.num.lt 0 (φ a) then φ a else 0) = φ (if E.num.lt 0 a then a else 0)
    rw [← h.zero, h0 rfl]
    split <;> rfl
  | sigmoid => exact h.sigmoid_map a
  | linear => rfl
  | tangent => exact (h.tanh a).symm
  | leaky =>
    show (if E'.num.lt (E'.num.slopeF * φ a) (φ a) then φ a else E'.num.slopeF * φ a) =
      φ (if E.num.lt (E.num.slopeF * a) a then a else E.num.slopeF * a)
    rw [← h.slopeF, ← h.mul, h1 rfl]
    split <;> rfl

theorem Hom.grad_map (h : Hom E val E' φ) (f : ActFn) (a : α) (h0 : f = .relu ∨ f = .leaky → Alike E E' φ 0 a) :
    f.grad E'.num (φ a) = φ (f.grad E.num a) := by
  cases f with
  | relu =>
    show (if E'.num.lt 0 (φ a) then 1 else 0) = φ (if E.num.lt 0 a then 1 else 0)
    rw [← h.zero, h0 (Or.inl rfl), ← h.one]
    split <;> rfl
  | sigmoid =>
    show ActFn.sigmoid.eval E'.num (φ a) * (1 - ActFn.sigmoid.eval E'.num (φ a)) =
      φ (ActFn.sigmoid.eval E.num a * (1 - ActFn.sigmoid.eval E.num a))
    rw [h.sigmoid_map, h.mul, h.sub, h.one]
  | linear => exact h.one.symm
  | tangent =>
    show 1 - E'.num.tanh (φ a) * E'.num.tanh (φ a) = φ (1 - E.num.tanh a * E.num.tanh a)
    rw [h.sub, h.mul, h.one, h.tanh]
  | leaky =>
    show (if E'.num.lt 0 (φ a) then 1 else E'.num.slopeD) = φ (if E.num.lt 0 a then 1 else E.num.slopeD)
    rw [← h.zero, h0 (Or.inr rfl), ← h.one, ← h.slopeD]
    split <;> rfl

namespace Activation

theorem forward_map (h : Hom E val E' φ) (A : Activation) (X : Matrix α) (ha : ∀ a ∈ X.vals, A.fn.eval E'.num (φ a) = φ (A.fn.eval E.num a)) :
    A.forward E'.num (X.map φ) = Matrix.map φ <$> A.forward E.num X := by
  unfold forward
  rw [Matrix.expr_map, MExpr.un_map φ φ (A.fn.eval E.num) _ _ (fun i a e => ha a (Matrix.mem_of_read e))]
  exact Matrix.ofExpr_id_map φ h.zero _

theorem backward_map (h : Hom E val E' φ) (A : Activation) (X Z D : Matrix α)
    (ha : ∀ a ∈ Z.vals, A.gradFn.grad E'.num (φ a) = φ (A.gradFn.grad E.num a)) :
    A.backward E'.num (X.map φ) (Z.map φ) (D.map φ) = Matrix.map φ <$> A.backward E.num X Z D := by
  unfold backward gradient
  rw [Matrix.expr_map, MExpr.un_map φ φ (A.gradFn.grad E.num) _ _ (fun i a e => ha a (Matrix.mem_of_read e)),
    Matrix.ofExpr_id_map φ h.zero, bind_res_map, map_res_bind]
  refine bind_congr' rfl fun G => ?_
  rw [Matrix.expr_map, Matrix.expr_map, MExpr.bin_map φ φ φ _ _ (fun a b => (h.mul a b).symm), bind_res_map, map_res_bind]
  exact bind_congr' rfl fun e => Matrix.ofExpr_id_map φ h.zero e

end Activation

/-! ## Positive sums -/

section
variable {σ : Type}

theorem loop_keep {P : σ → Prop} {last : Iter} {body : σ → Iter → Res σ} (h : ∀ s it s', P s → body s it = .ok s' → P s') (n : Nat)
    (it : Iter) (s r : σ) (hs : P s) (hr : Iter.loop last body n it s = .ok r) : P r := by
  induction n generalizing it s with
  | zero =>
    unfold Iter.loop at hr
    split at hr
    · cases hr; exact hs
    · cases hr
  | succ n ih =>
    unfold Iter.loop at hr
    split at hr
    · cases hr; exact hs
    · cases e : body s it with
      | ok s' => rw [e, bind_ok] at hr; exact ih _ _ (h _ _ _ hs e) hr
      | _ => rw [e] at hr; cases hr

theorem forRange_keep {P : σ → Prop} {d : Dim3} {body : σ → Iter → Res σ} (h : ∀ s it s', P s → body s it = .ok s' → P s')
    {s r : σ} (hs : P s) (hr : forRange d body s = .ok r) : P r := loop_keep h _ _ _ _ hs hr

/-- The first step of a loop. -/
theorem forRange_first {P Q : σ → Prop} {d : Dim3} {body : σ → Iter → Res σ} (hz : 0 < d.z)
    (h1 : ∀ s s', P s → body s (Iter.beg d) = .ok s' → Q s') (h : ∀ s it s', Q s → body s it = .ok s' → Q s')
    {s r : σ} (hs : P s) (hr : forRange d body s = .ok r) : Q r := by
  unfold forRange at hr
  obtain ⟨n, hn⟩ : ∃ n, Iter.fuel d = n + 1 := by
    refine ⟨Iter.fuel d - 1, ?_⟩
    have : 0 < Iter.fuel d := by
      unfold Iter.fuel
      refine Nat.mul_pos (Nat.mul_pos ?_ ?_) ?_ <;> omega
    omega
  rw [hn] at hr
  unfold Iter.loop at hr
  rw [if_neg (by simp [Iter.same, Iter.beg, Iter.fin, Iter.mk']; omega)] at hr
  cases e : body s (Iter.beg d) with
  | ok s' => rw [e, bind_ok] at hr; exact loop_keep h _ _ _ _ (h1 _ _ hs e) hr
  | _ => rw [e] at hr; cases hr

theorem forRange_none {d : Dim3} {body : σ → Iter → Res σ} (hz : ¬ 0 < d.z) (body' : σ → Iter → Res σ) (s : σ) :
    forRange d body s = forRange d body' s := by
  have : Iter.fuel d = 0 := by
    unfold Iter.fuel
    rw [show d.z.toNat = 0 by omega, Nat.mul_zero]
  unfold forRange
  rw [this]
  rfl

end

theorem beg_scalar (d : Dim3) : (Iter.beg d).scalar = 0 := by simp [Iter.beg, Iter.mk']

theorem beg_idx (d : Dim3) : (Iter.beg d).idx = ⟨0, 0, 0⟩ := rfl

theorem Ideal.sum_pos (h : Ideal E val) (A : MExpr α) (hz : 0 < A.dim.z) (h0 : ∀ it a, A.deref it = .ok a → 0 ≤ val a)
    (h1 : ∀ a, A.deref (Iter.beg A.dim) = .ok a → 0 < val a) {s : α} (hs : A.sum = .ok s) : 0 < val s := by
  refine forRange_first (P := fun a => val a = 0) (Q := fun a => 0 < val a) hz (fun s s' hs e => ?_) (fun s it s' hs e => ?_) h.zero hs
  · cases ha : A.deref (Iter.beg A.dim) with
    | ok a => rw [ha, bind_ok] at e; cases e; rw [h.add, hs]; linarith [h1 a ha]
    | _ => rw [ha] at e; cases e
  · cases ha : A.deref it with
    | ok a => rw [ha, bind_ok] at e; cases e; rw [h.add]; linarith [h0 it a ha]
    | _ => rw [ha] at e; cases e

theorem setFlat_ok {σ : Type} {M M' : Matrix σ} {n : Nat} {v : σ} (h : M.setFlat n v = .ok M') :
    n < M.vals.length ∧ M' = ⟨M.dim, M.vals.set n v⟩ := by
  unfold Matrix.setFlat at h
  split at h
  · next hn => cases h; exact ⟨hn, rfl⟩
  · cases h

theorem flat_ok {σ : Type} {M : Matrix σ} {n : Nat} {a : σ} (h : M.flat n = .ok a) : M.vals[n]? = some a := by
  unfold Matrix.flat at h
  cases e : M.vals[n]? with
  | none => rw [e] at h; cases h
  | some b => rw [e] at h; cases h; rfl

/-- What a loop that writes entries with the property `P`, the first at index 0, makes of a matrix. -/
theorem written_first {P : α → Prop} {d : Dim3} (hz : 0 < d.z) {body : Matrix α → Iter → Res (Matrix α)}
    (hb : ∀ M it M', body M it = .ok M' → ∃ v, P v ∧ M.setFlat it.scalar v = .ok M') {M R : Matrix α} (hr : forRange d body M = .ok R) :
    (∀ a ∈ R.vals, a ∈ M.vals ∨ P a) ∧ (∀ a, R.vals[0]? = some a → P a) ∧ R.dim = M.dim := by
  have h0 : ∀ (S : Matrix α) it S', ((∀ a ∈ S.vals, a ∈ M.vals ∨ P a) ∧ S.dim = M.dim) → body S it = .ok S' →
      (∀ a ∈ S'.vals, a ∈ M.vals ∨ P a) ∧ S'.dim = M.dim := by
    intro S it S' hS e
    obtain ⟨v, hv, e⟩ := hb _ _ _ e
    obtain ⟨_, rfl⟩ := setFlat_ok e
    refine ⟨fun a ha => ?_, hS.2⟩
    rcases List.mem_or_eq_of_mem_set ha with ha | rfl
    · exact hS.1 a ha
    · exact Or.inr hv
  have key := forRange_first (P := fun S : Matrix α => (∀ a ∈ S.vals, a ∈ M.vals ∨ P a) ∧ S.dim = M.dim)
    (Q := fun S : Matrix α => ((∀ a ∈ S.vals, a ∈ M.vals ∨ P a) ∧ S.dim = M.dim) ∧ ∀ a, S.vals[0]? = some a → P a) hz
    (fun S S' hS e => ⟨h0 _ _ _ hS e, ?_⟩) (fun S it S' hS e => ⟨h0 _ _ _ hS.1 e, ?_⟩) ⟨fun a ha => Or.inl ha, rfl⟩ hr
  · exact ⟨key.1.1, key.2, key.1.2⟩
  · obtain ⟨v, hv, e⟩ := hb _ _ _ e
    obtain ⟨hl, rfl⟩ := setFlat_ok e
    rw [beg_scalar] at hl ⊢
    intro a ha
    simp only [List.getElem?_set_self hl, Option.some.injEq] at ha
    exact ha ▸ hv
  · obtain ⟨v, hv, e⟩ := hb _ _ _ e
    obtain ⟨hl, rfl⟩ := setFlat_ok e
    intro a ha
    by_cases hi : it.scalar = 0
    · rw [hi] at hl
      simp only [hi, List.getElem?_set_self hl, Option.some.injEq] at ha
      exact ha ▸ hv
    · simp only [List.getElem?_set_ne hi] at ha
      exact hS.2 a ha

/-! ## Softmax -/

namespace Softmax

theorem softMax_map (h : Hom E val E' φ) (X : Matrix α) (hz : 0 < X.dim.z)
    (hm : MExpr.max E'.num.lt (X.map φ).expr = φ <$> MExpr.max E.num.lt X.expr) :
    softMax E'.num (X.map φ) = Matrix.map φ <$> softMax E.num X := by
  unfold softMax
  rw [hm, bind_res_map, map_res_bind]
  refine bind_congr' rfl fun m => ?_
  simp only
  rw [Matrix.expr_map, MExpr.scal_map φ φ (· - m) (· - φ m) _ (fun _ a _ => (h.sub a m).symm),
    MExpr.un_map φ φ E.num.exp _ _ (fun _ a _ => (h.exp a).symm), Matrix.ofExpr_id_map φ h.zero, bind_res_map, map_res_bind]
  cases he : Matrix.ofExpr id (MExpr.un E.num.exp (MExpr.scal (· - m) X.expr)) with
  | ok X' =>
    have hX : ∃ n, forRange X.dim (fun (M : Matrix α) it => do
        let v ← (MExpr.un E.num.exp (MExpr.scal (· - m) X.expr)).deref it
        M.setFlat it.scalar (id v)) ⟨X.dim, List.replicate n 0⟩ = .ok X' := by
      unfold Matrix.ofExpr at he
      cases hn : vecSize (MExpr.un E.num.exp (MExpr.scal (· - m) X.expr)).dim with
      | ok n => rw [hn, bind_ok] at he; exact ⟨n, he⟩
      | _ => rw [hn] at he; cases he
    obtain ⟨n, hX⟩ := hX
    obtain ⟨w1, w2, w3⟩ := written_first (P := fun a => 0 < val a) hz (fun M it M' e => by
      cases hd : (MExpr.un E.num.exp (MExpr.scal (· - m) X.expr)).deref it with
      | ok v =>
        rw [hd, bind_ok] at e
        refine ⟨v, ?_, e⟩
        cases hg : (MExpr.scal (· - m) X.expr).get it.idx with
        | ok u =>
          have : (MExpr.un E.num.exp (MExpr.scal (· - m) X.expr)).deref it = .ok (E.num.exp u) := by
            show (do let a ← (MExpr.scal (· - m) X.expr).get it.idx; Res.ok (E.num.exp a)) = _
            rw [hg]; rfl
          rw [this] at hd
          cases hd
          rw [h.ideal.exp]
          exact Real.exp_pos _
        | _ =>
          have : (MExpr.un E.num.exp (MExpr.scal (· - m) X.expr)).deref it = (do let a ← (MExpr.scal (· - m) X.expr).get it.idx; Res.ok (E.num.exp a)) := rfl
          rw [this, hg] at hd
          cases hd
      | _ => rw [hd] at e; cases e) hX
    rw [bind_ok, bind_ok, Matrix.expr_map, MExpr.sum_map h.toSumHom, bind_res_map, map_res_bind]
    cases hs : X'.expr.sum with
    | ok s =>
      have hp : 0 < val s := by
        refine h.ideal.sum_pos _ (show 0 < X'.dim.z by rw [w3]; exact hz) (fun it a ha => ?_) (fun a ha => ?_) hs
        · rcases w1 a (Matrix.mem_of_flat ha) with hm | hm
          · rw [List.eq_of_mem_replicate hm, h.ideal.zero]
          · exact hm.le
        · refine w2 a ?_
          have := flat_ok (show X'.flat (Iter.beg X'.dim).scalar = .ok a from ha)
          rwa [beg_scalar] at this
      rw [bind_ok, bind_ok, MExpr.scal_map φ φ (· / s) (· / φ s) _ (fun _ a _ => (h.div a s hp.ne').symm)]
      exact Matrix.ofExpr_id_map φ h.zero _
    | _ => rfl
  | _ => rfl

theorem forward_map (h : Hom E val E' φ) (S : Softmax) (X : Matrix α)
    (hm : MExpr.max E'.num.lt (X.map φ).expr = φ <$> MExpr.max E.num.lt X.expr) :
    S.forward E'.num (X.map φ) = Matrix.map φ <$> S.forward E.num X := by
  unfold forward
  rw [map_res_bind]
  rw [show S.checkSize (X.map φ) = S.checkSize X from rfl]
  cases hc : S.checkSize X with
  | ok b =>
    rw [bind_ok, bind_ok]
    cases b
    · rfl
    · refine softMax_map h X ?_ hm
      unfold checkSize at hc
      split at hc
      · next hr =>
        have : X.dim.z = 1 := by
          simp [Matrix.isColumnD, Matrix.isRowD, Matrix.isFlatD] at hr
          omega
        omega
      · cases hc
  | _ => rfl

theorem backward_map (h : Hom E val E' φ) (S : Softmax) (X Z D : Matrix α) :
    S.backward (X.map φ) (Z.map φ) (D.map φ) = Matrix.map φ <$> S.backward X Z D := by
  unfold backward getdLdX
  split
  · rfl
  · rw [Matrix.flat_map, bind_res_map, map_res_bind]
    refine bind_congr' rfl fun a => ?_
    rw [← h.one, ← h.sub]
    exact Matrix.setFlat_map φ _ _ _

end Softmax

/-! ## Pooling -/

/-- The windows of an average pooling are not empty. -/
def Pooling.Sane (P : Pooling) : Prop := P.type = .avg → 0 < P.dim.x ∧ 0 < P.dim.y ∧ P.dim.x * P.dim.y < 2147483648

namespace Pooling

theorem Sane.size {P : Pooling} (h : P.Sane) (ht : P.type = .avg) : u64 (P.dim.x * P.dim.y) ≠ 0 := by
  obtain ⟨h1, h2, h3⟩ := h ht
  have := Int.mul_pos h1 h2
  unfold u64
  omega

theorem Sane.mean {P : Pooling} (h : P.Sane) (ht : P.type = .avg) {n : Nat} (hn : Matrix.sizeD P.window = .ok n) : n ≠ 0 := by
  obtain ⟨h1, h2, h3⟩ := h ht
  have := Int.mul_pos h1 h2
  have hv : Matrix.sizeD P.window = .ok (u64 (P.dim.x * P.dim.y)) := by
    unfold Matrix.sizeD Dim3.volume window chk
    simp only [Int.mul_one]
    rw [if_pos (by unfold I32; omega), bind_ok, if_pos (by unfold I32; omega), bind_ok]
    rfl
  rw [hv] at hn
  cases hn
  exact h.size ht

theorem mean_map (h : Hom E val E' φ) (A : MExpr α) (hn : ∀ n, Matrix.sizeD A.dim = .ok n → n ≠ 0) :
    MExpr.mean E'.num.ofNat (A.map φ) = φ <$> MExpr.mean E.num.ofNat A := by
  unfold MExpr.mean
  rw [MExpr.sum_map h.toSumHom, bind_res_map, map_res_bind]
  refine bind_congr' rfl fun s => ?_
  rw [map_res_bind, MExpr.map_dim]
  cases hd : Matrix.sizeD A.dim with
  | ok n =>
    rw [bind_ok, bind_ok, map_ok, h.div, h.ofNat]
    rw [h.ideal.ofNat]
    exact_mod_cast hn n hd
  | _ => rfl

theorem forwardStep_map (h : Hom E val E' φ) (P : Pooling) (hP : P.Sane) (X : Matrix α)
    (hc : P.type ≠ .avg → ∀ a ∈ X.vals, ∀ b ∈ X.vals, Alike E E' φ a b) (s : Matrix α × Matrix Dim3) (it : Iter) :
    P.forwardStep E'.num (X.map φ) (mapFst φ id s) it = mapFst φ id <$> P.forwardStep E.num X s it := by
  unfold forwardStep
  simp only [map_res_bind]
  refine bind_congr' rfl fun c => ?_
  rw [Matrix.map_dim]
  cases hv : View.create X.dim c P.window with
  | ok v =>
    rw [bind_ok, bind_ok]
    cases ht : P.type with
    | min =>
      simp only
      have hb : MExpr.minIndex E'.num.lt (v.expr (X.map φ)) = MExpr.minIndex E.num.lt (v.expr X) := by
        unfold MExpr.minIndex
        rw [View.expr_map, MExpr.bestElem_map (better := fun a b => E.num.lt b a)]
        intro it it' a b ha hb
        exact hc (by rw [ht]; decide) b (Matrix.mem_of_read hb) a (Matrix.mem_of_read ha)
      rw [hb, map_res_bind]
      refine bind_congr' rfl fun m => ?_
      rw [map_res_bind]
      refine bind_congr' rfl fun ind => ?_
      rw [map_res_bind, Matrix.read_map, bind_res_map]
      refine bind_congr' rfl fun a => ?_
      rw [map_res_bind, Matrix.write_map, bind_res_map]
      exact bind_congr' rfl fun out => rfl
    | max =>
      simp only
      have hb : MExpr.maxIndex E'.num.lt (v.expr (X.map φ)) = MExpr.maxIndex E.num.lt (v.expr X) := by
        unfold MExpr.maxIndex
        rw [View.expr_map, MExpr.bestElem_map (better := fun a b => E.num.lt a b)]
        intro it it' a b ha hb
        exact hc (by rw [ht]; decide) a (Matrix.mem_of_read ha) b (Matrix.mem_of_read hb)
      rw [hb, map_res_bind]
      refine bind_congr' rfl fun m => ?_
      rw [map_res_bind]
      refine bind_congr' rfl fun ind => ?_
      rw [map_res_bind, Matrix.read_map, bind_res_map]
      refine bind_congr' rfl fun a => ?_
      rw [map_res_bind, Matrix.write_map, bind_res_map]
      exact bind_congr' rfl fun out => rfl
    | avg =>
      simp only
      have hvd : v.dim = P.window := by
        unfold View.create at hv
        cases he : View.endOf c P.window with
        | ok e =>
          rw [he, bind_ok] at hv
          split at hv
          · cases hv
          · cases hv; rfl
        | _ => rw [he] at hv; cases hv
      rw [View.expr_map, mean_map h _ (fun n hn => hP.mean ht (hvd ▸ hn)), bind_res_map, map_res_bind]
      refine bind_congr' rfl fun a => ?_
      rw [map_res_bind, Matrix.write_map, bind_res_map]
      exact bind_congr' rfl fun out => rfl
  | _ => rfl

theorem forward_map (h : Hom E val E' φ) (P : Pooling) (hP : P.Sane) (X : Matrix α)
    (hc : P.type ≠ .avg → ∀ a ∈ X.vals, ∀ b ∈ X.vals, Alike E E' φ a b) (b : Nat) :
    P.forward E'.num (X.map φ) b = mapFst φ id <$> P.forward E.num X b := by
  unfold forward
  simp only [map_res_bind]
  refine bind_congr' rfl fun od => ?_
  rw [← h.zero, Matrix.ofDim_map, bind_res_map]
  refine bind_congr' rfl fun out => bind_congr' rfl fun ind => bind_congr' rfl fun ind => ?_
  have := forRange_map (mapFst φ (id : Matrix Dim3 → Matrix Dim3)) od (fun s it => forwardStep_map h P hP X hc s it) (out, ind)
  rw [show ((out.map φ, ind) : Matrix β × Matrix Dim3) = mapFst φ id (out, ind) from rfl, this, bind_res_map]
  exact bind_congr' rfl fun r => rfl

theorem getdLdX_map (h : Hom E val E' φ) (P : Pooling) (hP : P.Sane) (X D : Matrix α) (b : Nat) :
    P.getdLdX E'.num (X.map φ) (D.map φ) b = Matrix.map φ <$> P.getdLdX E.num X D b := by
  have sel : ∀ (ind : Matrix Dim3) (G : Matrix α), forRange ind.dim (fun (D' : Matrix β) it => do
      let p ← ind.flat it.scalar
      let g ← (D.map φ).read it.idx
      let a ← D'.read p
      D'.write p (a + g)) (G.map φ) = Matrix.map φ <$> forRange ind.dim (fun (D' : Matrix α) it => do
      let p ← ind.flat it.scalar
      let g ← D.read it.idx
      let a ← D'.read p
      D'.write p (a + g)) G := by
    intro ind G
    refine forRange_map (Matrix.map φ) _ (fun s it => ?_) G
    rw [map_res_bind]
    refine bind_congr' rfl fun p => ?_
    rw [map_res_bind, Matrix.read_map, bind_res_map]
    refine bind_congr' rfl fun g => ?_
    rw [map_res_bind, Matrix.read_map, bind_res_map]
    exact bind_congr' rfl fun a => by rw [← h.add]; exact Matrix.write_map φ _ _ _
  unfold getdLdX
  rw [map_res_bind, ← h.zero, Matrix.map_dim, Matrix.ofDim_map, bind_res_map]
  refine bind_congr' rfl fun G => ?_
  rw [map_res_bind]
  refine bind_congr' rfl fun ind => ?_
  cases ht : P.type with
  | min => exact sel ind G
  | max => exact sel ind G
  | avg =>
    refine forRange_map (Matrix.map φ) _ (fun s it => ?_) G
    simp only [map_res_bind]
    refine bind_congr' rfl fun c => ?_
    rw [Matrix.map_dim]
    refine bind_congr' rfl fun v => ?_
    rw [Matrix.flat_map, bind_res_map]
    refine bind_congr' rfl fun g => ?_
    refine View.opScalar_map φ φ _ _ _ _ _ _ (fun M' => ?_) (fun a b => (h.add a b).symm)
    rw [map_ok, h.div, h.ofNat]
    rw [h.ideal.ofNat]
    exact_mod_cast hP.size ht

theorem backward_map (h : Hom E val E' φ) (P : Pooling) (hP : P.Sane) (X Z D : Matrix α) (b : Nat) :
    P.backward E'.num (X.map φ) (Z.map φ) (D.map φ) b = Matrix.map φ <$> P.backward E.num X Z D b := getdLdX_map h P hP X D b

end Pooling

/-! ## First use and updates -/

theorem fillDraws_map (M : Matrix α) (draws : Nat → α) (off : Nat) :
    (M.map φ).fillDraws (fun n => φ (draws n)) off = Matrix.map φ <$> M.fillDraws draws off := by
  unfold Matrix.fillDraws
  exact forRange_map (Matrix.map φ) _ (fun s it => Matrix.setFlat_map φ _ _ _) M

theorem fillDraws_first {M R : Matrix α} {draws : Nat → α} {off : Nat} (hd : ∀ n, val (draws n) ≠ 0) (hz : 0 < M.dim.z)
    (h : M.fillDraws draws off = .ok R) : ∀ a, R.vals[0]? = some a → val a ≠ 0 :=
  (written_first (P := fun a => val a ≠ 0) hz (fun _ _ _ e => ⟨_, hd _, e⟩) h).2.1

theorem fillDraws_dim {M R : Matrix α} {draws : Nat → α} {off : Nat} (h : M.fillDraws draws off = .ok R) : R.dim = M.dim := by
  refine forRange_keep (P := fun S : Matrix α => S.dim = M.dim) (fun S it S' hS e => ?_) rfl h
  obtain ⟨_, rfl⟩ := setFlat_ok e
  exact hS

theorem normalise_map (h : Hom E val E' φ) (M : Matrix α) (h1 : 0 < M.dim.z → ∀ a, M.vals[0]? = some a → val a ≠ 0) :
    (M.map φ).normalise E'.num = Matrix.map φ <$> M.normalise E.num := by
  have hop : ∀ n m, val n ≠ 0 → m = φ n → (M.map φ).opScalar (· / ·) (fun _ => .ok m) = Matrix.map φ <$> M.opScalar (· / ·) (fun _ => .ok n) := by
    rintro n m hn rfl
    exact Matrix.opScalar_map φ φ _ _ M _ _ (fun _ => rfl) (fun _ a b e => by cases e; exact (h.div a n hn).symm)
  unfold Matrix.normalise MExpr.l2Norm
  rw [Matrix.expr_map, MExpr.bin_map φ φ φ _ _ (fun a b => (h.mul a b).symm)]
  simp only [map_res_bind, bind_res_map, bind_assoc]
  cases hb : MExpr.bin (· * ·) M.expr M.expr with
  | ok AA =>
    rw [bind_ok, bind_ok, MExpr.sum_map h.toSumHom, bind_res_map]
    cases hs : AA.sum with
    | ok s =>
      rw [bind_ok, bind_ok, bind_ok, bind_ok]
      by_cases hz : 0 < M.dim.z
      · have hAA : AA = { dim := M.dim, get := fun i => do let a ← M.read i; let b ← M.read i; .ok (a * b) } := by
          unfold MExpr.bin at hb
          rw [show M.expr.dim = M.dim from rfl, Matrix.checkSize, if_neg (by simp), bind_ok] at hb
          cases hb
          rfl
        have hp : 0 < val s := by
          refine h.ideal.sum_pos AA (by rw [hAA]; exact hz) (fun it a ha => ?_) (fun a ha => ?_) hs
          · rw [hAA] at ha
            replace ha : (do let a ← M.read it.idx; let b ← M.read it.idx; Res.ok (a * b)) = .ok a := ha
            cases hr : M.read it.idx with
            | ok b => rw [hr, bind_ok, bind_ok] at ha; cases ha; rw [h.ideal.mul]; exact mul_self_nonneg _
            | _ => rw [hr] at ha; cases ha
          · rw [hAA] at ha
            replace ha : (do let a ← M.read ⟨0, 0, 0⟩; let b ← M.read ⟨0, 0, 0⟩; Res.ok (a * b)) = .ok a := ha
            cases hr : M.read ⟨0, 0, 0⟩ with
            | ok b =>
              rw [hr, bind_ok, bind_ok] at ha
              cases ha
              rw [h.ideal.mul]
              have hb := h1 hz b (by
                have := flat_ok (show M.flat (getIndex M.dim ⟨0, 0, 0⟩) = .ok b from hr)
                simpa [getIndex] using this)
              exact mul_self_pos.mpr hb
            | _ => rw [hr] at ha; cases ha
        have hq : 0 < val (E.num.sqrt s) := by rw [h.ideal.sqrt s hp]; exact Real.sqrt_pos.mpr hp
        exact hop _ _ hq.ne' (h.sqrt s hp).symm
      · have hl : ∀ (n : α) (m : β), (M.map φ).opScalar (· / ·) (fun _ => .ok m) = Matrix.map φ <$> M.opScalar (· / ·) (fun _ => .ok n) := by
          intro n m
          have e1 : forRange (M.map φ).dim (fun (S : Matrix β) it => do
              let a ← S.flat it.scalar
              let b ← Res.ok m
              S.setFlat it.scalar (a / b)) (M.map φ) = forRange M.dim (fun (S : Matrix β) _ => .ok S) (M.map φ) := forRange_none hz _ _
          have e2 : forRange M.dim (fun (S : Matrix α) it => do
              let a ← S.flat it.scalar
              let b ← Res.ok n
              S.setFlat it.scalar (a / b)) M = forRange M.dim (fun (S : Matrix α) _ => .ok S) M := forRange_none hz _ _
          unfold Matrix.opScalar
          refine e1.trans (Eq.trans ?_ (congrArg (Matrix.map φ <$> ·) e2).symm)
          exact forRange_map (Matrix.map φ) _ (fun s it => rfl) M
        exact hl _ _
    | _ => rfl
  | _ => rfl

theorem initParams_map (h : Hom E val E' φ) (draws : Nat → α) (hd : ∀ n, val (draws n) ≠ 0) (W B : Matrix α) :
    initParams E'.num (fun n => φ (draws n)) (W.map φ) (B.map φ) = (fun r => (r.1.map φ, r.2.map φ)) <$> initParams E.num draws W B := by
  unfold initParams
  rw [fillDraws_map, bind_res_map, map_res_bind]
  cases hW : W.fillDraws draws 0 with
  | ok W' =>
    rw [bind_ok, bind_ok, map_res_bind, Matrix.map_vals, List.length_map, fillDraws_map, bind_res_map]
    cases hB : B.fillDraws draws W'.vals.length with
    | ok B' =>
      rw [bind_ok, bind_ok, map_res_bind,
        normalise_map h W' (fun hz => fillDraws_first hd (by rw [fillDraws_dim hW] at hz; exact hz) hW), bind_res_map]
      refine bind_congr' rfl fun W2 => ?_
      rw [map_res_bind, normalise_map h B' (fun hz => fillDraws_first hd (by rw [fillDraws_dim hB] at hz; exact hz) hB), bind_res_map]
      exact bind_congr' rfl fun B2 => rfl
    | _ => rfl
  | _ => rfl

theorem applyGrads_map (h : Hom E val E' φ) (lr : α) (W B : Matrix α) (wG bG : List (Matrix α)) (h1 : wG.length ≠ 0) (h2 : bG.length ≠ 0) :
    applyGrads E'.num (φ lr) (W.map φ) (B.map φ) (wG.map (Matrix.map φ)) (bG.map (Matrix.map φ)) =
      (fun r => (r.1.map φ, r.2.map φ)) <$> applyGrads E.num lr W B wG bG := by
  unfold applyGrads
  simp only [map_res_bind]
  rw [← h.zero, Matrix.map_dim, Matrix.ofDim_map, bind_res_map]
  refine bind_congr' rfl fun aw => ?_
  rw [Matrix.map_dim, Matrix.ofDim_map, bind_res_map]
  refine bind_congr' rfl fun ab => ?_
  rw [List.length_map]
  have hl := foldlM_map (fun s : Matrix α × Matrix α => (s.1.map φ, s.2.map φ)) (List.range wG.length)
    (body := fun (s : Matrix α × Matrix α) (i : Nat) => do
      let g ← Res.ofOption wG[i]?
      let aw ← s.1.opAssign (· + ·) g.dim (fun _ => g.read)
      let h ← Res.ofOption bG[i]?
      let ab ← s.2.opAssign (· + ·) h.dim (fun _ => h.read)
      .ok (aw, ab))
    (body' := fun (s : Matrix β × Matrix β) (i : Nat) => do
      let g ← Res.ofOption (wG.map (Matrix.map φ))[i]?
      let aw ← s.1.opAssign (· + ·) g.dim (fun _ => g.read)
      let h ← Res.ofOption (bG.map (Matrix.map φ))[i]?
      let ab ← s.2.opAssign (· + ·) h.dim (fun _ => h.read)
      .ok (aw, ab)) (fun s i => by
        rw [List.getElem?_map, ← map_ofOption, bind_res_map, map_res_bind]
        refine bind_congr' rfl fun g => ?_
        rw [Matrix.opAssign_map φ φ (· + ·) _ (fun a b => (h.add a b).symm) s.1 _ (fun _ => g.read) _ (fun _ i => Matrix.read_map φ g i),
          bind_res_map, map_res_bind]
        refine bind_congr' rfl fun aw => ?_
        rw [List.getElem?_map, ← map_ofOption, bind_res_map, map_res_bind]
        refine bind_congr' rfl fun g => ?_
        rw [Matrix.opAssign_map φ φ (· + ·) _ (fun a b => (h.add a b).symm) s.2 _ (fun _ => g.read) _ (fun _ i => Matrix.read_map φ g i),
          bind_res_map, map_res_bind]
        exact bind_congr' rfl fun ab => rfl) (aw, ab)
  rw [hl, bind_res_map]
  refine bind_congr' rfl fun s => ?_
  have hn : ∀ n : Nat, n ≠ 0 → val (E.num.ofNat n) ≠ 0 := fun n hn => by rw [h.ideal.ofNat]; exact_mod_cast hn
  have hs : ∀ (M : Matrix α) (n : Nat), n ≠ 0 → (M.map φ).opScalar (· / ·) (fun _ => .ok (E'.num.ofNat n)) =
      Matrix.map φ <$> M.opScalar (· / ·) (fun _ => .ok (E.num.ofNat n)) := fun M n h0 =>
    Matrix.opScalar_map φ φ _ _ M _ _ (fun _ => by rw [← h.ofNat]; rfl) (fun _ a b e => by cases e; exact (h.div a _ (hn n h0)).symm)
  rw [hs _ _ h1, bind_res_map]
  refine bind_congr' rfl fun aw => ?_
  rw [List.length_map, hs _ _ h2, bind_res_map]
  refine bind_congr' rfl fun ab => ?_
  have hg : ∀ (M : Matrix α) i, (MExpr.scal (φ lr * ·) (M.map φ).expr).get i = φ <$> (MExpr.scal (lr * ·) M.expr).get i := fun M i => by
    rw [Matrix.expr_map, MExpr.scal_map φ φ (lr * ·) _ _ (fun _ a _ => (h.mul lr a).symm)]; rfl
  rw [Matrix.opAssign_map φ φ (· - ·) _ (fun a b => (h.sub a b).symm) W _ (fun _ => (MExpr.scal (lr * ·) aw.expr).get) _ (fun _ i => hg aw i),
    bind_res_map]
  refine bind_congr' rfl fun W' => ?_
  rw [Matrix.opAssign_map φ φ (· - ·) _ (fun a b => (h.sub a b).symm) B _ (fun _ => (MExpr.scal (lr * ·) ab.expr).get) _ (fun _ i => hg ab i),
    bind_res_map]
  exact bind_congr' rfl fun B' => rfl

end Cnn
