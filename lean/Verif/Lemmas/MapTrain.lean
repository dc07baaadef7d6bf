import Verif.Lemmas.MapNumbers
import Verif.Lemmas.Loop
/-!
# Propagation commutes with homomorphisms of arithmetics
-/
set_option linter.unusedSectionVars false
namespace Cnn
open Res
variable {α β : Type} [Zero α] [One α] [Add α] [Sub α] [Mul α] [Div α] [Neg α] [Zero β] [One β] [Add β] [Sub β] [Mul β] [Div β] [Neg β]
variable {E : Env α} {val : α → ℝ} {E' : Env β} {φ : α → β}

/-! ## Layers -/

theorem Connected.checkSize_map (h : Hom E val E' φ) (L : Connected α) (draws : Nat → α) (X : Matrix α)
    (hL : L.initialized = true ∨ ∀ n, val (draws n) ≠ 0) :
    (L.map φ).checkSize E'.num (fun n => φ (draws n)) (X.map φ) =
      ((L.checkSize E.num draws X).1, (L.checkSize E.num draws X).2.map φ) := by
  unfold checkSize
  rw [show (L.map φ).expected (X.map φ) = L.expected X from rfl]
  cases he : L.expected X with
  | ok e =>
    simp only
    rw [show (L.map φ).initialized = L.initialized from rfl]
    cases hi : L.initialized with
    | true => rfl
    | false =>
      simp only [Bool.false_eq_true, if_false]
      have hd : ∀ n, val (draws n) ≠ 0 := by
        rcases hL with hL | hL
        · rw [hi] at hL; cases hL
        · exact hL
      have : (L.map φ).initWeights E'.num (fun n => φ (draws n)) e =
          (fun r => (r.1.map φ, r.2.map φ)) <$> L.initWeights E.num draws e := by
        unfold initWeights
        rw [map_res_bind, ← h.zero, Matrix.ofDim_map, bind_res_map]
        exact bind_congr' rfl fun W => initParams_map h draws hd W L.biases
      rw [this]
      cases L.initWeights E.num draws e <;> rfl
  | _ => rfl

theorem Connected.forward_map (h : Hom E val E' φ) (L : Connected α) (draws : Nat → α) (X : Matrix α)
    (hL : L.initialized = true ∨ ∀ n, val (draws n) ≠ 0) :
    (L.map φ).forward E'.num (fun n => φ (draws n)) (X.map φ) =
      (Matrix.map φ <$> (L.forward E.num draws X).1, (L.forward E.num draws X).2.map φ) := by
  unfold forward
  rw [checkSize_map h L draws X hL]
  obtain ⟨r, L'⟩ := L.checkSize E.num draws X
  simp only
  rw [map_res_bind]
  congr 1
  refine bind_congr' rfl fun ok => ?_
  split
  · exact compute_map h.toSumHom L' X
  · rfl

namespace Body

/-- The comparisons of a forward pass through the layer come out the same, or do not matter. -/
def FwdAlike (E : Env α) (E' : Env β) (φ : α → β) (X : Matrix α) : Body α → Prop
  | .pooling P => P.type ≠ .avg → ∀ a ∈ X.vals, ∀ b ∈ X.vals, Alike E E' φ a b
  | .activation A => ∀ a ∈ X.vals, A.fn.eval E'.num (φ a) = φ (A.fn.eval E.num a)
  | .softmax _ => MExpr.max E'.num.lt (X.map φ).expr = φ <$> MExpr.max E.num.lt X.expr
  | _ => True

/-- The comparisons of a backward pass through the layer come out the same. -/
def BwdAlike (E : Env α) (E' : Env β) (φ : α → β) (Z : Matrix α) : Body α → Prop
  | .activation A => ∀ a ∈ Z.vals, A.gradFn.grad E'.num (φ a) = φ (A.gradFn.grad E.num a)
  | _ => True

/-- No division by zero: windows and batches are not empty, and the random numbers are not zero (`D`) if they are still needed. -/
def Sane (D : Prop) : Body α → Prop
  | .kernel K => K.wGrads.length ≠ 0 ∧ K.bGrads.length ≠ 0
  | .pooling P => P.Sane
  | .connected L => (L.wGrads.length ≠ 0 ∧ L.bGrads.length ≠ 0) ∧ (L.initialized = true ∨ D)
  | _ => True

/-- The same kind of layer, as far as `Sane` is concerned. -/
def Like : Body α → Body α → Prop
  | .kernel K, .kernel K' => K'.wGrads.length = K.wGrads.length ∧ K'.bGrads.length = K.bGrads.length
  | .pooling P, .pooling P' => P'.type = P.type ∧ P'.dim = P.dim
  | .connected L, .connected L' => (L'.wGrads.length = L.wGrads.length ∧ L'.bGrads.length = L.bGrads.length) ∧
      (L.initialized = true → L'.initialized = true)
  | .activation A, .activation A' => A' = A
  | .softmax _, .softmax _ => True
  | _, _ => False

theorem Like.refl (b : Body α) : b.Like b := by
  cases b
  · exact ⟨rfl, rfl⟩
  · exact ⟨rfl, rfl⟩
  · exact ⟨⟨rfl, rfl⟩, id⟩
  · exact rfl
  · exact trivial

theorem Like.sane {D : Prop} {b b' : Body α} (h : b.Like b') (hs : b.Sane D) : b'.Sane D := by
  cases b <;> cases b' <;> try exact h.elim
  · exact ⟨by rw [h.1]; exact hs.1, by rw [h.2]; exact hs.2⟩
  · show Pooling.Sane _
    unfold Pooling.Sane
    rw [h.1, h.2]
    exact hs
  · exact ⟨⟨by rw [h.1.1]; exact hs.1.1, by rw [h.1.2]; exact hs.1.2⟩, hs.2.imp_left h.2⟩
  · exact trivial
  · exact trivial

theorem forward_map (h : Hom E val E' φ) (i : Nat) (b : Body α) (hs : b.Sane (∀ n, val (E.draws i n) ≠ 0)) (X : Matrix α)
    (ha : b.FwdAlike E E' φ X) (t : Nat) :
    (b.map φ).forward E'.num (E'.draws i) (X.map φ) t = mapFst φ (Body.map φ) <$> b.forward E.num (E.draws i) X t := by
  have hd : E'.draws i = fun n => φ (E.draws i n) := funext fun n => (h.draws i n).symm
  cases b with
  | kernel K =>
    show (do let Y ← (K.map φ).forward (X.map φ); Res.ok (Y, Body.kernel (K.map φ))) = _ <$> (do let Y ← K.forward X; Res.ok (Y, Body.kernel K))
    rw [Kernel.forward_map h.toSumHom, bind_res_map, map_res_bind]
    exact bind_congr' rfl fun r => rfl
  | pooling P =>
    show (do let r ← P.forward E'.num (X.map φ) t; Res.ok (r.1, Body.pooling r.2)) = _ <$> (do let r ← P.forward E.num X t; Res.ok (r.1, Body.pooling r.2))
    rw [Pooling.forward_map h P hs X ha, bind_res_map, map_res_bind]
    exact bind_congr' rfl fun r => rfl
  | connected L =>
    show (do let Y ← ((L.map φ).forward E'.num (E'.draws i) (X.map φ)).1
             Res.ok (Y, Body.connected ((L.map φ).forward E'.num (E'.draws i) (X.map φ)).2)) =
      _ <$> (do let Y ← (L.forward E.num (E.draws i) X).1; Res.ok (Y, Body.connected (L.forward E.num (E.draws i) X).2))
    rw [hd, Connected.forward_map h L _ X hs.2, bind_res_map, map_res_bind]
    exact bind_congr' rfl fun r => rfl
  | activation A =>
    show (do let Y ← A.forward E'.num (X.map φ); Res.ok (Y, Body.activation A)) = _ <$> (do let Y ← A.forward E.num X; Res.ok (Y, Body.activation A))
    rw [Activation.forward_map h A X ha, bind_res_map, map_res_bind]
    exact bind_congr' rfl fun r => rfl
  | softmax S =>
    show (do let Y ← S.forward E'.num (X.map φ); Res.ok (Y, Body.softmax S)) = _ <$> (do let Y ← S.forward E.num X; Res.ok (Y, Body.softmax S))
    rw [Softmax.forward_map h S X ha, bind_res_map, map_res_bind]
    exact bind_congr' rfl fun r => rfl

theorem backward_map (h : Hom E val E' φ) {D : Prop} (b : Body α) (hs : b.Sane D) (X Z G : Matrix α) (ha : b.BwdAlike E E' φ Z) (t : Nat) (last : Bool) :
    (b.map φ).backward E'.num E'.order (X.map φ) (Z.map φ) (G.map φ) t last =
      mapFst φ (Body.map φ) <$> b.backward E.num E.order X Z G t last := by
  cases b with
  | kernel K =>
    show (do let r ← (K.map φ).backward (X.map φ) (Z.map φ) (G.map φ) t last; Res.ok (r.1, Body.kernel r.2)) =
      _ <$> (do let r ← K.backward X Z G t last; Res.ok (r.1, Body.kernel r.2))
    rw [Kernel.backward_map h.toSumHom, bind_res_map, map_res_bind]
    exact bind_congr' rfl fun r => rfl
  | pooling P =>
    show (do let D ← P.backward E'.num (X.map φ) (Z.map φ) (G.map φ) t; Res.ok (D, Body.pooling P)) =
      _ <$> (do let D ← P.backward E.num X Z G t; Res.ok (D, Body.pooling P))
    rw [Pooling.backward_map h P hs, bind_res_map, map_res_bind]
    exact bind_congr' rfl fun r => rfl
  | connected L =>
    show (do let r ← (L.map φ).backward E'.order (X.map φ) (Z.map φ) (G.map φ) t last; Res.ok (r.1, Body.connected r.2)) =
      _ <$> (do let r ← L.backward E.order X Z G t last; Res.ok (r.1, Body.connected r.2))
    rw [h.order, Connected.backward_map h.toSumHom, bind_res_map, map_res_bind]
    exact bind_congr' rfl fun r => rfl
  | activation A =>
    show (do let D ← A.backward E'.num (X.map φ) (Z.map φ) (G.map φ); Res.ok (D, Body.activation A)) =
      _ <$> (do let D ← A.backward E.num X Z G; Res.ok (D, Body.activation A))
    rw [Activation.backward_map h A X Z G ha, bind_res_map, map_res_bind]
    exact bind_congr' rfl fun r => rfl
  | softmax S =>
    show (do let D ← S.backward (X.map φ) (Z.map φ) (G.map φ); Res.ok (D, Body.softmax S)) =
      _ <$> (do let D ← S.backward X Z G; Res.ok (D, Body.softmax S))
    rw [Softmax.backward_map h, bind_res_map, map_res_bind]
    exact bind_congr' rfl fun r => rfl

theorem applyBatch_map (h : Hom E val E' φ) {D : Prop} (b : Body α) (hs : b.Sane D) (lr : α) :
    (b.map φ).applyBatch E'.num (φ lr) = Body.map φ <$> b.applyBatch E.num lr := by
  cases b with
  | kernel K =>
    show (do let K ← (K.map φ).applyBatch E'.num (φ lr); Res.ok (Body.kernel K)) = _ <$> (do let K ← K.applyBatch E.num lr; Res.ok (Body.kernel K))
    unfold Kernel.applyBatch
    show (applyGrads E'.num (φ lr) (K.weights.map φ) (K.biases.map φ) (K.wGrads.map _) (K.bGrads.map _) >>= _) >>= _ = _
    rw [applyGrads_map h lr _ _ _ _ hs.1 hs.2]
    cases applyGrads E.num lr K.weights K.biases K.wGrads K.bGrads <;> rfl
  | connected L =>
    show (do let K ← (L.map φ).applyBatch E'.num (φ lr); Res.ok (Body.connected K)) = _ <$> (do let K ← L.applyBatch E.num lr; Res.ok (Body.connected K))
    unfold Connected.applyBatch
    show (applyGrads E'.num (φ lr) (L.weights.map φ) (L.biases.map φ) (L.wGrads.map _) (L.bGrads.map _) >>= _) >>= _ = _
    rw [applyGrads_map h lr _ _ _ _ hs.1.1 hs.1.2]
    cases applyGrads E.num lr L.weights L.biases L.wGrads L.bGrads <;> rfl
  | _ => rfl

theorem setBatchSize_map (b : Body α) (n : Nat) : (b.map φ).setBatchSize n = (b.setBatchSize n).map φ := by
  cases b with
  | kernel K =>
    show Body.kernel _ = Body.kernel _
    congr 1
    simp [Kernel.setBatchSize, Kernel.map, emptyGrads]
  | connected L =>
    show Body.connected _ = Body.connected _
    congr 1
    simp [Connected.setBatchSize, Connected.map, emptyGrads]
  | _ => rfl

/-! ### Layers keep their kind -/

theorem setSlot_length {σ : Type} {l l' : List σ} {i : Nat} {a : σ} (h : setSlot l i a = .ok l') : l'.length = l.length := by
  unfold setSlot at h
  split at h
  · cases h; simp
  · cases h

theorem forward_like {N : Num α} {draws : Nat → α} {X Y : Matrix α} {t : Nat} {b b' : Body α} (h : b.forward N draws X t = .ok (Y, b')) :
    b.Like b' := by
  cases b with
  | kernel K =>
    obtain ⟨r, _, h⟩ := Res.bind_eq_ok (show K.forward X >>= (fun Y => Res.ok (Y, Body.kernel K)) = _ from h)
    cases h; exact Like.refl _
  | pooling P =>
    obtain ⟨r, hr, h⟩ := Res.bind_eq_ok (show P.forward N X t >>= (fun r => Res.ok (r.1, Body.pooling r.2)) = _ from h)
    cases h
    unfold Pooling.forward at hr
    obtain ⟨_, _, hr⟩ := Res.bind_eq_ok hr
    obtain ⟨_, _, hr⟩ := Res.bind_eq_ok hr
    obtain ⟨_, _, hr⟩ := Res.bind_eq_ok hr
    obtain ⟨_, _, hr⟩ := Res.bind_eq_ok hr
    obtain ⟨_, _, hr⟩ := Res.bind_eq_ok hr
    cases hr
    exact ⟨rfl, rfl⟩
  | connected L =>
    obtain ⟨r, _, h⟩ := Res.bind_eq_ok
      (show (L.forward N draws X).1 >>= (fun Y => Res.ok (Y, Body.connected (L.forward N draws X).2)) = _ from h)
    cases h
    show (_ ∧ _) ∧ _
    unfold Connected.forward Connected.checkSize
    simp only
    cases L.expected X with
    | ok e =>
      simp only
      cases hi : L.initialized with
      | true => exact ⟨⟨rfl, rfl⟩, fun _ => hi⟩
      | false => cases L.initWeights N draws e <;> exact ⟨⟨rfl, rfl⟩, fun _ => rfl⟩
    | _ => exact ⟨⟨rfl, rfl⟩, id⟩
  | activation A =>
    obtain ⟨r, _, h⟩ := Res.bind_eq_ok (show A.forward N X >>= (fun Y => Res.ok (Y, Body.activation A)) = _ from h)
    cases h; exact Like.refl _
  | softmax S =>
    obtain ⟨r, _, h⟩ := Res.bind_eq_ok (show S.forward N X >>= (fun Y => Res.ok (Y, Body.softmax S)) = _ from h)
    cases h; exact Like.refl _

theorem backward_like {N : Num α} {o : ArgOrder} {X Z G Y : Matrix α} {t : Nat} {last : Bool} {b b' : Body α}
    (h : b.backward N o X Z G t last = .ok (Y, b')) : b.Like b' := by
  cases b with
  | kernel K =>
    obtain ⟨r, hr, h⟩ := Res.bind_eq_ok (show K.backward X Z G t last >>= (fun r => Res.ok (r.1, Body.kernel r.2)) = _ from h)
    cases h
    unfold Kernel.backward at hr
    obtain ⟨_, _, hr⟩ := Res.bind_eq_ok hr
    obtain ⟨_, h1, hr⟩ := Res.bind_eq_ok hr
    obtain ⟨_, _, hr⟩ := Res.bind_eq_ok hr
    obtain ⟨_, h2, hr⟩ := Res.bind_eq_ok hr
    split at hr <;> obtain ⟨_, _, hr⟩ := Res.bind_eq_ok hr <;> cases hr
    all_goals
      exact ⟨setSlot_length h1, setSlot_length h2⟩
  | pooling P =>
    obtain ⟨r, _, h⟩ := Res.bind_eq_ok (show P.backward N X Z G t >>= (fun D => Res.ok (D, Body.pooling P)) = _ from h)
    cases h; exact Like.refl _
  | connected L =>
    obtain ⟨r, hr, h⟩ := Res.bind_eq_ok (show L.backward o X Z G t last >>= (fun r => Res.ok (r.1, Body.connected r.2)) = _ from h)
    cases h
    unfold Connected.backward at hr
    obtain ⟨_, _, hr⟩ := Res.bind_eq_ok hr
    obtain ⟨_, h1, hr⟩ := Res.bind_eq_ok hr
    obtain ⟨_, h2, hr⟩ := Res.bind_eq_ok hr
    split at hr <;> obtain ⟨_, _, hr⟩ := Res.bind_eq_ok hr <;> cases hr
    all_goals
      exact ⟨⟨setSlot_length h1, setSlot_length h2⟩, id⟩
  | activation A =>
    obtain ⟨r, _, h⟩ := Res.bind_eq_ok (show A.backward N X Z G >>= (fun D => Res.ok (D, Body.activation A)) = _ from h)
    cases h; exact Like.refl _
  | softmax S =>
    obtain ⟨r, _, h⟩ := Res.bind_eq_ok (show S.backward X Z G >>= (fun D => Res.ok (D, Body.softmax S)) = _ from h)
    cases h; exact Like.refl _

theorem applyBatch_like {N : Num α} {lr : α} {b b' : Body α} (h : b.applyBatch N lr = .ok b') : b.Like b' := by
  cases b with
  | kernel K =>
    obtain ⟨K', hr, h⟩ := Res.bind_eq_ok (show K.applyBatch N lr >>= (fun K => Res.ok (Body.kernel K)) = _ from h)
    cases h
    obtain ⟨_, _, hr⟩ := Res.bind_eq_ok hr
    cases hr
    exact ⟨rfl, rfl⟩
  | connected L =>
    obtain ⟨K', hr, h⟩ := Res.bind_eq_ok (show L.applyBatch N lr >>= (fun K => Res.ok (Body.connected K)) = _ from h)
    cases h
    obtain ⟨_, _, hr⟩ := Res.bind_eq_ok hr
    cases hr
    exact ⟨⟨rfl, rfl⟩, id⟩
  | _ => cases h; exact Like.refl _

end Body
end Cnn
