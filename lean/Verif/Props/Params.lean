import Verif.Lemmas.Connected
import Verif.Lemmas.Real
import Mathlib.Algebra.BigOperators.Field
import Mathlib.Algebra.BigOperators.Fin
import Mathlib.Tactic.FieldSimp
/-!
# C39, C40: parameter updates and initialisation
-/
namespace Cnn
variable {α : Type}

/-! ## C39 -/

/-- The gradients stored for a batch: as many weight as bias gradients, of the sizes of the parameters; `gw s`, `gb s` are
the entries for sample `s`. -/
structure Batch (X Y Z F n : Nat) (wG bG : List (Matrix α)) (gw : Nat → Nat → Nat → Nat → α) (gb : Nat → Nat → α) : Prop where
  wlen : wG.length = n
  blen : bG.length = n
  w : ∀ i (M : Matrix α), wG[i]? = some M → M.Shows X Y Z (gw i)
  b : ∀ i (M : Matrix α), bG[i]? = some M → M.Shows F 1 1 (fun f _ _ => gb i f)

/-- C39 for the convolution layer (exact arithmetic, non-empty batch): every weight becomes `w - lr * average`, every bias
likewise; everything else, in particular every dimension, is unchanged. -/
theorem C39_kernel [Field α] (N : Num α) (hN : ∀ k : Nat, N.ofNat k = (k : α)) (lr : α) {A B C F s n : Nat} (K : Kernel α)
    (w : Nat → Nat → Nat → α) (β : Nat → α) (gw : Nat → Nat → Nat → Nat → α) (gb : Nat → Nat → α)
    (hK : K.Is A B C F s w β) (hB : Batch A B (C * F) F n K.wGrads K.bGrads gw gb) (_hn : 0 < n) :
    ∃ K', K.applyBatch N lr = .ok K' ∧ K'.wGrads = K.wGrads ∧ K'.bGrads = K.bGrads ∧
      K'.Is A B C F s (fun a b m => w a b m - lr * ((∑ t ∈ Finset.range n, gw t a b m) / n))
        (fun f => β f - lr * ((∑ t ∈ Finset.range n, gb t f) / n)) := by
  obtain ⟨W, Bi, e, s1, s2⟩ := applyGrads_shows N lr hK.weights hK.biases K.wGrads K.bGrads gw gb hB.wlen hB.blen hB.w hB.b
  refine ⟨{ K with weights := W, biases := Bi }, ?_, rfl, rfl, hK.dim, hK.num, hK.stride, s1.congr ?_, s2.congr ?_⟩
  · unfold Kernel.applyBatch; rw [e]; rfl
  · intro i _ j _ k _; rw [sumTo_eq, hN]
  · intro i _ j _ k _; rw [sumTo_eq, hN]

/-- C39 for the fully connected layer. -/
theorem C39_connected [Field α] (N : Num α) (hN : ∀ k : Nat, N.ofNat k = (k : α)) (lr : α) {n m t : Nat} (L : Connected α)
    (w : Nat → Nat → α) (β : Nat → α) (gw : Nat → Nat → Nat → α) (gb : Nat → Nat → α)
    (hL : L.Is n m w β) (hB : Batch n m 1 n t L.wGrads L.bGrads (fun s i k _ => gw s i k) gb) (_ht : 0 < t) :
    ∃ L', L.applyBatch N lr = .ok L' ∧ L'.wGrads = L.wGrads ∧ L'.bGrads = L.bGrads ∧ L'.inputDim = L.inputDim ∧
      L'.Is n m (fun i k => w i k - lr * ((∑ s ∈ Finset.range t, gw s i k) / t))
        (fun i => β i - lr * ((∑ s ∈ Finset.range t, gb s i) / t)) := by
  obtain ⟨W, Bi, e, s1, s2⟩ := applyGrads_shows N lr hL.weights hL.biases L.wGrads L.bGrads _ gb hB.wlen hB.blen hB.w hB.b
  refine ⟨{ L with weights := W, biases := Bi }, ?_, rfl, rfl, rfl, s1.congr ?_, s2.congr ?_, hL.initialized⟩
  · unfold Connected.applyBatch; rw [e]; rfl
  · intro i _ j _ k _; rw [sumTo_eq, hN]
  · intro i _ j _ k _; rw [sumTo_eq, hN]

/-- In the arithmetic of the code itself: the gradients are added in the order of the samples starting from zero, the sum
divided by the batch size, multiplied by the learning rate and subtracted. -/
theorem C39_arithmetic [Zero α] [Add α] [Sub α] [Mul α] [Div α] (N : Num α) (lr : α) {A B C F s n : Nat} (K : Kernel α)
    (w : Nat → Nat → Nat → α) (β : Nat → α) (gw : Nat → Nat → Nat → Nat → α) (gb : Nat → Nat → α)
    (hK : K.Is A B C F s w β) (hB : Batch A B (C * F) F n K.wGrads K.bGrads gw gb) :
    ∃ K', K.applyBatch N lr = .ok K' ∧
      K'.Is A B C F s (fun a b m => w a b m - lr * (sumTo n (fun t => gw t a b m) / N.ofNat n))
        (fun f => β f - lr * (sumTo n (fun t => gb t f) / N.ofNat n)) := by
  obtain ⟨W, Bi, e, s1, s2⟩ := applyGrads_shows N lr hK.weights hK.biases K.wGrads K.bGrads gw gb hB.wlen hB.blen hB.w hB.b
  refine ⟨{ K with weights := W, biases := Bi }, ?_, hK.dim, hK.num, hK.stride, s1, s2⟩
  unfold Kernel.applyBatch; rw [e]; rfl

/-- The entry functions of a list of matrices. -/
private def entryOf [Zero α] (l : List (Matrix α)) (i a b c : Nat) : α :=
  match l[i]? with
  | some M => match M.read (dimN a b c) with | .ok v => v | _ => 0
  | none => 0

private theorem entryOf_shows [Zero α] {X Y Z : Nat} (l : List (Matrix α)) (h : ∀ M ∈ l, ∃ f, M.Shows X Y Z f) :
    ∀ i (M : Matrix α), l[i]? = some M → M.Shows X Y Z (entryOf l i) := by
  intro i M hM
  obtain ⟨f, hf⟩ := h M (List.mem_of_getElem? hM)
  refine hf.congr ?_
  intro a ha b hb c hc
  unfold entryOf
  rw [hM]
  simp only [hf.entry a ha b hb c hc]

private theorem entryOf_sum [AddCommMonoid α] (l l' : List (Matrix α)) (h : l.Perm l') (a b c : Nat) :
    ∑ i ∈ Finset.range l.length, entryOf l i a b c = ∑ i ∈ Finset.range l'.length, entryOf l' i a b c := by
  have key : ∀ l : List (Matrix α), ∑ i ∈ Finset.range l.length, entryOf l i a b c =
      (l.map (fun M => match M.read (dimN a b c) with | .ok v => v | _ => 0)).sum := by
    intro l
    rw [← Fin.sum_univ_getElem, ← Fin.sum_univ_eq_sum_range (fun i => entryOf l i a b c) l.length]
    refine Fintype.sum_equiv (finCongr (by simp)) _ _ ?_
    intro i
    unfold entryOf
    rw [List.getElem?_eq_getElem i.2]
    simp
  rw [key, key]
  exact (h.map _).sum_eq

/-- C39, order: in exact arithmetic the outcome does not depend on the order of the samples (the pairs of weight and bias
gradient are permuted). Stated for the shared code of both layers. -/
theorem C39_order [Field α] (N : Num α) (lr : α) {X Y Z F : Nat} (W B : Matrix α) (w : Nat → Nat → Nat → α) (β : Nat → α)
    (hW : W.Shows X Y Z w) (hB : B.Shows F 1 1 (fun f _ _ => β f)) (gs gs' : List (Matrix α × Matrix α)) (hp : gs.Perm gs')
    (hg : ∀ p ∈ gs, (∃ f, p.1.Shows X Y Z f) ∧ ∃ f, p.2.Shows F 1 1 f) :
    applyGrads N lr W B (gs.map (·.1)) (gs.map (·.2)) = applyGrads N lr W B (gs'.map (·.1)) (gs'.map (·.2)) := by
  have run : ∀ gs : List (Matrix α × Matrix α), (∀ p ∈ gs, (∃ f, p.1.Shows X Y Z f) ∧ ∃ f, p.2.Shows F 1 1 f) →
      ∃ W' B', applyGrads N lr W B (gs.map (·.1)) (gs.map (·.2)) = .ok (W', B') ∧
      W'.Shows X Y Z (fun a b c => w a b c - lr * ((∑ i ∈ Finset.range (gs.map (·.1)).length, entryOf (gs.map (·.1)) i a b c) / N.ofNat gs.length)) ∧
      B'.Shows F 1 1 (fun f _ _ => β f - lr * ((∑ i ∈ Finset.range (gs.map (·.2)).length, entryOf (gs.map (·.2)) i f 0 0) / N.ofNat gs.length)) := by
    intro gs hg
    obtain ⟨W', B', e, s1, s2⟩ := applyGrads_shows N lr (n := gs.length) hW hB (gs.map (·.1)) (gs.map (·.2))
      (entryOf (gs.map (·.1))) (fun i f => entryOf (gs.map (·.2)) i f 0 0) (by simp) (by simp)
      (entryOf_shows _ (by
        intro M hM
        obtain ⟨p, hp, rfl⟩ := List.mem_map.1 hM
        exact (hg p hp).1))
      (by
        intro i M hM
        refine (entryOf_shows (gs.map (·.2)) (by
          intro M hM
          obtain ⟨p, hp, rfl⟩ := List.mem_map.1 hM
          exact (hg p hp).2) i M hM).congr ?_
        intro f _ j hj k hk
        obtain rfl : j = 0 := by omega
        obtain rfl : k = 0 := by omega
        rfl)
    refine ⟨W', B', e, s1.congr ?_, s2.congr ?_⟩
    · intro a _ b _ c _; rw [sumTo_eq, List.length_map]
    · intro a _ b _ c _; rw [sumTo_eq, List.length_map]
  obtain ⟨W₁, B₁, e₁, s₁, t₁⟩ := run gs hg
  obtain ⟨W₂, B₂, e₂, s₂, t₂⟩ := run gs' (fun p h => hg p (hp.mem_iff.2 h))
  have hw : W₁ = W₂ := s₁.unique (s₂.congr (by
    intro a _ b _ c _
    rw [entryOf_sum _ _ (hp.map _), hp.length_eq]))
  have hb : B₁ = B₂ := t₁.unique (t₂.congr (by
    intro a _ b _ c _
    rw [entryOf_sum _ _ (hp.map _), hp.length_eq]))
  rw [e₁, e₂, hw, hb]

/-- A slot that no sample has filled (still default-constructed) makes `applyBatch` throw instead. -/
theorem C39_unfilled_slot [Zero α] [Add α] [Sub α] [Mul α] [Div α] (N : Num α) (lr : α) {A B C F s n : Nat} (K : Kernel α)
    (w : Nat → Nat → Nat → α) (β : Nat → α) (hK : K.Is A B C F s w β) (hn : 0 < n) :
    (K.setBatchSize n).applyBatch N lr = .throw .matrixSize := by
  have := applyGrads_mismatch N lr (n := n) (m := 0) hK.weights hK.biases (K.setBatchSize n).wGrads (K.setBatchSize n).bGrads
    (fun _ => w) (fun _ => β) (by simp [Kernel.setBatchSize, emptyGrads]) (by simp [Kernel.setBatchSize, emptyGrads])
    (by omega) (by omega) Matrix.empty (by simp [Kernel.setBatchSize, emptyGrads, hn]) (by
      have := hK.weights.good.x
      intro h
      have h : dimN 0 0 0 = dimN A B (C * F) := h
      rw [dimN_inj] at h
      omega)
  unfold Kernel.applyBatch
  have e : applyGrads N lr (K.setBatchSize n).weights (K.setBatchSize n).biases (K.setBatchSize n).wGrads (K.setBatchSize n).bGrads = .throw .matrixSize := this
  rw [e]; rfl

/-- A batch of two samples for a layer of one 1 × 1 filter with weight 1 and bias 0: gradients 2 and 4 (weight), 1 and 5
(bias), learning rate 1/2: the weight becomes -1/2, the bias -3/2. -/
example (N : Num ℚ) (hN : ∀ k : Nat, N.ofNat k = (k : ℚ)) :
    ∃ K', (⟨dimN 1 1 1, 1, 1, ⟨dimN 1 1 1, [1]⟩, ⟨dimN 1 1 1, [0]⟩, [⟨dimN 1 1 1, [2]⟩, ⟨dimN 1 1 1, [4]⟩],
      [⟨dimN 1 1 1, [1]⟩, ⟨dimN 1 1 1, [5]⟩]⟩ : Kernel ℚ).applyBatch N (1 / 2) = .ok K' ∧
      K'.Is 1 1 1 1 1 (fun _ _ _ => -1 / 2) (fun _ => -3 / 2) := by
  have one : ∀ q : ℚ, (⟨dimN 1 1 1, [q]⟩ : Matrix ℚ).Shows 1 1 1 (fun _ _ _ => q) := by
    intro q
    refine Matrix.Shows.of_flat ⟨by decide, by decide, by decide, by decide⟩ rfl rfl ?_
    intro k hk
    obtain rfl : k = 0 := by omega
    rfl
  obtain ⟨K', e, _, _, h⟩ := C39_kernel N hN (1 / 2) (A := 1) (B := 1) (C := 1) (F := 1) (s := 1) (n := 2)
    (⟨dimN 1 1 1, 1, 1, ⟨dimN 1 1 1, [1]⟩, ⟨dimN 1 1 1, [0]⟩, [⟨dimN 1 1 1, [2]⟩, ⟨dimN 1 1 1, [4]⟩],
      [⟨dimN 1 1 1, [1]⟩, ⟨dimN 1 1 1, [5]⟩]⟩ : Kernel ℚ) (fun _ _ _ => 1) (fun _ => 0)
    (fun t _ _ _ => if t = 0 then 2 else 4) (fun t _ => if t = 0 then 1 else 5) ⟨rfl, rfl, rfl, one 1, one 0⟩
    ⟨rfl, rfl, by
      intro i M h
      match i, h with
      | 0, h => obtain rfl := Option.some.inj h; exact one 2
      | 1, h => obtain rfl := Option.some.inj h; exact one 4
      | i + 2, h => simp at h, by
      intro i M h
      match i, h with
      | 0, h => obtain rfl := Option.some.inj h; exact one 1
      | 1, h => obtain rfl := Option.some.inj h; exact one 5
      | i + 2, h => simp at h⟩ (by decide)
  refine ⟨K', e, h.dim, h.num, h.stride, h.weights.congr ?_, h.biases.congr ?_⟩
  · intro i _ j _ k _; norm_num [Finset.sum_range_succ]
  · intro i _ j _ k _; norm_num [Finset.sum_range_succ]

/-! ## C40 -/

private theorem norm_one {n : Nat} (d : Nat → ℝ) (h : ∃ k < n, d k ≠ 0) :
    ∑ k ∈ Finset.range n, (d k / normOf Num.real n d) ^ 2 = 1 := by
  have hpos : 0 < ∑ k ∈ Finset.range n, d k * d k := by
    obtain ⟨k, hk, hd⟩ := h
    refine Finset.sum_pos' (fun i _ => mul_self_nonneg _) ⟨k, Finset.mem_range.2 hk, ?_⟩
    exact lt_of_le_of_ne (mul_self_nonneg _) (Ne.symm (mul_ne_zero hd hd))
  have hs : normOf Num.real n d ^ 2 = ∑ k ∈ Finset.range n, d k * d k := by
    unfold normOf
    rw [sumTo_eq]
    exact Real.sq_sqrt hpos.le
  simp only [div_pow]
  rw [← Finset.sum_div, hs]
  simp only [pow_two]
  exact div_self hpos.ne'

/-- C40 for the convolution layer: unless all draws for the weights (for the biases) are zero, the squares of the weights
(of the biases) of a new layer sum to 1. -/
theorem C40_kernel (draws : Nat → ℝ) (A B C F stride : Nat) (hg : Good A B (C * F)) (hC : 0 < C) (hF : 0 < F)
    (hw : ∃ k < A * B * (C * F), draws k ≠ 0) (hb : ∃ k < F, draws (A * B * (C * F) + k) ≠ 0) :
    ∃ K w, ∃ β : Nat → ℝ, Kernel.new Num.real draws (dimN A B C) F stride = .ok K ∧ K.Is A B C F stride w β ∧
      total A B (C * F) (fun a b m => w a b m ^ 2) = 1 ∧ ∑ f ∈ Finset.range F, β f ^ 2 = 1 := by
  have hz := hg.bounds.2.2.2
  have hF' : F < 2147483648 := lt_of_le_of_lt (Nat.le_mul_of_pos_left _ hC) hz
  obtain ⟨W, e1, s1⟩ := Matrix.ofDim_shows hg (0 : ℝ)
  obtain ⟨Bi, e2, s2⟩ := Matrix.ofDim_shows (X := F) (Y := 1) (Z := 1) ⟨hF, by decide, by decide, by omega⟩ (0 : ℝ)
  obtain ⟨W', B', e3, s3, s4⟩ := initParams_shows Num.real draws s1 s2
  refine ⟨⟨dimN A B C, F, stride, W', B', [], []⟩, _, _, ?_, ⟨rfl, rfl, rfl, s3, s4⟩, ?_, ?_⟩
  · have e1' : Matrix.ofDim ⟨(dimN A B C).x, (dimN A B C).y, wrap32 ((dimN A B C).z * F)⟩ (0 : ℝ) = .ok W := by
      rw [← e1]
      have : wrap32 ((dimN A B C).z * (F : Int)) = ((C * F : Nat) : Int) := by
        have h : (dimN A B C).z * (F : Int) = ((C * F : Nat) : Int) := by push_cast; rfl
        rw [h]; exact wrap32_nat hz
      rw [this]
    have e2' : Matrix.ofDim ⟨wrap32 (F : Int), 1, 1⟩ (0 : ℝ) = .ok Bi := by
      rw [← e2, wrap32_nat hF']; rfl
    unfold Kernel.new
    rw [e1', Res.bind_ok, e2', Res.bind_ok, e3]; rfl
  · rw [← sum_flat]
    simp only [fl_unflat]
    exact norm_one draws hw
  · exact norm_one (fun n => draws (A * B * (C * F) + n)) hb

/-- C40 for the fully connected layer, at its first input. -/
theorem C40_connected (draws : Nat → ℝ) {X Y Z n : Nat} (L : Connected ℝ) (β₀ : Nat → ℝ) (M : Matrix ℝ)
    (x : Nat → Nat → Nat → ℝ) (hi : L.initialized = false) (hL : L.biases.Shows n 1 1 (fun i _ _ => β₀ i))
    (hM : M.Shows X Y Z x) (hs : n * (X * Y * Z) < 2147483648) (hw : ∃ k < n * (X * Y * Z), draws k ≠ 0)
    (hb : ∃ k < n, draws (n * (X * Y * Z) + k) ≠ 0) :
    ∃ out w L', ∃ β : Nat → ℝ, L.forward Num.real draws M = (.ok out, L') ∧ L'.Is n (X * Y * Z) w β ∧
      ∑ i ∈ Finset.range n, ∑ k ∈ Finset.range (X * Y * Z), w i k ^ 2 = 1 ∧ ∑ i ∈ Finset.range n, β i ^ 2 = 1 := by
  have g := hM.good
  obtain ⟨L', e, hd, _, _, hL'⟩ := Connected.first_shows Num.real draws hi hL hM
    ⟨hL.good.x, Nat.mul_pos (Nat.mul_pos g.x g.y) g.z, by decide, by omega⟩
  obtain ⟨out, e', s⟩ := Connected.compute_shows hL' hM
  refine ⟨out, _, L', _, ?_, hL', ?_, norm_one (fun r => draws (n * (X * Y * Z) + r)) hb⟩
  · unfold Connected.forward
    rw [e]
    simp [e']
  · rw [← norm_one draws hw, sum_range_mul, Finset.sum_comm]
    refine Finset.sum_congr rfl fun k _ => Finset.sum_congr rfl fun i _ => ?_
    rw [Nat.mul_comm k n]

/-- Draws that are all 1: a convolution layer of 2 filters of size 2 × 2 × 1 … -/
example : ∃ K w, ∃ β : Nat → ℝ, Kernel.new Num.real (fun _ => 1) (dimN 2 2 1) 2 1 = .ok K ∧ K.Is 2 2 1 2 1 w β ∧
    total 2 2 2 (fun a b m => w a b m ^ 2) = 1 ∧ ∑ f ∈ Finset.range 2, β f ^ 2 = 1 :=
  C40_kernel (fun _ => 1) 2 2 1 2 1 ⟨by decide, by decide, by decide, by decide⟩ (by decide) (by decide)
    ⟨0, by decide, one_ne_zero⟩ ⟨0, by decide, one_ne_zero⟩

/-- … and a fully connected layer of 2 outputs with a 3 × 1 input. -/
example : ∃ out w L', ∃ β : Nat → ℝ, (⟨⟨0, []⟩, ⟨dimN 2 1 1, [0, 0]⟩, 0, false, [], []⟩ : Connected ℝ).forward Num.real
      (fun _ => 1) ⟨dimN 3 1 1, [5, 6, 7]⟩ = (.ok out, L') ∧ L'.Is 2 3 w β ∧
      ∑ i ∈ Finset.range 2, ∑ k ∈ Finset.range 3, w i k ^ 2 = 1 ∧ ∑ i ∈ Finset.range 2, β i ^ 2 = 1 :=
  C40_connected (X := 3) (Y := 1) (Z := 1) (fun _ => 1) _ (fun _ => 0) _ (fun i _ _ => 5 + i) rfl
    (Matrix.Shows.of_flat ⟨by decide, by decide, by decide, by decide⟩ rfl rfl (by
      intro k hk; obtain rfl | rfl : k = 0 ∨ k = 1 := by omega
      all_goals rfl))
    (Matrix.Shows.of_flat ⟨by decide, by decide, by decide, by decide⟩ rfl rfl (by
      intro k hk; obtain rfl | rfl | rfl : k = 0 ∨ k = 1 ∨ k = 2 := by omega
      all_goals (simp [Matrix.flat, Res.ofOption]; try norm_num)))
    (by decide) ⟨0, by decide, one_ne_zero⟩ ⟨0, by decide, one_ne_zero⟩

end Cnn
