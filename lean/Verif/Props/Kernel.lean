import Verif.Lemmas.Kernel
import Mathlib.Algebra.Ring.Int.Defs
/-!
# The convolution layer: C33 – C36

A layer `K` of `F` filters `A × B × C`; `K.Is A B C F 1 w β` says that it has stride 1, weights `w` and biases `β`.
-/
namespace Cnn

variable {α : Type} {X Y A B C F : Nat}

/-! ## C33 -/

/-- C33 for every arithmetic (floating point included): each output entry is computed in this order, and nothing outside
input and weights is read (that would be `ub`). -/
theorem C33_entries [Zero α] [Add α] [Mul α] (K : Kernel α) (w x : Nat → Nat → Nat → α) (β : Nat → α) (M : Matrix α)
    (hK : K.Is A B C F 1 w β) (hM : M.Shows X Y C x) (hfit : ConvFits X Y A B F) :
    ∃ out, K.forward M = .ok out ∧ out.Shows (X - A + 1) (Y - B + 1) F (fun i j f =>
      sumTo C (fun c => sumTo2 A B (fun a b => x (i + a) (j + b) c * w a b (f * C + c))) + β f) :=
  Kernel.forward_shows hK hM hfit

/-- C33 in exact arithmetic. -/
theorem C33_formula [NonUnitalNonAssocSemiring α] (K : Kernel α) (w x : Nat → Nat → Nat → α) (β : Nat → α) (M : Matrix α)
    (hK : K.Is A B C F 1 w β) (hM : M.Shows X Y C x) (hfit : ConvFits X Y A B F) :
    ∃ out, K.forward M = .ok out ∧ out.Shows (X - A + 1) (Y - B + 1) F (fun i j f =>
      β f + ∑ c ∈ Finset.range C, ∑ a ∈ Finset.range A, ∑ b ∈ Finset.range B, x (i + a) (j + b) c * w a b (f * C + c)) := by
  obtain ⟨out, e, s⟩ := C33_entries K w x β M hK hM hfit
  refine ⟨out, e, s.congr ?_⟩
  intro i _ j _ f _
  simp only [sumTo_eq, sumTo2_eq]
  rw [add_comm]

/-- C33: an input of a different depth throws `ModelLayerException`. -/
theorem C33_depth [Zero α] [Add α] [Mul α] (K : Kernel α) (s Z : Nat) (w x : Nat → Nat → Nat → α) (β : Nat → α)
    (M : Matrix α) (hK : K.Is A B C F s w β) (hM : M.Shows X Y Z x) (hC : C < 2147483648) (hne : Z ≠ C) :
    K.forward M = .throw .modelLayer := by
  have := hM.good.bounds
  unfold Kernel.forward Kernel.checkSize
  rw [hM.dim, hK.dim]
  simp only
  rw [u32_nat (by omega), u32_nat (by omega)]
  simp [hne]

/-- Two 2×1×1 filters with weights 1, 10 / 2, 20 and biases 100, 200. -/
def exampleKernel : Kernel Int :=
  ⟨dimN 2 1 1, 2, 1, ⟨dimN 2 1 2, [1, 10, 2, 20]⟩, ⟨dimN 2 1 1, [100, 200]⟩, [Matrix.empty, Matrix.empty], [Matrix.empty, Matrix.empty]⟩

theorem exampleKernel_is : exampleKernel.Is 2 1 1 2 1 (fun a _ m => (m + 1) * if a = 0 then 1 else 10)
    (fun f => 100 * (f + 1)) where
  dim := rfl
  num := rfl
  stride := rfl
  weights := Matrix.Shows.of_vals ⟨by decide, by decide, by decide, by decide⟩ rfl (by decide)
  biases := Matrix.Shows.of_vals ⟨by decide, by decide, by decide, by decide⟩ rfl (by decide)

example : ConvFits 3 1 2 1 2 := ⟨by decide, by decide, by decide⟩

example : exampleKernel.forward ⟨dimN 3 1 1, [1, 2, 3]⟩ = .ok ⟨dimN 2 1 2, [121, 132, 242, 264]⟩ := by decide

/-! ## C34 -/

/-- C34, the full claim. -/
def C34_claim : Prop :=
  ∀ (X Y A B C F : Nat) (K : Kernel Int) (w x : Nat → Nat → Nat → Int) (β : Nat → Int) (M : Matrix Int),
    K.Is A B C F 1 w β → M.Shows X Y C x → X < A ∨ Y < B → ∃ e, K.forward M = .throw e

/-- C34 is false of the code: an input one smaller than the filter passes the size check (which looks only at the depth);
the output has size 0 and storing into it is undefined behaviour. Here a 1×1×1 input and a 2×1×1 filter. -/
theorem C34_violated : ¬ C34_claim := by
  intro h
  obtain ⟨e, he⟩ := h 1 1 2 1 1 2 exampleKernel _ (fun _ _ _ => 5) _ ⟨dimN 1 1 1, [5]⟩ exampleKernel_is
    (Matrix.Shows.of_vals ⟨by decide, by decide, by decide, by decide⟩ rfl (by decide)) (Or.inl (by decide))
  have : exampleKernel.forward ⟨dimN 1 1 1, [5]⟩ = .ub := by decide
  rw [this] at he
  simp at he

/-- C34 as far as it holds: an input shorter than the filter by at least two in exactly one direction throws
`std::length_error` (the layer is not changed: `forward` does not return a new one).
Missing: inputs shorter by one, or in both directions (refuted above). -/
theorem C34_throws_partial [Zero α] [Add α] [Mul α] (K : Kernel α) (w x : Nat → Nat → Nat → α) (β : Nat → α) (M : Matrix α)
    (hK : K.Is A B C F 1 w β) (hM : M.Shows X Y C x)
    (h : (X + 1 < A ∧ B ≤ Y ∧ (A - X - 1) * (Y - B + 1) * F < 2147483648) ∨
      (Y + 1 < B ∧ A ≤ X ∧ (X - A + 1) * (B - Y - 1) * F < 2147483648)) : K.forward M = .throw .length := by
  obtain ⟨_, _, hC0, hF0, hC, hF, hCF⟩ := Kernel.sizes hK
  have bM := hM.good.bounds
  have bW := hK.weights.good.bounds
  have neg : ∀ p q : Nat, ∀ u v : Int, 0 < p → 0 < q → p * q * F < 2147483648 →
      (u = -(p : Int) ∧ v = (q : Int)) ∨ (u = (p : Int) ∧ v = -(q : Int)) →
      vecSize ⟨u, v, (F : Int)⟩ = .throw .length := by
    intro p q u v hp hq hs huv
    have h1 : p * q ≤ p * q * F := Nat.le_mul_of_pos_right _ hF0
    have h2 : 0 < p * q := Nat.mul_pos hp hq
    have h3 : 0 < p * q * F := Nat.mul_pos h2 hF0
    have euv : u * v = -((p * q : Nat) : Int) := by
      rcases huv with ⟨rfl, rfl⟩ | ⟨rfl, rfl⟩ <;> push_cast <;> ring
    have ev : u * v * (F : Int) = -((p * q * F : Nat) : Int) := by rw [euv]; push_cast; ring
    unfold vecSize Dim3.volume
    simp only
    rw [euv, chk_ok (by unfold I32; omega), Res.bind_ok, ← euv, ev, chk_ok (by unfold I32; omega), Res.bind_ok,
      if_pos (by omega)]
  have hc : K.checkSize M = true := by
    unfold Kernel.checkSize; rw [hM.dim, hK.dim]; simp
  have ho : K.outputSize M = ⟨(X : Int) - A + 1, (Y : Int) - B + 1, (F : Int)⟩ := by
    unfold Kernel.outputSize
    rw [hM.dim, hK.dim, hK.num]
    simp only
    rw [wrap32_eq (by omega) (by omega), wrap32_eq (by omega) (by omega), wrap32_nat hF]
  have : vecSize (K.outputSize M) = .throw .length := by
    rw [ho]
    rcases h with ⟨h1, h2, h3⟩ | ⟨h1, h2, h3⟩
    · exact neg (A - X - 1) (Y - B + 1) _ _ (by omega) (by omega) h3 (Or.inl ⟨by omega, by omega⟩)
    · exact neg (X - A + 1) (B - Y - 1) _ _ (by omega) (by omega) h3 (Or.inr ⟨by omega, by omega⟩)
  unfold Kernel.forward
  rw [if_neg (by simp [hc])]
  unfold Matrix.ofDim
  rw [this]; rfl

/-- A 1×2×1 input and a 3×1×1 filter meet the hypotheses. -/
example : (1 + 1 < 3 ∧ 1 ≤ 2 ∧ (3 - 1 - 1) * (2 - 1 + 1) * 2 < 2147483648) := by decide

/-! ## C35 -/

/-- C35: the backward pass stores in slot `b` a weight and a bias gradient with: for every other layer `K₁` of the same sizes
(weights `w₁`, biases `β₁`), `∑ G * (K₁(X) - K(X)) = ∑ dW * (w₁ - w) + ∑ dB * (β₁ - β)`. Other slots, weights and biases
are unchanged. -/
theorem C35_gradients [CommRing α] (K : Kernel α) (w x g : Nat → Nat → Nat → α) (β : Nat → α) (M Q G : Matrix α) (b : Nat)
    (hK : K.Is A B C F 1 w β) (hM : M.Shows X Y C x) (hfit : ConvFits X Y A B F)
    (hG : G.Shows (X - A + 1) (Y - B + 1) F g) (hw : b < K.wGrads.length) (hb : b < K.bGrads.length) :
    ∃ K' dw, ∃ db : Nat → α, ∃ DW DB, K.backward M Q G b true = .ok (Matrix.empty, K') ∧
      K'.wGrads = K.wGrads.set b DW ∧ K'.bGrads = K.bGrads.set b DB ∧ K'.Is A B C F 1 w β ∧
      DW.Shows A B (C * F) dw ∧ DB.Shows F 1 1 (fun f _ _ => db f) ∧
      ∀ (K₁ : Kernel α) (w₁ : Nat → Nat → Nat → α) (β₁ : Nat → α), K₁.Is A B C F 1 w₁ β₁ →
        ∃ out out₁ o o₁, K.forward M = .ok out ∧ K₁.forward M = .ok out₁ ∧
          out.Shows (X - A + 1) (Y - B + 1) F o ∧ out₁.Shows (X - A + 1) (Y - B + 1) F o₁ ∧
          total (X - A + 1) (Y - B + 1) F (fun i j f => g i j f * (o₁ i j f - o i j f)) =
            total A B (C * F) (fun a b m => dw a b m * (w₁ a b m - w a b m)) +
              ∑ f ∈ Finset.range F, db f * (β₁ f - β f) := by
  obtain ⟨DW, eW, sW⟩ := Kernel.getdLdW_shows hK hM hfit hG
  obtain ⟨DB, eB, sB⟩ := Kernel.getdLdB_shows hK hG
  refine ⟨{ K with wGrads := K.wGrads.set b DW, bGrads := K.bGrads.set b DB }, _, _, DW, DB, ?_, rfl, rfl,
    ⟨hK.dim, hK.num, hK.stride, hK.weights, hK.biases⟩, sW, sB, ?_⟩
  · unfold Kernel.backward
    rw [eW, Res.bind_ok, setSlot, if_pos hw, Res.bind_ok, eB, Res.bind_ok, setSlot, if_pos hb]
    rfl
  · intro K₁ w₁ β₁ hK₁
    obtain ⟨out, e, s⟩ := C33_formula K w x β M hK hM hfit
    obtain ⟨out₁, e₁, s₁⟩ := C33_formula K₁ w₁ x β₁ M hK₁ hM hfit
    refine ⟨out, out₁, _, _, e, e₁, s, s₁, ?_⟩
    have hC := (Kernel.sizes hK).2.2.1
    simp only [sumTo2_eq]
    rw [← Kernel.adjoint_weights (X - A + 1) (Y - B + 1) A B C F hC x (fun a b m => w₁ a b m - w a b m) g]
    have hb : ∑ f ∈ Finset.range F, (∑ p ∈ Finset.range (X - A + 1), ∑ q ∈ Finset.range (Y - B + 1), g p q f) * (β₁ f - β f) =
        total (X - A + 1) (Y - B + 1) F (fun i j f => g i j f * (β₁ f - β f)) := by
      unfold total
      rw [← sum_rot]
      simp only [Finset.sum_mul]
    rw [hb]
    unfold total
    simp only [← Finset.sum_add_distrib]
    refine Finset.sum_congr rfl fun i _ => Finset.sum_congr rfl fun j _ => Finset.sum_congr rfl fun f _ => ?_
    rw [← mul_add]
    congr 1
    simp only [mul_sub, Finset.sum_sub_distrib]
    ring

/-! ## C36 -/

/-- C36, the full claim. -/
def C36_claim : Prop :=
  ∀ (X Y A B C F : Nat) (K : Kernel Int) (w x g : Nat → Nat → Nat → Int) (β : Nat → Int) (M Q G : Matrix Int) (b : Nat),
    K.Is A B C F 1 w β → M.Shows X Y C x → ConvFits X Y A B F → G.Shows (X - A + 1) (Y - B + 1) F g →
    b < K.wGrads.length → b < K.bGrads.length →
    ∃ K' D r, K.backward M Q G b false = .ok (D, K') ∧ D.Shows X Y C r ∧
      ∀ (M₁ : Matrix Int) (x₁ : Nat → Nat → Nat → Int), M₁.Shows X Y C x₁ →
        ∃ out out₁ o o₁, K.forward M = .ok out ∧ K.forward M₁ = .ok out₁ ∧
          out.Shows (X - A + 1) (Y - B + 1) F o ∧ out₁.Shows (X - A + 1) (Y - B + 1) F o₁ ∧
          total (X - A + 1) (Y - B + 1) F (fun i j f => g i j f * (o₁ i j f - o i j f)) =
            total X Y C (fun i j c => r i j c * (x₁ i j c - x i j c))

/-- C36 for square outputs: `∑ G * (K(X₁) - K(X)) = ∑ dX * (X₁ - X)` for every other input `X₁`.
Missing: non-square outputs (refuted below); and the zero-padded filter channel of the computation must fit an `int`. -/
theorem C36_input_partial [CommRing α] (K : Kernel α) (w x g : Nat → Nat → Nat → α) (β : Nat → α) (M Q G : Matrix α) (b : Nat)
    (hK : K.Is A B C F 1 w β) (hM : M.Shows X Y C x) (hfit : ConvFits X Y A B F) (hsq : X - A = Y - B)
    (hpad : (A + 2 * (X - A)) * (B + 2 * (Y - B)) < 2147483648)
    (hG : G.Shows (X - A + 1) (Y - B + 1) F g) (hw : b < K.wGrads.length) (hb : b < K.bGrads.length) :
    ∃ K' D r, K.backward M Q G b false = .ok (D, K') ∧ D.Shows X Y C r ∧
      ∀ (M₁ : Matrix α) (x₁ : Nat → Nat → Nat → α), M₁.Shows X Y C x₁ →
        ∃ out out₁ o o₁, K.forward M = .ok out ∧ K.forward M₁ = .ok out₁ ∧
          out.Shows (X - A + 1) (Y - B + 1) F o ∧ out₁.Shows (X - A + 1) (Y - B + 1) F o₁ ∧
          total (X - A + 1) (Y - B + 1) F (fun i j f => g i j f * (o₁ i j f - o i j f)) =
            total X Y C (fun i j c => r i j c * (x₁ i j c - x i j c)) := by
  obtain ⟨DW, eW, sW⟩ := Kernel.getdLdW_shows hK hM hfit hG
  obtain ⟨DB, eB, sB⟩ := Kernel.getdLdB_shows hK hG
  have hx := hfit.x
  have hy := hfit.y
  have hG' : G.Shows (X - A + 1) (X - A + 1) F g := by rw [hsq] at hG ⊢; exact hG
  obtain ⟨D, eD, sD⟩ := Kernel.getdLdX_shows hK hM (S := X - A + 1) (by omega) (by omega) (by omega) hG'
    (by rw [← hsq] at hpad; simpa using hpad)
  refine ⟨{ K with wGrads := K.wGrads.set b DW, bGrads := K.bGrads.set b DB }, D, _, ?_, sD, ?_⟩
  · unfold Kernel.backward
    rw [eW, Res.bind_ok, setSlot, if_pos hw, Res.bind_ok, eB, Res.bind_ok, setSlot, if_pos hb]
    simp only [Res.bind_ok, Bool.false_eq_true, if_false]
    rw [eD]; rfl
  · intro M₁ x₁ hM₁
    obtain ⟨out, e, s⟩ := C33_formula K w x β M hK hM hfit
    obtain ⟨out₁, e₁, s₁⟩ := C33_formula K w x₁ β M₁ hK hM₁ hfit
    refine ⟨out, out₁, _, _, e, e₁, s, s₁, ?_⟩
    simp only [sumTo_eq, Kernel.gradTerm_eq]
    rw [← Kernel.adjoint_input (S := X - A + 1) (by omega) (by omega) w (fun i j c => x₁ i j c - x i j c) g, ← hsq]
    refine total_congr fun i _ j _ f _ => ?_
    congr 1
    simp only [sub_mul, Finset.sum_sub_distrib]
    ring

/-- C36 fails for every non-square output: `rotate` throws `MatrixTransformException`. -/
theorem C36_nonsquare_throws [AddCommMonoid α] [Mul α] (K : Kernel α) (w x g : Nat → Nat → Nat → α) (β : Nat → α)
    (M Q G : Matrix α) (b : Nat) (hK : K.Is A B C F 1 w β) (hM : M.Shows X Y C x) (hfit : ConvFits X Y A B F)
    (hne : X - A ≠ Y - B) (hG : G.Shows (X - A + 1) (Y - B + 1) F g) (hw : b < K.wGrads.length)
    (hb : b < K.bGrads.length) : K.backward M Q G b false = .throw .matrixTransform := by
  obtain ⟨DW, eW, sW⟩ := Kernel.getdLdW_shows hK hM hfit hG
  obtain ⟨DB, eB, sB⟩ := Kernel.getdLdB_shows hK hG
  unfold Kernel.backward
  rw [eW, Res.bind_ok, setSlot, if_pos hw, Res.bind_ok, eB, Res.bind_ok, setSlot, if_pos hb]
  simp only [Res.bind_ok, Bool.false_eq_true, if_false]
  rw [Kernel.getdLdX_nonsquare hK hM hG (by omega)]
  rfl

/-- C36 is false of the code: a 3×1×1 input and a 2×1×1 filter (output 2×1). -/
theorem C36_violated : ¬ C36_claim := by
  intro h
  have hM : (⟨dimN 3 1 1, [1, 2, 3]⟩ : Matrix Int).Shows 3 1 1 (fun i _ _ => i + 1) :=
    Matrix.Shows.of_vals ⟨by decide, by decide, by decide, by decide⟩ rfl (by decide)
  have hG : (⟨dimN 2 1 2, [1, 1, 1, 1]⟩ : Matrix Int).Shows 2 1 2 (fun _ _ _ => 1) :=
    Matrix.Shows.of_vals ⟨by decide, by decide, by decide, by decide⟩ rfl (by decide)
  have hf : ConvFits 3 1 2 1 2 := ⟨by decide, by decide, by decide⟩
  obtain ⟨K', D, r, e, _⟩ := h 3 1 2 1 1 2 exampleKernel _ _ _ _ _ Matrix.empty _ 0 exampleKernel_is hM hf hG (by decide) (by decide)
  rw [C36_nonsquare_throws exampleKernel _ _ _ _ _ _ _ 0 exampleKernel_is hM hf (by decide) hG (by decide) (by decide)] at e
  simp at e

/-- The hypotheses of C35 and C36 are met by a 2×1×1 input (output 1×1×2). -/
example : ConvFits 2 1 2 1 2 ∧ 2 - 2 = 1 - 1 ∧ (2 + 2 * (2 - 2)) * (1 + 2 * (1 - 1)) < 2147483648 :=
  ⟨⟨by decide, by decide, by decide⟩, rfl, by decide⟩

example : (do
    let r ← exampleKernel.backward ⟨dimN 2 1 1, [3, 4]⟩ Matrix.empty ⟨dimN 1 1 2, [1, 1]⟩ 1 false
    .ok r.1) = .ok ⟨dimN 2 1 1, [3, 30]⟩ := by decide

end Cnn
