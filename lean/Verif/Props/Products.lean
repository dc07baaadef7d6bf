import Verif.Lemmas.ConvOutside
import Mathlib.Algebra.BigOperators.Ring.Finset
import Mathlib.Algebra.Ring.Rat
import Mathlib.Tactic.Ring
/-!
# C14 – C18: matrix product, transpose, rotation, convolution
-/
namespace Cnn
open MExpr
variable {α : Type} {X Y Z : Nat}

/-! ## C14 -/

/-- C14: `matrixMultiply` of an `X×K×Z` and a `K×Y×Z` operand, in the code's order of additions (valid for floating
point). -/
theorem C14_entries [Zero α] [Add α] [Mul α] {K : Nat} (A B : MExpr α) (f g : Nat → Nat → Nat → α)
    (hA : A.Shows X K Z f) (hB : B.Shows K Y Z g) (good : Good X Y Z) :
    ∃ E, matMul A B = .ok E ∧ E.Shows X Y Z (fun i j l => sumTo K (fun k => f i k l * g k j l)) :=
  matMul_shows hA hB good

/-- C14: in exact arithmetic the entries are `∑ₖ A(i,k,l)·B(k,j,l)`. -/
theorem C14_product [NonUnitalNonAssocSemiring α] {K : Nat} (A B : MExpr α) (f g : Nat → Nat → Nat → α)
    (hA : A.Shows X K Z f) (hB : B.Shows K Y Z g) (good : Good X Y Z) :
    ∃ E, matMul A B = .ok E ∧ E.Shows X Y Z (fun i j l => ∑ k ∈ Finset.range K, f i k l * g k j l) := by
  obtain ⟨E, e, s⟩ := matMul_shows hA hB good
  exact ⟨E, e, s.congr (fun i _ j _ k _ => sumTo_eq _ _)⟩

/-- C14: every other pair of shapes throws, and nothing is evaluated. -/
theorem C14_mismatch [Zero α] [Add α] [Mul α] (A B : MExpr α) (h : A.dim.z ≠ B.dim.z ∨ A.dim.y ≠ B.dim.x) :
    matMul A B = .throw .matrixSize :=
  matMulP_mismatch _ _ h

/-- C14: the product is associative. -/
theorem C14_assoc [NonUnitalSemiring α] {K L : Nat} (A B C : MExpr α) (f g h : Nat → Nat → Nat → α)
    (hA : A.Shows X K Z f) (hB : B.Shows K L Z g) (hC : C.Shows L Y Z h)
    (g1 : Good X L Z) (g2 : Good K Y Z) (g3 : Good X Y Z) :
    ∃ AB BC P Q p, matMul A B = .ok AB ∧ matMul AB C = .ok P ∧ matMul B C = .ok BC ∧ matMul A BC = .ok Q ∧
      P.Shows X Y Z p ∧ Q.Shows X Y Z p := by
  obtain ⟨AB, e1, s1⟩ := C14_product A B f g hA hB g1
  obtain ⟨P, e2, s2⟩ := C14_product AB C _ h s1 hC g3
  obtain ⟨BC, e3, s3⟩ := C14_product B C g h hB hC g2
  obtain ⟨Q, e4, s4⟩ := C14_product A BC f _ hA s3 g3
  refine ⟨AB, BC, P, Q, _, e1, e2, e3, e4, s2, s4.congr ?_⟩
  intro i _ j _ l _
  simp only [Finset.sum_mul, Finset.mul_sum]
  rw [Finset.sum_comm]
  exact Finset.sum_congr rfl (fun _ _ => Finset.sum_congr rfl (fun _ _ => (mul_assoc _ _ _).symm))

/-- C14: the product distributes over `+` on the left. -/
theorem C14_distrib_left [NonUnitalNonAssocSemiring α] {K : Nat} (A B C : MExpr α) (f g h : Nat → Nat → Nat → α)
    (hA : A.Shows X K Z f) (hB : B.Shows K Y Z g) (hC : C.Shows K Y Z h) (good : Good X Y Z) :
    ∃ S P AB AC Q p, bin (· + ·) B C = .ok S ∧ matMul A S = .ok P ∧ matMul A B = .ok AB ∧ matMul A C = .ok AC ∧
      bin (· + ·) AB AC = .ok Q ∧ P.Shows X Y Z p ∧ Q.Shows X Y Z p := by
  obtain ⟨S, e1, s1⟩ := bin_shows (· + ·) hB hC
  obtain ⟨P, e2, s2⟩ := C14_product A S f _ hA s1 good
  obtain ⟨AB, e3, s3⟩ := C14_product A B f g hA hB good
  obtain ⟨AC, e4, s4⟩ := C14_product A C f h hA hC good
  obtain ⟨Q, e5, s5⟩ := bin_shows (· + ·) s3 s4
  refine ⟨S, P, AB, AC, Q, _, e1, e2, e3, e4, e5, s2, s5.congr ?_⟩
  intro i _ j _ l _
  simp only [mul_add, Finset.sum_add_distrib]

/-- C14: the product distributes over `+` on the right. -/
theorem C14_distrib_right [NonUnitalNonAssocSemiring α] {K : Nat} (A B C : MExpr α) (f g h : Nat → Nat → Nat → α)
    (hA : A.Shows X K Z f) (hB : B.Shows X K Z g) (hC : C.Shows K Y Z h) (good : Good X Y Z) :
    ∃ S P AC BC Q p, bin (· + ·) A B = .ok S ∧ matMul S C = .ok P ∧ matMul A C = .ok AC ∧ matMul B C = .ok BC ∧
      bin (· + ·) AC BC = .ok Q ∧ P.Shows X Y Z p ∧ Q.Shows X Y Z p := by
  obtain ⟨S, e1, s1⟩ := bin_shows (· + ·) hA hB
  obtain ⟨P, e2, s2⟩ := C14_product S C _ h s1 hC good
  obtain ⟨AC, e3, s3⟩ := C14_product A C f h hA hC good
  obtain ⟨BC, e4, s4⟩ := C14_product B C g h hB hC good
  obtain ⟨Q, e5, s5⟩ := bin_shows (· + ·) s3 s4
  refine ⟨S, P, AC, BC, Q, _, e1, e2, e3, e4, e5, s2, s5.congr ?_⟩
  intro i _ j _ l _
  simp only [add_mul, Finset.sum_add_distrib]

/-- `[1 2; 3 4] · [5 6; 7 8] = [19 22; 43 50]` (storage is column by column). -/
example : (do
    let E ← matMul (⟨dimN 2 2 1, [1, 3, 2, 4]⟩ : Matrix Int).expr (⟨dimN 2 2 1, [5, 7, 6, 8]⟩ : Matrix Int).expr
    Matrix.ofExpr id E) = .ok ⟨dimN 2 2 1, [19, 43, 22, 50]⟩ := by decide

/-! ## C15 -/

/-- C15: `transpose` of a named operand. -/
theorem C15_transpose (A : MExpr α) (f : Nat → Nat → Nat → α) (hA : A.Shows X Y Z f) :
    (transpose A).Shows Y X Z (fun i j k => f j i k) := transpose_shows hA

/-- C15: transposing twice is the identity, on any operand whatsoever. -/
theorem C15_transpose_twice (A : MExpr α) :
    (transpose (transpose A)).dim = A.dim ∧ (transpose (transpose A)).get = A.get := ⟨rfl, rfl⟩

/-- C15: `(AB)ᵀ = BᵀAᵀ` over a commutative ring. -/
theorem C15_transpose_mul [CommSemiring α] {K : Nat} (A B : MExpr α) (f g : Nat → Nat → Nat → α)
    (hA : A.Shows X K Z f) (hB : B.Shows K Y Z g) (good : Good X Y Z) :
    ∃ AB Q p, matMul A B = .ok AB ∧ matMul (transpose B) (transpose A) = .ok Q ∧
      (transpose AB).Shows Y X Z p ∧ Q.Shows Y X Z p := by
  obtain ⟨AB, e1, s1⟩ := C14_product A B f g hA hB good
  obtain ⟨Q, e2, s2⟩ := C14_product _ _ _ _ (transpose_shows hB) (transpose_shows hA) (Good.swap good)
  refine ⟨AB, Q, _, e1, e2, transpose_shows s1, s2.congr ?_⟩
  intro i _ j _ l _
  exact Finset.sum_congr rfl (fun _ _ => mul_comm _ _)

/-- C15: what the three rotations do. -/
theorem C15_rotate (A : MExpr α) (f : Nat → Nat → Nat → α) (hA : A.Shows X X Z f) :
    (∃ E, rotate 1 A = .ok E ∧ E.Shows X X Z (fun i j k => f (X - 1 - j) i k)) ∧
    (∃ E, rotate 2 A = .ok E ∧ E.Shows X X Z (fun i j k => f (X - 1 - i) (X - 1 - j) k)) ∧
    (∃ E, rotate 3 A = .ok E ∧ E.Shows X X Z (fun i j k => f j (X - 1 - i) k)) := rotate_shows hA

/-- C15: four quarter turns are the identity. -/
theorem C15_rotate_four (A : MExpr α) (f : Nat → Nat → Nat → α) (hA : A.Shows X X Z f) :
    ∃ E, (rotate 1 A >>= rotate 1 >>= rotate 1 >>= rotate 1) = .ok E ∧ E.Shows X X Z f := by
  obtain ⟨E1, e1, s1⟩ := (rotate_shows hA).1
  obtain ⟨E2, e2, s2⟩ := (rotate_shows s1).1
  obtain ⟨E3, e3, s3⟩ := (rotate_shows s2).1
  obtain ⟨E4, e4, s4⟩ := (rotate_shows s3).1
  refine ⟨E4, by simp [e1, e2, e3, e4], s4.congr ?_⟩
  intro i hi j hj k _
  rw [show X - 1 - (X - 1 - i) = i by omega, show X - 1 - (X - 1 - j) = j by omega]

/-- C15: `rotate<2>` is two quarter turns. -/
theorem C15_rotate_two (A : MExpr α) (f : Nat → Nat → Nat → α) (hA : A.Shows X X Z f) :
    ∃ E F p, (rotate 1 A >>= rotate 1) = .ok E ∧ rotate 2 A = .ok F ∧ E.Shows X X Z p ∧ F.Shows X X Z p := by
  obtain ⟨E1, e1, s1⟩ := (rotate_shows hA).1
  obtain ⟨E2, e2, s2⟩ := (rotate_shows s1).1
  obtain ⟨F, e3, s3⟩ := (rotate_shows hA).2.1
  exact ⟨E2, F, _, by simp [e1, e2], e3, s2, s3.congr (fun i hi j hj k _ => rfl)⟩

/-- C15: `rotate<3>` undoes `rotate<1>` and vice versa. -/
theorem C15_rotate_three (A : MExpr α) (f : Nat → Nat → Nat → α) (hA : A.Shows X X Z f) :
    (∃ E, (rotate 1 A >>= rotate 3) = .ok E ∧ E.Shows X X Z f) ∧
    (∃ E, (rotate 3 A >>= rotate 1) = .ok E ∧ E.Shows X X Z f) := by
  obtain ⟨E1, e1, s1⟩ := (rotate_shows hA).1
  obtain ⟨E2, e2, s2⟩ := (rotate_shows s1).2.2
  obtain ⟨F1, e3, s3⟩ := (rotate_shows hA).2.2
  obtain ⟨F2, e4, s4⟩ := (rotate_shows s3).1
  refine ⟨⟨E2, by simp [e1, e2], s2.congr ?_⟩, ⟨F2, by simp [e3, e4], s4.congr ?_⟩⟩
  · intro i hi j hj k _
    rw [show X - 1 - (X - 1 - i) = i by omega]
  · intro i hi j hj k _
    rw [show X - 1 - (X - 1 - j) = j by omega]

/-- C15: a non-square operand throws. -/
theorem C15_rotate_nonsquare (n : Nat) (A : MExpr α) (h : A.dim.x ≠ A.dim.y) :
    rotate n A = .throw .matrixTransform := rotate_nonsquare n h

/-- A quarter turn of `[1 2; 3 4]` is `[3 1; 4 2]`. -/
example : (do
    let E ← rotate 1 (⟨dimN 2 2 1, [1, 3, 2, 4]⟩ : Matrix Int).expr
    Matrix.ofExpr id E) = .ok ⟨dimN 2 2 1, [3, 4, 1, 2]⟩ := by decide

/-! ## C16 -/

/-- The full claim for `transpose` of a temporary. -/
def C16_transpose_claim : Prop := ∀ (A : MExpr Int) (X Y Z : Nat) (f : Nat → Nat → Nat → Int), A.Shows X Y Z f →
  (transposeTemp A).Shows Y X Z (fun i j k => f j i k)

/-- The full claim for `matrixMultiply` in every order of argument evaluation. -/
def C16_matMul_claim : Prop := ∀ (p q : Pass) (A B : MExpr Int) (X Y Z K : Nat) (f g : Nat → Nat → Nat → Int),
  A.Shows X K Z f → B.Shows K Y Z g → Good X Y Z →
  ∃ E, matMulP p q A B = .ok E ∧ E.Shows X Y Z (fun i j l => ∑ k ∈ Finset.range K, f i k l * g k j l)

/-- For every operand – not only for a witness – `transpose` of a temporary has dimensions `(0, 0, Z)`. -/
theorem C16_transpose_temp_dims (A : MExpr α) (f : Nat → Nat → Nat → α) (hA : A.Shows X Y Z f) :
    (transposeTemp A).dim = dimN 0 0 Z := by
  simp [transposeTemp, Dim3.move, hA.dim]
  exact ⟨rfl, rfl⟩

/-- For every pair of operands: a left operand moved before the dimensions are read gives a product of `0` rows. -/
theorem C16_matMul_early_dims [Zero α] [Add α] [Mul α] {K : Nat} (A B : MExpr α) (f g : Nat → Nat → Nat → α)
    (hA : A.Shows X K Z f) (hB : B.Shows K Y Z g) :
    (∃ E, matMulP .movedEarly .kept A B = .ok E ∧ E.dim = dimN 0 Y 0) ∧
    (∃ E, matMulP .kept .movedEarly A B = .ok E ∧ E.dim = dimN X 0 Z) := by
  have c : ¬ ((A.dim.z ≠ B.dim.z || A.dim.y ≠ B.dim.x) = true) := by simp [hA.dim, hB.dim]
  refine ⟨⟨_, by rw [matMulP, if_neg c], ?_⟩, ⟨_, by rw [matMulP, if_neg c], ?_⟩⟩
  · simp [Pass.dim, Dim3.move, hB.dim]
    exact ⟨rfl, rfl⟩
  · simp [Pass.dim, Dim3.move, hA.dim]
    rfl

private theorem one_shows : ((⟨dimN 1 1 1, [7]⟩ : Matrix Int).expr).Shows 1 1 1 (fun _ _ _ => 7) := by
  refine Matrix.Shows.expr (M := ⟨dimN 1 1 1, [7]⟩)
    ⟨⟨by decide, by decide, by decide, by decide⟩, rfl, rfl, ?_⟩
  intro i hi j hj k hk
  obtain rfl : i = 0 := by omega
  obtain rfl : j = 0 := by omega
  obtain rfl : k = 0 := by omega
  rfl

theorem C16_transpose_violated : ¬ C16_transpose_claim := by
  intro h
  have := (h _ 1 1 1 _ one_shows).dim
  rw [C16_transpose_temp_dims _ _ one_shows] at this
  exact absurd this (by decide)

theorem C16_matMul_violated : ¬ C16_matMul_claim := by
  intro h
  obtain ⟨E, e, s⟩ := h .movedEarly .kept _ _ 1 1 1 1 _ _ one_shows one_shows
    ⟨by decide, by decide, by decide, by decide⟩
  obtain ⟨E', e', d⟩ := (C16_matMul_early_dims _ _ _ _ one_shows one_shows).1
  rw [e] at e'
  injection e' with e'
  subst e'
  rw [s.dim] at d
  exact absurd d (by decide)

/-- Storing the transpose of a temporary writes outside the (empty) storage. -/
theorem C16_violation_store :
    Matrix.ofExpr id (transposeTemp (⟨dimN 1 1 1, [7]⟩ : Matrix Int).expr) = .ub := by decide

/-- C16 as far as it holds: `matrixMultiply` on temporaries is right whenever the operands are moved after the
dimension argument is computed; `transpose` of a temporary reads the right entries (only its dimensions are
wrong). Missing: early moves, dimensions of `transpose` of a temporary (both refuted above). -/
theorem C16_temporaries_partial [Zero α] [Add α] [Mul α] {K : Nat} (A B : MExpr α) (f g : Nat → Nat → Nat → α)
    (hA : A.Shows X K Z f) (hB : B.Shows K Y Z g) (good : Good X Y Z) :
    (∀ p q : Pass, p ≠ .movedEarly → q ≠ .movedEarly →
      ∃ E, matMulP p q A B = .ok E ∧ E.Shows X Y Z (fun i j l => sumTo K (fun k => f i k l * g k j l))) ∧
    (∀ i < K, ∀ j < X, ∀ k < Z, (transposeTemp A).get (dimN i j k) = .ok (f j i k)) :=
  ⟨fun p q hp hq => matMulP_shows p q hp hq hA hB good, fun i hi j hj k hk => hA.entry j hj i hi k hk⟩

/-! ## C17 -/

/-- C17: `convolve` at stride 1, in the code's order of additions. -/
theorem C17_entries [Zero α] [Add α] [Mul α] {a b : Nat} (A B : MExpr α) (f g : Nat → Nat → Nat → α)
    (hA : A.Shows X Y 1 f) (hB : B.Shows a b 1 g) (ha : a ≤ X) (hb : b ≤ Y) :
    ∃ E, convolve A B ⟨1, 1⟩ = .ok E ∧
      E.Shows (X - a + 1) (Y - b + 1) 1 (fun i j _ => sumTo2 a b (fun x y => f (i + x) (j + y) 0 * g x y 0)) :=
  convolve_shows hA hB ha hb

/-- C17: in exact arithmetic, the valid cross-correlation. -/
theorem C17_convolve [NonUnitalNonAssocSemiring α] {a b : Nat} (A B : MExpr α) (f g : Nat → Nat → Nat → α)
    (hA : A.Shows X Y 1 f) (hB : B.Shows a b 1 g) (ha : a ≤ X) (hb : b ≤ Y) :
    ∃ E, convolve A B ⟨1, 1⟩ = .ok E ∧
      E.Shows (X - a + 1) (Y - b + 1) 1
        (fun i j _ => ∑ x ∈ Finset.range a, ∑ y ∈ Finset.range b, f (i + x) (j + y) 0 * g x y 0) := by
  obtain ⟨E, e, s⟩ := convolve_shows hA hB ha hb
  exact ⟨E, e, s.congr (fun i _ j _ k _ => sumTo2_eq _ _ _)⟩

/-- C17: a non-flat operand stops the program. -/
theorem C17_not_flat [Zero α] [Add α] [Mul α] (A B : MExpr α) (s : Dim2) (h : A.dim.z ≠ 1 ∨ B.dim.z ≠ 1) :
    convolve A B s = .abort := by
  unfold convolve Matrix.isFlatD
  rcases h with h | h <;> simp [h]

/-- A 3×1 convolved with a 2×1. -/
example : (do
    let E ← convolve (⟨dimN 3 1 1, [1, 2, 3]⟩ : Matrix Int).expr (⟨dimN 2 1 1, [10, 1]⟩ : Matrix Int).expr ⟨1, 1⟩
    Matrix.ofExpr id E) = .ok ⟨dimN 2 1 1, [12, 23]⟩ := by decide

/-! ## C18 -/

/-- The full claim C18 for `convolve`. -/
def C18_claim : Prop := ∀ (A B : Matrix Int) (X Y a b s : Nat) (f g : Nat → Nat → Nat → Int), 0 < s →
  A.Shows X Y 1 f → B.Shows a b 1 g → a ≤ X → b ≤ Y →
  ∃ E, convolve A.expr B.expr ⟨s, s⟩ = .ok E ∧ E.Shows ((X - a) / s + 1) ((Y - b) / s + 1) 1
    (fun i j _ => ∑ x ∈ Finset.range a, ∑ y ∈ Finset.range b, f (i * s + x) (j * s + y) 0 * g x y 0)

/-- For every stride `≥ 2` and every filter smaller than the input, `convolve` announces too many entries, and
computing the last of them reads outside the input matrix. -/
theorem C18_always_outside [Zero α] [Add α] [Mul α] {a b s : Nat} (A B : Matrix α) (f g : Nat → Nat → Nat → α)
    (hA : A.Shows X Y 1 f) (hB : B.Shows a b 1 g) (ha : a ≤ X) (hb : b ≤ Y) (hlt : a < X ∨ b < Y)
    (hs : 2 ≤ s) (hs' : s < 2147483648) :
    ∃ E, convolve A.expr B.expr ⟨s, s⟩ = .ok E ∧ E.dim = dimN (X - a + 1) (Y - b + 1) 1 ∧
      E.get (dimN (X - a) (Y - b) 0) = .ub := by
  have hdA : A.expr.dim = dimN X Y 1 := hA.dim
  have hdB : B.expr.dim = dimN a b 1 := hB.dim
  exact ⟨_, by simp only [convolve, Matrix.isFlatD, hdA, hdB]; rfl, by simp; omega,
    convEntry_outside A B f g hA hB ha hb hlt hs hs'⟩

theorem C18_violated : ¬ C18_claim := by
  intro h
  have sA : (⟨dimN 3 1 1, [1, 2, 3]⟩ : Matrix Int).Shows 3 1 1 (fun i _ _ => 1 + i) :=
    Matrix.Shows.of_vals ⟨by decide, by decide, by decide, by decide⟩ rfl (by decide)
  have sB : (⟨dimN 1 1 1, [7]⟩ : Matrix Int).Shows 1 1 1 (fun _ _ _ => 7) :=
    Matrix.Shows.of_vals ⟨by decide, by decide, by decide, by decide⟩ rfl (by decide)
  obtain ⟨E, e, s⟩ := h _ _ 3 1 1 1 2 _ _ (by decide) sA sB (by decide) (by decide)
  obtain ⟨E', e', d, _⟩ := C18_always_outside _ _ _ _ sA sB (by decide) (by decide) (by decide) (s := 2)
    (by decide) (by decide)
  rw [e] at e'
  injection e' with e'
  subst e'
  rw [s.dim] at d
  exact absurd d (by decide)

/-- C18 as far as it holds: an entry whose window lies inside the input is the sampled stride-1 value, and at
stride 1 the whole claim holds (`C17_convolve`). Missing: output size and reads of the other entries for strides
`≥ 2` (refuted above). -/
theorem C18_entry_partial [NonUnitalNonAssocSemiring α] {a b : Nat} (sx sy : Nat) (A B : MExpr α)
    (f g : Nat → Nat → Nat → α) (hA : A.Shows X Y 1 f) (hB : B.Shows a b 1 g) {i j : Nat}
    (hi : i * sx + a ≤ X) (hj : j * sy + b ≤ Y) :
    ∃ E, convolve A B ⟨sx, sy⟩ = .ok E ∧ E.get (dimN i j 0) =
      .ok (∑ x ∈ Finset.range a, ∑ y ∈ Finset.range b, f (i * sx + x) (j * sy + y) 0 * g x y 0) := by
  refine ⟨_, by simp only [convolve, Matrix.isFlatD, hA.dim, hB.dim]; rfl, ?_⟩
  rw [← sumTo2_eq]
  exact convEntry_eq hA hB sx sy hi hj

end Cnn
