import Verif.Lemmas.Reduce
import Mathlib.Tactic.NormNum.GCD
import Mathlib.Algebra.Order.Ring.Rat
import Mathlib.Algebra.Order.Field.Basic
import Mathlib.Analysis.SpecialFunctions.Pow.Real
/-!
# C19 – C22: dot product, reductions, equality
-/
namespace Cnn
open MExpr
variable {α β : Type} {X Y Z : Nat}

/-! ## C19 -/

/-- The full claim C19 for floating entries (taken as exact rationals): whatever `dot` returns is the sum of the
products. -/
def C19_claim : Prop := ∀ (A B : MExpr ℚ) (n : Nat) (v w : Nat → ℚ), IsVec A n v → IsVec B n w →
  ∀ r, dot stepRat A B = .ok r → (r : ℚ) = ∑ k ∈ Finset.range n, v k * w k

/-- C19, `int` entries: `dot` is the sum of the products whenever neither a product nor a partial sum leaves the range
of `int`. Row·row, row·column, column·row and column·column are all covered by `IsVec`. -/
theorem C19_int (A B : MExpr Int) (n : Nat) (v w : Nat → Int) (hA : IsVec A n v) (hB : IsVec B n w)
    (hp : ∀ k < n, I32 (v k * w k)) (hs : ∀ m ≤ n, I32 (∑ k ∈ Finset.range m, v k * w k)) :
    dot stepInt A B = .ok (∑ k ∈ Finset.range n, v k * w k) := by
  rw [dot_eq_fold stepInt hA hB]
  obtain ⟨s, e, h⟩ := foldlM_range_inv (fun m s => s = ∑ k ∈ Finset.range m, v k * w k) n
    (fun acc k => stepInt acc (v k) (w k)) 0 (by simp) (by
      rintro m hm s rfl
      refine ⟨_, ?_, rfl⟩
      simp only [stepInt, chk_ok (hp m hm), Res.bind_ok]
      rw [Finset.sum_range_succ]
      have := hs (m + 1) (by omega)
      rw [Finset.sum_range_succ] at this
      exact chk_ok this)
  rw [e, h]

/-- C19: anything but two vectors of equal length throws. -/
theorem C19_mismatch (step : Int → α → β → Res Int) {X' Y' Z' : Nat} (A : MExpr α) (B : MExpr β)
    (f : Nat → Nat → Nat → α) (g : Nat → Nat → Nat → β) (hA : A.Shows X Y Z f) (hB : B.Shows X' Y' Z' g)
    (h : X * Y * Z ≠ X' * Y' * Z' ∨ Z ≠ 1 ∨ Z' ≠ 1 ∨ (X ≠ 1 ∧ Y ≠ 1) ∨ (X' ≠ 1 ∧ Y' ≠ 1)) :
    dot step A B = .throw .matrixSize := by
  unfold dot
  rw [hA.dim, hB.dim, sizeD_dimN hA.good, sizeD_dimN hB.good]
  simp only [Res.bind_ok]
  rw [if_pos]
  simp only [ne_eq, decide_not, Bool.or_eq_true, Bool.not_eq_true', decide_eq_false_iff_not, Bool.and_eq_true]
  norm_cast
  tauto

private theorem one_isVec (q : ℚ) : IsVec ((⟨dimN 1 1 1, [q]⟩ : Matrix ℚ).expr) 1 (fun _ => q) := by
  left
  refine Matrix.Shows.expr (M := ⟨dimN 1 1 1, [q]⟩)
    ⟨⟨by decide, by decide, by decide, by decide⟩, rfl, rfl, ?_⟩
  intro i hi j hj k hk
  obtain rfl : i = 0 := by omega
  obtain rfl : j = 0 := by omega
  obtain rfl : k = 0 := by omega
  rfl

/-- C19 is false for floating entries: `dot([0.5],[1])` is `0`. -/
theorem C19_violated : ¬ C19_claim := by
  intro h
  have hd : dot stepRat ((⟨dimN 1 1 1, [1 / 2]⟩ : Matrix ℚ).expr) ((⟨dimN 1 1 1, [1]⟩ : Matrix ℚ).expr) = .ok 0 := by
    rw [dot_eq_fold stepRat (one_isVec _) (one_isVec _)]
    have : stepRat 0 (1 / 2) 1 = .ok 0 := by
      have : truncQ (((0 : Int) : ℚ) + 1 / 2 * 1) = 0 := by
        have : (((0 : Int) : ℚ) + 1 / 2 * 1) = 1 / 2 := by norm_num
        rw [this, truncQ, show (1 / 2 : ℚ).num = 1 by norm_num, show (1 / 2 : ℚ).den = 2 by norm_num]; rfl
      unfold stepRat
      rw [this]; rfl
    rw [show List.range 1 = [0] from rfl, List.foldlM_cons, this]; rfl
  have := h _ _ 1 _ _ (one_isVec _) (one_isVec _) 0 hd
  norm_num at this

theorem truncQ_int (z : Int) : truncQ (z : ℚ) = z := by simp [truncQ]

/-- C19 as far as it holds for floating entries: exact when every partial sum is an integer in the range of `int`.
Missing: fractional partial sums (refuted above). -/
theorem C19_floating_partial (A B : MExpr ℚ) (n : Nat) (v w : Nat → ℚ) (hA : IsVec A n v) (hB : IsVec B n w)
    (z : Nat → Int) (hz : ∀ m ≤ n, (z m : ℚ) = ∑ k ∈ Finset.range m, v k * w k) (hr : ∀ m ≤ n, I32 (z m)) :
    dot stepRat A B = .ok (z n) := by
  rw [dot_eq_fold stepRat hA hB]
  obtain ⟨s, e, h⟩ := foldlM_range_inv (fun m s => m ≤ n → s = z m) n
    (fun acc k => stepRat acc (v k) (w k)) 0 (fun h => by
      have := hz 0 h; simp at this; exact this.symm) (by
      intro m hm s hs
      refine ⟨z (m + 1), ?_, fun _ => rfl⟩
      rw [hs (by omega)]
      unfold stepRat
      have e : ((z m : Int) : ℚ) + v m * w m = (z (m + 1) : Int) := by
        rw [hz m (by omega), hz (m + 1) (by omega), Finset.sum_range_succ]
      rw [e, truncQ_int]
      exact chk_ok (hr _ (by omega)))
  rw [e, h (le_refl _)]

/-- Row times column: `(1,2,3)·(4,5,6)ᵀ = 32`. -/
example : dot stepInt (⟨dimN 1 3 1, [1, 2, 3]⟩ : Matrix Int).expr (⟨dimN 3 1 1, [4, 5, 6]⟩ : Matrix Int).expr = .ok 32 := by
  decide

/-! ## C20 -/

/-- C20: `sum` adds all entries in storage order (floating point included) … -/
theorem C20_sum_order [Zero α] [Add α] (A : MExpr α) (f : Nat → Nat → Nat → α) (hA : A.Shows X Y Z f) :
    A.sum = .ok (sumTo (X * Y * Z) (fun n => f (n % X) (n / X % Y) (n / X / Y))) := sum_eq_sumTo hA

/-- … and in exact arithmetic is the sum over all indices. -/
theorem C20_sum [AddCommMonoid α] (A : MExpr α) (f : Nat → Nat → Nat → α) (hA : A.Shows X Y Z f) :
    A.sum = .ok (∑ i ∈ Finset.range X, ∑ j ∈ Finset.range Y, ∑ k ∈ Finset.range Z, f i j k) := sum_eq_total hA

/-- C20: `max`, `maxIndex` and the member `maxIndex()` all refer to one entry `(i,j,k)` inside the matrix, which is
greatest, and strictly greater than every entry stored before it. -/
theorem C20_max [LinearOrder α] (A : MExpr α) (f : Nat → Nat → Nat → α) (hA : A.Shows X Y Z f) :
    ∃ i j k, i < X ∧ j < Y ∧ k < Z ∧
      A.max (fun a b => decide (a < b)) = .ok (f i j k) ∧
      A.maxIndex (fun a b => decide (a < b)) = .ok (dimN i j k) ∧
      A.maxIndexFlat (fun a b => decide (a < b)) = .ok (i + j * X + k * (X * Y)) ∧
      (∀ i' < X, ∀ j' < Y, ∀ k' < Z, f i' j' k' ≤ f i j k) ∧
      (∀ i' < X, ∀ j' < Y, ∀ k' < Z, i' + j' * X + k' * (X * Y) < i + j * X + k * (X * Y) → f i' j' k' < f i j k) := by
  obtain ⟨i, j, k, hi, hj, hk, e, h1, h2⟩ := bestElem_idx _ weakOrd_lt hA
  refine ⟨i, j, k, hi, hj, hk, ?_, ?_, ?_, ?_, ?_⟩
  · rw [MExpr.max, e, Res.bind_ok]
    exact hA.deref i hi j hj k hk
  · rw [MExpr.maxIndex, e, Res.bind_ok]
  · rw [MExpr.maxIndexFlat, e, Res.bind_ok]
    have hd := iterAt_diff (X := X) (Y := Y) (Z := Z) (n := fl X Y i j k) hA.good.x hA.good.y
    rw [iterAt_dimN hA.good.x hA.good.y, unflat_fl hi hj] at hd
    rw [hA.dim, hd]
    have := fl_lt hi hj hk
    have := hA.good.small
    rw [u64_nat (by omega)]
    rfl
  · intro i' hi' j' hj' k' hk'
    simpa using h1 i' hi' j' hj' k' hk'
  · intro i' hi' j' hj' k' hk' h
    simpa using h2 i' hi' j' hj' k' hk' h

/-- C20: the same for the least entry. -/
theorem C20_min [LinearOrder α] (A : MExpr α) (f : Nat → Nat → Nat → α) (hA : A.Shows X Y Z f) :
    ∃ i j k, i < X ∧ j < Y ∧ k < Z ∧
      A.min (fun a b => decide (a < b)) = .ok (f i j k) ∧
      A.minIndex (fun a b => decide (a < b)) = .ok (dimN i j k) ∧
      A.minIndexFlat (fun a b => decide (a < b)) = .ok (i + j * X + k * (X * Y)) ∧
      (∀ i' < X, ∀ j' < Y, ∀ k' < Z, f i j k ≤ f i' j' k') ∧
      (∀ i' < X, ∀ j' < Y, ∀ k' < Z, i' + j' * X + k' * (X * Y) < i + j * X + k * (X * Y) → f i j k < f i' j' k') := by
  obtain ⟨i, j, k, hi, hj, hk, e, h1, h2⟩ := bestElem_idx _ weakOrd_gt hA
  refine ⟨i, j, k, hi, hj, hk, ?_, ?_, ?_, ?_, ?_⟩
  · rw [MExpr.min, e, Res.bind_ok]
    exact hA.deref i hi j hj k hk
  · rw [MExpr.minIndex, e, Res.bind_ok]
  · rw [MExpr.minIndexFlat, e, Res.bind_ok]
    have hd := iterAt_diff (X := X) (Y := Y) (Z := Z) (n := fl X Y i j k) hA.good.x hA.good.y
    rw [iterAt_dimN hA.good.x hA.good.y, unflat_fl hi hj] at hd
    rw [hA.dim, hd]
    have := fl_lt hi hj hk
    have := hA.good.small
    rw [u64_nat (by omega)]
    rfl
  · intro i' hi' j' hj' k' hk'
    simpa using h1 i' hi' j' hj' k' hk'
  · intro i' hi' j' hj' k' hk' h
    simpa using h2 i' hi' j' hj' k' hk' h

/-- C20: with any comparison at all – NaN entries included – `max`, `maxIndex` and `maxIndex()` return an entry and
an index inside the matrix. -/
theorem C20_max_inside (lt : α → α → Bool) (A : MExpr α) (f : Nat → Nat → Nat → α) (hA : A.Shows X Y Z f) :
    ∃ i j k, i < X ∧ j < Y ∧ k < Z ∧ A.max lt = .ok (f i j k) ∧ A.maxIndex lt = .ok (dimN i j k) := by
  obtain ⟨n, hn, e⟩ := bestElem_inside (fun a b => lt a b) hA
  obtain ⟨u1, u2, u3⟩ := unflat_lt hA.good.x hA.good.y hn
  refine ⟨_, _, _, u1, u2, u3, ?_, ?_⟩
  · rw [MExpr.max, e, Res.bind_ok]; exact hA.deref_flat hn
  · rw [MExpr.maxIndex, e, Res.bind_ok, iterAt_dimN hA.good.x hA.good.y]; rfl

/-- C20: `mean` of a floating matrix is sum over size. -/
theorem C20_mean [Field α] (A : MExpr α) (f : Nat → Nat → Nat → α) (hA : A.Shows X Y Z f) :
    A.mean (fun n => (n : α)) = .ok ((∑ i ∈ Finset.range X, ∑ j ∈ Finset.range Y, ∑ k ∈ Finset.range Z, f i j k) /
      ((X * Y * Z : Nat) : α)) := by
  rw [MExpr.mean, sum_eq_total hA, hA.dim, sizeD_dimN hA.good]; rfl

/-- C20: `l2Norm` is the root of the sum of the squares. -/
theorem C20_l2Norm (A : MExpr ℝ) (f : Nat → Nat → Nat → ℝ) (hA : A.Shows X Y Z f) :
    A.l2Norm Real.sqrt =
      .ok (Real.sqrt (∑ i ∈ Finset.range X, ∑ j ∈ Finset.range Y, ∑ k ∈ Finset.range Z, f i j k ^ 2)) := by
  obtain ⟨E, e, s⟩ := bin_shows (· * ·) hA hA
  rw [MExpr.l2Norm, e, Res.bind_ok, sum_eq_total s]
  simp only [Res.bind_ok, total, pow_two]

/-- C20 for a matrix as it is stored: what its entries read as is what is added up and compared. -/
theorem C20_matrix [Field α] [LinearOrder α] (M : Matrix α) (f : Nat → Nat → Nat → α) (hM : M.Shows X Y Z f) :
    M.expr.sum = .ok (∑ i ∈ Finset.range X, ∑ j ∈ Finset.range Y, ∑ k ∈ Finset.range Z, f i j k) ∧
    M.expr.mean (fun n => (n : α)) = .ok ((∑ i ∈ Finset.range X, ∑ j ∈ Finset.range Y, ∑ k ∈ Finset.range Z, f i j k) / ((X * Y * Z : Nat) : α)) ∧
    ∃ i j k i' j' k', i < X ∧ j < Y ∧ k < Z ∧ i' < X ∧ j' < Y ∧ k' < Z ∧
      M.expr.max (fun a b => decide (a < b)) = .ok (f i j k) ∧ M.expr.min (fun a b => decide (a < b)) = .ok (f i' j' k') ∧
      ∀ a < X, ∀ b < Y, ∀ c < Z, f i' j' k' ≤ f a b c ∧ f a b c ≤ f i j k := by
  refine ⟨C20_sum _ f hM.expr, C20_mean _ f hM.expr, ?_⟩
  obtain ⟨i, j, k, hi, hj, hk, e, -, -, h, -⟩ := C20_max _ f hM.expr
  obtain ⟨i', j', k', hi', hj', hk', e', -, -, h', -⟩ := C20_min _ f hM.expr
  exact ⟨i, j, k, i', j', k', hi, hj, hk, hi', hj', hk', e, e', fun a ha b hb c hc => ⟨h' a ha b hb c hc, h a ha b hb c hc⟩⟩

/-- The first maximum of `(3, 9, 9, 1)` stored as 2×2 is at row 1, column 0. -/
example : (⟨dimN 2 2 1, [3, 9, 9, 1]⟩ : Matrix Int).expr.maxIndex (fun a b => decide (a < b)) = .ok (dimN 1 0 0) := by
  decide

/-! ## C21 -/

/-- The full claim C21: the mean of an `int` matrix is the truncated quotient of sum and size (when the sum does not
overflow). -/
def C21_claim : Prop := ∀ (A : MExpr Int) (X Y Z : Nat) (f : Nat → Nat → Nat → Int), A.Shows X Y Z f →
  (∀ n ≤ X * Y * Z, I32 (sumTo n (fun n => f (n % X) (n / X % Y) (n / X / Y)))) →
  ∃ r : Nat, A.meanInt = .ok r ∧ (r : Int) = (total X Y Z f).tdiv (X * Y * Z : Nat)

/-- What the code computes instead, for every matrix: the sum modulo 2^64 divided by the size. -/
theorem C21_exact (A : MExpr Int) (f : Nat → Nat → Nat → Int) (hA : A.Shows X Y Z f)
    (hs : ∀ n ≤ X * Y * Z, I32 (sumTo n (fun n => f (n % X) (n / X % Y) (n / X / Y)))) :
    A.meanInt = .ok ((total X Y Z f % 18446744073709551616).toNat / (X * Y * Z)) := by
  have g := hA.good
  have : X * Y * Z ≠ 0 := (Nat.mul_pos (Nat.mul_pos g.x g.y) g.z).ne'
  rw [MExpr.meanInt, sumInt_eq hA hs, hA.dim, Res.bind_ok, sizeD_dimN g, Res.bind_ok, if_neg this]
  rfl

/-- C21 is false for every matrix with a negative sum: the result is not the average. -/
theorem C21_negative_wrong (A : MExpr Int) (f : Nat → Nat → Nat → Int) (hA : A.Shows X Y Z f)
    (hs : ∀ n ≤ X * Y * Z, I32 (sumTo n (fun n => f (n % X) (n / X % Y) (n / X / Y))))
    (hneg : total X Y Z f < 0) :
    ∃ r : Nat, A.meanInt = .ok r ∧ 4294967296 ≤ r ∧ (r : Int) ≠ (total X Y Z f).tdiv (X * Y * Z : Nat) := by
  have g := hA.good
  refine ⟨_, C21_exact A f hA hs, ?_⟩
  have hpos : 0 < X * Y * Z := Nat.mul_pos (Nat.mul_pos g.x g.y) g.z
  have hsm := g.small
  have htot : I32 (total X Y Z f) := by
    have := hs _ (le_refl _)
    rwa [sumTo_eq, sum_flat] at this
  obtain ⟨hlo, hhi⟩ := htot
  have hbig : 4294967296 ≤ (total X Y Z f % 18446744073709551616).toNat / (X * Y * Z) := by
    rw [Nat.le_div_iff_mul_le hpos]
    have : 18446744071562067968 ≤ (total X Y Z f % 18446744073709551616).toNat := by omega
    have : 4294967296 * (X * Y * Z) ≤ 4294967296 * 2147483648 := Nat.mul_le_mul_left _ hsm.le
    omega
  refine ⟨hbig, ?_⟩
  have hle : (total X Y Z f).tdiv (X * Y * Z : Nat) ≤ 0 := by
    have := Int.tdiv_nonneg (a := -total X Y Z f) (b := ((X * Y * Z : Nat) : Int)) (by omega) (by omega)
    rw [Int.neg_tdiv] at this
    omega
  intro h
  omega

private theorem neg_shows : ((⟨dimN 1 1 1, [-1]⟩ : Matrix Int).expr).Shows 1 1 1 (fun _ _ _ => -1) := by
  refine Matrix.Shows.expr (M := ⟨dimN 1 1 1, [-1]⟩)
    ⟨⟨by decide, by decide, by decide, by decide⟩, rfl, rfl, ?_⟩
  intro i hi j hj k hk
  obtain rfl : i = 0 := by omega
  obtain rfl : j = 0 := by omega
  obtain rfl : k = 0 := by omega
  rfl

theorem C21_violated : ¬ C21_claim := by
  intro h
  have safe : ∀ n ≤ 1 * 1 * 1, I32 (sumTo n (fun _ => (-1 : Int))) := by decide
  obtain ⟨r, e, hr⟩ := h _ 1 1 1 _ neg_shows safe
  obtain ⟨r', e', _, hr'⟩ := C21_negative_wrong _ _ neg_shows safe (by simp [total])
  rw [e] at e'
  injection e' with e'
  subst e'
  exact hr' hr

/-- C21 as far as it holds: non-negative sums. Missing: negative sums (refuted above). -/
theorem C21_mean_partial (A : MExpr Int) (f : Nat → Nat → Nat → Int) (hA : A.Shows X Y Z f)
    (hs : ∀ n ≤ X * Y * Z, I32 (sumTo n (fun n => f (n % X) (n / X % Y) (n / X / Y))))
    (hpos : 0 ≤ total X Y Z f) :
    ∃ r : Nat, A.meanInt = .ok r ∧ (r : Int) = (total X Y Z f).tdiv (X * Y * Z : Nat) := by
  refine ⟨_, C21_exact A f hA hs, ?_⟩
  have htot : I32 (total X Y Z f) := by
    have := hs _ (le_refl _)
    rwa [sumTo_eq, sum_flat] at this
  obtain ⟨hlo, hhi⟩ := htot
  rw [Int.emod_eq_of_lt hpos (by omega)]
  obtain ⟨t, ht⟩ := Int.eq_ofNat_of_zero_le hpos
  rw [ht, Int.toNat_natCast]
  exact (Int.ofNat_tdiv t (X * Y * Z)).symm ▸ rfl

/-! ## C22 -/

/-- C22: `matrixEqual` decides equality of dimensions and of all entries under the entry test `eq`. -/
theorem C22_decides (eq : α → β → Bool) {X' Y' Z' : Nat} (A : MExpr α) (B : MExpr β) (f : Nat → Nat → Nat → α)
    (g : Nat → Nat → Nat → β) (hA : A.Shows X Y Z f) (hB : B.Shows X' Y' Z' g) :
    ∃ r, matrixEqual eq A B = .ok r ∧
      (r = true ↔ (X = X' ∧ Y = Y' ∧ Z = Z') ∧ ∀ i < X, ∀ j < Y, ∀ k < Z, eq (f i j k) (g i j k) = true) :=
  matrixEqual_spec eq hA hB

/-- C22: different dimensions are never equal and nothing is read, whatever the shapes. -/
theorem C22_dims (eq : α → β → Bool) (A : MExpr α) (B : MExpr β) (h : A.dim ≠ B.dim) :
    matrixEqual eq A B = .ok false := by rw [matrixEqual, if_pos h]

/-- C22: with `==` on entries `matrixEqual` is an equivalence relation. -/
theorem C22_equivalence [DecidableEq α] (E : Nat → MExpr α) (X Y Z : Nat → Nat) (f : Nat → Nat → Nat → Nat → α)
    (h : ∀ i, (E i).Shows (X i) (Y i) (Z i) (f i)) (a b c : Nat) :
    matrixEqual (· == ·) (E a) (E a) = .ok true ∧
    (matrixEqual (· == ·) (E a) (E b) = .ok true → matrixEqual (· == ·) (E b) (E a) = .ok true) ∧
    (matrixEqual (· == ·) (E a) (E b) = .ok true → matrixEqual (· == ·) (E b) (E c) = .ok true →
      matrixEqual (· == ·) (E a) (E c) = .ok true) := by
  have key : ∀ p q, matrixEqual (· == ·) (E p) (E q) = .ok true ↔ (X p = X q ∧ Y p = Y q ∧ Z p = Z q) ∧
      ∀ i < X p, ∀ j < Y p, ∀ k < Z p, f p i j k = f q i j k := by
    intro p q
    obtain ⟨r, e, hr⟩ := matrixEqual_spec (fun x y : α => x == y) (h p) (h q)
    rw [e]
    simp only [beq_iff_eq] at hr
    rw [← hr]
    constructor
    · intro h; injection h
    · rintro rfl; rfl
  simp only [key]
  refine ⟨by simp, ?_, ?_⟩
  · rintro ⟨⟨h1, h2, h3⟩, h4⟩
    refine ⟨⟨h1.symm, h2.symm, h3.symm⟩, fun i hi j hj k hk => (h4 i (by omega) j (by omega) k (by omega)).symm⟩
  · rintro ⟨⟨h1, h2, h3⟩, h4⟩ ⟨⟨h1', h2', h3'⟩, h4'⟩
    refine ⟨⟨h1.trans h1', h2.trans h2', h3.trans h3'⟩, fun i hi j hj k hk =>
      (h4 i hi j hj k hk).trans (h4' i (by omega) j (by omega) k (by omega))⟩

/-- C22: with tolerance `eps`. -/
theorem C22_tolerance [Ring α] [LinearOrder α] (eps : α) {X' Y' Z' : Nat} (A B : MExpr α)
    (f g : Nat → Nat → Nat → α) (hA : A.Shows X Y Z f) (hB : B.Shows X' Y' Z' g) :
    ∃ r, matrixEqual (fun a b => decide (|a - b| ≤ eps)) A B = .ok r ∧
      (r = true ↔ (X = X' ∧ Y = Y' ∧ Z = Z') ∧ ∀ i < X, ∀ j < Y, ∀ k < Z, |f i j k - g i j k| ≤ eps) := by
  obtain ⟨r, e, h⟩ := matrixEqual_spec (fun a b : α => decide (|a - b| ≤ eps)) hA hB
  exact ⟨r, e, by simpa using h⟩

/-- Two 1×2 matrices differing in one entry: unequal, but equal within tolerance 1. -/
example : matrixEqual (fun a b : Int => a == b) (⟨dimN 1 2 1, [1, 2]⟩ : Matrix Int).expr
      (⟨dimN 1 2 1, [1, 3]⟩ : Matrix Int).expr = .ok false ∧
    matrixEqual (fun a b : Int => decide (|a - b| ≤ 1)) (⟨dimN 1 2 1, [1, 2]⟩ : Matrix Int).expr
      (⟨dimN 1 2 1, [1, 3]⟩ : Matrix Int).expr = .ok true := by decide

end Cnn
