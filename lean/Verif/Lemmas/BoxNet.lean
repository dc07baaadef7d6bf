import Verif.Lemmas.RoundNet
/-! Helper lemmas: the numbers for the example of C99 with short batches. -/
namespace Cnn
open Model Finset

/-- A fully connected layer with two outputs, parameters of at most 8, and the sample of C84. -/
theorem box_facts {w : Tensor} {β : Nat → ℝ} (hw : ∀ i < 2, |w i 0 0| ≤ 8) (hβ : ∀ i < 2, |β i| ≤ 8) :
    (∀ t < 2, (roundDatum t).Passes Double.precision ⟨2 ^ (-24 : ℤ), 2 ^ (-150 : ℤ), 2 ^ (127 : ℤ)⟩ [.full 2 w β] ⟨1, 1, 1⟩ 2 (1 / 2 ^ 20)) ∧
    (∀ t, ∀ a < 2, |netWeightGrad 2 t 0 [.full 2 w β] ⟨1, 1, 1⟩ (fun _ _ _ => 1) a 0 0| ≤ 1 ∧
      netWeightErr Double.precision ⟨2 ^ (-24 : ℤ), 2 ^ (-150 : ℤ), 2 ^ (127 : ℤ)⟩ 2 t (1 / 2 ^ 20) 0 [.full 2 w β] ⟨1, 1, 1⟩ (fun _ _ _ => 1) (fun _ _ _ => 0) a 0 0 ≤ 1 / 2 ^ 7) ∧
    (∀ t, ∀ a < 2, |netBiasGrad 2 t 0 [.full 2 w β] ⟨1, 1, 1⟩ (fun _ _ _ => 1) a| ≤ 1 ∧
      netBiasErr Double.precision ⟨2 ^ (-24 : ℤ), 2 ^ (-150 : ℤ), 2 ^ (127 : ℤ)⟩ 2 t (1 / 2 ^ 20) 0 [.full 2 w β] ⟨1, 1, 1⟩ (fun _ _ _ => 1) (fun _ _ _ => 0) a ≤ 1 / 2 ^ 7) := by
  obtain ⟨u1, v1, η1, hΩ⟩ := double_consts
  have hp := Double.precision_ok
  have u0 := hp.u0
  have v0 := hp.v0
  have η0 := hp.η0
  have hpow : (1 + Double.precision.u) ^ 3 ≤ 1 + 1 / 2 ^ 30 := by
    refine (pow_le_pow_left₀ (by linarith) (by linarith : 1 + Double.precision.u ≤ 1 + 1 / 2 ^ 40) 3).trans (by norm_num)
  have hpow2 : (1 + Double.precision.u) ^ 2 ≤ 1 + 1 / 2 ^ 30 := by
    refine (pow_le_pow_left₀ (by linarith) (by linarith : 1 + Double.precision.u ≤ 1 + 1 / 2 ^ 40) 2).trans (by norm_num)
  have hpow1 : 1 ≤ (1 + Double.precision.u) ^ 3 := one_le_pow₀ (by linarith)
  have hpow0 : 1 ≤ (1 + Double.precision.u) ^ 2 := one_le_pow₀ (by linarith)
  have hx : Double.precision.expErr ≤ 1 / 2 ^ 30 := by unfold Precision.expErr; norm_num at *; linarith
  have hx0 : 0 ≤ Double.precision.expErr := by unfold Precision.expErr; linarith
  have hsum : Double.precision.sumErr 2 ≤ 1 / 2 ^ 20 := by
    unfold Precision.sumErr
    push_cast
    nlinarith
  have hsum0 : 0 ≤ Double.precision.sumErr 2 := by
    unfold Precision.sumErr
    push_cast
    nlinarith
  have hsoft : Double.precision.softmaxErr 2 ≤ 1 / 2 ^ 15 := by
    unfold Precision.softmaxErr
    nlinarith
  have hsoft0 : 0 ≤ Double.precision.softmaxErr 2 := by
    unfold Precision.softmaxErr
    nlinarith
  have hout : netOut [.full 2 w β] ⟨1, 1, 1⟩ = ⟨2, 1, 1⟩ := rfl
  have hq1 : (2 : ℝ) ^ (-24 : ℤ) ≤ 1 / 2 ^ 20 := by norm_num
  have hq2 : (2 : ℝ) ^ (-150 : ℤ) ≤ 1 / 2 ^ 20 := by
    have : (2 : ℝ) ^ (-20 : ℤ) = 1 / 2 ^ 20 := by norm_num
    rw [← this]
    exact zpow_le_zpow_right₀ (by norm_num) (by norm_num)
  have hq3 : (2 : ℝ) ^ 40 ≤ 2 ^ (127 : ℤ) := by
    have : (2 : ℝ) ^ (40 : ℤ) = 2 ^ 40 := rfl
    rw [← this]
    exact zpow_le_zpow_right₀ (by norm_num) (by norm_num)
  have hq10 := two_zpow_pos (-24)
  have hq20 := two_zpow_pos (-150)
  have heval : ∀ i < 2, flatOf 2 1 (netEval [.full 2 w β] ⟨1, 1, 1⟩ (fun _ _ _ => 1)) i = w i 0 0 + β i := by
    intro i hi
    obtain rfl | rfl : i = 0 ∨ i = 1 := by omega
    · simp [flatOf, netEval, NetLayer.eval, add_comm]
    · simp [flatOf, netEval, NetLayer.eval, add_comm]
  have hmag : ∀ i < 2, |β i| + |w i 0 0| ≤ 16 ∧ 0 ≤ |β i| + |w i 0 0| ∧ |w i 0 0 + β i| ≤ 16 := fun i hi =>
    ⟨by linarith [hw i hi, hβ i hi], add_nonneg (abs_nonneg _) (abs_nonneg _), (abs_add_le _ _).trans (by linarith [hw i hi, hβ i hi])⟩
  have hexp : Real.exp (2 * (1 / 2 ^ 20)) - 1 ≤ 1 / 2 ^ 10 := by
    have := Real.exp_bound_div_one_sub_of_interval (x := 2 * (1 / 2 ^ 20)) (by norm_num) (by norm_num)
    refine (sub_le_sub_right this 1).trans (by norm_num)
  have hexp0 : 0 ≤ Real.exp (2 * (1 / 2 ^ 20)) - 1 := sub_nonneg.2 (Real.one_le_exp (by norm_num))
  have hS0 : ∀ i < 2, 0 ≤ softmax 2 (flatOf 2 1 (netEval [.full 2 w β] ⟨1, 1, 1⟩ (fun _ _ _ => 1))) i ∧
      softmax 2 (flatOf 2 1 (netEval [.full 2 w β] ⟨1, 1, 1⟩ (fun _ _ _ => 1))) i ≤ 1 := by
    intro i hi
    unfold softmax
    have hpos : 0 < ∑ j ∈ range 2, Real.exp (flatOf 2 1 (netEval [.full 2 w β] ⟨1, 1, 1⟩ (fun _ _ _ => 1)) j) :=
      sum_pos (fun _ _ => Real.exp_pos _) ⟨0, by simp⟩
    exact ⟨(div_pos (Real.exp_pos _) hpos).le, (div_le_one hpos).2 (single_le_sum
      (f := fun j => Real.exp (flatOf 2 1 (netEval [.full 2 w β] ⟨1, 1, 1⟩ (fun _ _ _ => 1)) j)) (fun _ _ => (Real.exp_pos _).le) (mem_range.2 hi))⟩
  -- the errors
  have hprob : ∀ i < 2, 0 ≤ probErr Double.precision ⟨2 ^ (-24 : ℤ), 2 ^ (-150 : ℤ), 2 ^ (127 : ℤ)⟩ 2 (1 / 2 ^ 20)
        (flatOf 2 1 (netEval [.full 2 w β] ⟨1, 1, 1⟩ (fun _ _ _ => 1))) i ∧
      probErr Double.precision ⟨2 ^ (-24 : ℤ), 2 ^ (-150 : ℤ), 2 ^ (127 : ℤ)⟩ 2 (1 / 2 ^ 20)
        (flatOf 2 1 (netEval [.full 2 w β] ⟨1, 1, 1⟩ (fun _ _ _ => 1))) i ≤ 1 / 2 ^ 9 := by
    intro i hi
    obtain ⟨a, b⟩ := hS0 i hi
    unfold probErr Conversion.err
    generalize softmax 2 (flatOf 2 1 (netEval [.full 2 w β] ⟨1, 1, 1⟩ (fun _ _ _ => 1))) i = y at *
    rw [abs_of_nonneg a]
    generalize (2 : ℝ) ^ (-24 : ℤ) = qu at *
    generalize (2 : ℝ) ^ (-150 : ℤ) = qη at *
    generalize Real.exp (2 * (1 / 2 ^ 20)) - 1 = X at *
    generalize Double.precision.softmaxErr 2 = S at *
    have h1 : y * X ≤ 1 * (1 / 2 ^ 10) := mul_le_mul b hexp hexp0 (by norm_num)
    have h10 := mul_nonneg a hexp0
    have h2 : qu * (y + (y * X + S)) ≤ 1 / 2 ^ 20 * 2 := mul_le_mul hq1 (by norm_num at *; linarith) (by linarith) (by norm_num)
    have h20 : 0 ≤ qu * (y + (y * X + S)) := mul_nonneg hq10.le (by linarith)
    constructor
    · linarith
    · norm_num at *; linarith
  have hloss : ∀ t, ∀ i < 2, |lossGrad ⟨2, 1, 1⟩ 2 t (netEval [.full 2 w β] ⟨1, 1, 1⟩ (fun _ _ _ => 1)) i 0 0| ≤ 1 ∧
      0 ≤ lossErr Double.precision ⟨2 ^ (-24 : ℤ), 2 ^ (-150 : ℤ), 2 ^ (127 : ℤ)⟩ ⟨2, 1, 1⟩ 2 t (1 / 2 ^ 20)
        (netEval [.full 2 w β] ⟨1, 1, 1⟩ (fun _ _ _ => 1)) i 0 0 ∧
      lossErr Double.precision ⟨2 ^ (-24 : ℤ), 2 ^ (-150 : ℤ), 2 ^ (127 : ℤ)⟩ ⟨2, 1, 1⟩ 2 t (1 / 2 ^ 20)
        (netEval [.full 2 w β] ⟨1, 1, 1⟩ (fun _ _ _ => 1)) i 0 0 ≤ 1 / 2 ^ 8 := by
    intro t i hi
    obtain ⟨a, b⟩ := hS0 i hi
    obtain ⟨c, d⟩ := hprob i hi
    unfold lossGrad lossErr Precision.grown
    simp only [Nat.add_zero]
    generalize softmax 2 (flatOf 2 1 (netEval [.full 2 w β] ⟨1, 1, 1⟩ (fun _ _ _ => 1))) i = y at *
    generalize probErr _ _ _ _ _ i = P at *
    split_ifs with h
    · have h1 : |y - 1| ≤ 1 := abs_le.2 ⟨by linarith, by linarith⟩
      have h0 := abs_nonneg (y - 1)
      generalize |y - 1| = m at *
      have h2 := mul_nonneg u0 (add_nonneg h0 c)
      have h3 : Double.precision.u * (m + P) ≤ 1 / 2 ^ 40 * 2 := mul_le_mul u1 (by norm_num at *; linarith) (by linarith) (by norm_num)
      refine ⟨h1, ?_, ?_⟩
      · simp only [pow_one, Nat.cast_zero, zero_mul, add_zero]
        linarith
      · simp only [pow_one, Nat.cast_zero, zero_mul, add_zero]
        norm_num at *
        linarith
    · rw [sub_zero, abs_of_nonneg a]
      exact ⟨b, c, d.trans (by norm_num)⟩
  have hrec : 0 ≤ NetLayer.recErr ⟨2 ^ (-24 : ℤ), 2 ^ (-150 : ℤ), 2 ^ (127 : ℤ)⟩ (fun _ _ _ => 1) (fun _ _ _ => 0) 0 0 0 ∧
      NetLayer.recErr ⟨2 ^ (-24 : ℤ), 2 ^ (-150 : ℤ), 2 ^ (127 : ℤ)⟩ (fun _ _ _ => 1) (fun _ _ _ => 0) 0 0 0 ≤ 1 / 2 ^ 19 := by
    simp only [NetLayer.recErr, Conversion.err, abs_one]
    generalize (2 : ℝ) ^ (-24 : ℤ) = qu at *
    generalize (2 : ℝ) ^ (-150 : ℤ) = qη at *
    constructor
    · linarith
    · norm_num at *; linarith
  have hweight : ∀ t, ∀ i < 2, (1 + Double.precision.u) ^ 2 * (NetLayer.upto (lossGrad ⟨2, 1, 1⟩ 2 t (netEval [.full 2 w β] ⟨1, 1, 1⟩ (fun _ _ _ => 1)))
        (lossErr Double.precision ⟨2 ^ (-24 : ℤ), 2 ^ (-150 : ℤ), 2 ^ (127 : ℤ)⟩ ⟨2, 1, 1⟩ 2 t (1 / 2 ^ 20)
          (netEval [.full 2 w β] ⟨1, 1, 1⟩ (fun _ _ _ => 1))) i 0 0 *
        NetLayer.upto (fun _ _ _ => 1) (NetLayer.recErr ⟨2 ^ (-24 : ℤ), 2 ^ (-150 : ℤ), 2 ^ (127 : ℤ)⟩ (fun _ _ _ => 1) (fun _ _ _ => 0)) 0 0 0 +
        ((1 : ℕ) : ℝ) * Double.precision.η) ≤ |lossGrad ⟨2, 1, 1⟩ 2 t (netEval [.full 2 w β] ⟨1, 1, 1⟩ (fun _ _ _ => 1)) i 0 0| + 1 / 2 ^ 7 := by
    intro t i hi
    obtain ⟨a, b, c⟩ := hloss t i hi
    have a0 := abs_nonneg (lossGrad ⟨2, 1, 1⟩ 2 t (netEval [.full 2 w β] ⟨1, 1, 1⟩ (fun _ _ _ => 1)) i 0 0)
    unfold NetLayer.upto
    generalize |lossGrad _ _ _ _ _ _ _| = m at *
    generalize lossErr _ _ _ _ _ _ _ _ _ _ = P at *
    generalize NetLayer.recErr _ _ _ _ _ _ = R at *
    rw [abs_one, Nat.cast_one, one_mul]
    have h1 : (m + P) * R ≤ 2 * (1 / 2 ^ 19) := mul_le_mul (by norm_num at *; linarith) hrec.2 hrec.1 (by norm_num)
    have h10 : 0 ≤ (m + P) * R := mul_nonneg (by linarith) hrec.1
    have h2 : ((1 + Double.precision.u) ^ 2 - 1) * ((m + P) * (1 + R) + Double.precision.η) ≤ 1 / 2 ^ 30 * 4 :=
      mul_le_mul (by linarith) (by rw [mul_add, mul_one]; norm_num at *; linarith) (by rw [mul_add, mul_one]; linarith) (by norm_num)
    rw [sub_mul, one_mul, mul_add (m + P), mul_one] at h2
    rw [mul_add (m + P), mul_one]
    norm_num at *
    linarith
  refine ⟨?_, ?_, ?_⟩
  · intro t ht
    simp only [Datum.Passes, roundDatum]
    refine ⟨⟨?_, trivial⟩, ?_, ?_, ?_⟩
    · intro i hi j hj k hk
      have hi : i < 2 := hi
      simp only [NetLayer.depth, NetLayer.magnitude, NetLayer.products, flatOf]
      obtain ⟨hi', h0, hs'⟩ := hmag i hi
      simp only [sum_range_succ, sum_range_zero, abs_zero, abs_one, add_zero, mul_one, zero_add, Nat.cast_one, one_mul]
      have : (1 + Double.precision.u) ^ (1 + 2) * (|β i| + |w i 0 0| + Double.precision.η) ≤ (1 + 1 / 2 ^ 30) * 32 :=
        mul_le_mul hpow (by have := η1.trans (show (1 : ℝ) / 2 ^ 40 ≤ 1 by norm_num); linarith) (by linarith) (by norm_num)
      refine this.trans (le_trans (by norm_num) hΩ)
    · intro t ht
      rw [hout]
      obtain ⟨ht', h0, hs'⟩ := hmag t ht
      simp only [flatOf, netErr, NetLayer.err, NetLayer.spread, NetLayer.rounding, NetLayer.depth, NetLayer.magnitude, NetLayer.products,
        Nat.mod_eq_of_lt ht, sum_range_succ, sum_range_zero, abs_zero, abs_one, add_zero, mul_one, zero_add, Nat.cast_one, one_mul, mul_zero]
      have h1 : ((1 + Double.precision.u) ^ (1 + 2) - 1) * (|β t| + |w t 0 0|) ≤ (1 / 2 ^ 30) * 16 :=
        mul_le_mul (by linarith [hpow]) ht' h0 (by norm_num)
      have h2 : (1 + Double.precision.u) ^ (1 + 2) * Double.precision.η ≤ 2 * (1 / 2 ^ 40) :=
        mul_le_mul (hpow.trans (by norm_num)) η1 η0 (by norm_num)
      refine (add_le_add h1 h2).trans (by norm_num)
    · intro t ht
      rw [hout, heval t ht]
      refine le_trans ?_ hΩ
      have := (hmag t ht).2.2
      norm_num at *
      linarith
    · refine ⟨?_, Or.inl rfl, ⟨?_, ?_⟩, ?_, ?_, ?_⟩
      · intro i hi j hj k hk
        refine le_trans ?_ hq3
        norm_num
      · intro a ha b hb c hc
        obtain rfl : b = 0 := Nat.lt_one_iff.1 hb
        refine (hweight t a ha).trans (le_trans ?_ hΩ)
        have := (hloss t a ha).1
        norm_num at *
        linarith
      · intro a ha
        obtain ⟨h1, _, h2⟩ := hloss t a ha
        show (1 + Double.precision.u) ^ 0 * (NetLayer.upto (lossGrad ⟨2, 1, 1⟩ 2 t (netEval [.full 2 w β] ⟨1, 1, 1⟩ (fun _ _ _ => 1)))
          (lossErr Double.precision ⟨2 ^ (-24 : ℤ), 2 ^ (-150 : ℤ), 2 ^ (127 : ℤ)⟩ ⟨2, 1, 1⟩ 2 t (1 / 2 ^ 20)
            (netEval [.full 2 w β] ⟨1, 1, 1⟩ (fun _ _ _ => 1))) a 0 0 + (0 : ℕ) * Double.precision.η) ≤ _
        unfold NetLayer.upto
        rw [pow_zero, one_mul, Nat.cast_zero, zero_mul, add_zero]
        refine le_trans ?_ hΩ
        refine (add_le_add h1 h2).trans (by norm_num)
      · intro i hi j hj k hk
        have hi : i < 2 := hi
        obtain rfl : j = 0 := Nat.lt_one_iff.1 hj
        obtain rfl : k = 0 := Nat.lt_one_iff.1 hk
        obtain ⟨hi', h0, hs'⟩ := hmag i hi
        refine le_trans ?_ hq3
        simp only [NetLayer.eval, NetLayer.err, NetLayer.spread, NetLayer.rounding, NetLayer.depth, NetLayer.magnitude, NetLayer.products, flatOf,
          sum_range_succ, sum_range_zero, abs_zero, abs_one, add_zero, mul_one, zero_add, Nat.cast_one, one_mul, mul_zero]
        have h1 : ((1 + Double.precision.u) ^ (1 + 2) - 1) * (|β i| + |w i 0 0|) ≤ (1 / 2 ^ 30) * 16 :=
          mul_le_mul (by linarith [hpow]) hi' h0 (by norm_num)
        have h2 : (1 + Double.precision.u) ^ (1 + 2) * Double.precision.η ≤ 2 * (1 / 2 ^ 40) :=
          mul_le_mul (hpow.trans (by norm_num)) η1 η0 (by norm_num)
        rw [add_comm (β i)]
        refine (add_le_add hs' (add_le_add h1 h2)).trans (by norm_num)
      · intro i hi
        obtain ⟨a, b⟩ := hS0 i hi
        have h1 : softmax 2 (flatOf 2 1 (netEval [.full 2 w β] ⟨1, 1, 1⟩ (fun _ _ _ => 1))) i * (Real.exp (2 * (1 / 2 ^ 20)) - 1) ≤ 1 * (1 / 2 ^ 10) :=
          mul_le_mul b hexp hexp0 (by norm_num)
        exact (add_le_add b (add_le_add h1 hsoft)).trans (le_trans (by norm_num) hq3)
      · obtain ⟨a, b⟩ := hS0 t ht
        have h1 : |softmax 2 (flatOf 2 1 (netEval [.full 2 w β] ⟨1, 1, 1⟩ (fun _ _ _ => 1))) t - 1| ≤ 1 := abs_le.2 ⟨by linarith, by linarith⟩
        exact (add_le_add h1 (hprob t ht).2).trans (le_trans (by norm_num) hΩ)
  · intro t a ha
    obtain ⟨h1, h2, h3⟩ := hloss t a ha
    have e : |lossGrad ⟨2, 1, 1⟩ 2 t (netEval [.full 2 w β] ⟨1, 1, 1⟩ (fun _ _ _ => 1)) a 0 0 * 1| =
        |lossGrad ⟨2, 1, 1⟩ 2 t (netEval [.full 2 w β] ⟨1, 1, 1⟩ (fun _ _ _ => 1)) a 0 0| := by rw [mul_one]
    refine ⟨?_, ?_⟩
    · show |lossGrad ⟨2, 1, 1⟩ 2 t (netEval [.full 2 w β] ⟨1, 1, 1⟩ (fun _ _ _ => 1)) a 0 0 * 1| ≤ 1
      rw [e]; exact h1
    · refine sub_le_iff_le_add'.2 ((hweight t a ha).trans (le_of_eq ?_))
      show |lossGrad ⟨2, 1, 1⟩ 2 t (netEval [.full 2 w β] ⟨1, 1, 1⟩ (fun _ _ _ => 1)) a 0 0| + _ =
        |lossGrad ⟨2, 1, 1⟩ 2 t (netEval [.full 2 w β] ⟨1, 1, 1⟩ (fun _ _ _ => 1)) a 0 0| * |1| + _
      rw [abs_one, mul_one]
  · intro t a ha
    obtain ⟨h1, h2, h3⟩ := hloss t a ha
    refine ⟨h1, ?_⟩
    show (1 + Double.precision.u) ^ 0 * (NetLayer.upto (lossGrad ⟨2, 1, 1⟩ 2 t (netEval [.full 2 w β] ⟨1, 1, 1⟩ (fun _ _ _ => 1)))
      (lossErr Double.precision ⟨2 ^ (-24 : ℤ), 2 ^ (-150 : ℤ), 2 ^ (127 : ℤ)⟩ ⟨2, 1, 1⟩ 2 t (1 / 2 ^ 20)
        (netEval [.full 2 w β] ⟨1, 1, 1⟩ (fun _ _ _ => 1))) a 0 0 + (0 : ℕ) * Double.precision.η) -
      |lossGrad ⟨2, 1, 1⟩ 2 t (netEval [.full 2 w β] ⟨1, 1, 1⟩ (fun _ _ _ => 1)) a 0 0| ≤ _
    unfold NetLayer.upto
    rw [pow_zero, one_mul, Nat.cast_zero, zero_mul, add_zero, add_sub_cancel_left]
    exact h3.trans (by norm_num)

end Cnn
