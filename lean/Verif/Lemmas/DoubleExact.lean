import Verif.Lemmas.DoubleFloat
/-! Binary64: results with few digits are exact; a small summand can get lost (C101). -/
namespace Cnn
namespace Format

/-- Numbers of the format are not changed by rounding. -/
theorem round_exact (f : Format) (hb : 1 ≤ f.bits) {x : ℝ} (m e : ℤ) (hx : x = m * 2 ^ e) (hm : |(m : ℝ)| < 2 ^ f.bits) (he : f.low ≤ e) :
    f.round x = x := by
  have h := f.round_nearest hb x hm he
  rw [← hx, sub_self, abs_zero] at h
  exact sub_eq_zero.1 (abs_eq_zero.1 (le_antisymm h (abs_nonneg _)))

end Format

namespace Double

theorem pow_bound {m e k : ℤ} {b : Nat} (hm : |m| < 2 ^ b) (h : b + e ≤ k) : |(m : ℝ) * 2 ^ e| ≤ 2 ^ k := by
  have hm' : |(m : ℝ)| ≤ 2 ^ (b : ℤ) := by
    have : |(m : ℝ)| < 2 ^ b := by exact_mod_cast hm
    rw [zpow_natCast]
    exact this.le
  rw [abs_mul, abs_of_pos (two_zpow_pos e)]
  calc |(m : ℝ)| * 2 ^ e ≤ 2 ^ (b : ℤ) * 2 ^ e := mul_le_mul_of_nonneg_right hm' (two_zpow_pos e).le
    _ = 2 ^ (b + e) := (zpow_add₀ (by norm_num) _ _).symm
    _ ≤ 2 ^ k := zpow_le_zpow_right₀ (by norm_num) h

theorem of_exact {x : ℝ} (m e : ℤ) (hx : x = m * 2 ^ e) (hm : |m| < 2 ^ 53) (h1 : -1074 ≤ e) (h2 : e ≤ 970) : of x = num x := by
  rw [of_eq (by rw [hx]; exact pow_bound hm (by omega)), Format.round_exact _ (by decide) m e hx _ h1]
  have : |(m : ℝ)| < 2 ^ 53 := by exact_mod_cast hm
  rw [← zpow_natCast] at this
  exact this

theorem toFloat_exact {x : ℝ} (m e : ℤ) (hx : x = m * 2 ^ e) (hm : |m| < 2 ^ 24) (h1 : -149 ≤ e) (h2 : e ≤ 103) : toFloat (num x) = num x := by
  have hr : Format.float.round x = x := by
    refine Format.round_exact _ (by decide) m e hx ?_ h1
    have : |(m : ℝ)| < 2 ^ 24 := by exact_mod_cast hm
    rw [← zpow_natCast] at this
    exact this
  show round .float x = _
  unfold round
  rw [hr, if_pos]
  rw [hx]
  exact (pow_bound (k := 127) hm (by omega)).trans_lt (zpow_lt_zpow_right₀ (by norm_num) (by decide))

/-- One half is lost when it is added to `2 ^ 59`. -/
theorem of_lost : of (1 / 2 + 2 ^ 59) = num (2 ^ 59) := by
  have hx : |(1 / 2 + 2 ^ 59 : ℝ)| = 1 / 2 + 2 ^ 59 := abs_of_pos (by norm_num)
  rw [of_eq (by rw [hx]; exact (show (1 / 2 + 2 ^ 59 : ℝ) ≤ 2 ^ (60 : ℤ) by norm_num).trans (zpow_le_zpow_right₀ (by norm_num) (by norm_num)))]
  congr 1
  have hlog : 59 ≤ Int.log 2 |(1 / 2 + 2 ^ 59 : ℝ)| := by
    have h := Format.lt_log (1 / 2 + 2 ^ 59 : ℝ)
    have h2 : (2 : ℝ) ^ (59 : ℤ) < 2 ^ (Int.log 2 |(1 / 2 + 2 ^ 59 : ℝ)| + 1) := by
      refine lt_of_lt_of_le ?_ h.le
      rw [hx]; norm_num
    have := (zpow_lt_zpow_iff_right₀ (by norm_num : (1 : ℝ) < 2)).1 h2
    omega
  have hsp : 7 ≤ Format.double.spacing (1 / 2 + 2 ^ 59) := le_max_of_le_left (by show 7 ≤ Int.log 2 |(1 / 2 + 2 ^ 59 : ℝ)| + 1 - 53; omega)
  have hn := Format.double.round_nearest (by decide) (1 / 2 + 2 ^ 59) (m := 1) (e := 59)
    (by rw [Int.cast_one, abs_one]; exact one_lt_zpow₀ (by norm_num) (by decide)) (by decide)
  obtain ⟨k, hk⟩ : ∃ k : ℤ, Format.double.round (1 / 2 + 2 ^ 59) = (k * 128 : ℤ) := by
    unfold Format.round
    generalize Format.double.spacing (1 / 2 + 2 ^ 59) = j at hsp
    refine ⟨roundEven ((1 / 2 + 2 ^ 59) / 2 ^ j) * 2 ^ (j - 7).toNat, ?_⟩
    push_cast
    rw [mul_assoc]
    congr 1
    rw [← zpow_natCast, Int.toNat_of_nonneg (by omega), show (128 : ℝ) = 2 ^ (7 : ℤ) by norm_num, ← zpow_add₀ (by norm_num)]
    congr 1
    ring
  rw [hk] at hn ⊢
  have h1 : |((1 : ℤ) : ℝ) * 2 ^ (59 : ℤ) - (1 / 2 + 2 ^ 59)| = 1 / 2 := by
    rw [show ((1 : ℤ) : ℝ) * 2 ^ (59 : ℤ) - (1 / 2 + 2 ^ 59) = -(1 / 2) by norm_num]
    norm_num
  rw [h1, abs_le] at hn
  have h2 : (k * 128 : ℤ) ≤ 576460752303423489 := by
    have : ((k * 128 : ℤ) : ℝ) ≤ ((576460752303423489 : ℤ) : ℝ) := by push_cast at hn ⊢; linarith [hn.2]
    exact_mod_cast this
  have h3 : 576460752303423488 ≤ (k * 128 : ℤ) := by
    have : ((576460752303423488 : ℤ) : ℝ) ≤ ((k * 128 : ℤ) : ℝ) := by push_cast at hn ⊢; linarith [hn.1]
    exact_mod_cast this
  have : k * 128 = 576460752303423488 := by omega
  rw [this]
  norm_num

theorem num_add (x y : ℝ) : num x + num y = of (x + y) := rfl
theorem num_sub (x y : ℝ) : num x - num y = of (x - y) := rfl
theorem num_mul (x y : ℝ) : num x * num y = of (x * y) := rfl
theorem num_div (x : ℝ) {y : ℝ} (hy : y ≠ 0) : num x / num y = of (x / y) := if_neg hy

end Double
end Cnn
