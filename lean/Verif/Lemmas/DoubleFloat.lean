import Verif.Lemmas.Double
import Verif.Spec.GradRounding
/-! Rounding gives the nearest number of a format; the conversion to `float` (C98). -/
namespace Cnn

theorem roundEven_nearest (y : ℝ) (n : ℤ) : |(roundEven y : ℝ) - y| ≤ |(n : ℝ) - y| := by
  by_cases h : n = roundEven y
  · rw [h]
  have h1 := roundEven_near y
  have h2 : (1 : ℝ) ≤ |(n : ℝ) - (roundEven y : ℝ)| := by
    have : (1 : ℤ) ≤ |n - roundEven y| := Int.one_le_abs (sub_ne_zero.2 h)
    exact_mod_cast this
  have h3 : |(n : ℝ) - (roundEven y : ℝ)| ≤ |(n : ℝ) - y| + |(roundEven y : ℝ) - y| := by
    have := abs_sub ((n : ℝ) - y) ((roundEven y : ℝ) - y)
    rwa [sub_sub_sub_cancel_right] at this
  linarith

namespace Format

/-- No multiple of the spacing is nearer. -/
theorem round_multiple (f : Format) (x : ℝ) (n : ℤ) : |f.round x - x| ≤ |(n : ℝ) * 2 ^ f.spacing x - x| := by
  have hp := two_zpow_pos (f.spacing x)
  have h := roundEven_nearest (x / 2 ^ f.spacing x) n
  have e : ∀ a : ℝ, a * 2 ^ f.spacing x - x = (a - x / 2 ^ f.spacing x) * 2 ^ f.spacing x := by
    intro a
    rw [sub_mul, div_mul_cancel₀ _ hp.ne']
  unfold round
  rw [e, e, abs_mul, abs_mul, abs_of_pos hp]
  exact mul_le_mul_of_nonneg_right h hp.le

/-- No number of the format is nearer. -/
theorem round_nearest (f : Format) (hb : 1 ≤ f.bits) (x : ℝ) {m e : ℤ} (hm : |(m : ℝ)| < 2 ^ f.bits) (he : f.low ≤ e) :
    |f.round x - x| ≤ |(m : ℝ) * 2 ^ e - x| := by
  rcases le_or_gt (f.spacing x) e with h | h
  · have e1 : (m : ℝ) * 2 ^ e = ((m * 2 ^ (e - f.spacing x).toNat : ℤ) : ℝ) * 2 ^ f.spacing x := by
      push_cast
      rw [← zpow_natCast, Int.toNat_of_nonneg (by omega), mul_assoc, ← zpow_add₀ (by norm_num)]
      congr 2
      ring
    rw [e1]
    exact f.round_multiple x _
  · have hs : f.spacing x = Int.log 2 |x| + 1 - f.bits := by
      unfold spacing at h ⊢
      rcases max_choice (Int.log 2 |x| + 1 - f.bits) f.low with h' | h'
      · exact h'
      · omega
    have hx : x ≠ 0 ∨ x = 0 := (em (x = 0)).symm
    have hy : |(m : ℝ) * 2 ^ e| ≤ 2 ^ (Int.log 2 |x|) := by
      rw [abs_mul, abs_of_pos (two_zpow_pos e)]
      have : |(m : ℝ)| * 2 ^ e ≤ 2 ^ f.bits * 2 ^ e := mul_le_mul_of_nonneg_right hm.le (two_zpow_pos e).le
      refine this.trans ?_
      rw [← zpow_add₀ (by norm_num)]
      exact zpow_le_zpow_right₀ (by norm_num) (by omega)
    have e2 : (2 : ℝ) ^ Int.log 2 |x| = ((2 ^ (f.bits - 1).toNat : ℤ) : ℝ) * 2 ^ f.spacing x := by
      push_cast
      rw [← zpow_natCast, Int.toNat_of_nonneg (by omega), ← zpow_add₀ (by norm_num), hs]
      congr 1
      ring
    rcases hx with hx | hx
    · have hl := log_le hx
      have hy' := abs_le.1 hy
      rcases lt_or_gt_of_ne hx with h0 | h0
      · rw [abs_of_neg h0] at hl
        have := f.round_multiple x (-2 ^ (f.bits - 1).toNat)
        have e3 : ((-2 ^ (f.bits - 1).toNat : ℤ) : ℝ) * 2 ^ f.spacing x = - 2 ^ Int.log 2 |x| := by rw [e2]; push_cast; ring
        rw [e3] at this
        refine this.trans ?_
        rw [abs_of_neg h0] at hy' ⊢
        rw [abs_of_nonneg (by linarith), abs_of_nonneg (by linarith [hy'.1])]
        linarith [hy'.1]
      · rw [abs_of_pos h0] at hl
        have := f.round_multiple x (2 ^ (f.bits - 1).toNat)
        rw [← e2] at this
        refine this.trans ?_
        rw [abs_of_pos h0] at hy' ⊢
        rw [abs_of_nonpos (by linarith), abs_of_nonpos (by linarith [hy'.2])]
        linarith [hy'.2]
    · rw [hx, f.round_zero, sub_zero, abs_zero]
      exact abs_nonneg _

end Format

namespace Double

/-- The constants of the conversion from binary64 to binary32. -/
theorem toFloat_near {a : Double} (ha : a.Fin) (h : |a.val| ≤ 2 ^ (127 : ℤ)) :
    (toFloat a).Fin ∧ |val (toFloat a) - a.val| ≤ 2 ^ (-24 : ℤ) * |a.val| + 2 ^ (-150 : ℤ) := by
  obtain ⟨x, rfl, _⟩ := ha
  have h : |x| ≤ 2 ^ (127 : ℤ) := h
  have hr : |Format.float.round x - x| ≤ 2 ^ (-24 : ℤ) * |x| + 2 ^ (-150 : ℤ) := Format.float.round_rel x
  have h1 := abs_add_le (Format.float.round x - x) x
  rw [sub_add_cancel] at h1
  have h2 : (2 : ℝ) ^ (-24 : ℤ) * |x| ≤ 1 / 4 * 2 ^ (127 : ℤ) := mul_le_mul (by norm_num) h (abs_nonneg _) (by norm_num)
  have h3 : (2 : ℝ) ^ (-150 : ℤ) ≤ 2 ^ (0 : ℤ) := zpow_le_zpow_right₀ (by norm_num) (by norm_num)
  have h4 : (2 : ℝ) ^ (10 : ℤ) ≤ 2 ^ (127 : ℤ) := zpow_le_zpow_right₀ (by norm_num) (by norm_num)
  have e0 : (2 : ℝ) ^ (0 : ℤ) = 1 := zpow_zero _
  have e10 : (2 : ℝ) ^ (10 : ℤ) = 1024 := by norm_num
  have e : (2 : ℝ) ^ (128 : ℤ) = 2 * 2 ^ (127 : ℤ) := by rw [show (128 : ℤ) = 1 + 127 by norm_num, zpow_add₀ (by norm_num), zpow_one]
  rw [e0] at h3
  rw [e10] at h4
  have hlt : |Format.float.round x| < 2 ^ (128 : ℤ) := by
    rw [e]
    clear e
    generalize (2 : ℝ) ^ (127 : ℤ) = c at *
    generalize (2 : ℝ) ^ (-24 : ℤ) * |x| = d at *
    generalize (2 : ℝ) ^ (-150 : ℤ) = g at *
    linarith
  have e : toFloat (num x) = num (Format.float.round x) := if_pos hlt
  obtain ⟨m, k, g1, g2, g3⟩ := Format.float.round_has (by decide) x
  refine ⟨⟨_, e, ⟨m, k, g1.trans_le (zpow_le_zpow_right₀ (by norm_num) (by decide)), le_trans (by decide) g2, g3⟩, ?_⟩, ?_⟩
  · exact hlt.trans_le (zpow_le_zpow_right₀ (by norm_num) (by decide))
  · rw [e]; exact hr

theorem toFloat_zero : toFloat 0 = 0 := by
  have e : toFloat (num 0) = num (Format.float.round 0) := if_pos (by
    rw [Format.round_zero, abs_zero]; exact two_zpow_pos _)
  show toFloat (num 0) = num 0
  rw [e, Format.round_zero]

/-- The constants of `float`. -/
noncomputable def conversion : Conversion := ⟨2 ^ (-24 : ℤ), 2 ^ (-150 : ℤ), 2 ^ (127 : ℤ)⟩

theorem slope_fin : arith.slopeD.Fin ∧ arith.slopeD.val = 3602879701896397 / 2 ^ 55 := by
  refine ⟨⟨_, rfl, ?_⟩, rfl⟩
  have := has_of (m := 3602879701896397) (e := -55) (by norm_num) (by norm_num) (by norm_num)
  have e : ((3602879701896397 : ℤ) : ℝ) * 2 ^ (-55 : ℤ) = 3602879701896397 / 2 ^ 55 := by
    rw [zpow_neg]; push_cast; exact (div_eq_mul_inv _ _).symm
  rwa [e] at this

end Double
end Cnn
