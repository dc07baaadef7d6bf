import Verif.Spec.Double
import Verif.Lemmas.Expr
/-! Binary64 satisfies the assumptions of Spec/Rounding.lean. -/
namespace Cnn

theorem roundEven_near (y : ℝ) : |(roundEven y : ℝ) - y| ≤ 1 / 2 := by
  have h0 := Int.fract_nonneg y
  have h1 := Int.fract_lt_one y
  have e := Int.self_sub_floor y
  unfold roundEven
  rw [abs_sub_le_iff]
  split
  · constructor <;> linarith
  · split
    · push_cast; constructor <;> linarith
    · split
      · constructor <;> linarith
      · push_cast; constructor <;> linarith

theorem roundEven_int (n : ℤ) : roundEven n = n := by simp [roundEven]

theorem two_zpow_pos (k : ℤ) : (0 : ℝ) < 2 ^ k := zpow_pos (by norm_num) k

namespace Format

theorem round_near (f : Format) (x : ℝ) : |f.round x - x| ≤ 2 ^ f.spacing x / 2 := by
  have hp := two_zpow_pos (f.spacing x)
  have h := roundEven_near (x / 2 ^ f.spacing x)
  have e : f.round x - x = ((roundEven (x / 2 ^ f.spacing x) : ℝ) - x / 2 ^ f.spacing x) * 2 ^ f.spacing x := by
    unfold round
    rw [sub_mul, div_mul_cancel₀ _ hp.ne']
  rw [e, abs_mul, abs_of_pos hp]
  nlinarith

theorem log_le {x : ℝ} (hx : x ≠ 0) : (2 : ℝ) ^ Int.log 2 |x| ≤ |x| := by
  have := Int.zpow_log_le_self (b := 2) (by norm_num) (abs_pos.2 hx)
  exact_mod_cast this

theorem lt_log (x : ℝ) : |x| < (2 : ℝ) ^ (Int.log 2 |x| + 1) := by
  have := Int.lt_zpow_succ_log_self (b := 2) (by norm_num) |x|
  exact_mod_cast this

/-- A number of normal size. -/
theorem round_normal (f : Format) {x : ℝ} (hx : x ≠ 0) (h : f.low ≤ Int.log 2 |x| + 1 - f.bits) :
    |f.round x - x| ≤ 2 ^ (-f.bits) * |x| := by
  refine (f.round_near x).trans ?_
  have e : f.spacing x = Int.log 2 |x| + 1 - f.bits := max_eq_left h
  rw [e, show Int.log 2 |x| + 1 - f.bits = -f.bits + Int.log 2 |x| + 1 by ring, zpow_add_one₀ (by norm_num), zpow_add₀ (by norm_num)]
  have := mul_le_mul_of_nonneg_left (log_le hx) (two_zpow_pos (-f.bits)).le
  linarith

/-- A small number. -/
theorem round_small (f : Format) {x : ℝ} (h : Int.log 2 |x| + 1 - f.bits ≤ f.low) : |f.round x - x| ≤ 2 ^ (f.low - 1) := by
  refine (f.round_near x).trans ?_
  have e : f.spacing x = f.low := max_eq_right h
  rw [e, zpow_sub_one₀ (by norm_num)]
  linarith [two_zpow_pos f.low]

theorem round_zero (f : Format) : f.round 0 = 0 := by
  have : roundEven 0 = 0 := by simpa using roundEven_int 0
  simp [round, this]

theorem round_rel (f : Format) (x : ℝ) : |f.round x - x| ≤ 2 ^ (-f.bits) * |x| + 2 ^ (f.low - 1) := by
  have h1 := two_zpow_pos (f.low - 1)
  have h2 := mul_nonneg (two_zpow_pos (-f.bits)).le (abs_nonneg x)
  by_cases hx : x = 0
  · subst hx
    simp [f.round_zero, h1.le]
  · rcases le_total f.low (Int.log 2 |x| + 1 - f.bits) with h | h
    · linarith [f.round_normal hx h]
    · linarith [f.round_small h]

/-- Multiples of the smallest number do not underflow. -/
theorem round_grid (f : Format) {x : ℝ} (n : ℤ) (hn : x = n * 2 ^ f.low) : |f.round x - x| ≤ 2 ^ (-f.bits) * |x| := by
  by_cases hx : x = 0
  · subst hx
    simp [f.round_zero]
  · rcases le_total f.low (Int.log 2 |x| + 1 - f.bits) with h | h
    · exact f.round_normal hx h
    · have e : f.spacing x = f.low := max_eq_right h
      have : f.round x = x := by
        have hq : x / 2 ^ f.low = n := by rw [hn, mul_div_cancel_right₀ _ (two_zpow_pos _).ne']
        unfold round
        rw [e, hq, roundEven_int, hn]
      rw [this]
      simpa using mul_nonneg (two_zpow_pos (-f.bits)).le (abs_nonneg x)

theorem Has.grid {f : Format} {x : ℝ} (h : f.Has x) : ∃ n : ℤ, x = n * 2 ^ f.low := by
  obtain ⟨⟨m, e, _, he, rfl⟩, _⟩ := h
  refine ⟨m * 2 ^ (e - f.low).toNat, ?_⟩
  push_cast
  rw [mul_assoc]
  congr 1
  rw [← zpow_natCast, Int.toNat_of_nonneg (by omega), ← zpow_add₀ (by norm_num)]
  congr 1
  ring

/-- What rounding gives is representable. -/
theorem round_has (f : Format) (hb : 1 ≤ f.bits) (x : ℝ) :
    ∃ m e : ℤ, |(m : ℝ)| < 2 ^ f.bits ∧ f.low ≤ e ∧ f.round x = m * 2 ^ e := by
  have hp := two_zpow_pos (f.spacing x)
  have hlow : f.low ≤ f.spacing x := le_max_right _ _
  set k := f.spacing x with hk
  set m := roundEven (x / 2 ^ k) with hm
  obtain ⟨B, hB⟩ : ∃ B : ℕ, f.bits = B := ⟨f.bits.toNat, (Int.toNat_of_nonneg (by omega)).symm⟩
  have hx : |x / 2 ^ k| < 2 ^ f.bits := by
    rw [abs_div, abs_of_pos hp, div_lt_iff₀ hp, ← zpow_add₀ (by norm_num)]
    refine (lt_log x).trans_le (zpow_le_zpow_right₀ (by norm_num) ?_)
    have : Int.log 2 |x| + 1 - f.bits ≤ k := le_max_left _ _
    omega
  have hle : |(m : ℝ)| ≤ 2 ^ f.bits := by
    have h1 := roundEven_near (x / 2 ^ k)
    rw [← hm] at h1
    have h2 : |(m : ℝ)| < 2 ^ f.bits + 1 := by
      have := abs_add_le ((m : ℝ) - x / 2 ^ k) (x / 2 ^ k)
      rw [sub_add_cancel] at this
      linarith
    rw [hB, zpow_natCast] at h2 ⊢
    have h3 : |m| < 2 ^ B + 1 := by exact_mod_cast h2
    exact_mod_cast Int.lt_add_one_iff.1 h3
  rcases hle.lt_or_eq with h | h
  · exact ⟨m, k, h, hlow, rfl⟩
  · -- the next power of two
    obtain ⟨C, hC⟩ : ∃ C : ℕ, B = C + 1 := ⟨B - 1, by omega⟩
    rw [hB, zpow_natCast] at h ⊢
    have hm2 : |m| = 2 ^ B := by exact_mod_cast h
    have : m = 2 ^ B ∨ m = -2 ^ B := by
      rcases abs_choice m with c | c <;> rw [c] at hm2
      · exact Or.inl hm2
      · exact Or.inr (by rw [← hm2]; ring)
    have hlt : (2 : ℝ) ^ C < 2 ^ B := pow_lt_pow_right₀ (by norm_num) (by omega)
    have hr : f.round x = m * 2 ^ k := rfl
    rcases this with c | c
    · refine ⟨2 ^ C, k + 1, ?_, by omega, ?_⟩
      · push_cast; rwa [abs_of_pos (by positivity)]
      · rw [hr, c, zpow_add_one₀ (by norm_num), hC]; push_cast; ring
    · refine ⟨-2 ^ C, k + 1, ?_, by omega, ?_⟩
      · push_cast; rwa [abs_neg, abs_of_pos (by positivity)]
      · rw [hr, c, zpow_add_one₀ (by norm_num), hC]; push_cast; ring

end Format

namespace Double

theorem precision_ok : precision.Ok := by
  have h1 : (2 : ℝ) ^ (-53 : ℤ) ≤ 2 ^ (-4 : ℤ) := zpow_le_zpow_right₀ (by norm_num) (by norm_num)
  have h2 : (2 : ℝ) ^ (-1075 : ℤ) ≤ 2 ^ (-4 : ℤ) := zpow_le_zpow_right₀ (by norm_num) (by norm_num)
  have h3 : (2 : ℝ) ^ (2 : ℤ) ≤ 2 ^ (1023 : ℤ) := zpow_le_zpow_right₀ (by norm_num) (by norm_num)
  have e : (2 : ℝ) ^ (-4 : ℤ) = 1 / 16 := by norm_num
  have e2 : (2 : ℝ) ^ (2 : ℤ) = 4 := by norm_num
  rw [e] at h1 h2
  rw [e2] at h3
  exact ⟨(two_zpow_pos _).le, (two_zpow_pos _).le, (two_zpow_pos _).le, h1, h1, h2, h3⟩

theorem round_lt {x : ℝ} (hx : |x| ≤ 2 ^ (1023 : ℤ)) : |Format.double.round x| < 2 ^ (1024 : ℤ) := by
  have h := Format.double.round_rel x
  have h1 := abs_add_le (Format.double.round x - x) x
  rw [sub_add_cancel] at h1
  have h2 : (2 : ℝ) ^ (-Format.double.bits) * |x| ≤ 1 / 4 * 2 ^ (1023 : ℤ) :=
    mul_le_mul ((zpow_le_zpow_right₀ (by norm_num) (show -Format.double.bits ≤ -2 by decide)).trans (by norm_num)) hx (abs_nonneg _) (by norm_num)
  have h3 : (2 : ℝ) ^ (Format.double.low - 1) ≤ 2 ^ (1021 : ℤ) := zpow_le_zpow_right₀ (by norm_num) (by decide)
  have e1 : (2 : ℝ) ^ (1024 : ℤ) = 2 * 2 ^ (1023 : ℤ) := by rw [show (1024 : ℤ) = 1 + 1023 by norm_num, zpow_add₀ (by norm_num), zpow_one]
  have e2 : (2 : ℝ) ^ (1023 : ℤ) = 4 * 2 ^ (1021 : ℤ) := by
    rw [show (1023 : ℤ) = 2 + 1021 by norm_num, zpow_add₀ (by norm_num)]; norm_num
  have h4 := two_zpow_pos 1021
  generalize (2 : ℝ) ^ (1024 : ℤ) = c at *
  generalize (2 : ℝ) ^ (1023 : ℤ) = b at *
  generalize (2 : ℝ) ^ (1021 : ℤ) = a at *
  linarith

theorem of_eq {x : ℝ} (hx : |x| ≤ 2 ^ (1023 : ℤ)) : of x = num (Format.double.round x) := by
  unfold of round
  exact if_pos (round_lt hx)

theorem of_fin {x : ℝ} (hx : |x| ≤ 2 ^ (1023 : ℤ)) : Fin (of x) :=
  ⟨_, of_eq hx, Format.double.round_has (by decide) x, round_lt hx⟩

theorem of_near {x : ℝ} (hx : |x| ≤ 2 ^ (1023 : ℤ)) : |val (of x) - x| ≤ 2 ^ (-53 : ℤ) * |x| + 2 ^ (-1075 : ℤ) := by
  rw [of_eq hx]
  exact Format.double.round_rel x

theorem of_grid {x : ℝ} (hx : |x| ≤ 2 ^ (1023 : ℤ)) (n : ℤ) (hn : x = n * 2 ^ (-1074 : ℤ)) : |val (of x) - x| ≤ 2 ^ (-53 : ℤ) * |x| := by
  rw [of_eq hx]
  exact Format.double.round_grid n hn

/-- Numbers with few digits are represented. -/
theorem has_of {m e : ℤ} (hm : |m| < 2 ^ 53) (h1 : -1074 ≤ e) (h2 : e ≤ 971) : Format.double.Has (m * 2 ^ e) := by
  have hm' : |(m : ℝ)| < 2 ^ (53 : ℤ) := by
    have : |(m : ℝ)| < 2 ^ 53 := by exact_mod_cast hm
    exact_mod_cast this
  refine ⟨⟨m, e, hm', h1, rfl⟩, ?_⟩
  rw [abs_mul, abs_of_pos (two_zpow_pos e)]
  calc |(m : ℝ)| * 2 ^ e < 2 ^ (53 : ℤ) * 2 ^ e := mul_lt_mul_of_pos_right hm' (two_zpow_pos e)
    _ = 2 ^ (53 + e) := (zpow_add₀ (by norm_num) _ _).symm
    _ ≤ 2 ^ (1024 : ℤ) := zpow_le_zpow_right₀ (by norm_num) (by omega)

/-- Represented numbers are not changed by rounding. -/
theorem of_nat {n : Nat} (hn : n < 2147483648) : of n = num n := by
  have hb : |(n : ℝ)| ≤ 2 ^ (1023 : ℤ) := by
    rw [abs_of_nonneg (Nat.cast_nonneg n)]
    have : (n : ℝ) ≤ 2 ^ (31 : ℤ) := by
      have : (n : ℝ) ≤ 2147483648 := by exact_mod_cast hn.le
      exact this.trans (by norm_num)
    exact this.trans (zpow_le_zpow_right₀ (by norm_num) (by norm_num))
  rw [of_eq hb]
  congr 1
  -- the spacing is not above 1
  have hsp : Format.double.spacing n ≤ 0 := by
    refine max_le ?_ (by decide)
    by_cases h0 : n = 0
    · subst h0; simp [Format.double]
    · have h := Format.log_le (x := (n : ℝ)) (by exact_mod_cast h0)
      have h2 : (2 : ℝ) ^ Int.log 2 |(n : ℝ)| < 2 ^ (31 : ℤ) := by
        refine h.trans_lt ?_
        rw [abs_of_nonneg (Nat.cast_nonneg n)]
        have : (n : ℝ) < 2147483648 := by exact_mod_cast hn
        exact this.trans_le (by norm_num)
      have := (zpow_lt_zpow_iff_right₀ (by norm_num : (1 : ℝ) < 2)).1 h2
      show Int.log 2 |(n : ℝ)| + 1 - 53 ≤ 0
      omega
  unfold Format.round
  set k := Format.double.spacing n
  have hp := two_zpow_pos k
  have e : (n : ℝ) / 2 ^ k = ((n * 2 ^ (-k).toNat : ℤ) : ℝ) := by
    push_cast
    rw [← zpow_natCast, Int.toNat_of_nonneg (by omega), zpow_neg, div_eq_mul_inv]
  rw [e, roundEven_int, ← e, div_mul_cancel₀ _ hp.ne']

/-- Binary64 is an arithmetic as assumed in Spec/Rounding.lean. -/
noncomputable def floating : Floating arith precision where
  Fin := Fin
  val := val
  zero := ⟨⟨0, rfl, by simpa using has_of (m := 0) (e := 0) (by norm_num) (by norm_num) (by norm_num)⟩, rfl⟩
  one := ⟨⟨1, rfl, by simpa using has_of (m := 1) (e := 0) (by norm_num) (by norm_num) (by norm_num)⟩, rfl⟩
  neg := by
    rintro _ ⟨x, rfl, ⟨m, e, h1, h2, h3⟩, h4⟩
    refine ⟨⟨-x, rfl, ⟨-m, e, by push_cast; rwa [abs_neg], h2, by rw [h3]; push_cast; ring⟩, by rwa [abs_neg]⟩, rfl⟩
  add := by
    rintro _ _ ⟨x, rfl, hx⟩ ⟨y, rfl, hy⟩ h
    obtain ⟨n, hn⟩ := hx.grid
    obtain ⟨m, hm⟩ := hy.grid
    exact ⟨of_fin h, of_grid h (n + m) (by rw [hn, hm]; push_cast; exact (add_mul _ _ _).symm)⟩
  sub := by
    rintro _ _ ⟨x, rfl, hx⟩ ⟨y, rfl, hy⟩ h
    obtain ⟨n, hn⟩ := hx.grid
    obtain ⟨m, hm⟩ := hy.grid
    exact ⟨of_fin h, of_grid h (n - m) (by rw [hn, hm]; push_cast; exact (sub_mul _ _ _).symm)⟩
  mul := by
    rintro _ _ ⟨x, rfl, _⟩ ⟨y, rfl, _⟩ h
    exact ⟨of_fin h, of_near h⟩
  div := by
    rintro _ _ ⟨x, rfl, _⟩ ⟨y, rfl, _⟩ h0 h
    have e : (num x / num y : Double) = of (x / y) := if_neg h0
    rw [e]
    exact ⟨of_fin h, of_near h⟩
  lt := by
    rintro _ _ ⟨x, rfl, _⟩ ⟨y, rfl, _⟩
    exact decide_eq_true_iff
  ofNat n hn := by
    show Fin (of n) ∧ val (of n) = n
    rw [of_nat hn]
    refine ⟨⟨n, rfl, ?_⟩, rfl⟩
    simpa using has_of (m := n) (e := 0) (by rw [abs_of_nonneg (by omega)]; omega) (by norm_num) (by norm_num)
  slope := by
    refine ⟨⟨_, rfl, ?_⟩, rfl⟩
    have := has_of (m := 13421773) (e := -27) (by norm_num) (by norm_num) (by norm_num)
    have e : ((13421773 : ℤ) : ℝ) * 2 ^ (-27 : ℤ) = 13421773 / 2 ^ 27 := by
      rw [zpow_neg]; push_cast; exact (div_eq_mul_inv _ _).symm
    rwa [e] at this
  exp := by
    rintro _ ⟨x, rfl, _⟩ h
    have h' : |Real.exp x| ≤ 2 ^ (1023 : ℤ) := by rw [abs_of_pos (Real.exp_pos x)]; exact h
    refine ⟨of_fin h', (of_near h').trans (le_of_eq ?_)⟩
    rw [abs_of_pos (Real.exp_pos x)]
    rfl
  tanh := by
    rintro _ ⟨x, rfl, _⟩
    have h' : |Real.tanh x| ≤ 2 ^ (1023 : ℤ) := by
      have : |Real.tanh x| ≤ 1 := (Real.abs_tanh_lt_one x).le
      exact this.trans (one_le_zpow₀ (by norm_num) (by norm_num))
    exact ⟨of_fin h', of_near h'⟩

/-- Overflow. -/
theorem of_inf {x : ℝ} (hx : 2 ^ (1025 : ℤ) ≤ x) : of x = inf false := by
  have h := Format.double.round_rel x
  have h2 : (2 : ℝ) ^ (-Format.double.bits) ≤ 1 / 4 :=
    (zpow_le_zpow_right₀ (by norm_num) (show -Format.double.bits ≤ -2 by decide)).trans (by norm_num)
  have h3 : (2 : ℝ) ^ (Format.double.low - 1) ≤ 2 ^ (0 : ℤ) := zpow_le_zpow_right₀ (by norm_num) (by decide)
  have h4 : (2 : ℝ) ^ (10 : ℤ) ≤ 2 ^ (1025 : ℤ) := zpow_le_zpow_right₀ (by norm_num) (by norm_num)
  have e : (2 : ℝ) ^ (1025 : ℤ) = 2 * 2 ^ (1024 : ℤ) := by rw [show (1025 : ℤ) = 1 + 1024 by norm_num, zpow_add₀ (by norm_num), zpow_one]
  have e0 : (2 : ℝ) ^ (0 : ℤ) = 1 := zpow_zero _
  have e10 : (2 : ℝ) ^ (10 : ℤ) = 1024 := by norm_num
  rw [e0] at h3
  rw [e10] at h4
  have hx0 : 0 < x := lt_of_lt_of_le (two_zpow_pos _) hx
  rw [abs_of_pos hx0] at h
  have h5 := mul_le_mul_of_nonneg_right h2 hx0.le
  have h6 := (abs_sub_le_iff.1 h).2
  have h7 := le_abs_self (Format.double.round x)
  unfold of round
  rw [if_neg, decide_eq_false hx0.not_gt]
  show ¬ |Format.double.round x| < 2 ^ (1024 : ℤ)
  generalize (2 : ℝ) ^ (1025 : ℤ) = c at *
  generalize (2 : ℝ) ^ (1024 : ℤ) = b at *
  rw [not_lt]
  linarith

/-- The conversion of a moderate number to `float`. -/
theorem toFloat_fin {a : Double} (ha : a.Fin) (h : |a.val| ≤ 4) : (toFloat a).Fin := by
  obtain ⟨x, rfl, _⟩ := ha
  have h : |x| ≤ 4 := h
  have hr := Format.float.round_rel x
  have h1 := abs_add_le (Format.float.round x - x) x
  rw [sub_add_cancel] at h1
  have h2 : (2 : ℝ) ^ (-Format.float.bits) * |x| ≤ 1 * 4 :=
    mul_le_mul ((zpow_le_zpow_right₀ (by norm_num) (show -Format.float.bits ≤ 0 by decide)).trans (by norm_num)) h (abs_nonneg _) (by norm_num)
  have h3 : (2 : ℝ) ^ (Format.float.low - 1) ≤ 2 ^ (0 : ℤ) := zpow_le_zpow_right₀ (by norm_num) (by decide)
  have e0 : (2 : ℝ) ^ (0 : ℤ) = 1 := zpow_zero _
  rw [e0] at h3
  have h9 : |Format.float.round x| ≤ 2 ^ (4 : ℤ) := by
    have : (2 : ℝ) ^ (4 : ℤ) = 16 := by norm_num
    rw [this]; linarith
  have hlt : |Format.float.round x| < 2 ^ (128 : ℤ) := lt_of_le_of_lt h9 (zpow_lt_zpow_right₀ (by norm_num) (by norm_num))
  have e : toFloat (num x) = num (Format.float.round x) := if_pos hlt
  obtain ⟨m, k, g1, g2, g3⟩ := Format.float.round_has (by decide) x
  refine ⟨_, e, ⟨m, k, g1.trans_le (zpow_le_zpow_right₀ (by norm_num) (by decide)), le_trans (by decide) g2, g3⟩, ?_⟩
  exact hlt.trans_le (zpow_le_zpow_right₀ (by norm_num) (by decide))

/-- All numbers and infinities can be compared. -/
theorem weakOn_lt : MExpr.WeakOn lt (· ≠ nan) where
  irrefl a _ := by cases a <;> simp [lt]
  trans a b c _ _ _ h1 h2 := by
    cases a <;> cases b <;> cases c <;> simp_all [lt]
    exact h1.trans h2
  neg a b c _ hb _ h1 h2 := by
    cases a <;> cases b <;> cases c <;> simp_all [lt]
    exact h1.trans_lt h2

theorem weakOn_nan : MExpr.WeakOn lt (· = nan) where
  irrefl a h := by subst h; rfl
  trans a b c h1 h2 h3 h4 h5 := by subst h1 h2; exact absurd h4 (by simp [lt])
  neg a b c h1 h2 h3 h4 h5 := by subst h1 h3; exact absurd h5 (by simp [lt])

end Double
end Cnn
