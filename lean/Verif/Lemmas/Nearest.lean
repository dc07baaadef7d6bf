import Verif.Model.Nearest
import Verif.Spec.Console
import Verif.Props.Display
import Mathlib.Tactic.Ring
import Mathlib.Tactic.FieldSimp
/-! Helper lemmas: rounding to nearest satisfies what is assumed of the roundings. -/
namespace Cnn

theorem evenInt_int (n : ℤ) : evenInt n = n := by simp [evenInt]

theorem evenInt_ge (y : ℚ) : ⌊y⌋ ≤ evenInt y := by
  unfold evenInt
  split_ifs <;> omega

theorem evenInt_le (y : ℚ) : evenInt y ≤ ⌊y⌋ + 1 := by
  unfold evenInt
  split_ifs <;> omega

theorem evenInt_mono {y z : ℚ} (h : y ≤ z) : evenInt y ≤ evenInt z := by
  have hf := Int.floor_le_floor h
  rcases lt_or_eq_of_le hf with hlt | he
  · have h1 := evenInt_le y
    have h2 := evenInt_ge z
    omega
  · have hfr : Int.fract y ≤ Int.fract z := by
      unfold Int.fract
      rw [he]
      linarith
    unfold evenInt
    rw [he]
    split_ifs <;> first | omega | (exfalso; linarith)

theorem evenInt_near (y : ℚ) : |(evenInt y : ℚ) - y| ≤ 1 / 2 := by
  have h1 : y = ⌊y⌋ + Int.fract y := (Int.floor_add_fract y).symm
  have h2 := Int.fract_nonneg y
  have h3 := Int.fract_lt_one y
  unfold evenInt
  rw [abs_le]
  split_ifs with a b c
  · constructor <;> linarith
  · push_cast; constructor <;> linarith
  · have : Int.fract y = 1 / 2 := le_antisymm (not_lt.1 b) (not_lt.1 a)
    constructor <;> linarith
  · have : Int.fract y = 1 / 2 := le_antisymm (not_lt.1 b) (not_lt.1 a)
    push_cast
    constructor <;> linarith

theorem gridAt_pos (p : Nat) (q : ℚ) : 0 < gridAt p q := zpow_pos (by norm_num) _

theorem nearest_zero (p : Nat) : nearest p 0 = 0 := by simp [nearest, evenInt]

theorem nearest_neg (p : Nat) (q : ℚ) : nearest p (-q) = - nearest p q := by
  rcases lt_trichotomy q 0 with h | rfl | h
  · unfold nearest
    rw [if_pos (by linarith), if_neg (by linarith), neg_neg]
  · simp [nearest_zero]
  · unfold nearest
    rw [if_neg (by linarith), if_pos h.le, neg_neg]

theorem nearest_pos {p : Nat} {q : ℚ} (h : 0 ≤ q) : nearest p q = evenInt (q / gridAt p q) * gridAt p q := if_pos h

theorem nearest_nonneg {p : Nat} {q : ℚ} (h : 0 ≤ q) : 0 ≤ nearest p q := by
  rw [nearest_pos h]
  have h1 := gridAt_pos p q
  have h2 : (0 : ℤ) ≤ evenInt (q / gridAt p q) := by
    have := evenInt_mono (show ((0 : ℤ) : ℚ) ≤ q / gridAt p q by push_cast; positivity)
    rwa [evenInt_int] at this
  have h3 : (0 : ℚ) ≤ evenInt (q / gridAt p q) := by exact_mod_cast h2
  positivity

/-- A multiple of the grid is kept. -/
theorem nearest_grid {p : Nat} {q : ℚ} (h : 0 ≤ q) (n : ℤ) (hn : q = n * gridAt p q) : nearest p q = q := by
  have hg := gridAt_pos p q
  rw [nearest_pos h]
  have : q / gridAt p q = n := by rw [div_eq_iff hg.ne']; exact hn
  rw [this, evenInt_int]
  exact hn.symm

theorem log_bounds {q : ℚ} (h : 0 < q) : (2 : ℚ) ^ Int.log 2 q ≤ q ∧ q < (2 : ℚ) ^ (Int.log 2 q + 1) := by
  have h1 := Int.zpow_log_le_self (b := 2) (by norm_num) h
  have h2 := Int.lt_zpow_succ_log_self (b := 2) (by norm_num) q
  push_cast at h1 h2
  exact ⟨h1, h2⟩

theorem nearest_le_top {p : Nat} {q : ℚ} (h : 0 < q) : nearest p q ≤ (2 : ℚ) ^ (Int.log 2 q + 1) := by
  have hg := gridAt_pos p q
  have e : (2 : ℚ) ^ (Int.log 2 q + 1) = ((2 ^ p : ℤ) : ℚ) * gridAt p q := by
    unfold gridAt
    push_cast
    rw [← zpow_natCast, ← zpow_add₀ (by norm_num)]
    congr 1
    ring
  rw [nearest_pos h.le, e]
  refine mul_le_mul_of_nonneg_right ?_ hg.le
  have := evenInt_mono (show q / gridAt p q ≤ ((2 ^ p : ℤ) : ℚ) by rw [div_le_iff₀ hg, ← e]; exact (log_bounds h).2.le)
  rw [evenInt_int] at this
  exact_mod_cast this

theorem bottom_le_nearest {p : Nat} (hp : 0 < p) {q : ℚ} (h : 0 < q) : (2 : ℚ) ^ Int.log 2 q ≤ nearest p q := by
  have hg := gridAt_pos p q
  obtain ⟨m, rfl⟩ : ∃ m, p = m + 1 := ⟨p - 1, by omega⟩
  have e : (2 : ℚ) ^ Int.log 2 q = ((2 ^ m : ℤ) : ℚ) * gridAt (m + 1) q := by
    unfold gridAt
    push_cast
    rw [← zpow_natCast, ← zpow_add₀ (by norm_num)]
    congr 1
    ring
  rw [nearest_pos h.le, e]
  refine mul_le_mul_of_nonneg_right ?_ hg.le
  have := evenInt_mono (show ((2 ^ m : ℤ) : ℚ) ≤ q / gridAt (m + 1) q by rw [le_div_iff₀ hg, ← e]; exact (log_bounds h).1)
  rw [evenInt_int] at this
  exact_mod_cast this

theorem nearest_mono_pos {p : Nat} (hp : 0 < p) {a b : ℚ} (ha : 0 ≤ a) (h : a ≤ b) : nearest p a ≤ nearest p b := by
  rcases eq_or_lt_of_le ha with rfl | ha
  · rw [nearest_zero]
    exact nearest_nonneg h
  · have hb : 0 < b := lt_of_lt_of_le ha h
    have hl : Int.log 2 a ≤ Int.log 2 b := Int.log_mono_right ha h
    rcases eq_or_lt_of_le hl with he | hlt
    · have hgr : gridAt p a = gridAt p b := by unfold gridAt; rw [he]
      rw [nearest_pos ha.le, nearest_pos hb.le, hgr]
      have hg := gridAt_pos p b
      refine mul_le_mul_of_nonneg_right ?_ hg.le
      exact_mod_cast evenInt_mono (div_le_div_of_nonneg_right h hg.le)
    · calc nearest p a ≤ (2 : ℚ) ^ (Int.log 2 a + 1) := nearest_le_top ha
        _ ≤ (2 : ℚ) ^ Int.log 2 b := zpow_le_zpow_right₀ (by norm_num) hlt
        _ ≤ nearest p b := bottom_le_nearest hp hb

theorem nearest_mono {p : Nat} (hp : 0 < p) {a b : ℚ} (h : a ≤ b) : nearest p a ≤ nearest p b := by
  rcases le_total 0 a with ha | ha
  · exact nearest_mono_pos hp ha h
  · rcases le_total 0 b with hb | hb
    · have h1 := nearest_nonneg (p := p) (q := -a) (by linarith)
      rw [nearest_neg] at h1
      have h2 := nearest_nonneg (p := p) hb
      linarith
    · have := nearest_mono_pos hp (a := -b) (b := -a) (by linarith) (by linarith)
      rw [nearest_neg, nearest_neg] at this
      linarith

/-- Rounding to nearest keeps the numbers with `p` digits. -/
theorem nearest_keeps_pos {p : Nat} (hp : 0 < p) (i : ℤ) (k : Nat) (h0 : 0 < i) (hi : i ≤ 2 ^ p) : nearest p (i / 2 ^ k) = i / 2 ^ k := by
  have hk : (0 : ℚ) < 2 ^ k := by positivity
  have hiq : (0 : ℚ) < i := by exact_mod_cast h0
  have hq : (0 : ℚ) < i / 2 ^ k := by positivity
  obtain ⟨b1, b2⟩ := log_bounds hq
  obtain ⟨L, hL⟩ : ∃ L, L = Int.log 2 ((i : ℚ) / 2 ^ k) := ⟨_, rfl⟩
  rw [← hL] at b1 b2
  have hgrid : gridAt p ((i : ℚ) / 2 ^ k) = 2 ^ (L + 1 - p) := by unfold gridAt; rw [hL]
  have hLk : (2 : ℚ) ^ (L + k) ≤ i := by
    rw [zpow_add₀ (by norm_num), zpow_natCast]
    rwa [le_div_iff₀ hk] at b1
  have hiu : (i : ℚ) ≤ 2 ^ p := by exact_mod_cast hi
  have hle : L + k ≤ p := by
    have : (2 : ℚ) ^ (L + k) ≤ 2 ^ ((p : ℕ) : ℤ) := by rw [zpow_natCast]; exact hLk.trans hiu
    exact (zpow_le_zpow_iff_right₀ (by norm_num)).1 this
  rcases eq_or_lt_of_le hle with he | hlt
  · refine nearest_grid hq.le (2 ^ (p - 1)) ?_
    have : (i : ℚ) = 2 ^ p := by
      refine le_antisymm hiu ?_
      rw [← zpow_natCast, ← he]
      exact hLk
    rw [hgrid, this]
    push_cast
    rw [← zpow_natCast, ← zpow_natCast, ← zpow_natCast, ← zpow_sub₀ (by norm_num), ← zpow_add₀ (by norm_num)]
    congr 1
    push_cast [Nat.cast_sub (show 1 ≤ p from hp)]
    omega
  · refine nearest_grid hq.le (i * 2 ^ (p - 1 - L - k).toNat) ?_
    rw [hgrid]
    push_cast
    rw [← zpow_natCast, ← zpow_natCast, mul_assoc, ← zpow_add₀ (by norm_num), Int.toNat_of_nonneg (by omega), div_eq_mul_inv, ← zpow_neg]
    congr 2
    ring

theorem nearest_rounding {p : Nat} (hp : 0 < p) : Rounding (nearest p) where
  mono _ _ h := nearest_mono hp h
  zero := nearest_zero p
  one := by
    have := nearest_keeps_pos hp 1 0 (by norm_num) (one_le_pow₀ (by norm_num))
    simpa using this

theorem nearest_keeps {p : Nat} (hp : 0 < p) : KeepsBits (nearest p) p := by
  intro i k hi _
  rcases lt_trichotomy i 0 with h | rfl | h
  · have := nearest_keeps_pos hp (-i) k (by omega) (by rw [abs_of_neg h] at hi; exact hi)
    push_cast at this
    rw [neg_div, nearest_neg] at this
    linarith
  · simp [nearest_zero]
  · exact nearest_keeps_pos hp i k h (by rwa [abs_of_pos h] at hi)

/-- The relative error. -/
theorem nearest_error {p : Nat} {q : ℚ} (h : 0 ≤ q) : |nearest p q - q| ≤ q / 2 ^ p := by
  rcases eq_or_lt_of_le h with rfl | hq
  · simp [nearest_zero]
  · have hg := gridAt_pos p q
    rw [nearest_pos h]
    have e : (evenInt (q / gridAt p q) : ℚ) * gridAt p q - q = (evenInt (q / gridAt p q) - q / gridAt p q) * gridAt p q := by
      field_simp
    rw [e, abs_mul, abs_of_pos hg]
    have h1 := mul_le_mul_of_nonneg_right (evenInt_near (q / gridAt p q)) hg.le
    refine h1.trans ?_
    have e2 : 1 / 2 * gridAt p q = 2 ^ Int.log 2 q / 2 ^ p := by
      unfold gridAt
      rw [zpow_sub₀ (by norm_num), zpow_add₀ (by norm_num), zpow_one, zpow_natCast]
      ring
    rw [e2]
    exact div_le_div_of_nonneg_right (log_bounds hq).1 (by positivity)

/-- What is assumed of the rounding to `double` in C71, C74 and C88. -/
theorem nearest_error_53 (q : ℚ) (h : 0 ≤ q) : nearest 53 q ≤ q * (1 + 1 / 9007199254740992) := by
  have := (abs_le.1 (nearest_error (p := 53) h)).2
  have e : q / 2 ^ 53 = q * (1 / 9007199254740992) := by norm_num; ring
  rw [e] at this
  linarith

end Cnn
