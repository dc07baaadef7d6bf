import Verif.Props.Text
import Verif.Lemmas.Nearest
/-!
# Properties C42 and C74, continued: the numbers of the formats and rounding to the nearest
-/
namespace Cnn

/-- A number with a sign, a significand and an exponent. -/
theorem Ieee.finite_iff {F : Fmt} (q : ℚ) : (∃ a : Ieee F, (Ieee.codec F).Finite a ∧ a.value = q) ↔
    ∃ m e : ℤ, |m| < 2 ^ F.p ∧ F.emin ≤ e ∧ e ≤ F.emax ∧ q = m * 2 ^ e := by
  constructor
  · rintro ⟨a, h, rfl⟩
    cases a with
    | inf => simp [Codec.Finite, Ieee.codec, Ieee.fixed] at h
    | nan => simp [Codec.Finite, Ieee.codec, Ieee.fixed] at h
    | fin neg m e hm he =>
      refine ⟨if neg then -m else m, e, ?_, he.1, he.2, ?_⟩
      · have : |(m : ℤ)| < 2 ^ F.p := by rw [Nat.abs_cast]; exact_mod_cast hm
        cases neg
        · simpa using this
        · simpa using this
      · cases neg <;> simp [Ieee.value]
  · rintro ⟨m, e, hm, h1, h2, rfl⟩
    refine ⟨.fin (decide (m < 0)) m.natAbs e ?_ ⟨h1, h2⟩, by simp [Codec.Finite, Ieee.codec, Ieee.fixed], ?_⟩
    · have : ((m.natAbs : ℕ) : ℤ) < ((2 ^ F.p : ℕ) : ℤ) := by rw [Int.natCast_natAbs]; push_cast; exact hm
      exact_mod_cast this
    · unfold Ieee.value
      by_cases h : m < 0
      · have : ((m.natAbs : ℕ) : ℚ) = -m := by rw [Nat.cast_natAbs, abs_of_neg h]; push_cast; rfl
        simp [h, this]
      · have : ((m.natAbs : ℕ) : ℚ) = m := by rw [Nat.cast_natAbs, abs_of_nonneg (by omega)]
        simp [h, this]

/-- C42: the finite values of `double` are the numbers `m * 2^e` with 53 bits and exponents from -1074 to 971; those of `float` have 24
bits and exponents from -149 to 104. -/
theorem C42_formats (q : ℚ) :
    ((∃ a : Ieee .binary64, (Ieee.codec .binary64).Finite a ∧ a.value = q) ↔ ∃ m e : ℤ, |m| < 2 ^ 53 ∧ -1074 ≤ e ∧ e ≤ 971 ∧ q = m * 2 ^ e) ∧
    ((∃ a : Ieee .binary32, (Ieee.codec .binary32).Finite a ∧ a.value = q) ↔ ∃ m e : ℤ, |m| < 2 ^ 24 ∧ -149 ≤ e ∧ e ≤ 104 ∧ q = m * 2 ^ e) :=
  ⟨Ieee.finite_iff q, Ieee.finite_iff q⟩

/-- C42: what is read for a decimal number `± mant * 10^exp`. Up to the largest number of the format it is a nearest number of the
format with the same sign; from the next power of two on, it is reported that the number is out of range. -/
theorem C42_reads {F : Fmt} (d : Dec) :
    ((d.mant : ℚ) * 10 ^ d.exp ≤ (2 ^ F.p - 1) * 2 ^ F.emax → ∃ m e hm he, (Ieee.codec F).ofDec d = (.fin d.neg m e hm he, false) ∧
      ∀ (m' : Nat) (e' : Int), m' < 2 ^ F.p → F.emin ≤ e' → |(m : ℚ) * 2 ^ e - d.mant * 10 ^ d.exp| ≤ |(m' : ℚ) * 2 ^ e' - d.mant * 10 ^ d.exp|) ∧
    (2 ^ F.p * 2 ^ F.emax ≤ (d.mant : ℚ) * 10 ^ d.exp → ((Ieee.codec F).ofDec d).2 = true) := by
  have h10 : (10 : ℚ) ^ d.exp = 10 ^ d.exp.toNat / 10 ^ (-d.exp).toNat := by
    rcases le_total 0 d.exp with h | h
    · rw [Int.toNat_of_nonpos (show -d.exp ≤ 0 by omega), pow_zero, div_one, ← zpow_natCast, Int.toNat_of_nonneg h]
    · rw [Int.toNat_of_nonpos h, pow_zero, one_div, ← zpow_natCast, Int.toNat_of_nonneg (show 0 ≤ -d.exp by omega), zpow_neg, inv_inv]
  have hq : (d.mant : ℚ) * 10 ^ d.exp = ((d.mant * 10 ^ d.exp.toNat : ℕ) : ℚ) / ((10 ^ (-d.exp).toNat : ℕ) : ℚ) := by
    rw [h10]; push_cast; ring
  have hpos : (0 : ℚ) < 2 ^ F.emax := zpow_pos (by norm_num) _
  by_cases h0 : d.mant = 0
  · refine ⟨fun _ => ⟨0, 0, by positivity, ⟨F.hmin, F.hmax⟩, ?_, ?_⟩, ?_⟩
    · show Ieee.ofDec d = _
      unfold Ieee.ofDec
      rw [if_pos h0, Ieee.make_ok d.neg (by positivity) ⟨F.hmin, F.hmax⟩]
    · intro m' e' _ _
      simp only [h0, Nat.cast_zero, zero_mul, sub_zero, abs_zero]
      exact abs_nonneg _
    · intro h
      rw [h0, Nat.cast_zero, zero_mul] at h
      exact absurd h (not_le.2 (by positivity))
  · obtain ⟨m, e, h1, h2, h3, _, h4, h5⟩ := Ieee.near_spec (F := F) d.neg (d.mant * 10 ^ d.exp.toNat) (10 ^ (-d.exp).toNat)
      (by have := Nat.pos_of_ne_zero h0; positivity) (by positivity)
    have he : (Ieee.codec F).ofDec d = Ieee.make d.neg m e := by
      show Ieee.ofDec d = _
      unfold Ieee.ofDec
      rw [if_neg h0, h1]
    rw [← hq] at h5
    generalize (d.mant : ℚ) * 10 ^ d.exp = q at *
    have hp := F.hp
    have hm1 : (m : ℚ) ≤ 2 ^ F.p - 1 := by
      have : m + 1 ≤ 2 ^ F.p := h2
      have : ((m + 1 : ℕ) : ℚ) ≤ ((2 ^ F.p : ℕ) : ℚ) := by exact_mod_cast this
      push_cast at this
      linarith
    -- the next power of two
    have hB : (2 : ℚ) ^ F.p * 2 ^ F.emax = Ieee.mag (2 ^ (F.p - 1)) (F.emax + 1) := by
      unfold Ieee.mag
      rw [zpow_add₀ (by norm_num), zpow_one]
      push_cast
      rw [show F.p = F.p - 1 + 1 by omega, pow_succ]
      simp only [Nat.add_sub_cancel]
      ring
    constructor
    · intro hle
      have hemax : e ≤ F.emax := by
        by_contra hc
        have hlow := h4 (by have := F.hmin; have := F.hmax; omega)
        have h6 := h5 (2 ^ F.p - 1) F.emax (Nat.sub_lt (by positivity) (by decide)) (F.hmin.trans F.hmax)
        have e1 : Ieee.mag (2 ^ F.p - 1) F.emax = (2 ^ F.p - 1) * 2 ^ F.emax := by
          unfold Ieee.mag
          rw [Nat.cast_sub Nat.one_le_two_pow]
          push_cast
          rfl
        have h7 : (2 : ℚ) ^ F.p * 2 ^ F.emax ≤ Ieee.mag m e := by
          rw [hB]
          unfold Ieee.mag
          push_cast
          refine mul_le_mul hlow (zpow_le_zpow_right₀ (by norm_num) (by omega)) (zpow_pos (by norm_num) _).le (by positivity)
        rw [e1, abs_of_nonneg (by linarith), abs_of_nonneg (by linarith)] at h6
        linarith
      exact ⟨m, e, h2, ⟨h3, hemax⟩, by rw [he, Ieee.make_ok d.neg h2 ⟨h3, hemax⟩], h5⟩
    · intro hge
      rw [he]
      have hemax : ¬ e ≤ F.emax := by
        intro hc
        have h6 := h5 (2 ^ (F.p - 1)) (F.emax + 1) (Nat.pow_lt_pow_right (by norm_num) (by omega)) (by have := F.hmin; have := F.hmax; omega)
        rw [← hB] at h6
        have h7 : Ieee.mag m e ≤ (2 ^ F.p - 1) * 2 ^ F.emax := by
          unfold Ieee.mag
          exact mul_le_mul hm1 (zpow_le_zpow_right₀ (by norm_num) hc) (zpow_pos (by norm_num) _).le
            (sub_nonneg.2 (one_le_pow₀ (by norm_num)))
        rw [abs_of_nonpos (by linarith), abs_of_nonpos (by linarith)] at h6
        linarith
      unfold Ieee.make
      rw [dif_neg (fun h => hemax h.2.2)]

/-- 1.5 is read as a number; 10^40 is out of range of `float`. -/
example : ((15 : ℕ) : ℚ) * 10 ^ (-1 : ℤ) ≤ (2 ^ 24 - 1) * 2 ^ (104 : ℤ) ∧ (2 : ℚ) ^ 24 * 2 ^ (104 : ℤ) ≤ ((1 : ℕ) : ℚ) * 10 ^ (40 : ℤ) := by
  constructor <;> norm_num

theorem evenInt_nearest (y : ℚ) (n : ℤ) (h : n ≠ evenInt y) :
    |(evenInt y : ℚ) - y| ≤ |(n : ℚ) - y| ∧ (|(evenInt y : ℚ) - y| = |(n : ℚ) - y| → Even (evenInt y)) := by
  have h1 := evenInt_near y
  have h2 : (1 : ℚ) ≤ |(n : ℚ) - (evenInt y : ℚ)| := by
    have : (1 : ℤ) ≤ |n - evenInt y| := Int.one_le_abs (sub_ne_zero.2 h)
    exact_mod_cast this
  have h3 : |(n : ℚ) - (evenInt y : ℚ)| ≤ |(n : ℚ) - y| + |(evenInt y : ℚ) - y| := by
    have := abs_sub ((n : ℚ) - y) ((evenInt y : ℚ) - y)
    rwa [sub_sub_sub_cancel_right] at this
  refine ⟨by linarith, fun he => ?_⟩
  have h4 : |(evenInt y : ℚ) - y| = 1 / 2 := by linarith
  have hf := Int.floor_add_fract y
  have f0 := Int.fract_nonneg y
  have f1 := Int.fract_lt_one y
  unfold evenInt at h4 ⊢
  split_ifs at h4 ⊢ with a b c
  · exfalso
    rw [abs_of_nonpos (by linarith)] at h4
    linarith
  · exfalso
    push_cast at h4
    rw [abs_of_nonneg (by linarith)] at h4
    linarith
  · exact c
  · exact Int.even_add_one.2 c

/-- C74: what the roundings of the program are (`nearest 24` for `float`, `nearest 53` for `double`). The result is a number with `p`
binary digits, none of which is nearer; if another one is as near, the last digit of the result is 0. -/
theorem C74_nearest (p : Nat) (hp : 0 < p) (q : ℚ) : ∃ m e : ℤ, nearest p q = m * 2 ^ e ∧ |m| ≤ 2 ^ p ∧
    ∀ m' e' : ℤ, |m'| ≤ 2 ^ p → (m' : ℚ) * 2 ^ e' ≠ nearest p q →
      |nearest p q - q| ≤ |(m' : ℚ) * 2 ^ e' - q| ∧ (|nearest p q - q| = |(m' : ℚ) * 2 ^ e' - q| → Even m) := by
  -- enough for numbers that are not negative
  suffices H : ∀ q : ℚ, 0 ≤ q → ∃ m e : ℤ, nearest p q = m * 2 ^ e ∧ |m| ≤ 2 ^ p ∧
      ∀ m' e' : ℤ, |m'| ≤ 2 ^ p → (m' : ℚ) * 2 ^ e' ≠ nearest p q →
        |nearest p q - q| ≤ |(m' : ℚ) * 2 ^ e' - q| ∧ (|nearest p q - q| = |(m' : ℚ) * 2 ^ e' - q| → Even m) by
    rcases le_total 0 q with h | h
    · exact H q h
    · obtain ⟨m, e, h1, h2, h3⟩ := H (-q) (by linarith)
      rw [nearest_neg] at h1 h3
      refine ⟨-m, e, by push_cast; linarith, by rwa [abs_neg], ?_⟩
      intro m' e' hm hne
      obtain ⟨a, b⟩ := h3 (-m') e' (by rwa [abs_neg]) (by
        push_cast
        intro h
        apply hne
        linarith)
      have e1 : -nearest p q - -q = -(nearest p q - q) := by ring
      have e2 : ((-m' : ℤ) : ℚ) * 2 ^ e' - -q = -((m' : ℚ) * 2 ^ e' - q) := by push_cast; ring
      rw [e1, e2, abs_neg, abs_neg] at a b
      exact ⟨a, fun h => by rw [even_neg]; exact b h⟩
  intro q hq
  rcases hq.eq_or_lt with rfl | hq
  · refine ⟨0, 0, by simp [nearest_zero], by simp, fun m' e' _ _ => ?_⟩
    rw [nearest_zero]
    simp only [sub_zero, abs_zero]
    exact ⟨abs_nonneg _, fun _ => Even.zero⟩
  set k : ℤ := Int.log 2 q + 1 - p with hk
  have hg : gridAt p q = 2 ^ k := rfl
  have hpk : (0 : ℚ) < 2 ^ k := zpow_pos (by norm_num) _
  have hn : nearest p q = evenInt (q / 2 ^ k) * 2 ^ k := by rw [nearest_pos hq.le, hg]
  have hl1 : (2 : ℚ) ^ Int.log 2 q ≤ q := by
    have := Int.zpow_log_le_self (b := 2) (r := q) (by norm_num) hq
    exact_mod_cast this
  have hl2 : q < (2 : ℚ) ^ (Int.log 2 q + 1) := by
    have := Int.lt_zpow_succ_log_self (b := 2) (by norm_num) q
    exact_mod_cast this
  have hlog : (2 : ℚ) ^ Int.log 2 q = ((2 ^ (p - 1) : ℤ) : ℚ) * 2 ^ k := by
    push_cast
    rw [← zpow_natCast, ← zpow_add₀ (by norm_num), hk]
    congr 1
    omega
  -- comparison with a multiple of the grid
  have hmul : ∀ n : ℤ, n ≠ evenInt (q / 2 ^ k) → |(evenInt (q / 2 ^ k) : ℚ) * 2 ^ k - q| ≤ |(n : ℚ) * 2 ^ k - q| ∧
      (|(evenInt (q / 2 ^ k) : ℚ) * 2 ^ k - q| = |(n : ℚ) * 2 ^ k - q| → Even (evenInt (q / 2 ^ k))) := by
    intro n hne
    obtain ⟨a, b⟩ := evenInt_nearest (q / 2 ^ k) n hne
    have e : ∀ t : ℚ, |t * 2 ^ k - q| = |t - q / 2 ^ k| * 2 ^ k := by
      intro t
      rw [show t * 2 ^ k - q = (t - q / 2 ^ k) * 2 ^ k by rw [sub_mul, div_mul_cancel₀ _ hpk.ne'], abs_mul, abs_of_pos hpk]
    rw [e, e]
    exact ⟨mul_le_mul_of_nonneg_right a hpk.le, fun h => b (mul_right_cancel₀ hpk.ne' h)⟩
  refine ⟨evenInt (q / 2 ^ k), k, hn, ?_, ?_⟩
  · have h1 : 0 ≤ evenInt (q / 2 ^ k) := by
      have := evenInt_mono (y := ((0 : ℤ) : ℚ)) (z := q / 2 ^ k) (by push_cast; positivity)
      rwa [evenInt_int] at this
    have h2 : evenInt (q / 2 ^ k) ≤ 2 ^ p := by
      have : q / 2 ^ k ≤ ((2 ^ p : ℤ) : ℚ) := by
        rw [div_le_iff₀ hpk]
        push_cast
        rw [← zpow_natCast, ← zpow_add₀ (by norm_num), hk]
        refine hl2.le.trans (le_of_eq ?_)
        congr 1
        ring
      have := evenInt_mono this
      rwa [evenInt_int] at this
    rw [abs_of_nonneg h1]
    exact h2
  · intro m' e' hm' hne
    rw [hn] at hne ⊢
    rcases le_or_gt k e' with h | h
    · have e1 : (m' : ℚ) * 2 ^ e' = ((m' * 2 ^ (e' - k).toNat : ℤ) : ℚ) * 2 ^ k := by
        push_cast
        rw [← zpow_natCast, Int.toNat_of_nonneg (by omega), mul_assoc, ← zpow_add₀ (by norm_num)]
        congr 2
        ring
      rw [e1] at hne ⊢
      exact hmul _ fun h => hne (by rw [h])
    · have hy : (m' : ℚ) * 2 ^ e' ≤ 2 ^ Int.log 2 q := by
        have h1 : (m' : ℚ) ≤ 2 ^ p := by
          have := (le_abs_self m').trans hm'
          exact_mod_cast this
        refine (mul_le_mul_of_nonneg_right h1 (zpow_pos (by norm_num) e').le).trans ?_
        rw [← zpow_natCast, ← zpow_add₀ (by norm_num)]
        exact zpow_le_zpow_right₀ (by norm_num) (by omega)
      rcases hy.eq_or_lt with hy | hy
      · rw [hy, hlog] at hne ⊢
        exact hmul _ fun h => hne (by rw [h])
      · have hd : |(2 : ℚ) ^ Int.log 2 q - q| < |(m' : ℚ) * 2 ^ e' - q| := by
          rw [abs_of_nonpos (by linarith), abs_of_nonpos (by linarith)]
          linarith
        by_cases hz : (2 ^ (p - 1) : ℤ) = evenInt (q / 2 ^ k)
        · rw [hlog, hz] at hd
          exact ⟨hd.le, fun h => absurd h hd.ne⟩
        · have := (hmul _ hz).1
          rw [← hlog] at this
          have := this.trans_lt hd
          exact ⟨this.le, fun h => absurd h this.ne⟩

/-- One half of the last digit: 2^24 + 1 becomes 2^24 as a `float`. -/
example : nearest 24 16777217 = 16777216 := by decide +kernel

end Cnn
