import Verif.Model.Codec
import Verif.Spec.Text
import Verif.Lemmas.Float32
import Mathlib.Tactic.FieldSimp
import Mathlib.Algebra.Order.Field.Rat
/-! Helper lemmas: printing and reading IEEE values (C42). -/
namespace Cnn
open F32

theorem rhe_even_of_tie (p d : Nat) (hd : 0 < d) (h : 2 * p = 2 * (rhe p d * d) + d ∨ 2 * (rhe p d * d) = 2 * p + d) :
    rhe p d % 2 = 0 := by
  have h1 := Nat.div_add_mod p d
  have hr := Nat.mod_lt p hd
  have e : (p / d + 1) * d = d * (p / d) + d := by ring
  have e' : p / d * d = d * (p / d) := by ring
  unfold rhe at *
  simp only at *
  split_ifs at * <;> simp only [e, e'] at * <;> omega

theorem rhe_abs (p d : Nat) (hd : 0 < d) : |(p : ℚ) / d - rhe p d| ≤ 1 / 2 := by
  obtain ⟨h1, h2⟩ := rhe_near p d hd
  have hd' : (0 : ℚ) < d := by exact_mod_cast hd
  have h1' : 2 * (p : ℚ) ≤ 2 * (rhe p d * d) + d := by exact_mod_cast h1
  have h2' : 2 * ((rhe p d : ℚ) * d) ≤ 2 * p + d := by exact_mod_cast h2
  rw [abs_le]
  constructor
  · have : (rhe p d : ℚ) - 1 / 2 ≤ p / d := by rw [le_div_iff₀ hd']; linarith
    linarith
  · have : (p : ℚ) / d ≤ rhe p d + 1 / 2 := by rw [div_le_iff₀ hd']; linarith
    linarith

theorem rhe_tie (p d : Nat) (hd : 0 < d) (h : |(p : ℚ) / d - rhe p d| = 1 / 2) : rhe p d % 2 = 0 := by
  have hd' : (0 : ℚ) < d := by exact_mod_cast hd
  apply rhe_even_of_tie p d hd
  rcases (abs_eq (by norm_num)).1 h with h | h
  · left
    have : (p : ℚ) / d = rhe p d + 1 / 2 := by linarith
    rw [div_eq_iff hd'.ne'] at this
    have : 2 * (p : ℚ) = 2 * (rhe p d * d) + d := by linarith
    exact_mod_cast this
  · right
    have : (p : ℚ) / d = rhe p d - 1 / 2 := by linarith
    rw [div_eq_iff hd'.ne'] at this
    have : 2 * ((rhe p d : ℚ) * d) = 2 * p + d := by linarith
    exact_mod_cast this

theorem abs_sub_nat_ge {a b : Nat} (h : a ≠ b) : (1 : ℚ) ≤ |(a : ℚ) - b| := by
  rw [le_abs]
  rcases Nat.lt_or_gt_of_ne h with h | h
  · right; have : (a : ℚ) + 1 ≤ b := by exact_mod_cast h
    linarith
  · left; have : (b : ℚ) + 1 ≤ a := by exact_mod_cast h
    linarith

/-- The result is the nearest integer. -/
theorem rhe_nearest (p d n : Nat) (hd : 0 < d) : |(p : ℚ) / d - rhe p d| ≤ |(p : ℚ) / d - n| := by
  by_cases h : rhe p d = n
  · rw [h]
  · have h1 := rhe_abs p d hd
    have h2 := abs_sub_nat_ge h
    have h3 := abs_sub_le ((rhe p d : ℚ)) ((p : ℚ) / d) n
    rw [abs_sub_comm] at h1
    rw [abs_sub_comm ((p : ℚ) / d) (rhe p d)]
    linarith

/-- A characterisation of the rounding. -/
theorem rhe_eq (p d n : Nat) (hd : 0 < d) (h : |(p : ℚ) / d - n| ≤ 1 / 2) (ht : |(p : ℚ) / d - n| = 1 / 2 → n % 2 = 0) :
    rhe p d = n := by
  by_contra hne
  have h1 := rhe_abs p d hd
  have h2 := abs_sub_nat_ge hne
  have h3 := abs_sub_le ((rhe p d : ℚ)) ((p : ℚ) / d) n
  rw [abs_sub_comm ((rhe p d : ℚ))  ((p : ℚ) / d)] at h3
  have t1 : |(p : ℚ) / d - rhe p d| = 1 / 2 := by linarith
  have t2 : |(p : ℚ) / d - n| = 1 / 2 := by linarith
  have e1 := rhe_tie p d hd t1
  have e2 := ht t2
  have e3 : |(rhe p d : ℚ) - n| = 1 := by linarith
  rcases (abs_eq (by norm_num)).1 e3 with e | e
  · have : (rhe p d : ℚ) = n + 1 := by linarith
    have : rhe p d = n + 1 := by exact_mod_cast this
    omega
  · have : (rhe p d : ℚ) + 1 = n := by linarith
    have : rhe p d + 1 = n := by exact_mod_cast this
    omega

theorem two_zpow (e : Int) : (2 : ℚ) ^ e = (2 : ℚ) ^ e.toNat / (2 : ℚ) ^ (-e).toNat := by
  rcases le_total 0 e with h | h
  · have e1 : (-e).toNat = 0 := by omega
    rw [e1, pow_zero, div_one, ← zpow_natCast, Int.toNat_of_nonneg h]
  · have e1 : e.toNat = 0 := by omega
    rw [e1, pow_zero, ← zpow_natCast, Int.toNat_of_nonneg (by omega), zpow_neg, one_div, inv_inv]

theorem expo_ge (P Q : Nat) (hP : 0 < P) (hQ : 0 < Q) : (2 : ℚ) ^ expo P Q ≤ P / Q := by
  have h := expo_le P Q hP
  have hQ' : (0 : ℚ) < Q := by exact_mod_cast hQ
  rw [two_zpow, div_le_div_iff₀ (by positivity) hQ']
  have : (Q : ℚ) * 2 ^ (expo P Q).toNat ≤ P * 2 ^ (-expo P Q).toNat := by exact_mod_cast h
  linarith

theorem expo_lt (P Q : Nat) (hQ : 0 < Q) : (P : ℚ) / Q < (2 : ℚ) ^ (expo P Q + 1) := by
  have hQ' : (0 : ℚ) < Q := by exact_mod_cast hQ
  unfold expo
  simp only
  split_ifs with h
  · have h1 : P < 2 ^ (Nat.log2 P + 1) := Nat.lt_log2_self
    have h2 : 2 ^ Nat.log2 Q ≤ Q := Nat.log2_self_le (by omega)
    rw [show (Nat.log2 P : Int) - Nat.log2 Q + 1 = ((Nat.log2 P + 1 : Nat) : Int) - (Nat.log2 Q : Nat) by push_cast; ring,
      zpow_sub₀ (by norm_num), zpow_natCast, zpow_natCast]
    have h1' : (P : ℚ) < 2 ^ (Nat.log2 P + 1) := by exact_mod_cast h1
    have h2' : (2 : ℚ) ^ Nat.log2 Q ≤ Q := by exact_mod_cast h2
    calc (P : ℚ) / Q ≤ P / 2 ^ Nat.log2 Q := div_le_div_of_nonneg_left (by positivity) (by positivity) h2'
      _ < _ := div_lt_div_of_pos_right h1' (by positivity)
  · rw [sub_add_cancel, two_zpow, div_lt_div_iff₀ hQ' (by positivity)]
    have := not_le.1 h
    have : (P : ℚ) * 2 ^ (-((Nat.log2 P : Int) - Nat.log2 Q)).toNat < Q * 2 ^ ((Nat.log2 P : Int) - Nat.log2 Q).toNat := by
      exact_mod_cast this
    linarith

namespace Ieee
variable {F : Fmt}

/-- `m * 2^e`. -/
def mag (m : Nat) (e : Int) : ℚ := (m : ℚ) * 2 ^ e

theorem fixed_fin {neg : Bool} {m : Nat} {e : Int} (hm) (he) (N : Nat) (h : |mag m e * 1000000 - N| ≤ 1 / 2)
    (ht : |mag m e * 1000000 - N| = 1 / 2 → N % 2 = 0) : fixed (.fin neg m e hm he : Ieee F) = some ⟨neg, N⟩ := by
  unfold fixed
  simp only [Option.some.injEq, Fix.mk.injEq, true_and]
  have hv : ((m * 2 ^ e.toNat * 1000000 : Nat) : ℚ) / ((2 ^ (-e).toNat : Nat) : ℚ) = mag m e * 1000000 := by
    unfold mag; rw [two_zpow]; push_cast; ring
  apply rhe_eq _ _ _ (by positivity)
  · rw [hv]; exact h
  · rw [hv]; exact ht

theorem fixed_spec {neg : Bool} {m : Nat} {e : Int} (hm) (he) {f : Fix} (h : fixed (.fin neg m e hm he : Ieee F) = some f) :
    f.neg = neg ∧ |mag m e * 1000000 - f.micro| ≤ 1 / 2 ∧ (|mag m e * 1000000 - f.micro| = 1 / 2 → f.micro % 2 = 0) := by
  unfold fixed at h
  simp only [Option.some.injEq] at h
  subst h
  have hv : ((m * 2 ^ e.toNat * 1000000 : Nat) : ℚ) / ((2 ^ (-e).toNat : Nat) : ℚ) = mag m e * 1000000 := by
    unfold mag; rw [two_zpow]; push_cast; ring
  refine ⟨rfl, ?_, ?_⟩
  · have := rhe_abs (m * 2 ^ e.toNat * 1000000) (2 ^ (-e).toNat) (by positivity)
    rwa [hv] at this
  · have := rhe_tie (m * 2 ^ e.toNat * 1000000) (2 ^ (-e).toNat) (by positivity)
    rwa [hv] at this

/-- Rounding a positive fraction: some representable `m * 2^e` at least as near as every value with at most `p` bits and
exponent at least `emin`; the exponent is the least possible. -/
theorem near_spec (neg : Bool) (P Q : Nat) (hP : 0 < P) (hQ : 0 < Q) :
    ∃ (m : Nat) (e : Int), (near neg P Q : Ieee F × Bool) = make neg m e ∧ m < 2 ^ F.p ∧ F.emin ≤ e ∧
      (e = F.emin ∨ 2 ^ (F.p - 1) ≤ m ∨ F.emin < e) ∧ (F.emin < e → (2 : ℚ) ^ (F.p - 1) ≤ m) ∧
      ∀ (m' : Nat) (e' : Int), m' < 2 ^ F.p → F.emin ≤ e' → |mag m e - (P : ℚ) / Q| ≤ |mag m' e' - (P : ℚ) / Q| := by
  obtain ⟨e, he⟩ : ∃ e, e = max F.emin (F32.expo P Q - (F.p - 1 : Nat)) := ⟨_, rfl⟩
  obtain ⟨r, hr⟩ : ∃ r, r = F32.rhe (P * 2 ^ (-e).toNat) (Q * 2 ^ e.toNat) := ⟨_, rfl⟩
  obtain ⟨q, hq⟩ : ∃ q, q = (P : ℚ) / Q := ⟨_, rfl⟩
  have hQ' : (Q : ℚ) ≠ 0 := by exact_mod_cast hQ.ne'
  have hx : ((P * 2 ^ (-e).toNat : Nat) : ℚ) / ((Q * 2 ^ e.toNat : Nat) : ℚ) = q / 2 ^ e := by
    rw [two_zpow, hq]; push_cast; field_simp
  have h2e : (0 : ℚ) < 2 ^ e := zpow_pos (by norm_num) _
  -- `r` is the multiple of `2^e` nearest to `q`
  have hn : ∀ n : Nat, |(r : ℚ) * 2 ^ e - q| ≤ |(n : ℚ) * 2 ^ e - q| := by
    intro n
    have := rhe_nearest (P * 2 ^ (-e).toNat) (Q * 2 ^ e.toNat) n (by positivity)
    rw [hx, ← hr] at this
    have k : ∀ t : ℚ, |t * 2 ^ e - q| = |q / 2 ^ e - t| * 2 ^ e := by
      intro t
      rw [abs_sub_comm, ← abs_of_pos h2e, ← abs_mul, abs_of_pos h2e]
      congr 1; field_simp
    rw [k, k]
    exact mul_le_mul_of_nonneg_right this h2e.le
  have habs : |q / 2 ^ e - r| ≤ 1 / 2 := by
    have := rhe_abs (P * 2 ^ (-e).toNat) (Q * 2 ^ e.toNat) (by positivity)
    rwa [hx, ← hr] at this
  -- lower bound if the exponent is not the least
  have hlow : F.emin < e → (2 : ℚ) ^ (F.p - 1) * 2 ^ e ≤ q := by
    intro hlt
    have : e = F32.expo P Q - (F.p - 1 : Nat) := by omega
    have h1 := expo_ge P Q hP hQ
    rw [← hq] at h1
    calc (2 : ℚ) ^ (F.p - 1) * 2 ^ e = 2 ^ F32.expo P Q := by
          rw [← zpow_natCast, ← zpow_add₀ (by norm_num), this]; congr 1; omega
      _ ≤ q := h1
  have hrlow : F.emin < e → 2 ^ (F.p - 1) ≤ r := by
    intro hlt
    have h1 : (2 : ℚ) ^ (F.p - 1) ≤ q / 2 ^ e := by
      rw [le_div_iff₀ h2e]; exact hlow hlt
    by_contra hc
    have hc' : r + 1 ≤ 2 ^ (F.p - 1) := by omega
    have hc'' : (r : ℚ) + 1 ≤ 2 ^ (F.p - 1) := by exact_mod_cast hc'
    have := (abs_le.1 habs).2
    linarith
  -- upper bound
  have hup : q / 2 ^ e < 2 ^ F.p := by
    rw [div_lt_iff₀ h2e]
    have h1 := expo_lt P Q hQ
    rw [← hq] at h1
    refine h1.trans_le ?_
    rw [← zpow_natCast, ← zpow_add₀ (by norm_num)]
    apply zpow_le_zpow_right₀ (by norm_num)
    have := F.hp
    omega
  have hrup : r ≤ 2 ^ F.p := by
    by_contra hc
    have hc' : 2 ^ F.p + 1 ≤ r := by omega
    have hc'' : (2 : ℚ) ^ F.p + 1 ≤ r := by exact_mod_cast hc'
    have := (abs_le.1 habs).1
    linarith
  -- nearest among all values
  have hall : ∀ (m' : Nat) (e' : Int), m' < 2 ^ F.p → F.emin ≤ e' → |(r : ℚ) * 2 ^ e - q| ≤ |mag m' e' - q| := by
    intro m' e' hm' he'
    rcases le_or_gt e e' with hee | hee
    · obtain ⟨k, rfl⟩ : ∃ k : Nat, e' = e + k := ⟨(e' - e).toNat, by omega⟩
      have := hn (m' * 2 ^ k)
      unfold mag
      rw [zpow_add₀ (by norm_num), zpow_natCast]
      refine this.trans (le_of_eq ?_)
      congr 1; push_cast; ring
    · have hlt : F.emin < e := by omega
      have hl := hlow hlt
      have h1 := hn (2 ^ (F.p - 1))
      have h2 : mag m' e' ≤ 2 ^ (F.p - 1) * 2 ^ e := by
        unfold mag
        have : (m' : ℚ) ≤ 2 ^ F.p := by exact_mod_cast hm'.le
        calc (m' : ℚ) * 2 ^ e' ≤ 2 ^ F.p * 2 ^ e' := mul_le_mul_of_nonneg_right this (le_of_lt (zpow_pos (by norm_num) _))
          _ = (2 : ℚ) ^ ((F.p : Int) + e') := by rw [zpow_add₀ (by norm_num), zpow_natCast]
          _ ≤ (2 : ℚ) ^ (((F.p - 1 : Nat) : Int) + e) := by
              apply zpow_le_zpow_right₀ (by norm_num)
              have := F.hp
              omega
          _ = _ := by rw [zpow_add₀ (by norm_num), zpow_natCast]
      refine h1.trans ?_
      push_cast
      rw [abs_of_nonpos (by linarith), abs_of_nonpos (by linarith)]
      linarith
  have hemin : F.emin ≤ e := by omega
  have hpow : 2 ^ (F.p - 1) * 2 = 2 ^ F.p := by rw [← pow_succ, Nat.sub_add_cancel F.hp]
  by_cases hc : r = 2 ^ F.p
  · refine ⟨2 ^ (F.p - 1), e + 1, ?_, ?_, by omega, Or.inr (Or.inl le_rfl), by intro _; push_cast; rfl, ?_⟩
    · unfold near
      simp only [← he, ← hr, if_pos hc]
    · have : 0 < 2 ^ (F.p - 1) := by positivity
      omega
    · intro m' e' hm' he'
      have : mag (2 ^ (F.p - 1)) (e + 1) = (r : ℚ) * 2 ^ e := by
        unfold mag
        rw [hc, ← hpow, zpow_add₀ (by norm_num), zpow_one]; push_cast; ring
      rw [this, ← hq]
      exact hall m' e' hm' he'
  · refine ⟨r, e, ?_, by omega, hemin, ?_, ?_, ?_⟩
    · unfold near
      simp only [← he, ← hr, if_neg hc]
    · by_cases h : F.emin < e
      · exact .inr (.inr h)
      · exact .inl (by omega)
    · intro h; exact_mod_cast hrlow h
    · intro m' e' hm' he'
      rw [← hq]
      exact hall m' e' hm' he'

theorem make_ok (neg : Bool) {m : Nat} {e : Int} (hm : m < 2 ^ F.p) (he : F.emin ≤ e ∧ e ≤ F.emax) :
    (make neg m e : Ieee F × Bool) = (.fin neg m e hm he, false) := dif_pos ⟨hm, he⟩

theorem lawful (F : Fmt) : (codec F).Lawful where
  reread := by
    intro a f hf
    cases a with
    | inf => simp [codec, fixed] at hf
    | nan => simp [codec, fixed] at hf
    | fin neg m e hm he =>
      obtain ⟨h1, h2, h3⟩ := fixed_spec hm he hf
      by_cases h0 : f.micro = 0
      · refine ⟨.fin f.neg 0 0 (by positivity) ⟨F.hmin, F.hmax⟩, ?_, ?_⟩
        · show ofDec _ = _
          unfold ofDec
          simp only [h0, if_true]
          exact make_ok _ _ _
        · have := fixed_fin (F := F) (neg := f.neg) (m := 0) (e := 0) (by positivity) ⟨F.hmin, F.hmax⟩ f.micro
            (by simp [mag, h0]) (by simp [mag, h0])
          exact this
      · have hP : 0 < f.micro := Nat.pos_of_ne_zero h0
        obtain ⟨m', e', a1, a2, a3, -, a5, a6⟩ := near_spec (F := F) f.neg (f.micro * 10 ^ 0) (10 ^ 6)
          (by simpa using hP) (by positivity)
        have hv := a6 m e hm he.1
        obtain ⟨D, hD⟩ : ∃ D : ℚ, D = ((f.micro * 10 ^ 0 : Nat) : ℚ) / ((10 ^ 6 : Nat) : ℚ) := ⟨_, rfl⟩
        rw [← hD] at hv
        have hD' : D * 1000000 = f.micro := by rw [hD]; push_cast; ring
        have scale : ∀ t : ℚ, |t * 1000000 - f.micro| = |t - D| * 1000000 := by
          intro t
          rw [← hD', ← sub_mul, abs_mul, abs_of_pos (by norm_num : (0 : ℚ) < 1000000)]
        have hle : |mag m' e' * 1000000 - f.micro| ≤ |mag m e * 1000000 - f.micro| := by
          rw [scale, scale]
          exact mul_le_mul_of_nonneg_right hv (by norm_num)
        -- no overflow
        have hemax : e' ≤ F.emax := by
          by_contra hc
          have hgt : F.emin < e' := by have := F.hmin; have := F.hmax; omega
          have b1 := a5 hgt
          have h2e : (0 : ℚ) < 2 ^ e' := zpow_pos (by norm_num) _
          have b2 : (2 : ℚ) ^ F.p * 2 ^ F.emax ≤ mag m' e' := by
            calc (2 : ℚ) ^ F.p * 2 ^ F.emax = 2 ^ ((F.p : Int) + F.emax) := by rw [zpow_add₀ (by norm_num), zpow_natCast]
              _ ≤ 2 ^ (((F.p - 1 : Nat) : Int) + e') := by
                  apply zpow_le_zpow_right₀ (by norm_num)
                  have := F.hp
                  omega
              _ = 2 ^ (F.p - 1) * 2 ^ e' := by rw [zpow_add₀ (by norm_num), zpow_natCast]
              _ ≤ (m' : ℚ) * 2 ^ e' := mul_le_mul_of_nonneg_right b1 h2e.le
          have b3 : mag m e ≤ ((2 : ℚ) ^ F.p - 1) * 2 ^ F.emax := by
            have hm1 : (m : ℚ) + 1 ≤ 2 ^ F.p := by exact_mod_cast hm
            unfold mag
            have : (2 : ℚ) ^ e ≤ 2 ^ F.emax := zpow_le_zpow_right₀ (by norm_num) he.2
            calc (m : ℚ) * 2 ^ e ≤ (m : ℚ) * 2 ^ F.emax := mul_le_mul_of_nonneg_left this (by positivity)
              _ ≤ (2 ^ F.p - 1) * 2 ^ F.emax := mul_le_mul_of_nonneg_right (by linarith) (le_of_lt (zpow_pos (by norm_num) _))
          have b4 : (1 : ℚ) ≤ 2 ^ F.emax := one_le_zpow₀ (by norm_num) F.hmax
          have c1 := abs_le.1 (hle.trans h2)
          have c2 := abs_le.1 h2
          nlinarith [c1.2, c2.1, b2, b3, b4]
        refine ⟨.fin f.neg m' e' a2 ⟨a3, hemax⟩, ?_, ?_⟩
        · show ofDec _ = _
          unfold ofDec
          simp only [if_neg h0]
          exact a1.trans (make_ok _ _ _)
        · exact fixed_fin a2 ⟨a3, hemax⟩ f.micro (hle.trans h2) (fun h => h3 (le_antisymm h2 (h ▸ hle)))
  words := by
    intro a ha
    cases a with
    | fin => simp [codec, fixed] at ha
    | inf b => cases b <;> simp [codec, word]
    | nan b => cases b <;> simp [codec, word]

end Ieee
end Cnn
