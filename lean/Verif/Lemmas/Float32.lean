import Verif.Model.Float32
import Mathlib.Tactic.Ring
import Mathlib.Tactic.Linarith
import Mathlib.Tactic.Positivity
import Mathlib.Data.Nat.Log
/-! Helper lemmas on binary32 rounding (C29, C55). -/
namespace Cnn.F32

theorem rhe_near (p d : Nat) (hd : 0 < d) :
    2 * p ≤ 2 * (rhe p d * d) + d ∧ 2 * (rhe p d * d) ≤ 2 * p + d := by
  have h := Nat.div_add_mod p d
  have hr := Nat.mod_lt p hd
  unfold rhe
  have e : (p / d + 1) * d = d * (p / d) + d := by ring
  have e' : p / d * d = d * (p / d) := by ring
  simp only
  split_ifs <;> simp only [e, e'] <;> omega

theorem rhe_exact (q d : Nat) (hd : 0 < d) : rhe (q * d) d = q := by
  unfold rhe
  simp [Nat.mul_div_cancel q hd, hd]

theorem pow_toNat_split (s : Int) : s.toNat = 0 ∨ (-s).toNat = 0 := by omega

/-- `2^e ≤ p/d`. -/
theorem expo_le (p d : Nat) (hp : 0 < p) :
    d * 2 ^ (expo p d).toNat ≤ p * 2 ^ (-expo p d).toNat := by
  unfold expo
  simp only
  split_ifs with h
  · exact h
  · -- d ≤ 2^(ld+1), p ≥ 2^lp
    have h1 : 2 ^ Nat.log2 p ≤ p := Nat.log2_self_le (by omega)
    have h2 : d < 2 ^ (Nat.log2 d + 1) := Nat.lt_log2_self
    generalize Nat.log2 p = a at *
    generalize Nat.log2 d = b at *
    rcases Nat.lt_or_ge b a with hab | hab
    · have e1 : ((a : Int) - b - 1).toNat = a - b - 1 := by omega
      have e2 : (-((a : Int) - b - 1)).toNat = 0 := by omega
      rw [e1, e2]
      calc d * 2 ^ (a - b - 1) ≤ 2 ^ (b + 1) * 2 ^ (a - b - 1) := Nat.mul_le_mul_right _ h2.le
        _ = 2 ^ a := by rw [← pow_add]; congr 1; omega
        _ ≤ p * 2 ^ 0 := by simpa using h1
    · have e1 : ((a : Int) - b - 1).toNat = 0 := by omega
      have e2 : (-((a : Int) - b - 1)).toNat = b + 1 - a := by omega
      rw [e1, e2]
      calc d * 2 ^ 0 ≤ 2 ^ (b + 1) := by simpa using h2.le
        _ = 2 ^ a * 2 ^ (b + 1 - a) := by rw [← pow_add]; congr 1; omega
        _ ≤ p * 2 ^ (b + 1 - a) := Nat.mul_le_mul_right _ h1

/-- The scaled fraction has at least 24 bits. -/
theorem scaled_ge (p d : Nat) (hp : 0 < p) :
    2 ^ 23 * (d * 2 ^ (-(23 - expo p d)).toNat) ≤ p * 2 ^ (23 - expo p d).toNat := by
  have h := expo_le p d hp
  generalize expo p d = e at *
  rcases lt_or_ge e 0 with he | he
  · have e1 : e.toNat = 0 := by omega
    have e2 : (23 - e).toNat = 23 + (-e).toNat := by omega
    have e3 : (-(23 - e)).toNat = 0 := by omega
    rw [e1] at h
    rw [e2, e3, pow_add]
    calc 2 ^ 23 * (d * 2 ^ 0) ≤ 2 ^ 23 * (p * 2 ^ (-e).toNat) := Nat.mul_le_mul_left _ h
      _ = p * (2 ^ 23 * 2 ^ (-e).toNat) := by ring
  · have e1 : (-e).toNat = 0 := by omega
    rw [e1] at h
    rcases lt_or_ge 23 e with he' | he'
    · have e2 : (23 - e).toNat = 0 := by omega
      have e3 : (-(23 - e)).toNat = e.toNat - 23 := by omega
      rw [e2, e3]
      calc 2 ^ 23 * (d * 2 ^ (e.toNat - 23)) = d * (2 ^ 23 * 2 ^ (e.toNat - 23)) := by ring
        _ = d * 2 ^ e.toNat := by rw [← pow_add]; congr 2; omega
        _ ≤ p * 2 ^ 0 := h
    · have e2 : (23 - e).toNat = 23 - e.toNat := by omega
      have e3 : (-(23 - e)).toNat = 0 := by omega
      rw [e2, e3]
      calc 2 ^ 23 * (d * 2 ^ 0) = (d * 2 ^ e.toNat) * 2 ^ (23 - e.toNat) := by
            rw [mul_assoc d, ← pow_add, Nat.add_sub_cancel' (by omega)]; ring
        _ ≤ (p * 2 ^ 0) * 2 ^ (23 - e.toNat) := Nat.mul_le_mul_right _ h
        _ = p * 2 ^ (23 - e.toNat) := by ring

/-- Relative error at most `2^-24`: with `v = N/D` the rounded value of `p/d`,
`|N·d - p·D| · 2^24 ≤ p·D`. -/
theorem rndPos_near (p d : Nat) (hp : 0 < p) (hd : 0 < d) :
    ∃ N D : Nat, rndPos p d = ⟨(N : Int), D⟩ ∧ 0 < D ∧
      2 ^ 24 * (p * D) ≤ 2 ^ 24 * (N * d) + p * D ∧ 2 ^ 24 * (N * d) ≤ 2 ^ 24 * (p * D) + p * D := by
  have hs := scaled_ge p d hp
  refine ⟨_, _, rfl, by positivity, ?_⟩
  generalize (23 - expo p d) = s at *
  have hr := rhe_near (p * 2 ^ s.toNat) (d * 2 ^ (-s).toNat) (by positivity)
  generalize rhe (p * 2 ^ s.toNat) (d * 2 ^ (-s).toNat) = m at *
  generalize hA : p * 2 ^ s.toNat = A at *
  generalize hB : 2 ^ (-s).toNat = B at *
  have e1 : m * B * d = m * (d * B) := by ring
  rw [e1]
  generalize hC : d * B = C at *
  generalize m * C = E at *
  omega

/-- Integers up to `2^24` are exact. -/
theorem rndPos_int (n : Nat) (hn : 0 < n) (hn' : n < 2 ^ 24) :
    ∃ D : Nat, rndPos n 1 = ⟨((n * D : Nat) : Int), D⟩ ∧ 0 < D := by
  have hl : Nat.log2 n < 24 := (Nat.log2_lt (by omega)).mpr hn'
  have he : expo n 1 ≤ 23 := by
    unfold expo
    have : Nat.log2 1 = 0 := rfl
    simp only [this]
    split_ifs <;> omega
  have e1 : (-(23 - expo n 1)).toNat = 0 := by omega
  refine ⟨2 ^ (23 - expo n 1).toNat, ?_, by positivity⟩
  unfold rndPos
  simp only [e1, pow_zero, mul_one]
  have := rhe_exact (n * 2 ^ (23 - expo n 1).toNat) 1 (by omega)
  rw [mul_one] at this
  rw [this]

theorem ofInt_small (n : Nat) (hn : 0 < n) (hn' : n < 2 ^ 24) :
    ∃ D : Nat, ofInt (n : Int) = ⟨((n * D : Nat) : Int), D⟩ ∧ 0 < D := by
  obtain ⟨D, e, h⟩ := rndPos_int n hn hn'
  refine ⟨D, ?_, h⟩
  unfold ofInt rnd
  rw [if_neg (by omega), if_pos (by omega), Int.natAbs_natCast, e]

/-- Rounding a fraction that is a small integer. -/
theorem expo_scale (p d c : Nat) (hp : 0 < p) (hd : 0 < d) (hc : 0 < c) :
    ∃ N D : Nat, rnd ((p * c : Nat) : Int) (d * c) = ⟨(N : Int), D⟩ ∧ 0 < D ∧
      2 ^ 24 * (p * D) ≤ 2 ^ 24 * (N * d) + p * D ∧ 2 ^ 24 * (N * d) ≤ 2 ^ 24 * (p * D) + p * D := by
  obtain ⟨N, D, e, h0, h1, h2⟩ := rndPos_near (p * c) (d * c) (Nat.mul_pos hp hc) (Nat.mul_pos hd hc)
  refine ⟨N, D, ?_, h0, ?_, ?_⟩
  · unfold rnd
    have : (0 : Int) < ((p * c : Nat) : Int) := by have := Nat.mul_pos hp hc; omega
    rw [if_neg (by omega), if_pos this, Int.natAbs_natCast, e]
  · refine le_of_mul_le_mul_right ?_ hc
    calc 2 ^ 24 * (p * D) * c = 2 ^ 24 * (p * c * D) := by ring
      _ ≤ 2 ^ 24 * (N * (d * c)) + p * c * D := h1
      _ = (2 ^ 24 * (N * d) + p * D) * c := by ring
  · refine le_of_mul_le_mul_right ?_ hc
    calc 2 ^ 24 * (N * d) * c = 2 ^ 24 * (N * (d * c)) := by ring
      _ ≤ 2 ^ 24 * (p * c * D) + p * c * D := h2
      _ = (2 ^ 24 * (p * D) + p * D) * c := by ring

theorem ceil_eq (N D m : Nat) (hD : 0 < D) (h1 : N ≤ m * D) (h2 : m * D < N + D) : ceil ⟨(N : Int), D⟩ = m := by
  unfold ceil
  simp only
  have : (-(N : Int)) / (D : Int) = -(m : Int) := by
    rw [Int.ediv_eq_iff_of_pos (by omega)]
    have a : (N : Int) ≤ m * D := by exact_mod_cast h1
    have b : (m : Int) * D < N + D := by exact_mod_cast h2
    constructor
    · linarith [neg_mul (m : Int) (D : Int)]
    · have : (-(m : Int) + 1) * D = -(m * D) + D := by ring
      linarith [neg_mul (m : Int) (D : Int)]
  rw [this]; ring

end Cnn.F32
