import Verif.Lemmas.Float32
import Verif.Lemmas.Shows
import Verif.Model.Layers
/-!
# The output size of a pooling layer, computed in `float`
-/
namespace Cnn
namespace F32

/-- A small whole number given as any fraction is represented exactly. -/
theorem rnd_whole (n c : Nat) (hn : 0 < n) (hn' : n < 2 ^ 24) (hc : 0 < c) :
    ∃ D : Nat, rnd ((n * c : Nat) : Int) c = ⟨((n * D : Nat) : Int), D⟩ ∧ 0 < D := by
  have hp : 0 < n * c := Nat.mul_pos hn hc
  have he : expo (n * c) c ≤ 23 := by
    by_contra h
    have h1 := expo_le (n * c) c hp
    have e1 : (-expo (n * c) c).toNat = 0 := by omega
    rw [e1, pow_zero, mul_one, mul_comm] at h1
    have h2 : 2 ^ (expo (n * c) c).toNat ≤ n := Nat.le_of_mul_le_mul_right h1 hc
    have h3 : 2 ^ 24 ≤ 2 ^ (expo (n * c) c).toNat := Nat.pow_le_pow_right (by norm_num) (by omega)
    omega
  refine ⟨2 ^ (23 - expo (n * c) c).toNat, ?_, by positivity⟩
  unfold rnd
  rw [if_neg (by omega), if_pos (by omega), Int.natAbs_natCast]
  unfold rndPos
  have e0 : (-(23 - expo (n * c) c)).toNat = 0 := by omega
  simp only [e0, pow_zero, mul_one]
  rw [show n * c * 2 ^ (23 - expo (n * c) c).toNat = n * 2 ^ (23 - expo (n * c) c).toNat * c by ring, rhe_exact _ _ hc]

theorem rhe_le (p d k : Nat) (hd : 0 < d) (h : p ≤ k * d) : rhe p d ≤ k := by
  have h1 : p / d ≤ k := by
    calc p / d ≤ k * d / d := Nat.div_le_div_right h
      _ = k := Nat.mul_div_cancel _ hd
  have h2 := Nat.div_add_mod p d
  unfold rhe
  rcases Nat.lt_or_ge (p / d) k with h3 | h3
  · simp only; split_ifs <;> omega
  · have h4 : p / d = k := by omega
    have h5 : p % d = 0 := by rw [h4, mul_comm] at h2; omega
    simp only [h5, mul_zero, hd, if_true]; omega

/-- A fraction at most 1 is not rounded above 1. -/
theorem rnd_le_one (p d : Nat) (hp : 0 < p) (hd : 0 < d) (h : p ≤ d) :
    ∃ N D : Nat, rnd (p : Int) d = ⟨(N : Int), D⟩ ∧ 0 < N ∧ N ≤ D := by
  obtain ⟨N, D, e, h0, h1, h2⟩ := rndPos_near p d hp hd
  have er : rnd (p : Int) d = rndPos p d := by
    unfold rnd; rw [if_neg (by omega), if_pos (by omega), Int.natAbs_natCast]
  refine ⟨N, D, by rw [er, e], ?_, ?_⟩
  · rcases Nat.eq_zero_or_pos N with h3 | h3
    · subst h3
      have : 0 < p * D := Nat.mul_pos hp h0
      simp only [zero_mul, mul_zero, zero_add] at h1
      omega
    · exact h3
  · have he : expo p d ≤ 0 := by
      by_contra hc
      have h3 := expo_le p d hp
      have e1 : (-expo p d).toNat = 0 := by omega
      rw [e1, pow_zero, mul_one] at h3
      have h4 : 2 ^ 1 ≤ 2 ^ (expo p d).toNat := Nat.pow_le_pow_right (by norm_num) (by omega)
      have h5 : d * 2 ≤ d * 2 ^ (expo p d).toNat := Nat.mul_le_mul_left d (by simpa using h4)
      omega
    unfold rndPos at e
    have e0 : (-(23 - expo p d)).toNat = 0 := by omega
    simp only [e0, pow_zero, mul_one] at e
    injection e with e3 e4
    have e3' : rhe (p * 2 ^ (23 - expo p d).toNat) d = N := by exact_mod_cast e3
    rw [← e3', ← e4]
    refine rhe_le _ _ _ hd ?_
    rw [mul_comm]
    exact Nat.mul_le_mul_left _ h

end F32

open F32 in
/-- `std::ceil` of the `float` quotient of a positive number below 2^24 and a positive `int` is exact. -/
theorem div_ceil (m s D1 : Nat) (hs : 0 < s) (hD1 : 0 < D1) (hsmall : m + 1 < 2 ^ 24) :
    ∃ q, F32.div ⟨(((m + 1) * D1 : Nat) : Int), D1⟩ (F32.ofInt (s : Int)) = some q ∧
      q.ceil = ((m / s + 1 : Nat) : Int) := by
  have hq : m / s ≤ m := Nat.div_le_self _ _
  have hs0 : ((s : Nat) : Int) ≠ 0 := by omega
  have hqs : m / s * s + m % s = m := by rw [mul_comm]; exact Nat.div_add_mod m s
  have hr : m % s < s := Nat.mod_lt _ hs
  rcases Nat.lt_or_ge s (2 ^ 24) with hlt | hge
  · obtain ⟨D2, e2, hD2⟩ := ofInt_small s hs hlt
    have hs2 : 0 < s * D2 := Nat.mul_pos hs hD2
    have hdiv : F32.div ⟨(((m + 1) * D1 : Nat) : Int), D1⟩ (F32.ofInt (s : Int)) =
        some (rnd (((m + 1) * (D1 * D2) : Nat) : Int) (s * (D1 * D2))) := by
      rw [e2, F32.div, if_neg (by simp only; omega)]
      simp only [Int.natAbs_natCast]
      rw [Int.sign_eq_one_of_pos (by omega)]
      congr 2
      · push_cast; ring
      · ring
    rw [hdiv]
    refine ⟨_, rfl, ?_⟩
    have hc : 0 < D1 * D2 := Nat.mul_pos hD1 hD2
    by_cases hex : m % s + 1 = s
    · -- the quotient is a whole number
      have : m + 1 = (m / s + 1) * s := by rw [add_mul]; omega
      obtain ⟨D, e, hD⟩ := rnd_whole (m / s + 1) (s * (D1 * D2)) (Nat.succ_pos _) (by generalize m / s = Q at *; omega) (Nat.mul_pos hs hc)
      rw [show (m + 1) * (D1 * D2) = (m / s + 1) * (s * (D1 * D2)) by rw [this]; ring, e]
      exact ceil_eq _ _ _ hD (le_refl _) (by omega)
    · obtain ⟨N, D, e, hD, h1, h2⟩ := expo_scale (m + 1) s (D1 * D2) (by omega) hs hc
      rw [e]
      have h3 : (m + 1) * D < 2 ^ 24 * D := Nat.mul_lt_mul_of_pos_right hsmall hD
      refine ceil_eq _ _ _ hD ?_ ?_
      · -- N ≤ (q+1) D
        have h4 : (m + 1) * D + D ≤ (m / s + 1) * s * D := by
          have : m + 1 + 1 ≤ (m / s + 1) * s := by rw [add_mul]; omega
          calc (m + 1) * D + D = (m + 1 + 1) * D := by ring
            _ ≤ _ := Nat.mul_le_mul_right _ this
        have h5 : N * s ≤ (m / s + 1) * D * s := by
          have : (m / s + 1) * s * D = (m / s + 1) * D * s := by ring
          omega
        exact Nat.le_of_mul_le_mul_right h5 hs
      · -- q D < N
        have h4 : m / s * s * D + D ≤ (m + 1) * D := by
          calc m / s * s * D + D = (m / s * s + 1) * D := by ring
            _ ≤ _ := Nat.mul_le_mul_right _ (by omega)
        have h5 : m / s * D * s < N * s := by
          have : m / s * s * D = m / s * D * s := by ring
          omega
        have h6 := Nat.lt_of_mul_lt_mul_right h5
        rw [add_mul]; omega
  · -- a stride beyond the exact range: one window
    have hq0 : m / s = 0 := Nat.div_eq_of_lt (by omega)
    rw [hq0]
    obtain ⟨N2, D2, e2, hD2, h1, h2⟩ := rndPos_near s 1 hs (by omega)
    have e3 : F32.ofInt (s : Int) = ⟨(N2 : Int), D2⟩ := by
      unfold F32.ofInt rnd; rw [if_neg (by omega), if_pos (by omega), Int.natAbs_natCast, e2]
    simp only [mul_one] at h1 h2
    have h4 : (m + 1) * D2 ≤ N2 := by
      have a : 2 ^ 24 * D2 ≤ s * D2 := Nat.mul_le_mul_right _ hge
      have b : (m + 1) * D2 ≤ (2 ^ 24 - 1) * D2 := Nat.mul_le_mul_right _ (by omega)
      omega
    have hN2 : 0 < N2 := lt_of_lt_of_le (Nat.mul_pos (by omega) hD2) h4
    have hdiv : F32.div ⟨(((m + 1) * D1 : Nat) : Int), D1⟩ (F32.ofInt (s : Int)) =
        some (rnd (((m + 1) * D1 * D2 : Nat) : Int) (D1 * N2)) := by
      rw [e3, F32.div, if_neg (by simp only; omega)]
      simp only [Int.natAbs_natCast]
      rw [Int.sign_eq_one_of_pos (by omega), mul_one]
      congr 2
    rw [hdiv]
    refine ⟨_, rfl, ?_⟩
    obtain ⟨N, D, e, hN, hND⟩ := rnd_le_one ((m + 1) * D1 * D2) (D1 * N2)
      (Nat.mul_pos (Nat.mul_pos (by omega) hD1) hD2) (Nat.mul_pos hD1 hN2) (by
        calc (m + 1) * D1 * D2 = D1 * ((m + 1) * D2) := by ring
          _ ≤ _ := Nat.mul_le_mul_left _ h4)
    rw [e]
    exact ceil_eq _ _ _ (by omega) (by omega) (by omega)

open F32 in
/-- Pooling.cpp:38,39 computes the number of windows exactly as long as the number of window positions is below 2^24. -/
theorem outLen_eq (n d s : Nat) (hn : n < 2147483648) (hd : d ≤ n) (hs : 0 < s) (hsmall : n - d + 1 < 2 ^ 24) :
    Pooling.outLen n d s = .ok (((n - d) / s + 1 : Nat) : Int) := by
  obtain ⟨m, rfl⟩ : ∃ m, n = d + m := ⟨n - d, by omega⟩
  have hm : d + m - d = m := by omega
  rw [hm] at hsmall ⊢
  have hq : m / s ≤ m := Nat.div_le_self _ _
  -- the numerator
  have hnum : ∃ D, F32.add (F32.ofInt (m : Int)) ⟨1, 1⟩ = ⟨(((m + 1) * D : Nat) : Int), D⟩ ∧ 0 < D := by
    rcases Nat.eq_zero_or_pos m with h0 | h0
    · subst h0; exact ⟨2 ^ 23, by decide, by positivity⟩
    · obtain ⟨D, e, hD⟩ := ofInt_small m h0 (by omega)
      obtain ⟨D', e', hD'⟩ := rnd_whole (m + 1) D (by omega) hsmall hD
      refine ⟨D', ?_, hD'⟩
      rw [e, F32.add, ← e']
      simp only [mul_one, Nat.cast_one, one_mul]
      congr 1
      push_cast; ring
  obtain ⟨D1, e1, hD1⟩ := hnum
  unfold Pooling.outLen
  rw [show ((d + m : Nat) : Int) - (d : Int) = (m : Int) by push_cast; ring, chk_ok (by unfold I32; omega), Res.bind_ok, e1]
  obtain ⟨q, e, hc⟩ := div_ceil m s D1 hs hD1 hsmall
  rw [e]
  simp only
  rw [hc]
  refine chk_ok ?_
  generalize m / s = Q at *
  unfold I32; omega

open F32 in
/-- An input shorter than the pool: a size that is not positive. -/
theorem outLen_neg (n d s : Nat) (hd : d < 2 ^ 24) (hn : n < d) (hs : 0 < s) :
    ∃ c : Nat, Pooling.outLen n d s = .ok (-(c : Int)) ∧ c + n + 1 ≤ d := by
  obtain ⟨a, rfl⟩ : ∃ a, d = n + (a + 1) := ⟨d - n - 1, by omega⟩
  have hs0 : ((s : Nat) : Int) ≠ 0 := by omega
  have hnum : ∃ D, F32.add (F32.ofInt (-((a + 1 : Nat) : Int))) ⟨1, 1⟩ = ⟨-((a * D : Nat) : Int), D⟩ ∧ 0 < D := by
    obtain ⟨D, e, hD⟩ := rndPos_int (a + 1) (by omega) (by omega)
    have e1 : F32.ofInt (-((a + 1 : Nat) : Int)) = ⟨-(((a + 1) * D : Nat) : Int), D⟩ := by
      unfold F32.ofInt rnd
      rw [if_neg (by omega), if_neg (by omega), Int.natAbs_neg, Int.natAbs_natCast, e]
    rw [e1]
    rcases Nat.eq_zero_or_pos a with h0 | h0
    · subst h0
      refine ⟨1, ?_, by omega⟩
      simp [F32.add, rnd]
    · obtain ⟨D', e', hD'⟩ := rnd_whole a D h0 (by omega) hD
      refine ⟨D', ?_, hD'⟩
      have hp : 0 < a * D := Nat.mul_pos h0 hD
      unfold rnd at e'
      rw [if_neg (by omega), if_pos (by omega), Int.natAbs_natCast] at e'
      have en : (-(((a + 1) * D : Nat) : Int) * ((1 : Nat) : Int) + 1 * (D : Int)) = -((a * D : Nat) : Int) := by
        push_cast; ring
      unfold F32.add rnd
      simp only
      rw [en, if_neg (by omega), if_neg (by omega), Int.natAbs_neg, Int.natAbs_natCast, mul_one, e']
  obtain ⟨D1, e1, hD1⟩ := hnum
  unfold Pooling.outLen
  rw [show (n : Int) - ((n + (a + 1) : Nat) : Int) = -((a + 1 : Nat) : Int) by push_cast; ring,
    chk_ok (by unfold I32; omega), Res.bind_ok, e1]
  suffices H : ∃ q, ∃ c : Nat, F32.div ⟨-((a * D1 : Nat) : Int), D1⟩ (F32.ofInt (s : Int)) = some q ∧
      q.ceil = -(c : Int) ∧ c ≤ a by
    obtain ⟨q, c, e, hc, hle⟩ := H
    refine ⟨c, ?_, by omega⟩
    rw [e]
    simp only
    rw [hc]
    exact chk_ok (by unfold I32; omega)
  -- the denominator is at least 1
  have hden : ∃ N2 D2 : Nat, F32.ofInt (s : Int) = ⟨(N2 : Int), D2⟩ ∧ 0 < D2 ∧ D2 ≤ N2 := by
    rcases Nat.lt_or_ge s (2 ^ 24) with hlt | hge
    · obtain ⟨D2, e2, hD2⟩ := ofInt_small s hs hlt
      exact ⟨_, _, e2, hD2, Nat.le_mul_of_pos_left _ hs⟩
    · obtain ⟨N2, D2, e2, hD2, h1, _⟩ := rndPos_near s 1 hs (by omega)
      refine ⟨N2, D2, ?_, hD2, ?_⟩
      · unfold F32.ofInt rnd; rw [if_neg (by omega), if_pos (by omega), Int.natAbs_natCast, e2]
      · simp only [mul_one] at h1
        have : 2 ^ 24 * D2 ≤ s * D2 := Nat.mul_le_mul_right _ hge
        omega
  obtain ⟨N2, D2, e2, hD2, hle⟩ := hden
  rw [e2]
  have hN2 : 0 < N2 := by omega
  have hdiv : F32.div ⟨-((a * D1 : Nat) : Int), D1⟩ ⟨(N2 : Int), D2⟩ =
      some (rnd (-((a * D1 * D2 : Nat) : Int)) (D1 * N2)) := by
    rw [F32.div, if_neg (by simp only; omega)]
    simp only [Int.natAbs_natCast]
    rw [Int.sign_eq_one_of_pos (by omega), mul_one]
    congr 2
    push_cast; ring
  rw [hdiv]
  rcases Nat.eq_zero_or_pos a with h0 | h0
  · subst h0
    exact ⟨_, 0, rfl, by simp [rnd, F32.ceil], le_refl _⟩
  · have hp : 0 < a * D1 * D2 := Nat.mul_pos (Nat.mul_pos h0 hD1) hD2
    obtain ⟨N, D, e, hD, _, h2⟩ := rndPos_near (a * D1 * D2) (D1 * N2) hp (Nat.mul_pos hD1 hN2)
    refine ⟨⟨-(N : Int), D⟩, N / D, ?_, ?_, ?_⟩
    · unfold rnd
      rw [if_neg (by omega), if_neg (by omega), Int.natAbs_neg, Int.natAbs_natCast, e]
    · unfold F32.ceil; simp
    · rw [← Nat.lt_succ_iff, Nat.div_lt_iff_lt_mul hD]
      -- N * N2 ≤ a D2 D (1 + 2^-24) ≤ N2 (a D + D)
      have h3 : a * D1 * D2 * D = D1 * (a * D2 * D) := by ring
      have h4 : N * (D1 * N2) = D1 * (N * N2) := by ring
      rw [h3, h4] at h2
      have h5 : 2 ^ 24 * (N * N2) ≤ 2 ^ 24 * (a * D2 * D) + a * D2 * D := by
        refine Nat.le_of_mul_le_mul_left (c := D1) ?_ hD1
        calc D1 * (2 ^ 24 * (N * N2)) = 2 ^ 24 * (D1 * (N * N2)) := by ring
          _ ≤ _ := h2
          _ = _ := by ring
      have h6 : a * D2 * D ≤ a * D * N2 := by
        calc a * D2 * D = a * D * D2 := by ring
          _ ≤ _ := Nat.mul_le_mul_left _ hle
      have h7 : a * D * N2 < 2 ^ 24 * (D * N2) := by
        rw [mul_assoc]
        exact Nat.mul_lt_mul_of_pos_right (by omega) (Nat.mul_pos hD hN2)
      have h8 : N * N2 < a * D * N2 + D * N2 := by omega
      have h9 : N * N2 < (a + 1) * D * N2 := by
        calc N * N2 < a * D * N2 + D * N2 := h8
          _ = _ := by ring
      exact Nat.lt_of_mul_lt_mul_right h9

theorem outLen_abs (n d s : Nat) (hn : n < 2 ^ 24) (hd : d < 2 ^ 24) (hs : 0 < s) (hd0 : 0 < d) :
    ∃ c : Int, Pooling.outLen n d s = .ok c ∧ c.natAbs ≤ max n d := by
  rcases Nat.lt_or_ge n d with h | h
  · obtain ⟨c, e, hc⟩ := outLen_neg n d s hd h hs
    exact ⟨_, e, by rw [Int.natAbs_neg, Int.natAbs_natCast]; omega⟩
  · refine ⟨_, outLen_eq n d s (by omega) h hs (by omega), ?_⟩
    have h1 : (n - d) / s ≤ n - d := Nat.div_le_self _ _
    have e : ((((n - d) / s + 1 : Nat) : Int)).natAbs = (n - d) / s + 1 := Int.natAbs_natCast _
    rw [e]
    omega

end Cnn
