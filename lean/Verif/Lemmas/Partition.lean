import Verif.Model.Train
import Verif.Lemmas.PoolSize
import Verif.Lemmas.Fill
/-! Helper lemmas on the partition of a batch among the threads (C50, C55). -/
namespace Cnn
namespace Train

theorem chk_inv {n m : Int} (h : chk n = .ok m) : n = m ∧ I32 n := by
  unfold chk at h
  by_cases hn : I32 n
  · rw [if_pos hn] at h; exact ⟨Res.ok.inj h, hn⟩
  · rw [if_neg hn] at h; exact absurd h (by simp)

theorem ceilDiv_eq (a s : Nat) (ha : a < 2 ^ 24) (hs : 0 < s) :
    ∃ q, F32.div (F32.ofInt (a : Int)) (F32.ofInt (s : Int)) = some q ∧ q.ceil = (((a + s - 1) / s : Nat) : Int) := by
  rcases Nat.eq_zero_or_pos a with rfl | h0
  · have hne : (F32.ofInt (s : Int)).num ≠ 0 := by
      rcases Nat.lt_or_ge s (2 ^ 24) with h | h
      · obtain ⟨D, e, hD⟩ := F32.ofInt_small s hs h
        rw [e]
        have := Nat.mul_pos hs hD
        simp only; omega
      · obtain ⟨N2, D2, e2, hD2, h1, _⟩ := F32.rndPos_near s 1 hs (by omega)
        have e3 : F32.ofInt (s : Int) = ⟨(N2 : Int), D2⟩ := by
          unfold F32.ofInt F32.rnd; rw [if_neg (by omega), if_pos (by omega), Int.natAbs_natCast, e2]
        rw [e3]
        have : 2 ^ 24 * D2 ≤ s * D2 := Nat.mul_le_mul_right _ h
        simp only [mul_one] at h1
        simp only; omega
    have e0 : F32.ofInt ((0 : Nat) : Int) = ⟨0, 1⟩ := rfl
    refine ⟨⟨0, 1⟩, ?_, ?_⟩
    · rw [e0, F32.div, if_neg hne]
      simp [F32.rnd]
    · rw [Nat.div_eq_of_lt (by omega)]; rfl
  · obtain ⟨m, rfl⟩ : ∃ m, a = m + 1 := ⟨a - 1, by omega⟩
    obtain ⟨D, e, hD⟩ := F32.ofInt_small (m + 1) h0 ha
    rw [e]
    obtain ⟨q, e1, h1⟩ := div_ceil m s D hs hD ha
    refine ⟨q, e1, ?_⟩
    rw [h1, show m + 1 + s - 1 = m + s by omega, Nat.add_div_right _ hs]

theorem ceilDiv_le (a s : Nat) (hs : 0 < s) : (a + s - 1) / s ≤ a := by
  rw [← Nat.lt_succ_iff, Nat.div_lt_iff_lt_mul hs]
  have : a ≤ a * s := Nat.le_mul_of_pos_right _ hs
  rw [Nat.succ_mul]
  omega

theorem workCount_eq (B T : Nat) (hB : B < 2 ^ 24) (hT : 0 < T) :
    workCount B T = .ok (((B + T - 1) / T : Nat) : Int) := by
  obtain ⟨q, e, h⟩ := ceilDiv_eq B T hB hT
  unfold workCount
  rw [e]
  simp only
  rw [h]
  have := ceilDiv_le B T hT
  refine chk_ok ?_
  generalize (B + T - 1) / T = Q at *
  unfold I32; omega

theorem numBatches_eq (n B : Nat) (hn : n < 2 ^ 24) (hB : 0 < B) :
    numBatches n B = .ok (((n + B - 1) / B : Nat) : Int) := by
  obtain ⟨q, e, h⟩ := ceilDiv_eq n B hn hB
  unfold numBatches
  rw [e]
  simp only
  rw [h]
  have := ceilDiv_le n B hB
  refine chk_ok ?_
  generalize (n + B - 1) / B = Q at *
  unfold I32; omega

/-- The number of slots of each thread. -/
def share (B T : Nat) : Nat := (B + T - 1) / T

theorem share_bounds (B T : Nat) (hT : 0 < T) : B ≤ T * share B T ∧ T * share B T < B + T := by
  have h1 := Nat.div_add_mod (B + T - 1) T
  have h2 := Nat.mod_lt (B + T - 1) hT
  unfold share
  omega

theorem workRange_eq (B T t : Nat) (hB : B < 2 ^ 24) (hT : T < 2147483648) (ht : t < T) :
    workRange (share B T : Nat) B t = .ok (t * share B T, min ((t + 1) * share B T) B) := by
  have hb := share_bounds B T (by omega)
  have hmul : (t + 1) * share B T < 2147483648 := by
    rcases Nat.lt_or_ge (share B T) 2 with h | h
    · calc (t + 1) * share B T ≤ T * 1 := Nat.mul_le_mul (by omega) (by omega)
        _ < _ := by omega
    · have : T * 2 ≤ T * share B T := Nat.mul_le_mul_left _ h
      calc (t + 1) * share B T ≤ T * share B T := Nat.mul_le_mul_right _ (by omega)
        _ < _ := by omega
  have h0 : t * share B T ≤ (t + 1) * share B T := Nat.mul_le_mul_right _ (by omega)
  unfold workRange
  have e1 : ((t : Int) * ((share B T : Nat) : Int)) = ((t * share B T : Nat) : Int) := by push_cast; ring
  have e2 : (((t : Int) + 1) * ((share B T : Nat) : Int)) = (((t + 1) * share B T : Nat) : Int) := by push_cast; ring
  rw [e1, e2]
  generalize t * share B T = a at *
  generalize (t + 1) * share B T = b at *
  rw [chk_ok (by unfold I32; omega), chk_ok (by unfold I32; omega)]
  simp only [Res.bind_ok]
  rw [u64_nat (by omega)]
  have : min (b : Int) (B : Int) = ((min b B : Nat) : Int) := by push_cast; rfl
  rw [this, u64_nat (by omega)]

theorem mapM_ok {β γ : Type} (f : β → Res γ) (g : β → γ) (l : List β) (h : ∀ x ∈ l, f x = .ok (g x)) :
    l.mapM f = .ok (l.map g) := by
  induction l with
  | nil => simp
  | cons a l ih =>
    rw [List.mapM_cons, h a (by simp), ih (fun x hx => h x (by simp [hx]))]
    simp

theorem rndPos_num (p d : Nat) : 0 ≤ (F32.rndPos p d).num := Int.natCast_nonneg _

theorem rnd_num {p : Int} (hp : 0 ≤ p) (d : Nat) : 0 ≤ (F32.rnd p d).num := by
  unfold F32.rnd
  by_cases h : p = 0
  · rw [if_pos h]
  · rw [if_neg h, if_pos (by omega)]
    exact rndPos_num _ _

theorem workCount_nonneg {B T : Nat} {w : Int} (h : workCount B T = .ok w) : 0 ≤ w := by
  unfold workCount at h
  cases e : F32.div (F32.ofInt B) (F32.ofInt T) with
  | none => rw [e] at h; exact absurd h (by simp)
  | some q =>
    rw [e] at h
    have hw : q.ceil = w := (chk_inv h).1
    have hq : 0 ≤ q.num := by
      unfold F32.div at e
      by_cases h0 : (F32.ofInt (T : Int)).num = 0
      · rw [if_pos h0] at e; exact absurd e (by simp)
      · rw [if_neg h0] at e
        obtain rfl := Option.some.inj e
        have h1 : 0 ≤ (F32.ofInt (B : Int)).num := rnd_num (by omega) _
        have h2 : 0 ≤ (F32.ofInt (T : Int)).num := rnd_num (by omega) _
        exact rnd_num (mul_nonneg (mul_nonneg h1 (by omega)) (Int.sign_nonneg_iff.2 h2)) _
    rw [← hw]
    unfold F32.ceil
    have : (-q.num) / (q.den : Int) ≤ 0 := by
      rcases Nat.eq_zero_or_pos q.den with h | h
      · rw [h]; simp
      · exact Int.ediv_le_of_le_mul (by omega) (by omega)
    omega

theorem mapM_inv {β γ : Type} (f : β → Res γ) (g : β → γ) (l : List β) (h : ∀ x ∈ l, ∀ y, f x = .ok y → y = g x) (r : List γ)
    (hr : l.mapM f = .ok r) : r = l.map g := by
  induction l generalizing r with
  | nil => simpa [eq_comm] using hr
  | cons a l ih =>
    rw [List.mapM_cons] at hr
    obtain ⟨y, hy, hr⟩ := Res.bind_eq_ok hr
    obtain ⟨ys, hys, hr⟩ := Res.bind_eq_ok hr
    rw [h a (by simp) y hy, ih (fun x hx => h x (by simp [hx])) ys hys] at hr
    exact (Res.ok.inj hr).symm

theorem workRange_inv {w B t : Nat} {r : Nat × Nat} (h : workRange w B t = .ok r) (hB : B < 2147483648) :
    r = (t * w, min ((t + 1) * w) B) := by
  unfold workRange at h
  obtain ⟨a, ha, h⟩ := Res.bind_eq_ok h
  obtain ⟨b, hb, h⟩ := Res.bind_eq_ok h
  obtain ⟨rfl, ia⟩ := chk_inv ha
  obtain ⟨rfl, ib⟩ := chk_inv hb
  clear ha hb
  obtain rfl := Res.ok.inj h
  have e1 : ((t : Int) * (w : Int)) = ((t * w : Nat) : Int) := by push_cast; ring
  have e2 : (((t : Int) + 1) * (w : Int)) = (((t + 1) * w : Nat) : Int) := by push_cast; ring
  rw [e1] at ia
  rw [e2] at ib
  rw [e1, e2]
  generalize t * w = a at *
  generalize (t + 1) * w = b at *
  have : min (b : Int) (B : Int) = ((min b B : Nat) : Int) := by push_cast; rfl
  unfold I32 at ia ib
  rw [this, u64_nat (by omega), u64_nat (by omega)]

variable {α : Type}

theorem startBatch_inv {B T : Nat} (hB : B < 2147483648) {sh : Shared α} {s : Batch α} (h : startBatch B T sh = .ok s) :
    ∃ w : Nat, workCount B T = .ok w ∧
      s = ⟨sh, (List.range T).map (fun t => (min ((t + 1) * w) B, Pc.fetch (t * w)))⟩ := by
  unfold startBatch at h
  obtain ⟨w, hw, h⟩ := Res.bind_eq_ok h
  obtain ⟨ws, hws, h⟩ := Res.bind_eq_ok h
  obtain rfl := Res.ok.inj h
  obtain ⟨n, rfl⟩ := Int.eq_ofNat_of_zero_le (workCount_nonneg hw)
  refine ⟨n, hw, ?_⟩
  congr 1
  refine mapM_inv _ (fun t => (min ((t + 1) * n) B, (Pc.fetch (t * n) : Pc α))) _ ?_ _ hws
  intro t _ y hy
  obtain ⟨r, hr, hy⟩ := Res.bind_eq_ok hy
  obtain rfl := Res.ok.inj hy
  rw [workRange_inv hr hB]

theorem startBatch_eq (B T : Nat) (hB : B < 2 ^ 24) (hT0 : 0 < T) (hT : T < 2147483648) (sh : Shared α) :
    startBatch B T sh = .ok ⟨sh, (List.range T).map (fun t => (min ((t + 1) * share B T) B, Pc.fetch (t * share B T)))⟩ := by
  unfold startBatch
  rw [workCount_eq B T hB hT0, Res.bind_ok, show ((T : Int)).toNat = T from rfl,
    mapM_ok _ (fun t => (min ((t + 1) * share B T) B, (Pc.fetch (t * share B T) : Pc α)))]
  · rfl
  · intro t ht
    rw [List.mem_range] at ht
    have := workRange_eq B T t hB hT ht
    unfold share at this ⊢
    rw [this]
    rfl

/-- Blocks of equal length cut off at the end. -/
theorem blocks_disjoint (B w t u slot : Nat) (h1 : t * w ≤ slot) (h2 : slot < min ((t + 1) * w) B) (h3 : u * w ≤ slot)
    (h4 : slot < min ((u + 1) * w) B) : t = u := by
  have hw : 0 < w := by
    rcases Nat.eq_zero_or_pos w with rfl | h
    · omega
    · exact h
  have a : slot / w = t := Nat.div_eq_of_lt_le h1 (by omega)
  have b : slot / w = u := Nat.div_eq_of_lt_le h3 (by omega)
  omega

theorem blocks_cover (B w T slot : Nat) (hT : B ≤ T * w) (h : slot < B) :
    ∃ t < T, t * w ≤ slot ∧ slot < min ((t + 1) * w) B := by
  have hw : 0 < w := by
    rcases Nat.eq_zero_or_pos w with rfl | h
    · omega
    · exact h
  refine ⟨slot / w, ?_, Nat.div_mul_le_self _ _, ?_⟩
  · rw [Nat.div_lt_iff_lt_mul hw]; omega
  · have := Nat.lt_div_mul_add hw (a := slot)
    rw [Nat.succ_mul]; omega

end Train
end Cnn
