import Verif.Lemmas.Pooling
import Mathlib.Algebra.Order.Field.Rat
import Mathlib.Algebra.BigOperators.Field
/-!
# Pooling: C29 – C32

A pooling layer `P` with pool `px × py`, strides `sx`, `sy`; the sizes are any naturals meeting `PoolFits`.
-/
namespace Cnn
open Pooling

variable {X Y Z px py sx sy : Nat}

/-! ## C29 -/

/-- C29, the full claim about the size of the result. -/
def C29_claim : Prop :=
  ∀ (X Y Z px py sx sy : Nat) (P : Pooling) (N : Num Int) (M : Matrix Int) (x : Nat → Nat → Nat → Int) (b : Nat),
    M.Shows X Y Z x → P.dim = ⟨px, py⟩ → P.stride = ⟨sx, sy⟩ → 0 < px → 0 < py → 0 < sx → 0 < sy → px ≤ X → py ≤ Y →
    b < P.indices.length →
    ∃ out P', P.forward N M b = .ok (out, P') ∧ out.dim = dimN ((X - px) / sx + 1) ((Y - py) / sy + 1) Z

/-- C29: the output has dimensions `(⌊(X-px)/sx⌋+1, ⌊(Y-py)/sy⌋+1, Z)`, for every pool type, every number type and every
comparison (so also with NaNs among the entries); no read outside the input happens (it would be `ub`).
Missing: sizes with `X - px + 1 ≥ 2^24`, where the claim is false (`C29_violated`). -/
theorem C29_size_partial {α : Type} [Zero α] [Add α] [Div α] (N : Num α) (P : Pooling) (M : Matrix α)
    (x : Nat → Nat → Nat → α) (b : Nat) (hM : M.Shows X Y Z x) (hd : P.dim = ⟨px, py⟩) (hs : P.stride = ⟨sx, sy⟩)
    (hf : PoolFits X Y px py sx sy) (hb : b < P.indices.length) :
    ∃ out P' f, P.forward N M b = .ok (out, P') ∧ out.Shows ((X - px) / sx + 1) ((Y - py) / sy + 1) Z f := by
  by_cases ht : P.type = .avg
  · obtain ⟨out, ind, e, s⟩ := forward_avg_ordered N P M x b hM hd hs hf hb ht
    exact ⟨out, _, _, e, s⟩
  · obtain ⟨out, ind, u, v, e, s, _⟩ := forward_select N P M x b hM hd hs hf hb ht
    exact ⟨out, _, _, e, s⟩

/-- C29: every window lies inside the input, and one more would not fit. -/
theorem C29_windows {n d s : Nat} (hd : d ≤ n) (hs : 0 < s) :
    (∀ i < (n - d) / s + 1, i * s + d ≤ n) ∧ n < ((n - d) / s + 1) * s + d :=
  ⟨fun _ hi => windows_inside hd hi, windows_last hs⟩

/-- C29 is false of the code: the size is computed in `float`. For a 16777217 × 1 × 1 input, pool 1 × 1 and stride 1 the
result has 16777216 entries: the last input is dropped. -/
theorem C29_violated : ¬ C29_claim := by
  intro h
  have g : Good 16777217 1 1 := ⟨by omega, by omega, by omega, by omega⟩
  obtain ⟨M, _, hM⟩ := Matrix.ofDim_shows g (0 : Int)
  obtain ⟨out, P', e, hdim⟩ := h 16777217 1 1 1 1 1 1 (Pooling.new ⟨1, 1⟩ ⟨1, 1⟩ .max) ⟨id, id, id, id, fun n => n, fun a b => a < b, 0, 0, 0⟩
    M _ 0 hM rfl rfl (by omega) (by omega) (by omega) (by omega) (by omega) (by omega) (by simp [Pooling.new])
  have h1 := (forward_frame e).1
  rw [hM.dim, hdim] at h1
  have h2 : (Pooling.new ⟨1, 1⟩ ⟨1, 1⟩ .max).outputSize (dimN 16777217 1 1) = .ok ⟨16777216, 1, 1⟩ := by decide
  rw [h2] at h1
  simp at h1

/-- A 5×4×2 input, pool 2×2, strides 2 and 1 meet the hypotheses; the result is 2×3×2. -/
example : PoolFits 5 4 2 2 2 1 ∧ (5 - 2) / 2 + 1 = 2 ∧ (4 - 2) / 1 + 1 = 3 :=
  ⟨⟨by omega, by omega, by omega, by omega, by omega, by omega, by omega, by omega⟩, rfl, rfl⟩

/-! ## C30 -/

/-- C30, MAX: each output entry is attained in its window and is at least every entry of the window. -/
theorem C30_max {α : Type} [LinearOrder α] [Zero α] [Add α] [Div α] (N : Num α) (hN : ∀ a b, N.lt a b = decide (a < b))
    (P : Pooling) (M : Matrix α) (x : Nat → Nat → Nat → α) (b : Nat) (hM : M.Shows X Y Z x) (hd : P.dim = ⟨px, py⟩)
    (hs : P.stride = ⟨sx, sy⟩) (hf : PoolFits X Y px py sx sy) (hb : b < P.indices.length) (ht : P.type = .max) :
    ∃ out P' f, P.forward N M b = .ok (out, P') ∧ out.Shows (windows X px sx) (windows Y py sy) Z f ∧
      ∀ i < windows X px sx, ∀ j < windows Y py sy, ∀ k < Z,
        (∃ a < px, ∃ c < py, f i j k = x (i * sx + a) (j * sy + c) k) ∧
        ∀ a < px, ∀ c < py, x (i * sx + a) (j * sy + c) k ≤ f i j k := by
  obtain ⟨out, ind, u, v, e, s, _, h⟩ := forward_select N P M x b hM hd hs hf hb (by simp [ht])
  refine ⟨out, _, _, e, s, ?_⟩
  intro i hi j hj k hk
  obtain ⟨h1, h2, h3, _⟩ := h i hi j hj k hk
  refine ⟨⟨u i j k - i * sx, by omega, v i j k - j * sy, by omega, ?_⟩, ?_⟩
  · rw [Nat.add_sub_cancel' h1.1, Nat.add_sub_cancel' h2.1]
  · have hw : MExpr.WeakOrd (better N P.type) := by
      have : better N P.type = fun a b : α => decide (a < b) := by
        funext a b; simp only [better, ht, hN]
      rw [this]; exact MExpr.weakOrd_lt
    intro a ha c hc
    have := h3 (hw.ordered X Y Z x) a ha c hc
    simp only [better, ht, hN, decide_eq_false_iff_not, not_lt] at this
    exact this

/-- C30, MIN. -/
theorem C30_min {α : Type} [LinearOrder α] [Zero α] [Add α] [Div α] (N : Num α) (hN : ∀ a b, N.lt a b = decide (a < b))
    (P : Pooling) (M : Matrix α) (x : Nat → Nat → Nat → α) (b : Nat) (hM : M.Shows X Y Z x) (hd : P.dim = ⟨px, py⟩)
    (hs : P.stride = ⟨sx, sy⟩) (hf : PoolFits X Y px py sx sy) (hb : b < P.indices.length) (ht : P.type = .min) :
    ∃ out P' f, P.forward N M b = .ok (out, P') ∧ out.Shows (windows X px sx) (windows Y py sy) Z f ∧
      ∀ i < windows X px sx, ∀ j < windows Y py sy, ∀ k < Z,
        (∃ a < px, ∃ c < py, f i j k = x (i * sx + a) (j * sy + c) k) ∧
        ∀ a < px, ∀ c < py, f i j k ≤ x (i * sx + a) (j * sy + c) k := by
  obtain ⟨out, ind, u, v, e, s, _, h⟩ := forward_select N P M x b hM hd hs hf hb (by simp [ht])
  refine ⟨out, _, _, e, s, ?_⟩
  intro i hi j hj k hk
  obtain ⟨h1, h2, h3, _⟩ := h i hi j hj k hk
  refine ⟨⟨u i j k - i * sx, by omega, v i j k - j * sy, by omega, ?_⟩, ?_⟩
  · rw [Nat.add_sub_cancel' h1.1, Nat.add_sub_cancel' h2.1]
  · have hw : MExpr.WeakOrd (better N P.type) := by
      have : better N P.type = fun a b : α => decide (b < a) := by
        funext a b; simp only [better, ht, hN]
      rw [this]; exact MExpr.weakOrd_gt
    intro a ha c hc
    have := h3 (hw.ordered X Y Z x) a ha c hc
    simp only [better, ht, hN, decide_eq_false_iff_not, not_lt] at this
    exact this

/-- C30, AVG: the sum of the window divided by its size. -/
theorem C30_avg {α : Type} [Field α] (N : Num α) (hN : ∀ n, N.ofNat n = (n : α))
    (P : Pooling) (M : Matrix α) (x : Nat → Nat → Nat → α) (b : Nat) (hM : M.Shows X Y Z x) (hd : P.dim = ⟨px, py⟩)
    (hs : P.stride = ⟨sx, sy⟩) (hf : PoolFits X Y px py sx sy) (hb : b < P.indices.length) (ht : P.type = .avg) :
    ∃ out P', P.forward N M b = .ok (out, P') ∧ out.Shows (windows X px sx) (windows Y py sy) Z (fun i j k =>
      (∑ a ∈ Finset.range px, ∑ c ∈ Finset.range py, x (i * sx + a) (j * sy + c) k) / ((px : α) * (py : α))) := by
  obtain ⟨out, ind, e, s⟩ := forward_avg N P M x b hM hd hs hf hb ht
  refine ⟨out, _, e, ?_⟩
  simpa only [hN, Nat.cast_mul] using s

/-! ## C31 -/

/-- Only slot `b` is touched by a forward pass on slot `b`: a backward pass on another slot gives the same result before
and after it (the samples of a batch do not disturb each other). -/
theorem C31_slots {α : Type} [Zero α] [Add α] [Div α] (N : Num α) (P P' : Pooling) (M out : Matrix α) (b : Nat)
    (h : P.forward N M b = .ok (out, P')) (b' : Nat) (hb : b' ≠ b) (M' Q G : Matrix α) :
    P'.backward N M' Q G b' = P.backward N M' Q G b' := by
  obtain ⟨ind, rfl⟩ := (forward_frame h).2
  unfold backward getdLdX corner window
  simp only [List.getElem?_set_ne (Ne.symm hb)]

/-- C31, MAX and MIN: after the forward pass on slot `b` (and any passes on other slots, `C31_slots`), the gradient of each
output is added to the input entry `(u, v, k)` that produced it — an entry of its window whose value is the output — and
to no other; the entries of the result sum to the sum of the incoming gradient. -/
theorem C31_select {α : Type} [AddCommMonoid α] [Div α] (N : Num α) (P : Pooling) (M : Matrix α)
    (x : Nat → Nat → Nat → α) (b : Nat) (hM : M.Shows X Y Z x) (hd : P.dim = ⟨px, py⟩) (hs : P.stride = ⟨sx, sy⟩)
    (hf : PoolFits X Y px py sx sy) (hb : b < P.indices.length) (ht : P.type ≠ .avg) :
    ∃ out P', ∃ u v : Nat → Nat → Nat → Nat, P.forward N M b = .ok (out, P') ∧
      out.Shows (windows X px sx) (windows Y py sy) Z (fun i j k => x (u i j k) (v i j k) k) ∧
      (∀ i < windows X px sx, ∀ j < windows Y py sy, ∀ k < Z,
        (i * sx ≤ u i j k ∧ u i j k < i * sx + px) ∧ (j * sy ≤ v i j k ∧ v i j k < j * sy + py)) ∧
      ∀ (Q G : Matrix α) (d : Nat → Nat → Nat → α), G.Shows (windows X px sx) (windows Y py sy) Z d →
        ∃ D r, P'.backward N M Q G b = .ok D ∧ D.Shows X Y Z r ∧
          (∀ i < X, ∀ j < Y, ∀ k < Z, r i j k = ∑ p ∈ Finset.range (windows X px sx), ∑ q ∈ Finset.range (windows Y py sy),
            if u p q k = i ∧ v p q k = j then d p q k else 0) ∧
          total X Y Z r = total (windows X px sx) (windows Y py sy) Z d := by
  obtain ⟨out, ind, u, v, e, s, si, h⟩ := forward_select N P M x b hM hd hs hf hb ht
  have hin : ∀ i < windows X px sx, ∀ j < windows Y py sy, ∀ k < Z, u i j k < X ∧ v i j k < Y ∧ k < Z := by
    intro i hi j hj k hk
    obtain ⟨h1, h2, _⟩ := h i hi j hj k hk
    have a := windows_inside hf.x hi
    have c := windows_inside hf.y hj
    exact ⟨by omega, by omega, hk⟩
  refine ⟨out, _, u, v, e, s, fun i hi j hj k hk => ⟨(h i hi j hj k hk).1, (h i hi j hj k hk).2.1⟩, ?_⟩
  intro Q G d hG
  obtain ⟨D, eD, sD⟩ := backward_select N { P with indices := P.indices.set b ind } M Q G b ind hM.dim hM.good ht
    (by simp [hb]) u v (fun _ _ k => k) si hin d hG
  refine ⟨D, _, eD, sD, ?_, ?_⟩
  · intro i hi j hj k hk
    refine Finset.sum_congr rfl fun p _ => Finset.sum_congr rfl fun q _ => ?_
    simp only
    rw [Finset.sum_eq_single k]
    · simp
    · intro l _ hl; rw [if_neg]; omega
    · intro hk'; exact absurd (Finset.mem_range.2 hk) hk'
  · rw [total_exchange]
    refine total_congr fun p hp q hq l hl => ?_
    obtain ⟨h1, h2, h3⟩ := hin p hp q hq l hl
    exact total_single h1 h2 h3 _

/-- C31, AVG: each output's gradient is spread evenly over its window; the entries of the result sum to the sum of the
incoming gradient; and backward is the adjoint of forward: `⟨backward d, y⟩ = ⟨d, forward y⟩` for every input `y` of the
layer. -/
theorem C31_avg {α : Type} [Field α] [CharZero α] (N : Num α) (hN : ∀ n, N.ofNat n = (n : α)) (P : Pooling)
    (M Q G : Matrix α) (d : Nat → Nat → Nat → α) (b : Nat) (hM : M.dim = dimN X Y Z) (g : Good X Y Z)
    (hd : P.dim = ⟨px, py⟩) (hs : P.stride = ⟨sx, sy⟩) (hf : PoolFits X Y px py sx sy) (hb : b < P.indices.length)
    (ht : P.type = .avg) (hG : G.Shows (windows X px sx) (windows Y py sy) Z d) :
    ∃ D r, P.backward N M Q G b = .ok D ∧ D.Shows X Y Z r ∧
      (∀ i < X, ∀ j < Y, ∀ k < Z, r i j k = ∑ p ∈ Finset.range (windows X px sx), ∑ q ∈ Finset.range (windows Y py sy),
        if (p * sx ≤ i ∧ i < p * sx + px) ∧ (q * sy ≤ j ∧ j < q * sy + py) then d p q k / ((px : α) * (py : α)) else 0) ∧
      total X Y Z r = total (windows X px sx) (windows Y py sy) Z d ∧
      ∀ (M' : Matrix α) (y : Nat → Nat → Nat → α), M'.Shows X Y Z y → ∃ out P' f, P.forward N M' b = .ok (out, P') ∧
        out.Shows (windows X px sx) (windows Y py sy) Z f ∧
        total X Y Z (fun i j k => r i j k * y i j k) =
          total (windows X px sx) (windows Y py sy) Z (fun p q l => d p q l * f p q l) := by
  obtain ⟨D, eD, sD⟩ := backward_avg N P M Q G b hM g hd hs hf hb ht d hG
  have hne : ((px : α) * (py : α)) ≠ 0 :=
    mul_ne_zero (Nat.cast_ne_zero.2 hf.px0.ne') (Nat.cast_ne_zero.2 hf.py0.ne')
  -- the adjoint identity for an arbitrary table
  have hadj : ∀ y : Nat → Nat → Nat → α, total X Y Z (fun i j k =>
      total (windows X px sx) (windows Y py sy) Z (fun p q l =>
        if inBox (p * sx) (q * sy) l px py 1 i j k then d p q l / N.ofNat (px * py) else 0) * y i j k) =
      total (windows X px sx) (windows Y py sy) Z (fun p q l => d p q l *
        ((∑ a ∈ Finset.range px, ∑ c ∈ Finset.range py, y (p * sx + a) (q * sy + c) l) / ((px : α) * (py : α)))) := by
    intro y
    have h1 : ∀ i j k, total (windows X px sx) (windows Y py sy) Z (fun p q l =>
        if inBox (p * sx) (q * sy) l px py 1 i j k then d p q l / N.ofNat (px * py) else 0) * y i j k =
        total (windows X px sx) (windows Y py sy) Z (fun p q l =>
          (if inBox (p * sx) (q * sy) l px py 1 i j k then d p q l / N.ofNat (px * py) * y i j k else 0)) := by
      intro i j k
      unfold total
      simp only [Finset.sum_mul, ite_mul, zero_mul]
    simp only [h1]
    rw [total_exchange]
    refine total_congr fun p hp q hq l hl => ?_
    have hx := windows_inside hf.x hp
    have hy := windows_inside hf.y hq
    rw [total_box (p * sx) (q * sy) l hx hy hl (fun i j k => d p q l / N.ofNat (px * py) * y i j k)]
    simp only [hN, Nat.cast_mul, ← Finset.mul_sum]
    rw [div_mul_eq_mul_div, mul_div_assoc]
  refine ⟨D, _, eD, sD, ?_, ?_, ?_⟩
  · intro i hi j hj k hk
    refine Finset.sum_congr rfl fun p _ => Finset.sum_congr rfl fun q _ => ?_
    simp only
    rw [Finset.sum_eq_single k]
    · simp only [inBox, hN, Nat.cast_mul]
      congr 1
      simp only [le_refl, Nat.lt_succ_self, and_true]
    · intro l _ hl; rw [if_neg]; unfold inBox; omega
    · intro hk'; exact absurd (Finset.mem_range.2 hk) hk'
  · have := hadj (fun _ _ _ => 1)
    simp only [mul_one] at this
    rw [this]
    refine total_congr fun p hp q hq l hl => ?_
    simp only [Finset.sum_const, Finset.card_range, nsmul_eq_mul, mul_one]
    rw [div_self hne, mul_one]
  · intro M' y hM'
    obtain ⟨out, P', e, s⟩ := C30_avg N hN P M' y b hM' hd hs hf hb ht
    exact ⟨out, P', _, e, s, hadj y⟩

/-- A layer with three batch slots; the hypotheses of C30 and C31 are met by a 3×2×1 input (overlapping windows). -/
example : ∃ M : Matrix ℚ, M.Shows 3 2 1 (fun _ _ _ => 7) ∧ PoolFits 3 2 2 2 1 1 ∧
    2 < ((Pooling.new ⟨2, 2⟩ ⟨1, 1⟩ .max).setBatchSize 3).indices.length := by
  obtain ⟨M, _, h⟩ := Matrix.ofDim_shows (X := 3) (Y := 2) (Z := 1) ⟨by omega, by omega, by omega, by omega⟩ (7 : ℚ)
  exact ⟨M, h, ⟨by omega, by omega, by omega, by omega, by omega, by omega, by omega, by omega⟩, by decide⟩

/-! ## C32 -/

/-- C32: `checkSize` is true exactly when the input is at least as large as the pool. -/
theorem C32_checkSize {α : Type} (P : Pooling) (M : Matrix α) (x : Nat → Nat → Nat → α) (hM : M.Shows X Y Z x)
    (hd : P.dim = ⟨px, py⟩) (hx : px < 2147483648) (hy : py < 2147483648) :
    P.checkSize M = true ↔ px ≤ X ∧ py ≤ Y := by
  obtain ⟨_, h1, h2, _⟩ := hM.good.bounds
  unfold checkSize
  simp only [hM.dim, hd]
  rw [u32_nat (by omega), u32_nat (by omega), u32_nat (by omega), u32_nat (by omega)]
  simp

/-- C32, the full claim for undersized inputs. -/
def C32_claim : Prop :=
  ∀ (X Y Z px py sx sy : Nat) (P : Pooling) (N : Num Int) (M : Matrix Int) (x : Nat → Nat → Nat → Int) (b : Nat),
    M.Shows X Y Z x → P.dim = ⟨px, py⟩ → P.stride = ⟨sx, sy⟩ → 0 < sx → 0 < sy → X < px ∨ Y < py →
    0 < px → 0 < py → px < 2147483648 → py < 2147483648 → b < P.indices.length →
    (∃ e, P.forward N M b = .throw e) ∨ ∃ out P', P.forward N M b = .ok (out, P') ∧ out.vals = []

/-- C32: an undersized input throws. Missing: pools so large that the (negative) output dimensions multiply to more than an
`int` holds, where the behaviour is undefined (`C32_violated`). -/
theorem C32_throws_partial {α : Type} [Zero α] [Add α] [Div α] (N : Num α) (P : Pooling) (M : Matrix α)
    (x : Nat → Nat → Nat → α) (b : Nat) (hM : M.Shows X Y Z x) (hd : P.dim = ⟨px, py⟩) (hs : P.stride = ⟨sx, sy⟩)
    (hpx : 0 < px) (hpy : 0 < py) (hsx : 0 < sx) (hsy : 0 < sy) (hb : b < P.indices.length) (hlt : X < px ∨ Y < py)
    (hX : X < 2 ^ 24) (hY : Y < 2 ^ 24) (hp : px < 2 ^ 24) (hq : py < 2 ^ 24)
    (hsmall : max X px * max Y py * Z < 2147483648) : ∃ e, P.forward N M b = .throw e := by
  have g := hM.good
  have hz := g.z
  obtain ⟨cx, ex, bx⟩ := outLen_abs X px sx hX hp hsx hpx
  obtain ⟨cy, ey, by'⟩ := outLen_abs Y py sy hY hq hsy hpy
  have eo : P.outputSize (dimN X Y Z) = .ok ⟨cx, cy, Z⟩ := by
    unfold outputSize
    simp only [hd, hs]
    rw [ex, ey]; rfl
  have hprod : (cx * cy).natAbs ≤ max X px * max Y py := by rw [Int.natAbs_mul]; exact Nat.mul_le_mul bx by'
  have hprod' : (cx * cy).natAbs ≤ (cx * cy).natAbs * Z := Nat.le_mul_of_pos_right _ hz
  have hvol : (cx * cy * Z).natAbs ≤ max X px * max Y py * Z := by
    rw [Int.natAbs_mul, Int.natAbs_natCast]; exact Nat.mul_le_mul_right _ hprod
  have hvol' : (cx * cy).natAbs * Z = (cx * cy * Z).natAbs := by rw [Int.natAbs_mul (cx * cy), Int.natAbs_natCast]
  unfold forward
  rw [hM.dim, eo, Res.bind_ok]
  have ev : Dim3.volume ⟨cx, cy, Z⟩ = .ok (cx * cy * Z) := by
    unfold Dim3.volume
    simp only
    rw [chk_ok (by unfold I32; omega), Res.bind_ok, chk_ok (by unfold I32; omega)]
  unfold Matrix.ofDim vecSize
  rw [ev, Res.bind_ok]
  by_cases hn : cx * cy * (Z : Int) < 0
  · rw [if_pos hn]
    exact ⟨.length, rfl⟩
  · rw [if_neg hn]
    simp only [Res.bind_ok]
    obtain ⟨old, hold⟩ : ∃ old, P.indices[b]? = some old := ⟨_, List.getElem?_eq_getElem hb⟩
    rw [hold]
    simp only [Res.ofOption, Res.bind_ok, Matrix.resize, vecSize]
    rw [ev, Res.bind_ok, if_neg hn]
    simp only [Res.bind_ok]
    rw [forRange_throw ⟨cx, cy, Z⟩ (by simpa using hz) _ _ .matrixSize]
    · exact ⟨.matrixSize, rfl⟩
    · unfold forwardStep corner
      have hc : View.create M.dim ⟨0 * P.stride.x, 0 * P.stride.y, 0⟩ P.window = .throw .matrixSize := by
        unfold View.create View.endOf
        simp only [hM.dim, hd, Pooling.window, zero_mul, zero_add]
        rw [chk_ok (by unfold I32; omega), chk_ok (by unfold I32; omega), chk_ok (by unfold I32; omega)]
        simp only [Res.bind_ok]
        rw [if_pos]
        simp only [View.exceeds, Bool.or_eq_true, decide_eq_true_eq]
        omega
      have h0 : chk 0 = .ok 0 := by decide
      simp only [Iter.beg, Iter.mk', zero_mul, h0, Res.bind_ok] at hc ⊢
      rw [hc]; rfl

/-- C32 is false of the code: nothing calls `checkSize`, and a 65537 × 65537 pool on a 1 × 1 × 1 input computes an output
of -65535 × -65535, whose `int` product overflows. -/
theorem C32_violated : ¬ C32_claim := by
  intro h
  have g : Good 1 1 1 := ⟨by omega, by omega, by omega, by omega⟩
  obtain ⟨M, _, hM⟩ := Matrix.ofDim_shows g (0 : Int)
  have key : ∀ N, (Pooling.new ⟨65537, 65537⟩ ⟨1, 1⟩ .max).forward N M 0 = .ub := by
    intro N
    unfold forward
    have h2 : (Pooling.new ⟨65537, 65537⟩ ⟨1, 1⟩ .max).outputSize (dimN 1 1 1) = .ok ⟨-65535, -65535, 1⟩ := by decide
    rw [hM.dim, h2]
    rfl
  rcases h 1 1 1 65537 65537 1 1 (Pooling.new ⟨65537, 65537⟩ ⟨1, 1⟩ .max) ⟨id, id, id, id, fun n => n, fun a b => a < b, 0, 0, 0⟩
    M _ 0 hM rfl rfl (by omega) (by omega) (Or.inl (by omega)) (by omega) (by omega) (by omega) (by omega)
    (by simp [Pooling.new]) with ⟨e, he⟩ | ⟨o, P', he, _⟩ <;>
  · rw [key] at he; simp at he

/-- The hypotheses of `C32_throws_partial`: a 2×2 pool on a 1×5×3 input. -/
example : (1 : Nat) < 2 ∧ max 1 2 * max 5 2 * 3 < 2147483648 := by decide

end Cnn
