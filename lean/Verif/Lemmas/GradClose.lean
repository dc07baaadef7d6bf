import Verif.Lemmas.RoundingLayer
import Verif.Lemmas.GradOrder
/-! Sums of products of approximate numbers, in rounded arithmetic (C98). -/
namespace Cnn
open Finset
namespace Floating
variable {α : Type} [Zero α] [One α] [Add α] [Sub α] [Mul α] [Div α] [Neg α] {N : Num α} {p : Precision}

/-- `a` was computed in `k` roundings from numbers that are only approximately right, and should be `y`; `M` bounds the sum of the
magnitudes that were added up, and `m` is the part of it that is there without errors. -/
structure Appr (F : Floating N p) (k : Nat) (M m : ℝ) (a : α) (y : ℝ) : Prop where
  fin : F.Fin a
  size : |F.val a| ≤ (1 + p.u) ^ k * M
  err : |F.val a - y| ≤ (1 + p.u) ^ k * M - m

variable {F : Floating N p}

theorem pow_pos' (hp : p.Ok) (k : Nat) : 0 < (1 + p.u) ^ k := by have := one_le_pow hp k; linarith

theorem Appr.nonneg (hp : p.Ok) {k : Nat} {M m : ℝ} {a : α} {y : ℝ} (h : Appr F k M m a y) : 0 ≤ M :=
  nonneg_of_mul_nonneg_right ((abs_nonneg _).trans h.size) (pow_pos' hp k)

theorem Appr.mono (hp : p.Ok) {k l : Nat} {M m M' m' : ℝ} {a : α} {y : ℝ} (h : Appr F k M m a y) (hk : k ≤ l) (hM : M ≤ M') (hm : m' ≤ m) :
    Appr F l M' m' a y := by
  have h0 := h.nonneg hp
  have h1 : (1 + p.u) ^ k * M ≤ (1 + p.u) ^ l * M' := mul_le_mul (pow_mono hp hk) hM h0 (pow_pos' hp l).le
  exact ⟨h.fin, h.size.trans h1, h.err.trans (by linarith)⟩

/-- A number that is off by at most `d`. -/
theorem Appr.of {a : α} {g d : ℝ} (ha : F.Fin a) (h : |F.val a - g| ≤ d) : Appr F 0 (|g| + d) |g| a g :=
  ⟨ha, by simpa using abs_le_of_near h, by simpa using h⟩

theorem Appr.zero (k : Nat) : Appr F k 0 0 (0 : α) 0 := ⟨F.zero.1, by simp [F.zero.2], by simp [F.zero.2]⟩

theorem Appr.add (hp : p.Ok) {k : Nat} {M m M' m' : ℝ} {a b : α} {y z : ℝ} (ha : Appr F k M m a y) (hb : Appr F k M' m' b z)
    (h : (1 + p.u) ^ k * (M + M') ≤ p.Ω) : Appr F (k + 1) (M + M') (m + m') (a + b) (y + z) := by
  have h3 : |F.val a + F.val b| ≤ (1 + p.u) ^ k * (M + M') := (abs_add_le _ _).trans (by linarith [ha.size, hb.size])
  obtain ⟨h4, h5⟩ := F.add a b ha.fin hb.fin (h3.trans h)
  have h7 : p.u * |F.val a + F.val b| ≤ p.u * ((1 + p.u) ^ k * (M + M')) := mul_le_mul_of_nonneg_left h3 hp.u0
  refine ⟨h4, ?_, ?_⟩
  · have := abs_le_of_near h5
    rw [pow_succ]
    linarith
  · have h6 : |F.val (a + b) - (y + z)| ≤ |F.val (a + b) - (F.val a + F.val b)| + (|F.val a - y| + |F.val b - z|) := by
      have e : F.val (a + b) - (y + z) = (F.val (a + b) - (F.val a + F.val b)) + ((F.val a - y) + (F.val b - z)) := by ring
      rw [e]
      exact (abs_add_le _ _).trans (add_le_add_right (abs_add_le _ _) _)
    have := ha.err
    have := hb.err
    rw [pow_succ]
    linarith

/-- Nothing was added, although `y` should have been. -/
theorem Appr.skip (hp : p.Ok) {k : Nat} {M m M' m' : ℝ} {a : α} {y z : ℝ} (ha : Appr F k M m a y) (h0 : 0 ≤ M') (h : |z| ≤ M' - m') :
    Appr F k (M + M') (m + m') a (y + z) := by
  have h1 : M' ≤ (1 + p.u) ^ k * M' := le_mul_of_one_le_left h0 (one_le_pow hp k)
  refine ⟨ha.fin, ha.size.trans (by linarith), ?_⟩
  have h2 : |F.val a - (y + z)| ≤ |F.val a - y| + |z| := by
    rw [← sub_sub]
    exact abs_sub _ _
  have := ha.err
  linarith

theorem Appr.mul (hp : p.Ok) {a b : α} {g d x e : ℝ} (ha : F.Fin a) (hg : |F.val a - g| ≤ d) (hb : F.Fin b) (hx : |F.val b - x| ≤ e)
    (h : (|g| + d) * (|x| + e) ≤ p.Ω) : Appr F 1 ((|g| + d) * (|x| + e) + p.η) (|g| * |x|) (a * b) (g * x) := by
  have h1 := abs_le_of_near hg
  have h2 := abs_le_of_near hx
  have h3 : |F.val a * F.val b| ≤ (|g| + d) * (|x| + e) := by
    rw [abs_mul]
    exact mul_le_mul h1 h2 (abs_nonneg _) ((abs_nonneg _).trans h1)
  obtain ⟨h4, h5⟩ := F.mul a b ha hb (h3.trans h)
  have h7 := mul_le_mul_of_nonneg_left h3 hp.u0
  have h8 := mul_nonneg hp.u0 hp.η0
  refine ⟨h4, ?_, ?_⟩
  · have := abs_le_of_near h5
    rw [pow_one]
    linarith
  · have h6 : |F.val a * F.val b - g * x| ≤ (|g| + d) * (|x| + e) - |g| * |x| := by
      have e1 : F.val a * F.val b - g * x = (F.val a - g) * F.val b + g * (F.val b - x) := by ring
      rw [e1]
      refine (abs_add_le _ _).trans ?_
      rw [abs_mul, abs_mul]
      have q1 := mul_le_mul hg h2 (abs_nonneg _) ((abs_nonneg _).trans hg)
      have q2 := mul_le_mul_of_nonneg_left hx (abs_nonneg g)
      linarith
    have := abs_sub_le (F.val (a * b)) (F.val a * F.val b) (g * x)
    rw [pow_one]
    linarith

/-- The picked terms of a sum; also terms that should have been added but were not. -/
theorem Appr.fold (hp : p.Ok) {k : Nat} (n : Nat) {M₀ m₀ : ℝ} {a : α} {y : ℝ} {c d : Nat → Bool} {M m z : Nat → ℝ} {t : Nat → α}
    (h : Appr F k M₀ m₀ a y) (hc : ∀ i < n, c i = true → d i = true ∧ Appr F k (M i) (m i) (t i) (z i))
    (hs : ∀ i < n, c i = false → 0 ≤ M i ∧ |z i| ≤ M i - m i)
    (hr : (1 + p.u) ^ (k + ∑ i ∈ range n, if d i then 1 else 0) * (M₀ + ∑ i ∈ range n, M i) ≤ p.Ω) :
    Appr F (k + ∑ i ∈ range n, if d i then 1 else 0) (M₀ + ∑ i ∈ range n, M i) (m₀ + ∑ i ∈ range n, m i)
      ((List.range n).foldl (fun s i => if c i then s + t i else s) a) (y + ∑ i ∈ range n, z i) := by
  induction n with
  | zero => simpa using h
  | succ n ih =>
    have hM : ∀ i < n + 1, 0 ≤ M i := by
      intro i hi
      cases hci : c i with
      | true => exact (hc i hi hci).2.nonneg hp
      | false => exact (hs i hi hci).1
    have hsum : 0 ≤ ∑ i ∈ range n, M i := sum_nonneg fun i hi => hM i (by have := mem_range.1 hi; omega)
    have h0 := h.nonneg hp
    have hn := hM n (by omega)
    rw [sum_range_succ, sum_range_succ] at hr
    have hprev := ih (fun i hi => hc i (by omega)) (fun i hi => hs i (by omega))
      (le_trans (mul_le_mul (pow_mono hp (by omega)) (by linarith) (by linarith) (pow_pos' hp _).le) hr)
    rw [List.range_succ, List.foldl_append, sum_range_succ, sum_range_succ, sum_range_succ, sum_range_succ]
    simp only [List.foldl_cons, List.foldl_nil]
    rw [← add_assoc k, ← add_assoc M₀, ← add_assoc m₀, ← add_assoc y]
    cases hcn : c n with
    | true =>
      obtain ⟨q1, q2⟩ := hc n (by omega) hcn
      rw [q1] at hr ⊢
      simp only [if_true] at hr ⊢
      refine hprev.add hp (q2.mono hp (by omega) le_rfl le_rfl) ?_
      refine le_trans ?_ hr
      rw [← add_assoc M₀]
      exact mul_le_mul_of_nonneg_right (pow_mono hp (by omega)) (by linarith)
    | false =>
      obtain ⟨q1, q2⟩ := hs n (by omega) hcn
      simp only [Bool.false_eq_true, if_false]
      exact (hprev.skip hp q1 q2).mono hp (by omega) le_rfl le_rfl

theorem Appr.pickTo (hp : p.Ok) {k : Nat} (n : Nat) {c d : Nat → Bool} {M m z : Nat → ℝ} {t : Nat → α}
    (hc : ∀ i < n, c i = true → d i = true ∧ Appr F k (M i) (m i) (t i) (z i))
    (hs : ∀ i < n, c i = false → 0 ≤ M i ∧ |z i| ≤ M i - m i)
    (hr : (1 + p.u) ^ (k + ∑ i ∈ range n, if d i then 1 else 0) * (∑ i ∈ range n, M i) ≤ p.Ω) :
    Appr F (k + ∑ i ∈ range n, if d i then 1 else 0) (∑ i ∈ range n, M i) (∑ i ∈ range n, m i)
      (pickTo n c t) (∑ i ∈ range n, z i) := by
  have := (Appr.zero (F := F) k).fold hp n hc hs (by simpa using hr)
  simpa [Cnn.pickTo] using this

/-- All terms are added. -/
theorem Appr.foldAll (hp : p.Ok) {k : Nat} (n : Nat) {M₀ m₀ : ℝ} {a : α} {y : ℝ} {M m z : Nat → ℝ} {t : Nat → α}
    (h : Appr F k M₀ m₀ a y) (hc : ∀ i < n, Appr F k (M i) (m i) (t i) (z i))
    (hr : (1 + p.u) ^ (k + n) * (M₀ + ∑ i ∈ range n, M i) ≤ p.Ω) :
    Appr F (k + n) (M₀ + ∑ i ∈ range n, M i) (m₀ + ∑ i ∈ range n, m i)
      ((List.range n).foldl (fun s i => s + t i) a) (y + ∑ i ∈ range n, z i) := by
  have := h.fold hp n (c := fun _ => true) (d := fun _ => true) (M := M) (m := m) (z := z) (t := t) (fun i hi _ => ⟨rfl, hc i hi⟩)
    (fun i hi h => absurd h (by simp)) (by simpa using hr)
  simpa using this

theorem Appr.sumTo (hp : p.Ok) {k : Nat} (n : Nat) {M m z : Nat → ℝ} {t : Nat → α} (hc : ∀ i < n, Appr F k (M i) (m i) (t i) (z i))
    (hr : (1 + p.u) ^ (k + n) * (∑ i ∈ range n, M i) ≤ p.Ω) :
    Appr F (k + n) (∑ i ∈ range n, M i) (∑ i ∈ range n, m i) (sumTo n t) (∑ i ∈ range n, z i) := by
  have := (Appr.zero (F := F) k).foldAll hp n hc (by simpa using hr)
  simpa [Cnn.sumTo] using this

theorem Appr.sumTo2 (hp : p.Ok) {k : Nat} (r n : Nat) {M m z : Nat → Nat → ℝ} {t : Nat → Nat → α}
    (ht : ∀ i < r, ∀ j < n, Appr F k (M i j) (m i j) (t i j) (z i j))
    (hr : (1 + p.u) ^ (k + r * n) * (∑ i ∈ range r, ∑ j ∈ range n, M i j) ≤ p.Ω) :
    Appr F (k + r * n) (∑ i ∈ range r, ∑ j ∈ range n, M i j) (∑ i ∈ range r, ∑ j ∈ range n, m i j) (sumTo2 r n t)
      (∑ i ∈ range r, ∑ j ∈ range n, z i j) := by
  unfold Cnn.sumTo2
  induction r with
  | zero => simpa using Appr.zero (F := F) k
  | succ r ih =>
    have h1 : 0 ≤ ∑ j ∈ range n, M r j := sum_nonneg fun j hj => (ht r (by omega) j (mem_range.1 hj)).nonneg hp
    have h2 : 0 ≤ ∑ i ∈ range r, ∑ j ∈ range n, M i j :=
      sum_nonneg fun i hi => sum_nonneg fun j hj => (ht i (by have := mem_range.1 hi; omega) j (mem_range.1 hj)).nonneg hp
    rw [sum_range_succ] at hr
    have e : k + (r + 1) * n = k + r * n + n := by ring
    rw [e] at hr
    have h3 := ih (fun i hi => ht i (by omega)) (le_trans (mul_le_mul (pow_mono hp (by omega)) (by linarith) (by linarith) (pow_pos' hp _).le) hr)
    have h4 := h3.foldAll hp n (M := M r) (m := m r) (z := z r) (t := t r) (fun j hj => (ht r (by omega) j hj).mono hp (by omega) le_rfl le_rfl) hr
    rw [List.range_succ, List.foldl_append, sum_range_succ, sum_range_succ, sum_range_succ, e]
    simpa only [List.foldl_cons, List.foldl_nil] using h4

/-- In the form of the specification. -/
theorem Appr.grown {k n : Nat} {M m : ℝ} {a : α} {y : ℝ} (h : Appr F k (M + n * p.η) m a y) : F.Fin a ∧ |F.val a - y| ≤ p.grown k n M m :=
  ⟨h.fin, h.err⟩

/-- A difference. -/
theorem sub_near {a b : α} {g d x e : ℝ} (hp : p.Ok) (ha : F.Fin a) (hg : |F.val a - g| ≤ d) (hb : F.Fin b) (hx : |F.val b - x| ≤ e)
    (h : |g - x| + (d + e) ≤ p.Ω) : F.Fin (a - b) ∧ |F.val (a - b) - (g - x)| ≤ p.grown 1 0 (|g - x| + (d + e)) |g - x| := by
  have h1 : |(F.val a - F.val b) - (g - x)| ≤ d + e := by
    rw [sub_sub_sub_comm]
    exact (abs_sub _ _).trans (add_le_add hg hx)
  have h2 := abs_le_of_near h1
  obtain ⟨h3, h4⟩ := F.sub a b ha hb (h2.trans h)
  refine ⟨h3, ?_⟩
  have h5 := mul_le_mul_of_nonneg_left h2 hp.u0
  have := abs_sub_le (F.val (a - b)) (F.val a - F.val b) (g - x)
  simp only [Precision.grown, pow_one, Nat.cast_zero, zero_mul, add_zero]
  linarith

/-- A product. -/
theorem mul_near {a b : α} {g d x e : ℝ} (hp : p.Ok) (ha : F.Fin a) (hg : |F.val a - g| ≤ d) (hb : F.Fin b) (hx : |F.val b - x| ≤ e)
    (h : (|g| + d) * (|x| + e) ≤ p.Ω) : F.Fin (a * b) ∧ |F.val (a * b) - g * x| ≤ p.grown 1 1 ((|g| + d) * (|x| + e)) (|g| * |x|) := by
  have := Appr.mul hp ha hg hb hx h
  exact Appr.grown (n := 1) (by simpa using this)

/-- The slope of an activation function at the recorded output. -/
theorem slope_near (hp : p.Ok) {E : Env α} {F : Floating E.num p} {q : Conversion} (hE : E.Rounds F q) (f : ActFn) {a r : α} {x e z : ℝ}
    (ha : F.Fin a) (hx : |F.val a - x| ≤ e) (hr : r = E.toFloat (f.eval E.num a)) (hrf : F.Fin r) (hz : |F.val r - actSpec f x| ≤ z)
    (hR : p.SlopeRoom x z f) :
    F.Fin (f.grad E.num r) ∧ |F.val (f.grad E.num r) - actSlope f (actSpec f x)| ≤ p.slopeErr x e z f := by
  have hz0 : 0 ≤ z := (abs_nonneg _).trans hz
  cases f with
  | linear => simp [ActFn.grad, actSlope, Precision.slopeErr, F.one]
  | relu =>
    obtain ⟨y, hy⟩ : ∃ y, actSpec .relu x = y := ⟨_, rfl⟩
    rw [hy] at hz ⊢
    have hy : y = max x 0 := hy.symm
    simp only [ActFn.grad, actSlope, Precision.slopeErr]
    refine ⟨by split; exacts [F.one.1, F.zero.1], ?_⟩
    obtain ⟨hx1, hx2⟩ := abs_sub_le_iff.1 hx
    obtain ⟨hz1, hz2⟩ := abs_sub_le_iff.1 hz
    have hlt := F.lt 0 r F.zero.1 hrf
    rw [F.zero.2] at hlt
    by_cases c : x ≤ -e ∨ z < x
    · rw [if_pos c]
      rcases c with c | c
      · have he : 0 ≤ e := (abs_nonneg _).trans hx
        have h0 : ¬ E.num.lt 0 a = true := by rw [F.lt 0 a F.zero.1 ha, F.zero.2]; linarith
        have : r = E.toFloat 0 := by rw [hr]; simp [ActFn.eval, h0]
        have hv : F.val r = 0 := by rw [this, hE.zero.2]
        rw [if_neg (by rw [hlt, hv]; exact lt_irrefl _), if_neg (by rw [hy, max_eq_right (by linarith)]; exact lt_irrefl _), F.zero.2]
        simp
      · have hpos : 0 < x := by linarith
        rw [max_eq_left hpos.le] at hy
        subst hy
        rw [if_pos (hlt.2 (by linarith)), if_pos hpos, F.one.2]
        simp
    · rw [if_neg c]
      split_ifs <;> simp [F.one.2, F.zero.2]
  | leaky =>
    simp only [ActFn.grad, actSlope, Precision.slopeErr] at *
    refine ⟨by split; exacts [F.one.1, hE.slope.1], ?_⟩
    obtain ⟨hz1, hz2⟩ := abs_sub_le_iff.1 hz
    have hlt := F.lt 0 r F.zero.1 hrf
    rw [F.zero.2] at hlt
    by_cases c : z < |actSpec .leaky x|
    · rw [if_pos c]
      by_cases hy : 0 < actSpec .leaky x
      · rw [abs_of_pos hy] at c
        rw [if_pos hy, if_pos (hlt.2 (by linarith)), F.one.2]; simp
      · rw [abs_of_nonpos (not_lt.1 hy)] at c
        rw [if_neg hy, if_neg (by rw [hlt]; linarith), hE.slope.2]; simp
    · rw [if_neg c]
      split_ifs <;> rw [abs_le] <;> norm_num [F.one.2, hE.slope.2]
  | sigmoid =>
    simp only [actSpec] at hz
    simp only [ActFn.grad, actSlope, Precision.slopeErr, Precision.SlopeRoom, actSpec] at *
    obtain ⟨r1, r2, r3⟩ := hR
    have hs1 := Real.sigmoid_lt_one x
    have hs0 := Real.sigmoid_pos x
    have hab : |F.val r| ≤ 1 + z := by
      have := abs_le_of_near hz
      rw [abs_of_pos hs0] at this
      linarith
    obtain ⟨k1, k2⟩ := sigmoid_near hp hrf (le_trans (by have := Real.exp_le_exp.2 hab; linarith) r1)
    have k3 := sigmoid_lipschitz (F.val r) (Real.sigmoid x)
    have k4 : |F.val (ActFn.sigmoid.eval E.num r) - Real.sigmoid (Real.sigmoid x)| ≤ z / 4 + (3 * p.u + 2 * p.v + 3 * p.η) := by
      have := abs_sub_le (F.val (ActFn.sigmoid.eval E.num r)) (Real.sigmoid (F.val r)) (Real.sigmoid (Real.sigmoid x))
      linarith
    have y1 := Real.sigmoid_lt_one (Real.sigmoid x)
    have y0 := Real.sigmoid_pos (Real.sigmoid x)
    have ab1 : |1 - Real.sigmoid (Real.sigmoid x)| = 1 - Real.sigmoid (Real.sigmoid x) := abs_of_pos (by linarith)
    obtain ⟨m1, m2⟩ := sub_near (e := z / 4 + (3 * p.u + 2 * p.v + 3 * p.η)) (d := 0) (g := 1) hp F.one.1 (by simp [F.one.2]) k1 k4 (by
      rw [ab1, zero_add]; exact r2)
    rw [ab1, zero_add] at m2
    have := mul_near hp k1 k4 m1 m2 (by rw [ab1, abs_of_pos y0]; exact r3)
    rw [ab1, abs_of_pos y0] at this
    exact this
  | tangent =>
    simp only [actSpec] at hz
    simp only [ActFn.grad, actSlope, Precision.slopeErr, Precision.SlopeRoom, actSpec] at *
    obtain ⟨r1, r2⟩ := hR
    obtain ⟨k1, k2⟩ := F.tanh r hrf
    have k3 := tanh_lipschitz (F.val r) (Real.tanh x)
    have hb := tanh_bounds (F.val r)
    have k5 : p.v * |Real.tanh (F.val r)| ≤ p.v * 1 := mul_le_mul_of_nonneg_left (abs_le.2 ⟨hb.1.le, hb.2.le⟩) hp.v0
    have k4 : |F.val (E.num.tanh r) - Real.tanh (Real.tanh x)| ≤ z + (p.v + p.η) := by
      have := abs_sub_le (F.val (E.num.tanh r)) (Real.tanh (F.val r)) (Real.tanh (Real.tanh x))
      linarith
    obtain ⟨m1, m2⟩ := mul_near hp k1 k4 k1 k4 r1
    have hy := tanh_bounds (Real.tanh x)
    have hsq : |Real.tanh (Real.tanh x)| * |Real.tanh (Real.tanh x)| = Real.tanh (Real.tanh x) * Real.tanh (Real.tanh x) := abs_mul_abs_self _
    have ab1 : |1 - Real.tanh (Real.tanh x) * Real.tanh (Real.tanh x)| = 1 - |Real.tanh (Real.tanh x)| * |Real.tanh (Real.tanh x)| := by
      rw [hsq, abs_of_pos]; nlinarith
    have := sub_near (d := 0) (g := 1) hp F.one.1 (by simp [F.one.2]) m1 m2 (by rw [ab1, zero_add]; exact r2)
    rw [ab1, zero_add] at this
    exact this

end Floating
end Cnn
