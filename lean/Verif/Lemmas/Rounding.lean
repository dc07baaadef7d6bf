import Verif.Spec.Rounding
import Verif.Lemmas.Sums
import Mathlib.Tactic.Positivity
import Mathlib.Tactic.Linarith
import Mathlib.Tactic.GCongr
import Mathlib.Algebra.Order.BigOperators.Ring.Finset
/-! Sums and products in rounded arithmetic (C84). -/
namespace Cnn
open Finset
namespace Floating
variable {α : Type} [Zero α] [One α] [Add α] [Sub α] [Mul α] [Div α] [Neg α] {N : Num α} {p : Precision}

/-- `a` was computed in `k` roundings and should be `y`; `S` is the sum of the magnitudes that were added up, `E` that of the
underflow errors. -/
structure Close (F : Floating N p) (k : Nat) (S E : ℝ) (a : α) (y : ℝ) : Prop where
  fin : F.Fin a
  size : |y| ≤ S
  under : 0 ≤ E
  err : |F.val a - y| ≤ ((1 + p.u) ^ k - 1) * S + (1 + p.u) ^ k * E

variable {F : Floating N p}

theorem one_le_pow (hp : p.Ok) (k : Nat) : 1 ≤ (1 + p.u) ^ k := one_le_pow₀ (by linarith [hp.u0])

theorem pow_mono (hp : p.Ok) {k l : Nat} (h : k ≤ l) : (1 + p.u) ^ k ≤ (1 + p.u) ^ l :=
  pow_le_pow_right₀ (by linarith [hp.u0]) h

theorem Close.nonneg {k : Nat} {S E : ℝ} {a : α} {y : ℝ} (h : Close F k S E a y) : 0 ≤ S := (abs_nonneg y).trans h.size

theorem Close.abs_le {k : Nat} {S E : ℝ} {a : α} {y : ℝ} (h : Close F k S E a y) : |F.val a| ≤ (1 + p.u) ^ k * (S + E) := by
  have h1 := h.err
  have h2 := h.size
  have h3 : |F.val a| ≤ |F.val a - y| + |y| := by simpa using abs_add_le (F.val a - y) y
  linarith [h1, h2, h3]

theorem Close.mono (hp : p.Ok) {k l : Nat} {S E T G : ℝ} {a : α} {y : ℝ} (h : Close F k S E a y) (hk : k ≤ l) (hS : S ≤ T) (hE : E ≤ G) :
    Close F l T G a y := by
  refine ⟨h.fin, h.size.trans hS, h.under.trans hE, h.err.trans ?_⟩
  have h0 := h.nonneg
  have h1 := one_le_pow hp k
  have h2 := pow_mono hp hk
  have h3 := h.under
  refine add_le_add (mul_le_mul (by linarith) hS h0 (by linarith)) (mul_le_mul h2 hE h3 (by linarith))

theorem Close.exact {a : α} {y : ℝ} (ha : F.Fin a) (h : F.val a = y) : Close F 0 |y| 0 a y :=
  ⟨ha, le_rfl, le_rfl, by simp [h]⟩

theorem Close.zero (k : Nat) : Close F k 0 0 (0 : α) 0 :=
  ⟨F.zero.1, by simp, le_rfl, by simp [F.zero.2]⟩

theorem Close.mul (hp : p.Ok) {a b : α} (ha : F.Fin a) (hb : F.Fin b) (h : |F.val a * F.val b| ≤ p.Ω) :
    Close F 1 |F.val a * F.val b| p.η (a * b) (F.val a * F.val b) := by
  obtain ⟨h1, h2⟩ := F.mul a b ha hb h
  refine ⟨h1, le_rfl, hp.η0, h2.trans ?_⟩
  have := mul_nonneg hp.u0 hp.η0
  simp only [pow_one]
  linarith [this]

theorem Close.add (hp : p.Ok) {k : Nat} {S E T G : ℝ} {a b : α} {y z : ℝ} (ha : Close F k S E a y) (hb : Close F k T G b z)
    (h : (1 + p.u) ^ k * (S + T + (E + G)) ≤ p.Ω) : Close F (k + 1) (S + T) (E + G) (a + b) (y + z) := by
  have h1 := ha.abs_le
  have h2 := hb.abs_le
  have h3 : |F.val a + F.val b| ≤ (1 + p.u) ^ k * (S + T + (E + G)) := (abs_add_le _ _).trans (by linarith)
  obtain ⟨h4, h5⟩ := F.add a b ha.fin hb.fin (h3.trans h)
  refine ⟨h4, (abs_add_le _ _).trans (add_le_add ha.size hb.size), add_nonneg ha.under hb.under, ?_⟩
  have h6 : |F.val (a + b) - (y + z)| ≤ |F.val (a + b) - (F.val a + F.val b)| + (|F.val a - y| + |F.val b - z|) := by
    have e : F.val (a + b) - (y + z) = (F.val (a + b) - (F.val a + F.val b)) + ((F.val a - y) + (F.val b - z)) := by ring
    rw [e]
    exact (abs_add_le _ _).trans (add_le_add_right (abs_add_le _ _) _)
  have h7 : p.u * |F.val a + F.val b| ≤ p.u * ((1 + p.u) ^ k * (S + T + (E + G))) := mul_le_mul_of_nonneg_left h3 hp.u0
  have h8 := ha.err
  have h9 := hb.err
  refine h6.trans ((add_le_add (h5.trans h7) (add_le_add h8 h9)).trans (le_of_eq ?_))
  ring

/-- Adding `n` terms to an accumulator. -/
theorem Close.fold (hp : p.Ok) {k : Nat} (n : Nat) {S E : ℝ} {a : α} {y : ℝ} {T G z : Nat → ℝ} {t : Nat → α} (h : Close F k S E a y)
    (ht : ∀ i < n, Close F k (T i) (G i) (t i) (z i))
    (hr : (1 + p.u) ^ (k + n) * (S + ∑ i ∈ range n, T i + (E + ∑ i ∈ range n, G i)) ≤ p.Ω) :
    Close F (k + n) (S + ∑ i ∈ range n, T i) (E + ∑ i ∈ range n, G i) ((List.range n).foldl (fun s i => s + t i) a)
      (y + ∑ i ∈ range n, z i) := by
  induction n with
  | zero => simpa using h
  | succ n ih =>
    have hn := ht n (by omega)
    have hT := hn.nonneg
    have hG := hn.under
    rw [sum_range_succ, sum_range_succ] at hr
    have hpos : 0 ≤ S + ∑ i ∈ range n, T i + (E + ∑ i ∈ range n, G i) :=
      add_nonneg (add_nonneg h.nonneg (sum_nonneg fun i hi => (ht i (by have := mem_range.1 hi; omega)).nonneg))
        (add_nonneg h.under (sum_nonneg fun i hi => (ht i (by have := mem_range.1 hi; omega)).under))
    have hstep : (1 + p.u) ^ (k + n) * (S + ∑ i ∈ range n, T i + T n + (E + ∑ i ∈ range n, G i + G n)) ≤ p.Ω := by
      refine le_trans ?_ hr
      have := pow_mono hp (show k + n ≤ k + (n + 1) by omega)
      calc (1 + p.u) ^ (k + n) * (S + ∑ i ∈ range n, T i + T n + (E + ∑ i ∈ range n, G i + G n))
          ≤ (1 + p.u) ^ (k + (n + 1)) * (S + ∑ i ∈ range n, T i + T n + (E + ∑ i ∈ range n, G i + G n)) :=
            mul_le_mul_of_nonneg_right this (by linarith)
        _ = _ := by ring
    have hprev := ih (fun i hi => ht i (by omega)) (le_trans (mul_le_mul_of_nonneg_left (by linarith) (zero_le_one.trans (one_le_pow hp _))) hstep)
    have := hprev.add hp (hn.mono hp (by omega) le_rfl le_rfl) hstep
    rw [List.range_succ, List.foldl_append, sum_range_succ, sum_range_succ, sum_range_succ]
    simp only [List.foldl_cons, List.foldl_nil]
    rw [← add_assoc k, ← add_assoc S, ← add_assoc E, ← add_assoc y]
    exact this

theorem Close.sumTo (hp : p.Ok) {k : Nat} (n : Nat) {T G z : Nat → ℝ} {t : Nat → α} (ht : ∀ i < n, Close F k (T i) (G i) (t i) (z i))
    (hr : (1 + p.u) ^ (k + n) * (∑ i ∈ range n, T i + ∑ i ∈ range n, G i) ≤ p.Ω) :
    Close F (k + n) (∑ i ∈ range n, T i) (∑ i ∈ range n, G i) (sumTo n t) (∑ i ∈ range n, z i) := by
  have := (Close.zero (F := F) k).fold hp n ht (by simpa using hr)
  simpa [Cnn.sumTo] using this

/-- Two nested loops. -/
theorem Close.sumTo2 (hp : p.Ok) {k : Nat} (m n : Nat) {T G z : Nat → Nat → ℝ} {t : Nat → Nat → α}
    (ht : ∀ i < m, ∀ j < n, Close F k (T i j) (G i j) (t i j) (z i j))
    (hr : (1 + p.u) ^ (k + m * n) * (∑ i ∈ range m, ∑ j ∈ range n, T i j + ∑ i ∈ range m, ∑ j ∈ range n, G i j) ≤ p.Ω) :
    Close F (k + m * n) (∑ i ∈ range m, ∑ j ∈ range n, T i j) (∑ i ∈ range m, ∑ j ∈ range n, G i j) (sumTo2 m n t)
      (∑ i ∈ range m, ∑ j ∈ range n, z i j) := by
  unfold Cnn.sumTo2
  induction m with
  | zero => simpa using Close.zero (F := F) k
  | succ m ih =>
    have hT : 0 ≤ ∑ j ∈ range n, T m j := sum_nonneg fun j hj => (ht m (by omega) j (mem_range.1 hj)).nonneg
    have hG : 0 ≤ ∑ j ∈ range n, G m j := sum_nonneg fun j hj => (ht m (by omega) j (mem_range.1 hj)).under
    have hT' : 0 ≤ ∑ i ∈ range m, ∑ j ∈ range n, T i j :=
      sum_nonneg fun i hi => sum_nonneg fun j hj => (ht i (by have := mem_range.1 hi; omega) j (mem_range.1 hj)).nonneg
    have hG' : 0 ≤ ∑ i ∈ range m, ∑ j ∈ range n, G i j :=
      sum_nonneg fun i hi => sum_nonneg fun j hj => (ht i (by have := mem_range.1 hi; omega) j (mem_range.1 hj)).under
    rw [sum_range_succ, sum_range_succ] at hr
    have e : k + (m + 1) * n = k + m * n + n := by ring
    rw [e] at hr
    have h1 := ih (fun i hi => ht i (by omega)) (le_trans (mul_le_mul (pow_mono hp (by omega)) (by linarith) (by linarith)
      (zero_le_one.trans (one_le_pow hp _))) hr)
    have h2 := h1.fold hp n (T := T m) (G := G m) (z := z m) (t := t m) (fun j hj => (ht m (by omega) j hj).mono hp (by omega) le_rfl le_rfl) (by
      refine le_trans (le_of_eq ?_) hr
      ring)
    rw [List.range_succ, List.foldl_append, sum_range_succ, sum_range_succ, sum_range_succ, e]
    simpa only [List.foldl_cons, List.foldl_nil] using h2

theorem Close.div (hp : p.Ok) {k : Nat} {S E : ℝ} {a b : α} {y c : ℝ} (h : Close F k S E a y) (hb : F.Fin b) (hbv : F.val b = c) (hc : 1 ≤ c)
    (hr : (1 + p.u) ^ k * (S + E) ≤ p.Ω) :
    F.Fin (a / b) ∧ |F.val (a / b) - y / c| ≤ ((1 + p.u) ^ (k + 1) - 1) * (S / c) + (1 + p.u) ^ (k + 1) * (E / c) + p.η := by
  have hc0 : 0 < c := by linarith
  have h1 : |F.val a / F.val b| ≤ (1 + p.u) ^ k * (S + E) / c := by
    rw [abs_div, hbv, abs_of_pos hc0]
    exact div_le_div_of_nonneg_right h.abs_le hc0.le
  have h2 : (1 + p.u) ^ k * (S + E) / c ≤ (1 + p.u) ^ k * (S + E) :=
    div_le_self (mul_nonneg (zero_le_one.trans (one_le_pow hp k)) (add_nonneg h.nonneg h.under)) hc
  obtain ⟨h3, h4⟩ := F.div a b h.fin hb (by rw [hbv]; exact hc0.ne') (h1.trans (h2.trans hr))
  refine ⟨h3, ?_⟩
  have h5 : |F.val (a / b) - y / c| ≤ |F.val (a / b) - F.val a / F.val b| + |F.val a - y| / c := by
    have e : F.val (a / b) - y / c = (F.val (a / b) - F.val a / F.val b) + (F.val a - y) / c := by rw [hbv]; ring
    have e2 : |F.val a - y| / c = |(F.val a - y) / c| := by rw [abs_div, abs_of_pos hc0]
    rw [e, e2]
    exact abs_add_le _ _
  have h6 := div_le_div_of_nonneg_right h.err hc0.le
  have h7 := mul_le_mul_of_nonneg_left h1 hp.u0
  have e : p.u * ((1 + p.u) ^ k * (S + E) / c) + p.η + (((1 + p.u) ^ k - 1) * S + (1 + p.u) ^ k * E) / c =
      ((1 + p.u) ^ (k + 1) - 1) * (S / c) + (1 + p.u) ^ (k + 1) * (E / c) + p.η := by
    rw [pow_succ]; ring
  linarith

end Floating
end Cnn
