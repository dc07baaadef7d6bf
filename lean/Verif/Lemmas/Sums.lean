import Verif.Spec.Sums
import Verif.Lemmas.Shows
import Mathlib.Algebra.BigOperators.Intervals
/-! Helper lemmas about sums. -/
namespace Cnn
variable {α : Type}

theorem foldl_add_eq [AddCommMonoid α] (n : Nat) (t : Nat → α) (s : α) :
    (List.range n).foldl (fun s k => s + t k) s = s + ∑ k ∈ Finset.range n, t k := by
  induction n with
  | zero => simp
  | succ n ih => rw [List.range_succ, List.foldl_append, ih, Finset.sum_range_succ]; simp [add_assoc]

theorem sumTo_eq [AddCommMonoid α] (n : Nat) (t : Nat → α) : sumTo n t = ∑ k ∈ Finset.range n, t k := by
  rw [sumTo, foldl_add_eq, zero_add]

theorem sumTo_succ [Zero α] [Add α] (n : Nat) (t : Nat → α) : sumTo (n + 1) t = sumTo n t + t n := by
  simp [sumTo, List.range_succ, List.foldl_append]

theorem sumTo_congr [Zero α] [Add α] {n : Nat} {t u : Nat → α} (h : ∀ k < n, t k = u k) : sumTo n t = sumTo n u := by
  induction n with
  | zero => rfl
  | succ n ih => rw [sumTo_succ, sumTo_succ, ih (fun k hk => h k (by omega)), h n (by omega)]

theorem foldl2_add_eq [AddCommMonoid α] (m n : Nat) (t : Nat → Nat → α) (s : α) :
    (List.range m).foldl (fun s x => (List.range n).foldl (fun s y => s + t x y) s) s =
      s + ∑ x ∈ Finset.range m, ∑ y ∈ Finset.range n, t x y := by
  simp only [foldl_add_eq]

theorem sumTo2_eq [AddCommMonoid α] (m n : Nat) (t : Nat → Nat → α) :
    sumTo2 m n t = ∑ x ∈ Finset.range m, ∑ y ∈ Finset.range n, t x y := by
  rw [sumTo2, foldl2_add_eq, zero_add]

theorem sum_range_mul [AddCommMonoid α] (A B : Nat) (F : Nat → α) :
    ∑ n ∈ Finset.range (A * B), F n = ∑ b ∈ Finset.range B, ∑ a ∈ Finset.range A, F (a + b * A) := by
  induction B with
  | zero => simp
  | succ B ih =>
    rw [Nat.mul_succ, Finset.sum_range_add, ih, Finset.sum_range_succ]
    congr 1
    apply Finset.sum_congr rfl
    intro a _
    congr 1
    ring

theorem total_eq_flip [AddCommMonoid α] (X Y Z : Nat) (f : Nat → Nat → Nat → α) :
    total X Y Z f = ∑ k ∈ Finset.range Z, ∑ j ∈ Finset.range Y, ∑ i ∈ Finset.range X, f i j k := by
  symm
  calc ∑ k ∈ Finset.range Z, ∑ j ∈ Finset.range Y, ∑ i ∈ Finset.range X, f i j k
      = ∑ k ∈ Finset.range Z, ∑ i ∈ Finset.range X, ∑ j ∈ Finset.range Y, f i j k :=
        Finset.sum_congr rfl (fun k _ => Finset.sum_comm)
    _ = ∑ i ∈ Finset.range X, ∑ k ∈ Finset.range Z, ∑ j ∈ Finset.range Y, f i j k := Finset.sum_comm
    _ = total X Y Z f := Finset.sum_congr rfl (fun i _ => Finset.sum_comm)

theorem total_congr [AddCommMonoid α] {X Y Z : Nat} {f g : Nat → Nat → Nat → α}
    (h : ∀ i < X, ∀ j < Y, ∀ k < Z, f i j k = g i j k) : total X Y Z f = total X Y Z g := by
  refine Finset.sum_congr rfl fun i hi => Finset.sum_congr rfl fun j hj => Finset.sum_congr rfl fun k hk => ?_
  exact h i (Finset.mem_range.1 hi) j (Finset.mem_range.1 hj) k (Finset.mem_range.1 hk)

theorem sum_flat [AddCommMonoid α] (X Y Z : Nat) (f : Nat → Nat → Nat → α) :
    ∑ n ∈ Finset.range (X * Y * Z), f (n % X) (n / X % Y) (n / X / Y) = total X Y Z f := by
  rw [total_eq_flip, sum_range_mul]
  refine Finset.sum_congr rfl fun k hk => ?_
  rw [sum_range_mul]
  refine Finset.sum_congr rfl fun j hj => Finset.sum_congr rfl fun i hi => ?_
  have hi := Finset.mem_range.1 hi
  have hj := Finset.mem_range.1 hj
  have e : i + j * X + k * (X * Y) = fl X Y i j k := rfl
  rw [e, fl_mod hi, fl_div_mod hi hj, fl_div_div hi hj]

/-- Sum over flat positions of `f` given through the flat index. -/
theorem sum_fl [AddCommMonoid α] (X Y Z : Nat) (F : Nat → α) :
    total X Y Z (fun i j k => F (fl X Y i j k)) = ∑ n ∈ Finset.range (X * Y * Z), F n := by
  rw [← sum_flat]
  refine Finset.sum_congr rfl fun n _ => ?_
  rw [fl_unflat]

theorem total_exchange [AddCommMonoid α] (X Y Z W H L : Nat) (F : Nat → Nat → Nat → Nat → Nat → Nat → α) :
    total X Y Z (fun i j k => total W H L (fun p q l => F i j k p q l)) =
      total W H L (fun p q l => total X Y Z (fun i j k => F i j k p q l)) := by
  simp only [← sum_flat]
  exact Finset.sum_comm

theorem total_single [AddCommMonoid α] {X Y Z a b c : Nat} (ha : a < X) (hb : b < Y) (hc : c < Z) (t : α) :
    total X Y Z (fun i j k => if a = i ∧ b = j ∧ c = k then t else 0) = t := by
  simp only [total]
  rw [Finset.sum_eq_single a, Finset.sum_eq_single b, Finset.sum_eq_single c]
  · simp
  · intro k _ hk; rw [if_neg]; omega
  · intro h; exact absurd (Finset.mem_range.2 hc) h
  · intro j _ hj; refine Finset.sum_eq_zero fun k _ => ?_; rw [if_neg]; omega
  · intro h; exact absurd (Finset.mem_range.2 hb) h
  · intro i _ hi; refine Finset.sum_eq_zero fun j _ => Finset.sum_eq_zero fun k _ => ?_; rw [if_neg]; omega
  · intro h; exact absurd (Finset.mem_range.2 ha) h

/-- A sum over an interval inside a range. -/
theorem sum_window [AddCommMonoid α] {n s d : Nat} (h : s + d ≤ n) (F : Nat → α) :
    ∑ i ∈ Finset.range n, (if s ≤ i ∧ i < s + d then F i else 0) = ∑ a ∈ Finset.range d, F (s + a) := by
  rw [← Finset.sum_filter]
  refine (Finset.sum_nbij' (fun a => s + a) (fun i => i - s) ?_ ?_ ?_ ?_ ?_).symm
  · intro a ha; simp only [Finset.mem_range, Finset.mem_filter] at *; omega
  · intro i hi; simp only [Finset.mem_range, Finset.mem_filter] at *; omega
  · intro a _; simp
  · intro i hi; simp only [Finset.mem_range, Finset.mem_filter] at *; omega
  · intro a _; rfl

/-- A sum over a window of one layer. -/
theorem total_box [AddCommMonoid α] {X Y Z wx wy : Nat} (sx sy k : Nat) (hx : sx + wx ≤ X) (hy : sy + wy ≤ Y) (hk : k < Z)
    (F : Nat → Nat → Nat → α) :
    total X Y Z (fun i j l => if inBox sx sy k wx wy 1 i j l then F i j l else 0) =
      ∑ a ∈ Finset.range wx, ∑ c ∈ Finset.range wy, F (sx + a) (sy + c) k := by
  have h1 : ∀ i j, ∑ l ∈ Finset.range Z, (if inBox sx sy k wx wy 1 i j l then F i j l else 0) =
      if sx ≤ i ∧ i < sx + wx then (if sy ≤ j ∧ j < sy + wy then F i j k else 0) else 0 := by
    intro i j
    rw [Finset.sum_eq_single k]
    · unfold inBox
      by_cases a : sx ≤ i ∧ i < sx + wx <;> by_cases c : sy ≤ j ∧ j < sy + wy <;> simp [a, c]
    · intro l _ hl; rw [if_neg]; unfold inBox; omega
    · intro h; exact absurd (Finset.mem_range.2 hk) h
  have h2 : ∀ i, ∑ j ∈ Finset.range Y, (if sx ≤ i ∧ i < sx + wx then (if sy ≤ j ∧ j < sy + wy then F i j k else 0) else 0) =
      if sx ≤ i ∧ i < sx + wx then ∑ c ∈ Finset.range wy, F i (sy + c) k else 0 := by
    intro i
    by_cases a : sx ≤ i ∧ i < sx + wx
    · simp only [a, if_true, and_self]
      exact sum_window hy (fun j => F i j k)
    · simp only [a, if_false, Finset.sum_const_zero]
  unfold total
  simp only [h1, h2]
  exact sum_window hx (fun i => ∑ c ∈ Finset.range wy, F i (sy + c) k)

theorem sum_rot [AddCommMonoid α] (F P Q : Nat) (u : Nat → Nat → Nat → α) :
    ∑ f ∈ Finset.range F, ∑ p ∈ Finset.range P, ∑ q ∈ Finset.range Q, u f p q =
      ∑ p ∈ Finset.range P, ∑ q ∈ Finset.range Q, ∑ f ∈ Finset.range F, u f p q := by
  rw [Finset.sum_comm]
  exact Finset.sum_congr rfl fun p _ => Finset.sum_comm

/-- A sum over a window of all layers. -/
theorem total_window [AddCommMonoid α] {X Y Z wx wy : Nat} (sx sy : Nat) (hx : sx + wx ≤ X) (hy : sy + wy ≤ Y)
    (F : Nat → Nat → Nat → α) :
    total X Y Z (fun i j l => if (sx ≤ i ∧ i < sx + wx) ∧ (sy ≤ j ∧ j < sy + wy) then F i j l else 0) =
      total wx wy Z (fun a c l => F (sx + a) (sy + c) l) := by
  have h1 : ∀ i j, ∑ l ∈ Finset.range Z, (if (sx ≤ i ∧ i < sx + wx) ∧ (sy ≤ j ∧ j < sy + wy) then F i j l else 0) =
      if sx ≤ i ∧ i < sx + wx then (if sy ≤ j ∧ j < sy + wy then ∑ l ∈ Finset.range Z, F i j l else 0) else 0 := by
    intro i j
    by_cases a : sx ≤ i ∧ i < sx + wx <;> by_cases c : sy ≤ j ∧ j < sy + wy <;> simp [a, c]
  have h2 : ∀ i, ∑ j ∈ Finset.range Y, (if sx ≤ i ∧ i < sx + wx then
      (if sy ≤ j ∧ j < sy + wy then ∑ l ∈ Finset.range Z, F i j l else 0) else 0) =
      if sx ≤ i ∧ i < sx + wx then ∑ c ∈ Finset.range wy, ∑ l ∈ Finset.range Z, F i (sy + c) l else 0 := by
    intro i
    by_cases a : sx ≤ i ∧ i < sx + wx
    · simp only [a, if_true, and_self]
      exact sum_window hy (fun j => ∑ l ∈ Finset.range Z, F i j l)
    · simp only [a, if_false, Finset.sum_const_zero]
  unfold total
  simp only [h1, h2]
  exact sum_window hx (fun i => ∑ c ∈ Finset.range wy, ∑ l ∈ Finset.range Z, F i (sy + c) l)

end Cnn
