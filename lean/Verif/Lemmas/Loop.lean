import Verif.Model.Dim
import Mathlib.Tactic.Ring
import Mathlib.Tactic.Linarith
import Mathlib.Tactic.Push
/-!
Helper lemmas: the iterator loops of the model as left folds over `List.range`.
-/
namespace Cnn

theorem succ_div_mod_lt {n X : Nat} (h : n % X + 1 < X) : (n + 1) % X = n % X + 1 ∧ (n + 1) / X = n / X := by
  have hX : 0 < X := by omega
  have := Nat.div_add_mod n X
  have key : n + 1 = (n % X + 1) + X * (n / X) := by omega
  constructor
  · rw [key, Nat.add_mul_mod_self_left, Nat.mod_eq_of_lt h]
  · rw [key, Nat.add_mul_div_left _ _ hX, Nat.div_eq_of_lt h, Nat.zero_add]

theorem succ_div_mod_ge {n X : Nat} (hX : 0 < X) (h : ¬ n % X + 1 < X) :
    (n + 1) % X = 0 ∧ (n + 1) / X = n / X + 1 := by
  have hlt := Nat.mod_lt n hX
  have := Nat.div_add_mod n X
  have key : n + 1 = X * (n / X + 1) := by rw [Nat.mul_add]; omega
  constructor
  · rw [key]; exact Nat.mul_mod_right _ _
  · rw [key, Nat.mul_div_cancel_left _ hX]

/-- The 3-D index with column-major flat index `n` in a box with `X` rows and `Y` columns. -/
def unflat (X Y n : Nat) : Dim3 := ⟨(n % X : Nat), (n / X % Y : Nat), (n / X / Y : Nat)⟩

/-- The iterator `begin() + n`. -/
def iterAt (d : Dim3) (n : Nat) : Iter := ⟨unflat (max d.x 1).toNat (max d.y 1).toNat n, d, n⟩

theorem next_unflat (d : Dim3) (n : Nat) :
    d.next (unflat (max d.x 1).toNat (max d.y 1).toNat n) =
      unflat (max d.x 1).toNat (max d.y 1).toNat (n + 1) := by
  have hX : 0 < (max d.x 1).toNat := by omega
  have hY : 0 < (max d.y 1).toNat := by omega
  have eX : d.x ≤ (max d.x 1).toNat := by omega
  have eY : d.y ≤ (max d.y 1).toNat := by omega
  have eX' : 1 < (max d.x 1).toNat → d.x = (max d.x 1).toNat := by omega
  have eY' : 1 < (max d.y 1).toNat → d.y = (max d.y 1).toNat := by omega
  generalize (max d.x 1).toNat = X at *
  generalize (max d.y 1).toNat = Y at *
  unfold Dim3.next unflat
  by_cases h : n % X + 1 < X
  · obtain ⟨a, b⟩ := succ_div_mod_lt h
    have := eX' (by omega)
    rw [if_pos (by simp only; omega), a, b]; simp
  · obtain ⟨a, b⟩ := succ_div_mod_ge hX h
    rw [if_neg (by simp only; omega), a, b]
    by_cases h2 : n / X % Y + 1 < Y
    · obtain ⟨c, e⟩ := succ_div_mod_lt h2
      have := eY' (by omega)
      rw [if_pos (by simp only; omega), c, e]; simp
    · obtain ⟨c, e⟩ := succ_div_mod_ge hY h2
      rw [if_neg (by simp only; omega), c, e]; simp

theorem iterAt_next (d : Dim3) (n : Nat) : (iterAt d n).next = iterAt d (n + 1) := by
  simp [iterAt, Iter.next, next_unflat]

theorem iterAt_zero (d : Dim3) : iterAt d 0 = Iter.beg d := by
  simp [iterAt, Iter.beg, Iter.mk', unflat]

theorem unflat_eq_top {X Y Z n : Nat} (hX : 0 < X) (hY : 0 < Y) (hn : n ≤ X * Y * Z) :
    (unflat X Y n = ⟨0, 0, (Z : Nat)⟩) ↔ n = X * Y * Z := by
  constructor
  · intro h
    simp only [unflat, Dim3.mk.injEq, Int.natCast_inj] at h
    obtain ⟨h1, h2, h3⟩ := h
    have a := Nat.div_add_mod n X
    have b := Nat.div_add_mod (n / X) Y
    have h1' : n % X = 0 := by exact_mod_cast h1
    have h2' : n / X % Y = 0 := by exact_mod_cast h2
    rw [h1'] at a; rw [h2', h3] at b
    rw [← a, ← b]; ring
  · rintro rfl
    have e : X * Y * Z / X = Y * Z := by rw [Nat.mul_assoc, Nat.mul_div_cancel_left _ hX]
    simp only [unflat, e]
    rw [Nat.mul_div_cancel_left _ hY, Nat.mul_assoc]
    simp

theorem same_fin (d : Dim3) (hz : 0 ≤ d.z) {n : Nat} (hn : n ≤ Iter.fuel d) :
    (iterAt d n).same (Iter.fin d) = true ↔ n = Iter.fuel d := by
  have h := @unflat_eq_top (max d.x 1).toNat (max d.y 1).toNat d.z.toNat n (by omega) (by omega) hn
  rw [show ((d.z.toNat : Nat) : Int) = d.z by omega] at h
  simp only [iterAt, Iter.same, Iter.fin, Iter.mk', decide_true, Bool.and_true, decide_eq_true_eq, h]
  rfl

theorem loop_eq_fold {σ : Type} (d : Dim3) (hz : 0 ≤ d.z) (last : Iter)
    (hlast : last.idx = (Iter.fin d).idx ∧ last.dim = d) (body : σ → Iter → Res σ) :
    ∀ (k n : Nat), n + k = Iter.fuel d → ∀ s,
      Iter.loop last body k (iterAt d n) s =
        (List.range' n k).foldlM (fun s m => body s (iterAt d m)) s := by
  have hsame : ∀ it : Iter, it.same last = it.same (Iter.fin d) := by
    intro it; simp [Iter.same, hlast.1, hlast.2, Iter.fin, Iter.mk']
  intro k
  induction k with
  | zero =>
    intro n hn s
    have : (iterAt d n).same (Iter.fin d) = true := (same_fin d hz (by omega)).2 (by omega)
    simp [Iter.loop, hsame, this]
  | succ k ih =>
    intro n hn s
    have : ¬ (iterAt d n).same (Iter.fin d) = true := by
      rw [same_fin d hz (by omega)]; omega
    simp only [Iter.loop, hsame, if_neg this, List.range'_succ, List.foldlM_cons]
    congr 1
    funext s'
    rw [iterAt_next]
    exact ih (n + 1) (by omega) s'

/-- The main loop lemma: the iterator loop visits flat positions `0, 1, …, fuel-1` in order and stops. -/
theorem forRange_eq_fold {σ : Type} (d : Dim3) (hz : 0 ≤ d.z) (body : σ → Iter → Res σ) (s : σ) :
    forRange d body s = (List.range (Iter.fuel d)).foldlM (fun s m => body s (iterAt d m)) s := by
  unfold forRange
  rw [← iterAt_zero, loop_eq_fold d hz _ ⟨rfl, rfl⟩ body _ 0 (by omega), List.range_eq_range']

theorem finView_idx (d : Dim3) :
    (Iter.finView d).idx = (Iter.fin d).idx ∧ (Iter.finView d).dim = d := by
  constructor
  · show d.next (d - Dim3.fill 1) = ⟨0, 0, d.z⟩
    unfold Dim3.next
    rw [if_neg (by simp [Dim3.fill]), if_neg (by simp [Dim3.fill])]
    simp [Dim3.fill]
  · rfl

theorem forRangeView_eq_fold {σ : Type} (d : Dim3) (hz : 0 ≤ d.z)
    (body : σ → Iter → Res σ) (s : σ) :
    forRangeView d body s = (List.range (Iter.fuel d)).foldlM (fun s m => body s (iterAt d m)) s := by
  unfold forRangeView
  rw [← iterAt_zero, loop_eq_fold d hz _ (finView_idx d) body _ 0 (by omega), List.range_eq_range']

theorem copyLoop_eq_fold {σ : Type} (d : Dim3) (body : σ → Iter → Res σ) :
    ∀ (k n : Nat) (s : σ), copyLoop body k (iterAt d n) s =
        (List.range' n k).foldlM (fun s m => body s (iterAt d m)) s := by
  intro k
  induction k with
  | zero => intro n s; simp [copyLoop]
  | succ k ih =>
    intro n s
    simp only [copyLoop, List.range'_succ, List.foldlM_cons]
    congr 1
    funext s'
    rw [iterAt_next]
    exact ih (n + 1) s'

theorem copyRange_eq_fold {σ : Type} (d : Dim3) (hx : 0 < d.x) (hy : 0 < d.y) (hz : 0 ≤ d.z) (last : Iter)
    (hlast : last.idx = (Iter.fin d).idx ∧ last.dim = d) (body : σ → Iter → Res σ) (s : σ) :
    copyRange d last body s = (List.range (Iter.fuel d)).foldlM (fun s m => body s (iterAt d m)) s := by
  unfold copyRange
  have : (last.diff (Iter.beg d)).toNat = Iter.fuel d := by
    simp only [Iter.diff, Iter.beg, Iter.mk', hlast.1, hlast.2, Iter.fin, Dim3.sub_mk, Iter.fuel]
    obtain ⟨X, hX⟩ := Int.eq_ofNat_of_zero_le hx.le
    obtain ⟨Y, hY⟩ := Int.eq_ofNat_of_zero_le hy.le
    obtain ⟨Z, hZ⟩ := Int.eq_ofNat_of_zero_le hz
    have e1 : max d.x 1 = X := by omega
    have e2 : max d.y 1 = Y := by omega
    rw [e1, e2, hX, hY, hZ]
    simp only [sub_zero, zero_mul, add_zero]
    rw [← Nat.cast_mul, ← Nat.cast_mul]
    simp only [Int.toNat_natCast]; ring
  rw [← iterAt_zero, copyLoop_eq_fold, ← List.range_eq_range', iterAt_zero, this]

/-- Invariant rule for a fold over a range. -/
theorem foldlM_range_inv {σ : Type} (P : Nat → σ → Prop) (N : Nat) (body : σ → Nat → Res σ) (s : σ)
    (h0 : P 0 s) (hs : ∀ n < N, ∀ s, P n s → ∃ s', body s n = .ok s' ∧ P (n + 1) s') :
    ∃ s', (List.range N).foldlM body s = .ok s' ∧ P N s' := by
  induction N with
  | zero => exact ⟨s, by simp, h0⟩
  | succ N ih =>
    obtain ⟨s1, e1, p1⟩ := ih (fun n hn s hP => hs n (by omega) s hP)
    obtain ⟨s2, e2, p2⟩ := hs N (by omega) s1 p1
    refine ⟨s2, ?_, p2⟩
    rw [List.range_succ, List.foldlM_append, e1]
    simp [e2]

/-- A fold that succeeds for the first `n` steps and fails at step `n` fails with that outcome. -/
theorem foldlM_range_fail {σ : Type} (P : Nat → σ → Prop) (N k : Nat) (hk : k < N) (body : σ → Nat → Res σ) (s : σ)
    (r : Res σ) (hr : ∀ f : σ → Res σ, (r >>= f) = r)
    (h0 : P 0 s) (hs : ∀ n < k, ∀ s, P n s → ∃ s', body s n = .ok s' ∧ P (n + 1) s')
    (hf : ∀ s, P k s → body s k = r) :
    (List.range N).foldlM body s = r := by
  obtain ⟨s1, e1, p1⟩ := foldlM_range_inv P k body s h0 hs
  obtain ⟨m, rfl⟩ : ∃ m, N = k + 1 + m := ⟨N - (k + 1), by omega⟩
  rw [List.range_eq_range', ← List.range'_append_1, ← List.range'_append_1, List.foldlM_append, List.foldlM_append,
    ← List.range_eq_range', e1]
  simp [hf s1 p1, hr]

/-- Pointwise congruence for folds over a range. -/
theorem foldlM_range_congr {σ : Type} (N : Nat) (b1 b2 : σ → Nat → Res σ) (s : σ)
    (h : ∀ n < N, ∀ s, b1 s n = b2 s n) : (List.range N).foldlM b1 s = (List.range N).foldlM b2 s := by
  induction N with
  | zero => simp
  | succ N ih =>
    rw [List.range_succ, List.foldlM_append, List.foldlM_append, ih (fun n hn s => h n (by omega) s)]
    congr 1
    funext s'
    simp [h N (by omega) s']

/-- A fold with pure steps. -/
theorem foldlM_range_pure {σ : Type} (N : Nat) (b : σ → Nat → Res σ) (f : σ → Nat → σ) (s : σ)
    (h : ∀ n < N, ∀ s, b s n = .ok (f s n)) :
    (List.range N).foldlM b s = .ok ((List.range N).foldl f s) := by
  induction N with
  | zero => simp
  | succ N ih =>
    rw [List.range_succ, List.foldlM_append, ih (fun n hn s => h n (by omega) s), List.foldl_append]
    simp [h N (by omega)]

theorem Res.bind_eq_ok {β γ : Type} {x : Res β} {f : β → Res γ} {c : γ} (h : (x >>= f) = .ok c) :
    ∃ a, x = .ok a ∧ f a = .ok c := by
  cases x with
  | ok a => exact ⟨a, rfl, h⟩
  | throw e => simp at h
  | ub => simp at h
  | abort => simp at h

end Cnn
