import Verif.Model.Expr
import Verif.Lemmas.Sums
import Verif.Lemmas.Fill
import Mathlib.Algebra.BigOperators.Ring.Finset
/-! Helper lemmas about lazy expressions. -/
namespace Cnn
namespace MExpr
variable {α β γ : Type} {X Y Z : Nat}

theorem Shows.congr {e : MExpr α} {f g : Nat → Nat → Nat → α} (h : e.Shows X Y Z f)
    (hfg : ∀ i < X, ∀ j < Y, ∀ k < Z, f i j k = g i j k) : e.Shows X Y Z g where
  good := h.good
  dim := h.dim
  entry i hi j hj k hk := by rw [h.entry i hi j hj k hk, hfg i hi j hj k hk]
  deref i hi j hj k hk := by rw [h.deref i hi j hj k hk, hfg i hi j hj k hk]

/-- Dereferencing at flat position `n`. -/
theorem Shows.deref_flat {e : MExpr α} {f : Nat → Nat → Nat → α} (h : e.Shows X Y Z f) {n : Nat}
    (hn : n < X * Y * Z) :
    e.deref (iterAt (dimN X Y Z) n) = .ok (f (n % X) (n / X % Y) (n / X / Y)) := by
  obtain ⟨hi, hj, hk⟩ := unflat_lt h.good.x h.good.y hn
  have := h.deref _ hi _ hj _ hk
  rw [iterAt_dimN h.good.x h.good.y, unflat_eq]
  have e := fl_unflat X Y n
  unfold fl at e
  rwa [e] at this

/-- A lazy expression whose iterators go through `operator()`. -/
theorem Shows.lazy {d : Dim3} {get : Dim3 → Res α} {f : Nat → Nat → Nat → α} (g : Good X Y Z) (hd : d = dimN X Y Z)
    (h : ∀ i < X, ∀ j < Y, ∀ k < Z, get (dimN i j k) = .ok (f i j k)) :
    ({ dim := d, get := get } : MExpr α).Shows X Y Z f := ⟨g, hd, h, h⟩

theorem bin_shows (op : α → β → γ) {A : MExpr α} {B : MExpr β} {f : Nat → Nat → Nat → α} {g : Nat → Nat → Nat → β}
    (hA : A.Shows X Y Z f) (hB : B.Shows X Y Z g) :
    ∃ E, bin op A B = .ok E ∧ E.Shows X Y Z (fun i j k => op (f i j k) (g i j k)) := by
  refine ⟨_, by simp [bin, Matrix.checkSize, hA.dim, hB.dim]; rfl, ?_⟩
  refine Shows.lazy hA.good rfl ?_
  intro i hi j hj k hk
  simp [hA.entry i hi j hj k hk, hB.entry i hi j hj k hk]

theorem bin_mismatch (op : α → β → γ) {A : MExpr α} {B : MExpr β} (h : A.dim ≠ B.dim) :
    bin op A B = .throw .matrixSize := by
  simp [bin, Matrix.checkSize, h]

theorem scal_shows (op : α → γ) {A : MExpr α} {f : Nat → Nat → Nat → α} (hA : A.Shows X Y Z f) :
    (scal op A).Shows X Y Z (fun i j k => op (f i j k)) := by
  refine Shows.lazy hA.good hA.dim ?_
  intro i hi j hj k hk
  simp [hA.entry i hi j hj k hk]

theorem un_shows (op : α → γ) {A : MExpr α} {f : Nat → Nat → Nat → α} (hA : A.Shows X Y Z f) :
    (un op A).Shows X Y Z (fun i j k => op (f i j k)) := by
  refine Shows.lazy hA.good hA.dim ?_
  intro i hi j hj k hk
  simp [hA.entry i hi j hj k hk]

theorem Good.swap (g : Good X Y Z) : Good Y X Z := ⟨g.y, g.x, g.z, by have := g.small; rwa [Nat.mul_comm Y X]⟩

theorem transpose_shows {A : MExpr α} {f : Nat → Nat → Nat → α} (hA : A.Shows X Y Z f) :
    (transpose A).Shows Y X Z (fun i j k => f j i k) := by
  refine Shows.lazy (Good.swap hA.good) (by simp [hA.dim]) ?_
  intro i hi j hj k hk
  exact hA.entry j hj i hi k hk

theorem rotate_shows {A : MExpr α} {f : Nat → Nat → Nat → α} (hA : A.Shows X X Z f) :
    (∃ E, rotate 1 A = .ok E ∧ E.Shows X X Z (fun i j k => f (X - 1 - j) i k)) ∧
    (∃ E, rotate 2 A = .ok E ∧ E.Shows X X Z (fun i j k => f (X - 1 - i) (X - 1 - j) k)) ∧
    (∃ E, rotate 3 A = .ok E ∧ E.Shows X X Z (fun i j k => f j (X - 1 - i) k)) := by
  have sq : Matrix.isSquareD A.dim = true := by simp [Matrix.isSquareD, hA.dim]
  have er : ∀ n, rotate n A = .ok { dim := A.dim, get := fun i => A.get (rotIdx n A.dim i) } := by
    intro n; simp only [rotate, sq, if_true]
  refine ⟨⟨_, er 1, Shows.lazy hA.good hA.dim ?_⟩, ⟨_, er 2, Shows.lazy hA.good hA.dim ?_⟩,
    ⟨_, er 3, Shows.lazy hA.good hA.dim ?_⟩⟩
  · intro i hi j hj k hk
    have e : rotIdx 1 A.dim (dimN i j k) = dimN (X - 1 - j) i k := by
      simp [rotIdx, hA.dim]; omega
    rw [e]; exact hA.entry _ (by omega) _ hi _ hk
  · intro i hi j hj k hk
    have e : rotIdx 2 A.dim (dimN i j k) = dimN (X - 1 - i) (X - 1 - j) k := by
      simp [rotIdx, hA.dim]; omega
    rw [e]; exact hA.entry _ (by omega) _ (by omega) _ hk
  · intro i hi j hj k hk
    have e : rotIdx 3 A.dim (dimN i j k) = dimN j (X - 1 - i) k := by
      simp [rotIdx, hA.dim]; omega
    rw [e]; exact hA.entry _ hj _ (by omega) _ hk

theorem rotate_nonsquare (n : Nat) {A : MExpr α} (h : A.dim.x ≠ A.dim.y) : rotate n A = .throw .matrixTransform := by
  simp [rotate, Matrix.isSquareD, h]

/-- A fold adding up successfully computed terms. -/
theorem foldlM_sum [Zero α] [Add α] (n : Nat) (body : α → Nat → Res α) (t : Nat → α) (s : α)
    (h : ∀ k < n, ∀ s, body s k = .ok (s + t k)) :
    (List.range n).foldlM body s = .ok ((List.range n).foldl (fun s k => s + t k) s) :=
  foldlM_range_pure n body (fun s k => s + t k) s h

theorem mulEntry_eq [Zero α] [Add α] [Mul α] {K : Nat} {A B : MExpr α} {f g : Nat → Nat → Nat → α}
    (hA : A.Shows X K Z f) (hB : B.Shows K Y Z g) {i j l : Nat} (hi : i < X) (hj : j < Y) (hl : l < Z) :
    mulEntry A B (dimN i j l) = .ok (sumTo K (fun k => f i k l * g k j l)) := by
  have hK := hA.good.bounds.2.2.1
  unfold mulEntry
  have e : u64 A.dim.y = K := by rw [hA.dim]; exact u64_nat (by omega)
  rw [e]
  refine foldlM_sum K _ (fun k => f i k l * g k j l) 0 ?_
  intro k hk s
  have a := hA.entry i hi k hk l hl
  have b := hB.entry k hk j hj l hl
  simp only at a b ⊢
  rw [a, b]; rfl

theorem matMulP_shows [Zero α] [Add α] [Mul α] {K : Nat} (p q : Pass) (hp : p ≠ .movedEarly) (hq : q ≠ .movedEarly)
    {A B : MExpr α} {f g : Nat → Nat → Nat → α} (hA : A.Shows X K Z f) (hB : B.Shows K Y Z g)
    (good : Good X Y Z) :
    ∃ E, matMulP p q A B = .ok E ∧ E.Shows X Y Z (fun i j l => sumTo K (fun k => f i k l * g k j l)) := by
  have ep : p.dim A.dim = A.dim := by cases p <;> simp_all [Pass.dim]
  have eq : q.dim B.dim = B.dim := by cases q <;> simp_all [Pass.dim]
  refine ⟨_, by simp only [matMulP, ep, eq]; rw [if_neg (by simp [hA.dim, hB.dim])], ?_⟩
  refine Shows.lazy good (by simp [hA.dim, hB.dim]) ?_
  intro i hi j hj l hl
  exact mulEntry_eq hA hB hi hj hl

theorem matMul_shows [Zero α] [Add α] [Mul α] {K : Nat} {A B : MExpr α} {f g : Nat → Nat → Nat → α}
    (hA : A.Shows X K Z f) (hB : B.Shows K Y Z g) (good : Good X Y Z) :
    ∃ E, matMul A B = .ok E ∧ E.Shows X Y Z (fun i j l => sumTo K (fun k => f i k l * g k j l)) :=
  matMulP_shows .kept .kept (by decide) (by decide) hA hB good

theorem matMulP_mismatch [Zero α] [Add α] [Mul α] (p q : Pass) {A B : MExpr α}
    (h : A.dim.z ≠ B.dim.z ∨ A.dim.y ≠ B.dim.x) : matMulP p q A B = .throw .matrixSize := by
  rw [matMulP, if_pos (by simpa using h)]

theorem convEntry_eq [Zero α] [Add α] [Mul α] {A B : MExpr α} {a b : Nat} {f g : Nat → Nat → Nat → α}
    (hA : A.Shows X Y 1 f) (hB : B.Shows a b 1 g) (sx sy : Nat) {i j : Nat} (hi : i * sx + a ≤ X) (hj : j * sy + b ≤ Y) :
    convEntry A B ⟨sx, sy⟩ (dimN i j 0) =
      .ok (sumTo2 a b (fun x y => f (i * sx + x) (j * sy + y) 0 * g x y 0)) := by
  have ha := hB.good.bounds
  unfold convEntry
  have e1 : u32 B.dim.x = a := by rw [hB.dim]; exact u32_nat (by omega)
  have e2 : u32 B.dim.y = b := by rw [hB.dim]; exact u32_nat (by omega)
  rw [e1, e2]
  refine foldlM_range_pure a _
    (fun s x => (List.range b).foldl (fun s y => s + f (i * sx + x) (j * sy + y) 0 * g x y 0) s) 0 ?_
  intro x hx s
  refine foldlM_sum b _ (fun y => f (i * sx + x) (j * sy + y) 0 * g x y 0) s ?_
  intro y hy s
  have p := hA.entry (i * sx + x) (by omega) (j * sy + y) (by omega) 0 (by omega)
  have q := hB.entry x hx y hy 0 (by omega)
  have e : ((⟨(x : Int), (y : Int), 0⟩ : Dim3) + ⟨(dimN i j 0).x * ((⟨(sx : Int), (sy : Int)⟩ : Dim2).x),
      (dimN i j 0).y * ((⟨(sx : Int), (sy : Int)⟩ : Dim2).y), 0⟩) = dimN (i * sx + x) (j * sy + y) 0 := by
    simp only [Dim3.add_mk, Dim3.mk.injEq]; push_cast; refine ⟨by ring, by ring, trivial⟩
  rw [e, p]
  have e' : (⟨(x : Int), (y : Int), 0⟩ : Dim3) = dimN x y 0 := rfl
  rw [e', q]; rfl

theorem convolve_shows [Zero α] [Add α] [Mul α] {A B : MExpr α} {a b : Nat} {f g : Nat → Nat → Nat → α}
    (hA : A.Shows X Y 1 f) (hB : B.Shows a b 1 g) (ha : a ≤ X) (hb : b ≤ Y) :
    ∃ E, convolve A B ⟨1, 1⟩ = .ok E ∧
      E.Shows (X - a + 1) (Y - b + 1) 1 (fun i j _ => sumTo2 a b (fun x y => f (i + x) (j + y) 0 * g x y 0)) := by
  have hg := hA.good
  have hb' := hB.good
  refine ⟨_, by simp [convolve, Matrix.isFlatD, hA.dim, hB.dim]; rfl, ?_⟩
  refine Shows.lazy ⟨by omega, by omega, by omega, ?_⟩ (by simp; omega) ?_
  · refine lt_of_le_of_lt ?_ hg.small
    have := hb'.x; have := hb'.y
    exact Nat.mul_le_mul (Nat.mul_le_mul (by omega) (by omega)) (le_refl _)
  · intro i hi j hj k hk
    have hk0 : k = 0 := by omega
    subst hk0
    have := convEntry_eq hA hB 1 1 (i := i) (j := j) (by omega) (by omega)
    simpa using this

theorem sum_eq_sumTo [Zero α] [Add α] {A : MExpr α} {f : Nat → Nat → Nat → α} (hA : A.Shows X Y Z f) :
    A.sum = .ok (sumTo (X * Y * Z) (fun n => f (n % X) (n / X % Y) (n / X / Y))) := by
  unfold sum
  rw [hA.dim, forRange_eq_fold _ (Matrix.dimN_z_nonneg X Y Z), fuel_dimN hA.good.x hA.good.y]
  refine foldlM_sum _ _ (fun n => f (n % X) (n / X % Y) (n / X / Y)) 0 ?_
  intro n hn s
  rw [hA.deref_flat hn]; rfl

theorem sum_eq_total [AddCommMonoid α] {A : MExpr α} {f : Nat → Nat → Nat → α} (hA : A.Shows X Y Z f) :
    A.sum = .ok (total X Y Z f) := by
  rw [sum_eq_sumTo hA, sumTo_eq, sum_flat]

theorem sizeD_dimN (g : Good X Y Z) : Matrix.sizeD (dimN X Y Z) = .ok (X * Y * Z) := by
  have := g.small
  simp only [Matrix.sizeD, volume_dimN g.bounds.1 g.small, Res.bind_ok]
  congr 1
  omega

theorem foldlM_range'_inv {σ : Type} (P : Nat → σ → Prop) (n0 N : Nat) (body : σ → Nat → Res σ) (s : σ)
    (h0 : P n0 s) (hs : ∀ n, n0 ≤ n → n < n0 + N → ∀ s, P n s → ∃ s', body s n = .ok s' ∧ P (n + 1) s') :
    ∃ s', (List.range' n0 N).foldlM body s = .ok s' ∧ P (n0 + N) s' := by
  induction N generalizing n0 s with
  | zero => exact ⟨s, by simp, h0⟩
  | succ N ih =>
    obtain ⟨s1, e1, p1⟩ := hs n0 (le_refl _) (by omega) s h0
    obtain ⟨s2, e2, p2⟩ := ih (n0 + 1) s1 p1 (fun n h1 h2 s hP => hs n (by omega) (by omega) s hP)
    refine ⟨s2, ?_, ?_⟩
    · rw [List.range'_succ, List.foldlM_cons, e1]; exact e2
    · rw [show n0 + (N + 1) = n0 + 1 + N by omega]; exact p2

/-- `better` is a strict weak order (what `operator<` is on numbers without NaN). -/
structure WeakOrd (r : α → α → Bool) : Prop where
  irrefl : ∀ a, r a a = false
  trans : ∀ a b c, r a b = true → r b c = true → r a c = true
  neg : ∀ a b c, r a b = false → r a c = true → r b c = true

/-- `better` is a strict weak order among the elements that satisfy `S` (the numbers that are not NaN). -/
structure WeakOn (r : α → α → Bool) (S : α → Prop) : Prop where
  irrefl : ∀ a, S a → r a a = false
  trans : ∀ a b c, S a → S b → S c → r a b = true → r b c = true → r a c = true
  neg : ∀ a b c, S a → S b → S c → r a b = false → r a c = true → r b c = true

theorem WeakOrd.on {r : α → α → Bool} (h : WeakOrd r) (S : α → Prop) : WeakOn r S :=
  ⟨fun a _ => h.irrefl a, fun a b c _ _ _ => h.trans a b c, fun a b c _ _ _ => h.neg a b c⟩

/-- The element found by `max_element`/`min_element`: the first one that no other beats. -/
theorem bestElem_spec (r : α → α → Bool) {S : α → Prop} (hr : WeakOn r S) {A : MExpr α} {f : Nat → Nat → Nat → α}
    (hA : A.Shows X Y Z f) (hS : ∀ i < X, ∀ j < Y, ∀ k < Z, S (f i j k)) :
    ∃ n < X * Y * Z, bestElem r A = .ok (iterAt (dimN X Y Z) n) ∧
      (∀ m < X * Y * Z, r (f (n % X) (n / X % Y) (n / X / Y)) (f (m % X) (m / X % Y) (m / X / Y)) = false) ∧
      (∀ m < n, r (f (m % X) (m / X % Y) (m / X / Y)) (f (n % X) (n / X % Y) (n / X / Y)) = true) := by
  have g := hA.good
  have hpos : 0 < X * Y * Z := Nat.mul_pos (Nat.mul_pos g.x g.y) g.z
  have hf : Iter.fuel (dimN X Y Z) = X * Y * Z := fuel_dimN g.x g.y
  have hz := Matrix.dimN_z_nonneg X Y Z
  unfold bestElem
  rw [hA.dim]
  have hne : ¬ (Iter.beg (dimN X Y Z)).same (Iter.fin (dimN X Y Z)) = true := by
    rw [← iterAt_zero, same_fin _ hz (by omega)]; omega
  rw [if_neg hne, ← iterAt_zero, iterAt_next, loop_eq_fold _ hz _ ⟨rfl, rfl⟩ _ _ (0 + 1) (by omega)]
  generalize hF : (fun n : Nat => f (n % X) (n / X % Y) (n / X / Y)) = F
  have hF' : ∀ n, f (n % X) (n / X % Y) (n / X / Y) = F n := fun n => by rw [← hF]
  have hSF : ∀ n < X * Y * Z, S (F n) := by
    intro n hn
    rw [← hF']
    obtain ⟨a, b, c⟩ := unflat_lt g.x g.y hn
    exact hS _ a _ b _ c
  obtain ⟨it, e, n, hn, rfl, h1, h2⟩ := foldlM_range'_inv
    (fun k it => ∃ m < k, it = iterAt (dimN X Y Z) m ∧ (∀ m' < k, r (F m) (F m') = false) ∧
      (∀ m' < m, r (F m') (F m) = true)) 1 (X * Y * Z - 1)
    (fun (result : Iter) m => do
      let a ← A.deref result
      let b ← A.deref (iterAt (dimN X Y Z) m)
      .ok (if r a b then iterAt (dimN X Y Z) m else result)) (iterAt (dimN X Y Z) 0)
    ⟨0, by omega, rfl, by intro m' hm'; rw [show m' = 0 by omega]; exact hr.irrefl _ (hSF 0 hpos), by intro m' hm'; omega⟩
    (by
      rintro k h1k hk it ⟨m, hm, rfl, ha, hb⟩
      rw [hA.deref_flat (n := m) (by omega), hA.deref_flat (n := k) (by omega), hF', hF']
      by_cases c : r (F m) (F k) = true
      · refine ⟨iterAt (dimN X Y Z) k, by simp [c], k, by omega, rfl, ?_, ?_⟩
        · intro m' hm'
          by_cases e : m' = k
          · subst e; exact hr.irrefl _ (hSF _ (by omega))
          · by_contra h
            have := hr.trans _ _ _ (hSF m (by omega)) (hSF k (by omega)) (hSF m' (by omega)) c (by simpa using h)
            rw [ha m' (by omega)] at this; cases this
        · intro m' hm'
          exact hr.neg _ _ _ (hSF m (by omega)) (hSF m' (by omega)) (hSF k (by omega)) (ha m' (by omega)) c
      · refine ⟨iterAt (dimN X Y Z) m, by simp [c], m, by omega, rfl, ?_, hb⟩
        intro m' hm'
        by_cases e : m' = k
        · subst e; simpa using c
        · exact ha m' (by omega))
  have e1 : 1 + (X * Y * Z - 1) = X * Y * Z := by omega
  rw [e1] at hn h1
  refine ⟨n, hn, ?_, ?_, ?_⟩
  · rw [hf]; exact e
  · intro m hm; rw [hF', hF']; exact h1 m hm
  · intro m hm; rw [hF', hF']; exact h2 m hm

/-- Whatever the comparison (NaN included) the element found is inside the matrix. -/
theorem bestElem_inside (r : α → α → Bool) {A : MExpr α} {f : Nat → Nat → Nat → α} (hA : A.Shows X Y Z f) :
    ∃ n < X * Y * Z, bestElem r A = .ok (iterAt (dimN X Y Z) n) := by
  have g := hA.good
  have hpos : 0 < X * Y * Z := Nat.mul_pos (Nat.mul_pos g.x g.y) g.z
  have hf : Iter.fuel (dimN X Y Z) = X * Y * Z := fuel_dimN g.x g.y
  have hz := Matrix.dimN_z_nonneg X Y Z
  unfold bestElem
  rw [hA.dim]
  have hne : ¬ (Iter.beg (dimN X Y Z)).same (Iter.fin (dimN X Y Z)) = true := by
    rw [← iterAt_zero, same_fin _ hz (by omega)]; omega
  rw [if_neg hne, ← iterAt_zero, iterAt_next, loop_eq_fold _ hz _ ⟨rfl, rfl⟩ _ _ (0 + 1) (by omega), hf]
  obtain ⟨it, e, n, hn, rfl⟩ := foldlM_range'_inv
    (fun k it => ∃ m < k, it = iterAt (dimN X Y Z) m) 1 (X * Y * Z - 1)
    (fun (result : Iter) m => do
      let a ← A.deref result
      let b ← A.deref (iterAt (dimN X Y Z) m)
      .ok (if r a b then iterAt (dimN X Y Z) m else result)) (iterAt (dimN X Y Z) 0)
    ⟨0, by omega, rfl⟩
    (by
      rintro k h1k hk it ⟨m, hm, rfl⟩
      rw [hA.deref_flat (n := m) (by omega), hA.deref_flat (n := k) (by omega)]
      by_cases c : r (f (m % X) (m / X % Y) (m / X / Y)) (f (k % X) (k / X % Y) (k / X / Y)) = true
      · exact ⟨iterAt (dimN X Y Z) k, by simp [c], k, by omega, rfl⟩
      · exact ⟨iterAt (dimN X Y Z) m, by simp [c], m, by omega, rfl⟩)
  exact ⟨n, by omega, e⟩

theorem iterAt_diff {n : Nat} (hX : 0 < X) (hY : 0 < Y) :
    (iterAt (dimN X Y Z) n).diff (Iter.beg (dimN X Y Z)) = n := by
  have e := fl_unflat X Y n
  rw [iterAt_dimN hX hY]
  simp only [Iter.diff, Iter.beg, Iter.mk', unflat, Dim3.sub_mk, sub_zero]
  unfold fl at e
  calc ((n / X / Y : Nat) : Int) * X * Y + ((n / X % Y : Nat) : Int) * X + ((n % X : Nat) : Int)
      = ((n % X + n / X % Y * X + n / X / Y * (X * Y) : Nat) : Int) := by push_cast; ring
    _ = n := by rw [e]

end MExpr
end Cnn
