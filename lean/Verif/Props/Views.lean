import Verif.Lemmas.View
import Verif.Lemmas.Fill
/-!
# C07 – C10: views
-/
namespace Cnn
variable {α β : Type}

/-! ## C07 -/

/-- `start + size` stays in `int` range in every axis (otherwise the C++ addition itself is undefined). -/
def NoOverflow (s d : Dim3) : Prop := I32 (s.x + d.x) ∧ I32 (s.y + d.y) ∧ I32 (s.z + d.z)

/-- The box fits into the parent (upper ends only). -/
def Fits (s d parent : Dim3) : Prop := s.x + d.x ≤ parent.x ∧ s.y + d.y ≤ parent.y ∧ s.z + d.z ≤ parent.z

theorem exceeds_iff (s d p : Dim3) : View.exceeds (s + d) p = false ↔ Fits s d p := by
  simp [View.exceeds, Fits, and_assoc]

theorem endOf_ok {s d : Dim3} (h : NoOverflow s d) : View.endOf s d = .ok (s + d) := by
  simp only [View.endOf, chk_ok h.1, chk_ok h.2.1, chk_ok h.2.2, Res.bind_ok]
  rfl

/-- C07: a view is created exactly when the box fits, otherwise `MatrixSizeException` is thrown. -/
theorem C07_create (parent s d : Dim3) (h : NoOverflow s d) :
    (Fits s d parent → View.create parent s d = .ok ⟨s, d⟩) ∧
    (¬ Fits s d parent → View.create parent s d = .throw .matrixSize) := by
  simp only [View.create, endOf_ok h, Res.bind_ok, ← exceeds_iff]
  constructor
  · intro e; rw [e]; rfl
  · intro e
    rw [Bool.not_eq_false] at e
    rw [e]; rfl

/-- C07: a view of a view is accepted exactly when it fits in the outer view (and, with the offsets added, in the
matrix); its offset is the sum of the offsets. -/
theorem C07_nested (parent : Dim3) (v : View) (s d : Dim3) (h : NoOverflow s d) (h₀ : NoOverflow v.start s)
    (h' : NoOverflow (v.start + s) d) :
    (Fits s d v.dim ∧ Fits (v.start + s) d parent → View.sub parent v s d = .ok ⟨v.start + s, d⟩) ∧
    (¬ (Fits s d v.dim ∧ Fits (v.start + s) d parent) → View.sub parent v s d = .throw .matrixSize) := by
  simp only [View.sub, endOf_ok h, endOf_ok h₀, Res.bind_ok]
  by_cases c : Fits (v.start + s) d parent
  · simp only [(C07_create parent (v.start + s) d h').1 c, Res.bind_ok, c, and_true, ← exceeds_iff]
    constructor
    · intro e; rw [e]; rfl
    · intro e
      rw [Bool.not_eq_false] at e
      rw [e]; rfl
  · simp [(C07_create parent (v.start + s) d h').2 c, c]

/-- C07: if the outer view itself fits in the matrix, then fitting in the outer view is the only condition. -/
theorem C07_nested_inside (parent : Dim3) (v : View) (s d : Dim3) (hv : Fits v.start v.dim parent)
    (h : Fits s d v.dim) : Fits (v.start + s) d parent := by
  obtain ⟨a, b, c⟩ := hv
  obtain ⟨e, f, g⟩ := h
  simp only [Fits, Dim3.add_x, Dim3.add_y, Dim3.add_z]
  omega

/-- C07: reading and writing through a view is reading and writing the parent at the shifted index. -/
theorem C07_window (v : View) (M : Matrix α) (i : Dim3) (a : α) :
    v.read M i = M.read (v.start + i) ∧ v.write M i a = M.write (v.start + i) a := ⟨rfl, rfl⟩

/-- C07: every entry of a view with non-negative start that fits is an entry of the parent. -/
theorem C07_entries_inside {M : Matrix α} {X Y Z : Nat} {f : Nat → Nat → Nat → α} (hM : M.Shows X Y Z f)
    {sx sy sz wx wy wz : Nat} (hb : Box X Y Z sx sy sz wx wy wz) (i j k : Nat) (hi : i < wx) (hj : j < wy) (hk : k < wz) :
    View.create M.dim (dimN sx sy sz) (dimN wx wy wz) = .ok ⟨dimN sx sy sz, dimN wx wy wz⟩ ∧
    (⟨dimN sx sy sz, dimN wx wy wz⟩ : View).read M (dimN i j k) = .ok (f (sx + i) (sy + j) (sz + k)) := by
  refine ⟨by rw [hM.dim]; exact View.create_ok hM.good hb, ?_⟩
  exact (View.expr_shows hM hb (by omega) (by omega) (by omega)).entry i hi j hj k hk

/-- C07: `slices(k,n)` is layers `k … k+n-1`, `slice(k)` is layer `k`; of a view likewise. -/
theorem C07_slices {M : Matrix α} {X Y Z : Nat} {f : Nat → Nat → Nat → α} (hM : M.Shows X Y Z f) (k n : Nat) :
    (k + n ≤ Z → ∃ v, View.slices M.dim k n = .ok v ∧ v.dim = dimN X Y n ∧
      ∀ i < X, ∀ j < Y, ∀ l < n, v.read M (dimN i j l) = .ok (f i j (k + l))) ∧
    (Z < k + n → k + n < 2147483648 → View.slices M.dim k n = .throw .matrixSize) := by
  obtain ⟨h0, h1, h2, h3⟩ := hM.good.bounds
  constructor
  · intro h
    have hb : Box X Y Z 0 0 k X Y n := ⟨by omega, by omega, h⟩
    refine ⟨⟨dimN 0 0 k, dimN X Y n⟩, ?_, rfl, ?_⟩
    · simp only [View.slices, hM.dim]
      exact View.create_ok hM.good hb
    · intro i hi j hj l hl
      have := (C07_entries_inside hM hb i j l hi hj hl).2
      simpa using this
  · intro h hlt
    simp only [View.slices, hM.dim]
    refine (C07_create _ _ _ ?_).2 ?_
    · refine ⟨?_, ?_, ?_⟩ <;> unfold I32 <;> simp only <;> omega
    · simp only [Fits]; omega

theorem C07_slice {M : Matrix α} {X Y Z : Nat} {f : Nat → Nat → Nat → α} (hM : M.Shows X Y Z f) (k : Nat) (hk : k < Z) :
    ∃ v, View.slice M.dim k = .ok v ∧ v.dim = dimN X Y 1 ∧
      ∀ i < X, ∀ j < Y, v.read M (dimN i j 0) = .ok (f i j k) := by
  obtain ⟨v, e, d, h⟩ := (C07_slices hM k 1).1 (by omega)
  exact ⟨v, e, d, fun i hi j hj => by simpa using h i hi j hj 0 (by omega)⟩

/-- C07: slices of a view. -/
theorem C07_subSlices {M : Matrix α} {X Y Z : Nat} {f : Nat → Nat → Nat → α} (hM : M.Shows X Y Z f)
    {sx sy sz wx wy wz : Nat} (hb : Box X Y Z sx sy sz wx wy wz) (k n : Nat) (h : k + n ≤ wz) :
    ∃ v, View.subSlices M.dim ⟨dimN sx sy sz, dimN wx wy wz⟩ k n = .ok v ∧ v.dim = dimN wx wy n ∧
      ∀ i < wx, ∀ j < wy, ∀ l < n, v.read M (dimN i j l) = .ok (f (sx + i) (sy + j) (sz + k + l)) := by
  obtain ⟨h0, h1, h2, h3⟩ := hM.good.bounds
  obtain ⟨bx, by', bz⟩ := hb
  have e : dimN sx sy sz + (⟨0, 0, (k : Int)⟩ : Dim3) = dimN sx sy (sz + k) := by simp
  refine ⟨⟨dimN sx sy (sz + k), dimN wx wy n⟩, ?_, rfl, ?_⟩
  · have := (C07_nested M.dim ⟨dimN sx sy sz, dimN wx wy wz⟩ ⟨0, 0, (k : Int)⟩ (dimN wx wy n)
      (by refine ⟨?_, ?_, ?_⟩ <;> unfold I32 <;> simp only <;> omega)
      (by refine ⟨?_, ?_, ?_⟩ <;> unfold I32 <;> simp only <;> omega)
      (by simp only [e]; refine ⟨?_, ?_, ?_⟩ <;> unfold I32 <;> simp only <;> omega)).1
      (by
        simp only [e, hM.dim]
        constructor
        · simp only [Fits]; omega
        · simp only [Fits]; push_cast; omega)
    rw [e] at this
    exact this
  · intro i hi j hj l hl
    have hb : Box X Y Z sx sy (sz + k) wx wy n := ⟨bx, by', by omega⟩
    exact (C07_entries_inside hM hb i j l hi hj hl).2

/-- C07: one slice of a view. -/
theorem C07_subSlice {M : Matrix α} {X Y Z : Nat} {f : Nat → Nat → Nat → α} (hM : M.Shows X Y Z f)
    {sx sy sz wx wy wz : Nat} (hb : Box X Y Z sx sy sz wx wy wz) (k : Nat) (h : k < wz) :
    ∃ v, View.subSlice M.dim ⟨dimN sx sy sz, dimN wx wy wz⟩ k = .ok v ∧ v.dim = dimN wx wy 1 ∧
      ∀ i < wx, ∀ j < wy, v.read M (dimN i j 0) = .ok (f (sx + i) (sy + j) (sz + k)) := by
  obtain ⟨v, e, d, h⟩ := C07_subSlices hM hb k 1 h
  exact ⟨v, e, d, fun i hi j hj => h i hi j hj 0 (by decide)⟩

example : View.subSlice (dimN 4 4 3) ⟨dimN 1 1 1, dimN 2 2 2⟩ 1 = .ok ⟨dimN 1 1 2, dimN 2 2 1⟩ := by decide
example : View.create (dimN 4 4 2) (dimN 1 1 0) (dimN 2 3 2) = .ok ⟨dimN 1 1 0, dimN 2 3 2⟩ := by decide
example : View.create (dimN 4 4 2) (dimN 1 1 0) (dimN 2 4 2) = .throw .matrixSize := by decide
example : View.sub (dimN 9 9 9) ⟨dimN 1 1 1, dimN 2 2 2⟩ (dimN 1 0 0) (dimN 2 1 1) = .throw .matrixSize := by decide

/-! ## C08 -/

/-- The full claim C08: whatever start and size are given, a created view lies inside the parent. -/
def C08_claim : Prop := ∀ (parent s d : Dim3) (v : View), View.create parent s d = .ok v →
  0 ≤ v.start.x ∧ 0 ≤ v.start.y ∧ 0 ≤ v.start.z ∧ Fits v.start v.dim parent

/-- C08 is false: a negative start is accepted … -/
theorem C08_violated : ¬ C08_claim := by
  intro h
  have := h ⟨1, 1, 1⟩ ⟨-1, 0, 0⟩ ⟨1, 1, 1⟩ ⟨⟨-1, 0, 0⟩, ⟨1, 1, 1⟩⟩ (by decide)
  exact absurd this.1 (by decide)

/-- … and reading the resulting view is an out-of-bounds access. -/
theorem C08_violation_reads_outside :
    View.create ⟨1, 1, 1⟩ ⟨-1, 0, 0⟩ ⟨1, 1, 1⟩ = .ok ⟨⟨-1, 0, 0⟩, ⟨1, 1, 1⟩⟩ ∧
    (⟨⟨-1, 0, 0⟩, ⟨1, 1, 1⟩⟩ : View).read (⟨⟨1, 1, 1⟩, [5]⟩ : Matrix Int) ⟨0, 0, 0⟩ = .ub := by decide

/-- C08 for non-negative starts (missing: the lower bound is never checked by the code). -/
theorem C08_create_inside_partial (parent s d : Dim3) (hs : 0 ≤ s.x ∧ 0 ≤ s.y ∧ 0 ≤ s.z) (ho : NoOverflow s d) :
    (∃ v, View.create parent s d = .ok v ∧ v.start = s ∧ v.dim = d ∧
      0 ≤ v.start.x ∧ 0 ≤ v.start.y ∧ 0 ≤ v.start.z ∧ Fits v.start v.dim parent) ∨
    View.create parent s d = .throw .matrixSize := by
  by_cases c : Fits s d parent
  · exact Or.inl ⟨⟨s, d⟩, (C07_create parent s d ho).1 c, rfl, rfl, hs.1, hs.2.1, hs.2.2, c⟩
  · exact Or.inr ((C07_create parent s d ho).2 c)

example : NoOverflow (dimN 1 1 1) (dimN 2 2 2) := by unfold NoOverflow I32; decide

/-! ## C09 -/

section C09
variable {M : Matrix α} {X Y Z : Nat} {f : Nat → Nat → Nat → α} {sx sy sz wx wy wz : Nat}

/-- C09: `view = scalar`. -/
theorem C09_fill (hM : M.Shows X Y Z f) (hb : Box X Y Z sx sy sz wx wy wz) (hx : 0 < wx) (hy : 0 < wy) (a : α) :
    ∃ M', (⟨dimN sx sy sz, dimN wx wy wz⟩ : View).fill M (fun _ => .ok a) = .ok M' ∧
      M'.Shows X Y Z (fun i j k => if inBox sx sy sz wx wy wz i j k then a else f i j k) :=
  View.fill_shows hM hb hx hy a

/-- C09: `view = M2` for a right-hand side `e` (matrix, view of another matrix, or expression) that does not read
the parent; `last` is its end iterator, computed either as for matrices or as for views. -/
theorem C09_assign (hM : M.Shows X Y Z f) (hb : Box X Y Z sx sy sz wx wy wz) (e : MExpr α)
    (g : Nat → Nat → Nat → α) (he : e.Shows wx wy wz g) (last : Iter)
    (hl : last = Iter.fin e.dim ∨ last = Iter.finView e.dim) :
    ∃ M', (⟨dimN sx sy sz, dimN wx wy wz⟩ : View).assign M e.dim last (fun _ => e.deref) = .ok M' ∧
      M'.Shows X Y Z (fun i j k =>
        if inBox sx sy sz wx wy wz i j k then g (i - sx) (j - sy) (k - sz) else f i j k) := by
  rw [he.dim] at *
  refine View.assign_shows hM hb he.good.x he.good.y last ?_ _ g ?_
  · rcases hl with rfl | rfl
    · exact ⟨rfl, rfl⟩
    · exact finView_idx _
  · intro i hi j hj k hk M' _
    exact he.deref i hi j hj k hk

/-- C09: `view op= M2`, `op` any of `+ - * /`. -/
theorem C09_opAssign (op : α → β → α) (hM : M.Shows X Y Z f) (hb : Box X Y Z sx sy sz wx wy wz) (e : MExpr β)
    (g : Nat → Nat → Nat → β) (he : e.Shows wx wy wz g) :
    ∃ M', (⟨dimN sx sy sz, dimN wx wy wz⟩ : View).opAssign op M e.dim (fun _ => e.get) = .ok M' ∧
      M'.Shows X Y Z (fun i j k =>
        if inBox sx sy sz wx wy wz i j k then op (f i j k) (g (i - sx) (j - sy) (k - sz)) else f i j k) := by
  rw [he.dim]
  refine View.opAssign_shows op hM hb he.good.x he.good.y _ g ?_
  intro i hi j hj k hk M' _
  exact he.entry i hi j hj k hk

/-- C09: `view op= scalar`. -/
theorem C09_opScalar (op : α → β → α) (hM : M.Shows X Y Z f) (hb : Box X Y Z sx sy sz wx wy wz) (hx : 0 < wx)
    (hy : 0 < wy) (c : β) :
    ∃ M', (⟨dimN sx sy sz, dimN wx wy wz⟩ : View).opScalar op M (fun _ => .ok c) = .ok M' ∧
      M'.Shows X Y Z (fun i j k => if inBox sx sy sz wx wy wz i j k then op (f i j k) c else f i j k) :=
  View.opScalar_shows op hM hb hx hy c

end C09

/-- C09: a right-hand side of other dimensions is refused before anything is read or written: the outcome is the
exception for every reader, even one whose every read would be undefined. -/
theorem C09_mismatch (v : View) (M : Matrix α) (d : Dim3) (h : v.dim ≠ d) (last : Iter)
    (deref : Matrix α → Iter → Res α) (op : α → β → α) (get : Matrix α → Dim3 → Res β) :
    v.assign M d last deref = .throw .matrixSize ∧ v.opAssign op M d get = .throw .matrixSize := by
  simp [View.assign, View.opAssign, Matrix.checkSize, h]

example : (⟨dimN 1 0 0, dimN 1 2 1⟩ : View).fill (⟨dimN 2 2 1, [1, 2, 3, 4]⟩ : Matrix Int) (fun _ => .ok 9) =
    .ok ⟨dimN 2 2 1, [1, 9, 3, 9]⟩ := by decide
example : Box 2 2 1 1 0 0 1 2 1 := ⟨by decide, by decide, by decide⟩

/-! ## C10 -/

/-- The full claim C10. -/
def C10_claim : Prop := ∀ (v : View) (M : Matrix Int) (i : Dim3),
  ¬ (0 ≤ i.x ∧ i.x < v.dim.x ∧ 0 ≤ i.y ∧ i.y < v.dim.y ∧ 0 ≤ i.z ∧ i.z < v.dim.z) →
    v.readAt M i = .throw .outOfRange

/-- C10 is false: a negative index is not reported; here it returns another entry of the parent. -/
theorem C10_violated : ¬ C10_claim := by
  intro h
  have := h ⟨⟨1, 0, 0⟩, ⟨1, 1, 1⟩⟩ ⟨⟨2, 1, 1⟩, [7, 8]⟩ ⟨-1, 0, 0⟩ (by decide)
  exact absurd this (by decide)

/-- … and with the view at the corner it reads outside the storage. -/
theorem C10_violation_ub :
    (⟨⟨0, 0, 0⟩, ⟨1, 1, 1⟩⟩ : View).readAt (⟨⟨1, 1, 1⟩, [7]⟩ : Matrix Int) ⟨-1, 0, 0⟩ = .ub := by decide

/-- C10 for non-negative indices (missing: negative indices are not checked). -/
theorem C10_at_partial {M : Matrix α} {X Y Z : Nat} {f : Nat → Nat → Nat → α} (hM : M.Shows X Y Z f)
    {sx sy sz wx wy wz : Nat} (hb : Box X Y Z sx sy sz wx wy wz) (i j k : Nat) :
    (i < wx ∧ j < wy ∧ k < wz →
      (⟨dimN sx sy sz, dimN wx wy wz⟩ : View).readAt M (dimN i j k) = .ok (f (sx + i) (sy + j) (sz + k))) ∧
    (¬ (i < wx ∧ j < wy ∧ k < wz) →
      (⟨dimN sx sy sz, dimN wx wy wz⟩ : View).readAt M (dimN i j k) = .throw .outOfRange) := by
  constructor
  · rintro ⟨hi, hj, hk⟩
    have := (C07_entries_inside hM hb i j k hi hj hk).2
    rw [View.readAt, if_neg (by simp; omega), this]
  · intro h
    rw [View.readAt, if_pos (by simp; omega)]

end Cnn
