import Verif.Lemmas.ElementWise
import Verif.Lemmas.View
/-!
# C11 – C13: element-wise expressions and assignment
-/
namespace Cnn
variable {ι α β γ : Type}

/-! ## C11 -/

/-- C11: an element-wise expression of any nesting over operands of one shape has that shape, and every entry is
obtained by applying the operators to the operands' entries at that index – through `operator()` as well as
through iterators. -/
theorem C11_nested {X Y Z : Nat} (env : ι → MExpr α) (f : ι → Nat → Nat → Nat → α) (e : EW ι α)
    (h : ∀ i ∈ e.leaves, (env i).Shows X Y Z (f i)) :
    ∃ E, e.build env = .ok E ∧ E.Shows X Y Z (fun i j k => e.value f i j k) :=
  EW.build_shows env f e h

/-- C11: two operands of different dimensions anywhere in the expression make it throw. -/
theorem C11_mismatch (env : ι → MExpr α) (e : EW ι α) (i j : ι) (hi : i ∈ e.leaves) (hj : j ∈ e.leaves)
    (h : (env i).dim ≠ (env j).dim) : e.build env = .throw .matrixSize := by
  rcases EW.build_or env e with ⟨E, _, hE⟩ | he
  · exact absurd ((hE i hi).trans (hE j hj).symm) h
  · exact he

/-- C11, mixed entry types: one binary operator whose operands and result may have three different entry types
(comparisons, `int` with `double`, …). -/
theorem C11_mixed {X Y Z : Nat} (op : α → β → γ) (A : MExpr α) (B : MExpr β) (f : Nat → Nat → Nat → α)
    (g : Nat → Nat → Nat → β) (hA : A.Shows X Y Z f) (hB : B.Shows X Y Z g) :
    ∃ E, MExpr.bin op A B = .ok E ∧ E.Shows X Y Z (fun i j k => op (f i j k) (g i j k)) :=
  MExpr.bin_shows op hA hB

/-- C11: storing an element-wise expression in a fresh matrix, with conversion of the entries. -/
theorem C11_store [Zero β] {X Y Z : Nat} (env : ι → MExpr α) (f : ι → Nat → Nat → Nat → α) (e : EW ι α)
    (h : ∀ i ∈ e.leaves, (env i).Shows X Y Z (f i)) (cast : α → β) :
    ∃ M, (do let E ← e.build env; Matrix.ofExpr cast E) = .ok M ∧
      M.Shows X Y Z (fun i j k => cast (e.value f i j k)) := by
  obtain ⟨E, eE, sE⟩ := EW.build_shows env f e h
  obtain ⟨M, eM, sM⟩ := Matrix.ofExpr_shows sE cast
  exact ⟨M, by simp [eE, eM], sM⟩

/-- C11: compound assignment `M op= E` (E not reading M). -/
theorem C11_opAssign (op : α → β → α) {X Y Z : Nat} (M : Matrix α) (f : Nat → Nat → Nat → α) (hM : M.Shows X Y Z f)
    (E : MExpr β) (g : Nat → Nat → Nat → β) (hE : E.Shows X Y Z g) :
    ∃ M', M.opAssign op E.dim (fun _ => E.get) = .ok M' ∧ M'.Shows X Y Z (fun i j k => op (f i j k) (g i j k)) := by
  rw [hE.dim]
  exact Matrix.opAssign_shows op hM _ (fun i hi j hj k hk _ _ => hE.entry i hi j hj k hk)

/-- C11: compound assignment with unequal dimensions throws before reading or writing anything. -/
theorem C11_opAssign_mismatch (op : α → β → α) (M : Matrix α) (d : Dim3) (h : M.dim ≠ d)
    (get : Matrix α → Dim3 → Res β) : M.opAssign op d get = .throw .matrixSize :=
  Matrix.opAssign_mismatch op h get

/-- C11: compound assignment with a scalar, and `modify`. -/
theorem C11_opScalar (op : α → β → α) {X Y Z : Nat} (M : Matrix α) (f : Nat → Nat → Nat → α) (hM : M.Shows X Y Z f)
    (s : β) : ∃ M', M.opScalar op (fun _ => .ok s) = .ok M' ∧ M'.Shows X Y Z (fun i j k => op (f i j k) s) :=
  Matrix.opScalar_shows op hM s

theorem C11_modify (op : α → α) {X Y Z : Nat} (M : Matrix α) (f : Nat → Nat → Nat → α) (hM : M.Shows X Y Z f) :
    ∃ M', M.modify op = .ok M' ∧ M'.Shows X Y Z (fun i j k => op (f i j k)) :=
  Matrix.modify_shows op hM

/-- A concrete nested expression `(A + B) * 3` over 1×2×1 matrices. -/
example : (do
    let E ← (EW.scal (· * 3) (EW.bin (· + ·) (EW.leaf true) (EW.leaf false)) : EW Bool Int).build
      (fun (b : Bool) => if b then (⟨dimN 1 2 1, [1, 2]⟩ : Matrix Int).expr else (⟨dimN 1 2 1, [10, 20]⟩ : Matrix Int).expr)
    Matrix.ofExpr id E) = .ok ⟨dimN 1 2 1, [33, 66]⟩ := by decide

/-! ## C12 -/

/-- C12: `A = E` for an element-wise expression over `A` itself and other matrices gives the value `E` had before
the assignment. -/
theorem C12_assign [Zero α] {X Y Z : Nat} (M : Matrix α) (f : Nat → Nat → Nat → α) (hM : M.Shows X Y Z f)
    (others : ι → MExpr α) (g : ι → Nat → Nat → Nat → α) (ho : ∀ i, (others i).Shows X Y Z (g i))
    (e : EW (Option ι) α) :
    ∃ M', M.assignExpr (dimN X Y Z)
        (fun cur it => do let E ← e.build (EW.envWith others cur.expr); E.deref it) = .ok M' ∧
      M'.Shows X Y Z (fun i j k => e.value (EW.valWith g f) i j k) := by
  refine Matrix.assignExpr_shows' hM.good hM _ ?_
  intro i hi j hj k hk M' hM'
  obtain ⟨E, eE, sE⟩ := EW.build_shows (EW.envWith others M'.expr)
    (EW.valWith g (fun i' j' k' => if fl X Y i' j' k' < fl X Y i j k then e.value (EW.valWith g f) i' j' k'
      else f i' j' k')) e (by
      intro l _
      cases l with
      | none => exact hM'.expr
      | some l => exact ho l)
  have := sE.deref i hi j hj k hk
  simp only [eE, Res.bind_ok, fl] at *
  rw [this]
  congr 1
  apply EW.value_congr
  intro l
  cases l with
  | none => simp [EW.valWith]
  | some l => rfl

/-- C12: `A op= E` for an element-wise expression over `A` itself and other matrices. -/
theorem C12_opAssign {X Y Z : Nat} (op : α → α → α) (M : Matrix α) (f : Nat → Nat → Nat → α) (hM : M.Shows X Y Z f)
    (others : ι → MExpr α) (g : ι → Nat → Nat → Nat → α) (ho : ∀ i, (others i).Shows X Y Z (g i))
    (e : EW (Option ι) α) :
    ∃ M', M.opAssign op (dimN X Y Z)
        (fun cur idx => do let E ← e.build (EW.envWith others cur.expr); E.get idx) = .ok M' ∧
      M'.Shows X Y Z (fun i j k => op (f i j k) (e.value (EW.valWith g f) i j k)) := by
  refine Matrix.opAssign_shows op hM _ (g := fun i j k => e.value (EW.valWith g f) i j k) ?_
  intro i hi j hj k hk M' hM'
  obtain ⟨E, eE, sE⟩ := EW.build_shows (EW.envWith others M'.expr)
    (EW.valWith g (fun i' j' k' => if fl X Y i' j' k' < fl X Y i j k then
      op (f i' j' k') (e.value (EW.valWith g f) i' j' k') else f i' j' k')) e (by
      intro l _
      cases l with
      | none => exact hM'.expr
      | some l => exact ho l)
  have := sE.entry i hi j hj k hk
  simp only [eE, Res.bind_ok]
  rw [this]
  congr 1
  apply EW.value_congr
  intro l
  cases l with
  | none => simp [EW.valWith]
  | some l => rfl

/-- C12: `view op= E` for an element-wise expression over the same view and other operands. -/
theorem C12_view_opAssign (op : α → α → α) {M : Matrix α} {X Y Z : Nat} {f : Nat → Nat → Nat → α}
    (hM : M.Shows X Y Z f) {sx sy sz wx wy wz : Nat} (hb : Box X Y Z sx sy sz wx wy wz)
    (hx : 0 < wx) (hy : 0 < wy) (hz : 0 < wz)
    (others : ι → MExpr α) (g : ι → Nat → Nat → Nat → α) (ho : ∀ i, (others i).Shows wx wy wz (g i))
    (e : EW (Option ι) α) :
    ∃ M', (⟨dimN sx sy sz, dimN wx wy wz⟩ : View).opAssign op M (dimN wx wy wz)
        (fun cur idx => do
          let E ← e.build (EW.envWith others ((⟨dimN sx sy sz, dimN wx wy wz⟩ : View).expr cur))
          E.get idx) = .ok M' ∧
      M'.Shows X Y Z (fun i j k => if inBox sx sy sz wx wy wz i j k then
        op (f i j k) (e.value (EW.valWith g (fun i j k => f (sx + i) (sy + j) (sz + k))) (i - sx) (j - sy) (k - sz))
        else f i j k) := by
  refine View.opAssign_shows op hM hb hx hy _
    (fun i j k => e.value (EW.valWith g (fun i j k => f (sx + i) (sy + j) (sz + k))) i j k) ?_
  intro i hi j hj k hk M' hM'
  obtain ⟨E, eE, sE⟩ := EW.build_shows
    (EW.envWith others ((⟨dimN sx sy sz, dimN wx wy wz⟩ : View).expr M'))
    (EW.valWith g (fun i' j' k' => View.part f (fun i j k => op (f (sx + i) (sy + j) (sz + k))
      (e.value (EW.valWith g (fun i j k => f (sx + i) (sy + j) (sz + k))) i j k)) sx sy sz wx wy wz
        (fl wx wy i j k) (sx + i') (sy + j') (sz + k'))) e (by
      intro l _
      cases l with
      | none => exact View.expr_shows hM' hb hx hy hz
      | some l => exact ho l)
  have := sE.entry i hi j hj k hk
  simp only [eE, Res.bind_ok]
  rw [this]
  congr 1
  apply EW.value_congr
  intro l
  cases l with
  | none => simp only [EW.valWith]; exact View.part_self
  | some l => rfl

/-- `A = A + A` on a 2×1×1 matrix. -/
example : (⟨dimN 2 1 1, [1, 2]⟩ : Matrix Int).assignExpr (dimN 2 1 1)
    (fun cur it => do
      let E ← (EW.bin (· + ·) (EW.leaf none) (EW.leaf none) : EW (Option Empty) Int).build
        (EW.envWith (fun e => e.elim) cur.expr)
      E.deref it) = .ok ⟨dimN 2 1 1, [2, 4]⟩ := by decide

/-! ## C13 -/

/-- The full claim C13 for `A = transpose(A)`. -/
def C13_transpose_claim : Prop := ∀ (M : Matrix Int) (X : Nat) (f : Nat → Nat → Nat → Int), M.Shows X X 1 f →
  ∃ M', M.assignExpr (dimN X X 1) (fun cur it => cur.expr.transpose.deref it) = .ok M' ∧
    M'.Shows X X 1 (fun i j k => f j i k)

/-- The full claim C13 for copying between two overlapping views of one matrix. -/
def C13_overlap_claim : Prop := ∀ (M : Matrix Int) (X Y Z : Nat) (f : Nat → Nat → Nat → Int), M.Shows X Y Z f →
  ∀ sx sy sz tx ty tz wx wy wz : Nat, 0 < wx → 0 < wy → 0 < wz →
    Box X Y Z sx sy sz wx wy wz → Box X Y Z tx ty tz wx wy wz →
    ∃ M', (⟨dimN sx sy sz, dimN wx wy wz⟩ : View).assign M (dimN wx wy wz) (Iter.finView (dimN wx wy wz))
        (fun cur it => ((⟨dimN tx ty tz, dimN wx wy wz⟩ : View).expr cur).deref it) = .ok M' ∧
      M'.Shows X Y Z (fun i j k => if inBox sx sy sz wx wy wz i j k then
        f (tx + (i - sx)) (ty + (j - sy)) (tz + (k - sz)) else f i j k)

/-- The full claim C13 for `A -= A(0,0,0)` (the scalar is taken by reference, MatrixMath.h:68). -/
def C13_scalar_claim : Prop := ∀ (M : Matrix Int) (X Y Z : Nat) (f : Nat → Nat → Nat → Int), M.Shows X Y Z f →
  ∃ M', M.opScalar (· - ·) (fun cur => cur.read (dimN 0 0 0)) = .ok M' ∧
    M'.Shows X Y Z (fun i j k => f i j k - f 0 0 0)

theorem C13_transpose_violated : ¬ C13_transpose_claim := by
  intro h
  have hM : (⟨dimN 2 2 1, [1, 2, 3, 4]⟩ : Matrix Int).Shows 2 2 1 (fun i j _ => 1 + i + 2 * j) :=
    Matrix.Shows.of_vals ⟨by decide, by decide, by decide, by decide⟩ rfl (by decide)
  obtain ⟨M', e, s⟩ := h _ 2 _ hM
  have e2 : M' = ⟨dimN 2 2 1, [1, 3, 3, 4]⟩ := by
    have : (⟨dimN 2 2 1, [1, 2, 3, 4]⟩ : Matrix Int).assignExpr (dimN 2 2 1)
      (fun cur it => cur.expr.transpose.deref it) = .ok ⟨dimN 2 2 1, [1, 3, 3, 4]⟩ := by decide
    rw [this] at e
    injection e with e; exact e.symm
  have := s.entry 0 (by decide) 1 (by decide) 0 (by decide)
  rw [e2] at this
  exact absurd this (by decide)

theorem C13_overlap_violated : ¬ C13_overlap_claim := by
  intro h
  have hM : (⟨dimN 3 1 1, [1, 2, 3]⟩ : Matrix Int).Shows 3 1 1 (fun i _ _ => 1 + i) :=
    Matrix.Shows.of_vals ⟨by decide, by decide, by decide, by decide⟩ rfl (by decide)
  obtain ⟨M', e, s⟩ := h _ 3 1 1 _ hM 1 0 0 0 0 0 2 1 1 (by decide) (by decide) (by decide)
    ⟨by decide, by decide, by decide⟩ ⟨by decide, by decide, by decide⟩
  have e2 : M' = ⟨dimN 3 1 1, [1, 1, 1]⟩ := by
    have : (⟨dimN 1 0 0, dimN 2 1 1⟩ : View).assign (⟨dimN 3 1 1, [1, 2, 3]⟩ : Matrix Int) (dimN 2 1 1)
        (Iter.finView (dimN 2 1 1)) (fun cur it => ((⟨dimN 0 0 0, dimN 2 1 1⟩ : View).expr cur).deref it) =
        .ok ⟨dimN 3 1 1, [1, 1, 1]⟩ := by decide
    rw [this] at e
    injection e with e; exact e.symm
  have := s.entry 2 (by decide) 0 (by decide) 0 (by decide)
  rw [e2] at this
  exact absurd this (by decide)

theorem C13_scalar_violated : ¬ C13_scalar_claim := by
  intro h
  have hM : (⟨dimN 2 1 1, [5, 7]⟩ : Matrix Int).Shows 2 1 1 (fun i _ _ => 5 + 2 * i) :=
    Matrix.Shows.of_vals ⟨by decide, by decide, by decide, by decide⟩ rfl (by decide)
  obtain ⟨M', e, s⟩ := h _ 2 1 1 _ hM
  have e2 : M' = ⟨dimN 2 1 1, [0, 7]⟩ := by
    have : (⟨dimN 2 1 1, [5, 7]⟩ : Matrix Int).opScalar (· - ·) (fun cur => cur.read (dimN 0 0 0)) =
        .ok ⟨dimN 2 1 1, [0, 7]⟩ := by decide
    rw [this] at e
    injection e with e; exact e.symm
  have := s.entry 1 (by decide) 0 (by decide) 0 (by decide)
  rw [e2] at this
  exact absurd this (by decide)

/-- C13 as far as it holds: `A = E` for an expression that does not read `A` (any kind of expression), whatever the
previous dimensions of `A`. Expressions that read `A` only at the index being written are `C12_assign`. Missing:
expressions reading `A` at other indices (violated above). -/
theorem C13_assign_partial [Zero α] {X Y Z : Nat} (E : MExpr α) (f : Nat → Nat → Nat → α) (hE : E.Shows X Y Z f)
    (M : Matrix α) : ∃ M', M.assignExpr E.dim (fun _ => E.deref) = .ok M' ∧ M'.Shows X Y Z f :=
  Matrix.assignExpr_shows hE M

end Cnn
