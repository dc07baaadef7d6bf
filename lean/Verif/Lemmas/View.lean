import Verif.Lemmas.Shows
/-!
Helper lemmas about views.
-/
namespace Cnn
namespace View
variable {α β : Type}

theorem create_ok {X Y Z sx sy sz wx wy wz : Nat} (g : Good X Y Z) (b : Box X Y Z sx sy sz wx wy wz) :
    create (dimN X Y Z) (dimN sx sy sz) (dimN wx wy wz) = .ok ⟨dimN sx sy sz, dimN wx wy wz⟩ := by
  obtain ⟨h0, h1, h2, h3⟩ := g.bounds
  obtain ⟨bx, by', bz⟩ := b
  simp only [create, endOf, dimN]
  rw [chk_ok (by unfold I32; omega), chk_ok (by unfold I32; omega), chk_ok (by unfold I32; omega)]
  simp only [Res.bind_ok]
  rw [if_neg (by simp [exceeds]; omega)]

/-- Entries of an expression made from a view. -/
theorem expr_shows {M : Matrix α} {X Y Z : Nat} {f : Nat → Nat → Nat → α} (hM : M.Shows X Y Z f)
    {sx sy sz wx wy wz : Nat} (b : Box X Y Z sx sy sz wx wy wz) (hx : 0 < wx) (hy : 0 < wy) (hz : 0 < wz) :
    ((⟨dimN sx sy sz, dimN wx wy wz⟩ : View).expr M).Shows wx wy wz
      (fun i j k => f (sx + i) (sy + j) (sz + k)) := by
  obtain ⟨bx, by', bz⟩ := b
  have gw : Good wx wy wz := by
    refine ⟨hx, hy, hz, lt_of_le_of_lt ?_ hM.good.small⟩
    exact Nat.mul_le_mul (Nat.mul_le_mul (by omega) (by omega)) (by omega)
  have key : ∀ i < wx, ∀ j < wy, ∀ k < wz,
      ((⟨dimN sx sy sz, dimN wx wy wz⟩ : View).read M (dimN i j k)) = .ok (f (sx + i) (sy + j) (sz + k)) := by
    intro i hi j hj k hk
    simp only [View.read, dimN_add]
    exact hM.entry _ (by omega) _ (by omega) _ (by omega)
  exact ⟨gw, rfl, key, key⟩

theorem write_shows {M : Matrix α} {X Y Z : Nat} {f : Nat → Nat → Nat → α} (hM : M.Shows X Y Z f)
    {sx sy sz wx wy wz : Nat} (b : Box X Y Z sx sy sz wx wy wz) {i j k : Nat} (hi : i < wx) (hj : j < wy)
    (hk : k < wz) (a : α) :
    ∃ M', (⟨dimN sx sy sz, dimN wx wy wz⟩ : View).write M (dimN i j k) a = .ok M' ∧
      M'.Shows X Y Z (fun i' j' k' => if i' = sx + i ∧ j' = sy + j ∧ k' = sz + k then a else f i' j' k') := by
  obtain ⟨bx, by', bz⟩ := b
  simp only [View.write, dimN_add]
  exact hM.write (by omega) (by omega) (by omega) a

/-- State of the parent after the first `n` entries of the box have been replaced by `g`. -/
def part (f g : Nat → Nat → Nat → α) (sx sy sz wx wy wz n : Nat) : Nat → Nat → Nat → α := fun i j k =>
  if inBox sx sy sz wx wy wz i j k ∧ fl wx wy (i - sx) (j - sy) (k - sz) < n then g (i - sx) (j - sy) (k - sz)
  else f i j k

/-- The loop over a view: entry `n` of the box is replaced by `g n`; the body may look at the current parent. -/
theorem loop_shows {M : Matrix α} {X Y Z : Nat} {f : Nat → Nat → Nat → α} (hM : M.Shows X Y Z f)
    {sx sy sz wx wy wz : Nat} (b : Box X Y Z sx sy sz wx wy wz) (hx : 0 < wx) (hy : 0 < wy)
    (body : Matrix α → Iter → Res (Matrix α)) (g : Nat → Nat → Nat → α)
    (hb : ∀ i < wx, ∀ j < wy, ∀ k < wz, ∀ M' : Matrix α,
      M'.Shows X Y Z (part f g sx sy sz wx wy wz (fl wx wy i j k)) →
      body M' ⟨dimN i j k, dimN wx wy wz, fl wx wy i j k⟩ =
        (⟨dimN sx sy sz, dimN wx wy wz⟩ : View).write M' (dimN i j k) (g i j k)) :
    ∃ M', (List.range (wx * wy * wz)).foldlM (fun s m => body s (iterAt (dimN wx wy wz) m)) M = .ok M' ∧
      M'.Shows X Y Z (fun i j k =>
        if inBox sx sy sz wx wy wz i j k then g (i - sx) (j - sy) (k - sz) else f i j k) := by
  obtain ⟨M', e, s⟩ := foldlM_range_inv
    (fun n M' => M'.Shows X Y Z (part f g sx sy sz wx wy wz n))
    (wx * wy * wz) (fun s m => body s (iterAt (dimN wx wy wz) m)) M
    (hM.congr (by intro i _ j _ k _; simp [part])) (by
      intro n hn s hs
      obtain ⟨hi, hj, hk⟩ := unflat_lt hx hy hn
      have e := fl_unflat wx wy n
      have hb' := hb _ hi _ hj _ hk s (by rw [e]; exact hs)
      rw [e] at hb'
      rw [iterAt_dimN hx hy, unflat_eq, hb']
      obtain ⟨M', e1, s1⟩ := write_shows hs b hi hj hk (g (n % wx) (n / wx % wy) (n / wx / wy))
      refine ⟨M', e1, s1.congr ?_⟩
      intro i' hi' j' hj' k' hk'
      by_cases c : i' = sx + n % wx ∧ j' = sy + n / wx % wy ∧ k' = sz + n / wx / wy
      · rw [if_pos c]
        obtain ⟨rfl, rfl, rfl⟩ := c
        simp only [part, Nat.add_sub_cancel_left, e]
        rw [if_pos]
        exact ⟨⟨⟨Nat.le_add_right _ _, Nat.add_lt_add_left hi _⟩, ⟨Nat.le_add_right _ _, Nat.add_lt_add_left hj _⟩,
          ⟨Nat.le_add_right _ _, Nat.add_lt_add_left hk _⟩⟩, Nat.lt_succ_self n⟩
      · rw [if_neg c]
        simp only [part]
        by_cases hbx : inBox sx sy sz wx wy wz i' j' k'
        · have hne : fl wx wy (i' - sx) (j' - sy) (k' - sz) ≠ n := by
            intro h
            apply c
            unfold inBox at hbx
            have h1 := fl_mod (X := wx) (Y := wy) (i := i' - sx) (j := j' - sy) (k := k' - sz) (by omega)
            have h2 := fl_div_mod (X := wx) (Y := wy) (i := i' - sx) (j := j' - sy) (k := k' - sz) (by omega) (by omega)
            have h3 := fl_div_div (X := wx) (Y := wy) (i := i' - sx) (j := j' - sy) (k := k' - sz) (by omega) (by omega)
            rw [h] at h1 h2 h3
            omega
          by_cases c2 : fl wx wy (i' - sx) (j' - sy) (k' - sz) < n
          · rw [if_pos ⟨hbx, c2⟩, if_pos ⟨hbx, by omega⟩]
          · rw [if_neg (by tauto), if_neg (by intro h; omega)]
        · rw [if_neg (by tauto), if_neg (by tauto)])
  refine ⟨M', e, s.congr ?_⟩
  intro i hi j hj k hk
  simp only [part]
  by_cases hbx : inBox sx sy sz wx wy wz i j k
  · rw [if_pos hbx, if_pos]
    refine ⟨hbx, ?_⟩
    unfold inBox at hbx
    exact fl_lt (by omega) (by omega) (by omega)
  · rw [if_neg hbx, if_neg (by tauto)]

theorem forRangeView_shows {M : Matrix α} {X Y Z : Nat} {f : Nat → Nat → Nat → α} (hM : M.Shows X Y Z f)
    {sx sy sz wx wy wz : Nat} (b : Box X Y Z sx sy sz wx wy wz) (hx : 0 < wx) (hy : 0 < wy)
    (body : Matrix α → Iter → Res (Matrix α)) (g : Nat → Nat → Nat → α)
    (hb : ∀ i < wx, ∀ j < wy, ∀ k < wz, ∀ M' : Matrix α,
      M'.Shows X Y Z (part f g sx sy sz wx wy wz (fl wx wy i j k)) →
      body M' ⟨dimN i j k, dimN wx wy wz, fl wx wy i j k⟩ =
        (⟨dimN sx sy sz, dimN wx wy wz⟩ : View).write M' (dimN i j k) (g i j k)) :
    ∃ M', forRangeView (dimN wx wy wz) body M = .ok M' ∧
      M'.Shows X Y Z (fun i j k =>
        if inBox sx sy sz wx wy wz i j k then g (i - sx) (j - sy) (k - sz) else f i j k) := by
  rw [forRangeView_eq_fold _ (Matrix.dimN_z_nonneg _ _ _), fuel_dimN hx hy]
  exact loop_shows hM b hx hy body g hb

theorem copyRange_shows {M : Matrix α} {X Y Z : Nat} {f : Nat → Nat → Nat → α} (hM : M.Shows X Y Z f)
    {sx sy sz wx wy wz : Nat} (b : Box X Y Z sx sy sz wx wy wz) (hx : 0 < wx) (hy : 0 < wy) (last : Iter)
    (hlast : last.idx = (Iter.fin (dimN wx wy wz)).idx ∧ last.dim = dimN wx wy wz)
    (body : Matrix α → Iter → Res (Matrix α)) (g : Nat → Nat → Nat → α)
    (hb : ∀ i < wx, ∀ j < wy, ∀ k < wz, ∀ M' : Matrix α,
      M'.Shows X Y Z (part f g sx sy sz wx wy wz (fl wx wy i j k)) →
      body M' ⟨dimN i j k, dimN wx wy wz, fl wx wy i j k⟩ =
        (⟨dimN sx sy sz, dimN wx wy wz⟩ : View).write M' (dimN i j k) (g i j k)) :
    ∃ M', copyRange (dimN wx wy wz) last body M = .ok M' ∧
      M'.Shows X Y Z (fun i j k =>
        if inBox sx sy sz wx wy wz i j k then g (i - sx) (j - sy) (k - sz) else f i j k) := by
  rw [copyRange_eq_fold _ (by simpa [dimN] using hx) (by simpa [dimN] using hy) (Matrix.dimN_z_nonneg _ _ _) _ hlast,
    fuel_dimN hx hy]
  exact loop_shows hM b hx hy body g hb

/-- Before an entry of the box is reached it still has its old value. -/
theorem part_self {f g : Nat → Nat → Nat → α} {sx sy sz wx wy wz i j k : Nat} :
    part f g sx sy sz wx wy wz (fl wx wy i j k) (sx + i) (sy + j) (sz + k) = f (sx + i) (sy + j) (sz + k) := by
  simp [part]

theorem fill_shows {M : Matrix α} {X Y Z : Nat} {f : Nat → Nat → Nat → α} (hM : M.Shows X Y Z f)
    {sx sy sz wx wy wz : Nat} (b : Box X Y Z sx sy sz wx wy wz) (hx : 0 < wx) (hy : 0 < wy) (a : α) :
    ∃ M', (⟨dimN sx sy sz, dimN wx wy wz⟩ : View).fill M (fun _ => .ok a) = .ok M' ∧
      M'.Shows X Y Z (fun i j k => if inBox sx sy sz wx wy wz i j k then a else f i j k) := by
  simp only [fill]
  refine forRangeView_shows hM b hx hy _ (fun _ _ _ => a) ?_
  intro i hi j hj k hk M' _
  rfl

theorem assign_shows {M : Matrix α} {X Y Z : Nat} {f : Nat → Nat → Nat → α} (hM : M.Shows X Y Z f)
    {sx sy sz wx wy wz : Nat} (b : Box X Y Z sx sy sz wx wy wz) (hx : 0 < wx) (hy : 0 < wy) (last : Iter)
    (hlast : last.idx = (Iter.fin (dimN wx wy wz)).idx ∧ last.dim = dimN wx wy wz)
    (deref : Matrix α → Iter → Res α) (g : Nat → Nat → Nat → α)
    (hd : ∀ i < wx, ∀ j < wy, ∀ k < wz, ∀ M' : Matrix α,
      M'.Shows X Y Z (part f g sx sy sz wx wy wz (fl wx wy i j k)) →
      deref M' ⟨dimN i j k, dimN wx wy wz, fl wx wy i j k⟩ = .ok (g i j k)) :
    ∃ M', (⟨dimN sx sy sz, dimN wx wy wz⟩ : View).assign M (dimN wx wy wz) last deref = .ok M' ∧
      M'.Shows X Y Z (fun i j k =>
        if inBox sx sy sz wx wy wz i j k then g (i - sx) (j - sy) (k - sz) else f i j k) := by
  simp only [assign, Matrix.checkSize, ne_eq, not_true, if_false, Res.bind_ok]
  refine copyRange_shows hM b hx hy last hlast _ g ?_
  intro i hi j hj k hk M' hM'
  rw [hd i hi j hj k hk M' hM']; rfl

theorem opAssign_shows (op : α → β → α) {M : Matrix α} {X Y Z : Nat} {f : Nat → Nat → Nat → α} (hM : M.Shows X Y Z f)
    {sx sy sz wx wy wz : Nat} (b : Box X Y Z sx sy sz wx wy wz) (hx : 0 < wx) (hy : 0 < wy)
    (get : Matrix α → Dim3 → Res β) (g : Nat → Nat → Nat → β)
    (hd : ∀ i < wx, ∀ j < wy, ∀ k < wz, ∀ M' : Matrix α,
      M'.Shows X Y Z (part f (fun i j k => op (f (sx + i) (sy + j) (sz + k)) (g i j k)) sx sy sz wx wy wz
        (fl wx wy i j k)) →
      get M' (dimN i j k) = .ok (g i j k)) :
    ∃ M', (⟨dimN sx sy sz, dimN wx wy wz⟩ : View).opAssign op M (dimN wx wy wz) get = .ok M' ∧
      M'.Shows X Y Z (fun i j k =>
        if inBox sx sy sz wx wy wz i j k then op (f i j k) (g (i - sx) (j - sy) (k - sz)) else f i j k) := by
  simp only [opAssign, Matrix.checkSize, ne_eq, not_true, if_false, Res.bind_ok]
  obtain ⟨M', e, s⟩ := forRangeView_shows hM b hx hy (fun (M : Matrix α) it => do
    let b ← get M it.idx
    let a ← (⟨dimN sx sy sz, dimN wx wy wz⟩ : View).read M it.idx
    (⟨dimN sx sy sz, dimN wx wy wz⟩ : View).write M it.idx (op a b))
    (fun i j k => op (f (sx + i) (sy + j) (sz + k)) (g i j k)) (by
      intro i hi j hj k hk M' hM'
      obtain ⟨bx, by', bz⟩ := b
      have e1 := hM'.entry (sx + i) (by omega) (sy + j) (by omega) (sz + k) (by omega)
      rw [part_self] at e1
      simp only [hd i hi j hj k hk M' hM', View.read, dimN_add, e1, Res.bind_ok])
  refine ⟨M', e, s.congr ?_⟩
  intro i hi j hj k hk
  by_cases hbx : inBox sx sy sz wx wy wz i j k
  · rw [if_pos hbx, if_pos hbx]
    unfold inBox at hbx
    rw [show sx + (i - sx) = i by omega, show sy + (j - sy) = j by omega, show sz + (k - sz) = k by omega]
  · rw [if_neg hbx, if_neg hbx]

theorem opScalar_shows (op : α → β → α) {M : Matrix α} {X Y Z : Nat} {f : Nat → Nat → Nat → α} (hM : M.Shows X Y Z f)
    {sx sy sz wx wy wz : Nat} (b : Box X Y Z sx sy sz wx wy wz) (hx : 0 < wx) (hy : 0 < wy) (c : β) :
    ∃ M', (⟨dimN sx sy sz, dimN wx wy wz⟩ : View).opScalar op M (fun _ => .ok c) = .ok M' ∧
      M'.Shows X Y Z (fun i j k => if inBox sx sy sz wx wy wz i j k then op (f i j k) c else f i j k) := by
  simp only [opScalar]
  obtain ⟨M', e, s⟩ := forRangeView_shows hM b hx hy (fun (M : Matrix α) it => do
    let a ← (⟨dimN sx sy sz, dimN wx wy wz⟩ : View).read M it.idx
    let b ← Res.ok c
    (⟨dimN sx sy sz, dimN wx wy wz⟩ : View).write M it.idx (op a b))
    (fun i j k => op (f (sx + i) (sy + j) (sz + k)) c) (by
      intro i hi j hj k hk M' hM'
      obtain ⟨bx, by', bz⟩ := b
      have e1 := hM'.entry (sx + i) (by omega) (sy + j) (by omega) (sz + k) (by omega)
      rw [part_self] at e1
      simp only [View.read, dimN_add, e1, Res.bind_ok])
  refine ⟨M', e, s.congr ?_⟩
  intro i hi j hj k hk
  by_cases hbx : inBox sx sy sz wx wy wz i j k
  · rw [if_pos hbx, if_pos hbx]
    unfold inBox at hbx
    rw [show sx + (i - sx) = i by omega, show sy + (j - sy) = j by omega, show sz + (k - sz) = k by omega]
  · rw [if_neg hbx, if_neg hbx]

end View
end Cnn
