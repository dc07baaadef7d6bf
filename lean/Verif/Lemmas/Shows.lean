import Verif.Spec.Shows
import Verif.Lemmas.Loop
/-!
Helper lemmas about indices, reads, writes and whole-matrix loops.
-/
namespace Cnn

/-! ### Flat indices -/

def fl (X Y i j k : Nat) : Nat := i + j * X + k * (X * Y)

theorem fl_lt {X Y Z i j k : Nat} (hi : i < X) (hj : j < Y) (hk : k < Z) : fl X Y i j k < X * Y * Z := by
  unfold fl
  have h1 : j * X + X ≤ Y * X := by
    calc j * X + X = (j + 1) * X := by ring
      _ ≤ Y * X := Nat.mul_le_mul_right _ hj
  have h2 : k * (X * Y) + X * Y ≤ Z * (X * Y) := by
    calc k * (X * Y) + X * Y = (k + 1) * (X * Y) := by ring
      _ ≤ Z * (X * Y) := Nat.mul_le_mul_right _ hk
  have h3 : Z * (X * Y) = X * Y * Z := by ring
  have h4 : Y * X = X * Y := by ring
  omega

theorem fl_mod {X Y i j k : Nat} (hi : i < X) : fl X Y i j k % X = i := by
  have : fl X Y i j k = i + X * (j + k * Y) := by unfold fl; ring
  rw [this, Nat.add_mul_mod_self_left, Nat.mod_eq_of_lt hi]

theorem fl_div {X Y i j k : Nat} (hi : i < X) : fl X Y i j k / X = j + k * Y := by
  have : fl X Y i j k = i + X * (j + k * Y) := by unfold fl; ring
  rw [this, Nat.add_mul_div_left _ _ (by omega), Nat.div_eq_of_lt hi, Nat.zero_add]

theorem fl_div_mod {X Y i j k : Nat} (hi : i < X) (hj : j < Y) : fl X Y i j k / X % Y = j := by
  rw [fl_div hi, Nat.add_mul_mod_self_right, Nat.mod_eq_of_lt hj]

theorem fl_div_div {X Y i j k : Nat} (hi : i < X) (hj : j < Y) : fl X Y i j k / X / Y = k := by
  rw [fl_div hi, Nat.add_mul_div_right _ _ (by omega), Nat.div_eq_of_lt hj, Nat.zero_add]

theorem unflat_fl {X Y i j k : Nat} (hi : i < X) (hj : j < Y) : unflat X Y (fl X Y i j k) = dimN i j k := by
  simp [unflat, dimN, fl_mod hi, fl_div_mod hi hj, fl_div_div hi hj]

theorem fl_unflat (X Y n : Nat) : fl X Y (n % X) (n / X % Y) (n / X / Y) = n := by
  unfold fl
  have a := Nat.div_add_mod n X
  have b := Nat.div_add_mod (n / X) Y
  calc n % X + n / X % Y * X + n / X / Y * (X * Y)
      = X * (Y * (n / X / Y) + n / X % Y) + n % X := by ring
    _ = n := by rw [b, a]

theorem unflat_lt {X Y Z n : Nat} (hX : 0 < X) (hY : 0 < Y) (h : n < X * Y * Z) :
    n % X < X ∧ n / X % Y < Y ∧ n / X / Y < Z := by
  refine ⟨Nat.mod_lt _ hX, Nat.mod_lt _ hY, ?_⟩
  rw [Nat.div_div_eq_div_mul]
  exact Nat.div_lt_of_lt_mul h

theorem fl_inj {X Y i j k i' j' k' : Nat} (hi : i < X) (hj : j < Y) (hi' : i' < X) (hj' : j' < Y)
    (h : fl X Y i j k = fl X Y i' j' k') : i = i' ∧ j = j' ∧ k = k' := by
  refine ⟨?_, ?_, ?_⟩
  · rw [← fl_mod (Y := Y) (j := j) (k := k) hi, h, fl_mod hi']
  · rw [← fl_div_mod (k := k) hi hj, h, fl_div_mod hi' hj']
  · rw [← fl_div_div (k := k) hi hj, h, fl_div_div hi' hj']

theorem Good.bounds {X Y Z : Nat} (g : Good X Y Z) :
    X * Y < 2147483648 ∧ X < 2147483648 ∧ Y < 2147483648 ∧ Z < 2147483648 := by
  obtain ⟨hx, hy, hz, hs⟩ := g
  have h1 : X * Y ≤ X * Y * Z := Nat.le_mul_of_pos_right _ hz
  have h2 : X ≤ X * Y := Nat.le_mul_of_pos_right _ hy
  have h3 : Y ≤ X * Y := Nat.le_mul_of_pos_left _ hx
  have h4 : Z ≤ X * Y * Z := Nat.le_mul_of_pos_left _ (Nat.mul_pos hx hy)
  omega

theorem getIndex_dimN {X Y Z i j k : Nat} (g : Good X Y Z) (hi : i < X) (hj : j < Y) (hk : k < Z) :
    getIndex (dimN X Y Z) (dimN i j k) = fl X Y i j k := by
  have h := fl_lt hi hj hk
  have hs := g.small
  unfold getIndex dimN
  have e : ((k : Int) * (Y : Int) * (X : Int) + (j : Int) * (X : Int) + (i : Int)) = (fl X Y i j k : Nat) := by
    unfold fl; push_cast; ring
  simp only [e]
  omega

theorem chk_ok {n : Int} (h : I32 n) : chk n = .ok n := if_pos h

theorem chk_ub {n : Int} (h : ¬ I32 n) : chk n = .ub := if_neg h

theorem volume_dimN {X Y Z : Nat} (h1 : X * Y < 2147483648) (h2 : X * Y * Z < 2147483648) :
    (dimN X Y Z).volume = .ok ((X * Y * Z : Nat) : Int) := by
  have e1 : ((X : Int) * (Y : Int)) = ((X * Y : Nat) : Int) := by push_cast; rfl
  have e2 : (((X * Y : Nat) : Int) * (Z : Int)) = ((X * Y * Z : Nat) : Int) := by push_cast; rfl
  simp only [Dim3.volume, e1]
  rw [chk_ok (by unfold I32; omega)]
  simp only [Res.bind_ok, e2]
  rw [chk_ok (by unfold I32; omega)]

theorem vecSize_dimN {X Y Z : Nat} (h1 : X * Y < 2147483648) (h2 : X * Y * Z < 2147483648) :
    vecSize (dimN X Y Z) = .ok (X * Y * Z) := by
  simp only [vecSize, volume_dimN h1 h2, Res.bind_ok]
  rw [if_neg (by omega), Int.toNat_natCast]

theorem Good.vecSize {X Y Z : Nat} (g : Good X Y Z) : Cnn.vecSize (dimN X Y Z) = .ok (X * Y * Z) :=
  vecSize_dimN g.bounds.1 g.small

theorem fuel_dimN {X Y Z : Nat} (hX : 0 < X) (hY : 0 < Y) : Iter.fuel (dimN X Y Z) = X * Y * Z := by
  have e1 : max (X : Int) 1 = X := by omega
  have e2 : max (Y : Int) 1 = Y := by omega
  simp only [Iter.fuel, e1, e2, Int.toNat_natCast]

theorem iterAt_dimN {X Y Z n : Nat} (hX : 0 < X) (hY : 0 < Y) :
    iterAt (dimN X Y Z) n = ⟨unflat X Y n, dimN X Y Z, n⟩ := by
  have e1 : max (X : Int) 1 = X := by omega
  have e2 : max (Y : Int) 1 = Y := by omega
  simp only [iterAt, dimN, e1, e2, Int.toNat_natCast]

theorem unflat_eq (X Y n : Nat) : unflat X Y n = dimN (n % X) (n / X % Y) (n / X / Y) := rfl

theorem dimN_add (a b c d e f : Nat) : dimN a b c + dimN d e f = dimN (a + d) (b + e) (c + f) := by
  simp [dimN]

theorem dimN_inj {a b c d e f : Nat} : dimN a b c = dimN d e f ↔ a = d ∧ b = e ∧ c = f := by
  simp [dimN]

/-! ### Reading and writing -/

namespace Matrix
variable {α β : Type}

theorem flat_of_lt {M : Matrix α} {n : Nat} (h : n < M.vals.length) : M.flat n = .ok M.vals[n] := by
  simp [flat, h]

theorem flat_ub {M : Matrix α} {n : Nat} (h : M.vals.length ≤ n) : M.flat n = .ub := by
  simp [flat, h]

theorem flat_eq_ok {M : Matrix α} {n : Nat} {a : α} : M.flat n = .ok a ↔ M.vals[n]? = some a := by
  unfold flat
  cases M.vals[n]? <;> simp

namespace Shows
variable {M : Matrix α} {X Y Z : Nat} {f g : Nat → Nat → Nat → α}

theorem flat_fl (h : M.Shows X Y Z f) {i j k : Nat} (hi : i < X) (hj : j < Y) (hk : k < Z) :
    M.flat (fl X Y i j k) = .ok (f i j k) := by
  have := h.entry i hi j hj k hk
  rwa [read, h.dim, getIndex_dimN h.good hi hj hk] at this

theorem flat_lt (h : M.Shows X Y Z f) {n : Nat} (hn : n < X * Y * Z) :
    M.flat n = .ok (f (n % X) (n / X % Y) (n / X / Y)) := by
  obtain ⟨a, b, c⟩ := unflat_lt h.good.x h.good.y hn
  have := h.flat_fl a b c
  rwa [fl_unflat] at this

theorem congr (h : M.Shows X Y Z f) (e : ∀ i < X, ∀ j < Y, ∀ k < Z, f i j k = g i j k) : M.Shows X Y Z g where
  good := h.good
  dim := h.dim
  length := h.length
  entry i hi j hj k hk := by rw [h.entry i hi j hj k hk, e i hi j hj k hk]

theorem vals_eq (h : M.Shows X Y Z f) :
    M.vals = (List.range (X * Y * Z)).map (fun n => f (n % X) (n / X % Y) (n / X / Y)) := by
  apply List.ext_getElem?
  intro n
  by_cases hn : n < X * Y * Z
  · have := flat_eq_ok.1 (h.flat_lt hn)
    rw [this]; simp [hn]
  · rw [List.getElem?_eq_none (by rw [h.length]; omega), List.getElem?_eq_none (by simp; omega)]

theorem of_flat (good : Good X Y Z) (dim : M.dim = dimN X Y Z) (length : M.vals.length = X * Y * Z)
    (h : ∀ n < X * Y * Z, M.flat n = .ok (f (n % X) (n / X % Y) (n / X / Y))) : M.Shows X Y Z f where
  good := good
  dim := dim
  length := length
  entry i hi j hj k hk := by
    rw [read, dim, getIndex_dimN good hi hj hk, h _ (fl_lt hi hj hk), fl_mod hi, fl_div_mod hi hj, fl_div_div hi hj]

theorem of_vals (good : Good X Y Z) (dim : M.dim = dimN X Y Z)
    (h : M.vals = (List.range (X * Y * Z)).map (fun n => f (n % X) (n / X % Y) (n / X / Y))) :
    M.Shows X Y Z f := by
  refine of_flat good dim (by simp [h]) ?_
  intro n hn
  rw [flat_eq_ok, h]; simp [hn]

theorem unique {M' : Matrix α} (h : M.Shows X Y Z f) (h' : M'.Shows X Y Z f) : M = M' := by
  have a := h.vals_eq
  have b := h'.vals_eq
  have c := h.dim
  have d := h'.dim
  cases M; cases M'
  simp only at a b c d
  rw [a, b, c, d]

theorem inj (h : M.Shows X Y Z f) (h' : M.Shows X Y Z g) {i j k : Nat} (hi : i < X) (hj : j < Y) (hk : k < Z) :
    f i j k = g i j k := by
  have := (h.entry i hi j hj k hk).symm.trans (h'.entry i hi j hj k hk)
  simpa using this

theorem write (h : M.Shows X Y Z f) {i j k : Nat} (hi : i < X) (hj : j < Y) (hk : k < Z) (a : α) :
    ∃ M', M.write (dimN i j k) a = .ok M' ∧
      M'.Shows X Y Z (fun i' j' k' => if i' = i ∧ j' = j ∧ k' = k then a else f i' j' k') := by
  have hlt := fl_lt hi hj hk
  refine ⟨⟨M.dim, M.vals.set (fl X Y i j k) a⟩, ?_, ?_⟩
  · simp only [Matrix.write, setFlat, h.dim, getIndex_dimN h.good hi hj hk, h.length, if_pos hlt]
  · refine ⟨h.good, h.dim, by simp [h.length], ?_⟩
    intro i' hi' j' hj' k' hk'
    have e := flat_eq_ok.1 (h.flat_fl hi' hj' hk')
    simp only [read, h.dim, getIndex_dimN h.good hi' hj' hk']
    rw [flat_eq_ok]
    by_cases c : i' = i ∧ j' = j ∧ k' = k
    · obtain ⟨rfl, rfl, rfl⟩ := c
      simp [h.length, hlt]
    · rw [if_neg c]
      have : fl X Y i j k ≠ fl X Y i' j' k' := by
        intro e; have := fl_inj hi hj hi' hj' e; exact c ⟨this.1.symm, this.2.1.symm, this.2.2.symm⟩
      simp only [List.getElem?_set_ne this, e]

theorem setFlat (h : M.Shows X Y Z f) {n : Nat} (hn : n < X * Y * Z) (a : α) :
    ∃ M', M.setFlat n a = .ok M' ∧
      M'.Shows X Y Z (fun i' j' k' => if fl X Y i' j' k' = n then a else f i' j' k') := by
  obtain ⟨hi, hj, hk⟩ := unflat_lt h.good.x h.good.y hn
  obtain ⟨M', e, s⟩ := h.write hi hj hk a
  refine ⟨M', ?_, ?_⟩
  · rwa [Matrix.write, h.dim, getIndex_dimN h.good hi hj hk, fl_unflat] at e
  · refine s.congr ?_
    intro i' hi' j' hj' k' hk'
    by_cases c : fl X Y i' j' k' = n
    · rw [if_pos c, if_pos]
      subst c
      simp [fl_mod hi', fl_div_mod hi' hj', fl_div_div hi' hj']
    · rw [if_neg c, if_neg]
      rintro ⟨rfl, rfl, rfl⟩
      exact c (fl_unflat X Y n)

/-- `M` seen as an operand. -/
theorem expr (h : M.Shows X Y Z f) : M.expr.Shows X Y Z f where
  good := h.good
  dim := h.dim
  entry := h.entry
  deref _ hi _ hj _ hk := h.flat_fl hi hj hk

end Shows

theorem ofDim_shows {X Y Z : Nat} (g : Good X Y Z) (v : α) :
    ∃ M, ofDim (dimN X Y Z) v = .ok M ∧ M.Shows X Y Z (fun _ _ _ => v) := by
  refine ⟨⟨dimN X Y Z, List.replicate (X * Y * Z) v⟩, ?_, ?_⟩
  · simp [ofDim, g.vecSize]
  · refine Shows.of_flat g rfl (by simp) ?_
    intro n hn
    rw [flat_eq_ok]; simp [hn]

/-- The whole-matrix loop: at step `n` the body replaces entry `n` by `h n (old entry)`; the body may look at
the current matrix. -/
theorem loop_shows {X Y Z : Nat} {f : Nat → Nat → Nat → α} {M : Matrix α} (hM : M.Shows X Y Z f)
    (body : Matrix α → Iter → Res (Matrix α)) (g : Nat → Nat → Nat → α)
    (hb : ∀ i < X, ∀ j < Y, ∀ k < Z, ∀ M' : Matrix α,
      M'.Shows X Y Z (fun i' j' k' => if fl X Y i' j' k' < fl X Y i j k then g i' j' k' else f i' j' k') →
      body M' ⟨dimN i j k, dimN X Y Z, fl X Y i j k⟩ = M'.setFlat (fl X Y i j k) (g i j k)) :
    ∃ M', (List.range (X * Y * Z)).foldlM (fun s m => body s (iterAt (dimN X Y Z) m)) M = .ok M' ∧
      M'.Shows X Y Z g := by
  obtain ⟨M', e, s⟩ := foldlM_range_inv
    (fun n M' => M'.Shows X Y Z (fun i' j' k' => if fl X Y i' j' k' < n then g i' j' k' else f i' j' k'))
    (X * Y * Z) (fun s m => body s (iterAt (dimN X Y Z) m)) M (hM.congr (by simp)) (by
      intro n hn s hs
      obtain ⟨hi, hj, hk⟩ := unflat_lt hM.good.x hM.good.y hn
      have e := fl_unflat X Y n
      have hb' := hb _ hi _ hj _ hk s (by rw [e]; exact hs)
      rw [e] at hb'
      rw [iterAt_dimN hM.good.x hM.good.y, unflat_eq, hb']
      obtain ⟨M', e1, s1⟩ := hs.setFlat hn (g (n % X) (n / X % Y) (n / X / Y))
      refine ⟨M', e1, s1.congr ?_⟩
      intro i' hi' j' hj' k' hk'
      by_cases c : fl X Y i' j' k' = n
      · rw [if_pos c, if_pos (by omega)]
        subst c
        simp [fl_mod hi', fl_div_mod hi' hj', fl_div_div hi' hj']
      · rw [if_neg c]
        by_cases c2 : fl X Y i' j' k' < n
        · rw [if_pos c2, if_pos (by omega)]
        · rw [if_neg c2, if_neg (by omega)])
  refine ⟨M', e, s.congr ?_⟩
  intro i hi j hj k hk
  rw [if_pos (fl_lt hi hj hk)]

theorem dimN_z_nonneg (X Y Z : Nat) : 0 ≤ (dimN X Y Z).z := by simp

theorem forRange_shows {X Y Z : Nat} {f : Nat → Nat → Nat → α} {M : Matrix α} (hM : M.Shows X Y Z f)
    (body : Matrix α → Iter → Res (Matrix α)) (g : Nat → Nat → Nat → α)
    (hb : ∀ i < X, ∀ j < Y, ∀ k < Z, ∀ M' : Matrix α,
      M'.Shows X Y Z (fun i' j' k' => if fl X Y i' j' k' < fl X Y i j k then g i' j' k' else f i' j' k') →
      body M' ⟨dimN i j k, dimN X Y Z, fl X Y i j k⟩ = M'.setFlat (fl X Y i j k) (g i j k)) :
    ∃ M', forRange (dimN X Y Z) body M = .ok M' ∧ M'.Shows X Y Z g := by
  rw [forRange_eq_fold _ (dimN_z_nonneg X Y Z), fuel_dimN hM.good.x hM.good.y]
  exact loop_shows hM body g hb

theorem copyRange_shows {X Y Z : Nat} {f : Nat → Nat → Nat → α} {M : Matrix α} (hM : M.Shows X Y Z f)
    (body : Matrix α → Iter → Res (Matrix α)) (g : Nat → Nat → Nat → α)
    (hb : ∀ i < X, ∀ j < Y, ∀ k < Z, ∀ M' : Matrix α,
      M'.Shows X Y Z (fun i' j' k' => if fl X Y i' j' k' < fl X Y i j k then g i' j' k' else f i' j' k') →
      body M' ⟨dimN i j k, dimN X Y Z, fl X Y i j k⟩ = M'.setFlat (fl X Y i j k) (g i j k)) :
    ∃ M', copyRange (dimN X Y Z) (Iter.fin (dimN X Y Z)) body M = .ok M' ∧ M'.Shows X Y Z g := by
  have g' := hM.good
  rw [copyRange_eq_fold _ (by simpa [dimN] using g'.x) (by simpa [dimN] using g'.y) (dimN_z_nonneg X Y Z) _ ⟨rfl, rfl⟩,
    fuel_dimN hM.good.x hM.good.y]
  exact loop_shows hM body g hb

/-- Construction from a matrix-like object. -/
theorem ofExpr_shows [Zero β] {X Y Z : Nat} {f : Nat → Nat → Nat → α} {e : MExpr α} (he : e.Shows X Y Z f)
    (cast : α → β) :
    ∃ M, ofExpr cast e = .ok M ∧ M.Shows X Y Z (fun i j k => cast (f i j k)) := by
  have g := he.good
  obtain ⟨M0, e0, s0⟩ := ofDim_shows g (0 : β)
  simp only [ofDim, g.vecSize, Res.bind_ok, Res.ok.injEq] at e0
  subst e0
  simp only [ofExpr, he.dim, g.vecSize, Res.bind_ok]
  refine forRange_shows s0 _ (fun i j k => cast (f i j k)) ?_
  intro i hi j hj k hk M' _
  have := he.deref i hi j hj k hk
  simp only [fl] at *
  rw [this]; rfl

/-- Assignment from a matrix-like object whose reads do not depend on the entries of the target. -/
theorem assignExpr_shows [Zero α] {X Y Z : Nat} {f : Nat → Nat → Nat → α} {e : MExpr α} (he : e.Shows X Y Z f)
    (M : Matrix α) :
    ∃ M', assignExpr M e.dim (fun _ => e.deref) = .ok M' ∧ M'.Shows X Y Z f := by
  have g := he.good
  simp only [assignExpr, he.dim, g.vecSize, Res.bind_ok]
  have hl : (vecResize M.vals (X * Y * Z) (0 : α)).length = X * Y * Z := by
    simp [vecResize]; omega
  generalize hv : vecResize M.vals (X * Y * Z) (0 : α) = v at hl
  have s0 : (⟨dimN X Y Z, v⟩ : Matrix α).Shows X Y Z (fun i j k => v.getD (fl X Y i j k) 0) := by
    refine Shows.of_flat g rfl hl ?_
    intro n hn
    rw [flat_eq_ok, fl_unflat]
    simp [List.getD, hl, hn]
  refine copyRange_shows s0 _ f ?_
  intro i hi j hj k hk M' _
  have := he.deref i hi j hj k hk
  simp only [fl] at *
  rw [this]; rfl

/-- Assignment, general form: reads may look at the partially overwritten target. -/
theorem assignExpr_shows' [Zero α] {X Y Z : Nat} (g : Good X Y Z) {f h : Nat → Nat → Nat → α} {M : Matrix α}
    (hM : M.Shows X Y Z f) (deref : Matrix α → Iter → Res α)
    (hd : ∀ i < X, ∀ j < Y, ∀ k < Z, ∀ M' : Matrix α,
      M'.Shows X Y Z (fun i' j' k' => if fl X Y i' j' k' < fl X Y i j k then h i' j' k' else f i' j' k') →
      deref M' ⟨dimN i j k, dimN X Y Z, fl X Y i j k⟩ = .ok (h i j k)) :
    ∃ M', assignExpr M (dimN X Y Z) deref = .ok M' ∧ M'.Shows X Y Z h := by
  simp only [assignExpr, g.vecSize, Res.bind_ok]
  have hv : (⟨dimN X Y Z, vecResize M.vals (X * Y * Z) (0 : α)⟩ : Matrix α) = M := by
    have a := hM.dim; have b := hM.length
    cases M
    simp only [vecResize] at *
    subst a
    rw [← b]; simp
  rw [hv]
  refine copyRange_shows hM _ h ?_
  intro i hi j hj k hk M' hM'
  rw [hd i hi j hj k hk M' hM']; rfl

/-- `M op= other`, where `other` may look at the current target. -/
theorem opAssign_shows (op : α → β → α) {X Y Z : Nat} {f : Nat → Nat → Nat → α} {g : Nat → Nat → Nat → β}
    {M : Matrix α} (hM : M.Shows X Y Z f) (get : Matrix α → Dim3 → Res β)
    (hg : ∀ i < X, ∀ j < Y, ∀ k < Z, ∀ M' : Matrix α,
      M'.Shows X Y Z (fun i' j' k' =>
        if fl X Y i' j' k' < fl X Y i j k then op (f i' j' k') (g i' j' k') else f i' j' k') →
      get M' (dimN i j k) = .ok (g i j k)) :
    ∃ M', opAssign op M (dimN X Y Z) get = .ok M' ∧ M'.Shows X Y Z (fun i j k => op (f i j k) (g i j k)) := by
  simp only [opAssign, checkSize, hM.dim, ne_eq, not_true, if_false, Res.bind_ok]
  refine forRange_shows hM _ _ ?_
  intro i hi j hj k hk M' hM'
  have e := hM'.flat_fl hi hj hk
  simp only [lt_irrefl, if_false] at e
  simp only [hg i hi j hj k hk M' hM', e, Res.bind_ok]

theorem opAssign_mismatch (op : α → β → α) {M : Matrix α} {d : Dim3} (h : M.dim ≠ d)
    (get : Matrix α → Dim3 → Res β) : opAssign op M d get = .throw .matrixSize := by
  simp [opAssign, checkSize, h]

theorem opScalar_shows (op : α → β → α) {X Y Z : Nat} {f : Nat → Nat → Nat → α}
    {M : Matrix α} (hM : M.Shows X Y Z f) (b : β) :
    ∃ M', opScalar op M (fun _ => .ok b) = .ok M' ∧ M'.Shows X Y Z (fun i j k => op (f i j k) b) := by
  simp only [opScalar, hM.dim]
  refine forRange_shows hM _ _ ?_
  intro i hi j hj k hk M' hM'
  have e := hM'.flat_fl hi hj hk
  simp only [lt_irrefl, if_false] at e
  simp only [e, Res.bind_ok]

theorem modify_shows (op : α → α) {X Y Z : Nat} {f : Nat → Nat → Nat → α}
    {M : Matrix α} (hM : M.Shows X Y Z f) :
    ∃ M', modify op M = .ok M' ∧ M'.Shows X Y Z (fun i j k => op (f i j k)) := by
  simp only [modify, hM.dim]
  refine forRange_shows hM _ _ ?_
  intro i hi j hj k hk M' hM'
  have e := hM'.flat_fl hi hj hk
  simp only [lt_irrefl, if_false] at e
  simp only [e, Res.bind_ok]

end Matrix
end Cnn
