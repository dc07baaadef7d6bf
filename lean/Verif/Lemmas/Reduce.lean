import Verif.Lemmas.Expr
import Mathlib.Order.Defs.LinearOrder
import Mathlib.Algebra.Order.BigOperators.Group.Finset
/-! Helper lemmas for C19 – C22. -/
namespace Cnn
namespace MExpr
variable {α β : Type} {X Y Z : Nat}

theorem IsVec.facts {E : MExpr α} {n : Nat} {v : Nat → α} (h : IsVec E n v) :
    0 < n ∧ n < 2147483648 ∧ Matrix.sizeD E.dim = .ok n ∧ E.dim.z = 1 ∧ (E.dim.x = 1 ∨ E.dim.y = 1) ∧
      0 ≤ E.dim.z ∧ Iter.fuel E.dim = n ∧ ∀ m < n, E.deref (iterAt E.dim m) = .ok (v m) := by
  rcases h with h | h
  · have g := h.good
    have hs := g.small
    refine ⟨g.y, by omega, ?_, by rw [h.dim]; rfl, by rw [h.dim]; exact Or.inl rfl, by rw [h.dim]; simp, ?_, ?_⟩
    · rw [h.dim, sizeD_dimN g]; congr 1; omega
    · rw [h.dim, fuel_dimN g.x g.y]; omega
    · intro m hm
      rw [h.dim, h.deref_flat (n := m) (by omega)]
      congr 1
      rw [Nat.div_one, Nat.mod_eq_of_lt hm]
  · have g := h.good
    have hs := g.small
    refine ⟨g.x, by omega, ?_, by rw [h.dim]; rfl, by rw [h.dim]; exact Or.inr rfl, by rw [h.dim]; simp, ?_, ?_⟩
    · rw [h.dim, sizeD_dimN g]; congr 1; omega
    · rw [h.dim, fuel_dimN g.x g.y]; omega
    · intro m hm
      rw [h.dim, h.deref_flat (n := m) (by omega)]
      congr 1
      rw [Nat.mod_eq_of_lt hm]

/-- `dot` of two vectors of equal length is the fold of the accumulator step over the pairs of entries. -/
theorem dot_eq_fold (step : Int → α → β → Res Int) {A : MExpr α} {B : MExpr β} {n : Nat} {v : Nat → α} {w : Nat → β}
    (hA : IsVec A n v) (hB : IsVec B n w) :
    dot step A B = (List.range n).foldlM (fun acc k => step acc (v k) (w k)) 0 := by
  obtain ⟨hn, _, sA, zA, vA, hzA, fA, dA⟩ := hA.facts
  obtain ⟨_, _, sB, zB, vB, hzB, fB, dB⟩ := hB.facts
  unfold dot
  rw [sA, sB]
  simp only [Res.bind_ok]
  rw [if_neg (by simp [zA, zB]; exact ⟨fun h => by tauto, fun h => by tauto⟩)]
  rw [forRange_eq_fold _ hzA, fA]
  -- the second iterator runs along
  have key : ∀ m ≤ n, (List.range m).foldlM (fun (s : Int × Iter) k => do
      let a ← A.deref (iterAt A.dim k)
      let b ← B.deref s.2
      let acc ← step s.1 a b
      Res.ok (acc, s.2.next)) (0, Iter.beg B.dim) =
      ((List.range m).foldlM (fun acc k => step acc (v k) (w k)) 0 >>= fun acc => .ok (acc, iterAt B.dim m)) := by
    intro m
    induction m with
    | zero => intro _; simp [iterAt_zero]
    | succ m ih =>
      intro hm
      rw [List.range_succ, List.foldlM_append, List.foldlM_append, ih (by omega)]
      simp only [bind_assoc, List.foldlM_cons, List.foldlM_nil, Res.bind_ok]
      congr 1
      funext acc
      rw [dA m (by omega), dB m (by omega)]
      simp only [Res.bind_ok, iterAt_next]
      cases step acc (v m) (w m) <;> rfl
  rw [key n (le_refl _)]
  simp only [bind_assoc, Res.bind_ok]
  cases (List.range n).foldlM (fun acc k => step acc (v k) (w k)) 0 <;> rfl

theorem weakOrd_lt [LinearOrder α] : WeakOrd (fun a b : α => decide (a < b)) where
  irrefl a := by simp
  trans a b c h1 h2 := by simp at *; exact lt_trans h1 h2
  neg a b c h1 h2 := by simp at *; exact lt_of_le_of_lt h1 h2

theorem weakOrd_gt [LinearOrder α] : WeakOrd (fun a b : α => decide (b < a)) where
  irrefl a := by simp
  trans a b c h1 h2 := by simp at *; exact lt_trans h2 h1
  neg a b c h1 h2 := by simp at *; exact lt_of_lt_of_le h2 h1

/-- `bestElem` in terms of indices. -/
theorem bestElem_idx_on (r : α → α → Bool) {S : α → Prop} (hr : WeakOn r S) {A : MExpr α} {f : Nat → Nat → Nat → α}
    (hA : A.Shows X Y Z f) (hS : ∀ i < X, ∀ j < Y, ∀ k < Z, S (f i j k)) :
    ∃ i j k, i < X ∧ j < Y ∧ k < Z ∧
      bestElem r A = .ok ⟨dimN i j k, dimN X Y Z, (fl X Y i j k : Nat)⟩ ∧
      (∀ i' < X, ∀ j' < Y, ∀ k' < Z, r (f i j k) (f i' j' k') = false) ∧
      (∀ i' < X, ∀ j' < Y, ∀ k' < Z, fl X Y i' j' k' < fl X Y i j k → r (f i' j' k') (f i j k) = true) := by
  obtain ⟨n, hn, e, h1, h2⟩ := bestElem_spec r hr hA hS
  have g := hA.good
  obtain ⟨u1, u2, u3⟩ := unflat_lt g.x g.y hn
  refine ⟨n % X, n / X % Y, n / X / Y, u1, u2, u3, ?_, ?_, ?_⟩
  · rw [e, iterAt_dimN g.x g.y, fl_unflat]; rfl
  · intro i' hi' j' hj' k' hk'
    have := h1 (fl X Y i' j' k') (fl_lt hi' hj' hk')
    rwa [fl_mod hi', fl_div_mod hi' hj', fl_div_div hi' hj'] at this
  · intro i' hi' j' hj' k' hk' hlt
    rw [fl_unflat] at hlt
    have := h2 (fl X Y i' j' k') hlt
    rwa [fl_mod hi', fl_div_mod hi' hj', fl_div_div hi' hj'] at this

theorem bestElem_idx (r : α → α → Bool) (hr : WeakOrd r) {A : MExpr α} {f : Nat → Nat → Nat → α}
    (hA : A.Shows X Y Z f) :
    ∃ i j k, i < X ∧ j < Y ∧ k < Z ∧
      bestElem r A = .ok ⟨dimN i j k, dimN X Y Z, (fl X Y i j k : Nat)⟩ ∧
      (∀ i' < X, ∀ j' < Y, ∀ k' < Z, r (f i j k) (f i' j' k') = false) ∧
      (∀ i' < X, ∀ j' < Y, ∀ k' < Z, fl X Y i' j' k' < fl X Y i j k → r (f i' j' k') (f i j k) = true) :=
  bestElem_idx_on r (hr.on fun _ => True) hA (fun _ _ _ _ _ _ => trivial)

theorem sumInt_eq {A : MExpr Int} {f : Nat → Nat → Nat → Int} (hA : A.Shows X Y Z f)
    (hsafe : ∀ n ≤ X * Y * Z, I32 (sumTo n (fun n => f (n % X) (n / X % Y) (n / X / Y)))) :
    A.sumInt = .ok (total X Y Z f) := by
  unfold sumInt
  rw [hA.dim, forRange_eq_fold _ (Matrix.dimN_z_nonneg X Y Z), fuel_dimN hA.good.x hA.good.y]
  obtain ⟨s, e, h⟩ := foldlM_range_inv (fun n s => s = sumTo n (fun n => f (n % X) (n / X % Y) (n / X / Y)))
    (X * Y * Z) (fun (acc : Int) m => do let a ← A.deref (iterAt (dimN X Y Z) m); chk (acc + a)) 0 rfl (by
      rintro n hn s rfl
      refine ⟨_, ?_, rfl⟩
      rw [hA.deref_flat hn, sumTo_succ]
      simp only [Res.bind_ok]
      apply chk_ok
      rw [← sumTo_succ (t := fun n => f (n % X) (n / X % Y) (n / X / Y))]
      exact hsafe _ (by omega))
  rw [e, h, sumTo_eq, sum_flat]

theorem matrixEqual_spec (eq : α → β → Bool) {A : MExpr α} {B : MExpr β} {f : Nat → Nat → Nat → α}
    {g : Nat → Nat → Nat → β} {X' Y' Z' : Nat} (hA : A.Shows X Y Z f) (hB : B.Shows X' Y' Z' g) :
    ∃ r, matrixEqual eq A B = .ok r ∧
      (r = true ↔ (X = X' ∧ Y = Y' ∧ Z = Z') ∧ ∀ i < X, ∀ j < Y, ∀ k < Z, eq (f i j k) (g i j k) = true) := by
  unfold matrixEqual
  rw [hA.dim, hB.dim]
  by_cases c : dimN X Y Z = dimN X' Y' Z'
  · obtain ⟨rfl, rfl, rfl⟩ := dimN_inj.mp c
    have gd := hA.good
    rw [if_neg (by simp), forRange_eq_fold _ (Matrix.dimN_z_nonneg X Y Z), fuel_dimN gd.x gd.y]
    obtain ⟨r, e, h⟩ := foldlM_range_inv
      (fun n (r : Bool) => (r = true ↔ ∀ m < n, eq (f (m % X) (m / X % Y) (m / X / Y))
        (g (m % X) (m / X % Y) (m / X / Y)) = true)) (X * Y * Z)
      (fun (equal : Bool) m =>
        if equal then do
          let a ← A.deref (iterAt (dimN X Y Z) m)
          let b ← B.get (iterAt (dimN X Y Z) m).idx
          .ok (eq a b)
        else .ok false) true (by simp) (by
        intro n hn r hr
        cases r with
        | false =>
          refine ⟨false, rfl, ?_⟩
          simp only [Bool.false_eq_true, false_iff, not_forall] at hr ⊢
          obtain ⟨m, hm, h⟩ := hr
          exact ⟨m, by omega, h⟩
        | true =>
          obtain ⟨u1, u2, u3⟩ := unflat_lt gd.x gd.y hn
          refine ⟨eq (f (n % X) (n / X % Y) (n / X / Y)) (g (n % X) (n / X % Y) (n / X / Y)), ?_, ?_⟩
          · have hb : B.get (iterAt (dimN X Y Z) n).idx = .ok (g (n % X) (n / X % Y) (n / X / Y)) := by
              rw [iterAt_dimN gd.x gd.y]
              exact hB.entry _ u1 _ u2 _ u3
            rw [if_pos rfl, hA.deref_flat hn, Res.bind_ok, hb]; rfl
          · have hr' := hr.mp rfl
            constructor
            · intro h m hm
              by_cases c : m = n
              · subst c; exact h
              · exact hr' m (by omega)
            · intro h; exact h n (by omega))
    refine ⟨r, e, ?_⟩
    rw [h]
    constructor
    · intro h
      refine ⟨⟨rfl, rfl, rfl⟩, fun i hi j hj k hk => ?_⟩
      have := h (fl X Y i j k) (fl_lt hi hj hk)
      rwa [fl_mod hi, fl_div_mod hi hj, fl_div_div hi hj] at this
    · rintro ⟨_, h⟩ m hm
      obtain ⟨u1, u2, u3⟩ := unflat_lt gd.x gd.y hm
      exact h _ u1 _ u2 _ u3
  · refine ⟨false, by rw [if_pos c], ?_⟩
    simp only [Bool.false_eq_true, false_iff]
    rintro ⟨⟨rfl, rfl, rfl⟩, _⟩
    exact c rfl

end MExpr
end Cnn
