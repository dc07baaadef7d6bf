import Verif.Lemmas.Real
/-! Helper lemmas on the softmax layer (C25–C28). -/
namespace Cnn
open Real
variable {X Y Z : Nat}

theorem softMax_shows {M : Matrix ℝ} {x : Nat → Nat → Nat → ℝ} (hM : M.Shows X Y Z x) :
    ∃ P, Softmax.softMax Num.real M = .ok P ∧
      P.Shows X Y Z (fun i j k => Real.exp (x i j k) / total X Y Z (fun i j k => Real.exp (x i j k))) := by
  obtain ⟨n, hn, eb⟩ := MExpr.bestElem_inside (fun a b => Num.real.lt a b) hM.expr
  have ed := hM.expr.deref_flat hn
  generalize hm : x (n % X) (n / X % Y) (n / X / Y) = m at ed
  have emax : MExpr.max Num.real.lt M.expr = .ok m := by
    simp only [MExpr.max, eb, Res.bind_ok, ed]
  have s1 := MExpr.un_shows Num.real.exp (MExpr.scal_shows (· - m) hM.expr)
  obtain ⟨E, e2, s2⟩ := Matrix.ofExpr_shows s1 (id : ℝ → ℝ)
  have e3 := MExpr.sum_eq_total s2.expr
  obtain ⟨P, e4, s4⟩ := Matrix.ofExpr_shows (MExpr.scal_shows
    (· / total X Y Z (fun i j k => id (Num.real.exp (x i j k - m)))) s2.expr) (id : ℝ → ℝ)
  refine ⟨P, ?_, s4.congr ?_⟩
  · simp only [Softmax.softMax, emax, Res.bind_ok, e2, e3]
    exact e4
  · intro i hi j hj k hk
    simp only [id, Num.real]
    have h : ∀ i j k, Real.exp (x i j k - m) = Real.exp (x i j k) / Real.exp m := fun i j k => Real.exp_sub _ _
    simp only [h]
    have ht : total X Y Z (fun i j k => Real.exp (x i j k) / Real.exp m) =
        total X Y Z (fun i j k => Real.exp (x i j k)) / Real.exp m := by
      simp only [total, Finset.sum_div]
    rw [ht]
    have := Real.exp_pos m
    by_cases hs : total X Y Z (fun i j k => Real.exp (x i j k)) = 0
    · simp [hs]
    · field_simp

theorem total_row {α : Type} [AddCommMonoid α] (n : Nat) (v : Nat → α) :
    total 1 n 1 (fun _ j _ => v j) = ∑ j ∈ Finset.range n, v j := by simp [total]

theorem total_col {α : Type} [AddCommMonoid α] (n : Nat) (v : Nat → α) :
    total n 1 1 (fun i _ _ => v i) = ∑ j ∈ Finset.range n, v j := by simp [total]

theorem Matrix.IsVec.flat {α : Type} {M : Matrix α} {n : Nat} {v : Nat → α} (h : M.IsVec n v) {m : Nat} (hm : m < n) :
    M.flat m = .ok (v m) := by
  rcases h with h | h
  · rw [h.flat_lt (n := m) (by omega), Nat.div_one, Nat.mod_eq_of_lt hm]
  · rw [h.flat_lt (n := m) (by omega), Nat.mod_eq_of_lt hm]

theorem Matrix.IsVec.facts {α : Type} {M : Matrix α} {n : Nat} {v : Nat → α} (h : M.IsVec n v) :
    0 < n ∧ n < 2147483648 ∧ Matrix.sizeD M.dim = .ok n ∧
      (Matrix.isColumnD M.dim || Matrix.isRowD M.dim) = true ∧ M.vals.length = n := by
  rcases h with h | h
  · have g := h.good
    have hs := g.small
    refine ⟨g.y, by omega, ?_, ?_, by rw [h.length]; omega⟩
    · rw [h.dim, MExpr.sizeD_dimN g]; congr 1; omega
    · simp [Matrix.isRowD, Matrix.isFlatD, h.dim]
  · have g := h.good
    have hs := g.small
    refine ⟨g.x, by omega, ?_, ?_, by rw [h.length]; omega⟩
    · rw [h.dim, MExpr.sizeD_dimN g]; congr 1; omega
    · simp [Matrix.isColumnD, Matrix.isFlatD, h.dim]

theorem Matrix.IsVec.setFlat {α : Type} {M : Matrix α} {n : Nat} {v : Nat → α} (h : M.IsVec n v) {m : Nat} (hm : m < n)
    (a : α) : ∃ M', M.setFlat m a = .ok M' ∧ M'.dim = M.dim ∧ M'.IsVec n (Function.update v m a) := by
  rcases h with h | h
  · obtain ⟨M', e, s⟩ := h.setFlat (n := m) (by omega) a
    refine ⟨M', e, s.dim.trans h.dim.symm, Or.inl (s.congr ?_)⟩
    intro i hi j hj k hk
    obtain rfl : i = 0 := by omega
    obtain rfl : k = 0 := by omega
    simp [fl, Function.update_apply]
  · obtain ⟨M', e, s⟩ := h.setFlat (n := m) (by omega) a
    refine ⟨M', e, s.dim.trans h.dim.symm, Or.inr (s.congr ?_)⟩
    intro i hi j hj k hk
    obtain rfl : j = 0 := by omega
    obtain rfl : k = 0 := by omega
    simp [fl, Function.update_apply]

theorem Matrix.IsVec.congr {α : Type} {M : Matrix α} {n : Nat} {v w : Nat → α} (h : M.IsVec n v)
    (e : ∀ m < n, v m = w m) : M.IsVec n w := by
  rcases h with h | h
  · exact Or.inl (h.congr fun i _ j hj k _ => e j hj)
  · exact Or.inr (h.congr fun i hi j _ k _ => e i hi)

theorem Matrix.IsVec.inj {α : Type} {M : Matrix α} {n : Nat} {v w : Nat → α} (h : M.IsVec n v) (h' : M.IsVec n w)
    {m : Nat} (hm : m < n) : v m = w m := by
  have := (h.flat hm).symm.trans (h'.flat hm)
  simpa using this

theorem softMax_vec {M : Matrix ℝ} {n : Nat} {v : Nat → ℝ} (hM : M.IsVec n v) :
    ∃ P, Softmax.softMax Num.real M = .ok P ∧ P.dim = M.dim ∧ P.IsVec n (softmax n v) := by
  rcases hM with hM | hM
  · obtain ⟨P, e, s⟩ := softMax_shows hM
    rw [total_row n (fun j => Real.exp (v j))] at s
    exact ⟨P, e, s.dim.trans hM.dim.symm, Or.inl s⟩
  · obtain ⟨P, e, s⟩ := softMax_shows hM
    rw [total_col n (fun j => Real.exp (v j))] at s
    exact ⟨P, e, s.dim.trans hM.dim.symm, Or.inr s⟩

theorem softmax_forward {S : Softmax} {M : Matrix ℝ} {n : Nat} {v : Nat → ℝ} (hM : M.IsVec n v) (hc : S.count = n) :
    ∃ P, S.forward Num.real M = .ok P ∧ P.dim = M.dim ∧ P.IsVec n (softmax n v) := by
  obtain ⟨P, e, d, s⟩ := softMax_vec hM
  obtain ⟨_, _, hs, hr, _⟩ := hM.facts
  refine ⟨P, ?_, d, s⟩
  unfold Softmax.forward Softmax.checkSize
  rw [if_pos hr, hs]
  simp [hc, e]

end Cnn
