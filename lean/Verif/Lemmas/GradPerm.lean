import Verif.Lemmas.PoolSlot
import Verif.Lemmas.Params
import Mathlib.Algebra.BigOperators.Fin
import Mathlib.Algebra.Field.Basic
/-! Helper lemmas: a gradient step does not depend on the order of the slots (C53). -/
namespace Cnn
variable {α : Type} {X Y Z : Nat}

/-- `M += g` can succeed only if `g` has the size of `M` and all its entries can be read. -/
theorem Matrix.opAssign_reads [Zero α] {op : α → α → α} {M M' g : Matrix α} {f : Nat → Nat → Nat → α} (hM : M.Shows X Y Z f)
    (h : M.opAssign op g.dim (fun _ => g.read) = .ok M') : ∃ u, g.Reads X Y Z u := by
  unfold Matrix.opAssign at h
  obtain ⟨_, e, h⟩ := Res.bind_eq_ok h
  have hd : g.dim = dimN X Y Z := by
    unfold Matrix.checkSize at e
    by_cases hne : M.dim ≠ g.dim
    · rw [if_pos hne] at e; exact absurd e (by simp)
    · rw [← hM.dim]; exact (not_not.1 hne).symm
  have key : ∀ i < X, ∀ j < Y, ∀ k < Z, ∃ v, g.read (dimN i j k) = .ok v := by
    intro i hi j hj k hk
    rw [hM.dim, forRange_eq_fold _ (by simp), fuel_dimN (by omega) (by omega)] at h
    have hn : fl X Y i j k < X * Y * Z := fl_lt hi hj hk
    obtain ⟨u, u', hs⟩ := foldlM_range_steps _ _ h _ hn
    obtain ⟨v, e1, _⟩ := Res.bind_eq_ok hs
    refine ⟨v, ?_⟩
    rw [iterAt_dimN (by omega) (by omega), unflat_fl hi hj] at e1
    exact e1
  have : Nonempty α := ⟨0⟩
  choose! u hu using key
  exact ⟨u, hd, hu⟩

/-- A successful gradient step: all gradients have the sizes of the parameters. -/
theorem applyGrads_inv [Zero α] [Add α] [Sub α] [Mul α] [Div α] {N : Num α} {lr : α} {W B : Matrix α} {F : Nat}
    {w b : Nat → Nat → Nat → α} (hW : W.Shows X Y Z w) (hB : B.Shows F 1 1 b) {wG bG : List (Matrix α)} {r : Matrix α × Matrix α}
    (h : applyGrads N lr W B wG bG = .ok r) :
    ∀ i < wG.length, ∃ g h u v, wG[i]? = some g ∧ bG[i]? = some h ∧ g.Reads X Y Z u ∧ h.Reads F 1 1 v := by
  obtain ⟨aw0, e1, s1⟩ := Matrix.ofDim_shows hW.good (0 : α)
  obtain ⟨ab0, e2, s2⟩ := Matrix.ofDim_shows hB.good (0 : α)
  unfold applyGrads at h
  rw [hW.dim, e1, Res.bind_ok, hB.dim, e2, Res.bind_ok] at h
  obtain ⟨s, e3, _⟩ := Res.bind_eq_ok h
  clear h
  have key : ∀ n ≤ wG.length, ∀ s, (List.range n).foldlM (fun (s : Matrix α × Matrix α) (i : Nat) => do
      let g ← Res.ofOption wG[i]?
      let aw ← s.1.opAssign (· + ·) g.dim (fun _ => g.read)
      let h ← Res.ofOption bG[i]?
      let ab ← s.2.opAssign (· + ·) h.dim (fun _ => h.read)
      .ok (aw, ab)) (aw0, ab0) = .ok s →
      (∃ f, s.1.Shows X Y Z f) ∧ (∃ f, s.2.Shows F 1 1 f) ∧
      ∀ i < n, ∃ g h u v, wG[i]? = some g ∧ bG[i]? = some h ∧ g.Reads X Y Z u ∧ h.Reads F 1 1 v := by
    intro n
    induction n with
    | zero =>
      intro _ s hs
      obtain rfl := Res.ok.inj hs
      exact ⟨⟨_, s1⟩, ⟨_, s2⟩, by intro i hi; omega⟩
    | succ n ih =>
      intro hn s hs
      rw [List.range_succ, List.foldlM_append] at hs
      obtain ⟨t, e, hs⟩ := Res.bind_eq_ok hs
      obtain ⟨⟨f1, t1⟩, ⟨f2, t2⟩, t3⟩ := ih (by omega) t e
      obtain ⟨s', e4, hs⟩ := Res.bind_eq_ok hs
      obtain rfl := Res.ok.inj hs
      obtain ⟨g, eg, e4⟩ := Res.bind_eq_ok e4
      obtain ⟨aw, ea, e4⟩ := Res.bind_eq_ok e4
      obtain ⟨h, eh, e4⟩ := Res.bind_eq_ok e4
      obtain ⟨ab, eb, e4⟩ := Res.bind_eq_ok e4
      obtain rfl := Res.ok.inj e4
      obtain ⟨u, ru⟩ := Matrix.opAssign_reads t1 ea
      obtain ⟨v, rv⟩ := Matrix.opAssign_reads t2 eb
      have hg : wG[n]? = some g := by
        cases hx : wG[n]? with
        | none => rw [hx] at eg; exact absurd eg (by simp [Res.ofOption])
        | some y => rw [hx] at eg; rw [Res.ok.inj eg]
      have hh : bG[n]? = some h := by
        cases hx : bG[n]? with
        | none => rw [hx] at eh; exact absurd eh (by simp [Res.ofOption])
        | some y => rw [hx] at eh; rw [Res.ok.inj eh]
      obtain ⟨aw', ea', sa⟩ := Matrix.opAssign_shows (· + ·) t1 (fun _ => g.read)
        (fun i hi j hj k hk M' _ => ru.entry i hi j hj k hk)
      obtain ⟨ab', eb', sb⟩ := Matrix.opAssign_shows (· + ·) t2 (fun _ => h.read)
        (fun i hi j hj k hk M' _ => rv.entry i hi j hj k hk)
      rw [ru.dim, ea'] at ea
      rw [rv.dim, eb'] at eb
      obtain rfl := Res.ok.inj ea
      obtain rfl := Res.ok.inj eb
      refine ⟨⟨_, sa⟩, ⟨_, sb⟩, ?_⟩
      intro i hi
      rcases Nat.lt_or_ge i n with hlt | hge
      · exact t3 i hlt
      · obtain rfl : i = n := by omega
        exact ⟨g, h, u, v, hg, hh, ru, rv⟩
  exact (key _ (le_refl _) s e3).2.2

/-- The entry functions of a list of matrices. -/
def gradEntry [Zero α] (l : List (Matrix α)) (i a b c : Nat) : α :=
  match l[i]? with
  | some M => M.value a b c
  | none => 0

theorem gradEntry_reads [Zero α] (l : List (Matrix α)) (h : ∀ M ∈ l, ∃ f, M.Reads X Y Z f) :
    ∀ i (M : Matrix α), l[i]? = some M → M.Reads X Y Z (gradEntry l i) := by
  intro i M hM
  obtain ⟨f, hf⟩ := h M (List.mem_of_getElem? hM)
  refine ⟨hf.dim, ?_⟩
  intro a ha b hb c hc
  unfold gradEntry
  rw [hM]
  simp only [Matrix.value, hf.entry a ha b hb c hc]

theorem gradEntry_total [AddCommMonoid α] (l : List (Matrix α)) (a b c : Nat) :
    ∑ i ∈ Finset.range l.length, gradEntry l i a b c = (l.map (fun M => M.value a b c)).sum := by
  rw [← Fin.sum_univ_getElem, ← Fin.sum_univ_eq_sum_range (fun i => gradEntry l i a b c) l.length]
  refine Fintype.sum_equiv (finCongr (by simp)) _ _ ?_
  intro i
  unfold gradEntry
  rw [List.getElem?_eq_getElem i.2]
  simp

/-- In exact arithmetic a gradient step subtracts the rate times the mean of the gradients. -/
theorem applyGrads_sum [Field α] {N : Num α} {lr : α} {F : Nat} {W B : Matrix α} {w : Nat → Nat → Nat → α} {b : Nat → α}
    (hW : W.Shows X Y Z w) (hB : B.Shows F 1 1 (fun f _ _ => b f)) {gs : List (Matrix α × Matrix α)}
    (hg : ∀ p ∈ gs, (∃ f, p.1.Reads X Y Z f) ∧ ∃ f, p.2.Reads F 1 1 f) :
    ∃ W' B', applyGrads N lr W B (gs.map (·.1)) (gs.map (·.2)) = .ok (W', B') ∧
      W'.Shows X Y Z (fun a b c => w a b c - lr * ((gs.map fun p => p.1.value a b c).sum / N.ofNat gs.length)) ∧
      B'.Shows F 1 1 (fun f _ _ => b f - lr * ((gs.map fun p => p.2.value f 0 0).sum / N.ofNat gs.length)) := by
  obtain ⟨W', B', e, s1, s2⟩ := applyGrads_reads N lr (n := gs.length) hW hB (gs.map (·.1)) (gs.map (·.2))
    (gradEntry (gs.map (·.1))) (fun i f => gradEntry (gs.map (·.2)) i f 0 0) (by simp) (by simp)
    (gradEntry_reads _ (by
      intro M hM
      obtain ⟨p, hp, rfl⟩ := List.mem_map.1 hM
      exact (hg p hp).1))
    (by
      intro i M hM
      have := gradEntry_reads (gs.map (·.2)) (by
        intro M hM
        obtain ⟨p, hp, rfl⟩ := List.mem_map.1 hM
        exact (hg p hp).2) i M hM
      refine ⟨this.dim, ?_⟩
      intro f hf j hj k hk
      rw [this.entry f hf j hj k hk]
      obtain rfl : j = 0 := by omega
      obtain rfl : k = 0 := by omega
      rfl)
  refine ⟨W', B', e, s1.congr ?_, s2.congr ?_⟩
  · intro a _ b _ c _; rw [sumTo_eq, ← List.length_map (f := fun p : Matrix α × Matrix α => p.1), gradEntry_total, List.map_map]; rfl
  · intro a _ b _ c _; rw [sumTo_eq, ← List.length_map (f := fun p : Matrix α × Matrix α => p.2), gradEntry_total, List.map_map]; rfl

/-- In exact arithmetic a gradient step that succeeds gives the same for every order of the slots; the new parameters
have the sizes of the old. -/
theorem applyGrads_perm [Field α] {N : Num α} {lr : α} {F : Nat} {W B : Matrix α} {w b : Nat → Nat → Nat → α}
    (hW : W.Shows X Y Z w) (hB : B.Shows F 1 1 b) {gs gs' : List (Matrix α × Matrix α)} (hp : gs.Perm gs')
    {r : Matrix α × Matrix α} (h : applyGrads N lr W B (gs.map (·.1)) (gs.map (·.2)) = .ok r) :
    applyGrads N lr W B (gs'.map (·.1)) (gs'.map (·.2)) = .ok r ∧ (∃ f, r.1.Shows X Y Z f) ∧ ∃ f, r.2.Shows F 1 1 f := by
  have hg : ∀ p ∈ gs, (∃ f, p.1.Reads X Y Z f) ∧ ∃ f, p.2.Reads F 1 1 f := by
    intro p hp
    obtain ⟨i, hi, rfl⟩ := List.mem_iff_getElem.1 hp
    obtain ⟨g, k, u, v, e1, e2, r1, r2⟩ := applyGrads_inv hW hB h i (by simpa using hi)
    simp only [List.getElem?_map, List.getElem?_eq_getElem hi, Option.map_some, Option.some.injEq] at e1 e2
    subst e1; subst e2
    exact ⟨⟨u, r1⟩, ⟨v, r2⟩⟩
  have hB' : B.Shows F 1 1 (fun f _ _ => b f 0 0) := hB.congr (by
    intro i _ j hj k hk
    obtain rfl : j = 0 := by omega
    obtain rfl : k = 0 := by omega
    rfl)
  obtain ⟨W₁, B₁, e₁, s₁, t₁⟩ := applyGrads_sum hW hB' hg
  obtain ⟨W₂, B₂, e₂, s₂, t₂⟩ := applyGrads_sum hW hB' (gs := gs') (fun p h => hg p (hp.mem_iff.2 h))
  have hw : W₁ = W₂ := s₁.unique (s₂.congr (by
    intro a _ b _ c _
    rw [(hp.map _).sum_eq, hp.length_eq]))
  have hb : B₁ = B₂ := t₁.unique (t₂.congr (by
    intro a _ b _ c _
    rw [(hp.map _).sum_eq, hp.length_eq]))
  rw [e₁] at h
  obtain rfl := Res.ok.inj h
  exact ⟨by rw [e₂, hw, hb], ⟨_, s₁⟩, ⟨_, t₁⟩⟩

end Cnn
