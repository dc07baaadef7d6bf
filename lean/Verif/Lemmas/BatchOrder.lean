import Verif.Lemmas.BatchAny
/-! Helper lemmas: the update after a full batch without any law of arithmetic (C98). -/
namespace Cnn
open Train Model
variable {α : Type}

/-- The samples in the order of their slots. -/
theorem slots_order {B : Nat} {evs : List (Event α)} (h1 : ∀ e ∈ fetches evs, e.2.1 < B) (h2 : ((fetches evs).map (fun e => e.2.1)).Nodup)
    (h3 : (fetches evs).length = B) : ∃ fs : List (Nat × Nat × Sample α), fs.Perm (fetches evs) ∧ fs.map (fun e => e.2.1) = List.range B := by
  have hp : (List.range B).Perm ((fetches evs).map (fun e => e.2.1)) := by
    refine (List.Subperm.perm_of_length_le (h2.subperm ?_) (by simp [h3])).symm
    intro s hs
    obtain ⟨e, he, rfl⟩ := List.mem_map.1 hs
    exact List.mem_range.2 (h1 e he)
  have hf : List.Forall₂ (fun (s : Nat) (e : Nat × Nat × Sample α) => e.2.1 = s) ((fetches evs).map (fun e => e.2.1)) (fetches evs) := by
    generalize fetches evs = l
    induction l with
    | nil => exact .nil
    | cons e l ih => exact .cons rfl ih
  obtain ⟨fs, g1, g2⟩ := List.perm_comp_forall₂ hp hf
  refine ⟨fs, g2, ?_⟩
  clear g2 hf hp
  generalize List.range B = l at g1
  induction g1 with
  | nil => rfl
  | cons h _ ih => rw [List.map_cons, h, ih]

variable [Zero α] [One α] [Add α] [Sub α] [Mul α] [Div α] [Neg α]

/-- A full batch: the update is computed from the gradients that the samples give on their own, in the order of their slots. -/
theorem runBatch_ordered {E : Env α} {p : Hyper α} {B T : Nat} (hp : p.batch = B) (hq : p.threads = T) (hB : B < 2 ^ 24)
    {sh : Shared α} (hM : sh.model.Prepared B) (hfull : B ≤ sh.source.length) {sched : List Nat} {q : Shared α × List (Event α)}
    (hal : ∀ x ∈ sh.source.take B, ∀ y ∈ sh.source.take B, ∃ m, alone E sh.model ⟨x.data, y.label⟩ = .ok m)
    (h : runBatch E p sched sh = .ok (some q)) :
    ∃ us used : List (Sample α), used.length = B ∧ used.Perm us ∧ us.map (·.data) = (sh.source.take B).map (·.data) ∧
      (∀ u ∈ us, ∃ y ∈ sh.source.take B, u.label = y.label) ∧ (OwnLabels sh.model q.2 → us = sh.source.take B) ∧
      ∀ i W Bi, sh.model.params i = some (W, Bi) → ∃ (gs : List (Matrix α × Matrix α)) (r : Matrix α × Matrix α),
        used.map (ownGrads E sh.model · i) = gs.map some ∧
        applyGrads E.num p.rate W Bi (gs.map (·.1)) (gs.map (·.2)) = .ok r ∧ q.1.model.params i = some r := by
  obtain ⟨s, r, hs, hr, ho, hM', h2, h3⟩ := runBatch_split h
  rw [hp, hq] at hs
  obtain ⟨e1, e3, e4, e5, e6, e7, e8⟩ := run_end hB hM.ready hs hr ho
  rw [Nat.min_eq_left hfull] at e6
  obtain ⟨fs, f1, f2⟩ := slots_order (fun e he => (e3 e.1 e.2.1 e.2.2 he).1) e5 e6
  have key : ∃ U : Nat × Nat × Sample α → Sample α, (∀ e ∈ fetches r.2,
      (∀ i, ownGrads E sh.model (U e) i = r.1.shared.model.stored i e.2.1) ∧ (U e).data = e.2.2.data ∧ ∃ y ∈ sh.source.take B, (U e).label = y.label) ∧
      (OwnLabels sh.model q.2 → ∀ e, U e = e.2.2) := by
    by_cases hown : OwnLabels sh.model q.2
    · refine ⟨fun e => e.2.2, ?_, fun _ _ => rfl⟩
      rintro ⟨t, s, x⟩ he
      obtain ⟨hs, l, hl, hso⟩ := e3 t s x he
      obtain rfl := hown t s x l (by rw [h2]; exact hl)
      exact ⟨fun i => hso.ownGrads hM hs i, rfl, x, by rw [← e7]; exact List.mem_map.2 ⟨_, he, rfl⟩, rfl⟩
    · obtain ⟨U, hU⟩ := run_used hB hM hs hr ho hal
      exact ⟨U, fun e he => (hU e he).2, fun h => absurd h hown⟩
  obtain ⟨U, hU, hown⟩ := key
  have hmem : ∀ e ∈ fs, e ∈ fetches r.2 := fun e he => f1.subset he
  refine ⟨(fetches r.2).map U, fs.map U, ?_, f1.map U, ?_, ?_, ?_, ?_⟩
  · rw [List.length_map, ← List.length_map (f := fun e : Nat × Nat × Sample α => e.2.1), f2, List.length_range]
  · rw [← e7, List.map_map, List.map_map]
    exact List.map_congr_left fun e he => (hU e he).2.1
  · intro u hu
    obtain ⟨e, he, rfl⟩ := List.mem_map.1 hu
    exact (hU e he).2.2
  · intro h
    rw [← e7]
    exact List.map_congr_left fun e _ => hown h e
  · intro i W Bi hpar
    obtain ⟨gs, rr, g1, g2, g3⟩ := Model.applyBatch_params (hM.of_bare e1) hM' (p := (W, Bi)) (by rw [Model.bare_params e1]; exact hpar)
    refine ⟨gs, rr, ?_, g2, g3⟩
    rw [← g1, ← f2, List.map_map, List.map_map]
    exact List.map_congr_left fun e he => (hU e (hmem e he)).1 i

end Cnn
