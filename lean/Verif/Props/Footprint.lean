import Verif.Lemmas.FootprintRace
import Verif.Props.Train
/-!
# Property C95: data races between training threads
-/
set_option linter.unusedSectionVars false
namespace Cnn
open Model Train
section
variable {α : Type} [Zero α] [One α] [Add α] [Sub α] [Mul α] [Div α] [Neg α]

/-- C95 What a step of a thread accesses is what `reads` and `writes` say. First half: put anything into a location it does not access; the step does the
same as before (also if it fails), tells an observer the same, and that location holds what was put there. -/
theorem C95_unaffected (E : Env α) (t cutoff : Nat) (sh any : Shared α) (p : Pc α) (l : Loc) (h : ¬ Touches sh.model (cutoff, p) l) :
    p.step E t cutoff (any.copy sh l) = (fun r => (r.1, any.copy r.2.1 l, r.2.2)) <$> p.step E t cutoff sh :=
  step_copy E t cutoff any sh p (fun h' => h (Or.inl h')) (fun h' => h (Or.inr h'))

/-- C95 Second half: the state after a step is that before it except for the locations written. -/
theorem C95_changes (E : Env α) (t cutoff : Nat) (sh : Shared α) (p : Pc α) (r : Pc α × Shared α × List (Event α)) (h : p.step E t cutoff sh = .ok r) :
    r.2.1 = r.2.1.copies (p.writes cutoff sh.model) sh := step_writes h

/-- C95 In every state that a batch can reach, the next steps of two threads are in a data race exactly if one of them is about to tell the
output layer the label of its sample and the other is about to do so, too, or is about to back-propagate through the output layer; the location is the label. The
fully connected layers have been used before. -/
theorem C95_races (E : Env α) (B T : Nat) (hB : B < 2147483648) (sh : Shared α)
    (hM : ∀ l ∈ sh.model.layers, ∀ L, l.body = .connected L → L.initialized = true)
    (k : Layer α) (S : Softmax) (hk : sh.model.layers.getLast? = some k) (hS : k.body = .softmax S) (s : Batch α) (hs : startBatch B T sh = .ok s)
    (sched : List Nat) (r : Batch α × List (Event α)) (hr : s.run E sched = .ok r) (t u : Nat) (l : Loc) :
    r.1.Races t u l ↔ t ≠ u ∧ l = .layer (sh.model.layers.length - 1) .label ∧ ∃ v w, r.1.workers[t]? = some v ∧ r.1.workers[u]? = some w ∧
      ((v.2.Tells ∧ w.2.Tells) ∨ (v.2.Tells ∧ w.2.Asks sh.model.layers.length) ∨ (v.2.Asks sh.model.layers.length ∧ w.2.Tells)) := by
  have hR : sh.model.Ready := by
    intro l hl
    have := hM l hl
    cases hb : l.body with
    | connected L => exact this L hb
    | _ => trivial
  have hpos : 0 < sh.model.layers.length := by
    cases hl : sh.model.layers with
    | nil => rw [hl] at hk; simp at hk
    | cons => simp
  obtain ⟨w, _, rfl⟩ := startBatch_inv hB hs
  obtain ⟨i1, i2, _⟩ := batch_init (E := E) (B := B) (T := T) (w := w) sh
  have hBI : BInv T B w sh.source r.1 r.2 := Inv.run i1 hr
  have hG : GInv E sh.model r.1 r.2 := GInv.run hR i2 i1 hr
  have hlen := bare_len hG.bare
  have hlast : ∃ k' S', r.1.shared.model.layers.getLast? = some k' ∧ k'.body = .softmax S' := by
    rw [List.getLast?_eq_getElem?] at hk ⊢
    rw [hlen]
    have := bare_get hG.bare (sh.model.layers.length - 1)
    rw [hk] at this
    cases hk' : r.1.shared.model.layers[sh.model.layers.length - 1]? with
    | none => rw [hk'] at this; simp at this
    | some k' =>
      rw [hk'] at this
      simp only [Option.map_some, Option.some.injEq, hS] at this
      cases hb : k'.body <;> simp_all [Body.bare]
  obtain ⟨k', S', hk', hS'⟩ := hlast
  have hr' : r.1.shared.model.Ready := hR.of_bare hG.bare
  have hn : r.1.shared.model.layers.length - 1 + 1 = sh.model.layers.length := by omega
  constructor
  · intro h
    refine ⟨h.1, ?_⟩
    rcases races_only (fun t u b h1 h2 => hBI.exclusive h1 h2) h with ⟨h1, v, w, h2, h3, h4⟩ | ⟨i, k, L, h1, h2, h3, h4⟩
    · rw [hn] at h4
      rw [hlen] at h1
      exact ⟨h1, v, w, h2, h3, h4⟩
    · have := hr' k (List.mem_of_getElem? h2)
      rw [h3] at this
      have : L.initialized = true := this
      rw [h4] at this
      cases this
  · rintro ⟨h1, rfl, v, w, h2, h3, h4⟩
    rw [← hlen]
    rw [← hn] at h4
    exact races_label hk' hS' h1 h2 h3 h4

/-- C95 Without that, the only other data race is on the weights of a fully connected layer that has not been used yet. -/
theorem C95_first_use (E : Env α) (B T : Nat) (hB : B < 2147483648) (sh : Shared α) (s : Batch α) (hs : startBatch B T sh = .ok s)
    (sched : List Nat) (r : Batch α × List (Event α)) (hr : s.run E sched = .ok r) (t u : Nat) (l : Loc) (h : r.1.Races t u l) :
    l = .layer (r.1.shared.model.layers.length - 1) .label ∨
      ∃ i k L, l = .layer i .params ∧ r.1.shared.model.layers[i]? = some k ∧ k.body = .connected L ∧ L.initialized = false := by
  obtain ⟨w, _, rfl⟩ := startBatch_inv hB hs
  have hBI : BInv T B w sh.source r.1 r.2 := Inv.run (batch_init (E := E) sh).1 hr
  exact (races_only (fun t u b h1 h2 => hBI.exclusive h1 h2) h).imp (fun h => h.1) id

/-- C95 The race on the label is always there: let a batch have two slots or more, two threads or more, and two samples or more, all of which can be
processed. Then the first two threads can get to where both store their labels in the same place, so the behaviour of the program is undefined. -/
theorem C95_reached (E : Env α) (B T : Nat) (hB : B < 2 ^ 24) (hB2 : 2 ≤ B) (hT2 : 2 ≤ T) (hT : T < 2147483648) (sh : Shared α) (hM : sh.model.Prepared B)
    (k : Layer α) (S : Softmax) (hk : sh.model.layers.getLast? = some k) (hS : k.body = .softmax S)
    (hal : ∀ x ∈ sh.source.take B, ∀ y ∈ sh.source.take B, ∃ m, alone E sh.model ⟨x.data, y.label⟩ = .ok m) (h2 : 2 ≤ sh.source.length) :
    ∃ s sched r, startBatch B T sh = .ok s ∧ s.run E sched = .ok r ∧ r.1.Races 0 1 (.layer (sh.model.layers.length - 1) .label) := by
  obtain ⟨s, sched, r, v, w, h1, h2, h3, h4, h5, h6⟩ := both_tell hB hB2 hT2 hT hM hal h2
  refine ⟨s, sched, r, h1, h2, ?_⟩
  refine (C95_races E B T (by omega) sh ?_ k S hk hS s h1 sched r h2 0 1 _).2 ⟨by omega, rfl, v, w, h3, h4, Or.inl ⟨h5, h6⟩⟩
  intro l hl L hL
  have := hM l hl
  rw [hL] at this
  exact this.1

/-- C95 With one thread there is no race. -/
theorem C95_one_thread (E : Env α) (B : Nat) (hB : B < 2147483648) (sh : Shared α) (s : Batch α) (hs : startBatch B 1 sh = .ok s)
    (sched : List Nat) (r : Batch α × List (Event α)) (hr : s.run E sched = .ok r) (t u : Nat) (l : Loc) : ¬ r.1.Races t u l := by
  obtain ⟨w, _, rfl⟩ := startBatch_inv hB hs
  have hBI : BInv 1 B w sh.source r.1 r.2 := Inv.run (batch_init (E := E) sh).1 hr
  rintro ⟨h, _, v, v', h1, h2, _⟩
  have h1 := (List.getElem?_eq_some_iff.1 h1).1
  have h2 := (List.getElem?_eq_some_iff.1 h2).1
  rw [hBI.len] at h1 h2
  omega

/-- C95 Two steps of different threads that do not conflict (the source and the counter of successes included) can be made in either order: the batch goes on to
the same end, with the same events in another order. So the end depends only on the order of the conflicting steps. -/
theorem C95_swap (E : Env α) (s : Batch α) (t u : Nat) (htu : t ≠ u)
    (hc : ∀ v w, s.workers[t]? = some v → s.workers[u]? = some w → ∀ l, ¬ Conflict s.shared.model v w l)
    (rest : List Nat) (r : Batch α × List (Event α)) (h : s.run E (t :: u :: rest) = .ok r) :
    ∃ evs, s.run E (u :: t :: rest) = .ok (r.1, evs) ∧ evs.Perm r.2 := by
  simp only [Batch.run] at h ⊢
  obtain ⟨a, ha, h⟩ := Res.bind_eq_ok h
  obtain ⟨q, hq, h⟩ := Res.bind_eq_ok h
  obtain ⟨b, hb, hq⟩ := Res.bind_eq_ok hq
  obtain ⟨c, hc', hq⟩ := Res.bind_eq_ok hq
  obtain rfl := Res.ok.inj h
  obtain rfl := Res.ok.inj hq
  obtain ⟨a', e1, e2⟩ := swap_step htu hc ha hb
  refine ⟨b.2 ++ (a.2 ++ c.2), ?_, ?_⟩
  · rw [e1, Res.bind_ok, e2, Res.bind_ok, hc']
    rfl
  · rw [← List.append_assoc, ← List.append_assoc]
    exact List.perm_append_comm.append_right _

end

/-- Two samples, two threads, an output layer only. -/
example : ∃ s sched r, startBatch 2 2 (⟨softmaxModel ["a".toList, "b".toList], [toySample 1 2 "a", toySample 3 4 "b"], 0⟩ : Shared Int) = .ok s ∧
    s.run toyEnv sched = .ok r ∧ r.1.Races 0 1 (.layer 0 .label) := by
  refine C95_reached toyEnv 2 2 (by decide) (by decide) (by decide) (by decide) ⟨softmaxModel ["a".toList, "b".toList], [toySample 1 2 "a", toySample 3 4 "b"], 0⟩
    ?_ _ _ rfl rfl ?_ (by decide)
  · intro l hl
    obtain rfl := List.mem_singleton.1 (show l ∈ [_] from hl)
    trivial
  · intro x hx y hy
    simp only [List.take, List.mem_cons, List.not_mem_nil, or_false] at hx hy
    rcases hx with rfl | rfl <;> rcases hy with rfl | rfl <;> exact ⟨_, rfl⟩

/-- A thread taking a sample and one telling a label: no conflict; two threads taking samples: conflict, but guarded. -/
example : (∀ l, ¬ Conflict (softmaxModel ["a".toList, "b".toList] : Model Int) (2, .fetch 1) (1, .label 0 (toySample 1 2 "a") ⟨none, 0, none, 0, 0, []⟩) l) ∧
    Conflict (softmaxModel ["a".toList, "b".toList] : Model Int) (2, .fetch 1) (1, .fetch 0) .source ∧ Loc.source.guarded := by
  refine ⟨?_, Or.inl ⟨by simp [Pc.writes], Or.inl (by simp [Pc.reads])⟩, trivial⟩
  intro l h
  simp [Conflict, Touches, Pc.reads, Pc.writes] at h
  grind

end Cnn
