import Verif.Lemmas.BatchAny
/-! Helper lemmas: for every number of threads there are schedules in which every thread uses its own labels (C53). -/
set_option linter.unusedSectionVars false
namespace Cnn.Train
open Model
variable {α : Type} [Zero α] [One α] [Add α] [Sub α] [Mul α] [Div α] [Neg α]

/-- At most one thread is propagating backwards, and the label stored is its own. -/
structure OInv (M0 : Model α) (s : Batch α) (evs : List (Event α)) : Prop where
  labels : s.shared.model.labels = M0.labels
  single : ∀ (t t' c c' slot slot' : Nat) (x x' : Sample α) (r r' : Results α) (n n' : Nat) (d d' : Matrix α),
    s.workers[t]? = some (c, Pc.backward slot x r n d) → s.workers[t']? = some (c', Pc.backward slot' x' r' n' d') → t = t'
  stored : ∀ (t c slot : Nat) (x : Sample α) (r : Results α) (n : Nat) (d : Matrix α), s.workers[t]? = some (c, Pc.backward slot x r n d) →
    storedLabel s.shared.model = some (M0.labelIndex x.label)
  own : UsesOwn M0 evs

/-- Thread `t` propagates backwards, or no thread does. -/
def MayStep (s : Batch α) (t : Nat) : Prop :=
  ∀ (t' c slot : Nat) (x : Sample α) (r : Results α) (n : Nat) (d : Matrix α), s.workers[t']? = some (c, Pc.backward slot x r n d) → t' = t

theorem OInv.step {M0 : Model α} {s : Batch α} {evs : List (Event α)} (h : OInv M0 s evs) {E : Env α} {t : Nat} (hmay : MayStep s t)
    {r : Batch α × List (Event α)} (hr : s.step E t = .ok r) : OInv M0 r.1 (evs ++ r.2) := by
  unfold Batch.step at hr
  cases hw : s.workers[t]? with
  | none =>
    rw [hw] at hr
    obtain rfl := Res.ok.inj hr
    rw [List.append_nil]; exact h
  | some w =>
    rw [hw] at hr
    simp only at hr
    obtain ⟨a, ha, hr⟩ := Res.bind_eq_ok hr
    obtain rfl := Res.ok.inj hr
    obtain ⟨hm, hlab⟩ := step_labels (terminate_ok ha)
    obtain ⟨c, p⟩ := w
    obtain ⟨q, sh', ev⟩ := a
    simp only at hm hlab ⊢
    have ht : t < s.workers.length := (List.getElem?_eq_some_iff.1 hw).1
    have hidx : ∀ l, s.shared.model.labelIndex l = M0.labelIndex l := by
      intro l; unfold Model.labelIndex; rw [h.labels]
    have only : ∀ (t' c' slot : Nat) (x : Sample α) (r : Results α) (n : Nat) (d : Matrix α),
        (s.workers.set t (c, q))[t']? = some (c', Pc.backward slot x r n d) → t' = t := by
      intro t' c' slot x r n d hu
      by_contra hne
      rw [List.getElem?_set_ne (Ne.symm hne)] at hu
      exact hne (hmay _ _ _ _ _ _ _ hu)
    refine ⟨hlab.trans h.labels, ?_, ?_, ?_⟩
    · intro t1 t2 c1 c2 s1 s2 x1 x2 r1 r2 n1 n2 d1 d2 h1 h2
      rw [only _ _ _ _ _ _ _ h1, only _ _ _ _ _ _ _ h2]
    · intro t' c' slot x r' n d hu
      obtain rfl := only _ _ _ _ _ _ _ hu
      simp only at hu
      rw [List.getElem?_set_self ht] at hu
      have hq' : q = .backward slot x r' n d := (Prod.mk.inj (Option.some.inj hu)).2
      cases hm with
      | label hp hq hev hs =>
        rw [hq] at hq'
        injection hq' with h1 h2
        subst h1 h2
        exact hs.trans (by rw [hidx])
      | grad hp hq hev hu' hs =>
        rw [hq] at hq'
        injection hq' with h1 h2
        subst h1 h2 hp
        exact hs.trans (h.stored _ _ _ _ _ _ _ hw)
      | other hl hg hs hb =>
        obtain ⟨r'', n', d', hp⟩ := hb _ _ _ _ _ hq'
        subst hp
        exact hs.trans (h.stored _ _ _ _ _ _ _ hw)
    · intro t' slot' x' used' hm'
      rw [grads_append, List.mem_append] at hm'
      rcases hm' with hm' | hm'
      · exact h.own _ _ _ _ hm'
      · cases hm with
        | label hp hq hev hs => rw [hev] at hm'; simp [grads] at hm'
        | other hl hg hs hb => rw [hg] at hm'; simp at hm'
        | grad hp hq hev hu hs =>
          subst hp
          have h1 := h.stored _ _ _ _ _ _ _ hw
          rw [hu] at h1
          have h2 := Option.some.inj h1
          rw [hev] at hm'
          simp only [grads, List.filterMap_cons, List.filterMap_nil, List.mem_singleton, Prod.mk.injEq] at hm'
          obtain ⟨_, _, rfl, rfl⟩ := hm'
          exact h2

/-- A batch can come to its end with every thread using its own labels. -/
theorem run_own {E : Env α} {M0 : Model α} {T B w : Nat} {src0 : List (Sample α)} (hR : Runs E M0 B (src0.take B)) (hM0 : M0.Ready) :
    ∀ (n : Nat) {s : Batch α} {evs : List (Event α)}, s.todo ≤ n → GInv E M0 s evs → BInv T B w src0 s evs → PInv M0 (src0.take B) s evs →
      OInv M0 s evs → ∃ sched r, s.run E sched = .ok r ∧ r.1.over = true ∧ UsesOwn M0 (evs ++ r.2) := by
  intro n
  induction n with
  | zero =>
    intro s evs hn _ _ _ hO
    refine ⟨[], _, rfl, ?_, by rw [List.append_nil]; exact hO.own⟩
    rw [Batch.over, List.all_eq_true]
    intro v hv
    obtain ⟨t, ht⟩ := List.mem_iff_getElem?.1 hv
    have hsum : v.2.todo s.shared.model.layers.length ≤ (s.workers.map fun w => w.2.todo s.shared.model.layers.length).sum :=
      List.single_le_sum (by simp) _ (List.mem_map.2 ⟨v, hv, rfl⟩)
    unfold Batch.todo at hn
    have : v.2.todo s.shared.model.layers.length = 0 := by omega
    obtain ⟨c, p⟩ := v
    cases p <;> simp [Pc.todo] at this ⊢
  | succ n ih =>
    intro s evs hn hG hB hP hO
    by_cases ho : s.over = true
    · exact ⟨[], _, rfl, ho, by rw [List.append_nil]; exact hO.own⟩
    · have : ∃ (t : Nat) (v : Nat × Pc α), s.workers[t]? = some v ∧ v.2.isDone = false ∧ MayStep s t := by
        by_cases hb : ∃ (t c slot : Nat) (x : Sample α) (r : Results α) (n : Nat) (d : Matrix α), s.workers[t]? = some (c, Pc.backward slot x r n d)
        · obtain ⟨t, c, slot, x, r, n, d, ht⟩ := hb
          exact ⟨t, _, ht, rfl, fun t' c' slot' x' r' n' d' ht' => hO.single _ _ _ _ _ _ _ _ _ _ _ _ _ _ ht' ht⟩
        · rw [Batch.over, List.all_eq_true] at ho
          push Not at ho
          obtain ⟨v, hv, hd⟩ := ho
          obtain ⟨t, ht⟩ := List.mem_iff_getElem?.1 hv
          refine ⟨t, v, ht, ?_, fun t' c' slot' x' r' n' d' ht' => absurd ⟨_, _, _, _, _, _, _, ht'⟩ hb⟩
          obtain ⟨c, p⟩ := v
          cases p <;> simp [Pc.isDone] at hd ⊢
      obtain ⟨t, v, ht, hd, hmay⟩ := this
      obtain ⟨a, ha⟩ := step_ok hR hG hB hP t
      have hlt := batchStep_todo ht hd ha
      obtain ⟨sched, b, hb, hbo, hown⟩ := ih (by omega) (hG.step hM0 hB ha) (hB.step ha) (hP.step hG hB ha) (hO.step hmay ha)
      exact ⟨t :: sched, (b.1, a.2 ++ b.2), by rw [Batch.run, ha, Res.bind_ok, hb, Res.bind_ok], hbo, by rw [← List.append_assoc]; exact hown⟩

/-- Some schedule completes the batch with every thread using its own labels. -/
theorem runBatch_own {β : Type} [Zero β] [One β] [Add β] [Sub β] [Mul β] [Div β] [Neg β] {E : Env β} {p : Hyper β} {B T : Nat} (hp : p.batch = B) (hq : p.threads = T) (hB : B < 2 ^ 24)
    (hT0 : 0 < T) (hT : T < 2147483648) {sh : Shared β} (hM : sh.model.Prepared B)
    (hal : ∀ x ∈ sh.source.take B, ∀ y ∈ sh.source.take B, ∃ m, alone E sh.model ⟨x.data, y.label⟩ = .ok m)
    (hsize : ∀ i W Bi, sh.model.params i = some (W, Bi) → ∃ X Y Z F w, ∃ β : Nat → β, W.Shows X Y Z w ∧ Bi.Shows F 1 1 (fun f _ _ => β f) ∧
      ∀ x ∈ sh.source.take B, ∀ y ∈ sh.source.take B, ∃ G H u v, ownGrads E sh.model ⟨x.data, y.label⟩ i = some (G, H) ∧ G.Reads X Y Z u ∧ H.Reads F 1 1 v)
    (hold : B ≤ sh.source.length ∨ ∀ i W Bi X Y Z F w, ∀ β : Nat → β, sh.model.params i = some (W, Bi) → W.Shows X Y Z w →
      Bi.Shows F 1 1 (fun f _ _ => β f) → ∀ s < B, ∃ G H u v, sh.model.stored i s = some (G, H) ∧ G.Reads X Y Z u ∧ H.Reads F 1 1 v) :
    ∃ sched q, runBatch E p sched sh = .ok (some q) ∧ OwnLabels sh.model q.2 := by
  obtain ⟨i1, i2, i3⟩ := batch_init (E := E) (B := B) (T := T) (w := share B T) sh
  have hR := Runs.of_alone hM hal
  have hO : OInv sh.model (⟨sh, (List.range T).map (fun t => (min ((t + 1) * share B T) B, Pc.fetch (t * share B T)))⟩ : Batch β) [] := by
    refine ⟨rfl, ?_, ?_, by simp [UsesOwn, grads]⟩
    · intro t t' c c' slot slot' x x' r r' n n' d d' h
      simp at h
    · intro t c slot x r n d h
      simp at h
  obtain ⟨sched, r, hr, ho, hown⟩ := run_own hR hM.ready _ le_rfl i2 i1 i3 hO
  obtain ⟨q, hq, he⟩ := runBatch_over hp hq hB hT0 hT hM hal hsize hold hr ho
  exact ⟨sched, q, hq, by rw [he]; exact hown⟩

end Cnn.Train
