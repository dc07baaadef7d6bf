import Verif.Lemmas.Schedule
/-! Helper lemmas: the label stored in the output layer during a batch (C52). -/
namespace Cnn.Train
variable {α : Type}

/-- The label a layer stores. -/
def outLabel : Body α → Option Nat
  | .softmax S => some S.trueLabel
  | _ => none

theorem storedLabel_eq (M : Model α) : storedLabel M = M.layers.getLast?.bind (fun l => outLabel l.body) := by
  unfold storedLabel
  cases M.layers.getLast? with
  | none => rfl
  | some l => simp only [Option.map_some, Option.bind_some]; cases l.body <;> rfl

theorem storedLabel_set {M : Model α} {i : Nat} {l : Layer α} {b : Body α} (hl : M.layers[i]? = some l)
    (hb : outLabel b = outLabel l.body) : storedLabel (M.setBody i b) = storedLabel M := by
  rw [storedLabel_eq, storedLabel_eq, Model.setBody]
  simp only [List.getLast?_eq_getElem?, List.length_modify, List.getElem?_modify]
  by_cases h : i = M.layers.length - 1
  · simp only [← h, hl]; exact hb
  · simp only [if_neg h]
    cases M.layers[M.layers.length - 1]? <;> rfl

theorem storedLabel_last {M : Model α} {b : Body α} (h : M.layers ≠ []) :
    storedLabel (M.setBody (M.layers.length - 1) b) = outLabel b := by
  have hp : 0 < M.layers.length := List.length_pos_iff.2 h
  rw [storedLabel_eq, Model.setBody]
  simp only [List.getLast?_eq_getElem?, List.length_modify, List.getElem?_modify]
  simp only [if_true]
  rw [List.getElem?_eq_getElem (by omega)]
  rfl

section
variable [Zero α] [One α] [Add α] [Sub α] [Mul α] [Div α] [Neg α]

theorem forward_outLabel {N : Num α} {dr : Nat → α} {X : Matrix α} {b : Nat} {B : Body α} {r : Matrix α × Body α}
    (h : B.forward N dr X b = .ok r) : outLabel r.2 = outLabel B := by
  cases B <;> (obtain ⟨y, _, h⟩ := Res.bind_eq_ok h; obtain rfl := Res.ok.inj h; rfl)

theorem backward_outLabel {N : Num α} {o : ArgOrder} {X Z D : Matrix α} {b : Nat} {last : Bool} {B : Body α}
    {r : Matrix α × Body α} (h : B.backward N o X Z D b last = .ok r) : outLabel r.2 = outLabel B := by
  cases B <;> (obtain ⟨y, _, h⟩ := Res.bind_eq_ok h; obtain rfl := Res.ok.inj h; rfl)

theorem forwardStep_label {E : Env α} {b i : Nat} {s r : (Matrix α × List (Matrix α)) × Model α}
    (h : Model.forwardStep E b s i = .ok r) : storedLabel r.2 = storedLabel s.2 ∧ r.2.labels = s.2.labels ∧
      r.2.layers.length = s.2.layers.length := by
  unfold Model.forwardStep Model.forwardLayer at h
  obtain ⟨y, hy, h⟩ := Res.bind_eq_ok h
  obtain ⟨R, hR, h⟩ := Res.bind_eq_ok h
  obtain rfl := Res.ok.inj h
  obtain ⟨l, hl, hy⟩ := Res.bind_eq_ok hy
  obtain ⟨z, hz, hy⟩ := Res.bind_eq_ok hy
  obtain rfl := Res.ok.inj hy
  have hl : s.2.layers[i]? = some l := by
    cases h : s.2.layers[i]? with
    | none => rw [h] at hl; exact absurd hl (by simp [Res.ofOption])
    | some m => rw [h] at hl; exact congrArg some (Res.ok.inj hl)
  exact ⟨storedLabel_set hl (forward_outLabel hz), rfl, by simp [Model.setBody]⟩

theorem backwardStep_label {E : Env α} {r : Results α} {b i : Nat} {s q : Matrix α × Model α}
    (h : Model.backwardStep E r b s i = .ok q) : storedLabel q.2 = storedLabel s.2 ∧ q.2.labels = s.2.labels ∧
      q.2.layers.length = s.2.layers.length := by
  unfold Model.backwardStep at h
  obtain ⟨X, _, h⟩ := Res.bind_eq_ok h
  obtain ⟨Z, _, h⟩ := Res.bind_eq_ok h
  obtain ⟨l, hl, h⟩ := Res.bind_eq_ok h
  obtain ⟨X', _, h⟩ := Res.bind_eq_ok h
  obtain ⟨Z', _, h⟩ := Res.bind_eq_ok h
  obtain ⟨z, hz, h⟩ := Res.bind_eq_ok h
  obtain rfl := Res.ok.inj h
  have hl : s.2.layers[i]? = some l := by
    cases h : s.2.layers[i]? with
    | none => rw [h] at hl; exact absurd hl (by simp [Res.ofOption])
    | some m => rw [h] at hl; exact congrArg some (Res.ok.inj hl)
  exact ⟨storedLabel_set hl (backward_outLabel hz), rfl, by simp [Model.setBody]⟩

omit [Sub α] [Div α] in
theorem backwardBegin_label {E : Env α} {M : Model α} {r : Results α} {lab : List Char} {q : Results α × Model α}
    (h : M.backwardBegin E r lab = .ok q) : storedLabel q.2 = some (M.labelIndex lab) ∧ q.2.labels = M.labels ∧
      q.2.layers.length = M.layers.length := by
  unfold Model.backwardBegin at h
  obtain ⟨r', _, h⟩ := Res.bind_eq_ok h
  obtain ⟨l, hl, h⟩ := Res.bind_eq_ok h
  have hne : M.layers ≠ [] := by
    intro h0
    rw [h0] at hl
    exact absurd hl (by simp [Res.ofOption])
  cases hb : l.body with
  | softmax S =>
    rw [hb] at h
    simp only [Softmax.assignTrueLabel] at h
    by_cases hc : M.labelIndex lab ≥ S.count
    · rw [if_pos hc] at h; exact absurd h (by simp)
    · rw [if_neg hc] at h
      simp only [Res.bind_ok] at h
      obtain rfl := Res.ok.inj h
      exact ⟨storedLabel_last hne, rfl, by simp [Model.setBody]⟩
  | _ => rw [hb] at h; exact absurd h (by simp)

/-- What a step does to the label in the output layer and to the events about labels. -/
inductive LMoves (t : Nat) (sh : Shared α) (p q : Pc α) (sh' : Shared α) (evs : List (Event α)) : Prop
  | label {slot x r r' n d} (hp : p = .label slot x r) (hq : q = .backward slot x r' n d) (he : evs = [.label t slot x])
      (hs : storedLabel sh'.model = some (sh.model.labelIndex x.label))
  | grad {slot x r n d d' used} (hp : p = .backward slot x r (n + 1) d) (hq : q = .backward slot x r n d')
      (he : evs = [.grad t slot x used]) (hu : storedLabel sh.model = some used)
      (hs : storedLabel sh'.model = storedLabel sh.model)
  | other (hl : labelled evs = []) (hg : grads evs = []) (hs : storedLabel sh'.model = storedLabel sh.model)
      (hb : ∀ slot x r n d, q = .backward slot x r n d → ∃ r n d, p = .backward slot x r n d)

theorem step_labels {E : Env α} {t cutoff : Nat} {sh : Shared α} {p : Pc α} {r : Pc α × Shared α × List (Event α)}
    (h : p.step E t cutoff sh = .ok r) : LMoves t sh p r.1 r.2.1 r.2.2 ∧ r.2.1.model.labels = sh.model.labels := by
  match p with
  | .fetch slot =>
    simp only [Pc.step] at h
    by_cases hc : slot < cutoff
    · rw [if_pos hc] at h
      cases hsrc : sh.source with
      | nil =>
        rw [hsrc] at h
        obtain rfl := Res.ok.inj h
        exact ⟨.other rfl rfl rfl (by simp), rfl⟩
      | cons x rest =>
        rw [hsrc] at h
        obtain ⟨s, hs, h⟩ := Res.bind_eq_ok h
        obtain rfl := Res.ok.inj h
        exact ⟨.other rfl rfl rfl (by simp), rfl⟩
    · rw [if_neg hc] at h
      obtain rfl := Res.ok.inj h
      exact ⟨.other rfl rfl rfl (by simp), rfl⟩
  | .forward slot x i s =>
    simp only [Pc.step] at h
    by_cases hc : i < sh.model.layers.length
    · rw [if_pos hc] at h
      obtain ⟨a, ha, h⟩ := Res.bind_eq_ok h
      obtain rfl := Res.ok.inj h
      exact ⟨.other rfl rfl (forwardStep_label ha).1 (by simp), (forwardStep_label ha).2.1⟩
    · rw [if_neg hc] at h
      obtain ⟨a, ha, h⟩ := Res.bind_eq_ok h
      obtain rfl := Res.ok.inj h
      exact ⟨.other rfl rfl rfl (by simp), rfl⟩
  | .label slot x r' =>
    obtain ⟨a, ha, h⟩ := Res.bind_eq_ok h
    obtain rfl := Res.ok.inj h
    exact ⟨.label rfl rfl rfl (backwardBegin_label ha).1, (backwardBegin_label ha).2.1⟩
  | .backward slot x r' (i + 1) d =>
    obtain ⟨a, ha, h⟩ := Res.bind_eq_ok h
    obtain rfl := Res.ok.inj h
    refine ⟨?_, (backwardStep_label ha).2.1⟩
    by_cases hi : i + 1 = sh.model.layers.length
    · cases hs : storedLabel sh.model with
      | none =>
        have he : gradEvent sh.model t slot x i = [] := by simp [gradEvent, hs]
        refine .other ?_ ?_ (backwardStep_label ha).1 ?_
        · simp only [he]; rfl
        · simp only [he]; rfl
        · intro slot x r n d heq
          injection heq with h1 h2 h3 h4 h5
          subst h1 h2
          exact ⟨_, _, _, rfl⟩
      | some l =>
        have he : gradEvent sh.model t slot x i = [.grad t slot x l] := by simp [gradEvent, hs, hi]
        exact .grad rfl rfl he hs (backwardStep_label ha).1
    · have he : gradEvent sh.model t slot x i = [] := by simp [gradEvent, hi]
      refine .other ?_ ?_ (backwardStep_label ha).1 ?_
      · simp only [he]; rfl
      · simp only [he]; rfl
      · intro slot x r n d heq
        injection heq with h1 h2 h3 h4 h5
        subst h1 h2
        exact ⟨_, _, _, rfl⟩
  | .backward slot x r' 0 d =>
    obtain rfl := Res.ok.inj h
    exact ⟨.other rfl rfl rfl (by simp), rfl⟩
  | .done slot =>
    obtain rfl := Res.ok.inj h
    exact ⟨.other rfl rfl rfl (by simp), rfl⟩

end

@[simp] theorem labelled_append (a b : List (Event α)) : labelled (a ++ b) = labelled a ++ labelled b := by
  simp [labelled]

@[simp] theorem grads_append (a b : List (Event α)) : grads (a ++ b) = grads a ++ grads b := by
  simp [grads]

/-- Each back-propagation of the output layer uses the label told last. -/
def UsesLast (M : Model α) (evs : List (Event α)) : Prop :=
  ∀ pre post t slot x used, evs = pre ++ Event.grad t slot x used :: post →
    (t, slot, x) ∈ labelled pre ∧ ∃ e, (labelled pre).getLast? = some e ∧ used = M.labelIndex e.2.2.label

/-- Each back-propagation of the output layer uses the label of its sample. -/
def UsesOwn (M : Model α) (evs : List (Event α)) : Prop :=
  ∀ t slot x used, (t, slot, x, used) ∈ grads evs → used = M.labelIndex x.label

structure LInv (M0 : Model α) (s : Batch α) (evs : List (Event α)) : Prop where
  labels : s.shared.model.labels = M0.labels
  stored : ∀ e, (labelled evs).getLast? = some e → storedLabel s.shared.model = some (M0.labelIndex e.2.2.label)
  known : ∀ (t : Nat) c slot x r n d, s.workers[t]? = some (c, .backward slot x r n d) → (t, slot, x) ∈ labelled evs
  last : UsesLast M0 evs

theorem append_split {β : Type} {a b pre post : List β} {e : β} (h : a ++ b = pre ++ e :: post) (hb : e ∉ b) :
    ∃ post', a = pre ++ e :: post' := by
  induction pre generalizing a with
  | nil =>
    cases a with
    | nil =>
      simp only [List.nil_append] at h
      exact absurd (h ▸ List.mem_cons_self) hb
    | cons x a =>
      simp only [List.cons_append, List.nil_append, List.cons.injEq] at h
      exact ⟨a, by rw [h.1]; rfl⟩
  | cons y pre ih =>
    cases a with
    | nil =>
      simp only [List.nil_append] at h
      exact absurd (by rw [h]; simp) hb
    | cons x a =>
      simp only [List.cons_append, List.cons.injEq] at h
      obtain ⟨p, hp⟩ := ih h.2
      exact ⟨p, by rw [h.1, hp]; rfl⟩

theorem UsesLast.append {M : Model α} {evs ev : List (Event α)} (h : UsesLast M evs) (hg : grads ev = []) :
    UsesLast M (evs ++ ev) := by
  intro pre post t slot x used he
  have hn : Event.grad t slot x used ∉ ev := by
    intro hm
    have : (t, slot, x, used) ∈ grads ev := List.mem_filterMap.2 ⟨_, hm, rfl⟩
    rw [hg] at this
    exact absurd this (by simp)
  obtain ⟨p, hp⟩ := append_split he hn
  exact h pre p t slot x used hp

theorem snoc_split {β : Type} {a pre post : List β} {b e : β} (h : a ++ [b] = pre ++ e :: post) :
    (∃ post', a = pre ++ e :: post') ∨ (e = b ∧ pre = a) := by
  induction pre generalizing a with
  | nil =>
    cases a with
    | nil =>
      simp only [List.nil_append, List.cons.injEq] at h
      exact Or.inr ⟨h.1.symm, rfl⟩
    | cons x a =>
      simp only [List.cons_append, List.nil_append, List.cons.injEq] at h
      exact Or.inl ⟨a, by rw [h.1]; rfl⟩
  | cons y pre ih =>
    cases a with
    | nil =>
      simp only [List.nil_append, List.cons_append, List.cons.injEq] at h
      exact absurd h.2.symm (by simp)
    | cons x a =>
      simp only [List.cons_append, List.cons.injEq] at h
      rcases ih h.2 with ⟨p, hp⟩ | ⟨h1, h2⟩
      · exact Or.inl ⟨p, by rw [h.1, hp]; rfl⟩
      · exact Or.inr ⟨h1, by rw [h.1, h2]⟩

section
variable [Zero α] [One α] [Add α] [Sub α] [Mul α] [Div α] [Neg α]

theorem LInv.step {M0 : Model α} {s : Batch α} {evs : List (Event α)} (h : LInv M0 s evs) {E : Env α} {t : Nat}
    {r : Batch α × List (Event α)} (hr : s.step E t = .ok r) : LInv M0 r.1 (evs ++ r.2) := by
  unfold Batch.step at hr
  cases hw : s.workers[t]? with
  | none =>
    rw [hw] at hr
    obtain rfl := Res.ok.inj hr
    rw [List.append_nil]; exact h
  | some w =>
    rw [hw] at hr
    simp only at hr
    obtain ⟨a, ha, hr⟩ := Res.bind_eq_ok hr
    obtain rfl := Res.ok.inj hr
    obtain ⟨hm, hlab⟩ := step_labels (terminate_ok ha)
    obtain ⟨c, p⟩ := w
    obtain ⟨q, sh', ev⟩ := a
    simp only at hm hlab ⊢
    have ht : t < s.workers.length := (List.getElem?_eq_some_iff.1 hw).1
    have hidx : ∀ l, s.shared.model.labelIndex l = M0.labelIndex l := by
      intro l; unfold Model.labelIndex; rw [h.labels]
    have hget : ∀ u c' p', (s.workers.set t (c, q))[u]? = some (c', p') →
        (u = t ∧ p' = q) ∨ (s.workers[u]? = some (c', p')) := by
      intro u c' p' hu
      by_cases htu : t = u
      · subst htu
        rw [List.getElem?_set_self ht] at hu
        exact Or.inl ⟨rfl, (Prod.mk.inj (Option.some.inj hu)).2.symm⟩
      · rw [List.getElem?_set_ne htu] at hu
        exact Or.inr hu
    refine ⟨hlab.trans h.labels, ?_, ?_, ?_⟩
    · intro e he
      cases hm with
      | label hp hq hev hs =>
        subst hev
        rw [labelled_append, show labelled [Event.label t _ _] = [(t, _, _)] from rfl, List.getLast?_append] at he
        obtain rfl := Option.some.inj he
        rw [hs, hidx]
        rfl
      | grad hp hq hev hu hs =>
        subst hev
        rw [labelled_append, show labelled [Event.grad t _ _ _] = [] from rfl, List.append_nil] at he
        rw [hs]; exact h.stored e he
      | other hl hg hs hb =>
        rw [labelled_append, hl, List.append_nil] at he
        rw [hs]; exact h.stored e he
    · intro u c' slot x r' n d hu
      rw [labelled_append, List.mem_append]
      rcases hget u c' _ hu with ⟨rfl, hq'⟩ | hu
      · cases hm with
        | label hp hq hev hs =>
          rw [hq] at hq'
          injection hq' with h1 h2
          subst h1 h2 hev
          exact Or.inr (by simp [labelled])
        | grad hp hq hev hu' hs =>
          rw [hq] at hq'
          injection hq' with h1 h2
          subst h1 h2 hp
          exact Or.inl (h.known u c _ _ _ _ _ hw)
        | other hl hg hs hb =>
          obtain ⟨r'', n', d', hp⟩ := hb _ _ _ _ _ hq'.symm
          subst hp
          exact Or.inl (h.known u c _ _ _ _ _ hw)
      · exact Or.inl (h.known u c' _ _ _ _ _ hu)
    · cases hm with
      | label hp hq hev hs => subst hev; exact h.last.append rfl
      | other hl hg hs hb => exact h.last.append hg
      | grad hp hq hev hu hs =>
        subst hev hp
        intro pre post t' slot' x' used' heq
        rcases snoc_split heq with ⟨p, hp⟩ | ⟨h1, rfl⟩
        · exact h.last pre p t' slot' x' used' hp
        · injection h1 with h1 h2 h3 h4
          subst h1 h2 h3 h4
          have hk := h.known _ c _ _ _ _ _ hw
          refine ⟨hk, ?_⟩
          have hne : labelled pre ≠ [] := by
            intro h0; rw [h0] at hk; exact absurd hk (by simp)
          refine ⟨(labelled pre).getLast hne, List.getLast?_eq_some_getLast hne, ?_⟩
          have := h.stored _ (List.getLast?_eq_some_getLast hne)
          rw [hu] at this
          exact Option.some.inj this

theorem LInv.run {M0 : Model α} {E : Env α} {sched : List Nat} : ∀ {s : Batch α} {evs : List (Event α)}, LInv M0 s evs →
    ∀ {r : Batch α × List (Event α)}, s.run E sched = .ok r → LInv M0 r.1 (evs ++ r.2) := by
  induction sched with
  | nil =>
    intro s evs h r hr
    obtain rfl := Res.ok.inj hr
    rw [List.append_nil]; exact h
  | cons t ts ih =>
    intro s evs h r hr
    unfold Batch.run at hr
    obtain ⟨a, ha, hr⟩ := Res.bind_eq_ok hr
    obtain ⟨b, hb, hr⟩ := Res.bind_eq_ok hr
    obtain rfl := Res.ok.inj hr
    rw [← List.append_assoc]
    exact ih (h.step ha) hb

/-- With a single thread the last label told is that of the sample being propagated backwards. -/
structure OneInv (M0 : Model α) (s : Batch α) (evs : List (Event α)) : Prop where
  len : s.workers.length ≤ 1
  labels : s.shared.model.labels = M0.labels
  stored : ∀ c slot x r n d, s.workers[0]? = some (c, .backward slot x r n d) →
    storedLabel s.shared.model = some (M0.labelIndex x.label)
  own : UsesOwn M0 evs

theorem OneInv.step {M0 : Model α} {s : Batch α} {evs : List (Event α)} (h : OneInv M0 s evs) {E : Env α} {t : Nat}
    {r : Batch α × List (Event α)} (hr : s.step E t = .ok r) : OneInv M0 r.1 (evs ++ r.2) := by
  unfold Batch.step at hr
  cases hw : s.workers[t]? with
  | none =>
    rw [hw] at hr
    obtain rfl := Res.ok.inj hr
    rw [List.append_nil]; exact h
  | some w =>
    rw [hw] at hr
    simp only at hr
    obtain ⟨a, ha, hr⟩ := Res.bind_eq_ok hr
    obtain rfl := Res.ok.inj hr
    obtain ⟨hm, hlab⟩ := step_labels (terminate_ok ha)
    obtain ⟨c, p⟩ := w
    obtain ⟨q, sh', ev⟩ := a
    simp only at hm hlab ⊢
    have ht : t < s.workers.length := (List.getElem?_eq_some_iff.1 hw).1
    have h1 := h.len
    obtain rfl : t = 0 := by omega
    have hidx : ∀ l, s.shared.model.labelIndex l = M0.labelIndex l := by
      intro l; unfold Model.labelIndex; rw [h.labels]
    refine ⟨by simpa using h1, hlab.trans h.labels, ?_, ?_⟩
    · intro c' slot x r' n d hu
      simp only at hu
      rw [List.getElem?_set_self ht] at hu
      have hq' : q = .backward slot x r' n d := (Prod.mk.inj (Option.some.inj hu)).2
      cases hm with
      | label hp hq hev hs =>
        rw [hq] at hq'
        injection hq' with h1 h2
        subst h1 h2
        exact hs.trans (by rw [hidx])
      | grad hp hq hev hu' hs =>
        rw [hq] at hq'
        injection hq' with h1 h2
        subst h1 h2 hp
        exact hs.trans (h.stored _ _ _ _ _ _ hw)
      | other hl hg hs hb =>
        obtain ⟨r'', n', d', hp⟩ := hb _ _ _ _ _ hq'
        subst hp
        exact hs.trans (h.stored _ _ _ _ _ _ hw)
    · intro t' slot' x' used' hm'
      rw [grads_append, List.mem_append] at hm'
      rcases hm' with hm' | hm'
      · exact h.own _ _ _ _ hm'
      · cases hm with
        | label hp hq hev hs => subst hev; exact absurd hm' (by simp [grads])
        | other hl hg hs hb => rw [hg] at hm'; exact absurd hm' (by simp)
        | grad hp hq hev hu hs =>
          subst hev hp
          have h2 := h.stored _ _ _ _ _ _ hw
          rw [hu] at h2
          have h2 := Option.some.inj h2
          simp only [grads, List.filterMap_cons, List.filterMap_nil, List.mem_singleton, Prod.mk.injEq] at hm'
          obtain ⟨_, _, rfl, rfl⟩ := hm'
          exact h2

theorem OneInv.run {M0 : Model α} {E : Env α} {sched : List Nat} : ∀ {s : Batch α} {evs : List (Event α)}, OneInv M0 s evs →
    ∀ {r : Batch α × List (Event α)}, s.run E sched = .ok r → OneInv M0 r.1 (evs ++ r.2) := by
  induction sched with
  | nil =>
    intro s evs h r hr
    obtain rfl := Res.ok.inj hr
    rw [List.append_nil]; exact h
  | cons t ts ih =>
    intro s evs h r hr
    unfold Batch.run at hr
    obtain ⟨a, ha, hr⟩ := Res.bind_eq_ok hr
    obtain ⟨b, hb, hr⟩ := Res.bind_eq_ok hr
    obtain rfl := Res.ok.inj hr
    rw [← List.append_assoc]
    exact ih (h.step ha) hb

end
end Cnn.Train
