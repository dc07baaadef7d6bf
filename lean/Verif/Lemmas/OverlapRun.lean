import Verif.Lemmas.Overlap
/-! Helper lemmas: a batch with overlapping layer calls runs like one in which each call is a single step (C76). -/
set_option linter.unusedSectionVars false
namespace Cnn

/-- The same outcome up to `R`. -/
def Res.Like {β γ : Type} (R : β → γ → Prop) : Res β → Res γ → Prop
  | .ok a, .ok b => R a b
  | .throw e, .throw e' => e = e'
  | .ub, .ub => True
  | .abort, .abort => True
  | _, _ => False

namespace Res.Like
variable {β γ δ ε : Type} {R : β → γ → Prop} {S : δ → ε → Prop}

theorem bind {x : Res β} {y : Res γ} {k : β → Res δ} {k' : γ → Res ε} (h : Res.Like R x y)
    (hk : ∀ a b, R a b → Res.Like S (k a) (k' b)) : Res.Like S (x >>= k) (y >>= k') := by
  cases x <;> cases y
  case ok.ok a b => exact hk a b h
  all_goals first | exact h | exact absurd h id

theorem terminate {x : Res β} {y : Res γ} (h : Res.Like R x y) : Res.Like R (Train.terminate x) (Train.terminate y) := by
  cases x <;> cases y
  case throw.throw => trivial
  all_goals first | exact h | exact absurd h id

theorem refl {x : Res β} {T : β → β → Prop} (h : ∀ a, x = .ok a → T a a) : Res.Like T x x := by
  cases x with
  | ok a => exact h a rfl
  | throw => rfl
  | ub | abort => trivial

theorem eq {x y : Res β} (h : Res.Like (fun a b => a = b) x y) : x = y := by
  cases x <;> cases y
  case ok.ok => exact congrArg Res.ok h
  case throw.throw => exact congrArg Res.throw h
  all_goals first | rfl | exact absurd h id

theorem mono {x : Res β} {y : Res γ} {T : β → γ → Prop} (h : Res.Like R x y) (hT : ∀ a b, x = .ok a → y = .ok b → R a b → T a b) :
    Res.Like T x y := by
  cases x <;> cases y
  case ok.ok a b => exact hT a b rfl rfl h
  all_goals first | exact h | exact absurd h id

theorem of_map {x : Res β} {y : Res γ} {f : β → δ} {g : γ → δ} (h : f <$> x = g <$> y) : Res.Like (fun a b => f a = g b) x y := by
  cases x <;> cases y
  case ok.ok a b => exact Res.ok.inj h
  case throw.throw => cases h; rfl
  all_goals first | trivial | exact absurd h (by intro h; cases h)

end Res.Like

namespace Overlap
open Train Model
variable {α : Type}

/-- A thread other than `t` is in a call of layer `i` on slot `c`. -/
def Others (f : Batch α) (t i c : Nat) : Prop :=
  ∃ (u : Nat) (v : Worker α), u ≠ t ∧ f.workers[u]? = some v ∧ v.seen ≠ none ∧ place v.pc = some (i, c)

/-- A thread is in a call of layer `i` on slot `c`. -/
def Hidden (f : Batch α) (i c : Nat) : Prop :=
  ∃ (u : Nat) (v : Worker α), f.workers[u]? = some v ∧ v.seen ≠ none ∧ place v.pc = some (i, c)

/-- What the batch with overlapping calls and the batch with calls that are single steps have in common. -/
structure Sim (f : Batch α) (s : Train.Batch α) : Prop where
  source : f.shared.source = s.shared.source
  hits : f.shared.hits = s.shared.hits
  workers : s.workers = f.workers.map fun w => (w.cutoff, w.pc)
  bare : f.shared.model.bare = s.shared.model.bare
  shown : ∀ (i : Nat) (B C : Body α) (c : Nat), f.shared.model.bodyAt i = some B → s.shared.model.bodyAt i = some C → ¬ Hidden f i c → B.see c = C.see c
  inCall : ∀ (t : Nat) (w : Worker α) (B : Body α), f.workers[t]? = some w → w.seen = some B → ∃ (i c : Nat) (C : Body α), place w.pc = some (i, c) ∧
    s.shared.model.bodyAt i = some C ∧ C.Inner ∧ B.bare = C.bare ∧ B.see c = C.see c
  ready : s.shared.model.Ready

/-- No two threads work on the same slot. -/
def Apart (f : Batch α) : Prop := ∀ (t u : Nat) (w v : Worker α) (i j c : Nat), f.workers[t]? = some w →
  f.workers[u]? = some v → place w.pc = some (i, c) →
  place v.pc = some (j, c) → t = u

theorem bodyAt_bare {M M' : Model α} (h : M.bare = M'.bare) {i : Nat} {B : Body α} (hB : M.bodyAt i = some B) :
    ∃ C, M'.bodyAt i = some C ∧ B.bare = C.bare := by
  have := bare_get h i
  unfold bodyAt at hB ⊢
  obtain ⟨l, hl, rfl⟩ := Option.map_eq_some_iff.1 hB
  rw [hl] at this
  cases hm : M'.layers[i]? with
  | none => rw [hm] at this; simp at this
  | some l' =>
    rw [hm] at this
    exact ⟨l'.body, rfl, Option.some.inj this⟩

theorem bare_setBodyAt {M : Model α} {i : Nat} {B B' : Body α} (hB : M.bodyAt i = some B) (h : B'.bare = B.bare) :
    (M.setBody i B').bare = M.bare := by
  unfold bodyAt at hB
  obtain ⟨l, hl, rfl⟩ := Option.map_eq_some_iff.1 hB
  exact bare_setBody hl h

theorem setBody_self {M : Model α} {i : Nat} {B : Body α} (hB : M.bodyAt i = some B) : M.setBody i B = M := by
  refine ext ?_ rfl rfl rfl rfl rfl rfl
  apply List.ext_getElem?
  intro j
  simp only [setBody, List.getElem?_modify]
  unfold bodyAt at hB
  by_cases hj : i = j
  · subst hj
    obtain ⟨l, hl, rfl⟩ := Option.map_eq_some_iff.1 hB
    simp [hl]
  · simp [hj]

theorem inner_some {M : Model α} {i : Nat} {B : Body α} : inner M i = some B ↔ M.bodyAt i = some B ∧ B.Inner := by
  unfold inner bodyAt
  cases h : M.layers[i]? with
  | none => simp
  | some l =>
    simp only [Option.map_some, Option.some.injEq]
    cases hb : l.body <;> simp
    all_goals first
      | (intro h; subst h; trivial)
      | (intro h; subst h; exact id)

theorem inner_none {M : Model α} {i : Nat} {B : Body α} (h : inner M i = none) (hB : M.bodyAt i = some B) : ¬ B.Inner := by
  intro hi
  rw [inner_some.2 ⟨hB, hi⟩] at h
  exact absurd h (by simp)

theorem Others.hidden {f : Batch α} {t i c : Nat} (h : Others f t i c) : Hidden f i c := by
  obtain ⟨u, v, _, h⟩ := h
  exact ⟨u, v, h⟩

theorem get_set {f : Batch α} {t u : Nat} {w v : Worker α} (h : (f.workers.set t w)[u]? = some v) :
    (u = t ∧ v = w) ∨ (u ≠ t ∧ f.workers[u]? = some v) := by
  by_cases hu : u = t
  · subst hu
    left
    rw [List.getElem?_set] at h
    split at h
    · split at h
      · exact ⟨rfl, (Option.some.inj h).symm⟩
      · exact absurd h (by simp)
    · exact absurd rfl ‹_›
  · right
    rw [List.getElem?_set_ne (Ne.symm hu)] at h
    exact ⟨hu, h⟩

theorem hidden_set {f : Batch α} {t i c : Nat} {w : Worker α} {sh : Shared α} (h : Hidden ⟨sh, f.workers.set t w⟩ i c) :
    Others f t i c ∨ (w.seen ≠ none ∧ place w.pc = some (i, c)) := by
  obtain ⟨u, v, h1, h2, h3⟩ := h
  rcases get_set h1 with ⟨rfl, rfl⟩ | ⟨hu, h1⟩
  · exact .inr ⟨h2, h3⟩
  · exact .inl ⟨u, v, hu, h1, h2, h3⟩

theorem others_set {f : Batch α} {t i c : Nat} {w : Worker α} {sh : Shared α} (h : Others f t i c) :
    Hidden ⟨sh, f.workers.set t w⟩ i c := by
  obtain ⟨u, v, h0, h1, h2, h3⟩ := h
  exact ⟨u, v, by simp only [List.getElem?_set_ne (Ne.symm h0), h1], h2, h3⟩

theorem hidden_cases {f : Batch α} {t i c : Nat} {w : Worker α} (hw : f.workers[t]? = some w) (h : Hidden f i c) :
    Others f t i c ∨ (w.seen ≠ none ∧ place w.pc = some (i, c)) := by
  obtain ⟨u, v, h1, h2, h3⟩ := h
  by_cases hu : u = t
  · subst hu
    obtain rfl := Option.some.inj (hw.symm.trans h1)
    exact .inr ⟨h2, h3⟩
  · exact .inl ⟨u, v, hu, h1, h2, h3⟩

/-- Thread `t`, not in a call, moves without touching the model. -/
theorem Sim.move {f : Batch α} {s : Train.Batch α} (h : Sim f s) {t : Nat} {w : Worker α} (hw : f.workers[t]? = some w)
    (hn : w.seen = none) (p : Pc α) (src : List (Sample α)) (n : Nat) :
    Sim ⟨⟨f.shared.model, src, n⟩, f.workers.set t ⟨w.cutoff, p, none⟩⟩ ⟨⟨s.shared.model, src, n⟩, s.workers.set t (w.cutoff, p)⟩ := by
  refine ⟨rfl, rfl, ?_, h.bare, fun i B C c hB hC hh => ?_, fun u v B hv hs => ?_, h.ready⟩
  · simp only [h.workers, List.map_set]
  · refine h.shown i B C c hB hC fun hd => hh ?_
    rcases hidden_cases hw hd with ho | ⟨h1, _⟩
    · exact others_set ho
    · exact absurd hn h1
  · rcases get_set hv with ⟨_, rfl⟩ | ⟨_, hv⟩
    · exact absurd hs (by simp)
    · exact h.inCall u v B hv hs

/-- Thread `t` finishes something at layer `i`. -/
theorem Sim.after {f : Batch α} {s : Train.Batch α} (h : Sim f s) {t : Nat} {w : Worker α} (hw : f.workers[t]? = some w)
    {i : Nat} {B C B' C' : Body α} (hB : f.shared.model.bodyAt i = some B) (hC : s.shared.model.bodyAt i = some C)
    (hi : ∀ j c, w.seen ≠ none → place w.pc = some (j, c) → j = i)
    (h1 : B'.bare = B.bare) (h2 : C'.bare = C.bare) (h3 : ∀ c, ¬ Others f t i c → B'.see c = C'.see c)
    (h4 : ∀ c, Others f t i c → C'.see c = C.see c) (p : Pc α) (src : List (Sample α)) (n : Nat) :
    Sim ⟨⟨f.shared.model.setBody i B', src, n⟩, f.workers.set t ⟨w.cutoff, p, none⟩⟩
      ⟨⟨s.shared.model.setBody i C', src, n⟩, s.workers.set t (w.cutoff, p)⟩ := by
  have hb2 : (s.shared.model.setBody i C').bare = s.shared.model.bare := bare_setBodyAt hC h2
  refine ⟨rfl, rfl, ?_, ?_, fun j B1 C1 c hB1 hC1 hh => ?_, fun u v B1 hv hs => ?_, h.ready.of_bare hb2⟩
  · simp only [h.workers, List.map_set]
  · simp only
    rw [hb2, bare_setBodyAt hB h1, h.bare]
  · simp only [setBody_bodyAt] at hB1 hC1
    by_cases hj : i = j
    · subst hj
      rw [if_pos rfl, hB] at hB1
      rw [if_pos rfl, hC] at hC1
      obtain rfl := Option.some.inj hB1
      obtain rfl := Option.some.inj hC1
      exact h3 c fun ho => hh (others_set ho)
    · rw [if_neg hj] at hB1 hC1
      refine h.shown j B1 C1 c hB1 hC1 fun hd => hh ?_
      rcases hidden_cases hw hd with ho | ⟨a, b⟩
      · exact others_set ho
      · exact absurd (hi j c a b).symm hj
  · rcases get_set hv with ⟨_, rfl⟩ | ⟨hu, hv⟩
    · exact absurd hs (by simp)
    · obtain ⟨j, c, D, a1, a2, a3, a4, a5⟩ := h.inCall u v B1 hv hs
      by_cases hj : i = j
      · subst hj
        obtain rfl := Option.some.inj (hC.symm.trans a2)
        refine ⟨i, c, C', a1, by simp only [setBody_bodyAt, if_true, hC]; rfl, a3.of_bare h2, by rw [h2, a4], ?_⟩
        rw [h4 c ⟨u, v, hu, hv, by rw [hs]; simp, a1⟩, a5]
      · exact ⟨j, c, D, a1, by simp only [setBody_bodyAt, if_neg hj, a2], a3, a4, a5⟩

/-- A layer in a call is not an output layer. -/
theorem Sim.inner {f : Batch α} {s : Train.Batch α} (h : Sim f s) {i c : Nat} {C : Body α} (hC : s.shared.model.bodyAt i = some C)
    (hh : Hidden f i c) : C.Inner := by
  obtain ⟨u, v, h1, h2, h3⟩ := hh
  obtain ⟨B, hB⟩ := Option.ne_none_iff_exists'.1 h2
  obtain ⟨j, d, D, a1, a2, a3, _⟩ := h.inCall u v B h1 hB
  obtain ⟨rfl, rfl⟩ := Prod.mk.inj (Option.some.inj (h3.symm.trans a1))
  obtain rfl := Option.some.inj (hC.symm.trans a2)
  exact a3

/-- An output layer is the same in both. -/
theorem Sim.output {f : Batch α} {s : Train.Batch α} (h : Sim f s) {i : Nat} {B : Body α} (hB : f.shared.model.bodyAt i = some B)
    (hi : ¬ B.Inner) : s.shared.model.bodyAt i = some B ∧ ∀ c, ¬ Hidden f i c := by
  obtain ⟨C, hC, hb⟩ := bodyAt_bare h.bare hB
  have hn : ∀ c, ¬ Hidden f i c := fun c hh => hi ((h.inner hC hh).of_bare hb)
  exact ⟨by rw [hC, Body.eq_of_see fun c => h.shown i B C c hB hC (hn c)], hn⟩

theorem storedLabel_at (M : Model α) : storedLabel M = match M.bodyAt (M.layers.length - 1) with
    | some (.softmax S) => some S.trueLabel
    | _ => none := by
  unfold storedLabel bodyAt
  rw [List.getLast?_eq_getElem?]
  cases M.layers[M.layers.length - 1]? with
  | none => rfl
  | some l => obtain ⟨n, b⟩ := l; cases b <;> rfl

theorem Sim.storedLabel {f : Batch α} {s : Train.Batch α} (h : Sim f s) : storedLabel f.shared.model = storedLabel s.shared.model := by
  rw [storedLabel_at, storedLabel_at, ← bare_len h.bare]
  cases hB : f.shared.model.bodyAt (f.shared.model.layers.length - 1) with
  | none =>
    cases hC : s.shared.model.bodyAt (f.shared.model.layers.length - 1) with
    | none => rfl
    | some C =>
      obtain ⟨B, hB', _⟩ := bodyAt_bare h.bare.symm hC
      rw [hB] at hB'
      exact absurd hB' (by simp)
  | some B =>
    by_cases hi : B.Inner
    · obtain ⟨C, hC, hb⟩ := bodyAt_bare h.bare hB
      rw [hC]
      have hi' := hi.of_bare hb.symm
      cases B <;> cases C <;> first | rfl | exact absurd hi id | exact absurd hi' id
    · rw [(h.output hB hi).1]

theorem Sim.gradEvent {f : Batch α} {s : Train.Batch α} (h : Sim f s) (t slot : Nat) (x : Sample α) (i : Nat) :
    gradEvent f.shared.model t slot x i = gradEvent s.shared.model t slot x i := by
  unfold Train.gradEvent
  rw [h.storedLabel, bare_len h.bare]

theorem gradEvent_inner {M : Model α} {i : Nat} {B : Body α} (hB : M.bodyAt i = some B) (hi : B.Inner) (t slot : Nat) (x : Sample α) :
    gradEvent M t slot x i = [] := by
  unfold gradEvent
  split
  · have e : M.layers.length - 1 = i := by omega
    rw [storedLabel_at, e, hB]
    cases B <;> first | rfl | exact absurd hi id
  · rfl

theorem callEvents_inner {M : Model α} {p : Pc α} {i b : Nat} {B : Body α} (hp : place p = some (i, b)) (hB : M.bodyAt i = some B)
    (hi : B.Inner) (t : Nat) : callEvents M t p = [] := by
  unfold callEvents
  split
  · obtain ⟨rfl, rfl⟩ := Prod.mk.inj (Option.some.inj hp)
    exact gradEvent_inner hB hi _ _ _
  · rfl

theorem Sim.callEvents {f : Batch α} {s : Train.Batch α} (h : Sim f s) (t : Nat) (p : Pc α) :
    callEvents f.shared.model t p = callEvents s.shared.model t p := by
  unfold Overlap.callEvents
  split
  · exact h.gradEvent _ _ _ _
  · rfl

section
variable [Zero α] [One α] [Add α] [Sub α] [Mul α] [Div α] [Neg α]

/-- Outcomes of a step of thread `t`, whose loop ends at `n`. -/
def After (f : Batch α) (s : Train.Batch α) (t n : Nat) (r q : Pc α × Shared α × List (Event α)) : Prop :=
  Sim ⟨r.2.1, f.workers.set t ⟨n, r.1, none⟩⟩ ⟨q.2.1, s.workers.set t (n, q.1)⟩ ∧ r.2.2 = q.2.2

theorem finish_eq (E : Env α) (t cutoff : Nat) (sh : Shared α) {p : Pc α} {i b : Nat} {seen cur : Body α} (hp : place p = some (i, b))
    (hB : sh.model.bodyAt i = some cur) : finish E t cutoff sh p i b seen cur =
      (call E seen p >>= fun q => .ok (q.1, { sh with model := sh.model.setBody i (q.2.putSlot b cur) },
        Overlap.callEvents (sh.model.setBody i seen) t p)) := by
  have e : (sh.model.setBody i seen).bodyAt i = some seen := by simp only [setBody_bodyAt, if_true, hB]; rfl
  unfold finish
  rw [step_call E t cutoff _ hp e]
  cases call E seen p with
  | throw | ub | abort => rfl
  | ok q =>
    simp only [Res.bind_ok]
    have e2 : ((sh.model.setBody i seen).setBody i q.2).bodyAt i = some q.2 := by simp only [setBody_bodyAt, if_true, hB]; rfl
    unfold bodyAt at e2
    obtain ⟨l, hl, e2⟩ := Option.map_eq_some_iff.1 e2
    rw [hl]
    simp only [Res.ofOption_some, Res.bind_ok, e2]

/-- The end of a call. -/
theorem Sim.finish {f : Batch α} {s : Train.Batch α} (h : Sim f s) (ha : Apart f) (E : Env α) {t : Nat} {w : Worker α}
    (hw : f.workers[t]? = some w) {seen cur : Body α} (hs : w.seen = some seen) {i b : Nat} (hp : place w.pc = some (i, b))
    (hB : f.shared.model.bodyAt i = some cur) :
    Res.Like (After f s t w.cutoff) (finish E t w.cutoff f.shared w.pc i b seen cur) (w.pc.step E t w.cutoff s.shared) := by
  obtain ⟨j, c, C, a1, hC, hi, hb, hv⟩ := h.inCall t w seen hw hs
  obtain ⟨rfl, rfl⟩ := Prod.mk.inj (Option.some.inj (hp.symm.trans a1))
  rw [finish_eq E t _ _ hp hB, step_call E t _ _ hp hC]
  have hready : C.Ready := by
    unfold bodyAt at hC
    obtain ⟨l, hl, rfl⟩ := Option.map_eq_some_iff.1 hC
    exact h.ready l (List.mem_of_getElem? hl)
  have hbC : cur.bare = C.bare := by
    obtain ⟨C', hC', hb'⟩ := bodyAt_bare h.bare hB
    rw [hC] at hC'
    rw [hb', Option.some.inj hC']
  have hL := (Res.Like.of_map (call_see E hp hv)).mono (T := fun q q' : Pc α × Body α => q.1 = q'.1 ∧ q.2.see b = q'.2.see b ∧
    q.2.bare = C.bare ∧ q'.2.bare = C.bare ∧ ∀ c ≠ b, q'.2.see c = C.see c) fun q q' e e' hq => by
      obtain ⟨f1, f2⟩ := call_frame hp (hready.of_bare hb) e
      obtain ⟨g1, g2⟩ := call_frame hp hready e'
      exact ⟨(Prod.mk.inj hq).1, (Prod.mk.inj hq).2, f1.trans hb, g1, g2⟩
  refine hL.bind fun q q' ⟨k1, k2, k3, k4, k5⟩ => ?_
  have hcI : cur.Inner := hi.of_bare hbC
  have hno : ¬ Others f t i b := by
    rintro ⟨u, v, hu, hv', _, hp'⟩
    exact hu (ha u t v w i i b hv' hw hp' hp)
  refine ⟨?_, ?_⟩
  · simp only [k1, h.source, h.hits]
    refine h.after hw hB hC (fun j c _ e => by rw [hp] at e; exact (Prod.mk.inj (Option.some.inj e)).1.symm) (Body.putSlot_bare _ _ _) k4
      (fun c hc => ?_) (fun c hc => ?_) _ _ _
    · by_cases hcb : c = b
      · subst hcb
        rw [Body.putSlot_see (k3.trans hbC.symm) hcI, k2]
      · rw [Body.putSlot_see_ne hcb, k5 c hcb]
        refine h.shown i cur C c hB hC fun hd => ?_
        rcases hidden_cases hw hd with ho | ⟨_, e⟩
        · exact hc ho
        · rw [hp] at e
          exact hcb (Prod.mk.inj (Option.some.inj e)).2.symm
    · exact k5 c fun e => hno (e ▸ hc)
  · show Overlap.callEvents _ t w.pc = Overlap.callEvents _ t w.pc
    rw [callEvents_inner hp hC hi, callEvents_inner hp (B := seen) (by simp only [setBody_bodyAt, if_true, hB]; rfl) (hi.of_bare hb)]

/-- A step at an output layer. -/
theorem Sim.atOutput {f : Batch α} {s : Train.Batch α} (h : Sim f s) (E : Env α) {t : Nat} {w : Worker α}
    (hw : f.workers[t]? = some w) (hs : w.seen = none) {i b : Nat} (hp : place w.pc = some (i, b)) {B : Body α}
    (hB : f.shared.model.bodyAt i = some B) (hi : ¬ B.Inner) :
    Res.Like (After f s t w.cutoff) (w.pc.step E t w.cutoff f.shared) (w.pc.step E t w.cutoff s.shared) := by
  obtain ⟨hC, hn⟩ := h.output hB hi
  rw [step_call E t _ _ hp hB, step_call E t _ _ hp hC]
  have hready : B.Ready := by
    cases B <;> first | trivial | exact absurd trivial hi
  refine (Res.Like.refl (T := fun q q' : Pc α × Body α => q = q' ∧ q.2.bare = B.bare) fun q hq =>
    ⟨rfl, (call_frame hp hready hq).1⟩).bind fun q q' ⟨e, hq⟩ => ?_
  subst e
  refine ⟨?_, h.callEvents t w.pc⟩
  simp only [h.source, h.hits]
  exact h.after hw hB hC (fun j c hne => absurd hs hne) hq hq (fun _ _ => rfl) (fun c ho => absurd ho.hidden (hn c)) _ _ _

theorem backward_beyond (E : Env α) (t cutoff : Nat) {sh sh' : Shared α} (slot : Nat) (x : Sample α) (r : Results α) (i : Nat) (d : Matrix α)
    (h : sh.model.bodyAt i = none) (h' : sh'.model.bodyAt i = none) {R : Pc α × Shared α × List (Event α) → _ → Prop} :
    Res.Like R (Pc.step E t cutoff sh (.backward slot x r (i + 1) d)) (Pc.step E t cutoff sh' (.backward slot x r (i + 1) d)) := by
  have e : ∀ sh : Shared α, sh.model.bodyAt i = none → Pc.step E t cutoff sh (.backward slot x r (i + 1) d) =
      (recordAt r i >>= fun _ => recordAt r (i + 1) >>= fun _ => .ub) := by
    intro sh h
    have e1 : Pc.step E t cutoff sh (.backward slot x r (i + 1) d) = (Model.backwardStep E r slot (d, sh.model) i >>= fun q =>
        .ok (.backward slot x r i q.1, { sh with model := q.2 }, Train.gradEvent sh.model t slot x i)) := rfl
    rw [e1]
    unfold backwardStep
    unfold bodyAt at h
    rw [Option.map_eq_none_iff.1 h]
    cases recordAt r i with
    | throw | ub | abort => rfl
    | ok X =>
      simp only [Res.bind_ok]
      cases recordAt r (i + 1) <;> rfl
  rw [e sh h, e sh' h']
  refine Res.Like.refl fun a ha => ?_
  obtain ⟨_, _, ha⟩ := Res.bind_eq_ok ha
  obtain ⟨_, _, ha⟩ := Res.bind_eq_ok ha
  exact absurd ha (by simp)

theorem bodyAt_none {M M' : Model α} (h : M.bare = M'.bare) {i : Nat} (hB : M.bodyAt i = none) : M'.bodyAt i = none := by
  cases hC : M'.bodyAt i with
  | none => rfl
  | some C =>
    obtain ⟨B, hB', _⟩ := bodyAt_bare h.symm hC
    rw [hB] at hB'
    exact absurd hB' (by simp)

theorem assignLoss_congr (E : Env α) {M M' : Model α} (h : M.labels = M'.labels) (r : Results α) (lab : List Char) :
    M.assignLoss E r lab = M'.assignLoss E r lab := by
  unfold assignLoss labelIndex
  rw [h]

theorem backwardBegin_at (E : Env α) (M : Model α) (r : Results α) (lab : List Char) : M.backwardBegin E r lab =
    (M.assignLoss E r lab >>= fun r' => match M.bodyAt (M.layers.length - 1) with
      | none => .ub
      | some (.softmax S) => (S.assignTrueLabel (M.labelIndex lab)).1 >>= fun _ =>
        .ok (r', M.setBody (M.layers.length - 1) (.softmax (S.assignTrueLabel (M.labelIndex lab)).2))
      | some _ => .abort) := by
  unfold backwardBegin bodyAt
  rw [List.getLast?_eq_getElem?]
  cases M.assignLoss E r lab with
  | throw | ub | abort => rfl
  | ok r' =>
    simp only [Res.bind_ok]
    cases M.layers[M.layers.length - 1]? with
    | none => rfl
    | some l =>
      simp only [Res.ofOption_some, Res.bind_ok, Option.map_some]
      cases l.body <;> rfl

/-- A step outside calls. -/
theorem Sim.free {f : Batch α} {s : Train.Batch α} (h : Sim f s) (E : Env α) {t : Nat} {w : Worker α}
    (hw : f.workers[t]? = some w) (hs : w.seen = none) (hc : callAt f.shared.model w.pc = none) :
    Res.Like (After f s t w.cutoff) (w.pc.step E t w.cutoff f.shared) (w.pc.step E t w.cutoff s.shared) := by
  have hout : ∀ i b B, place w.pc = some (i, b) → f.shared.model.bodyAt i = some B → ¬ B.Inner := by
    intro i b B hp hB hi
    unfold callAt at hc
    rw [hp] at hc
    simp only [Option.bind_some, inner_some.2 ⟨hB, hi⟩] at hc
    exact absurd hc (by simp)
  have hsh : f.shared = ⟨f.shared.model, s.shared.source, s.shared.hits⟩ := by rw [← h.source, ← h.hits]
  cases hpc : w.pc with
  | fetch slot =>
    unfold Pc.step
    dsimp only
    by_cases hlt : slot < w.cutoff
    · rw [if_pos hlt, if_pos hlt, h.source]
      cases hsrc : s.shared.source with
      | nil =>
        refine ⟨?_, rfl⟩
        rw [hsh]
        exact h.move hw hs _ _ _
      | cons x rest =>
        dsimp only
        refine (Res.Like.refl (T := fun a b => a = b) fun _ _ => rfl).bind fun a b e => ?_
        subst e
        refine ⟨?_, rfl⟩
        simp only [h.hits]
        exact h.move hw hs _ _ _
    · rw [if_neg hlt, if_neg hlt]
      refine ⟨?_, rfl⟩
      rw [hsh]
      exact h.move hw hs _ _ _
  | forward slot x i d =>
    cases hB : f.shared.model.bodyAt i with
    | some B => exact hpc ▸ h.atOutput E hw hs (i := i) (b := slot) (by rw [hpc]; rfl) hB (hout i slot B (by rw [hpc]; rfl) hB)
    | none =>
      have hC := bodyAt_none h.bare hB
      unfold bodyAt at hB hC
      have l1 := List.getElem?_eq_none_iff.1 (Option.map_eq_none_iff.1 hB)
      have l2 := List.getElem?_eq_none_iff.1 (Option.map_eq_none_iff.1 hC)
      unfold Pc.step
      dsimp only
      rw [if_neg (by omega), if_neg (by omega), forwardEnd_congr E (bare_labels h.bare)]
      refine (Res.Like.refl (T := fun a b => a = b) fun _ _ => rfl).bind fun a b e => ?_
      subst e
      refine ⟨?_, rfl⟩
      rw [hsh]
      exact h.move hw hs _ _ _
  | label slot x r =>
    have e : ∀ sh : Shared α, Pc.step E t w.cutoff sh (.label slot x r) = (sh.model.backwardBegin E r x.label >>= fun q =>
        .ok (.backward slot x q.1 sh.model.layers.length Matrix.empty, { sh with model := q.2 }, [.label t slot x])) := fun _ => rfl
    have hlab : f.shared.model.labelIndex x.label = s.shared.model.labelIndex x.label := by
      unfold labelIndex; rw [bare_labels h.bare]
    rw [e, e, backwardBegin_at, backwardBegin_at, assignLoss_congr E (bare_labels h.bare), bare_len h.bare, hlab]
    simp only [bind_assoc]
    refine (Res.Like.refl (T := fun a b => a = b) fun _ _ => rfl).bind fun r' r'' er => ?_
    subst er
    cases hB : f.shared.model.bodyAt (s.shared.model.layers.length - 1) with
    | none => rw [bodyAt_none h.bare hB]; trivial
    | some B =>
      by_cases hi : B.Inner
      · obtain ⟨C, hC, hb⟩ := bodyAt_bare h.bare hB
        rw [hC]
        have hi' := hi.of_bare hb.symm
        cases B <;> cases C <;> first | trivial | exact absurd hi id | exact absurd hi' id
      · obtain ⟨hC, hn⟩ := h.output hB hi
        rw [hC]
        cases B with
        | softmax S =>
          dsimp only
          simp only [bind_assoc]
          refine (Res.Like.refl (T := fun a b => a = b) fun _ _ => rfl).bind fun a b _ => ?_
          refine ⟨?_, rfl⟩
          simp only [h.source, h.hits]
          have hS : (Body.softmax (S.assignTrueLabel (s.shared.model.labelIndex x.label)).2 : Body α).bare = (Body.softmax S).bare := by
            unfold Softmax.assignTrueLabel
            split <;> rfl
          exact h.after hw hB hC (fun j c hne => absurd hs hne) hS hS (fun _ _ => rfl) (fun c ho => absurd ho.hidden (hn c)) _ _ _
        | _ => exact absurd trivial hi
  | backward slot x r n d =>
    cases n with
    | zero =>
      refine ⟨?_, rfl⟩
      simp only [h.source, h.hits]
      exact h.move hw hs _ _ _
    | succ i =>
      cases hB : f.shared.model.bodyAt i with
      | some B => exact hpc ▸ h.atOutput E hw hs (i := i) (b := slot) (by rw [hpc]; rfl) hB (hout i slot B (by rw [hpc]; rfl) hB)
      | none => exact backward_beyond E t _ slot x r i d hB (bodyAt_none h.bare hB)
  | done slot =>
    refine ⟨?_, rfl⟩
    rw [hsh]
    exact h.move hw hs _ _ _

theorem callAt_some {M : Model α} {p : Pc α} {i b : Nat} {B : Body α} (h : callAt M p = some (i, b, B)) :
    place p = some (i, b) ∧ M.bodyAt i = some B ∧ B.Inner := by
  unfold callAt at h
  obtain ⟨c, h1, h2⟩ := Option.bind_eq_some_iff.1 h
  obtain ⟨B', h3, h4⟩ := Option.map_eq_some_iff.1 h2
  obtain ⟨rfl, h5⟩ := Prod.mk.inj h4
  obtain ⟨rfl, rfl⟩ := Prod.mk.inj h5
  exact ⟨h1, inner_some.1 h3⟩

theorem Sim.notInCall {f : Batch α} {s : Train.Batch α} (h : Sim f s) {t : Nat} {w : Worker α} (hw : f.workers[t]? = some w)
    (hc : callAt f.shared.model w.pc = none) : w.seen = none := by
  cases hs : w.seen with
  | none => rfl
  | some B =>
    obtain ⟨i, c, C, a1, a2, a3, _⟩ := h.inCall t w B hw hs
    obtain ⟨D, hD, hb⟩ := bodyAt_bare h.bare.symm a2
    unfold callAt at hc
    rw [a1] at hc
    simp only [Option.bind_some, inner_some.2 ⟨hD, a3.of_bare hb.symm⟩] at hc
    exact absurd hc (by simp)

theorem run_one (E : Env α) (s : Train.Batch α) (t : Nat) : s.run E [t] = s.step E t := by
  unfold Train.Batch.run Train.Batch.run
  cases s.step E t with
  | throw | ub | abort => rfl
  | ok r => simp only [Res.bind_ok, List.append_nil]

/-- The workers of the other batch. -/
theorem Sim.worker {f : Batch α} {s : Train.Batch α} (h : Sim f s) (t : Nat) :
    s.workers[t]? = f.workers[t]?.map fun w => (w.cutoff, w.pc) := by
  rw [h.workers, List.getElem?_map]

/-- Thread `t` is in a call and sees `B'`. -/
theorem Sim.enter {f : Batch α} {s : Train.Batch α} (h : Sim f s) {t : Nat} {w : Worker α} (hw : f.workers[t]? = some w) {i b : Nat}
    (hp : place w.pc = some (i, b)) {C B' : Body α} (hC : s.shared.model.bodyAt i = some C) (hi : C.Inner) (h1 : B'.bare = C.bare)
    (h2 : B'.see b = C.see b) : Sim ⟨f.shared, f.workers.set t ⟨w.cutoff, w.pc, some B'⟩⟩ s := by
  have hlt : t < f.workers.length := (List.getElem?_eq_some_iff.1 hw).1
  refine ⟨h.source, h.hits, ?_, h.bare, fun j D D' d hD hD' hh => ?_, fun u v D hv hs => ?_, h.ready⟩
  · rw [h.workers, List.map_set]
    apply List.ext_getElem?
    intro j
    rw [List.getElem?_set]
    split
    · rename_i e
      subst e
      have hg : f.workers[t] = w := (List.getElem?_eq_some_iff.1 hw).2
      simp [hlt, hg]
    · rfl
  · refine h.shown j D D' d hD hD' fun hd => hh ?_
    rcases hidden_cases hw hd with ho | ⟨_, e⟩
    · exact others_set ho
    · exact ⟨t, ⟨w.cutoff, w.pc, some B'⟩, List.getElem?_set_self hlt, by simp, e⟩
  · rcases get_set hv with ⟨_, rfl⟩ | ⟨_, hv⟩
    · obtain rfl := Option.some.inj hs
      exact ⟨i, b, C, hp, hC, hi, h1, h2⟩
    · exact h.inCall u v D hv hs

/-- Whatever a thread does, the other batch can follow. -/
theorem Sim.step {f : Batch α} {s : Train.Batch α} (h : Sim f s) (ha : Apart f) (E : Env α) (t : Nat) (a : Act α) :
    ∃ sched : List Nat, Res.Like (fun r q => Sim r.1 q.1 ∧ r.2 = q.2) (f.step E t a) (s.run E sched) := by
  have stay : Res.Like (fun (r : Batch α × List (Event α)) q => Sim r.1 q.1 ∧ r.2 = q.2) (.ok (f, [])) (s.run E []) := ⟨h, rfl⟩
  unfold Batch.step
  cases hw : f.workers[t]? with
  | none => exact ⟨[], stay⟩
  | some w =>
    have hw' : s.workers[t]? = some (w.cutoff, w.pc) := by rw [h.worker, hw]; rfl
    dsimp only
    have go : ∀ X : Res (Pc α × Shared α × List (Event α)), Res.Like (After f s t w.cutoff) X (w.pc.step E t w.cutoff s.shared) →
        Res.Like (fun r q => Sim r.1 q.1 ∧ r.2 = q.2)
          (terminate X >>= fun r => Res.ok ((⟨r.2.1, f.workers.set t ⟨w.cutoff, r.1, none⟩⟩ : Batch α), r.2.2)) (s.run E [t]) := by
      intro X hX
      rw [run_one]
      unfold Train.Batch.step
      rw [hw']
      exact hX.terminate.bind fun r q hq => hq
    cases hc : callAt f.shared.model w.pc with
    | none =>
      have hs := h.notInCall hw hc
      cases a with
      | next => exact ⟨[t], go _ (h.free E hw hs hc)⟩
      | look => exact ⟨[], stay⟩
      | write => exact ⟨[], stay⟩
    | some c =>
      obtain ⟨i, b, B⟩ := c
      obtain ⟨hp, hB, hi⟩ := callAt_some hc
      obtain ⟨C, hC, hb⟩ := bodyAt_bare h.bare hB
      have hno : ¬ Others f t i b := by
        rintro ⟨u, v, hu, hv', _, hp'⟩
        exact hu (ha u t v w i i b hv' hw hp' hp)
      have keep : ∀ B', B'.bare = C.bare → B'.see b = C.see b →
          Sim ⟨f.shared, f.workers.set t ⟨w.cutoff, w.pc, some B'⟩⟩ s :=
        fun B' h1 h2 => h.enter hw hp hC (hi.of_bare hb.symm) h1 h2
      cases hs : w.seen with
      | none =>
        cases a with
        | next =>
          refine ⟨[], keep B hb ?_, rfl⟩
          refine h.shown i B C b hB hC fun hd => ?_
          rcases hidden_cases hw hd with ho | ⟨e, _⟩
          · exact hno ho
          · exact e hs
        | look => exact ⟨[], stay⟩
        | write => exact ⟨[], stay⟩
      | some D =>
        obtain ⟨i', b', C', a1, a2, a3, a4, a5⟩ := h.inCall t w D hw hs
        obtain ⟨rfl, rfl⟩ := Prod.mk.inj (Option.some.inj (hp.symm.trans a1))
        obtain rfl := Option.some.inj (hC.symm.trans a2)
        cases a with
        | next => exact ⟨[t], go _ (h.finish ha E hw hs hp hB)⟩
        | look =>
          refine ⟨[], keep _ ((Body.putSlot_bare _ _ _).trans hb) ?_, rfl⟩
          dsimp only
          rw [Body.putSlot_see (a4.trans hb.symm) hi, a5]
        | write junk =>
          refine ⟨[], ⟨h.source, h.hits, h.workers, ?_, fun j D1 D2 d hD1 hD2 hh => ?_, h.inCall, h.ready⟩, rfl⟩
          · exact (bare_setBodyAt hB (Body.putSlot_bare _ _ _)).trans h.bare
          · simp only [setBody_bodyAt] at hD1
            by_cases hj : i = j
            · subst hj
              rw [if_pos rfl, hB] at hD1
              obtain rfl := Option.some.inj hD1
              have hd : d ≠ b := fun e => hh ⟨t, w, hw, by rw [hs]; simp, by rw [e]; exact hp⟩
              dsimp only
              rw [Body.putSlot_see_ne hd]
              exact h.shown i B D2 d hB hD2 hh
            · rw [if_neg hj] at hD1
              exact h.shown j D1 D2 d hD1 hD2 hh

theorem Sim.apart {f : Batch α} {s : Train.Batch α} (h : Sim f s) {T B w : Nat} {src0 : List (Sample α)} {evs : List (Event α)}
    (hI : BInv T B w src0 s evs) : Apart f := by
  have hon : ∀ (t : Nat) (v : Worker α) (i c : Nat), f.workers[t]? = some v → place v.pc = some (i, c) → s.workingOn t = some c := by
    intro t v i c hv hp
    unfold Batch.workingOn
    rw [h.worker, hv]
    obtain ⟨n, p, o⟩ := v
    cases p with
    | forward => exact congrArg some (Prod.mk.inj (Option.some.inj hp)).2
    | backward slot x r k d =>
      cases k with
      | zero => exact absurd hp (by simp [place])
      | succ => exact congrArg some (Prod.mk.inj (Option.some.inj hp)).2
    | _ => exact absurd hp (by simp [place])
  intro t u w v i j c hw hv hp hp'
  exact hI.exclusive (hon t w i c hw hp) (hon u v j c hv hp')

theorem run_append (E : Env α) (c1 c2 : List Nat) : ∀ s : Train.Batch α, s.run E (c1 ++ c2) =
    (s.run E c1 >>= fun r => r.1.run E c2 >>= fun q => .ok (q.1, r.2 ++ q.2)) := by
  induction c1 with
  | nil =>
    intro s
    show s.run E c2 = _
    simp only [Train.Batch.run, Res.bind_ok, List.nil_append]
    cases s.run E c2 <;> rfl
  | cons t ts ih =>
    intro s
    simp only [List.cons_append, Train.Batch.run]
    cases s.step E t with
    | throw | ub | abort => rfl
    | ok r =>
      simp only [Res.bind_ok, ih]
      cases r.1.run E ts with
      | throw | ub | abort => rfl
      | ok q =>
        simp only [Res.bind_ok]
        cases q.1.run E c2 with
        | throw | ub | abort => rfl
        | ok q' => simp only [Res.bind_ok, List.append_assoc]

theorem fineRun_append (E : Env α) (c1 c2 : List (Nat × Act α)) : ∀ s : Batch α, s.run E (c1 ++ c2) =
    (s.run E c1 >>= fun r => r.1.run E c2 >>= fun q => .ok (q.1, r.2 ++ q.2)) := by
  induction c1 with
  | nil =>
    intro s
    show s.run E c2 = _
    simp only [Batch.run, Res.bind_ok, List.nil_append]
    cases s.run E c2 <;> rfl
  | cons t ts ih =>
    intro s
    simp only [List.cons_append, Batch.run]
    cases s.step E t.1 t.2 with
    | throw | ub | abort => rfl
    | ok r =>
      simp only [Res.bind_ok, ih]
      cases r.1.run E ts with
      | throw | ub | abort => rfl
      | ok q =>
        simp only [Res.bind_ok]
        cases q.1.run E c2 with
        | throw | ub | abort => rfl
        | ok q' => simp only [Res.bind_ok, List.append_assoc]

/-- Whatever the threads do, the other batch can follow. -/
theorem Sim.run {T B w : Nat} {src0 : List (Sample α)} (E : Env α) (sched : List (Nat × Act α)) :
    ∀ {f : Batch α} {s : Train.Batch α} {evs : List (Event α)}, Sim f s → BInv T B w src0 s evs →
    ∃ coarse : List Nat, Res.Like (fun r q => Sim r.1 q.1 ∧ r.2 = q.2) (f.run E sched) (s.run E coarse) := by
  induction sched with
  | nil => intro f s evs h _; exact ⟨[], h, rfl⟩
  | cons a as ih =>
    intro f s evs h hI
    obtain ⟨c1, h1⟩ := h.step (h.apart hI) E a.1 a.2
    unfold Batch.run
    cases e1 : f.step E a.1 a.2 with
    | ok r =>
      cases e2 : s.run E c1 with
      | ok q =>
        rw [e1, e2] at h1
        obtain ⟨c2, h2⟩ := ih h1.1 (hI.run e2)
        refine ⟨c1 ++ c2, ?_⟩
        rw [run_append, e2]
        simp only [Res.bind_ok]
        exact h2.bind fun r' q' hq => ⟨hq.1, by rw [h1.2, hq.2]⟩
      | throw | ub | abort => rw [e1, e2] at h1; exact absurd h1 id
    | throw | ub | abort =>
      rw [e1] at h1
      exact ⟨c1, h1⟩

theorem eq_of_bare {M M' : Model α} (h : M.bare = M'.bare) (hb : ∀ i B C, M.bodyAt i = some B → M'.bodyAt i = some C → B = C) : M = M' := by
  refine eq_of_outline ?_ fun i hi => ?_
  · have e1 : M.bare.outline = M'.bare.outline := by rw [h]
    have e2 : ∀ M : Model α, M.bare.outline = M.outline := by
      intro M
      simp only [outline, Model.bare, List.map_map]
      rfl
    rwa [e2, e2] at e1
  · obtain ⟨B, hB⟩ : ∃ B, M.bodyAt i = some B := by
      unfold bodyAt
      rw [List.getElem?_eq_getElem hi]
      exact ⟨_, rfl⟩
    obtain ⟨C, hC, _⟩ := bodyAt_bare h hB
    rw [hB, hC, hb i B C hB hC]

/-- Outside calls there is no difference. -/
theorem Sim.quiet {f : Batch α} {s : Train.Batch α} (h : Sim f s) (hq : ∀ w ∈ f.workers, w.seen = none) : f.shared = s.shared := by
  have hm : f.shared.model = s.shared.model := eq_of_bare h.bare fun i B C hB hC =>
    Body.eq_of_see fun c => h.shown i B C c hB hC fun ⟨u, v, h1, h2, _⟩ => h2 (hq v (List.mem_of_getElem? h1))
  obtain ⟨⟨a1, a2, a3⟩, _⟩ := f
  obtain ⟨⟨b1, b2, b3⟩, _⟩ := s
  have h1 := h.source
  have h2 := h.hits
  simp only at hm h1 h2 ⊢
  rw [hm, h1, h2]

theorem Sim.over {f : Batch α} {s : Train.Batch α} (h : Sim f s) : f.over = s.over := by
  unfold Batch.over Train.Batch.over
  rw [h.workers, List.all_map]
  rfl

theorem Sim.quiet_over {f : Batch α} {s : Train.Batch α} (h : Sim f s) (ho : f.over = true) : f.shared = s.shared := by
  refine h.quiet fun w hw => ?_
  have := List.all_eq_true.1 ho w hw
  cases hs : w.seen with
  | none => rfl
  | some B =>
    obtain ⟨t, ht⟩ := List.mem_iff_getElem?.1 hw
    obtain ⟨i, c, C, hp, _⟩ := h.inCall t w B ht hs
    cases hpc : w.pc <;> rw [hpc] at this hp
    case done => exact absurd hp (by simp [place])
    all_goals exact absurd this (by simp)

theorem Sim.start {s : Train.Batch α} (h : s.shared.model.Ready) : Sim ⟨s.shared, s.workers.map fun w => ⟨w.1, w.2, none⟩⟩ s := by
  refine ⟨rfl, rfl, ?_, rfl, fun i B C c hB hC _ => ?_, fun t w B hw hs => ?_, h⟩
  · simp only [List.map_map]
    exact (List.map_id' _).symm
  · rw [Option.some.inj (hB.symm.trans hC)]
  · simp only [List.getElem?_map] at hw
    obtain ⟨v, _, rfl⟩ := Option.map_eq_some_iff.1 hw
    exact absurd hs (by simp)

/-- A step of the other batch can be followed by one or two, the calls of which are over at once. -/
theorem Sim.follow {f : Batch α} {s : Train.Batch α} (h : Sim f s) (ha : Apart f) (hq : ∀ w ∈ f.workers, w.seen = none) (E : Env α)
    (t : Nat) : ∃ fine : List (Nat × Act α), Res.Like (fun r q => (Sim r.1 q.1 ∧ ∀ w ∈ r.1.workers, w.seen = none) ∧ r.2 = q.2)
      (f.run E fine) (s.step E t) := by
  cases hw : f.workers[t]? with
  | none =>
    have hw' : s.workers[t]? = none := by rw [h.worker, hw]; rfl
    refine ⟨[], ?_⟩
    unfold Train.Batch.step
    rw [hw']
    exact ⟨⟨h, hq⟩, rfl⟩
  | some w =>
    have hw' : s.workers[t]? = some (w.cutoff, w.pc) := by rw [h.worker, hw]; rfl
    have hlt : t < f.workers.length := (List.getElem?_eq_some_iff.1 hw).1
    have hs := hq w (List.mem_of_getElem? hw)
    have go : ∀ (g : Batch α) (X : Res (Pc α × Shared α × List (Event α))), g.workers.set t w = f.workers.set t w →
        Res.Like (After g s t w.cutoff) X (w.pc.step E t w.cutoff s.shared) →
        Res.Like (fun r q => (Sim r.1 q.1 ∧ ∀ w ∈ r.1.workers, w.seen = none) ∧ r.2 = q.2)
          (terminate X >>= fun r => Res.ok ((⟨r.2.1, g.workers.set t ⟨w.cutoff, r.1, none⟩⟩ : Batch α), r.2.2)) (s.step E t) := by
      intro g X hg hX
      unfold Train.Batch.step
      rw [hw']
      refine hX.terminate.bind fun r q hr => ⟨⟨hr.1, fun v hv => ?_⟩, hr.2⟩
      dsimp only at hv
      have e : ∀ a, g.workers.set t a = f.workers.set t a := by
        intro a
        rw [← List.set_set (b := a) w, hg, List.set_set]
      rw [e] at hv
      rcases List.mem_or_eq_of_mem_set hv with hv | rfl
      · exact hq v hv
      · rfl
    cases hc : callAt f.shared.model w.pc with
    | none =>
      refine ⟨[(t, .next)], ?_⟩
      have e : f.run E [(t, .next)] = (terminate (w.pc.step E t w.cutoff f.shared) >>= fun r =>
          Res.ok ((⟨r.2.1, f.workers.set t ⟨w.cutoff, r.1, none⟩⟩ : Batch α), r.2.2)) := by
        simp only [Batch.run, Batch.step, hw, hc]
        cases terminate (w.pc.step E t w.cutoff f.shared) with
        | throw | ub | abort => rfl
        | ok r => simp only [Res.bind_ok, List.append_nil]
      rw [e]
      exact go f _ rfl (h.free E hw hs hc)
    | some c =>
      obtain ⟨i, b, B⟩ := c
      obtain ⟨hp, hB, hi⟩ := callAt_some hc
      obtain ⟨C, hC, hb⟩ := bodyAt_bare h.bare hB
      have hBC : B = C := Body.eq_of_see fun c => h.shown i B C c hB hC fun ⟨u, v, h1, h2, _⟩ => h2 (hq v (List.mem_of_getElem? h1))
      have h' := h.enter (B' := B) hw hp hC (hBC ▸ hi) hb (by rw [hBC])
      have hw2 : (f.workers.set t ⟨w.cutoff, w.pc, some B⟩)[t]? = some ⟨w.cutoff, w.pc, some B⟩ := List.getElem?_set_self hlt
      have ha' : Apart ⟨f.shared, f.workers.set t ⟨w.cutoff, w.pc, some B⟩⟩ := by
        intro u1 u2 v1 v2 k l c g1 g2 p1 p2
        rcases get_set g1 with ⟨rfl, rfl⟩ | ⟨n1, g1'⟩ <;> rcases get_set g2 with ⟨e2, rfl⟩ | ⟨n2, g2'⟩
        · exact e2.symm
        · exact ha _ _ _ _ _ _ _ hw g2' p1 p2
        · subst e2
          exact ha _ _ _ _ _ _ _ g1' hw p1 p2
        · exact ha _ _ _ _ _ _ _ g1' g2' p1 p2
      refine ⟨[(t, .next), (t, .next)], ?_⟩
      have e : f.run E [(t, .next), (t, .next)] = (terminate (Overlap.finish E t w.cutoff f.shared w.pc i b B B) >>= fun r =>
          Res.ok ((⟨r.2.1, (f.workers.set t ⟨w.cutoff, w.pc, some B⟩).set t ⟨w.cutoff, r.1, none⟩⟩ : Batch α), r.2.2)) := by
        simp only [Batch.run, Batch.step, hw, hc, hs, Res.bind_ok, hw2, List.nil_append]
        cases terminate (Overlap.finish E t w.cutoff f.shared w.pc i b B B) with
        | throw | ub | abort => rfl
        | ok r => simp only [Res.bind_ok, List.append_nil]
      rw [e]
      exact go ⟨f.shared, f.workers.set t ⟨w.cutoff, w.pc, some B⟩⟩ _ (List.set_set _) (h'.finish ha' E hw2 rfl hp hB)

/-- A run of the other batch can be followed. -/
theorem Sim.follows {T B w : Nat} {src0 : List (Sample α)} (E : Env α) (sched : List Nat) :
    ∀ {f : Batch α} {s : Train.Batch α} {evs : List (Event α)}, Sim f s → BInv T B w src0 s evs → (∀ w ∈ f.workers, w.seen = none) →
    ∃ fine : List (Nat × Act α), Res.Like (fun r q => Sim r.1 q.1 ∧ r.2 = q.2) (f.run E fine) (s.run E sched) := by
  induction sched with
  | nil => intro f s evs h _ _; exact ⟨[], h, rfl⟩
  | cons t ts ih =>
    intro f s evs h hI hq
    obtain ⟨c1, h1⟩ := h.follow (h.apart hI) hq E t
    unfold Train.Batch.run
    cases e2 : s.step E t with
    | ok r =>
      cases e1 : f.run E c1 with
      | ok q =>
        rw [e1, e2] at h1
        obtain ⟨c2, h2⟩ := ih h1.1.1 (hI.step e2) h1.1.2
        refine ⟨c1 ++ c2, ?_⟩
        rw [fineRun_append, e1]
        simp only [Res.bind_ok]
        exact h2.bind fun r' q' hq => ⟨hq.1, by rw [h1.2, hq.2]⟩
      | throw | ub | abort => rw [e1, e2] at h1; exact absurd h1 id
    | throw | ub | abort =>
      rw [e2] at h1
      refine ⟨c1, ?_⟩
      cases e1 : f.run E c1 <;> rw [e1] at h1 <;> exact h1

end
end Overlap
end Cnn
