import Verif.Spec.Train
import Verif.Lemmas.Loop
/-! Helper lemmas: the invariant of the worker threads of a batch (C51, C55). -/
namespace Cnn.Train
variable {α : Type}

/-- `batch_idx`. -/
def Pc.slot : Pc α → Nat
  | .fetch s => s
  | .forward s _ _ _ => s
  | .label s _ _ => s
  | .backward s _ _ _ _ => s
  | .done s => s

/-- The sample being processed. -/
def Pc.busy : Pc α → Option (Sample α)
  | .fetch _ => none
  | .forward _ x _ _ => some x
  | .label _ x _ => some x
  | .backward _ x _ _ _ => some x
  | .done _ => none

def Pc.bound (p : Pc α) : Nat := p.slot + if p.busy.isSome then 1 else 0

def Pc.isDone : Pc α → Bool
  | .done _ => true
  | _ => false

@[simp] theorem slot_fetch (s : Nat) : (Pc.fetch s : Pc α).slot = s := rfl
@[simp] theorem slot_done (s : Nat) : (Pc.done s : Pc α).slot = s := rfl
@[simp] theorem busy_fetch (s : Nat) : (Pc.fetch s : Pc α).busy = none := rfl
@[simp] theorem busy_done (s : Nat) : (Pc.done s : Pc α).busy = none := rfl
@[simp] theorem bound_fetch (s : Nat) : (Pc.fetch s : Pc α).bound = s := rfl
@[simp] theorem bound_done (s : Nat) : (Pc.done s : Pc α).bound = s := rfl
theorem bound_busy {p : Pc α} {x : Sample α} (h : p.busy = some x) : p.bound = p.slot + 1 := by simp [Pc.bound, h]

@[simp] theorem fetches_append (a b : List (Event α)) : fetches (a ++ b) = fetches a ++ fetches b := by
  simp [fetches]

@[simp] theorem finishes_append (a b : List (Event α)) : finishes (a ++ b) = finishes a ++ finishes b := by
  simp [finishes]

theorem fetches_gradEvent (M : Model α) (t slot : Nat) (x : Sample α) (i : Nat) :
    fetches (gradEvent M t slot x i) = [] ∧ finishes (gradEvent M t slot x i) = [] := by
  unfold gradEvent
  split
  · split <;> exact ⟨rfl, rfl⟩
  · exact ⟨rfl, rfl⟩

/-- What one step of a thread can do. -/
inductive Moves (t cutoff : Nat) (src : List (Sample α)) : Pc α → Pc α → List (Sample α) → List (Event α) → Prop
  | fetch {slot x src' p evs} (hlt : slot < cutoff) (hs : src = x :: src') (hp : p.slot = slot) (hb : p.busy = some x)
      (hd : p.isDone = false) (hf : fetches evs = [(t, slot, x)]) (hg : finishes evs = []) :
      Moves t cutoff src (.fetch slot) p src' evs
  | stop {slot} (h : cutoff ≤ slot ∨ src = []) : Moves t cutoff src (.fetch slot) (.done slot) src []
  | work {p q x evs} (hp : p.busy = some x) (hq : q.busy = some x) (hs : q.slot = p.slot) (hd : q.isDone = false)
      (hf : fetches evs = []) (hg : finishes evs = []) : Moves t cutoff src p q src evs
  | finish {p x evs} (hp : p.busy = some x) (hf : fetches evs = []) (hg : finishes evs = [(t, p.slot, x)]) :
      Moves t cutoff src p (.fetch (p.slot + 1)) src evs
  | idle {slot} : Moves t cutoff src (.done slot) (.done slot) src []

section
variable [Zero α] [One α] [Add α] [Sub α] [Mul α] [Div α] [Neg α]

theorem step_moves {E : Env α} {t cutoff : Nat} {sh : Shared α} {p : Pc α} {r : Pc α × Shared α × List (Event α)}
    (h : p.step E t cutoff sh = .ok r) : Moves t cutoff sh.source p r.1 r.2.1.source r.2.2 := by
  match p with
  | .fetch slot =>
    simp only [Pc.step] at h
    by_cases hc : slot < cutoff
    · rw [if_pos hc] at h
      cases hsrc : sh.source with
      | nil =>
        rw [hsrc] at h
        obtain rfl := Res.ok.inj h
        simp only [hsrc]
        exact .stop (Or.inr rfl)
      | cons x rest =>
        rw [hsrc] at h
        obtain ⟨s, hs, h⟩ := Res.bind_eq_ok h
        obtain rfl := Res.ok.inj h
        exact .fetch hc rfl rfl rfl rfl rfl rfl
    · rw [if_neg hc] at h
      obtain rfl := Res.ok.inj h
      exact .stop (Or.inl (by omega))
  | .forward slot x i s =>
    simp only [Pc.step] at h
    split at h
    · obtain ⟨s, hs, h⟩ := Res.bind_eq_ok h
      obtain rfl := Res.ok.inj h
      exact .work rfl rfl rfl rfl rfl rfl
    · obtain ⟨s, hs, h⟩ := Res.bind_eq_ok h
      obtain rfl := Res.ok.inj h
      exact .work rfl rfl rfl rfl rfl rfl
  | .label slot x r' =>
    simp only [Pc.step] at h
    obtain ⟨s, hs, h⟩ := Res.bind_eq_ok h
    obtain rfl := Res.ok.inj h
    exact .work rfl rfl rfl rfl rfl rfl
  | .backward slot x r' 0 d =>
    simp only [Pc.step] at h
    obtain rfl := Res.ok.inj h
    exact .finish rfl rfl rfl
  | .backward slot x r' (i + 1) d =>
    simp only [Pc.step] at h
    obtain ⟨s, hs, h⟩ := Res.bind_eq_ok h
    obtain rfl := Res.ok.inj h
    exact .work rfl rfl rfl rfl (fetches_gradEvent _ _ _ _ _).1 (fetches_gradEvent _ _ _ _ _).2
  | .done slot =>
    simp only [Pc.step] at h
    obtain rfl := Res.ok.inj h
    exact .idle

end

/-- What is known about thread `t`, given all fetches `F`, all completed samples `G` and the rest of the source. -/
structure TInv (start cutoff t : Nat) (F G : List (Nat × Nat × Sample α)) (src : List (Sample α)) (w : Nat × Pc α) : Prop where
  cut : w.1 = cutoff
  start_le : start ≤ w.2.slot
  fetched : ∀ sl, (∃ x, (t, sl, x) ∈ F) ↔ start ≤ sl ∧ sl < w.2.bound
  inside : ∀ sl x, (t, sl, x) ∈ F → sl < cutoff
  finished : ∀ sl x, (t, sl, x) ∈ G ↔ (t, sl, x) ∈ F ∧ sl < w.2.slot
  busy : ∀ x, w.2.busy = some x → ∀ y, (t, w.2.slot, y) ∈ F ↔ y = x
  done : w.2.isDone = true → cutoff ≤ w.2.slot ∨ src = []

theorem TInv.frame {start cutoff t u : Nat} {F G F' G' : List (Nat × Nat × Sample α)} {src src' : List (Sample α)}
    {w : Nat × Pc α} (h : TInv start cutoff t F G src w) (hu : u ≠ t) (hF : ∀ e ∈ F', e.1 = u) (hG : ∀ e ∈ G', e.1 = u)
    (hs : src = [] → src' = []) : TInv start cutoff t (F ++ F') (G ++ G') src' w := by
  have mF : ∀ sl x, (t, sl, x) ∈ F ++ F' ↔ (t, sl, x) ∈ F := by
    intro sl x
    rw [List.mem_append]
    exact ⟨fun h => h.elim id (fun h => absurd (hF _ h).symm hu), Or.inl⟩
  have mG : ∀ sl x, (t, sl, x) ∈ G ++ G' ↔ (t, sl, x) ∈ G := by
    intro sl x
    rw [List.mem_append]
    exact ⟨fun h => h.elim id (fun h => absurd (hG _ h).symm hu), Or.inl⟩
  refine ⟨h.cut, h.start_le, ?_, ?_, ?_, ?_, fun hd => (h.done hd).imp id hs⟩
  · intro sl; simp only [mF]; exact h.fetched sl
  · intro sl x hx; exact h.inside sl x ((mF _ _).1 hx)
  · intro sl x; rw [mF, mG]; exact h.finished sl x
  · intro x hx y; rw [mF]; exact h.busy x hx y

/-- All events of a move belong to the thread; the source only shrinks. -/
theorem Moves.own {t cutoff : Nat} {src src' : List (Sample α)} {p q : Pc α} {evs : List (Event α)}
    (h : Moves t cutoff src p q src' evs) : (∀ e ∈ fetches evs, e.1 = t) ∧ (∀ e ∈ finishes evs, e.1 = t) ∧
      (src = [] → src' = []) ∧ (fetches evs).map (·.2.2) ++ src' = src := by
  cases h with
  | fetch hlt hs hp hb hd hf hg => rw [hf, hg, hs]; simp
  | stop h => simp [fetches, finishes]
  | work hp hq hs hd hf hg => rw [hf, hg]; simp
  | finish hp hf hg => rw [hf, hg]; simp
  | idle => simp [fetches, finishes]

/-- The moving thread itself. -/
theorem TInv.move {start cutoff t : Nat} {F G : List (Nat × Nat × Sample α)} {src src' : List (Sample α)}
    {w : Nat × Pc α} {q : Pc α} {evs : List (Event α)} (h : TInv start cutoff t F G src w)
    (hm : Moves t w.1 src w.2 q src' evs) :
    TInv start cutoff t (F ++ fetches evs) (G ++ finishes evs) src' (w.1, q) := by
  obtain ⟨c, p⟩ := w
  obtain ⟨h1, h2, h3, h4, h5, h6, h7⟩ := h
  simp only at h1 h2 h3 h4 h5 h6 h7 hm
  subst h1
  cases hm with
  | fetch hlt hs hp hb hd hf hg =>
    rename_i slot x
    simp only [slot_fetch, bound_fetch] at h2 h3 h5
    have hno : ∀ y, (t, slot, y) ∉ F := fun y hy => by
      have := (h3 slot).1 ⟨y, hy⟩
      omega
    have hmem : ∀ sl y, (t, sl, y) ∈ F ++ [(t, slot, x)] ↔ (t, sl, y) ∈ F ∨ (sl = slot ∧ y = x) := by
      intro sl y; simp
    rw [hf, hg, List.append_nil]
    refine ⟨rfl, by simp only [hp]; exact h2, ?_, ?_, ?_, ?_, ?_⟩
    · intro sl
      simp only [hmem, bound_busy hb, hp]
      constructor
      · rintro ⟨y, hy | ⟨rfl, _⟩⟩
        · have := (h3 sl).1 ⟨y, hy⟩
          omega
        · omega
      · intro hsl
        by_cases he : sl = slot
        · exact ⟨x, Or.inr ⟨he, rfl⟩⟩
        · obtain ⟨y, hy⟩ := (h3 sl).2 ⟨hsl.1, by omega⟩
          exact ⟨y, Or.inl hy⟩
    · intro sl y hy
      rcases (hmem _ _).1 hy with hy | ⟨rfl, _⟩
      · exact h4 sl y hy
      · exact hlt
    · intro sl y
      simp only [hmem, h5, hp]
      constructor
      · rintro ⟨a, b⟩; exact ⟨Or.inl a, b⟩
      · rintro ⟨a | a, b⟩
        · exact ⟨a, b⟩
        · omega
    · intro y hy z
      simp only at hy
      rw [hb] at hy
      obtain rfl := Option.some.inj hy
      simp only [hmem, hp]
      exact ⟨fun h => h.elim (fun h => absurd h (hno z)) (·.2), fun h => Or.inr ⟨trivial, h⟩⟩
    · intro hdn
      simp only [hd] at hdn
      exact absurd hdn (by simp)
  | stop hc =>
    simp only [slot_fetch, bound_fetch] at h2 h3 h5
    refine ⟨rfl, h2, ?_, ?_, ?_, ?_, fun _ => hc⟩
    · simpa [fetches] using h3
    · simpa [fetches] using h4
    · simpa [fetches, finishes] using h5
    · simp
  | work hp hq hs hd hf hg =>
    rw [hf, hg, List.append_nil, List.append_nil]
    refine ⟨rfl, by simp only [hs]; exact h2, ?_, h4, ?_, ?_, ?_⟩
    · intro sl; rw [h3, bound_busy hp, bound_busy hq, hs]
    · intro sl x; simp only [h5, hs]
    · intro y hy
      simp only [hq, ← hp] at hy
      simp only [hs]
      exact h6 y hy
    · intro hdn
      simp only [hd] at hdn
      exact absurd hdn (by simp)
  | finish hp hf hg =>
    rename_i x
    rw [hf, hg, List.append_nil]
    refine ⟨rfl, ?_, ?_, h4, ?_, ?_, ?_⟩
    · simp only [slot_fetch]; omega
    · intro sl; rw [h3, bound_busy hp, bound_fetch]
    · intro sl y
      have hx := h6 x hp
      rw [List.mem_append, List.mem_singleton, h5]
      simp only [slot_fetch, Prod.mk.injEq, true_and]
      constructor
      · rintro (⟨a, b⟩ | ⟨rfl, rfl⟩)
        · exact ⟨a, by omega⟩
        · exact ⟨(hx _).2 rfl, by omega⟩
      · rintro ⟨a, b⟩
        by_cases hsl : sl < p.slot
        · exact Or.inl ⟨a, hsl⟩
        · obtain rfl : sl = p.slot := by omega
          exact Or.inr ⟨rfl, (hx y).1 a⟩
    · simp
    · simp [Pc.isDone]
  | idle =>
    refine ⟨rfl, h2, ?_, ?_, ?_, ?_, h7⟩
    · simpa [fetches] using h3
    · simpa [fetches] using h4
    · simpa [fetches, finishes] using h5
    · simp

/-- No thread takes or finishes a slot twice. -/
theorem TInv.nodup_move {start cutoff t : Nat} {F G : List (Nat × Nat × Sample α)} {src src' : List (Sample α)}
    {c : Nat} {p q : Pc α} {evs : List (Event α)} (hT : TInv start cutoff t F G src (c, p))
    (hm : Moves t c src p q src' evs) (nF : (F.map (fun e => (e.1, e.2.1))).Nodup)
    (nG : (G.map (fun e => (e.1, e.2.1))).Nodup) :
    ((F ++ fetches evs).map (fun e => (e.1, e.2.1))).Nodup ∧ ((G ++ finishes evs).map (fun e => (e.1, e.2.1))).Nodup := by
  constructor
  · rw [List.map_append]
    cases hm with
    | fetch hlt hs hp hb hd hf hg =>
      rw [hf]
      rw [List.nodup_append]
      refine ⟨nF, by simp, ?_⟩
      intro a ha b hb
      simp only [List.map_cons, List.map_nil, List.mem_singleton] at hb
      subst hb
      rintro rfl
      obtain ⟨⟨t', sl, x⟩, he, heq⟩ := List.mem_map.1 ha
      obtain ⟨rfl, rfl⟩ := Prod.mk.inj heq
      have := (hT.fetched sl).1 ⟨x, he⟩
      simp only [bound_fetch] at this
      omega
    | stop h' => simpa [fetches] using nF
    | work hp hq hs hd hf hg => rw [hf]; simpa using nF
    | finish hp hf hg => rw [hf]; simpa using nF
    | idle => simpa [fetches] using nF
  · rw [List.map_append]
    cases hm with
    | fetch hlt hs hp hb hd hf hg => rw [hg]; simpa using nG
    | stop h' => simpa [finishes] using nG
    | work hp hq hs hd hf hg => rw [hg]; simpa using nG
    | finish hp hf hg =>
      rw [hg, List.nodup_append]
      refine ⟨nG, by simp, ?_⟩
      intro a ha b hb
      simp only [List.map_cons, List.map_nil, List.mem_singleton] at hb
      subst hb
      rintro rfl
      obtain ⟨⟨t', sl, x⟩, he, heq⟩ := List.mem_map.1 ha
      obtain ⟨rfl, rfl⟩ := Prod.mk.inj heq
      have := ((hT.finished _ x).1 he).2
      simp only at this
      omega
    | idle => simpa [finishes] using nG

/-- The invariant of a batch. -/
structure Inv (T : Nat) (start cutoff : Nat → Nat) (src0 : List (Sample α)) (s : Batch α) (evs : List (Event α)) : Prop where
  len : s.workers.length = T
  thread : ∀ t w, s.workers[t]? = some w → TInv (start t) (cutoff t) t (fetches evs) (finishes evs) s.shared.source w
  source : (fetches evs).map (·.2.2) ++ s.shared.source = src0
  thF : ∀ e ∈ fetches evs, e.1 < T
  thG : ∀ e ∈ finishes evs, e.1 < T
  nodupF : ((fetches evs).map (fun e => (e.1, e.2.1))).Nodup
  nodupG : ((finishes evs).map (fun e => (e.1, e.2.1))).Nodup

theorem Inv.move {T : Nat} {start cutoff : Nat → Nat} {src0 : List (Sample α)} {s : Batch α} {evs ev : List (Event α)}
    (h : Inv T start cutoff src0 s evs) {t : Nat} {w : Nat × Pc α} (hw : s.workers[t]? = some w) {q : Pc α} {sh : Shared α}
    (hm : Moves t w.1 s.shared.source w.2 q sh.source ev) :
    Inv T start cutoff src0 ⟨sh, s.workers.set t (w.1, q)⟩ (evs ++ ev) := by
  obtain ⟨o1, o2, o3, o4⟩ := hm.own
  obtain ⟨c, p⟩ := w
  simp only at hm
  have ht : t < s.workers.length := (List.getElem?_eq_some_iff.1 hw).1
  have hT := h.thread t _ hw
  refine ⟨by simp [h.len], ?_, ?_, ?_, ?_, ?_, ?_⟩
  · intro u v hv
    rw [fetches_append, finishes_append]
    simp only at hv
    by_cases hu : t = u
    · subst hu
      rw [List.getElem?_set_self ht] at hv
      obtain rfl := Option.some.inj hv
      exact hT.move hm
    · rw [List.getElem?_set_ne hu] at hv
      exact (h.thread u v hv).frame hu o1 o2 o3
  · rw [fetches_append, List.map_append, List.append_assoc]
    simp only [o4, h.source]
  · intro e he
    rw [fetches_append, List.mem_append] at he
    rcases he with he | he
    · exact h.thF e he
    · rw [o1 e he, ← h.len]; exact ht
  · intro e he
    rw [finishes_append, List.mem_append] at he
    rcases he with he | he
    · exact h.thG e he
    · rw [o2 e he, ← h.len]; exact ht
  · rw [fetches_append]; exact (hT.nodup_move hm h.nodupF h.nodupG).1
  · rw [finishes_append]; exact (hT.nodup_move hm h.nodupF h.nodupG).2

/-- The state a batch starts in. -/
theorem Inv.init (T : Nat) (start cutoff : Nat → Nat) (sh : Shared α) :
    Inv T start cutoff sh.source ⟨sh, (List.range T).map (fun t => (cutoff t, Pc.fetch (start t)))⟩ [] := by
  refine ⟨by simp, ?_, by simp [fetches], by simp [fetches], by simp [finishes], by simp [fetches], by simp [finishes]⟩
  intro t w hw
  simp only [List.getElem?_map, Option.map_eq_some_iff, List.getElem?_eq_some_iff, List.length_range, List.getElem_range] at hw
  obtain ⟨u, ⟨hu, rfl⟩, rfl⟩ := hw
  refine ⟨rfl, le_refl _, ?_, by simp [fetches], by simp [fetches, finishes], by simp, by simp [Pc.isDone]⟩
  intro sl
  simp only [fetches, List.filterMap_nil, List.not_mem_nil, exists_false, bound_fetch, false_iff]
  omega

section
variable [Zero α] [One α] [Add α] [Sub α] [Mul α] [Div α] [Neg α]

theorem terminate_ok {β : Type} {r : Res β} {x : β} (h : terminate r = .ok x) : r = .ok x := by
  cases r <;> simp_all [terminate]

theorem Inv.step {T : Nat} {start cutoff : Nat → Nat} {src0 : List (Sample α)} {s : Batch α} {evs : List (Event α)}
    (h : Inv T start cutoff src0 s evs) {E : Env α} {t : Nat} {r : Batch α × List (Event α)} (hr : s.step E t = .ok r) :
    Inv T start cutoff src0 r.1 (evs ++ r.2) := by
  unfold Batch.step at hr
  cases hw : s.workers[t]? with
  | none =>
    rw [hw] at hr
    obtain rfl := Res.ok.inj hr
    rw [List.append_nil]; exact h
  | some w =>
    rw [hw] at hr
    simp only at hr
    obtain ⟨q, hq, hr⟩ := Res.bind_eq_ok hr
    obtain rfl := Res.ok.inj hr
    exact h.move hw (step_moves (terminate_ok hq))

theorem Inv.run {T : Nat} {start cutoff : Nat → Nat} {src0 : List (Sample α)} {E : Env α} {sched : List Nat} :
    ∀ {s : Batch α} {evs : List (Event α)}, Inv T start cutoff src0 s evs → ∀ {r : Batch α × List (Event α)},
      s.run E sched = .ok r → Inv T start cutoff src0 r.1 (evs ++ r.2) := by
  induction sched with
  | nil =>
    intro s evs h r hr
    obtain rfl := Res.ok.inj hr
    rw [List.append_nil]; exact h
  | cons t ts ih =>
    intro s evs h r hr
    unfold Batch.run at hr
    obtain ⟨a, ha, hr⟩ := Res.bind_eq_ok hr
    obtain ⟨b, hb, hr⟩ := Res.bind_eq_ok hr
    obtain rfl := Res.ok.inj hr
    rw [← List.append_assoc]
    exact ih (h.step ha) hb

end

end Cnn.Train
