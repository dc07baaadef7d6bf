import Verif.Spec.Feed
import Verif.Model.Accuracy
import Verif.Lemmas.OverlapRun
/-! Helper lemmas: training from a data source is training on the lists it serves (C81). -/
set_option linter.unusedSectionVars false
namespace Cnn.Feed
open Train
variable {σ α : Type} [Zero α] [One α] [Add α] [Sub α] [Mul α] [Div α] [Neg α]

theorem call_ok {β : Type} {m : Exec σ β} {g g' : σ} {b : β} (h : m g = (.ok b, g')) : call m g = .ok (b, g') := by
  unfold call; rw [h]

theorem Serves.now {G : Source σ α} {Q : σ → Prop} {l : List (Sample α)} {g : σ} (h : Serves G Q l g) : Q g := by
  cases l with
  | nil => exact h.1
  | cons => exact h.1

/-- The state with the source and the state with the list of samples still to come. -/
def Rel (G : Source σ α) (Q : σ → Prop) (a : Shared σ α) (b : Train.Shared α) : Prop :=
  a.model = b.model ∧ a.hits = b.hits ∧ Serves G Q b.source a.gen

variable {G : Source σ α} {Q : σ → Prop} {E : Env α} {p : Hyper α}

/-- A step that does not fetch leaves the list of samples alone. -/
theorem step_other {t cutoff : Nat} {pc : Pc α} (hp : ∀ slot, pc ≠ .fetch slot) (sh : Train.Shared α) :
    pc.step E t cutoff sh = (do let r ← pc.step E t cutoff ⟨sh.model, [], sh.hits⟩; .ok (r.1, { sh with model := r.2.1.model, hits := r.2.1.hits }, r.2.2)) := by
  cases pc with
  | fetch slot => exact absurd rfl (hp slot)
  | forward slot x i s =>
    simp only [Pc.step]
    split
    · cases Model.forwardStep E slot (s, sh.model) i <;> rfl
    · cases Model.forwardEnd E sh.model s.1 s.2 <;> rfl
  | label slot x r =>
    simp only [Pc.step]
    cases sh.model.backwardBegin E r x.label <;> rfl
  | backward slot x r n d =>
    cases n with
    | zero => rfl
    | succ n =>
      simp only [Pc.step]
      cases Model.backwardStep E r slot (d, sh.model) n <;> rfl
  | done slot => rfl

theorem step_rel {t cutoff : Nat} {a : Shared σ α} {b : Train.Shared α} (h : Rel G Q a b) (pc : Pc α) :
    Res.Like (fun r q => r.1 = q.1 ∧ Rel G Q r.2.1 q.2.1 ∧ r.2.2 = q.2.2) (Feed.step G E t cutoff a pc) (pc.step E t cutoff b) := by
  by_cases hp : ∃ slot, pc = .fetch slot
  · obtain ⟨slot, rfl⟩ := hp
    unfold Feed.step Pc.step
    dsimp only
    by_cases hc : slot < cutoff
    · rw [if_pos hc, if_pos hc]
      obtain ⟨h1, h2, h3⟩ := h
      match hs : b.source with
      | [] =>
        rw [hs] at h3
        rw [h3.2]
        exact ⟨rfl, ⟨h1, h2, by rw [hs]; exact h3⟩, rfl⟩
      | x :: l =>
        rw [hs] at h3
        obtain ⟨_, h4, g', h5, h6⟩ := h3
        rw [if_pos h4, call_ok h5, Res.bind_ok]
        dsimp only
        refine (Res.Like.refl (T := fun a b => a = b) fun _ _ => rfl).bind ?_
        rintro s _ rfl
        exact ⟨rfl, ⟨h1, h2, h6⟩, rfl⟩
    · rw [if_neg hc, if_neg hc]
      exact ⟨rfl, h, rfl⟩
  · have hp' : ∀ slot, pc ≠ .fetch slot := fun slot e => hp ⟨slot, e⟩
    rw [step_other hp' b, ← h.1, ← h.2.1]
    have : Feed.step G E t cutoff a pc = (do
        let r ← pc.step E t cutoff ⟨a.model, [], a.hits⟩
        .ok (r.1, { a with model := r.2.1.model, hits := r.2.1.hits }, r.2.2)) := by
      cases pc with
      | fetch slot => exact absurd rfl (hp' slot)
      | _ => rfl
    rw [this]
    refine (Res.Like.refl (T := fun a b => a = b) fun _ _ => rfl).bind ?_
    rintro r _ rfl
    exact ⟨rfl, ⟨rfl, rfl, h.2.2⟩, rfl⟩

theorem run_rel : ∀ (sched : List Nat) {a : Batch σ α} {b : Train.Batch α}, Rel G Q a.shared b.shared → a.workers = b.workers →
    Res.Like (fun r q => Rel G Q r.1.shared q.1.shared ∧ r.1.workers = q.1.workers ∧ r.2 = q.2) (a.run G E sched) (b.run E sched) := by
  intro sched
  induction sched with
  | nil => intro a b h hw; exact ⟨h, hw, rfl⟩
  | cons t ts ih =>
    intro a b h hw
    have hs : Res.Like (fun r q => Rel G Q r.1.shared q.1.shared ∧ r.1.workers = q.1.workers ∧ r.2 = q.2) (a.step G E t) (b.step E t) := by
      unfold Batch.step Train.Batch.step
      rw [hw]
      cases b.workers[t]? with
      | none => exact ⟨h, hw, rfl⟩
      | some w =>
        refine (step_rel h w.2).terminate.bind ?_
        rintro r q ⟨h1, h2, h3⟩
        exact ⟨h2, by dsimp only; rw [h1], h3⟩
    show Res.Like _ (a.step G E t >>= fun r => r.1.run G E ts >>= _) (b.step E t >>= fun r => r.1.run E ts >>= _)
    refine hs.bind ?_
    rintro r q ⟨h1, h2, h3⟩
    refine (ih h1 h2).bind ?_
    rintro r' q' ⟨h4, h5, h6⟩
    exact ⟨h4, h5, by dsimp only; rw [h3, h6]⟩

/-- Both none, or both some and related. -/
def OptRel {β γ : Type} (R : β → γ → Prop) : Option β → Option γ → Prop
  | none, none => True
  | some a, some b => R a b
  | _, _ => False

theorem runBatch_rel (sched : List Nat) {a : Shared σ α} {b : Train.Shared α} (h : Rel G Q a b) :
    Res.Like (OptRel fun r q => Rel G Q r.1 q.1 ∧ r.2 = q.2) (runBatch G E p sched a) (Train.runBatch E p sched b) := by
  unfold runBatch Train.runBatch
  have hs : Res.Like (fun s s' : Train.Batch α => s.workers = s'.workers ∧ s'.shared = b) (startBatch p.batch p.threads ⟨a.model, [], a.hits⟩) (startBatch p.batch p.threads b) := by
    unfold startBatch
    refine (Res.Like.refl (T := fun a b => a = b) fun _ _ => rfl).bind ?_
    rintro w _ rfl
    refine (Res.Like.refl (T := fun a b => a = b) fun _ _ => rfl).bind ?_
    rintro ws _ rfl
    exact ⟨rfl, rfl⟩
  refine hs.bind ?_
  rintro s s' ⟨h1, h2⟩
  refine (run_rel sched (a := ⟨a, s.workers⟩) (b := s') (by rw [h2]; exact h) h1).bind ?_
  rintro r q ⟨h3, h4, h5⟩
  have ho : r.1.over = q.1.over := by unfold Batch.over Train.Batch.over; rw [h4]; rfl
  rw [ho]
  by_cases hv : q.1.over = true
  · rw [if_pos hv, if_pos hv, h3.1]
    refine (Res.Like.refl (T := fun a b => a = b) fun _ _ => rfl).bind ?_
    rintro M _ rfl
    exact ⟨⟨rfl, h3.2.1, h3.2.2⟩, h5⟩
  · rw [if_neg hv, if_neg hv]
    trivial

theorem runBatches_rel : ∀ (scheds : List (List Nat)) {a : Shared σ α} {b : Train.Shared α}, Rel G Q a b →
    Res.Like (OptRel fun r q => Rel G Q r.1 q.1 ∧ r.2 = q.2) (runBatches G E p scheds a) (Train.runBatches E p scheds b) := by
  intro scheds
  induction scheds with
  | nil => intro a b h; exact ⟨h, rfl⟩
  | cons c cs ih =>
    intro a b h
    unfold runBatches Train.runBatches
    refine (runBatch_rel c h).bind ?_
    intro r q hr
    match r, q, hr with
    | none, none, _ => trivial
    | some r, some q, ⟨h1, h2⟩ =>
      dsimp only
      refine (ih h1).bind ?_
      intro r' q' hr'
      match r', q', hr' with
      | none, none, _ => trivial
      | some r', some q', ⟨h3, h4⟩ => exact ⟨h3, by dsimp only; rw [h2, h4]⟩

theorem runEpoch_rel (scheds : List (List Nat)) {M : Model α} {g : σ} {l : List (Sample α)} {n k : Nat} (hn : G.size g = n) (h : Serves G Q l g) :
    Res.Like (OptRel fun r q => Rel G Q r.1 q.1 ∧ r.2 = q.2) (runEpoch G E p scheds M g) (Train.runEpoch E p n scheds ⟨M, l, k⟩) := by
  unfold runEpoch Train.runEpoch
  rw [hn]
  split
  · rfl
  · refine (Res.Like.refl (T := fun a b => a = b) fun _ _ => rfl).bind ?_
    rintro _ _ rfl
    split
    · rfl
    · refine (Res.Like.refl (T := fun a b => a = b) fun _ _ => rfl).bind ?_
      rintro m _ rfl
      split
      · exact runBatches_rel scheds ⟨rfl, rfl, h⟩
      · trivial

theorem trainLoop_rel {n : Nat} (rest : List (List (Sample α))) : ∀ (ls : List (List (Sample α))) (scheds : List (List (List Nat))), scheds.length = ls.length →
    ∀ {M : Model α} {g : σ}, Feeds G n (ls ++ rest) g →
    Res.Like (OptRel fun r q => r.1 = q.1 ∧ r.2.2 = q.2.map (fun h => (h, n)) ∧ Feeds G n rest r.2.1) (trainLoop G E p scheds M g) (reportLoop E p n (scheds.zip ls) M) := by
  intro ls
  induction ls with
  | nil =>
    intro scheds hl M g h
    obtain rfl := List.length_eq_zero_iff.1 hl
    exact ⟨rfl, rfl, h⟩
  | cons l ls ih =>
    intro scheds hl M g h
    obtain ⟨c, cs, rfl⟩ : ∃ c cs, scheds = c :: cs := by
      cases scheds with
      | nil => cases hl
      | cons c cs => exact ⟨c, cs, rfl⟩
    rw [List.zip_cons_cons]
    unfold trainLoop reportLoop
    dsimp only
    have h : Serves G (fun g => G.size g = n ∧ ∃ g', G.reset g = (.ok (), g') ∧ Feeds G n (ls ++ rest) g') l g := h
    refine (runEpoch_rel c h.now.1 h).bind ?_
    intro r q hr
    match r, q, hr with
    | none, none, _ => trivial
    | some r, some q, ⟨h1, _⟩ =>
      dsimp only
      obtain ⟨h2, g', h3, h4⟩ := h1.2.2.now
      rw [call_ok h3, Res.bind_ok, h1.1]
      refine (ih cs (by simpa using hl) h4).bind ?_
      intro r' q' hr'
      match r', q', hr' with
      | none, none, _ => trivial
      | some r', some q', ⟨h5, h6, h7⟩ =>
        refine ⟨h5, ?_, h7⟩
        dsimp only
        rw [h6, h2, h1.2.1]
        rfl

variable {G' : Source σ α}

theorem call_same {β : Type} {m m' : Exec σ β} {g : σ} (h : m g = m' g) : call m g = call m' g := by unfold call; rw [h]

theorem step_same (h : SameUse G G') (t cutoff : Nat) (sh : Shared σ α) (pc : Pc α) : Feed.step G E t cutoff sh pc = Feed.step G' E t cutoff sh pc := by
  cases pc with
  | fetch slot =>
    unfold Feed.step
    dsimp only
    rw [← h.has]
    split
    · split
      · rename_i hg
        rw [call_same (h.next _ hg)]
      · rfl
    · rfl
  | _ => rfl

theorem run_same (h : SameUse G G') : ∀ (sched : List Nat) (s : Batch σ α), s.run G E sched = s.run G' E sched := by
  intro sched
  induction sched with
  | nil => intro s; rfl
  | cons t ts ih =>
    intro s
    have hs : s.step G E t = s.step G' E t := by
      unfold Batch.step
      cases s.workers[t]? with
      | none => rfl
      | some w => dsimp only; rw [step_same h]
    unfold Batch.run
    rw [hs]
    simp only [ih]

theorem runBatches_same (h : SameUse G G') : ∀ (scheds : List (List Nat)) (sh : Shared σ α), runBatches G E p scheds sh = runBatches G' E p scheds sh := by
  intro scheds
  induction scheds with
  | nil => intro sh; rfl
  | cons c cs ih =>
    intro sh
    unfold runBatches
    simp only [ih]
    unfold runBatch
    simp only [run_same h]

theorem trainLoop_same (h : SameUse G G') : ∀ (scheds : List (List (List Nat))) (M : Model α) (g : σ), trainLoop G E p scheds M g = trainLoop G' E p scheds M g := by
  intro scheds
  induction scheds with
  | nil => intro M g; rfl
  | cons c cs ih =>
    intro M g
    unfold trainLoop
    simp only [ih]
    unfold runEpoch
    simp only [runBatches_same h, h.size, h.reset]

/-- A list is served from any position on. -/
theorem ofList_serves {l : List (Sample α)} {Q : Nat → Prop} (hQ : ∀ i, Q i) : ∀ (k i : Nat), i + k = l.length → Serves (ofList l) Q (l.drop i) i := by
  intro k
  induction k with
  | zero =>
    intro i hi
    rw [List.drop_of_length_le (by omega)]
    exact ⟨hQ i, by simp [ofList]; omega⟩
  | succ k ih =>
    intro i hi
    have hi' : i < l.length := by omega
    rw [List.drop_eq_getElem_cons hi']
    refine ⟨hQ i, by simp [ofList, hi'], i + 1, ?_, ih (i + 1) (by omega)⟩
    simp [ofList, hi']

theorem ofList_feeds (l : List (Sample α)) : ∀ k, Feeds (ofList l) l.length (List.replicate k l) 0 := by
  intro k
  induction k with
  | zero => trivial
  | succ k ih => exact ofList_serves (l := l) (fun i => ⟨rfl, 0, rfl, ih⟩) l.length 0 (by omega)

end Cnn.Feed
