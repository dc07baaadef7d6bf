import Verif.Lemmas.OwnSchedule
/-! Helper lemmas: with one thread for each sample there is, for every sample of a batch, a schedule under which all threads use its label (C52, C92). -/
set_option linter.unusedSectionVars false
namespace Cnn.Train
open Model
variable {α : Type} [Zero α] [One α] [Add α] [Sub α] [Mul α] [Div α] [Neg α]

/-- The thread takes no further sample after the one it has. -/
def Pc.narrow (c : Nat) : Pc α → Prop
  | .fetch slot => c ≤ slot + 1
  | .forward slot _ _ _ => c ≤ slot + 1
  | .label slot _ _ => c ≤ slot + 1
  | .backward slot _ _ _ _ => c ≤ slot + 1
  | .done _ => True

/-- The thread will try to take a sample. -/
def Pc.waiting (c : Nat) : Pc α → Bool
  | .fetch slot => decide (slot < c)
  | _ => false

/-- The thread has the sample and has not yet told its label. -/
def Pc.keeps (y : Sample α) : Pc α → Prop
  | .forward _ x _ _ => x = y
  | .label _ x _ => x = y
  | _ => False

/-- Before the label is told. -/
def Pc.early : Pc α → Bool
  | .fetch _ => true
  | .forward _ _ _ _ => true
  | _ => false

/-- No label but that of `y` will be told. -/
def Pc.late (c : Nat) (y : Sample α) : Pc α → Prop
  | .fetch slot => c ≤ slot
  | .forward _ _ _ _ => False
  | .label _ x _ => x = y
  | _ => True

/-- Before the label of `y` is told. -/
structure Before (y : Sample α) (M0 : Model α) (s : Batch α) (evs : List (Event α)) : Prop where
  labels : s.shared.model.labels = M0.labels
  narrow : ∀ (t c : Nat) (p : Pc α), s.workers[t]? = some (c, p) → p.narrow c
  none : grads evs = []
  there : y ∈ s.shared.source.take (s.workers.countP fun w => w.2.waiting w.1) ∨ ∃ (t c : Nat) (p : Pc α), s.workers[t]? = some (c, p) ∧ p.keeps y

/-- After the label of `y` is told. -/
structure After (y : Sample α) (M0 : Model α) (s : Batch α) (evs : List (Event α)) : Prop where
  labels : s.shared.model.labels = M0.labels
  narrow : ∀ (t c : Nat) (p : Pc α), s.workers[t]? = some (c, p) → p.narrow c
  late : ∀ (t c : Nat) (p : Pc α), s.workers[t]? = some (c, p) → p.late c y
  stored : storedLabel s.shared.model = some (M0.labelIndex y.label)
  used : ∀ e ∈ grads evs, e.2.2.2 = M0.labelIndex y.label

theorem step_inv {E : Env α} {s : Batch α} {t : Nat} {r : Batch α × List (Event α)} {c : Nat} {p : Pc α} (hw : s.workers[t]? = some (c, p))
    (hr : s.step E t = .ok r) : ∃ a, p.step E t c s.shared = .ok a ∧ r = (⟨a.2.1, s.workers.set t (c, a.1)⟩, a.2.2) := by
  unfold Batch.step at hr
  rw [hw] at hr
  simp only at hr
  obtain ⟨a, ha, hr⟩ := Res.bind_eq_ok hr
  exact ⟨a, terminate_ok ha, (Res.ok.inj hr).symm⟩

theorem set_cases {s : Batch α} {t t' : Nat} {v w u : Nat × Pc α} (hw : s.workers[t]? = some w) (h : (s.workers.set t v)[t']? = some u) :
    (t' = t ∧ u = v) ∨ (t' ≠ t ∧ s.workers[t']? = some u) := by
  have ht : t < s.workers.length := (List.getElem?_eq_some_iff.1 hw).1
  by_cases h' : t' = t
  · subst h'
    rw [List.getElem?_set_self ht] at h
    exact Or.inl ⟨rfl, (Option.some.inj h).symm⟩
  · rw [List.getElem?_set_ne (Ne.symm h')] at h
    exact Or.inr ⟨h', h⟩

theorem narrow_step {E : Env α} {t c : Nat} {sh : Shared α} {p : Pc α} {a : Pc α × Shared α × List (Event α)} (h : p.step E t c sh = .ok a)
    (hn : p.narrow c) : a.1.narrow c := by
  match p with
  | .fetch slot =>
    simp only [Pc.step] at h
    by_cases hc : slot < c
    · rw [if_pos hc] at h
      cases hsrc : sh.source with
      | nil => rw [hsrc] at h; obtain rfl := Res.ok.inj h; trivial
      | cons x rest =>
        rw [hsrc] at h
        obtain ⟨q, hq, h⟩ := Res.bind_eq_ok h
        obtain rfl := Res.ok.inj h
        exact hn
    · rw [if_neg hc] at h
      obtain rfl := Res.ok.inj h
      trivial
  | .forward slot x i q =>
    simp only [Pc.step] at h
    by_cases hc : i < sh.model.layers.length
    · rw [if_pos hc] at h
      obtain ⟨q, hq, h⟩ := Res.bind_eq_ok h
      obtain rfl := Res.ok.inj h
      exact hn
    · rw [if_neg hc] at h
      obtain ⟨q, hq, h⟩ := Res.bind_eq_ok h
      obtain rfl := Res.ok.inj h
      exact hn
  | .label slot x r' =>
    obtain ⟨q, hq, h⟩ := Res.bind_eq_ok h
    obtain rfl := Res.ok.inj h
    exact hn
  | .backward slot x r' (i + 1) d =>
    obtain ⟨q, hq, h⟩ := Res.bind_eq_ok h
    obtain rfl := Res.ok.inj h
    exact hn
  | .backward slot x r' 0 d =>
    obtain rfl := Res.ok.inj h
    have : c ≤ slot + 1 := hn
    show c ≤ slot + 1 + 1
    omega
  | .done slot =>
    obtain rfl := Res.ok.inj h
    trivial

theorem narrow_set {E : Env α} {s : Batch α} {t c : Nat} {p : Pc α} {a : Pc α × Shared α × List (Event α)} (hw : s.workers[t]? = some (c, p))
    (ha : p.step E t c s.shared = .ok a) (h : ∀ (t c : Nat) (p : Pc α), s.workers[t]? = some (c, p) → p.narrow c) :
    ∀ (t' c' : Nat) (p' : Pc α), (s.workers.set t (c, a.1))[t']? = some (c', p') → p'.narrow c' := by
  intro t' c' p' h'
  rcases set_cases hw h' with ⟨rfl, e⟩ | ⟨_, e⟩
  · obtain ⟨rfl, rfl⟩ := Prod.mk.inj e
    exact narrow_step ha (h _ _ _ hw)
  · exact h _ _ _ e

/-- Once the label is told, nothing changes it. -/
theorem After.step {y : Sample α} {M0 : Model α} {s : Batch α} {evs : List (Event α)} (h : After y M0 s evs) {E : Env α} {t : Nat}
    {r : Batch α × List (Event α)} (hr : s.step E t = .ok r) : After y M0 r.1 (evs ++ r.2) := by
  cases hw : s.workers[t]? with
  | none =>
    unfold Batch.step at hr
    rw [hw] at hr
    obtain rfl := Res.ok.inj hr
    rw [List.append_nil]; exact h
  | some w =>
    obtain ⟨c, p⟩ := w
    obtain ⟨a, ha, rfl⟩ := step_inv hw hr
    obtain ⟨hm, hlab⟩ := step_labels ha
    have hidx : ∀ l, s.shared.model.labelIndex l = M0.labelIndex l := by
      intro l; unfold Model.labelIndex; rw [h.labels]
    have hn := h.narrow _ _ _ hw
    have hl := h.late _ _ _ hw
    refine ⟨hlab.trans h.labels, narrow_set hw ha h.narrow, ?_, ?_, ?_⟩
    · intro t' c' p' h'
      rcases set_cases hw h' with ⟨rfl, e⟩ | ⟨_, e⟩
      · obtain ⟨rfl, rfl⟩ := Prod.mk.inj e
        match p with
        | .fetch slot =>
          have hc : ¬ slot < c' := by
            have : c' ≤ slot := hl
            omega
          simp only [Pc.step, if_neg hc] at ha
          obtain rfl := Res.ok.inj ha
          trivial
        | .forward slot x i q => exact absurd hl id
        | .label slot x r' =>
          obtain ⟨q, hq, ha⟩ := Res.bind_eq_ok ha
          obtain rfl := Res.ok.inj ha
          trivial
        | .backward slot x r' (i + 1) d =>
          obtain ⟨q, hq, ha⟩ := Res.bind_eq_ok ha
          obtain rfl := Res.ok.inj ha
          trivial
        | .backward slot x r' 0 d =>
          obtain rfl := Res.ok.inj ha
          exact hn
        | .done slot =>
          obtain rfl := Res.ok.inj ha
          trivial
      · exact h.late _ _ _ e
    · cases hm with
      | @label slot x _ _ _ _ hp hq he hs =>
        subst hp
        have : x = y := hl
        rw [hs, hidx, this]
      | grad hp hq he hu hs => exact hs.trans h.stored
      | other _ _ hs _ => exact hs.trans h.stored
    · intro e he
      rw [grads_append, List.mem_append] at he
      rcases he with he | he
      · exact h.used e he
      · cases hm with
        | label hp hq hev hs => rw [hev] at he; simp [grads] at he
        | other hl hg hs hb => rw [hg] at he; simp at he
        | grad hp hq hev hu hs =>
          rw [h.stored] at hu
          have h2 := Option.some.inj hu
          rw [hev] at he
          simp only [grads, List.filterMap_cons, List.filterMap_nil, List.mem_singleton] at he
          subst he
          exact h2.symm

/-- A thread can be chosen so that the label of `y` is told last. -/
theorem Before.next {y : Sample α} {M0 : Model α} {s : Batch α} {evs : List (Event α)} (h : Before y M0 s evs) :
    ∃ (t : Nat) (v : Nat × Pc α), s.workers[t]? = some v ∧ v.2.isDone = false ∧
      ∀ (E : Env α) (r : Batch α × List (Event α)), s.step E t = .ok r → Before y M0 r.1 (evs ++ r.2) ∨ After y M0 r.1 (evs ++ r.2) := by
  by_cases h1 : ∃ (t c : Nat) (p : Pc α), s.workers[t]? = some (c, p) ∧ p.early = true
  · obtain ⟨t, c, p, hw, hp⟩ := h1
    have ht : t < s.workers.length := (List.getElem?_eq_some_iff.1 hw).1
    have hget : s.workers[t] = (c, p) := (List.getElem?_eq_some_iff.1 hw).2
    refine ⟨t, (c, p), hw, by cases p <;> simp_all [Pc.early, Pc.isDone], fun E r hr => Or.inl ?_⟩
    obtain ⟨a, ha, rfl⟩ := step_inv hw hr
    obtain ⟨hm, hlab⟩ := step_labels ha
    have hcount : ∀ q : Pc α, (s.workers.set t (c, q)).countP (fun w => w.2.waiting w.1) =
        s.workers.countP (fun w => w.2.waiting w.1) - (if p.waiting c then 1 else 0) + (if q.waiting c then 1 else 0) := by
      intro q
      rw [List.countP_set ht]
      simp only [hget]
    have other : ∀ q : Pc α, (p.keeps y → q.keeps y) → (∃ (t c : Nat) (p : Pc α), s.workers[t]? = some (c, p) ∧ p.keeps y) →
        ∃ (t' c' : Nat) (p' : Pc α), (s.workers.set t (c, q))[t']? = some (c', p') ∧ p'.keeps y := by
      rintro q hq ⟨t', c', p', e, hk⟩
      by_cases ht' : t' = t
      · subst ht'
        obtain ⟨rfl, rfl⟩ := Prod.mk.inj (Option.some.inj (hw.symm.trans e))
        exact ⟨t', c, q, List.getElem?_set_self ht, hq hk⟩
      · exact ⟨t', c', p', by rw [List.getElem?_set_ne (Ne.symm ht')]; exact e, hk⟩
    have hgr : grads a.2.2 = [] := by
      cases hm with
      | label hp' => rw [hp'] at hp; simp [Pc.early] at hp
      | grad hp' => rw [hp'] at hp; simp [Pc.early] at hp
      | other _ hg => exact hg
    refine ⟨hlab.trans h.labels, narrow_set hw ha h.narrow, by rw [grads_append, h.none, hgr]; rfl, ?_⟩
    show y ∈ a.2.1.source.take ((s.workers.set t (c, a.1)).countP fun w => w.2.waiting w.1) ∨ _
    cases p with
    | label => simp [Pc.early] at hp
    | backward => simp [Pc.early] at hp
    | done => simp [Pc.early] at hp
    | fetch slot =>
      simp only [Pc.step] at ha
      by_cases hc : slot < c
      · rw [if_pos hc] at ha
        cases hsrc : s.shared.source with
        | nil =>
          rw [hsrc] at ha
          obtain rfl := Res.ok.inj ha
          rcases h.there with hy | hy
          · rw [hsrc] at hy; simp at hy
          · exact Or.inr (other _ (fun h => absurd h id) hy)
        | cons x rest =>
          rw [hsrc] at ha
          obtain ⟨q, hq, ha⟩ := Res.bind_eq_ok ha
          obtain rfl := Res.ok.inj ha
          rcases h.there with hy | hy
          · rw [hcount, if_pos (show (Pc.fetch slot : Pc α).waiting c = true by simp [Pc.waiting, hc]), if_neg (by simp [Pc.waiting]), Nat.add_zero]
            rw [hsrc] at hy
            have hpos : 0 < s.workers.countP (fun w => w.2.waiting w.1) := by
              rcases Nat.eq_zero_or_pos (s.workers.countP (fun w => w.2.waiting w.1)) with h0 | h0
              · rw [h0] at hy; simp at hy
              · exact h0
            obtain ⟨k, hk⟩ := Nat.exists_eq_succ_of_ne_zero hpos.ne'
            rw [hk, List.take_succ_cons] at hy
            rw [hk]
            rcases List.mem_cons.1 hy with rfl | hy
            · exact Or.inr ⟨t, c, _, List.getElem?_set_self ht, rfl⟩
            · exact Or.inl hy
          · exact Or.inr (other _ (fun h => absurd h id) hy)
      · rw [if_neg hc] at ha
        obtain rfl := Res.ok.inj ha
        rcases h.there with hy | hy
        · rw [hcount]
          simp only [Pc.waiting, hc, decide_false, Bool.false_eq_true, if_false, Nat.add_zero, Nat.sub_zero]
          exact Or.inl hy
        · exact Or.inr (other _ (fun h => absurd h id) hy)
    | forward slot x i q =>
      simp only [Pc.step] at ha
      by_cases hc : i < s.shared.model.layers.length
      · rw [if_pos hc] at ha
        obtain ⟨q, hq, ha⟩ := Res.bind_eq_ok ha
        obtain rfl := Res.ok.inj ha
        rcases h.there with hy | hy
        · rw [hcount]
          simp only [Pc.waiting, Bool.false_eq_true, if_false, Nat.add_zero, Nat.sub_zero]
          exact Or.inl hy
        · exact Or.inr (other _ (fun h => h) hy)
      · rw [if_neg hc] at ha
        obtain ⟨q, hq, ha⟩ := Res.bind_eq_ok ha
        obtain rfl := Res.ok.inj ha
        rcases h.there with hy | hy
        · rw [hcount]
          simp only [Pc.waiting, Bool.false_eq_true, if_false, Nat.add_zero, Nat.sub_zero]
          exact Or.inl hy
        · exact Or.inr (other _ (fun h => h) hy)
  · have hearly : ∀ (t c : Nat) (p : Pc α), s.workers[t]? = some (c, p) → p.early = false := fun t c p hw => by
      by_contra hc
      exact h1 ⟨t, c, p, hw, by simpa using hc⟩
    have hzero : s.workers.countP (fun w => w.2.waiting w.1) = 0 := by
      rw [List.countP_eq_zero]
      rintro ⟨c, p⟩ hw
      obtain ⟨t, ht⟩ := List.mem_iff_getElem?.1 hw
      have := hearly t c p ht
      cases p <;> simp_all [Pc.early, Pc.waiting]
    have hkeep : ∃ (t c slot : Nat) (r : Results α), s.workers[t]? = some (c, .label slot y r) := by
      rcases h.there with hy | ⟨t, c, p, hw, hk⟩
      · rw [hzero] at hy; simp at hy
      · have := hearly t c p hw
        cases p with
        | label slot x r =>
          have : x = y := hk
          exact ⟨t, c, slot, r, by rw [hw, this]⟩
        | forward => simp [Pc.early] at this
        | _ => exact absurd hk id
    by_cases h2 : ∃ (t c slot : Nat) (x : Sample α) (r : Results α), s.workers[t]? = some (c, .label slot x r) ∧ x ≠ y
    · obtain ⟨t, c, slot, x, r0, hw, hx⟩ := h2
      have ht : t < s.workers.length := (List.getElem?_eq_some_iff.1 hw).1
      refine ⟨t, _, hw, rfl, fun E r hr => Or.inl ?_⟩
      obtain ⟨a, ha, rfl⟩ := step_inv hw hr
      obtain ⟨hm, hlab⟩ := step_labels ha
      refine ⟨hlab.trans h.labels, narrow_set hw ha h.narrow, ?_, Or.inr ?_⟩
      · rw [grads_append, h.none]
        cases hm with
        | label _ _ he => rw [he]; rfl
        | grad hp' => simp at hp'
        | other _ hg => rw [hg]; rfl
      · obtain ⟨t', c', slot', r', e⟩ := hkeep
        have hne : t ≠ t' := by
          rintro rfl
          have := (Prod.mk.inj (Option.some.inj (hw.symm.trans e))).2
          injection this with _ h _
          exact hx h
        exact ⟨t', c', .label slot' y r', by rw [List.getElem?_set_ne hne]; exact e, rfl⟩
    · obtain ⟨t, c, slot, r0, hw⟩ := hkeep
      refine ⟨t, _, hw, rfl, fun E r hr => Or.inr ?_⟩
      obtain ⟨a, ha, rfl⟩ := step_inv hw hr
      obtain ⟨hm, hlab⟩ := step_labels ha
      have hst : storedLabel a.2.1.model = some (s.shared.model.labelIndex y.label) ∧ grads a.2.2 = [] := by
        have ha' := ha
        obtain ⟨q, hq, ha⟩ := Res.bind_eq_ok ha
        obtain rfl := Res.ok.inj ha
        exact ⟨(backwardBegin_label hq).1, rfl⟩
      refine ⟨hlab.trans h.labels, narrow_set hw ha h.narrow, ?_, ?_, ?_⟩
      · intro t' c' p' h'
        rcases set_cases hw h' with ⟨rfl, e⟩ | ⟨_, e⟩
        · obtain ⟨rfl, rfl⟩ := Prod.mk.inj e
          obtain ⟨q, hq, ha⟩ := Res.bind_eq_ok ha
          obtain rfl := Res.ok.inj ha
          trivial
        · have he := hearly _ _ _ e
          cases p' with
          | fetch => simp [Pc.early] at he
          | forward => simp [Pc.early] at he
          | label slot' x' r' =>
            by_contra hc
            exact h2 ⟨_, _, _, _, _, e, hc⟩
          | _ => trivial
      · rw [hst.1]
        unfold Model.labelIndex
        rw [h.labels]
      · intro e he
        rw [grads_append, h.none, hst.2] at he
        simp at he

/-- All threads use the label of `y` in the end. -/
theorem run_same {E : Env α} {M0 : Model α} {T B w : Nat} {src0 : List (Sample α)} (hR : Runs E M0 B (src0.take B)) (hM0 : M0.Ready) {y : Sample α} :
    ∀ (n : Nat) {s : Batch α} {evs : List (Event α)}, s.todo ≤ n → GInv E M0 s evs → BInv T B w src0 s evs → PInv M0 (src0.take B) s evs →
      Before y M0 s evs ∨ After y M0 s evs →
      ∃ sched r, s.run E sched = .ok r ∧ r.1.over = true ∧ ∀ e ∈ grads (evs ++ r.2), e.2.2.2 = M0.labelIndex y.label := by
  intro n
  induction n with
  | zero =>
    intro s evs hn hG hB hP hO
    rcases hO with hO | hO
    · obtain ⟨t, v, hv, hd, _⟩ := hO.next
      obtain ⟨a, ha⟩ := step_ok hR hG hB hP t
      have := batchStep_todo hv hd ha
      omega
    · refine ⟨[], _, rfl, ?_, by rw [List.append_nil]; exact hO.used⟩
      show s.over = true
      by_contra ho
      rw [Batch.over, List.all_eq_true] at ho
      push Not at ho
      obtain ⟨v, hv, hd⟩ := ho
      obtain ⟨t, ht⟩ := List.mem_iff_getElem?.1 hv
      obtain ⟨a, ha⟩ := step_ok hR hG hB hP t
      have := batchStep_todo ht (by obtain ⟨c, p⟩ := v; cases p <;> simp [Pc.isDone] at hd ⊢) ha
      omega
  | succ n ih =>
    intro s evs hn hG hB hP hO
    have go : ∀ (t : Nat) (v : Nat × Pc α), s.workers[t]? = some v → v.2.isDone = false →
        (∀ (r : Batch α × List (Event α)), s.step E t = .ok r → Before y M0 r.1 (evs ++ r.2) ∨ After y M0 r.1 (evs ++ r.2)) →
        ∃ sched r, s.run E sched = .ok r ∧ r.1.over = true ∧ ∀ e ∈ grads (evs ++ r.2), e.2.2.2 = M0.labelIndex y.label := by
      intro t v ht hd hnext
      obtain ⟨a, ha⟩ := step_ok hR hG hB hP t
      have hlt := batchStep_todo ht hd ha
      obtain ⟨sched, b, hb, hbo, hown⟩ := ih (by omega) (hG.step hM0 hB ha) (hB.step ha) (hP.step hG hB ha) (hnext a ha)
      exact ⟨t :: sched, (b.1, a.2 ++ b.2), by rw [Batch.run, ha, Res.bind_ok, hb, Res.bind_ok], hbo, by rw [← List.append_assoc]; exact hown⟩
    rcases hO with hO | hO
    · obtain ⟨t, v, hv, hd, hnext⟩ := hO.next
      exact go t v hv hd (hnext E)
    · by_cases ho : s.over = true
      · exact ⟨[], _, rfl, ho, by rw [List.append_nil]; exact hO.used⟩
      · rw [Batch.over, List.all_eq_true] at ho
        push Not at ho
        obtain ⟨v, hv, hd⟩ := ho
        obtain ⟨t, ht⟩ := List.mem_iff_getElem?.1 hv
        exact go t v ht (by obtain ⟨c, p⟩ := v; cases p <;> simp [Pc.isDone] at hd ⊢) fun r hr => Or.inr (hO.step hr)

/-- For every sample of a batch some schedule completes the batch with all threads using its label. -/
theorem runBatch_same {β : Type} [Field β] {E : Env β} {p : Hyper β} {B : Nat} (hp : p.batch = B) (hq : p.threads = B) (hB : B < 2 ^ 24)
    (h0 : 0 < B) {sh : Shared β} (hM : sh.model.Prepared B)
    (hal : ∀ x ∈ sh.source.take B, ∀ y ∈ sh.source.take B, ∃ m, alone E sh.model ⟨x.data, y.label⟩ = .ok m)
    (hsize : ∀ i W Bi, sh.model.params i = some (W, Bi) → ∃ X Y Z F w, ∃ β : Nat → β, W.Shows X Y Z w ∧ Bi.Shows F 1 1 (fun f _ _ => β f) ∧
      ∀ x ∈ sh.source.take B, ∀ y ∈ sh.source.take B, ∃ G H u v, ownGrads E sh.model ⟨x.data, y.label⟩ i = some (G, H) ∧ G.Reads X Y Z u ∧ H.Reads F 1 1 v)
    (hfull : B ≤ sh.source.length) {y : Sample β} (hy : y ∈ sh.source.take B) :
    ∃ sched q, runBatch E p sched sh = .ok (some q) ∧ ∀ e ∈ grads q.2, e.2.2.2 = sh.model.labelIndex y.label := by
  have hshare : share B B = 1 := by
    unfold share
    rw [show B + B - 1 = (B - 1) + B by omega, Nat.add_div_right _ h0, Nat.div_eq_of_lt (by omega)]
  obtain ⟨i1, i2, i3⟩ := batch_init (E := E) (B := B) (T := B) (w := share B B) sh
  have hR := Runs.of_alone hM hal
  have hO : Before y sh.model (⟨sh, (List.range B).map (fun t => (min ((t + 1) * share B B) B, Pc.fetch (t * share B B)))⟩ : Batch β) [] := by
    refine ⟨rfl, ?_, rfl, Or.inl ?_⟩
    · intro t c p h
      simp only [hshare, Nat.mul_one, List.getElem?_map, Option.map_eq_some_iff, Prod.mk.injEq] at h
      obtain ⟨t', _, rfl, rfl⟩ := h
      exact Nat.min_le_left _ _
    · have : ((List.range B).map (fun t => (min ((t + 1) * share B B) B, (Pc.fetch (t * share B B) : Pc β)))).countP (fun w => w.2.waiting w.1) = B := by
        rw [List.countP_map, List.countP_eq_length.2, List.length_range]
        intro t ht
        have := List.mem_range.1 ht
        simp only [Function.comp_apply, Pc.waiting, hshare, decide_eq_true_eq]
        omega
      show y ∈ sh.source.take _
      rw [this]; exact hy
  obtain ⟨sched, r, hr, ho, hown⟩ := run_same hR hM.ready _ le_rfl i2 i1 i3 (Or.inl hO)
  obtain ⟨q, hq, he⟩ := runBatch_over hp hq hB h0 (by omega) hM hal hsize (Or.inl hfull) hr ho
  exact ⟨sched, q, hq, by rw [he]; exact hown⟩

end Cnn.Train
