import Verif.Lemmas.Room
import Verif.Lemmas.ShapeModel
import Verif.Lemmas.Progress
/-! Helper lemmas: no schedule makes a batch fail whose model and samples have the right sizes (C70). -/
set_option linter.unusedSectionVars false
namespace Cnn.Train
open Model
variable {α : Type} [Zero α] [One α] [Add α] [Sub α] [Mul α] [Div α] [Neg α]

/-- What a thread's place in the program says about the sizes. -/
def Pc.Ok (B : Nat) (s : Shape) (ks : List LayerKind) (labels : List (List Char)) (M : Model α) : Pc α → Prop
  | .fetch _ => True
  | .forward slot x i st => slot < B ∧ x.label ∈ labels ∧ i ≤ ks.length + 1 ∧ st.1.Has (shapeAt ks s i) ∧ Records s ks st.2 i ∧ ReadyTo s ks M slot i
  | .label slot x r => slot < B ∧ x.label ∈ labels ∧ Records s ks r.inputs (ks.length + 1) ∧ ReadyTo s ks M slot (ks.length + 1)
  | .backward slot _ r n d => slot < B ∧ n ≤ ks.length + 1 ∧ Records s ks r.inputs (ks.length + 1) ∧ ReadyTo s ks M slot (ks.length + 1) ∧
      Told ks M ∧ (0 < n → n ≤ ks.length → d.Has (shapeAt ks s n)) ∧ FilledFrom s ks M slot n
  | .done _ => True

variable {B : Nat} {s : Shape} {ks : List LayerKind} {labels : List (List Char)}

theorem Pc.Ok.keeps {M M' : Model α} (hk : Keeps s ks M M') {p : Pc α} (h : p.Ok B s ks labels M) : p.Ok B s ks labels M' := by
  cases p with
  | fetch _ => trivial
  | done _ => trivial
  | forward slot x i st =>
    obtain ⟨h1, h2, h3, h4, h5, h6⟩ := h
    exact ⟨h1, h2, h3, h4, h5, hk.ready _ _ h6⟩
  | label slot x r =>
    obtain ⟨h1, h2, h3, h4⟩ := h
    exact ⟨h1, h2, h3, hk.ready _ _ h4⟩
  | backward slot x r n d =>
    obtain ⟨h1, h2, h3, h4, h5, h6, h7⟩ := h
    exact ⟨h1, h2, h3, hk.ready _ _ h4, hk.told h5, h6, hk.filled _ _ h7⟩

/-- The slot has been used. -/
def Used (s : Shape) (ks : List LayerKind) (M : Model α) (b : Nat) : Prop := ReadyTo s ks M b (ks.length + 1) ∧ FilledFrom s ks M b 0

theorem Pc.step_shaped {E : Env α} (hE : E.order = .dimsFirst) (hW : KindsWork true s ks) {sh : Shared α} (hS : sh.model.Shaped B s ks labels)
    (hsrc : ∀ x ∈ sh.source, x.Fits s labels) {t c : Nat} (hc : c ≤ B) {p : Pc α} (hp : p.Ok B s ks labels sh.model) :
    ∃ r, p.step E t c sh = .ok r ∧ r.2.1.model.Shaped B s ks labels ∧ Keeps s ks sh.model r.2.1.model ∧ r.1.Ok B s ks labels r.2.1.model ∧
      (∀ x ∈ r.2.1.source, x.Fits s labels) ∧ ∀ e ∈ finishes r.2.2, Used s ks r.2.1.model e.2.1 := by
  cases p with
  | fetch slot =>
    simp only [Pc.step]
    by_cases hlt : slot < c
    · rw [if_pos hlt]
      cases hq : sh.source with
      | nil =>
        refine ⟨_, rfl, hS, Keeps.refl _ _ _, trivial, ?_, by simp [finishes]⟩
        rw [hq]; simp
      | cons x rest =>
        have hx := hsrc x (by rw [hq]; simp)
        obtain ⟨A, rec, e, hA, hR⟩ := forwardBegin_shaped (ks := ks) E hx.1
        refine ⟨(.forward slot x 0 (A, rec), { sh with source := rest }, [.fetch t slot x]), by dsimp only; rw [e, Res.bind_ok], hS, Keeps.refl _ _ _,
          ⟨by omega, hx.2, by omega, hA, hR, ?_⟩, fun y hy => hsrc y (by rw [hq]; simp [show y ∈ rest from hy]), by simp [finishes]⟩
        intro j _ _ hj
        omega
    · rw [if_neg hlt]
      exact ⟨_, rfl, hS, Keeps.refl _ _ _, trivial, hsrc, by simp [finishes]⟩
  | forward slot x i st =>
    obtain ⟨h1, h2, h3, h4, h5, h6⟩ := hp
    simp only [Pc.step]
    by_cases hi : i < sh.model.layers.length
    · rw [if_pos hi]
      rw [hS.count] at hi
      obtain ⟨A', rec', M', e, hA', hR', hS', hK', hr'⟩ := forwardStep_shaped E hS hW h1 hi h4 h5
      refine ⟨(.forward slot x (i + 1) (A', rec'), { sh with model := M' }, []), ?_, hS', hK', ⟨h1, h2, by omega, hA', hR', hr' h6⟩, hsrc, by simp [finishes]⟩
      obtain ⟨A, rec⟩ := st
      rw [e, Res.bind_ok]
    · rw [if_neg hi]
      rw [hS.count] at hi
      obtain rfl : i = ks.length + 1 := by omega
      have hl := hS.labelled
      obtain ⟨r, e, hr, _⟩ := forwardEnd_has E sh.model h4 (by rw [shapeAt_end (Nat.le_succ _), hl]; exact hS.output) st.2
      refine ⟨(.label slot x r, sh, []), by rw [e, Res.bind_ok], hS, Keeps.refl _ _ _, ⟨h1, h2, by rw [hr]; exact h5, h6⟩, hsrc, by simp [finishes]⟩
  | label slot x r =>
    obtain ⟨h1, h2, h3, h4⟩ := hp
    simp only [Pc.step]
    obtain ⟨r', M', e, hr', hS', hK', hT'⟩ := backwardBegin_shaped E hS h3 h2
    refine ⟨(.backward slot x r' sh.model.layers.length Matrix.empty, { sh with model := M' }, [.label t slot x]), by rw [e, Res.bind_ok], hS', hK',
      ⟨h1, by rw [hS.count], by rw [hr']; exact h3, hK'.ready _ _ h4, hT', ?_, ?_⟩, hsrc, by simp [finishes]⟩
    · intro _ h
      rw [hS.count] at h
      omega
    · intro j _ k hj _ hk
      rw [hS.count] at hj
      have := (List.getElem?_eq_some_iff.1 hk).1
      omega
  | backward slot x r n d =>
    obtain ⟨h1, h2, h3, h4, h5, h6, h7⟩ := hp
    cases n with
    | zero =>
      refine ⟨_, rfl, hS, Keeps.refl _ _ _, trivial, hsrc, ?_⟩
      intro e he
      have : e = (t, slot, x) := by simpa [finishes] using he
      subst this
      exact ⟨h4, h7⟩
    | succ i =>
      simp only [Pc.step]
      obtain ⟨d', M', e, hd', hS', hK', hf'⟩ := backwardStep_shaped E hE hS hW h1 (show i < ks.length + 1 by omega) h3
        (fun hi => h6 (by omega) (by omega)) h4 h5
      refine ⟨(.backward slot x r i d', { sh with model := M' }, gradEvent sh.model t slot x i), by rw [e, Res.bind_ok], hS', hK',
        ⟨h1, by omega, h3, hK'.ready _ _ h4, hK'.told h5, fun h0 _ => hd' h0, hf' h7⟩, hsrc, ?_⟩
      rw [(fetches_gradEvent _ _ _ _ _).2]
      simp
  | done slot => exact ⟨_, rfl, hS, Keeps.refl _ _ _, trivial, hsrc, by simp [finishes]⟩

/-- The invariant of a batch. -/
structure SInv (B : Nat) (s : Shape) (ks : List LayerKind) (labels : List (List Char)) (M0 : Model α) (b : Batch α) (evs : List (Event α)) : Prop where
  model : b.shared.model.Shaped B s ks labels
  keeps : Keeps s ks M0 b.shared.model
  source : ∀ x ∈ b.shared.source, x.Fits s labels
  workers : ∀ w ∈ b.workers, w.1 ≤ B ∧ w.2.Ok B s ks labels b.shared.model
  used : ∀ e ∈ finishes evs, Used s ks b.shared.model e.2.1

theorem SInv.step {E : Env α} (hE : E.order = .dimsFirst) (hW : KindsWork true s ks) {M0 : Model α} {b : Batch α} {evs : List (Event α)}
    (h : SInv B s ks labels M0 b evs) (t : Nat) : ∃ r, b.step E t = .ok r ∧ SInv B s ks labels M0 r.1 (evs ++ r.2) := by
  unfold Batch.step
  cases hw : b.workers[t]? with
  | none => exact ⟨_, rfl, by simpa using h⟩
  | some w =>
    obtain ⟨hc, hp⟩ := h.workers w (List.mem_of_getElem? hw)
    obtain ⟨r, e, h1, h2, h3, h4, h5⟩ := Pc.step_shaped hE hW h.model h.source (t := t) hc hp
    refine ⟨(⟨r.2.1, b.workers.set t (w.1, r.1)⟩, r.2.2), ?_, h1, h.keeps.trans h2, h4, ?_, ?_⟩
    · dsimp only
      rw [e]; rfl
    · intro v hv
      rcases List.mem_or_eq_of_mem_set hv with hv | rfl
      · exact ⟨(h.workers v hv).1, (h.workers v hv).2.keeps h2⟩
      · exact ⟨hc, h3⟩
    · intro e he
      rw [finishes_append, List.mem_append] at he
      rcases he with he | he
      · exact ⟨h2.ready _ _ (h.used e he).1, h2.filled _ _ (h.used e he).2⟩
      · exact h5 e he

theorem SInv.run {E : Env α} (hE : E.order = .dimsFirst) (hW : KindsWork true s ks) {M0 : Model α} (sched : List Nat) :
    ∀ {b : Batch α} {evs : List (Event α)}, SInv B s ks labels M0 b evs → ∃ r, b.run E sched = .ok r ∧ SInv B s ks labels M0 r.1 (evs ++ r.2) := by
  induction sched with
  | nil => intro b evs h; exact ⟨_, rfl, by simpa using h⟩
  | cons t ts ih =>
    intro b evs h
    obtain ⟨r, e, h1⟩ := h.step hE hW t
    obtain ⟨q, e2, h2⟩ := ih h1
    exact ⟨(q.1, r.2 ++ q.2), by rw [Batch.run, e, Res.bind_ok, e2, Res.bind_ok], by rw [← List.append_assoc]; exact h2⟩

/-- The batch can be brought to its end. -/
theorem SInv.ends {E : Env α} (hE : E.order = .dimsFirst) (hW : KindsWork true s ks) {M0 : Model α} :
    ∀ (n : Nat) {b : Batch α} {evs : List (Event α)}, b.todo ≤ n → SInv B s ks labels M0 b evs → ∃ sched r, b.run E sched = .ok r ∧ r.1.over = true := by
  intro n
  induction n with
  | zero =>
    intro b evs hn _
    refine ⟨[], _, rfl, ?_⟩
    rw [Batch.over, List.all_eq_true]
    intro v hv
    have hsum : v.2.todo b.shared.model.layers.length ≤ (b.workers.map fun w => w.2.todo b.shared.model.layers.length).sum :=
      List.single_le_sum (by simp) _ (List.mem_map.2 ⟨v, hv, rfl⟩)
    unfold Batch.todo at hn
    have : v.2.todo b.shared.model.layers.length = 0 := by omega
    obtain ⟨c, p⟩ := v
    cases p <;> simp [Pc.todo] at this ⊢
  | succ n ih =>
    intro b evs hn h
    by_cases ho : b.over = true
    · exact ⟨[], _, rfl, ho⟩
    · have : ∃ v ∈ b.workers, v.2.isDone = false := by
        rw [Batch.over, List.all_eq_true] at ho
        push Not at ho
        obtain ⟨v, hv, hd⟩ := ho
        refine ⟨v, hv, ?_⟩
        obtain ⟨c, p⟩ := v
        cases p <;> simp [Pc.isDone] at hd ⊢
      obtain ⟨v, hv, hd⟩ := this
      obtain ⟨t, ht⟩ := List.mem_iff_getElem?.1 hv
      obtain ⟨a, ha, h1⟩ := h.step hE hW t
      have hlt := batchStep_todo ht hd ha
      obtain ⟨sched, q, hq, hqo⟩ := ih (by omega) h1
      exact ⟨t :: sched, (q.1, a.2 ++ q.2), by rw [Batch.run, ha, Res.bind_ok, hq, Res.bind_ok], hqo⟩

/-- What holds between two batches: the model fits, and the slots have all been used or will be by the next batch. -/
structure Between (B : Nat) (s : Shape) (ks : List LayerKind) (labels : List (List Char)) (sh : Shared α) : Prop where
  model : sh.model.Shaped B s ks labels
  source : ∀ x ∈ sh.source, x.Fits s labels
  full : Full B s ks sh.model ∨ B ≤ sh.source.length

variable {E : Env α} {p : Hyper α} {T : Nat}

theorem SInv.init {sh : Shared α} (h : Between B s ks labels sh) :
    SInv B s ks labels sh.model ⟨sh, (List.range T).map (fun t => (min ((t + 1) * share B T) B, Pc.fetch (t * share B T)))⟩ [] := by
  refine ⟨h.model, Keeps.refl _ _ _, h.source, ?_, by simp [finishes]⟩
  intro w hw
  obtain ⟨t, _, rfl⟩ := List.mem_map.1 hw
  exact ⟨Nat.min_le_right _ _, trivial⟩

/-- At the end of a batch all slots have been used. -/
theorem batch_full (hT0 : 0 < T) {sh : Shared α} (h : Between B s ks labels sh) {b : Batch α} {evs : List (Event α)}
    (hI : BInv T B (share B T) sh.source b evs) (hS : SInv B s ks labels sh.model b evs) (ho : b.over = true) : Full B s ks b.shared.model := by
  rcases h.full with hf | hl
  · exact hS.keeps.full hf
  · have hcount := hI.count (share_bounds B T hT0).1 ho
    have hperm := hI.perm ho
    rw [Nat.min_eq_left hl] at hcount
    have hn := hI.slots_nodup
    have hsub : (fetches evs).map (fun e => e.2.1) ⊆ List.range B := by
      intro c hc
      obtain ⟨⟨t, c, x⟩, m, rfl⟩ := List.mem_map.1 hc
      obtain ⟨_, _, a⟩ := hI.range m
      rw [List.mem_range]
      simp only
      omega
    have hp : (fetches evs).map (fun e => e.2.1) |>.Perm (List.range B) :=
      (List.subperm_of_subset hn hsub).perm_of_length_le (by simp [hcount])
    intro c hc
    have hc' : c ∈ (fetches evs).map (fun e => e.2.1) := hp.mem_iff.2 (List.mem_range.2 hc)
    obtain ⟨e, he, rfl⟩ := List.mem_map.1 hc'
    exact hS.used e (hperm.mem_iff.2 he)

theorem runBatch_shaped (hE : E.order = .dimsFirst) (hW : KindsWork true s ks) (hp : p.batch = B) (hq : p.threads = T) (h0 : 0 < B) (hB : B < 2 ^ 24)
    (hT0 : 0 < T) (hT : T < 2147483648) {sh : Shared α} (h : Between B s ks labels sh) (sched : List Nat) :
    ∃ o, runBatch E p sched sh = .ok o ∧ ∀ r, o = some r → r.1.model.Shaped B s ks labels ∧ Full B s ks r.1.model ∧ ∀ x ∈ r.1.source, x.Fits s labels := by
  have hst := startBatch_eq B T hB hT0 hT sh
  obtain ⟨r, er, hS⟩ := (SInv.init (T := T) h).run hE hW sched
  have hI : BInv T B (share B T) sh.source r.1 r.2 := by
    have := (Inv.init T (fun t => t * share B T) (fun t => min ((t + 1) * share B T) B) sh).run er
    simpa using this
  rw [List.nil_append] at hS
  unfold runBatch
  rw [hp, hq, hst, Res.bind_ok, er, Res.bind_ok]
  by_cases ho : r.1.over = true
  · obtain ⟨M', e, h1, h2⟩ := applyBatch_shaped E.num p.rate h0 hS.model (batch_full hT0 h hI hS ho)
    refine ⟨some ({ r.1.shared with model := M' }, r.2), by rw [if_pos ho, e, Res.bind_ok], ?_⟩
    rintro q hq'
    obtain rfl := Option.some.inj hq'
    exact ⟨h1, h2, hS.source⟩
  · exact ⟨none, by rw [if_neg ho], by simp⟩

theorem runBatch_ends (hE : E.order = .dimsFirst) (hW : KindsWork true s ks) (hp : p.batch = B) (hq : p.threads = T) (h0 : 0 < B) (hB : B < 2 ^ 24)
    (hT0 : 0 < T) (hT : T < 2147483648) {sh : Shared α} (h : Between B s ks labels sh) :
    ∃ sched r, runBatch E p sched sh = .ok (some r) := by
  have hst := startBatch_eq B T hB hT0 hT sh
  obtain ⟨sched, r, er, ho⟩ := SInv.ends hE hW _ (le_refl _) (SInv.init (T := T) h)
  obtain ⟨o, eo, _⟩ := runBatch_shaped hE hW hp hq h0 hB hT0 hT h sched
  refine ⟨sched, ?_⟩
  have h2 := eo
  unfold runBatch at h2
  rw [hp, hq, hst, Res.bind_ok, er, Res.bind_ok, if_pos ho] at h2
  obtain ⟨M, _, h2⟩ := Res.bind_eq_ok h2
  obtain rfl := Res.ok.inj h2
  exact ⟨_, eo⟩

theorem runBatches_shaped (hE : E.order = .dimsFirst) (hW : KindsWork true s ks) (hp : p.batch = B) (hq : p.threads = T) (h0 : 0 < B) (hB : B < 2 ^ 24)
    (hT0 : 0 < T) (hT : T < 2147483648) (scheds : List (List Nat)) : ∀ {sh : Shared α}, Between B s ks labels sh →
    ∃ o, runBatches E p scheds sh = .ok o ∧ ∀ r, o = some r → r.1.model.Shaped B s ks labels ∧ (scheds ≠ [] → Full B s ks r.1.model) := by
  induction scheds with
  | nil =>
    intro sh h
    refine ⟨_, rfl, ?_⟩
    rintro r hr
    obtain rfl := Option.some.inj hr
    exact ⟨h.model, fun h => absurd rfl h⟩
  | cons c cs ih =>
    intro sh h
    obtain ⟨o, e, ho⟩ := runBatch_shaped hE hW hp hq h0 hB hT0 hT h c
    unfold runBatches
    rw [e, Res.bind_ok]
    cases o with
    | none => exact ⟨none, rfl, by simp⟩
    | some r =>
      obtain ⟨h1, h2, h3⟩ := ho r rfl
      obtain ⟨o', e', ho'⟩ := ih (sh := r.1) ⟨h1, h3, Or.inl h2⟩
      dsimp only
      rw [e', Res.bind_ok]
      cases o' with
      | none => exact ⟨none, rfl, by simp⟩
      | some q =>
        refine ⟨_, rfl, ?_⟩
        rintro q' hq'
        obtain rfl := Option.some.inj hq'
        refine ⟨(ho' q rfl).1, fun _ => ?_⟩
        by_cases hcs : cs = []
        · subst hcs
          obtain rfl : (r.1, []) = q := Option.some.inj (Res.ok.inj e')
          exact h2
        · exact (ho' q rfl).2 hcs

theorem runBatches_ends (hE : E.order = .dimsFirst) (hW : KindsWork true s ks) (hp : p.batch = B) (hq : p.threads = T) (h0 : 0 < B) (hB : B < 2 ^ 24)
    (hT0 : 0 < T) (hT : T < 2147483648) (n : Nat) : ∀ {sh : Shared α}, Between B s ks labels sh →
    ∃ (scheds : List (List Nat)) (r : _), scheds.length = n ∧ runBatches E p scheds sh = .ok (some r) := by
  induction n with
  | zero => intro sh _; exact ⟨[], _, rfl, rfl⟩
  | succ n ih =>
    intro sh h
    obtain ⟨c, r, e⟩ := runBatch_ends hE hW hp hq h0 hB hT0 hT h
    obtain ⟨o, e2, ho⟩ := runBatch_shaped hE hW hp hq h0 hB hT0 hT h c
    rw [e] at e2
    obtain rfl := Res.ok.inj e2
    obtain ⟨h1, h2, h3⟩ := ho r rfl
    obtain ⟨cs, q, hcs, e'⟩ := ih (sh := r.1) ⟨h1, h3, Or.inl h2⟩
    refine ⟨c :: cs, (q.1, r.2 ++ q.2), by simp [hcs], ?_⟩
    unfold runBatches
    rw [e, Res.bind_ok]
    dsimp only
    rw [e', Res.bind_ok]

theorem ceilDiv_pos {n B : Nat} (hn : 0 < n) (hB : 0 < B) : 0 < (n + B - 1) / B := Nat.div_pos (by omega) hB

theorem runEpoch_if (hp : p.batch = B) (hq : p.threads = T) (h0 : 0 < B) (hB : B < 2 ^ 24) (hT0 : 0 < T) {size : Nat} (hsz : size < 2 ^ 24)
    (scheds : List (List Nat)) (sh : Shared α) : runEpoch E p size scheds sh =
      if scheds.length = (size + B - 1) / B then runBatches E p scheds { sh with hits := 0 } else .ok none := by
  unfold runEpoch
  rw [hp, hq, if_neg (by omega), workCount_eq B T hB hT0, Res.bind_ok, if_neg (by omega), numBatches_eq size B hsz h0, Res.bind_ok]
  rfl

theorem runEpoch_shaped (hE : E.order = .dimsFirst) (hW : KindsWork true s ks) (hp : p.batch = B) (hq : p.threads = T) (h0 : 0 < B) (hB : B < 2 ^ 24)
    (hT0 : 0 < T) (hT : T < 2147483648) {size : Nat} (hs0 : 0 < size) (hsz : size < 2 ^ 24) (scheds : List (List Nat)) {sh : Shared α}
    (h : Between B s ks labels sh) :
    ∃ o, runEpoch E p size scheds sh = .ok o ∧ ∀ r, o = some r → r.1.model.Shaped B s ks labels ∧ Full B s ks r.1.model := by
  rw [runEpoch_if hp hq h0 hB hT0 hsz]
  by_cases hl : scheds.length = (size + B - 1) / B
  · rw [if_pos hl]
    obtain ⟨o, e, ho⟩ := runBatches_shaped hE hW hp hq h0 hB hT0 hT scheds (sh := { sh with hits := 0 }) ⟨h.model, h.source, h.full⟩
    refine ⟨o, e, fun r hr => ⟨(ho r hr).1, (ho r hr).2 ?_⟩⟩
    rintro rfl
    have := ceilDiv_pos hs0 h0
    simp at hl
    omega
  · exact ⟨none, by rw [if_neg hl], by simp⟩

/-- The body of the loop over the epochs. -/
def epochStep (E : Env α) (p : Hyper α) (size : Nat) (M : Option (Model α)) (e : List (List Nat) × List (Sample α)) : Res (Option (Model α)) :=
  match M with
  | none => .ok none
  | some M => do
    let r ← runEpoch E p size e.1 ⟨M, e.2, 0⟩
    .ok (r.map fun q => q.1.model)

theorem train_room (E : Env α) (p : Hyper α) (size : Nat) (epochs : List (List (List Nat) × List (Sample α))) (M : Model α) :
    train E p size epochs M = (M.room p.batch >>= fun _ =>
      if epochs.length = p.epochs.toNat then epochs.foldlM (epochStep E p size) (some (M.setBatchSize (u64 p.batch))) else .ok none) := rfl

theorem train_if {E : Env α} {p : Hyper α} (hb : 0 ≤ p.batch) {size : Nat} {epochs : List (List (List Nat) × List (Sample α))} {M : Model α} :
    train E p size epochs M =
      if epochs.length = p.epochs.toNat then epochs.foldlM (epochStep E p size) (some (M.setBatchSize (u64 p.batch))) else .ok none := by
  rw [train_room, Model.room_nonneg hb, Res.bind_ok]

theorem train_none (E : Env α) (p : Hyper α) (size : Nat) (epochs : List (List (List Nat) × List (Sample α))) :
    epochs.foldlM (epochStep E p size) none = .ok none := by
  induction epochs with
  | nil => rfl
  | cons e es ih => rw [List.foldlM_cons]; exact ih

theorem epochs_shaped (hE : E.order = .dimsFirst) (hW : KindsWork true s ks) (hp : p.batch = B) (hq : p.threads = T) (h0 : 0 < B) (hB : B < 2 ^ 24)
    (hT0 : 0 < T) (hT : T < 2147483648) {size : Nat} (hs0 : 0 < size) (hsz : size < 2 ^ 24) (epochs : List (List (List Nat) × List (Sample α))) :
    ∀ {M : Model α}, M.Shaped B s ks labels → (∀ e ∈ epochs, ∀ x ∈ e.2, x.Fits s labels) → (Full B s ks M ∨ ∀ e ∈ epochs.head?, B ≤ e.2.length) →
    ∃ o, epochs.foldlM (epochStep E p size) (some M) = .ok o ∧ ∀ M', o = some M' → M'.Shaped B s ks labels ∧ (epochs ≠ [] ∨ Full B s ks M → Full B s ks M') := by
  induction epochs with
  | nil =>
    intro M h _ _
    exact ⟨_, rfl, fun M' hM' => by obtain rfl := Option.some.inj hM'; exact ⟨h, fun hf => hf.resolve_left (by simp)⟩⟩
  | cons e es ih =>
    intro M h hx hf
    obtain ⟨o, eo, ho⟩ := runEpoch_shaped hE hW hp hq h0 hB hT0 hT hs0 hsz e.1 (sh := ⟨M, e.2, 0⟩)
      ⟨h, hx e (by simp), hf.imp id (fun h => h e (by simp))⟩
    rw [List.foldlM_cons]
    unfold epochStep
    dsimp only
    rw [eo, Res.bind_ok, Res.bind_ok]
    cases o with
    | none => exact ⟨none, train_none E p size es, by simp⟩
    | some r =>
      obtain ⟨o', e', h'⟩ := ih (ho r rfl).1 (fun e he => hx e (by simp [he])) (Or.inl (ho r rfl).2)
      exact ⟨o', e', fun M' hM' => ⟨(h' M' hM').1, fun _ => (h' M' hM').2 (Or.inr (ho r rfl).2)⟩⟩

theorem epochs_end (hE : E.order = .dimsFirst) (hW : KindsWork true s ks) (hp : p.batch = B) (hq : p.threads = T) (h0 : 0 < B) (hB : B < 2 ^ 24)
    (hT0 : 0 < T) (hT : T < 2147483648) {size : Nat} (hs0 : 0 < size) (hsz : size < 2 ^ 24) (sources : List (List (Sample α))) :
    ∀ {M : Model α}, M.Shaped B s ks labels → (∀ e ∈ sources, ∀ x ∈ e, x.Fits s labels) → (Full B s ks M ∨ ∀ e ∈ sources.head?, B ≤ e.length) →
    ∃ (epochs : List (List (List Nat) × List (Sample α))) (M' : Model α), epochs.map Prod.snd = sources ∧ epochs.foldlM (epochStep E p size) (some M) = .ok (some M') := by
  induction sources with
  | nil => intro M _ _ _; exact ⟨[], M, rfl, rfl⟩
  | cons src es ih =>
    intro M h hx hf
    have hb : Between B s ks labels (⟨M, src, 0⟩ : Shared α) := ⟨h, hx src (by simp), hf.imp id (fun h => h src (by simp))⟩
    obtain ⟨scheds, r, hl, er⟩ := runBatches_ends hE hW hp hq h0 hB hT0 hT ((size + B - 1) / B) hb
    obtain ⟨o, eo, ho⟩ := runEpoch_shaped hE hW hp hq h0 hB hT0 hT hs0 hsz scheds hb
    have e1 : runEpoch E p size scheds ⟨M, src, 0⟩ = .ok (some r) := by
      rw [runEpoch_if hp hq h0 hB hT0 hsz, if_pos hl]; exact er
    rw [e1] at eo
    obtain rfl := Res.ok.inj eo
    obtain ⟨epochs, M', hmap, e2⟩ := ih (ho r rfl).1 (fun e he => hx e (by simp [he])) (Or.inl (ho r rfl).2)
    refine ⟨(scheds, src) :: epochs, M', by simp [hmap], ?_⟩
    rw [List.foldlM_cons]
    unfold epochStep
    dsimp only
    rw [e1, Res.bind_ok, Res.bind_ok]
    exact e2

end Cnn.Train
