import Verif.Lemmas.SlotModel
import Verif.Lemmas.ScheduleEnd
/-! Helper lemmas: what a batch stores in a slot is what the sample of that slot gives on its own (C53, C54). -/
set_option linter.unusedSectionVars false
namespace Cnn
namespace Model
variable {α : Type}

/-- The output layer is a softmax layer over `n` labels. -/
def Outputs (M : Model α) (n : Nat) : Prop := ∃ y S, M.layers.getLast? = some y ∧ y.body = .softmax S ∧ S.count = n

theorem Outputs.of_bare {M M' : Model α} {n : Nat} (hM : M.Outputs n) (h : M'.bare = M.bare) : M'.Outputs n := by
  obtain ⟨y, S, e1, e2, e3⟩ := hM
  have hg := bare_get h (M.layers.length - 1)
  rw [List.getLast?_eq_getElem?] at e1
  rw [e1] at hg
  cases hm : M'.layers[M.layers.length - 1]? with
  | none => rw [hm] at hg; simp at hg
  | some z =>
    rw [hm] at hg
    simp only [Option.map_some, Option.some.injEq, e2] at hg
    cases hz : z.body with
    | softmax S' =>
      rw [hz] at hg
      simp only [Body.bare, Body.softmax.injEq, Softmax.mk.injEq] at hg
      exact ⟨z, S', by rw [List.getLast?_eq_getElem?, bare_len h]; exact hm, hz, hg.1.trans e3⟩
    | _ => rw [hz] at hg; simp [Body.bare] at hg

theorem Outputs.norm {M : Model α} {n : Nat} (hM : M.Outputs n) (b : Nat) : (M.norm b).Outputs n := by
  obtain ⟨y, S, e1, e2, e3⟩ := hM
  have hl : 0 < M.layers.length := by
    cases h : M.layers with
    | nil => rw [h] at e1; simp at e1
    | cons a l => simp
  rw [List.getLast?_eq_getElem?] at e1
  refine ⟨{ y with body := (y.body.see b).tell 0 }, { S with trueLabel := 0, knows := true }, ?_, ?_, e3⟩
  · rw [List.getLast?_eq_getElem?, Model.norm, tell_get_last _ _ _ (by simp; omega), see_get]
    simp [e1]
  · simp [e2, Body.see, Body.tell]

theorem Outputs.stored {M : Model α} {n : Nat} (hM : M.Outputs n) : ∃ l, Train.storedLabel M = some l := by
  obtain ⟨y, S, e1, e2, e3⟩ := hM
  rw [Train.storedLabel_eq, e1, Option.bind_some, e2]
  exact ⟨_, rfl⟩

theorem Outputs.pos {M : Model α} {n : Nat} (hM : M.Outputs n) : 0 < M.layers.length := by
  obtain ⟨y, S, e1, _⟩ := hM
  cases h : M.layers with
  | nil => rw [h] at e1; simp at e1
  | cons a l => simp

end Model

namespace Train
open Model
variable {α : Type} [Zero α] [One α] [Add α] [Sub α] [Mul α] [Div α] [Neg α]

/-- The forward propagation of a sample through the first `n` layers of a model with one slot. -/
def soloF (E : Env α) (m : Model α) (x : Sample α) (n : Nat) : Res ((Matrix α × List (Matrix α)) × Model α) :=
  forwardBegin E x.data >>= fun s => (List.range n).foldlM (forwardStep E 0) (s, m)

/-- The back-propagation through the layers from the last down to layer `k`. -/
def soloB (E : Env α) (r : Results α) (m : Model α) (n k : Nat) : Res (Matrix α × Model α) :=
  (List.range' k (n - k)).reverse.foldlM (backwardStep E r 0) (Matrix.empty, m)

theorem soloF_succ (E : Env α) (m : Model α) (x : Sample α) (n : Nat) :
    soloF E m x (n + 1) = soloF E m x n >>= fun s => forwardStep E 0 s n := by
  unfold soloF
  cases forwardBegin E x.data with
  | throw | ub | abort => rfl
  | ok s =>
    simp only [Res.bind_ok, List.range_succ, List.foldlM_append]
    congr 1
    funext s
    simp only [List.foldlM_cons, List.foldlM_nil]
    exact bind_pure _

theorem soloB_succ (E : Env α) (r : Results α) (m : Model α) (n k : Nat) (hk : k < n) :
    soloB E r m n k = soloB E r m n (k + 1) >>= fun s => backwardStep E r 0 s k := by
  unfold soloB
  rw [show n - k = (n - (k + 1)) + 1 by omega, List.range'_succ, List.reverse_cons, List.foldlM_append]
  congr 1
  funext s
  simp only [List.foldlM_cons, List.foldlM_nil]
  exact bind_pure _

theorem soloB_self (E : Env α) (r : Results α) (m : Model α) (n : Nat) : soloB E r m n n = .ok (Matrix.empty, m) := by
  simp [soloB]

/-- A sample's propagation in both directions through a model with one slot, the output layer using label `l`. -/
def Solo (E : Env α) (m0 : Model α) (x : Sample α) (l : Nat) (m' : Model α) : Prop :=
  ∃ s m r0 r d n, soloF E m0 x m0.layers.length = .ok (s, m) ∧ forwardEnd E m0 s.1 s.2 = .ok r0 ∧
    m0.assignLoss E r0 x.label = .ok r ∧ m0.Outputs n ∧ m0.labelIndex x.label < n ∧
    soloB E r (m.tell l) m0.layers.length 0 = .ok (d, m')

/-- What is known about a thread at work. -/
def Work (E : Env α) (M0 M : Model α) (evs : List (Event α)) (t : Nat) : Pc α → Prop
  | .fetch _ => True
  | .done _ => True
  | .forward slot x i s => i ≤ M0.layers.length ∧ soloF E (M0.norm slot) x i = .ok (s, M.norm slot)
  | .label slot x r => ∃ s, soloF E (M0.norm slot) x M0.layers.length = .ok (s, M.norm slot) ∧
      forwardEnd E (M0.norm slot) s.1 s.2 = .ok r
  | .backward slot x r k d => ∃ s m r0 n, soloF E (M0.norm slot) x M0.layers.length = .ok (s, m) ∧
      forwardEnd E (M0.norm slot) s.1 s.2 = .ok r0 ∧ (M0.norm slot).assignLoss E r0 x.label = .ok r ∧
      (M0.norm slot).Outputs n ∧ (M0.norm slot).labelIndex x.label < n ∧ k ≤ M0.layers.length ∧
      ((k = M0.layers.length ∧ d = Matrix.empty ∧ m = M.norm slot) ∨
       (k < M0.layers.length ∧ ∃ l, (t, slot, x, l) ∈ grads evs ∧
          soloB E r (m.tell l) M0.layers.length k = .ok (d, (M.norm slot).tell l)))

theorem Work.frame {E : Env α} {M0 M M' : Model α} {evs : List (Event α)} {t : Nat} {p : Pc α} (h : Work E M0 M evs t p)
    (hn : ∀ x, p.busy = some x → M'.norm p.slot = M.norm p.slot) (ev : List (Event α)) : Work E M0 M' (evs ++ ev) t p := by
  cases p with
  | fetch slot => trivial
  | done slot => trivial
  | forward slot x i s =>
    have hn : M'.norm slot = M.norm slot := hn x rfl
    simp only [Work, hn] at h ⊢
    exact h
  | label slot x r =>
    have hn : M'.norm slot = M.norm slot := hn x rfl
    simp only [Work, hn] at h ⊢
    exact h
  | backward slot x r k d =>
    have hn : M'.norm slot = M.norm slot := hn x rfl
    simp only [Work, hn] at h ⊢
    obtain ⟨s, m, r0, n, h1, h2, h3, h4, h5, h6, h7⟩ := h
    refine ⟨s, m, r0, n, h1, h2, h3, h4, h5, h6, h7.imp id ?_⟩
    rintro ⟨a, l, b, c⟩
    exact ⟨a, l, by rw [grads_append, List.mem_append]; exact Or.inl b, c⟩

theorem assignLoss_congr (E : Env α) {M M' : Model α} (h : M.labels = M'.labels) (r : Results α) (lab : List Char) :
    M.assignLoss E r lab = M'.assignLoss E r lab := by
  unfold assignLoss labelIndex
  rw [h]

/-- One step of a thread. -/
theorem Work.step {E : Env α} {M0 : Model α} {sh sh' : Shared α} {evs ev : List (Event α)} {t cutoff : Nat} {p q : Pc α}
    (hM0 : M0.Ready) (hb : sh.model.bare = M0.bare)
    (h : Work E M0 sh.model evs t p) (h0 : ∀ slot, p = .fetch slot → slot < cutoff → sh.model.norm slot = M0.norm slot)
    (hs : p.step E t cutoff sh = .ok (q, sh', ev)) :
    sh'.model.bare = M0.bare ∧ (∀ c, (p.busy.isSome → c ≠ p.slot) → sh'.model.norm c = sh.model.norm c) ∧
      Work E M0 sh'.model (evs ++ ev) t q ∧
      ∀ slot x, (t, slot, x) ∈ finishes ev →
        slot = p.slot ∧ sh'.model = sh.model ∧ ∃ l, (t, slot, x, l) ∈ grads evs ∧
          Solo E (M0.norm slot) x l ((sh'.model.norm slot).tell l) := by
  have hlen := bare_len hb
  have hlab := bare_labels hb
  cases p with
  | fetch slot =>
    simp only [Pc.step] at hs
    by_cases hc : slot < cutoff
    · rw [if_pos hc] at hs
      cases hsrc : sh.source with
      | nil =>
        rw [hsrc] at hs
        have := Res.ok.inj hs
        simp only [Prod.mk.injEq] at this
        obtain ⟨rfl, rfl, rfl⟩ := this
        exact ⟨hb, fun _ _ => rfl, trivial, by simp [finishes]⟩
      | cons x rest =>
        rw [hsrc] at hs
        obtain ⟨s, e, hs⟩ := Res.bind_eq_ok hs
        have := Res.ok.inj hs
        simp only [Prod.mk.injEq] at this
        obtain ⟨rfl, rfl, rfl⟩ := this
        refine ⟨hb, fun _ _ => rfl, ?_, by simp [finishes]⟩
        refine ⟨Nat.zero_le _, ?_⟩
        simp only [soloF, e, Res.bind_ok, List.range_zero, List.foldlM_nil, Res.pure_eq, h0 slot rfl hc]
    · rw [if_neg hc] at hs
      have := Res.ok.inj hs
      simp only [Prod.mk.injEq] at this
      obtain ⟨rfl, rfl, rfl⟩ := this
      exact ⟨hb, fun _ _ => rfl, trivial, by simp [finishes]⟩
  | done slot =>
    have := Res.ok.inj hs
    simp only [Prod.mk.injEq] at this
    obtain ⟨rfl, rfl, rfl⟩ := this
    exact ⟨hb, fun _ _ => rfl, trivial, by simp [finishes]⟩
  | forward slot x i s =>
    obtain ⟨hi, hf⟩ := h
    simp only [Pc.step] at hs
    by_cases hc : i < sh.model.layers.length
    · rw [if_pos hc] at hs
      obtain ⟨a, ha, hs⟩ := Res.bind_eq_ok hs
      have := Res.ok.inj hs
      simp only [Prod.mk.injEq] at this
      obtain ⟨rfl, rfl, rfl⟩ := this
      obtain ⟨f1, f2⟩ := forwardStep_frame (hM0.of_bare hb) ha
      refine ⟨f1.trans hb, fun c hcc => f2 c (hcc rfl), ⟨by omega, ?_⟩, by simp [finishes]⟩
      rw [soloF_succ, hf, Res.bind_ok, forwardStep_norm, ha]
      rfl
    · rw [if_neg hc] at hs
      obtain ⟨r, hr, hs⟩ := Res.bind_eq_ok hs
      have := Res.ok.inj hs
      simp only [Prod.mk.injEq] at this
      obtain ⟨rfl, rfl, rfl⟩ := this
      obtain rfl : i = M0.layers.length := by omega
      refine ⟨hb, fun _ _ => rfl, ⟨s, hf, ?_⟩, by simp [finishes]⟩
      rw [← hr]
      exact forwardEnd_congr E (by rw [norm_labels, hlab]) _ _
  | label slot x r =>
    obtain ⟨s, hf, he⟩ := h
    obtain ⟨a, ha, hs⟩ := Res.bind_eq_ok hs
    have := Res.ok.inj hs
    simp only [Prod.mk.injEq] at this
    obtain ⟨rfl, rfl, rfl⟩ := this
    obtain ⟨i1, i2, i3, l, S, i4, i5, i6⟩ := backwardBegin_inv ha
    have hO : sh.model.Outputs S.count := ⟨l, S, i4, i5, rfl⟩
    refine ⟨?_, ?_, ?_, by simp [finishes]⟩
    · simp only [i2, bare_tell]; exact hb
    · intro c _; simp only [i2, norm_tell]
    · refine ⟨s, _, r, S.count, hf, he, ?_, (hO.of_bare hb.symm).norm slot, ?_, hlen.le, Or.inl ⟨hlen, rfl, ?_⟩⟩
      · rw [← i1]; exact assignLoss_congr E (by rw [norm_labels, hlab]) _ _
      · rw [labelIndex, norm_labels, ← hlab]; exact i6
      · simp only [i2, norm_tell]
  | backward slot x r k d =>
    obtain ⟨s, m, r0, n, h1, h2, h3, h4, h5, h6, h7⟩ := h
    cases k with
    | zero =>
      have := Res.ok.inj hs
      simp only [Prod.mk.injEq] at this
      obtain ⟨rfl, rfl, rfl⟩ := this
      refine ⟨hb, fun _ _ => rfl, trivial, ?_⟩
      intro slot' x' hm
      simp only [finishes, List.filterMap_cons, List.filterMap_nil, List.mem_singleton, Prod.mk.injEq, true_and] at hm
      obtain ⟨rfl, rfl⟩ := hm
      refine ⟨rfl, rfl, ?_⟩
      have hpos := h4.pos
      rw [norm_length] at hpos
      rcases h7 with ⟨h7, _⟩ | ⟨_, l, a, b⟩
      · omega
      · exact ⟨l, a, s, m, r0, r, d, n, by rw [norm_length]; exact h1, h2, h3, h4, h5, by rw [norm_length]; exact b⟩
    | succ i =>
      obtain ⟨a, ha, hs⟩ := Res.bind_eq_ok hs
      have := Res.ok.inj hs
      simp only [Prod.mk.injEq] at this
      obtain ⟨rfl, rfl, rfl⟩ := this
      obtain ⟨f1, f2⟩ := backwardStep_frame ha
      refine ⟨f1.trans hb, fun c hcc => f2 c (hcc rfl), ?_, ?_⟩
      · refine ⟨s, m, r0, n, h1, h2, h3, h4, h5, by omega, Or.inr ⟨by omega, ?_⟩⟩
        rcases h7 with ⟨h7, rfl, rfl⟩ | ⟨h7, l, g, b⟩
        · have hO : sh.model.Outputs n := by
            obtain ⟨y, S, o1, o2, o3⟩ := h4
            have hpos : 0 < M0.layers.length := by omega
            rw [List.getLast?_eq_getElem?, norm_length, Model.norm, tell_get_last _ _ _ (by simp; omega), see_get] at o1
            have hM : M0.Outputs n := by
              cases hm : M0.layers[M0.layers.length - 1]? with
              | none => rw [hm] at o1; simp at o1
              | some z =>
                rw [hm] at o1
                simp only [Option.map_some, Option.some.injEq] at o1
                cases hz : z.body with
                | softmax S' =>
                  rw [← o1] at o2
                  simp only [hz, Body.see, Body.tell, Body.softmax.injEq] at o2
                  exact ⟨z, S', by rw [List.getLast?_eq_getElem?]; exact hm, hz, by rw [← o3, ← o2]⟩
                | _ => rw [← o1] at o2; simp [hz, Body.see, Body.tell] at o2
            exact hM.of_bare hb
          obtain ⟨l, hl⟩ := hO.stored
          refine ⟨l, ?_, ?_⟩
          · rw [grads_append, List.mem_append]
            right
            simp [gradEvent, hl, h7, hlen, grads]
          · rw [soloB_succ _ _ _ _ _ (by omega), ← h7, soloB_self, Res.bind_ok]
            exact backwardStep_last (by omega) hl ha
        · refine ⟨l, by rw [grads_append, List.mem_append]; exact Or.inl g, ?_⟩
          rw [soloB_succ _ _ _ _ _ (by omega), b, Res.bind_ok, backwardStep_tell _ _ _ _ _ _ _ (by simp; omega)]
          have : backwardStep E r 0 (d, sh.model.norm slot) i = .ok (a.1, a.2.norm slot) := by
            rw [Model.norm, backwardStep_tell _ _ _ _ _ _ _ (by simp; omega), backwardStep_see, ha]
            rfl
          rw [this]
          rfl
      · intro slot' x' hm
        rw [(fetches_gradEvent _ _ _ _ _).2] at hm
        exact absurd hm (by simp)

/-- What is known about the model during a batch. -/
structure GInv (E : Env α) (M0 : Model α) (s : Batch α) (evs : List (Event α)) : Prop where
  bare : s.shared.model.bare = M0.bare
  work : ∀ t w, s.workers[t]? = some w → Work E M0 s.shared.model evs t w.2
  finished : ∀ t slot x, (t, slot, x) ∈ finishes evs → ∃ l, (t, slot, x, l) ∈ grads evs ∧
    Solo E (M0.norm slot) x l ((s.shared.model.norm slot).tell l)
  untouched : ∀ slot, (∀ t x, (t, slot, x) ∉ fetches evs) → s.shared.model.norm slot = M0.norm slot

theorem GInv.step {E : Env α} {M0 : Model α} {s : Batch α} {evs : List (Event α)} {T B w : Nat} {src0 : List (Sample α)}
    (hM0 : M0.Ready) (h : GInv E M0 s evs) (hB : BInv T B w src0 s evs) {t : Nat} {r : Batch α × List (Event α)}
    (hr : s.step E t = .ok r) : GInv E M0 r.1 (evs ++ r.2) := by
  have hB' : BInv T B w src0 r.1 (evs ++ r.2) := hB.step hr
  unfold Batch.step at hr
  cases hw : s.workers[t]? with
  | none =>
    rw [hw] at hr
    obtain rfl := Res.ok.inj hr
    rw [List.append_nil]; exact h
  | some v =>
    rw [hw] at hr
    simp only at hr
    obtain ⟨a, ha, hr⟩ := Res.bind_eq_ok hr
    obtain rfl := Res.ok.inj hr
    have ha := terminate_ok ha
    obtain ⟨c, p⟩ := v
    obtain ⟨q, sh', ev⟩ := a
    have ht : t < s.workers.length := (List.getElem?_eq_some_iff.1 hw).1
    have hT := hB.thread t _ hw
    have hcut : c = min ((t + 1) * w) B := hT.cut
    simp only at ha hT hB' ⊢
    -- a slot that is being worked on has been fetched by this thread
    have hmine : ∀ x, p.busy = some x → (t, p.slot, x) ∈ fetches evs := fun x hx => (hT.busy x hx x).2 rfl
    have huniq : ∀ {t' sl x u x'}, (t', sl, x) ∈ fetches evs → (u, sl, x') ∈ fetches evs → t' = u ∧ x = x' := by
      intro t' sl x u x' m1 m2
      obtain ⟨_, a1, a2⟩ := hB.range m1
      obtain ⟨_, b1, b2⟩ := hB.range m2
      have := blocks_disjoint B w t' u sl a1 a2 b1 b2
      subst this
      refine ⟨rfl, ?_⟩
      have hn := hB.slots_nodup
      have := List.inj_on_of_nodup_map hn m1 m2 rfl
      exact (Prod.mk.inj (Prod.mk.inj this).2).2
    obtain ⟨g1, g2, g3, g4⟩ := Work.step hM0 h.bare (h.work t _ hw) (by
      intro slot hp hlt
      simp only at hp
      subst hp
      refine h.untouched slot fun u x hx => ?_
      obtain ⟨_, b1, b2⟩ := hB.range hx
      have hst : t * w ≤ slot := hT.start_le
      have htu := blocks_disjoint B w t u slot hst (by omega) b1 b2
      subst htu
      have := (hT.fetched slot).1 ⟨x, hx⟩
      simp only [bound_fetch] at this
      omega) ha
    simp only at g1 g2 g3 g4
    refine ⟨g1, ?_, ?_, ?_⟩
    · intro u v hv
      simp only at hv ⊢
      by_cases htu : t = u
      · subst htu
        rw [List.getElem?_set_self ht] at hv
        obtain rfl := Option.some.inj hv
        exact g3
      · rw [List.getElem?_set_ne htu] at hv
        refine (h.work u v hv).frame (fun x hx => g2 _ fun hp heq => htu ?_) ev
        obtain ⟨y, hy⟩ := Option.isSome_iff_exists.1 hp
        have m1 := hmine y hy
        have m2 := ((hB.thread u v hv).busy x hx x).2 rfl
        rw [heq] at m2
        exact (huniq m1 m2).1
    · intro u sl x hm
      rw [finishes_append, List.mem_append] at hm
      rcases hm with hm | hm
      · obtain ⟨l, l1, l2⟩ := h.finished u sl x hm
        refine ⟨l, by rw [grads_append, List.mem_append]; exact Or.inl l1, ?_⟩
        simp only
        rw [g2 sl]
        · exact l2
        · intro hp heq
          obtain ⟨y, hy⟩ := Option.isSome_iff_exists.1 hp
          have m1 := hmine y hy
          have hu : u < s.workers.length := by rw [hB.len]; exact hB.thG _ hm
          have hTu := hB.thread u _ (List.getElem?_eq_getElem hu)
          have m2 := ((hTu.finished sl x).1 hm).1
          rw [heq] at m2
          obtain ⟨htu, _⟩ := huniq m1 m2
          subst htu
          have := ((hT.finished sl x).1 hm).2
          simp only at this
          omega
      · have hown : u = t := ((step_moves ha).own).2.1 _ hm
        subst hown
        obtain ⟨e1, e2, l, l1, l2⟩ := g4 sl x hm
        exact ⟨l, by rw [grads_append, List.mem_append]; exact Or.inl l1, l2⟩
    · intro sl hno
      have hno' : ∀ u x, (u, sl, x) ∉ fetches evs := fun u x hx => hno u x (by
        rw [fetches_append, List.mem_append]; exact Or.inl hx)
      simp only
      rw [g2 sl, h.untouched sl hno']
      intro hp heq
      obtain ⟨y, hy⟩ := Option.isSome_iff_exists.1 hp
      exact hno' t y (heq ▸ hmine y hy)

theorem GInv.run {E : Env α} {M0 : Model α} {T B w : Nat} {src0 : List (Sample α)} (hM0 : M0.Ready) {sched : List Nat} :
    ∀ {s : Batch α} {evs : List (Event α)}, GInv E M0 s evs → BInv T B w src0 s evs → ∀ {r : Batch α × List (Event α)},
      s.run E sched = .ok r → GInv E M0 r.1 (evs ++ r.2) := by
  induction sched with
  | nil =>
    intro s evs h _ r hr
    obtain rfl := Res.ok.inj hr
    rw [List.append_nil]; exact h
  | cons t ts ih =>
    intro s evs h hB r hr
    unfold Batch.run at hr
    obtain ⟨a, ha, hr⟩ := Res.bind_eq_ok hr
    obtain ⟨b, hb, hr⟩ := Res.bind_eq_ok hr
    obtain rfl := Res.ok.inj hr
    rw [← List.append_assoc]
    exact ih (h.step hM0 hB ha) (hB.step ha) hb

theorem GInv.init (E : Env α) (T : Nat) (start cutoff : Nat → Nat) (sh : Shared α) :
    GInv E sh.model ⟨sh, (List.range T).map (fun t => (cutoff t, Pc.fetch (start t)))⟩ [] := by
  refine ⟨rfl, ?_, by simp [finishes], fun _ _ => rfl⟩
  intro t w hw
  simp only [List.getElem?_map, Option.map_eq_some_iff, List.getElem?_eq_some_iff, List.length_range, List.getElem_range] at hw
  obtain ⟨u, ⟨hu, rfl⟩, rfl⟩ := hw
  trivial

end Train
end Cnn
