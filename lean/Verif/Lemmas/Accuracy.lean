import Verif.Spec.Accuracy
import Verif.Lemmas.Validate
import Verif.Lemmas.OverlapTrain
/-! Helper lemmas: the number of successes of a batch (C79). -/
set_option linter.unusedSectionVars false
namespace Cnn
open Model
variable {α : Type} [Zero α] [One α] [Add α] [Sub α] [Mul α] [Div α] [Neg α]

namespace Model

/-- The forward propagation in slot `b`, seen from that slot. -/
theorem forwardSteps_norm (E : Env α) (b : Nat) (l : List Nat) : ∀ (s : Matrix α × List (Matrix α)) (M : Model α),
    l.foldlM (forwardStep E 0) (s, M.norm b) = (fun r => (r.1, r.2.norm b)) <$> l.foldlM (forwardStep E b) (s, M) := by
  induction l with
  | nil => intro s M; rfl
  | cons i l ih =>
    intro s M
    rw [List.foldlM_cons, List.foldlM_cons, forwardStep_norm]
    cases h : forwardStep E b (s, M) i with
    | throw | ub | abort => rfl
    | ok r =>
      obtain ⟨s', M'⟩ := r
      exact ih s' M'

theorem forwardPropagation_norm (E : Env α) (b : Nat) (X : Matrix α) (M : Model α) :
    (M.norm b).forwardPropagation E X 0 = (fun r => (r.1, r.2.norm b)) <$> M.forwardPropagation E X b := by
  unfold forwardPropagation
  cases forwardBegin E X with
  | throw | ub | abort => rfl
  | ok s =>
    simp only [Res.bind_ok, norm_length, forwardSteps_norm]
    cases (List.range M.layers.length).foldlM (forwardStep E b) (s, M) with
    | throw | ub | abort => rfl
    | ok r =>
      obtain ⟨s', M'⟩ := r
      show (forwardEnd E (M'.norm b) s'.1 s'.2 >>= fun q => Res.ok (q, M'.norm b)) = _
      rw [forwardEnd_congr E (M' := M') (norm_labels _ _)]
      show _ = (fun r : Results α × Model α => (r.1, r.2.norm b)) <$> (forwardEnd E M' s'.1 s'.2 >>= fun q => Res.ok (q, M'))
      cases forwardEnd E M' s'.1 s'.2 <;> rfl

/-- The models agree but for the batch slots. -/
def Like (M M' : Model α) : Prop := ∀ i : Nat, M.layers[i]?.map (fun l => l.body.core) = M'.layers[i]?.map (fun l => l.body.core)

theorem Like.symm {M M' : Model α} (h : M.Like M') : M'.Like M := fun i => (h i).symm
theorem Like.trans {M M' M'' : Model α} (h : M.Like M') (h' : M'.Like M'') : M.Like M'' := fun i => (h i).trans (h' i)

theorem Like.of_bare {M M' : Model α} (h : M.bare = M'.bare) : M.Like M' := by
  intro i
  have := congrArg (Option.map Body.core) (bare_get h i)
  simpa only [Option.map_map, Function.comp_def, Body.core_bare] using this

theorem norm_like (M : Model α) (b : Nat) : (M.norm b).Like M := by
  refine (Like.of_bare (bare_tell _ _)).trans ?_
  intro i
  rw [see_get, Option.map_map]
  simp only [Function.comp_def, Body.core_see]

theorem Ready.like {M M' : Model α} (hM : M.Ready) (h : M'.Like M) : M'.Ready := by
  intro l hl
  obtain ⟨i, hi⟩ := List.mem_iff_getElem?.1 hl
  have := h i
  rw [hi] at this
  cases hm : M.layers[i]? with
  | none => rw [hm] at this; exact absurd this (by simp)
  | some k =>
    rw [hm] at this
    have hc : l.body.core = k.body.core := Option.some.inj this
    have hk := hM k (List.mem_of_getElem? hm)
    revert hc hk
    generalize l.body = y
    generalize k.body = z
    cases y <;> cases z <;> intro hc hk <;> first
      | trivial
      | (simp only [Body.core, Body.connected.injEq, Connected.mk.injEq] at hc
         simp only [Body.Ready] at hk ⊢
         rw [← hk]
         tauto)
      | exact absurd hc (by simp [Body.core])

theorem forwardStep_like {E : Env α} {b i : Nat} {st : Matrix α × List (Matrix α)} {M M' : Model α} (hb : M.Like M')
    {r r' : (Matrix α × List (Matrix α)) × Model α} (h : forwardStep E b (st, M) i = .ok r) (h' : forwardStep E b (st, M') i = .ok r') : r.1 = r'.1 := by
  unfold forwardStep forwardLayer at h h'
  obtain ⟨y, hy, h⟩ := Res.bind_eq_ok h
  obtain ⟨R, hR, h⟩ := Res.bind_eq_ok h
  obtain rfl := Res.ok.inj h
  obtain ⟨l, hl, hy⟩ := Res.bind_eq_ok hy
  obtain ⟨z, hz, hy⟩ := Res.bind_eq_ok hy
  obtain rfl := Res.ok.inj hy
  obtain ⟨y', hy', h'⟩ := Res.bind_eq_ok h'
  obtain ⟨R', hR', h'⟩ := Res.bind_eq_ok h'
  obtain rfl := Res.ok.inj h'
  obtain ⟨l', hl', hy'⟩ := Res.bind_eq_ok hy'
  obtain ⟨z', hz', hy'⟩ := Res.bind_eq_ok hy'
  obtain rfl := Res.ok.inj hy'
  have hl := ofOption_eq hl
  have hl' := ofOption_eq hl'
  have := hb i
  dsimp only at hl hl'
  rw [hl, hl'] at this
  have e := Body.forward_core (Option.some.inj this) hz hz'
  simp only at hR hR'
  rw [e] at hR
  rw [hR] at hR'
  obtain rfl := Res.ok.inj hR'
  simp only [e]

theorem forwardSteps_like {E : Env α} {b c : Nat} (l : List Nat) : ∀ {st : Matrix α × List (Matrix α)} {M M' : Model α} {r r' : (Matrix α × List (Matrix α)) × Model α},
    M.Like M' → M.Ready → l.foldlM (forwardStep E b) (st, M) = .ok r → l.foldlM (forwardStep E c) (st, M') = .ok r' →
    r.1 = r'.1 ∧ r.2.labels = M.labels ∧ r'.2.labels = M'.labels := by
  induction l with
  | nil =>
    intro st M M' r r' _ _ h h'
    obtain rfl := Res.ok.inj h
    obtain rfl := Res.ok.inj h'
    exact ⟨rfl, rfl, rfl⟩
  | cons i l ih =>
    intro st M M' r r' hl hr h h'
    rw [List.foldlM_cons] at h h'
    obtain ⟨⟨s1, N1⟩, e1, h⟩ := Res.bind_eq_ok h
    obtain ⟨⟨s2, N2⟩, e2, h'⟩ := Res.bind_eq_ok h'
    have f1 := forwardStep_norm E b i st M
    have f2 := forwardStep_norm E c i st M'
    rw [e1] at f1
    rw [e2] at f2
    have heq := forwardStep_like (((norm_like M b).trans hl).trans (norm_like M' c).symm) f1 f2
    simp only at heq
    subst heq
    have b1 := (forwardStep_frame hr e1).1
    have b2 := (forwardStep_frame (hr.like hl.symm) e2).1
    have l1 : N1.Like M := Like.of_bare b1
    have l2 : N2.Like M' := Like.of_bare b2
    obtain ⟨g1, g2, g3⟩ := ih ((l1.trans hl).trans l2.symm) (hr.like l1) h h'
    exact ⟨g1, g2.trans (bare_labels b1), g3.trans (bare_labels b2)⟩

/-- What a model answers depends on its parameters only, not on the slot or its contents. -/
theorem forwardPropagation_like {E : Env α} {M N : Model α} (hl : M.Like N) (hlab : M.labels = N.labels) (hlen : M.layers.length = N.layers.length)
    (hr : M.Ready) {X : Matrix α} {b c : Nat} {r q : Results α} {M' N' : Model α}
    (h : M.forwardPropagation E X b = .ok (r, M')) (h' : N.forwardPropagation E X c = .ok (q, N')) : r = q := by
  unfold forwardPropagation at h h'
  obtain ⟨s, e, h⟩ := Res.bind_eq_ok h
  obtain ⟨s', e', h'⟩ := Res.bind_eq_ok h'
  rw [e] at e'
  obtain rfl := Res.ok.inj e'
  obtain ⟨p, e1, h⟩ := Res.bind_eq_ok h
  obtain ⟨p', e1', h'⟩ := Res.bind_eq_ok h'
  rw [← hlen] at e1'
  obtain ⟨i1, i2, i3⟩ := forwardSteps_like _ hl hr e1 e1'
  obtain ⟨q, e2, h⟩ := Res.bind_eq_ok h
  obtain ⟨q', e2', h'⟩ := Res.bind_eq_ok h'
  rw [← i1, forwardEnd_congr E (M' := p.2) (by rw [i3, i2, hlab]), e2] at e2'
  obtain rfl := Res.ok.inj e2'
  obtain ⟨rfl, _⟩ := Prod.mk.inj (Res.ok.inj h)
  obtain ⟨rfl, _⟩ := Prod.mk.inj (Res.ok.inj h')
  rfl

/-- In which slot the model is asked does not matter. -/
theorem forwardPropagation_slot {E : Env α} {M : Model α} (hr : M.Ready) {X : Matrix α} {b c : Nat} {r q : Results α} {M' M'' : Model α}
    (h : M.forwardPropagation E X b = .ok (r, M')) (h' : M.forwardPropagation E X c = .ok (q, M'')) : r = q :=
  forwardPropagation_like (fun _ => rfl) rfl rfl hr h h'

/-- `Gets` in any slot. -/
def GetsAny (E : Env α) (M : Model α) (x : Sample α) : Prop :=
  ∃ b r M', M.forwardPropagation E x.data b = .ok (r, M') ∧ r.labelIdx = M.labels.idxOf x.label

open Classical in
/-- `score` in any slot. -/
noncomputable def scoreAny (E : Env α) (M : Model α) (xs : List (Sample α)) : Nat := xs.countP (fun x => decide (M.GetsAny E x))

theorem labelIndex_eq (M : Model α) (l : List Char) : M.labelIndex l = M.labels.idxOf l := rfl

theorem assignLoss_idx {E : Env α} {M : Model α} {r q : Results α} {l : List Char} (h : M.assignLoss E r l = .ok q) :
    q.labelIdx = r.labelIdx ∧ q.trueIdx = some (M.labels.idxOf l) := by
  unfold assignLoss at h
  obtain ⟨_, _, h⟩ := Res.bind_eq_ok h
  obtain ⟨_, _, h⟩ := Res.bind_eq_ok h
  obtain ⟨_, _, h⟩ := Res.bind_eq_ok h
  obtain rfl := Res.ok.inj h
  exact ⟨rfl, rfl⟩

theorem GetsAny.iff {E : Env α} {M : Model α} (hr : M.Ready) {x : Sample α} {b : Nat} {r : Results α} {N : Model α}
    (h : M.forwardPropagation E x.data b = .ok (r, N)) : M.GetsAny E x ↔ r.labelIdx = M.labels.idxOf x.label := by
  constructor
  · rintro ⟨c, q, N', h1, h2⟩
    rw [forwardPropagation_slot hr h h1, h2]
  · exact fun h1 => ⟨b, r, N, h, h1⟩

end Model

namespace Train

/-- A thread that ends the work on a sample adds one to the number of successes exactly if the model the batch began with classifies it correctly. -/
theorem Work.hits {E : Env α} {M0 : Model α} {sh sh' : Shared α} {evs ev : List (Event α)} {t cutoff : Nat} {p q : Pc α}
    (hM0 : M0.Ready) (h : Work E M0 sh.model evs t p) (hs : p.step E t cutoff sh = .ok (q, sh', ev)) :
    sh'.hits = sh.hits + M0.scoreAny E ((finishes ev).map (fun e => e.2.2)) := by
  have hz : M0.scoreAny E [] = 0 := rfl
  cases p with
  | fetch slot =>
    simp only [Pc.step] at hs
    split at hs
    · split at hs
      · obtain ⟨_, rfl, rfl⟩ : _ ∧ sh = sh' ∧ [] = ev := by simpa using Res.ok.inj hs
        rfl
      · obtain ⟨s, _, hs⟩ := Res.bind_eq_ok hs
        have := Res.ok.inj hs
        simp only [Prod.mk.injEq] at this
        obtain ⟨_, rfl, rfl⟩ := this
        rfl
    · obtain ⟨_, rfl, rfl⟩ : _ ∧ sh = sh' ∧ [] = ev := by simpa using Res.ok.inj hs
      rfl
  | done slot =>
    obtain ⟨_, rfl, rfl⟩ : _ ∧ sh = sh' ∧ [] = ev := by simpa using Res.ok.inj hs
    rfl
  | forward slot x i s =>
    simp only [Pc.step] at hs
    split at hs
    · obtain ⟨s, _, hs⟩ := Res.bind_eq_ok hs
      have := Res.ok.inj hs
      simp only [Prod.mk.injEq] at this
      obtain ⟨_, rfl, rfl⟩ := this
      rfl
    · obtain ⟨s, _, hs⟩ := Res.bind_eq_ok hs
      have := Res.ok.inj hs
      simp only [Prod.mk.injEq] at this
      obtain ⟨_, rfl, rfl⟩ := this
      rfl
  | label slot x r =>
    obtain ⟨s, _, hs⟩ := Res.bind_eq_ok hs
    have := Res.ok.inj hs
    simp only [Prod.mk.injEq] at this
    obtain ⟨_, rfl, rfl⟩ := this
    rfl
  | backward slot x r k d =>
    cases k with
    | succ i =>
      obtain ⟨s, _, hs⟩ := Res.bind_eq_ok hs
      have := Res.ok.inj hs
      simp only [Prod.mk.injEq] at this
      obtain ⟨_, rfl, rfl⟩ := this
      rw [(fetches_gradEvent _ _ _ _ _).2]
      rfl
    | zero =>
      have := Res.ok.inj hs
      simp only [Prod.mk.injEq] at this
      obtain ⟨_, rfl, rfl⟩ := this
      obtain ⟨s, m, r0, n, h1, h2, h3, _, _, _, _⟩ := h
      obtain ⟨a1, a2⟩ := assignLoss_idx h3
      rw [norm_labels] at a2
      have hf : (M0.norm slot).forwardPropagation E x.data 0 = .ok (r0, m) := by
        unfold soloF at h1
        unfold forwardPropagation
        obtain ⟨s0, e0, h1⟩ := Res.bind_eq_ok h1
        rw [e0, Res.bind_ok, norm_length, h1, Res.bind_ok]
        have hmb : m.labels = (M0.norm slot).labels := by
          have := soloF_bare (hM0.like (norm_like M0 slot)) (E := E) (x := x) (n := M0.layers.length) (by unfold soloF; rw [e0, Res.bind_ok, h1])
          exact bare_labels this
        show (forwardEnd E m s.1 s.2 >>= fun q => Res.ok (q, m)) = _
        rw [forwardEnd_congr E hmb, h2]
        rfl
      rw [forwardPropagation_norm] at hf
      cases hp : M0.forwardPropagation E x.data slot with
      | throw | ub | abort => rw [hp] at hf; exact absurd hf (by intro h; cases h)
      | ok v =>
        rw [hp] at hf
        have hv : v.1 = r0 := congrArg Prod.fst (Res.ok.inj hf)
        obtain ⟨v1, v2⟩ := v
        simp only at hv
        subst hv
        have hg : M0.GetsAny E x ↔ v1.labelIdx = M0.labels.idxOf x.label := GetsAny.iff hM0 hp
        have hc : (some r.labelIdx = r.trueIdx) ↔ M0.GetsAny E x := by
          rw [hg, a1, a2, Option.some.injEq]
        simp only [finishes, List.filterMap_cons, List.filterMap_nil, List.map_cons, List.map_nil, scoreAny, List.countP_cons, List.countP_nil,
          decide_eq_true_eq, Nat.zero_add]
        by_cases hG : M0.GetsAny E x
        · rw [if_pos (hc.2 hG), if_pos (by simpa using hG)]
        · rw [if_neg (fun h => hG (hc.1 h)), if_neg (by simpa using hG)]; rfl

theorem score_append (E : Env α) (M : Model α) (a b : List (Sample α)) : M.scoreAny E (a ++ b) = M.scoreAny E a + M.scoreAny E b := by
  unfold scoreAny
  exact List.countP_append

theorem score_perm {E : Env α} {M : Model α} {a b : List (Sample α)} (h : a.Perm b) : M.scoreAny E a = M.scoreAny E b := by
  unfold scoreAny
  exact h.countP_eq _

theorem hits_step {E : Env α} {M0 : Model α} {s : Batch α} {evs : List (Event α)} (hM0 : M0.Ready) (h : GInv E M0 s evs)
    {t : Nat} {r : Batch α × List (Event α)} (hr : s.step E t = .ok r) :
    r.1.shared.hits = s.shared.hits + M0.scoreAny E ((finishes r.2).map (fun e => e.2.2)) := by
  unfold Batch.step at hr
  cases hw : s.workers[t]? with
  | none =>
    rw [hw] at hr
    obtain rfl := Res.ok.inj hr
    rfl
  | some v =>
    rw [hw] at hr
    simp only at hr
    obtain ⟨a, ha, hr⟩ := Res.bind_eq_ok hr
    obtain rfl := Res.ok.inj hr
    have ha := terminate_ok ha
    obtain ⟨q, sh', ev⟩ := a
    exact (h.work t v hw).hits hM0 ha

theorem hits_run {E : Env α} {M0 : Model α} {T B w : Nat} {src0 : List (Sample α)} (hM0 : M0.Ready) {sched : List Nat} :
    ∀ {s : Batch α} {evs : List (Event α)}, GInv E M0 s evs → BInv T B w src0 s evs → ∀ {r : Batch α × List (Event α)},
      s.run E sched = .ok r → r.1.shared.hits = s.shared.hits + M0.scoreAny E ((finishes r.2).map (fun e => e.2.2)) := by
  induction sched with
  | nil =>
    intro s evs h _ r hr
    obtain rfl := Res.ok.inj hr
    rfl
  | cons t ts ih =>
    intro s evs h hB r hr
    unfold Batch.run at hr
    obtain ⟨a, ha, hr⟩ := Res.bind_eq_ok hr
    obtain ⟨b, hb, hr⟩ := Res.bind_eq_ok hr
    obtain rfl := Res.ok.inj hr
    have e1 := hits_step hM0 h ha
    have e2 := ih (h.step hM0 hB ha) (hB.step ha) hb
    rw [finishes_append, List.map_append, score_append]
    dsimp only
    omega

/-- The successes of a batch. -/
theorem runBatch_hits {E : Env α} {p : Hyper α} {B T : Nat} (hp : p.batch = B) (hq : p.threads = T) (hB : B < 2 ^ 24)
    {sh : Shared α} (hM : sh.model.Ready) {sched : List Nat} {q : Shared α × List (Event α)} (h : runBatch E p sched sh = .ok (some q)) :
    q.1.hits = sh.hits + sh.model.scoreAny E (sh.source.take B) ∧ q.1.source = sh.source.drop B ∧ q.1.model.Ready := by
  unfold runBatch at h
  obtain ⟨s, hs, h⟩ := Res.bind_eq_ok h
  obtain ⟨r, hr, h⟩ := Res.bind_eq_ok h
  by_cases ho : r.1.over = true
  · rw [if_pos ho] at h
    obtain ⟨M', hM', h⟩ := Res.bind_eq_ok h
    obtain rfl := Option.some.inj (Res.ok.inj h)
    rw [hp, hq] at hs
    obtain ⟨k1, _, _, _, _, k6, k7⟩ := run_end hB hM hs hr ho
    obtain ⟨w, hw, rfl⟩ := startBatch_inv (by omega) hs
    have hI : BInv T B w sh.source _ [] := Inv.init T (fun t => t * w) (fun t => min ((t + 1) * w) B) sh
    have hBI : BInv T B w sh.source r.1 r.2 := Inv.run hI hr
    have e := hits_run hM (GInv.init E T (fun t => t * w) (fun t => min ((t + 1) * w) B) sh) hI hr
    refine ⟨?_, k7, (hM.of_bare k1).applyBatch hM'⟩
    show r.1.shared.hits = _
    rw [e, score_perm ((hBI.perm ho).map _), k6]
  · rw [if_neg ho] at h
    exact absurd (Res.ok.inj h) (by simp)

end Train
end Cnn
