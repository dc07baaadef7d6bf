import Verif.Lemmas.Resume
import Verif.Lemmas.Reproduce
import Verif.Lemmas.ShortBatch
/-! Helper lemmas: one thread takes the samples in the order of the slots (C114). -/
namespace Cnn.Train
open Model
variable {α : Type} [Zero α] [One α] [Add α] [Sub α] [Mul α] [Div α] [Neg α]

/-- How many samples the only thread has taken when it is at `p`; `none` when it has ended. -/
def Pc.taken : Pc α → Option Nat
  | .fetch slot => some slot
  | .forward slot _ _ _ => some (slot + 1)
  | .label slot _ _ => some (slot + 1)
  | .backward slot _ _ _ _ => some (slot + 1)
  | .done _ => none

/-- The only thread took the first samples of `src`, sample `k` for slot `k`. -/
structure InOrder (src : List (Sample α)) (s : Batch α) (evs : List (Event α)) : Prop where
  len : s.workers.length ≤ 1
  rest : ∀ c p n, s.workers[0]? = some (c, p) → p.taken = some n → s.shared.source = src.drop n
  taken : ∀ e ∈ fetches evs, src[e.2.1]? = some e.2.2

theorem InOrder.step {src : List (Sample α)} {s : Batch α} {evs : List (Event α)} (h : InOrder src s evs) {E : Env α} {t : Nat}
    {r : Batch α × List (Event α)} (hr : s.step E t = .ok r) : InOrder src r.1 (evs ++ r.2) := by
  unfold Batch.step at hr
  cases hw : s.workers[t]? with
  | none =>
    rw [hw] at hr
    obtain rfl := Res.ok.inj hr
    rw [List.append_nil]; exact h
  | some w =>
    rw [hw] at hr
    simp only at hr
    obtain ⟨a, ha, hr⟩ := Res.bind_eq_ok hr
    obtain rfl := Res.ok.inj hr
    have ha := terminate_ok ha
    obtain ⟨c, p⟩ := w
    obtain ⟨q, sh', ev⟩ := a
    have ht : t < s.workers.length := (List.getElem?_eq_some_iff.1 hw).1
    have h1 := h.len
    obtain rfl : t = 0 := by omega
    have key : (∀ n, q.taken = some n → sh'.source = src.drop n) ∧ ∀ e ∈ fetches ev, src[e.2.1]? = some e.2.2 := by
      cases p with
      | fetch slot =>
        have hsrc := h.rest c _ slot hw rfl
        simp only [Pc.step] at ha
        by_cases hc : slot < c
        · rw [if_pos hc] at ha
          cases hS : s.shared.source with
          | nil =>
            rw [hS] at ha
            obtain ⟨rfl, h2⟩ := Prod.mk.inj (Res.ok.inj ha)
            obtain ⟨rfl, rfl⟩ := Prod.mk.inj h2
            exact ⟨fun n hn => absurd hn (by simp [Pc.taken]), by simp [fetches]⟩
          | cons x rest =>
            rw [hS] at ha
            obtain ⟨st, _, ha⟩ := Res.bind_eq_ok ha
            obtain ⟨rfl, h2⟩ := Prod.mk.inj (Res.ok.inj ha)
            obtain ⟨rfl, rfl⟩ := Prod.mk.inj h2
            rw [hS] at hsrc
            refine ⟨fun n hn => ?_, ?_⟩
            · obtain rfl := Option.some.inj hn
              show rest = src.drop (slot + 1)
              rw [← List.tail_drop, ← hsrc]
              rfl
            · intro e he
              obtain rfl : e = (0, slot, x) := by simpa [fetches] using he
              show src[slot]? = some x
              rw [← List.head?_drop, ← hsrc]
              rfl
        · rw [if_neg hc] at ha
          obtain ⟨rfl, h2⟩ := Prod.mk.inj (Res.ok.inj ha)
          obtain ⟨rfl, rfl⟩ := Prod.mk.inj h2
          exact ⟨fun n hn => absurd hn (by simp [Pc.taken]), by simp [fetches]⟩
      | forward slot x i st =>
        have hsrc := h.rest c _ (slot + 1) hw rfl
        simp only [Pc.step] at ha
        split at ha
        all_goals
          obtain ⟨y, _, ha⟩ := Res.bind_eq_ok ha
          obtain ⟨rfl, h2⟩ := Prod.mk.inj (Res.ok.inj ha)
          obtain ⟨rfl, rfl⟩ := Prod.mk.inj h2
          refine ⟨fun n hn => ?_, by simp [fetches]⟩
          obtain rfl := Option.some.inj hn
          exact hsrc
      | label slot x r =>
        have hsrc := h.rest c _ (slot + 1) hw rfl
        simp only [Pc.step] at ha
        obtain ⟨y, _, ha⟩ := Res.bind_eq_ok ha
        obtain ⟨rfl, h2⟩ := Prod.mk.inj (Res.ok.inj ha)
        obtain ⟨rfl, rfl⟩ := Prod.mk.inj h2
        refine ⟨fun n hn => ?_, by simp [fetches]⟩
        obtain rfl := Option.some.inj hn
        exact hsrc
      | backward slot x r i d =>
        have hsrc := h.rest c _ (slot + 1) hw rfl
        cases i with
        | zero =>
          simp only [Pc.step] at ha
          obtain ⟨rfl, h2⟩ := Prod.mk.inj (Res.ok.inj ha)
          obtain ⟨rfl, rfl⟩ := Prod.mk.inj h2
          refine ⟨fun n hn => ?_, by simp [fetches]⟩
          obtain rfl := Option.some.inj hn
          exact hsrc
        | succ i =>
          simp only [Pc.step] at ha
          obtain ⟨y, _, ha⟩ := Res.bind_eq_ok ha
          obtain ⟨rfl, h2⟩ := Prod.mk.inj (Res.ok.inj ha)
          obtain ⟨rfl, rfl⟩ := Prod.mk.inj h2
          refine ⟨fun n hn => ?_, by rw [(fetches_gradEvent _ _ _ _ _).1]; simp⟩
          obtain rfl := Option.some.inj hn
          exact hsrc
      | done slot =>
        simp only [Pc.step] at ha
        obtain ⟨rfl, h2⟩ := Prod.mk.inj (Res.ok.inj ha)
        obtain ⟨rfl, rfl⟩ := Prod.mk.inj h2
        exact ⟨fun n hn => absurd hn (by simp [Pc.taken]), by simp [fetches]⟩
    refine ⟨by simpa using h1, ?_, ?_⟩
    · intro c' p' n hp hn
      simp only at hp
      rw [List.getElem?_set_self ht] at hp
      obtain ⟨_, rfl⟩ := Prod.mk.inj (Option.some.inj hp)
      exact key.1 n hn
    · intro e he
      simp only [fetches_append] at he
      rcases List.mem_append.1 he with he | he
      · exact h.taken e he
      · exact key.2 e he

theorem InOrder.run {src : List (Sample α)} {E : Env α} {sched : List Nat} : ∀ {s : Batch α} {evs : List (Event α)}, InOrder src s evs →
    ∀ {r : Batch α × List (Event α)}, s.run E sched = .ok r → InOrder src r.1 (evs ++ r.2) := by
  induction sched with
  | nil =>
    intro s evs h r hr
    obtain rfl := Res.ok.inj hr
    rw [List.append_nil]; exact h
  | cons t ts ih =>
    intro s evs h r hr
    unfold Batch.run at hr
    obtain ⟨a, ha, hr⟩ := Res.bind_eq_ok hr
    obtain ⟨b, hb, hr⟩ := Res.bind_eq_ok hr
    obtain rfl := Res.ok.inj hr
    rw [← List.append_assoc]
    exact ih (h.step ha) hb

end Cnn.Train

namespace Cnn
open Train Model
variable {α : Type} [Zero α] [One α] [Add α] [Sub α] [Mul α] [Div α] [Neg α]

theorem runBatch_inOrder {E : Env α} {p : Hyper α} {B : Nat} (hp : p.batch = B) (hq : p.threads = (1 : Nat)) (hB : B < 2 ^ 24) {sh : Shared α} {sched : List Nat}
    {q : Shared α × List (Event α)} (hr : runBatch E p sched sh = .ok (some q)) : ∀ e ∈ fetches q.2, sh.source[e.2.1]? = some e.2.2 := by
  obtain ⟨b, r, h1, h2, _, _, h3, _⟩ := runBatch_split hr
  rw [hp, hq] at h1
  obtain ⟨w, _, rfl⟩ := startBatch_inv (B := B) (T := 1) (by omega) h1
  have h0 : InOrder sh.source (⟨sh, (List.range 1).map (fun t => (min ((t + 1) * w) B, Pc.fetch (t * w)))⟩ : Batch α) [] := by
    refine ⟨by simp, ?_, by simp [fetches]⟩
    intro c p n hw hn
    simp at hw
    obtain ⟨_, rfl⟩ := hw
    obtain rfl := Option.some.inj hn
    rfl
  rw [h3]
  exact (h0.run h2).taken

/-- What one thread leaves in the slots of a batch before the update: the gradients of the samples, and behind them what was there before. -/
theorem runBatch_left {E : Env α} {p : Hyper α} {B : Nat} (hp : p.batch = B) (hq : p.threads = (1 : Nat)) (hB : B < 2 ^ 24) {sh : Shared α}
    (hM : sh.model.Prepared B) {sched : List Nat} {q : Shared α × List (Event α)} (h : runBatch E p sched sh = .ok (some q)) :
    ∃ M : Model α, M.bare = sh.model.bare ∧ M.applyBatch E.num p.rate = .ok q.1.model ∧ ∀ i b, b < B →
      (∀ x, sh.source[b]? = some x → M.stored i b = ownGrads E sh.model x i) ∧ (sh.source[b]? = none → M.stored i b = sh.model.stored i b) := by
  obtain ⟨M, e1, e2, e3, e4, e5, e6, _⟩ := runBatch_end hp hq hB hM h
  have ord := runBatch_inOrder hp hq hB h
  have hown := own_one hB hp hq h
  refine ⟨M, e1, e2, fun i b hb => ⟨fun x hx => ?_, fun hn => ?_⟩⟩
  · have hlt : b < sh.source.length := (List.getElem?_eq_some_iff.1 hx).1
    obtain ⟨fs, f1, f2⟩ := slots_order (B := min B sh.source.length) (fun e he => by
      have h1 := (e3 e.1 e.2.1 e.2.2 he).1
      have h2 := (List.getElem?_eq_some_iff.1 (ord e he)).1
      omega) e5 e6
    have hmem : b ∈ fs.map (fun e => e.2.1) := by rw [f2, List.mem_range]; omega
    obtain ⟨⟨t, s, y⟩, he, hs⟩ := List.mem_map.1 hmem
    obtain rfl : s = b := hs
    have he := f1.subset he
    have hy := ord _ he
    simp only at hy
    rw [hx] at hy
    obtain rfl := Option.some.inj hy
    obtain ⟨hs, l, hl, hso⟩ := e3 t s x he
    obtain rfl := hown t s x l hl
    exact (hso.ownGrads hM hs i).symm
  · have := e4 b (fun t x he => by
      have := ord _ he
      simp only at this
      rw [hn] at this
      exact absurd this (by simp))
    rw [← Model.norm_stored, this, Model.norm_stored]

/-- The same gradients in all slots. -/
def SameSlots (B : Nat) (M M' : Model α) : Prop := ∀ i b, b < B → M'.stored i b = M.stored i b

/-- With one thread two runs of a batch end with the same parameters and the same contents of the slots, in any arithmetic, if the batch is full or the
slots had the same contents before. -/
theorem runBatch_alike {E : Env α} {p p' : Hyper α} {B : Nat} (hp : p.batch = B) (hp' : p'.batch = B)
    (hq : p.threads = (1 : Nat)) (hq' : p'.threads = (1 : Nat)) (hr : p'.rate = p.rate) (hB : B < 2 ^ 24) (h0 : 0 < B) {sh sh' : Shared α}
    (hM : sh.model.Prepared B) (hl : sh.model.SoftmaxLast) (hbare : sh'.model.bare = sh.model.bare)
    (hsrc : ∀ b < B, sh'.source[b]? = sh.source[b]?) (hfull : B ≤ sh.source.length ∨ SameSlots B sh.model sh'.model)
    {sched sched' : List Nat} {q q' : Shared α × List (Event α)} (h : runBatch E p sched sh = .ok (some q))
    (h' : runBatch E p' sched' sh' = .ok (some q')) : q'.1.model.bare = q.1.model.bare ∧ SameSlots B q.1.model q'.1.model := by
  have hM' := hM.of_bare hbare
  obtain ⟨M, e1, e2, e3⟩ := runBatch_left hp hq hB hM h
  obtain ⟨M', e1', e2', e3'⟩ := runBatch_left hp' hq' hB hM' h'
  rw [hr] at e2'
  have hst : SameSlots B M M' := by
    intro i b hb
    cases hx : sh.source[b]? with
    | some x =>
      rw [(e3 i b hb).1 x hx, (e3' i b hb).1 x ((hsrc b hb).trans hx)]
      exact ownGrads_bare h0 hM hl hbare i
    | none =>
      rw [(e3 i b hb).2 hx, (e3' i b hb).2 ((hsrc b hb).trans hx)]
      rcases hfull with hf | hf
      · have := List.getElem?_eq_none_iff.1 hx
        omega
      · exact hf i b hb
  refine ⟨Model.applyBatch_bare (e1'.trans (hbare.trans e1.symm)) e2' e2 fun i => ?_, fun i b hb => ?_⟩
  · cases hpar : sh.model.params i with
    | some v =>
      obtain ⟨gs, r, k1, k2, k3⟩ := Model.applyBatch_params (hM.of_bare e1) e2 (p := v) (by rw [Model.bare_params e1]; exact hpar)
      obtain ⟨gs', r', k1', k2', k3'⟩ := Model.applyBatch_params (hM'.of_bare e1') e2' (p := v)
        (by rw [Model.bare_params e1', Model.bare_params hbare]; exact hpar)
      have hgs : gs = gs' := by
        have : gs.map some = gs'.map some := by
          rw [← k1, ← k1']
          exact List.map_congr_left fun b hb => (hst i b (List.mem_range.1 hb)).symm
        exact List.map_injective_iff.2 (Option.some_injective _) this
      rw [← hgs, k2] at k2'
      rw [k3, k3', Res.ok.inj k2']
    | none =>
      have a := Model.applyBatch_params_none e2 (by rw [Model.bare_params e1]; exact hpar)
      have b := Model.applyBatch_params_none e2' (by rw [Model.bare_params e1', Model.bare_params hbare]; exact hpar)
      rw [a, b]
  · rw [Model.applyBatch_stored e2, Model.applyBatch_stored e2']
    exact hst i b hb

theorem runBatches_alike {E : Env α} {p p' : Hyper α} {B : Nat} (hp : p.batch = B) (hp' : p'.batch = B)
    (hq : p.threads = (1 : Nat)) (hq' : p'.threads = (1 : Nat)) (hr : p'.rate = p.rate) (hB : B < 2 ^ 24) (h0 : 0 < B)
    (scheds scheds' : List (List Nat)) (hs : scheds'.length = scheds.length) : ∀ (sh sh' : Shared α),
    sh.model.Prepared B → sh.model.SoftmaxLast → sh'.model.bare = sh.model.bare → sh'.source = sh.source →
    B ≤ sh.source.length ∨ SameSlots B sh.model sh'.model → ∀ (q q' : Shared α × List (Event α)), runBatches E p scheds sh = .ok (some q) →
    runBatches E p' scheds' sh' = .ok (some q') → q'.1.model.bare = q.1.model.bare ∧ q.1.model.Prepared B ∧ q.1.model.SoftmaxLast := by
  induction scheds generalizing scheds' with
  | nil =>
    intro sh sh' hM hl hb _ _ q q' h h'
    obtain rfl : scheds' = [] := List.eq_nil_of_length_eq_zero (by simpa using hs)
    obtain rfl := Option.some.inj (Res.ok.inj h)
    obtain rfl := Option.some.inj (Res.ok.inj h')
    exact ⟨hb, hM, hl⟩
  | cons s ss ih =>
    intro sh sh' hM hl hb hsrc hfull q q' h h'
    obtain ⟨s', ss', rfl⟩ : ∃ s' ss', scheds' = s' :: ss' := by
      cases scheds' with
      | nil => simp at hs
      | cons a b => exact ⟨a, b, rfl⟩
    obtain ⟨r, u, e, f, rfl⟩ := runBatches_cons h
    obtain ⟨r', u', e', f', rfl⟩ := runBatches_cons h'
    obtain ⟨M, m1, m2, _, _, _, _, _, m3⟩ := runBatch_end hp hq hB hM e
    obtain ⟨M', m1', m2', _, _, _, _, _, m3'⟩ := runBatch_end hp' hq' hB (hM.of_bare hb) e'
    have step := runBatch_alike hp hp' hq hq' hr hB h0 hM hl hb (fun b _ => by rw [hsrc]) hfull e e'
    exact ih ss' (by simpa using hs) r.1 r'.1 (Model.Prepared.update (hM.of_bare m1) m2) ((hl.of_bare m1).applyBatch m2) step.1 (by rw [m3, m3', hsrc])
      (.inr step.2) u u' f f'

theorem epochRuns_alike {E : Env α} {p p' : Hyper α} {B : Nat} (hp : p.batch = B) (hp' : p'.batch = B) (hr : p'.rate = p.rate)
    (hB : B < 2 ^ 24) (h0 : 0 < B) (ht : p.threads = 1) (ht' : p'.threads = 1) {size : Nat} (hsz : size < 2 ^ 24) :
    ∀ (es es' : List (List (List Nat) × List (Sample α))) (M M' : Model α) {N N' : Model α}, es.map Prod.snd = es'.map Prod.snd →
    (∀ e ∈ es, B ≤ e.2.length) → M.Prepared B → M.SoftmaxLast → M'.bare = M.bare →
    es.foldlM (epochRuns E p size) (some M) = .ok (some N) →
    es'.foldlM (epochRuns E p' size) (some M') = .ok (some N') → N'.bare = N.bare ∧ N.Prepared B ∧ N.SoftmaxLast
  | [], [], M, M', N, N', _, _, hM, hl, hb, h, h' => by
    obtain rfl := Option.some.inj (Res.ok.inj h)
    obtain rfl := Option.some.inj (Res.ok.inj h')
    exact ⟨hb, hM, hl⟩
  | [], _ :: _, _, _, _, _, hs, _, _, _, _, _, _ => by simp at hs
  | _ :: _, [], _, _, _, _, hs, _, _, _, _, _, _ => by simp at hs
  | e :: es, e' :: es', M, M', N, N', hs, hlen, hM, hl, hb, h, h' => by
    simp only [List.map_cons, List.cons.injEq] at hs
    rw [List.foldlM_cons] at h h'
    obtain ⟨o, ho, h⟩ := Res.bind_eq_ok h
    obtain ⟨o', ho', h'⟩ := Res.bind_eq_ok h'
    obtain ⟨a, ha, hoo⟩ := Res.bind_eq_ok ho
    obtain ⟨a', ha', hoo'⟩ := Res.bind_eq_ok ho'
    obtain rfl := Res.ok.inj hoo
    obtain rfl := Res.ok.inj hoo'
    cases a with
    | none =>
      rw [Option.map_none, epochRuns_none] at h
      exact absurd (Res.ok.inj h) (by simp)
    | some a =>
      cases a' with
      | none =>
        rw [Option.map_none, epochRuns_none] at h'
        exact absurd (Res.ok.inj h') (by simp)
      | some a' =>
        obtain ⟨_, n1, r1⟩ := runEpoch_inv hp h0 hsz ha
        obtain ⟨_, n2, r2⟩ := runEpoch_inv hp' h0 hsz ha'
        obtain ⟨k1, k2, k3⟩ := runBatches_alike hp hp' ht ht' hr hB h0 e.1 e'.1 (n2.trans n1.symm) _ _ hM hl hb hs.1.symm
          (.inl (hlen e (by simp))) a a' r1 r2
        exact epochRuns_alike hp hp' hr hB h0 ht ht' hsz es es' _ _ hs.2 (fun e he => hlen e (by simp [he])) k2 k3 k1 h h'

theorem train_resume_one {E : Env α} {p p1 p2 : Hyper α} {B : Nat} (hp : p.batch = B) (hp1 : p1.batch = B) (hp2 : p2.batch = B)
    (hr1 : p1.rate = p.rate) (hr2 : p2.rate = p.rate) (hB : B < 2 ^ 24) (h0 : 0 < B)
    (ht : p.threads = 1) (ht1 : p1.threads = 1) (ht2 : p2.threads = 1) {size : Nat} (hsz : size < 2 ^ 24) {M : Model α}
    (hM : (M.setBatchSize B).Prepared B) (hl : (M.setBatchSize B).SoftmaxLast) {es es1 es2 : List (List (List Nat) × List (Sample α))}
    (hs : es.map Prod.snd = (es1 ++ es2).map Prod.snd) (hlen : ∀ e ∈ es, B ≤ e.2.length) {N N1 N2 : Model α}
    (h : train E p size es M = .ok (some N)) (h1 : train E p1 size es1 M = .ok (some N1)) (h2 : train E p2 size es2 N1 = .ok (some N2)) :
    N2.bare = N.bare := by
  have h := train_epochs hp hB h
  have h1 := train_epochs hp1 hB h1
  have h2 := train_epochs hp2 hB h2
  rw [List.map_append] at hs
  obtain ⟨fs1, fs2, rfl, g1, g2⟩ := List.map_eq_append_iff.1 hs
  obtain ⟨K, k1, k2⟩ := epochRuns_append fs1 fs2 _ h
  obtain ⟨b1, b2, b3⟩ := epochRuns_alike hp hp1 hr1 hB h0 ht ht1 hsz fs1 es1 _ _ g1
    (fun e he => hlen e (List.mem_append_left _ he)) hM hl rfl k1 h1
  exact (epochRuns_alike hp hp2 hr2 hB h0 ht ht2 hsz fs2 es2 _ _ g2
    (fun e he => hlen e (List.mem_append_right _ he)) b2 b3 ((Model.setBatchSize_bare (b2.of_bare b1)).trans b1) k2 h2).1

end Cnn
