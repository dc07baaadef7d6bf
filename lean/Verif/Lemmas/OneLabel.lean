import Verif.Lemmas.Resume
import Verif.Spec.OneLabel
/-! Helper lemmas: batches of samples with the same label (C101). -/
namespace Cnn
open Model Train
variable {α : Type} [Zero α] [One α] [Add α] [Sub α] [Mul α] [Div α] [Neg α]

theorem OneLabel.first {B : Nat} {src : List (Sample α)} (h : OneLabel B src) : ∀ x ∈ src.take B, ∀ y ∈ src.take B, x.label = y.label := by
  simpa using h 0

theorem OneLabel.drop {B : Nat} {src : List (Sample α)} (h : OneLabel B src) : OneLabel B (src.drop B) := by
  intro j
  have := h (j + 1)
  rwa [Nat.mul_succ, Nat.add_comm, ← List.drop_drop] at this

theorem fetchedOwn_alike {E : Env α} {p : Hyper α} {B T : Nat} (hp : p.batch = B) (hq : p.threads = T) (hB : B < 2 ^ 24) {sh : Shared α} (hM : sh.model.Prepared B)
    (hone : ∀ x ∈ sh.source.take B, ∀ y ∈ sh.source.take B, x.label = y.label)
    {sched : List Nat} {q : Shared α × List (Event α)} (h : runBatch E p sched sh = .ok (some q)) : FetchedOwn sh.model q.2 := by
  obtain ⟨_, _, _, _, _, _, _, m, _⟩ := runBatch_end hp hq hB hM h
  obtain ⟨s, r, hs, hr, ho, _, h2, _⟩ := runBatch_split h
  rw [hp, hq] at hs
  intro t slot x l hf hg
  obtain ⟨e, he, rfl⟩ := run_labels hB hs hr t slot x l (by rw [← h2]; exact hg)
  rw [← h2] at he
  rw [hone e.2.2 (m ▸ List.mem_map_of_mem he) x (m ▸ List.mem_map_of_mem hf)]

theorem runBatches_oneLabel {E : Env α} {p p' : Hyper α} {B T T' : Nat} (hf : OrderFree α B) (hp : p.batch = B) (hp' : p'.batch = B)
    (hq : p.threads = T) (hq' : p'.threads = T') (hr : p'.rate = p.rate) (hB : B < 2 ^ 24) (h0 : 0 < B)
    (scheds scheds' : List (List Nat)) (hs : scheds'.length = scheds.length) : ∀ (sh sh' : Shared α),
    sh.model.Prepared B → sh.model.SoftmaxLast → sh'.model.bare = sh.model.bare → sh'.source = sh.source →
    B * scheds.length ≤ sh.source.length → OneLabel B sh.source → ∀ (q q' : Shared α × List (Event α)), runBatches E p scheds sh = .ok (some q) →
    runBatches E p' scheds' sh' = .ok (some q') →
    q'.1.model.bare = q.1.model.bare ∧ q.1.model.Prepared B ∧ q.1.model.SoftmaxLast := by
  induction scheds generalizing scheds' with
  | nil =>
    intro sh sh' hM hl hb _ _ _ q q' h h'
    obtain rfl : scheds' = [] := List.eq_nil_of_length_eq_zero (by simpa using hs)
    obtain rfl := Option.some.inj (Res.ok.inj h)
    obtain rfl := Option.some.inj (Res.ok.inj h')
    exact ⟨hb, hM, hl⟩
  | cons s ss ih =>
    intro sh sh' hM hl hb hsrc hfull hone q q' h h'
    obtain ⟨s', ss', rfl⟩ : ∃ s' ss', scheds' = s' :: ss' := by
      cases scheds' with
      | nil => simp at hs
      | cons a b => exact ⟨a, b, rfl⟩
    obtain ⟨r, u, e, f, rfl⟩ := runBatches_cons h
    obtain ⟨r', u', e', f', rfl⟩ := runBatches_cons h'
    rw [List.length_cons, Nat.mul_succ] at hfull
    obtain ⟨M, m1, m2, _, _, _, _, _, m3⟩ := runBatch_end hp hq hB hM e
    obtain ⟨M', m1', m2', _, _, _, _, _, m3'⟩ := runBatch_end hp' hq' hB (hM.of_bare hb) e'
    have step := runBatch_same hf hp hp' hq hq' hr hB h0 hM hl hb (by rw [hsrc]) (by omega) e e'
      (fetchedOwn_alike hp hq hB hM hone.first e) (fetchedOwn_alike hp' hq' hB (hM.of_bare hb) (by rw [hsrc]; exact hone.first) e')
    exact ih ss' (by simpa using hs) r.1 r'.1 (Model.Prepared.update (hM.of_bare m1) m2) ((hl.of_bare m1).applyBatch m2) step (by rw [m3, m3', hsrc])
      (by rw [m3, List.length_drop]; omega) (by rw [m3]; exact hone.drop) u u' f f'

theorem epochRuns_oneLabel {E : Env α} {p p' : Hyper α} {B : Nat} (hf : OrderFree α B) (hp : p.batch = B) (hp' : p'.batch = B) (hr : p'.rate = p.rate)
    (hB : B < 2 ^ 24) (h0 : 0 < B) {size : Nat} (hsz : size < 2 ^ 24) :
    ∀ (es es' : List (List (List Nat) × List (Sample α))) (M M' : Model α) {N N' : Model α}, es.map Prod.snd = es'.map Prod.snd →
    (∀ e ∈ es, B * ((size + B - 1) / B) ≤ e.2.length ∧ OneLabel B e.2) → M.Prepared B → M.SoftmaxLast → M'.bare = M.bare →
    es.foldlM (epochRuns E p size) (some M) = .ok (some N) →
    es'.foldlM (epochRuns E p' size) (some M') = .ok (some N') → N'.bare = N.bare ∧ N.Prepared B ∧ N.SoftmaxLast
  | [], [], M, M', N, N', _, _, hM, hl, hb, h, h' => by
    obtain rfl := Option.some.inj (Res.ok.inj h)
    obtain rfl := Option.some.inj (Res.ok.inj h')
    exact ⟨hb, hM, hl⟩
  | [], _ :: _, _, _, _, _, hs, _, _, _, _, _, _ => by simp at hs
  | _ :: _, [], _, _, _, _, hs, _, _, _, _, _, _ => by simp at hs
  | e :: es, e' :: es', M, M', N, N', hs, hlen, hM, hl, hb, h, h' => by
    simp only [List.map_cons, List.cons.injEq] at hs
    rw [List.foldlM_cons] at h h'
    obtain ⟨o, ho, h⟩ := Res.bind_eq_ok h
    obtain ⟨o', ho', h'⟩ := Res.bind_eq_ok h'
    obtain ⟨a, ha, hoo⟩ := Res.bind_eq_ok ho
    obtain ⟨a', ha', hoo'⟩ := Res.bind_eq_ok ho'
    obtain rfl := Res.ok.inj hoo
    obtain rfl := Res.ok.inj hoo'
    cases a with
    | none =>
      rw [Option.map_none, epochRuns_none] at h
      exact absurd (Res.ok.inj h) (by simp)
    | some a =>
      cases a' with
      | none =>
        rw [Option.map_none, epochRuns_none] at h'
        exact absurd (Res.ok.inj h') (by simp)
      | some a' =>
        obtain ⟨⟨T, hT⟩, n1, r1⟩ := runEpoch_inv hp h0 hsz ha
        obtain ⟨⟨T', hT'⟩, n2, r2⟩ := runEpoch_inv hp' h0 hsz ha'
        obtain ⟨g1, g2⟩ := hlen e (by simp)
        obtain ⟨k1, k2, k3⟩ := runBatches_oneLabel hf hp hp' hT hT' hr hB h0 e.1 e'.1 (n2.trans n1.symm) _ _ hM hl hb hs.1.symm
          (by rw [n1]; exact g1) g2 a a' r1 r2
        exact epochRuns_oneLabel hf hp hp' hr hB h0 hsz es es' _ _ hs.2 (fun e he => hlen e (by simp [he])) k2 k3 k1 h h'

theorem train_resume_label {E : Env α} {p p1 p2 : Hyper α} {B : Nat} (hf : OrderFree α B) (hp : p.batch = B) (hp1 : p1.batch = B) (hp2 : p2.batch = B)
    (hr1 : p1.rate = p.rate) (hr2 : p2.rate = p.rate) (hB : B < 2 ^ 24) (h0 : 0 < B) {size : Nat} (hsz : size < 2 ^ 24) {M : Model α}
    (hM : (M.setBatchSize B).Prepared B) (hl : (M.setBatchSize B).SoftmaxLast) {es es1 es2 : List (List (List Nat) × List (Sample α))}
    (hs : es.map Prod.snd = (es1 ++ es2).map Prod.snd) (hlen : ∀ e ∈ es, B * ((size + B - 1) / B) ≤ e.2.length ∧ OneLabel B e.2) {N N1 N2 : Model α}
    (h : train E p size es M = .ok (some N)) (h1 : train E p1 size es1 M = .ok (some N1)) (h2 : train E p2 size es2 N1 = .ok (some N2)) :
    N2.bare = N.bare := by
  have h := train_epochs hp hB h
  have h1 := train_epochs hp1 hB h1
  have h2 := train_epochs hp2 hB h2
  rw [List.map_append] at hs
  obtain ⟨fs1, fs2, rfl, g1, g2⟩ := List.map_eq_append_iff.1 hs
  obtain ⟨K, k1, k2⟩ := epochRuns_append fs1 fs2 _ h
  obtain ⟨b1, b2, b3⟩ := epochRuns_oneLabel hf hp hp1 hr1 hB h0 hsz fs1 es1 _ _ g1
    (fun e he => hlen e (List.mem_append_left _ he)) hM hl rfl k1 h1
  exact (epochRuns_oneLabel hf hp hp2 hr2 hB h0 hsz fs2 es2 _ _ g2
    (fun e he => hlen e (List.mem_append_right _ he)) b2 b3 ((Model.setBatchSize_bare (b2.of_bare b1)).trans b1) k2 h2).1

end Cnn
