import Verif.Lemmas.SmallBatch
import Verif.Lemmas.NetDescent
/-!
# Lemmas on trainings in a row
-/
namespace Cnn
open Model Train
variable {α : Type} [Zero α] [One α] [Add α] [Sub α] [Mul α] [Div α] [Neg α]

omit [Zero α] [One α] [Add α] [Sub α] [Mul α] [Div α] [Neg α] in
/-- Preparing a prepared model for the same batch size again only empties the slots. -/
theorem Model.setBatchSize_bare {B : Nat} {M : Model α} (hM : M.Prepared B) : (M.setBatchSize B).bare = M.bare := by
  have : (M.setBatchSize B).bare.layers = M.bare.layers := by
    simp only [Model.setBatchSize, Model.bare, List.map_map]
    refine List.map_congr_left fun l hl => ?_
    have h := hM l hl
    obtain ⟨nm, b⟩ := l
    cases b with
    | kernel K =>
      obtain ⟨h1, h2, _⟩ := h
      simp [Body.setBatchSize, Body.bare, Kernel.setBatchSize, emptyGrads, h1, h2]
    | connected L =>
      obtain ⟨_, h1, h2, _⟩ := h
      simp [Body.setBatchSize, Body.bare, Connected.setBatchSize, emptyGrads, h1, h2]
    | pooling P =>
      obtain ⟨h1, _⟩ := h
      simp [Body.setBatchSize, Body.bare, Pooling.setBatchSize, Matrix.vecResize, h1]
    | activation A => rfl
    | softmax S => rfl
  show ({ (M.setBatchSize B).bare with layers := (M.setBatchSize B).bare.layers } : Model α) = { M.bare with layers := M.bare.layers }
  rw [this]
  rfl

/-- One thread uses each sample of several batches with its own label. -/
theorem own_batches {E : Env α} {p : Hyper α} {B : Nat} (hp : p.batch = B) (hq : p.threads = (1 : Nat)) (hB : B < 2 ^ 24) :
    ∀ (scheds : List (List Nat)) (sh : Shared α), sh.model.Prepared B → ∀ (q : Shared α × List (Event α)),
    runBatches E p scheds sh = .ok (some q) → OwnLabels sh.model q.2
  | [], sh, _, q, h => by
    obtain rfl := Option.some.inj (Res.ok.inj h)
    intro t s x l hm
    exact absurd hm (by simp [grads])
  | s :: ss, sh, hM, q, h => by
    obtain ⟨r, u, e, f, rfl⟩ := runBatches_cons h
    obtain ⟨M, m1, m2, _, _, _, _, _, m3⟩ := runBatch_end hp hq hB hM e
    have hM1 : r.1.model.Prepared B := Model.Prepared.update (hM.of_bare m1) m2
    have hlr : r.1.model.labels = sh.model.labels := (Model.applyBatch_labels m2).trans (bare_labels m1)
    have h1 := own_one hB hp hq e
    have h2 := own_batches hp hq hB ss r.1 hM1 u f
    intro t sl x l hm
    simp only [grads_append] at hm
    rcases List.mem_append.1 hm with hm | hm
    · exact h1 t sl x l hm
    · rw [h2 t sl x l hm, labelIndex, labelIndex, hlr]

/-- Several epochs of full batches, of one sample or with one thread, from models that differ in the contents of the slots only. -/
theorem epochRuns_bare {E : Env α} {p p' : Hyper α} {B : Nat} (hf : OrderFree α B) (hp : p.batch = B) (hp' : p'.batch = B) (hr : p'.rate = p.rate)
    (hB : B < 2 ^ 24) (h0 : 0 < B) (ht : B = 1 ∨ (p.threads = 1 ∧ p'.threads = 1)) {size : Nat} (hsz : size < 2 ^ 24) :
    ∀ (es es' : List (List (List Nat) × List (Sample α))) (M M' : Model α) {N N' : Model α}, es.map Prod.snd = es'.map Prod.snd →
    (∀ e ∈ es, B * ((size + B - 1) / B) ≤ e.2.length) → M.Prepared B → M.SoftmaxLast → M'.bare = M.bare →
    es.foldlM (epochRuns E p size) (some M) = .ok (some N) →
    es'.foldlM (epochRuns E p' size) (some M') = .ok (some N') → N'.bare = N.bare ∧ N.Prepared B ∧ N.SoftmaxLast
  | [], [], M, M', N, N', _, _, hM, hl, hb, h, h' => by
    obtain rfl := Option.some.inj (Res.ok.inj h)
    obtain rfl := Option.some.inj (Res.ok.inj h')
    exact ⟨hb, hM, hl⟩
  | [], _ :: _, _, _, _, _, hs, _, _, _, _, _, _ => by simp at hs
  | _ :: _, [], _, _, _, _, hs, _, _, _, _, _, _ => by simp at hs
  | e :: es, e' :: es', M, M', N, N', hs, hlen, hM, hl, hb, h, h' => by
    simp only [List.map_cons, List.cons.injEq] at hs
    rw [List.foldlM_cons] at h h'
    obtain ⟨o, ho, h⟩ := Res.bind_eq_ok h
    obtain ⟨o', ho', h'⟩ := Res.bind_eq_ok h'
    obtain ⟨a, ha, hoo⟩ := Res.bind_eq_ok ho
    obtain ⟨a', ha', hoo'⟩ := Res.bind_eq_ok ho'
    obtain rfl := Res.ok.inj hoo
    obtain rfl := Res.ok.inj hoo'
    cases a with
    | none =>
      rw [Option.map_none, epochRuns_none] at h
      exact absurd (Res.ok.inj h) (by simp)
    | some a =>
      cases a' with
      | none =>
        rw [Option.map_none, epochRuns_none] at h'
        exact absurd (Res.ok.inj h') (by simp)
      | some a' =>
        obtain ⟨⟨T, hT⟩, n1, r1⟩ := runEpoch_inv hp h0 hsz ha
        obtain ⟨⟨T', hT'⟩, n2, r2⟩ := runEpoch_inv hp' h0 hsz ha'
        obtain ⟨k1, k2, k3⟩ := runBatches_same hf hp hp' hT hT' hr hB h0 e.1 e'.1 (n2.trans n1.symm) _ _ hM hl hb hs.1.symm
          (by rw [n1]; exact hlen e (by simp)) a a' r1 r2 (ht.imp id fun ht =>
            ⟨own_batches hp ht.1 hB e.1 _ hM a r1, by
              have := own_batches hp' ht.2 hB e'.1 _ (hM.of_bare hb) a' r2
              intro t sl x l hm
              rw [this t sl x l hm, labelIndex, labelIndex]
              exact congrArg _ (bare_labels hb)⟩)
        exact epochRuns_bare hf hp hp' hr hB h0 ht hsz es es' _ _ hs.2 (fun e he => hlen e (by simp [he])) k2 k3 k1 h h'

theorem epochRuns_append {E : Env α} {p : Hyper α} {size : Nat} : ∀ (es fs : List (List (List Nat) × List (Sample α))) (o : Option (Model α)) {N : Model α},
    (es ++ fs).foldlM (epochRuns E p size) o = .ok (some N) →
    ∃ M, es.foldlM (epochRuns E p size) o = .ok (some M) ∧ fs.foldlM (epochRuns E p size) (some M) = .ok (some N)
  | [], fs, o, N, h => by
    cases o with
    | none => rw [List.nil_append, epochRuns_none] at h; exact absurd (Res.ok.inj h) (by simp)
    | some M => exact ⟨M, rfl, h⟩
  | e :: es, fs, o, N, h => by
    rw [List.cons_append, List.foldlM_cons] at h
    obtain ⟨o1, ho, h⟩ := Res.bind_eq_ok h
    obtain ⟨M, h1, h2⟩ := epochRuns_append es fs o1 h
    exact ⟨M, by rw [List.foldlM_cons, ho]; exact h1, h2⟩

/-- What a completed training consists of. -/
theorem train_epochs {E : Env α} {p : Hyper α} {B size : Nat} (hp : p.batch = B) (hB : B < 2 ^ 24) {es : List (List (List Nat) × List (Sample α))} {M N : Model α}
    (h : train E p size es M = .ok (some N)) : es.foldlM (epochRuns E p size) (some (M.setBatchSize B)) = .ok (some N) := by
  unfold train at h
  obtain ⟨u, hu, h⟩ := Res.bind_eq_ok h
  by_cases h1 : es.length = p.epochs.toNat
  swap
  · rw [if_neg h1] at h
    exact absurd (Res.ok.inj h) (by simp)
  have hu1 : u64 (B : Int) = B := by unfold u64; omega
  rw [if_pos h1, hp, hu1] at h
  exact h

theorem train_resume {E : Env α} {p p1 p2 : Hyper α} {B : Nat} (hf : OrderFree α B) (hp : p.batch = B) (hp1 : p1.batch = B) (hp2 : p2.batch = B)
    (hr1 : p1.rate = p.rate) (hr2 : p2.rate = p.rate) (hB : B < 2 ^ 24) (h0 : 0 < B)
    (ht : B = 1 ∨ (p.threads = 1 ∧ p1.threads = 1 ∧ p2.threads = 1)) {size : Nat} (hsz : size < 2 ^ 24) {M : Model α}
    (hM : (M.setBatchSize B).Prepared B) (hl : (M.setBatchSize B).SoftmaxLast) {es es1 es2 : List (List (List Nat) × List (Sample α))}
    (hs : es.map Prod.snd = (es1 ++ es2).map Prod.snd) (hlen : ∀ e ∈ es, B * ((size + B - 1) / B) ≤ e.2.length) {N N1 N2 : Model α}
    (h : train E p size es M = .ok (some N)) (h1 : train E p1 size es1 M = .ok (some N1)) (h2 : train E p2 size es2 N1 = .ok (some N2)) :
    N2.bare = N.bare := by
  have h := train_epochs hp hB h
  have h1 := train_epochs hp1 hB h1
  have h2 := train_epochs hp2 hB h2
  rw [List.map_append] at hs
  obtain ⟨fs1, fs2, rfl, g1, g2⟩ := List.map_eq_append_iff.1 hs
  obtain ⟨K, k1, k2⟩ := epochRuns_append fs1 fs2 _ h
  obtain ⟨b1, b2, b3⟩ := epochRuns_bare hf hp hp1 hr1 hB h0 (ht.imp id fun t => ⟨t.1, t.2.1⟩) hsz fs1 es1 _ _ g1
    (fun e he => hlen e (List.mem_append_left _ he)) hM hl rfl k1 h1
  exact (epochRuns_bare hf hp hp2 hr2 hB h0 (ht.imp id fun t => ⟨t.1, t.2.2⟩) hsz fs2 es2 _ _ g2
    (fun e he => hlen e (List.mem_append_right _ he)) b2 b3 ((Model.setBatchSize_bare (b2.of_bare b1)).trans b1) k2 h2).1

end Cnn
