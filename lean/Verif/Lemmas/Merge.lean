import Verif.Lemmas.InOrder
import Verif.Lemmas.OneLabel
/-! Helper lemmas: several epochs as one (C115). -/
namespace Cnn
open Train Model
variable {α : Type} [Zero α] [One α] [Add α] [Sub α] [Mul α] [Div α] [Neg α]

theorem runBatches_join {E : Env α} {p : Hyper α} : ∀ (a b : List (List Nat)) (sh : Shared α) {q : Shared α × List (Event α)},
    runBatches E p (a ++ b) sh = .ok (some q) → ∃ r u, runBatches E p a sh = .ok (some r) ∧ runBatches E p b r.1 = .ok (some u) ∧ q.1 = u.1
  | [], b, sh, q, h => ⟨(sh, []), q, rfl, h, rfl⟩
  | s :: ss, b, sh, q, h => by
    obtain ⟨r, u, e, f, rfl⟩ := runBatches_cons (s := s) (ss := ss ++ b) h
    obtain ⟨r1, u1, h1, h2, h3⟩ := runBatches_join ss b r.1 f
    refine ⟨(r1.1, r.2 ++ r1.2), u1, ?_, h2, h3⟩
    simp only [runBatches]
    rw [e, Res.bind_ok]
    simp only
    rw [h1, Res.bind_ok]

/-- Full batches, of one sample, with one thread or with one label each; the second source has more samples behind. -/
theorem runBatches_more {E : Env α} {p p' : Hyper α} {B T T' : Nat} (hp : p.batch = B) (hp' : p'.batch = B)
    (hq : p.threads = T) (hq' : p'.threads = T') (hr : p'.rate = p.rate) (hB : B < 2 ^ 24) (h0 : 0 < B) (rest : List (Sample α))
    (scheds scheds' : List (List Nat)) (hs : scheds'.length = scheds.length) : ∀ (sh sh' : Shared α),
    sh.model.Prepared B → sh.model.SoftmaxLast → sh'.model.bare = sh.model.bare → sh'.source = sh.source ++ rest →
    sh.source.length = B * scheds.length → B = 1 ∨ (T = 1 ∧ T' = 1) ∨ (OrderFree α B ∧ OneLabel B sh.source) → ∀ (q q' : Shared α × List (Event α)), runBatches E p scheds sh = .ok (some q) →
    runBatches E p' scheds' sh' = .ok (some q') →
    q'.1.model.bare = q.1.model.bare ∧ q.1.model.Prepared B ∧ q.1.model.SoftmaxLast ∧ q'.1.source = rest := by
  induction scheds generalizing scheds' with
  | nil =>
    intro sh sh' hM hl hb hsrc hlen hT q q' h h'
    obtain rfl : scheds' = [] := List.eq_nil_of_length_eq_zero (by simpa using hs)
    obtain rfl := Option.some.inj (Res.ok.inj h)
    obtain rfl := Option.some.inj (Res.ok.inj h')
    refine ⟨hb, hM, hl, ?_⟩
    rw [hsrc, List.eq_nil_of_length_eq_zero (l := sh.source) (by simpa using hlen)]
    rfl
  | cons s ss ih =>
    intro sh sh' hM hl hb hsrc hlen hT q q' h h'
    obtain ⟨s', ss', rfl⟩ : ∃ s' ss', scheds' = s' :: ss' := by
      cases scheds' with
      | nil => simp at hs
      | cons a b => exact ⟨a, b, rfl⟩
    obtain ⟨r, u, e, f, rfl⟩ := runBatches_cons h
    obtain ⟨r', u', e', f', rfl⟩ := runBatches_cons h'
    rw [List.length_cons, Nat.mul_succ] at hlen
    obtain ⟨M, m1, m2, _, _, _, _, _, m3⟩ := runBatch_end hp hq hB hM e
    obtain ⟨M', m1', m2', _, _, _, _, _, m3'⟩ := runBatch_end hp' hq' hB (hM.of_bare hb) e'
    have step : r'.1.model.bare = r.1.model.bare := by
      rcases hT with rfl | ⟨rfl, rfl⟩ | ⟨hf, hone⟩
      · exact runBatch_same OrderFree.one hp hp' hq hq' hr hB h0 hM hl hb (by rw [hsrc, List.take_append_of_le_length (by omega)]) (by omega) e e'
          (fetchedOwn_one hp hq hM e) (fetchedOwn_one hp' hq' (hM.of_bare hb) e')
      · exact (runBatch_alike hp hp' hq hq' hr hB h0 hM hl hb (fun b hbB => by rw [hsrc, List.getElem?_append_left (by omega)]) (.inl (by omega)) e e').1
      · exact runBatch_same hf hp hp' hq hq' hr hB h0 hM hl hb (by rw [hsrc, List.take_append_of_le_length (by omega)]) (by omega) e e'
          (fetchedOwn_alike hp hq hB hM hone.first e)
          (fetchedOwn_alike hp' hq' hB (hM.of_bare hb) (by rw [hsrc, List.take_append_of_le_length (by omega)]; exact hone.first) e')
    exact ih ss' (by simpa using hs) r.1 r'.1 (Model.Prepared.update (hM.of_bare m1) m2) ((hl.of_bare m1).applyBatch m2) step
      (by rw [m3, m3', hsrc, List.drop_append_of_le_length (by omega)]) (by rw [m3, List.length_drop]; omega)
      (hT.imp id (Or.imp id fun h => ⟨h.1, by rw [m3]; exact h.2.drop⟩)) u u' f f'

/-- Several epochs of full batches, and their batches in one epoch. -/
theorem epochRuns_merge {E : Env α} {p p' : Hyper α} {B k : Nat} (hp : p.batch = B) (hp' : p'.batch = B) (hr : p'.rate = p.rate)
    (hB : B < 2 ^ 24) (h0 : 0 < B) (hsz : B * k < 2 ^ 24) :
    ∀ {T' : Nat}, p'.threads = T' → ∀ (es : List (List (List Nat) × List (Sample α))) (scheds' : List (List Nat)) (M : Model α) (sh' : Shared α) {N : Model α} {q' : Shared α × List (Event α)},
    B = 1 ∨ (p.threads = 1 ∧ p'.threads = 1) ∨ (OrderFree α B ∧ ∀ e ∈ es, OneLabel B e.2) →
    (∀ e ∈ es, e.2.length = B * k) → scheds'.length = k * es.length → sh'.source = (es.map Prod.snd).flatten → M.Prepared B → M.SoftmaxLast →
    sh'.model.bare = M.bare → es.foldlM (epochRuns E p (B * k)) (some M) = .ok (some N) → runBatches E p' scheds' sh' = .ok (some q') →
    q'.1.model.bare = N.bare
  | _, _, [], scheds', M, sh', N, q', _, _, hs, _, _, _, hb, h, h' => by
    obtain rfl : scheds' = [] := List.eq_nil_of_length_eq_zero (by simpa using hs)
    obtain rfl := Option.some.inj (Res.ok.inj h)
    obtain rfl := Option.some.inj (Res.ok.inj h')
    exact hb
  | T', hT', e :: es, scheds', M, sh', N, q', ht, hlen, hs, hsrc, hM, hl, hb, h, h' => by
    rw [List.foldlM_cons] at h
    obtain ⟨o, ho, h⟩ := Res.bind_eq_ok h
    obtain ⟨a, ha, hoo⟩ := Res.bind_eq_ok ho
    obtain rfl := Res.ok.inj hoo
    cases a with
    | none =>
      rw [Option.map_none, epochRuns_none] at h
      exact absurd (Res.ok.inj h) (by simp)
    | some a =>
      obtain ⟨⟨T, hT⟩, n1, r1⟩ := runEpoch_inv hp h0 hsz ha
      have hd : (B * k + B - 1) / B = k := by
        rw [Nat.add_sub_assoc h0, Nat.mul_add_div h0, Nat.div_eq_of_lt (by omega), Nat.add_zero]
      rw [hd] at n1
      rw [List.length_cons, Nat.mul_succ] at hs
      rw [← List.take_append_drop k scheds'] at h'
      obtain ⟨r, u, g1, g2, g3⟩ := runBatches_join _ _ _ h'
      have hl1 : (scheds'.take k).length = e.1.length := by rw [List.length_take, n1]; omega
      obtain ⟨k1, k2, k3, k4⟩ := runBatches_more hp hp' hT hT' hr hB h0 (es.map Prod.snd).flatten e.1 (scheds'.take k) hl1 _ sh' hM hl hb
        (by rw [hsrc, List.map_cons, List.flatten_cons]) (by rw [n1]; exact hlen e (by simp))
        (ht.imp id (Or.imp (fun ht => ⟨by have := ht.1; omega, by have := ht.2; omega⟩) fun ht => ⟨ht.1, ht.2 e (by simp)⟩)) a r r1 g1
      rw [g3]
      exact epochRuns_merge hp hp' hr hB h0 hsz hT' es (scheds'.drop k) a.1.model r.1
        (ht.imp id (Or.imp id fun ht => ⟨ht.1, fun e he => ht.2 e (by simp [he])⟩)) (fun e he => hlen e (by simp [he]))
        (by rw [List.length_drop]; omega) k4 k2 k3 k1 h g2

theorem train_merge {E : Env α} {p p' : Hyper α} {B k : Nat} (hp : p.batch = B) (hp' : p'.batch = B) (hr : p'.rate = p.rate)
    (hB : B < 2 ^ 24) (h0 : 0 < B) {es : List (List (List Nat) × List (Sample α))}
    (ht : B = 1 ∨ (p.threads = 1 ∧ p'.threads = 1) ∨ (OrderFree α B ∧ ∀ e ∈ es, OneLabel B e.2))
    (hsz : B * k < 2 ^ 24) (hsz' : B * k * es.length < 2 ^ 24) {M : Model α}
    (hM : (M.setBatchSize B).Prepared B) (hl : (M.setBatchSize B).SoftmaxLast) (hlen : ∀ e ∈ es, e.2.length = B * k) {scheds : List (List Nat)} {N N' : Model α}
    (h : train E p (B * k) es M = .ok (some N)) (h' : train E p' (B * k * es.length) [(scheds, (es.map Prod.snd).flatten)] M = .ok (some N')) :
    N'.bare = N.bare := by
  have h := train_epochs hp hB h
  have h' := train_epochs hp' hB h'
  rw [List.foldlM_cons] at h'
  obtain ⟨o, ho, h'⟩ := Res.bind_eq_ok h'
  obtain ⟨a, ha, hoo⟩ := Res.bind_eq_ok ho
  obtain rfl := Res.ok.inj hoo
  cases a with
  | none => exact absurd (Res.ok.inj h') (by simp)
  | some a =>
    obtain rfl := Option.some.inj (Res.ok.inj h')
    obtain ⟨⟨T', hT'⟩, n1, r1⟩ := runEpoch_inv hp' h0 hsz' ha
    have hd : (B * k * es.length + B - 1) / B = k * es.length := by
      rw [Nat.mul_assoc, Nat.add_sub_assoc h0, Nat.mul_add_div h0, Nat.div_eq_of_lt (by omega), Nat.add_zero]
    rw [hd] at n1
    exact epochRuns_merge hp hp' hr hB h0 hsz hT' es scheds _ _ ht hlen n1 rfl hM hl rfl h r1

end Cnn
