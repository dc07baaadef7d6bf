import Verif.Lemmas.Warm
/-! Helper lemmas: the successes of batches, epochs and a training (C79). -/
set_option linter.unusedSectionVars false
namespace Cnn
open Model
variable {α : Type} [Zero α] [One α] [Add α] [Sub α] [Mul α] [Div α] [Neg α]
variable {B : Nat} {s : Shape} {ks : List LayerKind} {labels : List (List Char)}

namespace Model

theorem Runs.shaped {M : Model α} (h : M.Runs s ks) (hs : M.Sized B) : M.Shaped B s ks M.labels := by
  refine ⟨h.count, ?_, ?_, rfl, h.output⟩
  · intro i y k hy hk
    obtain ⟨L, hL, rfl⟩ := Option.map_eq_some_iff.1 hy
    have h1 := h.layers i L k hL hk
    have h2 := hs L (List.mem_of_getElem? hL)
    revert h1 h2
    generalize L.body = y
    cases y <;> cases k <;> intro h1 h2 <;> first | exact h1 | exact ⟨h1, h2⟩
  · obtain ⟨L, S, hL, hLS, hc⟩ := h.last
    refine ⟨S, ?_, hc⟩
    unfold bodyAt
    rw [hL, ← hLS]; rfl

theorem Full.ready {M : Model α} (h : M.Shaped B s ks labels) (h0 : 0 < B) (hf : Full B s ks M) : M.Ready := by
  intro l hl
  obtain ⟨i, hi⟩ := List.mem_iff_getElem?.1 hl
  have hb : M.bodyAt i = some l.body := by
    unfold bodyAt
    rw [hi]; rfl
  have hlt : i < ks.length + 1 := by rw [← h.count]; exact (List.getElem?_eq_some_iff.1 hi).1
  rcases Nat.lt_or_ge i ks.length with h1 | h1
  · have h3 := (hf 0 h0).1 i _ _ hlt hb (List.getElem?_eq_getElem h1)
    revert h3
    generalize l.body = y
    cases y <;> intro h3 <;> first | exact h3 | trivial
  · obtain rfl : i = ks.length := by omega
    obtain ⟨S, h2, _⟩ := h.last
    rw [hb] at h2
    rw [Option.some.inj h2]
    trivial

theorem score_any {E : Env α} {M : Model α} (h : M.Shaped B s ks labels) (hW : KindsWork true s ks) (h0 : 0 < B) (hr : M.Ready) {xs : List (Sample α)}
    (hx : ∀ x ∈ xs, x.data.Has s) : M.scoreAny E xs = M.score E xs := by
  classical
  unfold scoreAny score
  refine List.countP_congr fun x hm => ?_
  obtain ⟨r, M', e, _⟩ := forwardPropagation_shaped E h hW h0 (hx x hm)
  rw [decide_eq_true_eq, decide_eq_true_eq, GetsAny.iff hr e]
  constructor
  · exact fun h => ⟨r, M', e, h⟩
  · rintro ⟨r', M'', e', h'⟩
    rw [e] at e'
    obtain ⟨rfl, _⟩ := Prod.mk.inj (Res.ok.inj e')
    exact h'

end Model

namespace Train

variable {E : Env α} {p : Hyper α} {T : Nat}

theorem outline_labels {M M' : Model α} (h : M.outline = M'.outline) : M.labels = M'.labels := congrArg (fun o => o.2.labels) h

/-- The successes of a batch. -/
theorem runBatch_score (hE : E.order = .dimsFirst) (hW : KindsWork true s ks) (hp : p.batch = B) (hq : p.threads = T) (h0 : 0 < B) (hB : B < 2 ^ 24)
    (hT0 : 0 < T) (hT : T < 2147483648) {sh : Shared α} (h : Between B s ks labels sh) {sched : List Nat} {q : Shared α × List (Event α)}
    (e : runBatch E p sched sh = .ok (some q)) :
    q.1.hits = sh.hits + sh.model.score E (sh.source.take B) ∧ q.1.source = sh.source.drop B ∧ Between B s ks labels q.1 := by
  obtain ⟨o, e', ho⟩ := runBatch_shaped hE hW hp hq h0 hB hT0 hT h sched
  rw [e] at e'
  obtain ⟨k1, k2, k3⟩ := ho q (Res.ok.inj e').symm
  have hx : ∀ x ∈ sh.source.take B, x.data.Has s := fun x hx => (h.source x (List.mem_of_mem_take hx)).1
  rcases h.full with hf | hl
  · have hr := Full.ready h.model h0 hf
    obtain ⟨j1, j2, _⟩ := runBatch_hits hp hq hB hr e
    exact ⟨by rw [j1, score_any h.model hW h0 hr hx], j2, k1, k3, Or.inl k2⟩
  · have hne : sh.source ≠ [] := by
      rintro hn
      rw [hn] at hl
      simp only [List.length_nil] at hl
      omega
    obtain ⟨x0, hx0⟩ := List.exists_mem_of_ne_nil _ hne
    obtain ⟨M', w1, w2, w3, w4⟩ := warm E h.model hW h0 (h.source x0 hx0).1
    have e2 := runBatch_warm hE hp hq h0 hB hT0 hT hW (sh := { sh with model := M' }) (M := sh.model) w1 w2 h.source hne w3 w4 sched
    rw [show ({ ({ sh with model := M' } : Shared α) with model := sh.model } : Shared α) = sh from rfl, e] at e2
    obtain ⟨j1, j2, _⟩ := runBatch_hits hp hq hB w2 e2.symm
    refine ⟨?_, j2, k1, k3, Or.inl k2⟩
    rw [j1]
    show sh.hits + M'.scoreAny E (sh.source.take B) = _
    rw [score_any w1 hW h0 w2 hx]
    congr 1
    classical
    unfold score
    refine List.countP_congr fun x hm => ?_
    rw [decide_eq_true_eq, decide_eq_true_eq]
    unfold Gets
    rw [forwardPropagation_warm w1 hW w3 w4 h0 (hx x hm), outline_labels w3]

theorem Pc.step_hits {t cutoff : Nat} {sh : Shared α} (n : Nat) {pc : Pc α} {r : Pc α × Shared α × List (Event α)} (e : pc.step E t cutoff sh = .ok r) :
    ∃ n', pc.step E t cutoff { sh with hits := n } = .ok (r.1, { r.2.1 with hits := n' }, r.2.2) := by
  cases pc with
  | fetch slot =>
    unfold Pc.step at e ⊢
    dsimp only at e ⊢
    by_cases hc : slot < cutoff
    · rw [if_pos hc] at e ⊢
      cases hs : sh.source with
      | nil =>
        rw [hs] at e
        dsimp only at e ⊢
        exact ⟨n, by rw [← Res.ok.inj e, ← hs]⟩
      | cons x rest =>
        rw [hs] at e
        dsimp only at e ⊢
        obtain ⟨u, eu, e⟩ := Res.bind_eq_ok e
        rw [eu, Res.bind_ok]
        exact ⟨n, by rw [← Res.ok.inj e]⟩
    · rw [if_neg hc] at e ⊢
      exact ⟨n, by rw [← Res.ok.inj e]⟩
  | forward slot x i st =>
    unfold Pc.step at e ⊢
    dsimp only at e ⊢
    by_cases hc : i < sh.model.layers.length
    · rw [if_pos hc] at e ⊢
      obtain ⟨u, eu, e⟩ := Res.bind_eq_ok e
      rw [eu, Res.bind_ok]
      exact ⟨n, by rw [← Res.ok.inj e]⟩
    · rw [if_neg hc] at e ⊢
      obtain ⟨u, eu, e⟩ := Res.bind_eq_ok e
      rw [eu, Res.bind_ok]
      exact ⟨n, by rw [← Res.ok.inj e]⟩
  | label slot x r' =>
    unfold Pc.step at e ⊢
    dsimp only at e ⊢
    obtain ⟨u, eu, e⟩ := Res.bind_eq_ok e
    rw [eu, Res.bind_ok]
    exact ⟨n, by rw [← Res.ok.inj e]⟩
  | backward slot x r' k d =>
    cases k with
    | zero =>
      have e0 : (Pc.backward slot x r' 0 d).step E t cutoff sh =
        .ok (.fetch (slot + 1), { sh with hits := if some r'.labelIdx = r'.trueIdx then sh.hits + 1 else sh.hits }, [.finish t slot x]) := rfl
      rw [e0] at e
      rw [← Res.ok.inj e]
      exact ⟨_, rfl⟩
    | succ k =>
      have e0 (sh : Shared α) : (Pc.backward slot x r' (k + 1) d).step E t cutoff sh = (do
        let q ← Model.backwardStep E r' slot (d, sh.model) k
        .ok (.backward slot x r' k q.1, { sh with model := q.2 }, gradEvent sh.model t slot x k)) := rfl
      rw [e0] at e ⊢
      obtain ⟨u, eu, e⟩ := Res.bind_eq_ok e
      rw [eu, Res.bind_ok]
      exact ⟨n, by rw [← Res.ok.inj e]⟩
  | done slot =>
    unfold Pc.step at e ⊢
    exact ⟨n, by rw [← Res.ok.inj e]⟩

theorem Batch.step_hits {b : Batch α} {t : Nat} (n : Nat) {r : Batch α × List (Event α)} (e : b.step E t = .ok r) :
    ∃ n', Batch.step E ⟨{ b.shared with hits := n }, b.workers⟩ t = .ok (⟨{ r.1.shared with hits := n' }, r.1.workers⟩, r.2) := by
  unfold Batch.step at e ⊢
  dsimp only
  cases hw : b.workers[t]? with
  | none =>
    rw [hw] at e
    exact ⟨n, by rw [← Res.ok.inj e]⟩
  | some w =>
    rw [hw] at e
    dsimp only at e ⊢
    obtain ⟨u, eu, e⟩ := Res.bind_eq_ok e
    have hu : w.2.step E t w.1 b.shared = .ok u := by
      revert eu
      cases w.2.step E t w.1 b.shared <;> intro eu <;> first | exact eu | cases eu
    obtain ⟨n', h'⟩ := Pc.step_hits n hu
    rw [h']
    refine ⟨n', ?_⟩
    rw [← Res.ok.inj e]
    rfl

theorem Batch.run_hits {sched : List Nat} : ∀ {b : Batch α} (n : Nat) {r : Batch α × List (Event α)}, b.run E sched = .ok r →
    ∃ n', Batch.run E sched ⟨{ b.shared with hits := n }, b.workers⟩ = .ok (⟨{ r.1.shared with hits := n' }, r.1.workers⟩, r.2) := by
  induction sched with
  | nil =>
    intro b n r e
    unfold Batch.run at e ⊢
    exact ⟨n, by rw [← Res.ok.inj e]⟩
  | cons t ts ih =>
    intro b n r e
    unfold Batch.run at e ⊢
    obtain ⟨u, eu, e⟩ := Res.bind_eq_ok e
    obtain ⟨v, ev, e⟩ := Res.bind_eq_ok e
    obtain ⟨n1, h1⟩ := Batch.step_hits n eu
    obtain ⟨n2, h2⟩ := ih n1 ev
    rw [h1, Res.bind_ok, h2, Res.bind_ok]
    exact ⟨n2, by rw [← Res.ok.inj e]⟩

/-- What is trained does not depend on the count of the successes. -/
theorem runBatch_anyHits {sched : List Nat} {sh : Shared α} (n : Nat) {q : Shared α × List (Event α)} (e : runBatch E p sched sh = .ok (some q)) :
    ∃ n', runBatch E p sched { sh with hits := n } = .ok (some ({ q.1 with hits := n' }, q.2)) := by
  unfold runBatch at e ⊢
  obtain ⟨b, eb, e⟩ := Res.bind_eq_ok e
  obtain ⟨r, er, e⟩ := Res.bind_eq_ok e
  have hb : startBatch p.batch p.threads { sh with hits := n } = .ok ⟨{ b.shared with hits := n }, b.workers⟩ := by
    unfold startBatch at eb ⊢
    obtain ⟨u, eu, eb⟩ := Res.bind_eq_ok eb
    obtain ⟨v, ev, eb⟩ := Res.bind_eq_ok eb
    rw [eu, Res.bind_ok, ev, Res.bind_ok, ← Res.ok.inj eb]
  obtain ⟨n', h⟩ := Batch.run_hits n er
  rw [hb, Res.bind_ok, h, Res.bind_ok]
  by_cases ho : r.1.over = true
  · rw [if_pos ho] at e
    rw [if_pos (by exact ho)]
    obtain ⟨M, eM, e⟩ := Res.bind_eq_ok e
    refine ⟨n', ?_⟩
    dsimp only
    rw [eM, Res.bind_ok, ← Option.some.inj (Res.ok.inj e)]
  · rw [if_neg ho] at e
    cases e

/-- The successes of several batches. -/
theorem runBatches_score (hE : E.order = .dimsFirst) (hW : KindsWork true s ks) (hp : p.batch = B) (hq : p.threads = T) (h0 : 0 < B) (hB : B < 2 ^ 24)
    (hT0 : 0 < T) (hT : T < 2147483648) {scheds : List (List Nat)} : ∀ {sh : Shared α}, Between B s ks labels sh → ∀ {q : Shared α × List (Event α)},
    runBatches E p scheds sh = .ok (some q) → q.1.hits = sh.hits + epochScore E p scheds sh.model sh.source := by
  induction scheds with
  | nil =>
    intro sh _ q e
    rw [← Option.some.inj (Res.ok.inj e)]
    rfl
  | cons c cs ih =>
    intro sh h q e
    unfold runBatches at e
    obtain ⟨o, eo, e⟩ := Res.bind_eq_ok e
    cases o with
    | none => cases Res.ok.inj e
    | some r =>
      dsimp only at e
      obtain ⟨o', eo', e⟩ := Res.bind_eq_ok e
      cases o' with
      | none => cases Res.ok.inj e
      | some q' =>
        obtain ⟨j1, j2, j3⟩ := runBatch_score hE hW hp hq h0 hB hT0 hT h eo
        have h1 := ih j3 eo'
        have hq' : q'.1 = q.1 := by rw [← Option.some.inj (Res.ok.inj e)]
        obtain ⟨n', hn⟩ := runBatch_anyHits 0 eo
        unfold epochScore
        rw [show (⟨sh.model, sh.source, 0⟩ : Shared α) = { sh with hits := 0 } from rfl, hn]
        dsimp only
        rw [← hq', h1, j1, j2, hp, Nat.add_assoc]
        rfl

theorem runEpoch_score (hE : E.order = .dimsFirst) (hW : KindsWork true s ks) (hp : p.batch = B) (hq : p.threads = T) (h0 : 0 < B) (hB : B < 2 ^ 24)
    (hT0 : 0 < T) (hT : T < 2147483648) {size : Nat} (hsz : size < 2 ^ 24) {scheds : List (List Nat)} {sh : Shared α} (h : Between B s ks labels sh)
    {q : Shared α × List (Event α)} (e : runEpoch E p size scheds sh = .ok (some q)) : q.1.hits = epochScore E p scheds sh.model sh.source := by
  rw [runEpoch_if hp hq h0 hB hT0 hsz] at e
  by_cases hl : scheds.length = (size + B - 1) / B
  · rw [if_pos hl] at e
    have := runBatches_score hE hW hp hq h0 hB hT0 hT (sh := { sh with hits := 0 }) ⟨h.model, h.source, h.full⟩ e
    rw [this]
    exact Nat.zero_add _
  · rw [if_neg hl] at e
    cases Res.ok.inj e

theorem reportLoop_score (hE : E.order = .dimsFirst) (hW : KindsWork true s ks) (hp : p.batch = B) (hq : p.threads = T) (h0 : 0 < B) (hB : B < 2 ^ 24)
    (hT0 : 0 < T) (hT : T < 2147483648) {size : Nat} (hs0 : 0 < size) (hsz : size < 2 ^ 24) {epochs : List (List (List Nat) × List (Sample α))} :
    ∀ {M : Model α}, M.Shaped B s ks labels → (∀ e ∈ epochs, ∀ x ∈ e.2, x.Fits s labels) → (Full B s ks M ∨ ∀ e ∈ epochs.head?, B ≤ e.2.length) →
    ∀ {r : Model α × List Nat}, reportLoop E p size epochs M = .ok (some r) → r.2 = epochScores E p size epochs M := by
  induction epochs with
  | nil =>
    intro M _ _ _ r e
    rw [← Option.some.inj (Res.ok.inj e)]
    rfl
  | cons x es ih =>
    intro M h hx hf r e
    have hbet : Between B s ks labels ⟨M, x.2, 0⟩ := ⟨h, hx x (by simp), hf.imp id (fun h => h x (by simp))⟩
    unfold reportLoop at e
    obtain ⟨o, eo, e⟩ := Res.bind_eq_ok e
    cases o with
    | none => cases Res.ok.inj e
    | some q =>
      dsimp only at e
      obtain ⟨o', eo', e⟩ := Res.bind_eq_ok e
      cases o' with
      | none => cases Res.ok.inj e
      | some r' =>
        obtain ⟨u, eu, hu⟩ := runEpoch_shaped hE hW hp hq h0 hB hT0 hT hs0 hsz x.1 hbet
        rw [eo] at eu
        obtain ⟨k1, k2⟩ := hu q (Res.ok.inj eu).symm
        have h1 := ih k1 (fun e he => hx e (List.mem_cons_of_mem _ he)) (Or.inl k2) eo'
        have h2 := runEpoch_score hE hW hp hq h0 hB hT0 hT hsz hbet eo
        rw [← Option.some.inj (Res.ok.inj e)]
        unfold epochScores
        rw [eo]
        dsimp only
        rw [h1, h2]

theorem reportLoop_length {size : Nat} {epochs : List (List (List Nat) × List (Sample α))} :
    ∀ {M : Model α} {r : Model α × List Nat}, reportLoop E p size epochs M = .ok (some r) → r.2.length = epochs.length := by
  induction epochs with
  | nil =>
    intro M r e
    rw [← Option.some.inj (Res.ok.inj e)]
    rfl
  | cons x es ih =>
    intro M r e
    unfold reportLoop at e
    obtain ⟨o, eo, e⟩ := Res.bind_eq_ok e
    cases o with
    | none => cases Res.ok.inj e
    | some q =>
      dsimp only at e
      obtain ⟨o', eo', e⟩ := Res.bind_eq_ok e
      cases o' with
      | none => cases Res.ok.inj e
      | some r' =>
        rw [← Option.some.inj (Res.ok.inj e), List.length_cons, List.length_cons, ih eo']

/-- The report says nothing about the training itself. -/
theorem report_train (E : Env α) (p : Hyper α) (size : Nat) (epochs : List (List (List Nat) × List (Sample α))) (M : Model α) :
    (do let r ← report E p size epochs M; .ok (r.map Prod.fst)) = train E p size epochs M := by
  rw [train_room]
  unfold report
  rcases M.room_cases p.batch with hroom | ⟨-, hroom⟩
  swap
  · rw [hroom]; rfl
  rw [hroom, Res.bind_ok, Res.bind_ok]
  by_cases hl : epochs.length = p.epochs.toNat
  · rw [if_pos hl, if_pos hl]
    clear hl
    generalize M.setBatchSize (u64 p.batch) = M
    induction epochs generalizing M with
    | nil => rfl
    | cons x es ih =>
      rw [List.foldlM_cons]
      unfold reportLoop epochStep
      dsimp only
      cases runEpoch E p size x.1 ⟨M, x.2, 0⟩ with
      | throw _ => rfl
      | ub => rfl
      | abort => rfl
      | ok o =>
        rw [Res.bind_ok, Res.bind_ok, Res.bind_ok]
        cases o with
        | none =>
          rw [Res.bind_ok]
          exact (train_none E p size es).symm
        | some q =>
          dsimp only [Option.map_some]
          have := ih q.1.model
          unfold epochStep at this
          rw [← this]
          cases reportLoop E p size es q.1.model with
          | throw _ => rfl
          | ub => rfl
          | abort => rfl
          | ok o => cases o <;> rfl
  · rw [if_neg hl, if_neg hl]
    rfl

theorem score_le {M : Model α} {xs : List (Sample α)} : M.score E xs ≤ xs.length := by
  classical
  exact List.countP_le_length

theorem epochScore_le {scheds : List (List Nat)} : ∀ {M : Model α} {src : List (Sample α)}, epochScore E p scheds M src ≤ src.length := by
  induction scheds with
  | nil => intro M src; exact Nat.zero_le _
  | cons c cs ih =>
    intro M src
    have h1 : M.score E (src.take p.batch.toNat) ≤ min p.batch.toNat src.length := by
      rw [← List.length_take]
      exact score_le
    unfold epochScore
    cases runBatch E p c ⟨M, src, 0⟩ with
    | ok o =>
      cases o with
      | none => dsimp only; omega
      | some q =>
        dsimp only
        have h2 := ih (M := q.1.model) (src := src.drop p.batch.toNat)
        rw [List.length_drop] at h2
        omega
    | _ => dsimp only; omega

theorem epochScores_length {size : Nat} {epochs : List (List (List Nat) × List (Sample α))} : ∀ {M : Model α}, ∀ {i n : Nat},
    (epochScores E p size epochs M)[i]? = some n → ∃ e, epochs[i]? = some e ∧ n ≤ e.2.length := by
  induction epochs with
  | nil => intro M i n h; simp [epochScores] at h
  | cons x es ih =>
    intro M i n h
    unfold epochScores at h
    cases i with
    | zero =>
      rw [List.getElem?_cons_zero] at h
      obtain rfl := Option.some.inj h
      exact ⟨x, rfl, epochScore_le⟩
    | succ i =>
      rw [List.getElem?_cons_succ] at h ⊢
      cases hr : runEpoch E p size x.1 ⟨M, x.2, 0⟩ with
      | ok o =>
        rw [hr] at h
        cases o with
        | none => simp at h
        | some q => exact ih h
      | throw _ => rw [hr] at h; simp at h
      | ub => rw [hr] at h; simp at h
      | abort => rw [hr] at h; simp at h

end Train
end Cnn
