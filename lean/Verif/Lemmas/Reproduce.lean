import Verif.Lemmas.OwnSchedule
import Verif.Lemmas.BatchOrder
/-! Helper lemmas: with one thread a run is determined; with a thread for each sample the samples come into every order (C101). -/
set_option linter.unusedSectionVars false
namespace Cnn.Train
open Model
variable {α : Type} [Zero α] [One α] [Add α] [Sub α] [Mul α] [Div α] [Neg α]

/-- A thread that has ended does nothing. -/
theorem step_over (E : Env α) {s : Batch α} (h : s.over = true) (t : Nat) : s.step E t = .ok (s, []) := by
  unfold Batch.step
  cases hw : s.workers[t]? with
  | none => rfl
  | some v =>
    obtain ⟨b, hb⟩ := over_done h hw
    obtain ⟨c, p⟩ := v
    simp only at hb
    subst hb
    simp only [Pc.step, terminate, Res.bind_ok]
    obtain ⟨h1, h2⟩ := List.getElem?_eq_some_iff.1 hw
    rw [← h2, List.set_getElem_self]

theorem run_ended (E : Env α) {s : Batch α} (h : s.over = true) : ∀ sched : List Nat, s.run E sched = .ok (s, [])
  | [] => rfl
  | t :: ts => by rw [Batch.run, step_over E h, Res.bind_ok, run_ended E h ts, Res.bind_ok]; rfl

theorem step_len {E : Env α} {s : Batch α} {t : Nat} {r : Batch α × List (Event α)} (h : s.step E t = .ok r) : r.1.workers.length = s.workers.length := by
  unfold Batch.step at h
  cases hw : s.workers[t]? with
  | none => rw [hw] at h; obtain rfl := Res.ok.inj h; rfl
  | some v =>
    rw [hw] at h
    obtain ⟨a, _, h⟩ := Res.bind_eq_ok h
    obtain rfl := Res.ok.inj h
    simp

/-- With one thread only the steps of this thread matter. -/
theorem run_single (E : Env α) : ∀ (sched : List Nat) {s : Batch α}, s.workers.length = 1 → s.run E sched = s.run E (List.replicate (sched.count 0) 0)
  | [], _, _ => rfl
  | t :: ts, s, h => by
    rcases Nat.eq_zero_or_pos t with rfl | ht
    · rw [List.count_cons_self, List.replicate_succ, Batch.run, Batch.run]
      cases hs : s.step E 0 with
      | ok r =>
        rw [Res.bind_ok, Res.bind_ok, run_single E ts ((step_len hs).trans h)]
      | _ => rfl
    · have : s.step E t = .ok (s, []) := by
        unfold Batch.step
        rw [List.getElem?_eq_none (by omega)]
      rw [List.count_cons_of_ne (by omega), Batch.run, this, Res.bind_ok, run_single E ts h]
      cases Batch.run E (List.replicate (ts.count 0) 0) s <;> rfl

theorem run_add (E : Env α) (t : Nat) : ∀ (a b : Nat) (s : Batch α) (r : Batch α × List (Event α)), s.run E (List.replicate a t) = .ok r → r.1.over = true →
    s.run E (List.replicate (a + b) t) = .ok r
  | 0, b, s, r, h, ho => by
    obtain rfl := Res.ok.inj h
    rw [Nat.zero_add]
    exact run_ended E ho _
  | a + 1, b, s, r, h, ho => by
    rw [List.replicate_succ, Batch.run] at h
    obtain ⟨r1, h1, h⟩ := Res.bind_eq_ok h
    obtain ⟨r2, h2, h⟩ := Res.bind_eq_ok h
    obtain rfl := Res.ok.inj h
    rw [show a + 1 + b = (a + b) + 1 by omega, List.replicate_succ, Batch.run, h1, Res.bind_ok, run_add E t a b r1.1 r2 h2 ho, Res.bind_ok]

/-- With one thread two runs that end end alike. -/
theorem run_determined {E : Env α} {s : Batch α} (h : s.workers.length = 1) {c c' : List Nat} {r r' : Batch α × List (Event α)} (hr : s.run E c = .ok r)
    (hr' : s.run E c' = .ok r') (ho : r.1.over = true) (ho' : r'.1.over = true) : r = r' := by
  rw [run_single E c h] at hr
  rw [run_single E c' h] at hr'
  rcases Nat.le_total (c.count 0) (c'.count 0) with hle | hle
  · obtain ⟨d, hd⟩ := Nat.exists_eq_add_of_le hle
    rw [hd, run_add E 0 _ d s r hr ho] at hr'
    exact Res.ok.inj hr'
  · obtain ⟨d, hd⟩ := Nat.exists_eq_add_of_le hle
    rw [hd, run_add E 0 _ d s r' hr' ho'] at hr
    exact (Res.ok.inj hr).symm

theorem startBatch_len {b t : Int} {sh : Shared α} {s : Batch α} (h : startBatch b t sh = .ok s) : s.workers.length = t.toNat := by
  unfold startBatch at h
  obtain ⟨w, _, h⟩ := Res.bind_eq_ok h
  obtain ⟨ws, hw, h⟩ := Res.bind_eq_ok h
  obtain rfl := Res.ok.inj h
  have := (mapM_get hw).1
  simpa using this

theorem runBatch_determined {E : Env α} {p : Hyper α} (hT : p.threads = 1) {sh : Shared α} {c c' : List Nat} {q q' : Shared α × List (Event α)}
    (h : runBatch E p c sh = .ok (some q)) (h' : runBatch E p c' sh = .ok (some q')) : q = q' := by
  unfold runBatch at h h'
  obtain ⟨s, hs, h⟩ := Res.bind_eq_ok h
  obtain ⟨r, hr, h⟩ := Res.bind_eq_ok h
  rw [hs, Res.bind_ok] at h'
  obtain ⟨r', hr', h'⟩ := Res.bind_eq_ok h'
  by_cases ho : r.1.over = true
  swap
  · rw [if_neg ho] at h
    exact absurd (Res.ok.inj h) (by simp)
  by_cases ho' : r'.1.over = true
  swap
  · rw [if_neg ho'] at h'
    exact absurd (Res.ok.inj h') (by simp)
  have hl := startBatch_len hs
  rw [hT] at hl
  obtain rfl := run_determined hl hr hr' ho ho'
  rw [if_pos ho] at h h'
  exact Option.some.inj (Res.ok.inj (h.symm.trans h'))

theorem runBatches_determined {E : Env α} {p : Hyper α} (hT : p.threads = 1) : ∀ {cs cs' : List (List Nat)} {sh : Shared α} {q q' : Shared α × List (Event α)},
    cs.length = cs'.length → runBatches E p cs sh = .ok (some q) → runBatches E p cs' sh = .ok (some q') → q = q'
  | [], [], sh, q, q', _, h, h' => Option.some.inj (Res.ok.inj (h.symm.trans h'))
  | c :: cs, c' :: cs', sh, q, q', hl, h, h' => by
    unfold runBatches at h h'
    obtain ⟨o, ho, h⟩ := Res.bind_eq_ok h
    obtain ⟨o', ho', h'⟩ := Res.bind_eq_ok h'
    cases o with
    | none => exact absurd (Res.ok.inj h) (by simp)
    | some r =>
      cases o' with
      | none => exact absurd (Res.ok.inj h') (by simp)
      | some r' =>
        obtain rfl := runBatch_determined hT ho ho'
        simp only at h h'
        obtain ⟨o, hq, h⟩ := Res.bind_eq_ok h
        obtain ⟨o', hq', h'⟩ := Res.bind_eq_ok h'
        cases o with
        | none => exact absurd (Res.ok.inj h) (by simp)
        | some a =>
          cases o' with
          | none => exact absurd (Res.ok.inj h') (by simp)
          | some a' =>
            obtain rfl := runBatches_determined hT (by simpa using hl) hq hq'
            exact Option.some.inj (Res.ok.inj (h.symm.trans h'))

theorem runEpoch_determined {E : Env α} {p : Hyper α} (hT : p.threads = 1) {size : Nat} {cs cs' : List (List Nat)} {sh : Shared α}
    {q q' : Shared α × List (Event α)} (h : runEpoch E p size cs sh = .ok (some q)) (h' : runEpoch E p size cs' sh = .ok (some q')) : q = q' := by
  unfold runEpoch at h h'
  rw [if_neg (by omega)] at h h'
  obtain ⟨w, hw, h⟩ := Res.bind_eq_ok h
  rw [hw, Res.bind_ok] at h'
  by_cases hb : p.batch < 0
  · rw [if_pos hb] at h
    exact absurd h (by simp)
  rw [if_neg hb] at h h'
  obtain ⟨n, hn, h⟩ := Res.bind_eq_ok h
  rw [hn, Res.bind_ok] at h'
  by_cases h1 : cs.length = n.toNat
  swap
  · rw [if_neg h1] at h
    exact absurd (Res.ok.inj h) (by simp)
  by_cases h2 : cs'.length = n.toNat
  swap
  · rw [if_neg h2] at h'
    exact absurd (Res.ok.inj h') (by simp)
  rw [if_pos h1] at h
  rw [if_pos h2] at h'
  exact runBatches_determined hT (h1.trans h2.symm) h h'

/-- The loop of `train` over the epochs. -/
def epochRuns (E : Env α) (p : Hyper α) (size : Nat) (M : Option (Model α)) (e : List (List Nat) × List (Sample α)) : Res (Option (Model α)) :=
  match M with
  | none => .ok none
  | some M => do
    let r ← runEpoch E p size e.1 ⟨M, e.2, 0⟩
    .ok (r.map fun q => q.1.model)

theorem epochRuns_none {E : Env α} {p : Hyper α} {size : Nat} : ∀ (es : List (List (List Nat) × List (Sample α))),
    es.foldlM (epochRuns E p size) none = .ok none
  | [] => rfl
  | _ :: es => by rw [List.foldlM_cons, epochRuns, Res.bind_ok]; exact epochRuns_none es

theorem epochRuns_determined {E : Env α} {p : Hyper α} (hT : p.threads = 1) {size : Nat} : ∀ (es es' : List (List (List Nat) × List (Sample α))) (M : Model α)
    {N N' : Model α}, es.map Prod.snd = es'.map Prod.snd → es.foldlM (epochRuns E p size) (some M) = .ok (some N) →
    es'.foldlM (epochRuns E p size) (some M) = .ok (some N') → N = N'
  | [], [], _, _, _, _, h, h' => Option.some.inj (Res.ok.inj (h.symm.trans h'))
  | [], _ :: _, _, _, _, hs, _, _ => by simp at hs
  | _ :: _, [], _, _, _, hs, _, _ => by simp at hs
  | e :: es, e' :: es', M, N, N', hs, h, h' => by
    simp only [List.map_cons, List.cons.injEq] at hs
    rw [List.foldlM_cons] at h h'
    obtain ⟨o, ho, h⟩ := Res.bind_eq_ok h
    obtain ⟨o', ho', h'⟩ := Res.bind_eq_ok h'
    obtain ⟨a, ha, hoo⟩ := Res.bind_eq_ok ho
    obtain ⟨a', ha', hoo'⟩ := Res.bind_eq_ok ho'
    obtain rfl := Res.ok.inj hoo
    obtain rfl := Res.ok.inj hoo'
    cases a with
    | none =>
      rw [Option.map_none, epochRuns_none] at h
      exact absurd (Res.ok.inj h) (by simp)
    | some a =>
      cases a' with
      | none =>
        rw [Option.map_none, epochRuns_none] at h'
        exact absurd (Res.ok.inj h') (by simp)
      | some a' =>
        rw [← hs.1] at ha'
        obtain rfl := runEpoch_determined hT ha ha'
        exact epochRuns_determined hT es es' _ hs.2 h h'

theorem train_determined {E : Env α} {p : Hyper α} (hT : p.threads = 1) {size : Nat} {M : Model α} {es es' : List (List (List Nat) × List (Sample α))}
    (hs : es.map Prod.snd = es'.map Prod.snd) {N N' : Model α} (h : train E p size es M = .ok (some N)) (h' : train E p size es' M = .ok (some N')) : N = N' := by
  unfold train at h h'
  obtain ⟨u, hu, h⟩ := Res.bind_eq_ok h
  rw [hu, Res.bind_ok] at h'
  by_cases h1 : es.length = p.epochs.toNat
  swap
  · rw [if_neg h1] at h
    exact absurd (Res.ok.inj h) (by simp)
  by_cases h2 : es'.length = p.epochs.toNat
  swap
  · rw [if_neg h2] at h'
    exact absurd (Res.ok.inj h') (by simp)
  rw [if_pos h1] at h
  rw [if_pos h2] at h'
  exact epochRuns_determined hT es es' _ hs h h'

/-! ### Several threads: the samples in every order -/

/-- Threads that stand before their first sample take their samples in any order wanted. -/
theorem run_takes {E : Env α} {M0 : Model α} {T B w : Nat} {src0 rest : List (Sample α)} (hR : Runs E M0 B (src0.take B)) (hM0 : M0.Ready) (slotOf : Nat → Nat) :
    ∀ (order : List Nat) (xs : List (Sample α)) {s : Batch α} {evs : List (Event α)}, order.length = xs.length → order.Nodup →
      (∀ t ∈ order, ∃ c, s.workers[t]? = some (c, Pc.fetch (slotOf t)) ∧ slotOf t < c) → s.shared.source = xs ++ rest → (∀ t, MayStep s t) →
      GInv E M0 s evs → BInv T B w src0 s evs → PInv M0 (src0.take B) s evs → OInv M0 s evs →
      ∃ r, s.run E order = .ok r ∧ fetches r.2 = (order.zip xs).map (fun e => (e.1, slotOf e.1, e.2)) ∧
        GInv E M0 r.1 (evs ++ r.2) ∧ BInv T B w src0 r.1 (evs ++ r.2) ∧ PInv M0 (src0.take B) r.1 (evs ++ r.2) ∧ OInv M0 r.1 (evs ++ r.2)
  | [], [], s, evs, _, _, _, _, _, hG, hB, hP, hO => ⟨(s, []), rfl, rfl, by rw [List.append_nil]; exact hG, by rw [List.append_nil]; exact hB,
      by rw [List.append_nil]; exact hP, by rw [List.append_nil]; exact hO⟩
  | t :: ts, x :: xs, s, evs, hl, hn, hw, hs, hm, hG, hB, hP, hO => by
    obtain ⟨c, hc, hlt⟩ := hw t (by simp)
    obtain ⟨a, ha⟩ := step_ok hR hG hB hP t
    have hG' := hG.step hM0 hB ha
    have hB' := hB.step ha
    have hP' := hP.step hG hB ha
    have hO' := hO.step (hm t) ha
    have ha' := ha
    unfold Batch.step at ha'
    rw [hc] at ha'
    simp only [Pc.step, if_pos hlt, hs, List.cons_append] at ha'
    obtain ⟨b, hb, ha'⟩ := Res.bind_eq_ok ha'
    obtain ⟨d, _, hb⟩ := Res.bind_eq_ok (terminate_ok hb)
    obtain rfl := Res.ok.inj hb
    obtain rfl := Res.ok.inj ha'
    have hne : ∀ t' ∈ ts, t ≠ t' := fun t' ht' h => (List.nodup_cons.1 hn).1 (h ▸ ht')
    obtain ⟨r, r1, r2, r3⟩ := run_takes hR hM0 slotOf ts xs (by simpa using hl) (List.nodup_cons.1 hn).2 (by
      intro t' ht'
      obtain ⟨c', hc', hlt'⟩ := hw t' (by simp [ht'])
      refine ⟨c', ?_, hlt'⟩
      simp only
      rw [List.getElem?_set_ne (hne t' ht'), hc']) rfl (by
      intro u t' c' slot' x' r' n' d' h'
      simp only at h'
      by_cases hu : t = t'
      · subst hu
        rw [List.getElem?_set_self (List.getElem?_eq_some_iff.1 hc).1] at h'
        simp at h'
      · rw [List.getElem?_set_ne hu] at h'
        exact hm u _ _ _ _ _ _ _ h') hG' hB' hP' hO'
    simp only at r1 r3
    refine ⟨(r.1, [.fetch t (slotOf t) x] ++ r.2), by rw [Batch.run, ha, Res.bind_ok, r1, Res.bind_ok], ?_, ?_⟩
    · rw [fetches_append, r2]
      rfl
    · simp only
      rw [← List.append_assoc]
      exact r3

theorem run_joined (E : Env α) : ∀ (a b : List Nat) {s : Batch α} {r r' : Batch α × List (Event α)}, s.run E a = .ok r → r.1.run E b = .ok r' →
    s.run E (a ++ b) = .ok (r'.1, r.2 ++ r'.2)
  | [], b, s, r, r', h, h' => by obtain rfl := Res.ok.inj h; exact h'
  | t :: a, b, s, r, r', h, h' => by
    rw [Batch.run] at h
    obtain ⟨r1, h1, h⟩ := Res.bind_eq_ok h
    obtain ⟨r2, h2, h⟩ := Res.bind_eq_ok h
    obtain rfl := Res.ok.inj h
    rw [List.cons_append, Batch.run, h1, Res.bind_ok, run_joined E a b h2 h', Res.bind_ok, List.append_assoc]

/-- The threads numbered such that thread `t` gets sample `used[t]`. -/
theorem exists_order {β : Type} {us used : List β} (h : used.Perm us) :
    ∃ order : List Nat, order.Perm (List.range used.length) ∧ List.Forall₂ (fun x t => used[t]? = some x) us order := by
  have hf : List.Forall₂ (fun x t => used[t]? = some x) used (List.range used.length) := by
    rw [List.forall₂_iff_get]
    refine ⟨by simp, ?_⟩
    intro i h1 h2
    simp [List.getElem?_eq_getElem h1]
  obtain ⟨order, h1, h2⟩ := List.perm_comp_forall₂ h.symm hf
  exact ⟨order, h2, h1⟩

/-- At least as many threads as samples: some schedule completes the batch with the samples in the slots in the order wanted, every gradient with the
right label. -/
theorem runBatch_arranged {E : Env α} {p : Hyper α} {B T : Nat} (hp : p.batch = B) (hq : p.threads = T) (hB : B < 2 ^ 24) (h0 : 0 < B)
    (hBT : B ≤ T) (hT : T < 2147483648) {sh : Shared α} (hM : sh.model.Prepared B) (hfull : B ≤ sh.source.length)
    (hal : ∀ x ∈ sh.source.take B, ∀ y ∈ sh.source.take B, ∃ m, alone E sh.model ⟨x.data, y.label⟩ = .ok m)
    (hsize : ∀ i W Bi, sh.model.params i = some (W, Bi) → ∃ X Y Z F w, ∃ β : Nat → α, W.Shows X Y Z w ∧ Bi.Shows F 1 1 (fun f _ _ => β f) ∧
      ∀ x ∈ sh.source.take B, ∀ y ∈ sh.source.take B, ∃ G H u v, ownGrads E sh.model ⟨x.data, y.label⟩ i = some (G, H) ∧ G.Reads X Y Z u ∧ H.Reads F 1 1 v)
    {used : List (Sample α)} (hu : used.Perm (sh.source.take B)) :
    ∃ sched q, runBatch E p sched sh = .ok (some q) ∧ OwnLabels sh.model q.2 ∧ ∀ e ∈ fetches q.2, used[e.2.1]? = some e.2.2 := by
  have hw : share B T = 1 := by
    unfold share
    rw [Nat.div_eq_iff (by omega)]
    omega
  have hlu : used.length = B := by rw [hu.length_eq, List.length_take]; omega
  obtain ⟨order, o1, o2⟩ := exists_order hu
  obtain ⟨i1, i2, i3⟩ := batch_init (E := E) (B := B) (T := T) (w := share B T) sh
  have hR := Runs.of_alone hM hal
  have hO : OInv sh.model (⟨sh, (List.range T).map (fun t => (min ((t + 1) * share B T) B, Pc.fetch (t * share B T)))⟩ : Batch α) [] := by
    refine ⟨rfl, ?_, ?_, by simp [UsesOwn, grads]⟩
    · intro t t' c c' slot slot' x x' r r' n n' d d' h
      simp at h
    · intro t c slot x r n d h
      simp at h
  obtain ⟨r, r1, r2, r3, r4, r5, r6⟩ := run_takes hR hM.ready (fun t => t * share B T) order (sh.source.take B) (rest := sh.source.drop B) o2.length_eq.symm
    (o1.nodup_iff.2 List.nodup_range) (by
      intro t ht
      have ht : t < B := by
        have := List.mem_range.1 (o1.subset ht)
        omega
      refine ⟨min ((t + 1) * share B T) B, ?_, ?_⟩
      · rw [List.getElem?_map, List.getElem?_range (by omega)]
        rfl
      · simp only [hw]
        omega) (List.take_append_drop B sh.source).symm (by
      intro u t c slot x r n d h
      simp at h) i2 i1 i3 hO
  rw [List.nil_append] at r3 r4 r5 r6
  obtain ⟨sched, b, hb, hbo, hown⟩ := run_own hR hM.ready _ le_rfl r3 r4 r5 r6
  have hrun := run_joined E order sched r1 hb
  obtain ⟨q, k1, k2⟩ := runBatch_over hp hq hB (by omega) hT hM hal hsize (Or.inl hfull) hrun hbo
  refine ⟨order ++ sched, q, k1, by rw [k2]; exact hown, ?_⟩
  have hst := startBatch_eq B T hB (by omega) hT sh
  obtain ⟨_, _, _, _, e6, _, _⟩ := run_end hB hM.ready hst hrun hbo
  have hol : order.length = B := by rw [o1.length_eq, List.length_range, hlu]
  have hnil : fetches b.2 = [] := by
    simp only [fetches_append, List.length_append, r2, List.length_map, List.length_zip, List.length_take, hol] at e6
    exact List.eq_nil_of_length_eq_zero (by omega)
  intro e he
  rw [k2] at he
  simp only [fetches_append, hnil, List.append_nil, r2] at he
  obtain ⟨⟨t, x⟩, hm, rfl⟩ := List.mem_map.1 he
  simp only [hw, Nat.mul_one]
  obtain ⟨j, hj, hjj⟩ := List.mem_iff_getElem.1 hm
  rw [List.getElem_zip] at hjj
  obtain ⟨rfl, rfl⟩ := Prod.mk.inj hjj
  exact (List.forall₂_iff_get.1 o2).2 j (by rw [List.length_zip] at hj; omega) (by rw [List.length_zip] at hj; omega)

end Cnn.Train

namespace Cnn
open Train Model
variable {α : Type} [Zero α] [One α] [Add α] [Sub α] [Mul α] [Div α] [Neg α]

/-- A full batch with the right labels: the update is computed from the gradients of the samples in the order of their slots. -/
theorem runBatch_slots {E : Env α} {p : Hyper α} {B T : Nat} (hp : p.batch = B) (hq : p.threads = T) (hB : B < 2 ^ 24)
    {sh : Shared α} (hM : sh.model.Prepared B) (hfull : B ≤ sh.source.length) {sched : List Nat} {q : Shared α × List (Event α)}
    (h : runBatch E p sched sh = .ok (some q)) (hown : OwnLabels sh.model q.2) {used : List (Sample α)} (hlen : used.length = B)
    (hu : ∀ e ∈ fetches q.2, used[e.2.1]? = some e.2.2) {i : Nat} {W Bi : Matrix α} (hpar : sh.model.params i = some (W, Bi)) :
    ∃ (gs : List (Matrix α × Matrix α)) (r : Matrix α × Matrix α), used.map (ownGrads E sh.model · i) = gs.map some ∧
      applyGrads E.num p.rate W Bi (gs.map (·.1)) (gs.map (·.2)) = .ok r ∧ q.1.model.params i = some r := by
  obtain ⟨s, r, hs, hr, ho, hM', h2', h3⟩ := runBatch_split h
  rw [hp, hq] at hs
  obtain ⟨e1, e3, e4, e5, e6, e7, e8⟩ := run_end hB hM.ready hs hr ho
  rw [Nat.min_eq_left hfull] at e6
  obtain ⟨fs, f1, f2⟩ := slots_order (fun e he => (e3 e.1 e.2.1 e.2.2 he).1) e5 e6
  obtain ⟨gs, rr, g1, g2, g3⟩ := Model.applyBatch_params (hM.of_bare e1) hM' (p := (W, Bi)) (by rw [Model.bare_params e1]; exact hpar)
  refine ⟨gs, rr, ?_, g2, g3⟩
  have hfs : fs.length = B := by rw [← List.length_map (f := fun e : Nat × Nat × Sample α => e.2.1), f2, List.length_range]
  have hused : used = fs.map (fun e => e.2.2) := by
    refine List.ext_getElem (by rw [List.length_map, hlen, hfs]) ?_
    intro j h1 h2
    have hj : j < fs.length := by rw [hfs, ← hlen]; exact h1
    have hsl : fs[j].2.1 = j := by
      have := congrArg (fun l : List Nat => l[j]?) f2
      simp only [List.getElem?_map, List.getElem?_eq_getElem hj, Option.map_some, List.getElem?_range (show j < B by omega), Option.some.injEq] at this
      exact this
    have := hu fs[j] (by rw [h2']; exact f1.subset (List.getElem_mem hj))
    rw [hsl, List.getElem?_eq_getElem h1] at this
    rw [List.getElem_map]
    exact Option.some.inj this
  rw [hused, ← g1, ← f2, List.map_map, List.map_map]
  refine List.map_congr_left ?_
  rintro ⟨t, s, x⟩ he
  obtain ⟨hs, l, hl, hso⟩ := e3 t s x (f1.subset he)
  obtain rfl := hown t s x l (by rw [h2']; exact hl)
  exact hso.ownGrads hM hs i

end Cnn
