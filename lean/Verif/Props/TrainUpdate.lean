import Verif.Lemmas.OwnSchedule
import Verif.Props.TrainLabels
/-!
# Properties C53, C54: what a batch does to the parameters
-/
namespace Cnn
namespace Train
open Model
variable {α : Type}

section
variable [Zero α] [One α] [Add α] [Sub α] [Mul α] [Div α] [Neg α]

/-- No schedule of a full batch fails, and some schedule completes it, if every sample can be processed alone with the label
of every other one and gives gradients of the sizes of the parameters. -/
theorem C53_progress_partial (E : Env α) (p : Hyper α) (B T : Nat) (hp : p.batch = B) (hq : p.threads = T) (hB : B < 2 ^ 24)
    (hT0 : 0 < T) (hT : T < 2147483648) (sh : Shared α) (hM : sh.model.Prepared B) (hfull : B ≤ sh.source.length)
    (hal : ∀ x ∈ sh.source.take B, ∀ y ∈ sh.source.take B, ∃ m, alone E sh.model ⟨x.data, y.label⟩ = .ok m)
    (hsize : ∀ i W Bi, sh.model.params i = some (W, Bi) → ∃ X Y Z F w, ∃ β : Nat → α, W.Shows X Y Z w ∧ Bi.Shows F 1 1 (fun f _ _ => β f) ∧
      ∀ x ∈ sh.source.take B, ∀ y ∈ sh.source.take B, ∃ G H u v, ownGrads E sh.model ⟨x.data, y.label⟩ i = some (G, H) ∧ G.Reads X Y Z u ∧ H.Reads F 1 1 v) :
    (∀ sched, ∃ o, runBatch E p sched sh = .ok o) ∧ ∃ sched q, runBatch E p sched sh = .ok (some q) :=
  runBatch_progress hp hq hB hT0 hT hM hal hsize (Or.inl hfull)

/-- Under the same conditions, for every number of threads there is a schedule that completes the batch and in which all
gradients use the right label, as the following theorems require. -/
theorem C53_own_labels_possible_partial (E : Env α) (p : Hyper α) (B T : Nat) (hp : p.batch = B) (hq : p.threads = T) (hB : B < 2 ^ 24)
    (hT0 : 0 < T) (hT : T < 2147483648) (sh : Shared α) (hM : sh.model.Prepared B) (hfull : B ≤ sh.source.length)
    (hal : ∀ x ∈ sh.source.take B, ∀ y ∈ sh.source.take B, ∃ m, alone E sh.model ⟨x.data, y.label⟩ = .ok m)
    (hsize : ∀ i W Bi, sh.model.params i = some (W, Bi) → ∃ X Y Z F w, ∃ β : Nat → α, W.Shows X Y Z w ∧ Bi.Shows F 1 1 (fun f _ _ => β f) ∧
      ∀ x ∈ sh.source.take B, ∀ y ∈ sh.source.take B, ∃ G H u v, ownGrads E sh.model ⟨x.data, y.label⟩ i = some (G, H) ∧ G.Reads X Y Z u ∧ H.Reads F 1 1 v) :
    ∃ sched q, runBatch E p sched sh = .ok (some q) ∧ OwnLabels sh.model q.2 :=
  runBatch_own hp hq hB hT0 hT hM hal hsize (Or.inl hfull)

end

variable [Field α]

/-- The parameters after a batch whose gradients all used the right label (C53, C54): for each layer with parameters, every
weight and every bias decreases by the rate times (the sum over the processed samples of the gradients each sample gives on
its own, plus the sum of the gradients already lying in the `free` slots that no thread filled), divided by the batch
size. -/
theorem C54_update_partial (E : Env α) (p : Hyper α) (B T : Nat) (hp : p.batch = B) (hq : p.threads = T) (hB : B < 2 ^ 24)
    (sh : Shared α) (hM : sh.model.Prepared B) (sched : List Nat) (q : Shared α × List (Event α))
    (h : runBatch E p sched sh = .ok (some q)) (hown : OwnLabels sh.model q.2) :
    ∃ free : List Nat, free.Nodup ∧ (∀ s ∈ free, s < B ∧ ∀ t x, (t, s, x) ∉ fetches q.2) ∧
      (sh.source.take B).length + free.length = B ∧
      ∀ (i : Nat) (W Bi : Matrix α) (X Y Z F : Nat) (w : Nat → Nat → Nat → α) (β : Nat → α), sh.model.params i = some (W, Bi) →
        W.Shows X Y Z w → Bi.Shows F 1 1 (fun f _ _ => β f) →
        ∃ (g : Sample α → Nat → Nat → Nat → α) (c : Sample α → Nat → α) (g' : Nat → Nat → Nat → Nat → α) (c' : Nat → Nat → α),
          (∀ x ∈ sh.source.take B, ∃ G H, ownGrads E sh.model x i = some (G, H) ∧ G.Reads X Y Z (g x) ∧
            H.Reads F 1 1 (fun f _ _ => c x f)) ∧
          (∀ s ∈ free, ∃ G H, sh.model.stored i s = some (G, H) ∧ G.Reads X Y Z (g' s) ∧ H.Reads F 1 1 (fun f _ _ => c' s f)) ∧
          ∃ W' B', q.1.model.params i = some (W', B') ∧
            W'.Shows X Y Z (fun a b d => w a b d - p.rate *
              ((((sh.source.take B).map (g · a b d)).sum + (free.map (g' · a b d)).sum) / E.num.ofNat B)) ∧
            B'.Shows F 1 1 (fun f _ _ => β f - p.rate *
              ((((sh.source.take B).map (c · f)).sum + (free.map (c' · f)).sum) / E.num.ofNat B)) := by
  obtain ⟨free, f1, f2, f3, f4⟩ := runBatch_update hp hq hB hM h hown
  refine ⟨free, f1, f2, f3, ?_⟩
  intro i W Bi X Y Z F w β hpar hW hBi
  obtain ⟨gs, r, e1, e2, e3⟩ := f4 i W Bi hpar
  obtain ⟨k1, k2, k3⟩ := update_entries hW hBi e1 e2
  have hlen : ((sh.source.take B).map (ownGrads E sh.model · i) ++ free.map (sh.model.stored i)).length = B := by
    rw [List.length_append, List.length_map, List.length_map]; exact f3
  rw [hlen] at k2 k3
  refine ⟨fun x => gradW (ownGrads E sh.model x i), fun x => gradB (ownGrads E sh.model x i), fun s => gradW (sh.model.stored i s),
    fun s => gradB (sh.model.stored i s), ?_, ?_, r.1, r.2, e3, k2.congr ?_, k3.congr ?_⟩
  · intro x hx
    exact k1 _ (List.mem_append_left _ (List.mem_map.2 ⟨x, hx, rfl⟩))
  · intro s hs
    exact k1 _ (List.mem_append_right _ (List.mem_map.2 ⟨s, hs, rfl⟩))
  · intro a _ b _ d _
    rw [List.map_append, List.sum_append, List.map_map, List.map_map]
    rfl
  · intro f _ _ _ _ _
    rw [List.map_append, List.sum_append, List.map_map, List.map_map]
    rfl

/-- The parameters after a full batch for every schedule, also if threads disturbed each other: each sample enters once, with
its own label or with the label of another sample of the batch. -/
theorem C53_any_labels_partial (E : Env α) (p : Hyper α) (B T : Nat) (hp : p.batch = B) (hq : p.threads = T) (hB : B < 2 ^ 24)
    (sh : Shared α) (hM : sh.model.Prepared B) (hfull : B ≤ sh.source.length)
    (hal : ∀ x ∈ sh.source.take B, ∀ y ∈ sh.source.take B, ∃ m, alone E sh.model ⟨x.data, y.label⟩ = .ok m)
    (sched : List Nat) (q : Shared α × List (Event α)) (h : runBatch E p sched sh = .ok (some q)) :
    ∃ used : List (Sample α), used.map (·.data) = (sh.source.take B).map (·.data) ∧
      (∀ u ∈ used, ∃ y ∈ sh.source.take B, u.label = y.label) ∧
      ∀ (i : Nat) (W Bi : Matrix α) (X Y Z F : Nat) (w : Nat → Nat → Nat → α) (β : Nat → α), sh.model.params i = some (W, Bi) →
        W.Shows X Y Z w → Bi.Shows F 1 1 (fun f _ _ => β f) →
        ∃ (g : Sample α → Nat → Nat → Nat → α) (c : Sample α → Nat → α),
          (∀ u ∈ used, ∃ G H, ownGrads E sh.model u i = some (G, H) ∧ G.Reads X Y Z (g u) ∧ H.Reads F 1 1 (fun f _ _ => c u f)) ∧
          ∃ W' B', q.1.model.params i = some (W', B') ∧
            W'.Shows X Y Z (fun a b d => w a b d - p.rate * ((used.map (g · a b d)).sum / E.num.ofNat B)) ∧
            B'.Shows F 1 1 (fun f _ _ => β f - p.rate * ((used.map (c · f)).sum / E.num.ofNat B)) := by
  obtain ⟨used, free, h1, h2, _, _, h3, h4⟩ := runBatch_any hp hq hB hM hal h
  have hlu : used.length = B := by
    have := congrArg List.length h1
    rw [List.length_map, List.length_map, List.length_take] at this
    omega
  have : free = [] := List.eq_nil_of_length_eq_zero (by omega)
  subst this
  refine ⟨used, h1, h2, ?_⟩
  intro i W Bi X Y Z F w β hpar hW hBi
  obtain ⟨gs, r, e1, e2, e3⟩ := h4 i W Bi hpar
  rw [List.map_nil, List.append_nil] at e1
  obtain ⟨k1, k2, k3⟩ := update_entries hW hBi e1 e2
  rw [List.length_map, hlu] at k2 k3
  refine ⟨fun x => gradW (ownGrads E sh.model x i), fun x => gradB (ownGrads E sh.model x i), ?_, r.1, r.2, e3, k2.congr ?_, k3.congr ?_⟩
  · intro x hx
    exact k1 _ (List.mem_map.2 ⟨x, hx, rfl⟩)
  · intro a _ b _ d _
    rw [List.map_map]
    rfl
  · intro f _ _ _ _ _
    rw [List.map_map]
    rfl

/-- C53 as a formula: after a full batch whose gradients all used the right label, every parameter has decreased by the rate
times the mean of the gradients that the samples of the batch give on their own; no interleaving enters. -/
theorem C53_update_partial (E : Env α) (p : Hyper α) (B T : Nat) (hp : p.batch = B) (hq : p.threads = T) (hB : B < 2 ^ 24)
    (sh : Shared α) (hM : sh.model.Prepared B) (hfull : B ≤ sh.source.length) (sched : List Nat) (q : Shared α × List (Event α))
    (h : runBatch E p sched sh = .ok (some q)) (hown : OwnLabels sh.model q.2)
    (i : Nat) (W Bi : Matrix α) (X Y Z F : Nat) (w : Nat → Nat → Nat → α) (β : Nat → α) (hpar : sh.model.params i = some (W, Bi))
    (hW : W.Shows X Y Z w) (hBi : Bi.Shows F 1 1 (fun f _ _ => β f)) :
    ∃ (g : Sample α → Nat → Nat → Nat → α) (c : Sample α → Nat → α),
      (∀ x ∈ sh.source.take B, ∃ G H, ownGrads E sh.model x i = some (G, H) ∧ G.Reads X Y Z (g x) ∧
        H.Reads F 1 1 (fun f _ _ => c x f)) ∧
      ∃ W' B', q.1.model.params i = some (W', B') ∧
        W'.Shows X Y Z (fun a b d => w a b d - p.rate * (((sh.source.take B).map (g · a b d)).sum / E.num.ofNat B)) ∧
        B'.Shows F 1 1 (fun f _ _ => β f - p.rate * (((sh.source.take B).map (c · f)).sum / E.num.ofNat B)) := by
  obtain ⟨free, _, _, f3, f4⟩ := C54_update_partial E p B T hp hq hB sh hM sched q h hown
  obtain ⟨g, c, g', c', h1, _, W', B', h2, h3, h4⟩ := f4 i W Bi X Y Z F w β hpar hW hBi
  have : free = [] := by
    rw [List.length_take] at f3
    exact List.eq_nil_of_length_eq_zero (by omega)
  subst this
  refine ⟨g, c, h1, W', B', h2, h3.congr ?_, h4.congr ?_⟩
  · intro a _ b _ d _; simp
  · intro a _ b _ d _; simp

/-- C53: two full batches over the same samples, with models that agree in everything but what earlier batches left in the
slots, give the same model (up to the contents of the slots and the label told last), whatever the numbers of threads and
the interleavings, if all gradients used the right label. -/
theorem C53_schedules_partial (E : Env α) (p p' : Hyper α) (B T T' : Nat) (hp : p.batch = B) (hp' : p'.batch = B)
    (hq : p.threads = T) (hq' : p'.threads = T') (hr : p'.rate = p.rate) (hB : B < 2 ^ 24) (h0 : 0 < B) (sh sh' : Shared α)
    (hM : sh.model.Prepared B) (hl : sh.model.SoftmaxLast) (hbare : sh'.model.bare = sh.model.bare)
    (hsrc : sh'.source.take B = sh.source.take B) (hfull : B ≤ sh.source.length)
    (sched sched' : List Nat) (q q' : Shared α × List (Event α)) (h : runBatch E p sched sh = .ok (some q))
    (h' : runBatch E p' sched' sh' = .ok (some q')) (hown : OwnLabels sh.model q.2) (hown' : OwnLabels sh'.model q'.2) :
    q'.1.model.bare = q.1.model.bare := by
  have hM' := hM.of_bare hbare
  obtain ⟨M, e1, e2, _⟩ := runBatch_end hp hq hB hM h
  obtain ⟨M', e1', e2', _⟩ := runBatch_end hp' hq' hB hM' h'
  rw [hr] at e2'
  refine Model.applyBatch_bare (e1'.trans (hbare.trans e1.symm)) e2' e2 fun i => ?_
  obtain ⟨free, _, _, f3, f4⟩ := runBatch_update hp hq hB hM h hown
  obtain ⟨free', _, _, f3', f4'⟩ := runBatch_update hp' hq' hB hM' h' hown'
  rw [List.length_take] at f3
  rw [hsrc, List.length_take] at f3'
  obtain rfl : free = [] := List.eq_nil_of_length_eq_zero (by omega)
  obtain rfl : free' = [] := List.eq_nil_of_length_eq_zero (by omega)
  cases hpar : sh.model.params i with
  | some v =>
    obtain ⟨W, Bi⟩ := v
    obtain ⟨gs, r, k1, k2, k3⟩ := f4 i W Bi hpar
    obtain ⟨gs', r', k1', k2', k3'⟩ := f4' i W Bi (by rw [Model.bare_params hbare]; exact hpar)
    have : gs' = gs := by
      have hinj : Function.Injective (some : Matrix α × Matrix α → _) := Option.some_injective _
      refine List.map_injective_iff.2 hinj ?_
      rw [← k1, ← k1', hsrc]
      simp only [List.map_nil, List.append_nil]
      exact List.map_congr_left fun x _ => ownGrads_bare h0 hM hl hbare i
    subst this
    rw [hr, k2] at k2'
    obtain rfl := Res.ok.inj k2'
    rw [k3, k3']
  | none =>
    have a := Model.applyBatch_params_none e2 (by rw [Model.bare_params e1]; exact hpar)
    have b := Model.applyBatch_params_none e2' (by rw [Model.bare_params e1', Model.bare_params hbare]; exact hpar)
    rw [a, b]

/-- C53 over several full batches: with the same samples two runs of any numbers of threads and any interleavings end with
the same parameters, if all gradients used the right label. -/
theorem C53_batches_partial (E : Env α) (p p' : Hyper α) (B T T' : Nat) (hp : p.batch = B) (hp' : p'.batch = B)
    (hq : p.threads = T) (hq' : p'.threads = T') (hr : p'.rate = p.rate) (hB : B < 2 ^ 24) (h0 : 0 < B)
    (scheds scheds' : List (List Nat)) (hs : scheds'.length = scheds.length) : ∀ (sh sh' : Shared α),
    sh.model.Prepared B → sh.model.SoftmaxLast → sh'.model.bare = sh.model.bare → sh'.source = sh.source →
    B * scheds.length ≤ sh.source.length → ∀ (q q' : Shared α × List (Event α)), runBatches E p scheds sh = .ok (some q) →
    runBatches E p' scheds' sh' = .ok (some q') → OwnLabels sh.model q.2 → OwnLabels sh.model q'.2 →
    q'.1.model.bare = q.1.model.bare := by
  induction scheds generalizing scheds' with
  | nil =>
    intro sh sh' _ _ hb _ _ q q' h h' _ _
    obtain rfl : scheds' = [] := List.eq_nil_of_length_eq_zero (by simpa using hs)
    obtain rfl := Option.some.inj (Res.ok.inj h)
    obtain rfl := Option.some.inj (Res.ok.inj h')
    exact hb
  | cons s ss ih =>
    intro sh sh' hM hl hb hsrc hfull q q' h h' ho ho'
    obtain ⟨s', ss', rfl⟩ : ∃ s' ss', scheds' = s' :: ss' := by
      cases scheds' with
      | nil => simp at hs
      | cons a b => exact ⟨a, b, rfl⟩
    have split : ∀ {p : Hyper α} {s : List Nat} {ss : List (List Nat)} {sh : Shared α} {q}, runBatches E p (s :: ss) sh = .ok (some q) →
        ∃ r u, runBatch E p s sh = .ok (some r) ∧ runBatches E p ss r.1 = .ok (some u) ∧ q = (u.1, r.2 ++ u.2) := by
      intro p s ss sh q h
      simp only [runBatches] at h
      obtain ⟨o, e, h⟩ := Res.bind_eq_ok h
      cases o with
      | none => exact absurd h (by simp)
      | some r =>
        simp only at h
        obtain ⟨u, f, h⟩ := Res.bind_eq_ok h
        cases u with
        | none => exact absurd h (by simp)
        | some u => exact ⟨r, u, e, f, (Option.some.inj (Res.ok.inj h)).symm⟩
    obtain ⟨r, u, e, f, rfl⟩ := split h
    obtain ⟨r', u', e', f', rfl⟩ := split h'
    rw [List.length_cons, Nat.mul_succ] at hfull
    have hlab : sh'.model.labels = sh.model.labels := bare_labels hb
    have own1 : OwnLabels sh.model r.2 := fun t sl x l hm => ho t sl x l (by
      simp only [grads_append]; exact List.mem_append_left _ hm)
    have own1' : OwnLabels sh'.model r'.2 := fun t sl x l hm => by
      have := ho' t sl x l (by simp only [grads_append]; exact List.mem_append_left _ hm)
      rw [this, labelIndex, labelIndex, hlab]
    have step := C53_schedules_partial E p p' B T T' hp hp' hq hq' hr hB h0 sh sh' hM hl hb (by rw [hsrc]) (by omega) s s' r r' e e'
      own1 own1'
    obtain ⟨M, m1, m2, _, _, _, _, _, m3⟩ := runBatch_end hp hq hB hM e
    obtain ⟨M', m1', m2', _, _, _, _, _, m3'⟩ := runBatch_end hp' hq' hB (hM.of_bare hb) e'
    have hM1 : r.1.model.Prepared B := (hM.of_bare m1).applyBatch m2
    have hl1 : r.1.model.SoftmaxLast := (hl.of_bare m1).applyBatch m2
    have hlr : r.1.model.labels = sh.model.labels := (Model.applyBatch_labels m2).trans (bare_labels m1)
    refine ih ss' (by simpa using hs) r.1 r'.1 hM1 hl1 step (by rw [m3, m3', hsrc]) (by rw [m3, List.length_drop]; omega) u u' f f' ?_ ?_
    · intro t sl x l hm
      have := ho t sl x l (by simp only [grads_append]; exact List.mem_append_right _ hm)
      rw [this, labelIndex, labelIndex, hlr]
    · intro t sl x l hm
      have := ho' t sl x l (by simp only [grads_append]; exact List.mem_append_right _ hm)
      rw [this, labelIndex, labelIndex, hlr]

/-- What happens to a first batch that is short: with a model that has parameters, whose gradient slots are still empty, and
fewer samples than the batch size, no interleaving of the threads completes the batch (the update throws on the slots that
no sample filled, or the run fails before). -/
theorem C54_fresh_short_batch (E : Env α) (p : Hyper α) (B T : Nat) (hp : p.batch = B) (hq : p.threads = T) (hB : B < 2 ^ 24)
    (sh : Shared α) (hM : sh.model.Prepared B) (i : Nat) (P : Matrix α × Matrix α) (hpar : sh.model.params i = some P)
    (hfresh : ∀ s < B, sh.model.stored i s = some (Matrix.empty, Matrix.empty)) (hshort : sh.source.length < B)
    (sched : List Nat) (q : Shared α × List (Event α)) : runBatch E p sched sh ≠ .ok (some q) := by
  intro h
  obtain ⟨M, e1, e2, _, h4, h5, h6, _⟩ := runBatch_end hp hq hB hM h
  -- a slot that no thread filled
  obtain ⟨s, hs, hf⟩ : ∃ s < B, ∀ t x, (t, s, x) ∉ fetches q.2 := by
    by_contra hc
    push Not at hc
    have : List.range B ⊆ (fetches q.2).map (fun e => e.2.1) := by
      intro s hs
      obtain ⟨t, x, hm⟩ := hc s (List.mem_range.1 hs)
      exact List.mem_map.2 ⟨_, hm, rfl⟩
    have := (List.nodup_range.subperm this).length_le
    rw [List.length_range, List.length_map, h6] at this
    omega
  have hst : M.stored i s = some (Matrix.empty, Matrix.empty) := by
    rw [← norm_stored, h4 s hf, norm_stored, hfresh s hs]
  have hMp : M.params i = some P := by rw [Model.bare_params e1, hpar]
  have hM' := hM.of_bare e1
  obtain ⟨gs, r, k1, k2, _⟩ := Model.applyBatch_params hM' e2 hMp
  have hsound : Sound P.1 P.2 := by
    unfold Model.params at hMp
    cases hm : M.layers[i]? with
    | none => rw [hm] at hMp; simp at hMp
    | some l =>
      rw [hm, Option.bind_some] at hMp
      have hl := hM' l (List.mem_of_getElem? hm)
      cases hb : l.body with
      | kernel K =>
        rw [hb] at hl hMp
        obtain rfl := Option.some.inj hMp
        exact hl.2.2
      | connected L =>
        rw [hb] at hl hMp
        obtain rfl := Option.some.inj hMp
        exact hl.2.2.2
      | _ => rw [hb] at hMp; simp [Body.params] at hMp
  obtain ⟨⟨X, Y, Z, f, s1⟩, F, k, s2⟩ := hsound
  have hlen : gs.length = B := by
    have := congrArg List.length k1
    simpa using this.symm
  obtain ⟨g, _, u, _, a1, _, r1, _⟩ := applyGrads_inv s1 s2 k2 s (by simpa [hlen] using hs)
  have hget := congrArg (·[s]?) k1
  simp only [List.getElem?_map, List.getElem?_range hs, Option.map_some, hst] at hget
  obtain ⟨g', hg', hg⟩ := Option.map_eq_some_iff.1 hget.symm
  rw [List.getElem?_map, hg', Option.map_some] at a1
  obtain rfl := Option.some.inj a1
  obtain rfl := Option.some.inj hg
  have := s1.good.x
  have hd : dimN 0 0 0 = dimN X Y Z := r1.dim
  rw [dimN_inj] at hd
  omega

end Train
end Cnn
