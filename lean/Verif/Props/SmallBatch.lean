import Verif.Lemmas.SmallBatch
import Verif.Props.Reproduce
import Verif.Model.Binary64
/-!
# Property C101: batches whose result does not depend on the threads
-/
namespace Cnn
open Model Train
variable {α : Type} [Zero α] [One α] [Add α] [Sub α] [Mul α] [Div α] [Neg α]

/-- C101 with batches of one sample: two calls of `train` on the same model and samples that both end give the same model up
to the contents of the batch slots and the label told last, whatever the numbers of threads, the schedules and the arithmetic. -/
theorem C101_one_sample (E : Env α) (p p' : Hyper α) (hp : p.batch = 1) (hp' : p'.batch = 1) (hr : p'.rate = p.rate) (size : Nat) (hsz : size < 2 ^ 24)
    (M : Model α) (hM : (M.setBatchSize 1).Prepared 1) (hl : (M.setBatchSize 1).SoftmaxLast) (es es' : List (List (List Nat) × List (Sample α)))
    (hs : es.map Prod.snd = es'.map Prod.snd) (hlen : ∀ e ∈ es, size ≤ e.2.length) (N N' : Model α) (h : train E p size es M = .ok (some N))
    (h' : train E p' size es' M = .ok (some N')) : N'.bare = N.bare ∧ ∀ i, N'.params i = N.params i :=
  have := train_same hp hp' hr hsz hM hl hs hlen h h'
  ⟨this, fun i => Model.bare_params this i⟩

/-- C101 for batches of `B` samples where the sum of `B` values does not depend on their order: two runs of several full
batches in which each sample is used with its own label end with the same parameters. -/
theorem C101_order_free (E : Env α) (p p' : Hyper α) (B T T' : Nat) (hf : OrderFree α B) (hp : p.batch = B) (hp' : p'.batch = B)
    (hq : p.threads = T) (hq' : p'.threads = T') (hr : p'.rate = p.rate) (hB : B < 2 ^ 24) (h0 : 0 < B) (scheds scheds' : List (List Nat))
    (hs : scheds'.length = scheds.length) (sh : Shared α) (hM : sh.model.Prepared B) (hl : sh.model.SoftmaxLast) (hfull : B * scheds.length ≤ sh.source.length)
    (q q' : Shared α × List (Event α)) (h : runBatches E p scheds sh = .ok (some q)) (h' : runBatches E p' scheds' sh = .ok (some q'))
    (ho : OwnLabels sh.model q.2) (ho' : OwnLabels sh.model q'.2) : q'.1.model.bare = q.1.model.bare ∧ ∀ i, q'.1.model.params i = q.1.model.params i :=
  have := (runBatches_same hf hp hp' hq hq' hr hB h0 scheds scheds' hs sh sh hM hl rfl rfl hfull q q' h h' (.inr ⟨ho, ho'⟩)).1
  ⟨this, fun i => Model.bare_params this i⟩

/-- C101 for batches of two samples: it suffices that `0 + a + b` is `0 + b + a`. -/
theorem C101_two (E : Env α) (hc : ∀ a b : α, 0 + a + b = 0 + b + a) (p p' : Hyper α) (T T' : Nat) (hp : p.batch = 2) (hp' : p'.batch = 2)
    (hq : p.threads = T) (hq' : p'.threads = T') (hr : p'.rate = p.rate) (scheds scheds' : List (List Nat))
    (hs : scheds'.length = scheds.length) (sh : Shared α) (hM : sh.model.Prepared 2) (hl : sh.model.SoftmaxLast) (hfull : 2 * scheds.length ≤ sh.source.length)
    (q q' : Shared α × List (Event α)) (h : runBatches E p scheds sh = .ok (some q)) (h' : runBatches E p' scheds' sh = .ok (some q'))
    (ho : OwnLabels sh.model q.2) (ho' : OwnLabels sh.model q'.2) : q'.1.model.bare = q.1.model.bare ∧ ∀ i, q'.1.model.params i = q.1.model.params i :=
  C101_order_free E p p' 2 T T' (OrderFree.two hc) hp hp' hq hq' hr (by decide) (by decide) scheds scheds' hs sh hM hl hfull q q' h h' ho ho'

/-- C101 in the arithmetic of the program (binary64, one zero, one NaN): with batches of one or two samples the parameters
do not depend on the threads, if each sample is used with its own label. -/
theorem C101_binary64 (draws : Nat → Nat → Binary64) (p p' : Hyper Binary64) (B T T' : Nat) (h0 : 0 < B) (h2 : B ≤ 2) (hp : p.batch = B) (hp' : p'.batch = B)
    (hq : p.threads = T) (hq' : p'.threads = T') (hr : p'.rate = p.rate) (scheds scheds' : List (List Nat))
    (hs : scheds'.length = scheds.length) (sh : Shared Binary64) (hM : sh.model.Prepared B) (hl : sh.model.SoftmaxLast)
    (hfull : B * scheds.length ≤ sh.source.length) (q q' : Shared Binary64 × List (Event Binary64))
    (h : runBatches (binary64Env draws) p scheds sh = .ok (some q)) (h' : runBatches (binary64Env draws) p' scheds' sh = .ok (some q'))
    (ho : OwnLabels sh.model q.2) (ho' : OwnLabels sh.model q'.2) : q'.1.model.bare = q.1.model.bare ∧ ∀ i, q'.1.model.params i = q.1.model.params i := by
  have hf : OrderFree Binary64 B := by
    obtain rfl | rfl : B = 1 ∨ B = 2 := by omega
    · exact OrderFree.one
    · exact OrderFree.two fun a b => by rw [Binary64.zero_add, Binary64.zero_add, Binary64.add_comm]
  exact C101_order_free _ p p' B T T' hf hp hp' hq hq' hr (by omega) h0 scheds scheds' hs sh hM hl hfull q q' h h' ho ho'

noncomputable def tinyLayer (w : Binary64) : Connected Binary64 :=
  { weights := ⟨dimN 2 1 1, [0, w]⟩, biases := ⟨dimN 2 1 1, [0, 0]⟩, inputDim := dimN 1 1 1, initialized := true, wGrads := [Matrix.empty],
    bGrads := [Matrix.empty] }

/-- A model of one fully connected layer for two classes. -/
noncomputable def tinyModel (w : Binary64) : Model Binary64 :=
  { (Model.new : Model Binary64) with
    labels := ["a".toList, "b".toList]
    layers := [⟨[], .connected (tinyLayer w)⟩, ⟨[], .softmax (Softmax.new 2)⟩] }

theorem tinyModel_runs (w : Binary64) : (tinyModel w).Runs ⟨1, 1, 1⟩ [.full 2] := by
  refine ⟨rfl, ?_, ⟨_, _, rfl, rfl, rfl⟩, Or.inl rfl⟩
  intro i L k hL hk
  have hi : i < 1 := (List.getElem?_eq_some_iff.1 hk).1
  obtain rfl : i = 0 := by omega
  obtain rfl : LayerKind.full 2 = k := by simpa using hk
  obtain rfl : _ = L := by simpa [tinyModel] using hL
  refine Or.inl ⟨fun i _ => if i = 0 then 0 else w, fun _ => 0, ⟨?_, ?_, rfl⟩, Or.inl rfl⟩
  · refine Matrix.Shows.of_vals ⟨by omega, by decide, by omega, by decide⟩ rfl ?_
    simp [tinyLayer, List.range_succ, kindsOut]
  · refine Matrix.Shows.of_vals ⟨by omega, by omega, by omega, by omega⟩ rfl ?_
    simp [tinyLayer, List.range_succ]

theorem tinyModel_used (w : Binary64) : (tinyModel w).Used := by
  intro l hl L hL
  simp only [tinyModel, List.mem_cons, List.not_mem_nil, or_false] at hl
  rcases hl with rfl | rfl
  · obtain rfl : tinyLayer w = L := by simpa using hL
    rfl
  · simp at hL

/-- It applies: a batch of two samples in binary64. With one thread some schedule completes the batch with the right labels,
and with two threads (any number of threads) all schedules that do so lead to the same parameters. -/
example (w u v : Binary64) : ∃ sched q, runBatches (binary64Env fun _ _ => 0) ⟨1, 2, 1, 1⟩ [sched]
      ⟨(tinyModel w).setBatchSize 2, [⟨⟨dimN 1 1 1, [u]⟩, "a".toList⟩, ⟨⟨dimN 1 1 1, [v]⟩, "b".toList⟩], 0⟩ = .ok (some q) ∧
    ∀ (T : Nat) (sched' : List Nat) (q' : Shared Binary64 × List (Event Binary64)), runBatches (binary64Env fun _ _ => 0) ⟨1, 2, T, 1⟩ [sched']
      ⟨(tinyModel w).setBatchSize 2, [⟨⟨dimN 1 1 1, [u]⟩, "a".toList⟩, ⟨⟨dimN 1 1 1, [v]⟩, "b".toList⟩], 0⟩ = .ok (some q') →
      OwnLabels ((tinyModel w).setBatchSize 2) q'.2 → ∀ i, q'.1.model.params i = q.1.model.params i := by
  obtain ⟨es, N, h1, h2⟩ := C70_train_ends (binary64Env fun _ _ => 0) rfl ⟨1, 2, 1, 1⟩ 2 1 rfl rfl (by decide) (by decide) (by decide) (by decide) 2
    (by decide) (by decide) (tinyModel w) ⟨1, 1, 1⟩ [.full 2] (tinyModel_runs _) roundKinds_work
    [[⟨⟨dimN 1 1 1, [u]⟩, "a".toList⟩, ⟨⟨dimN 1 1 1, [v]⟩, "b".toList⟩]] rfl (by
      intro e he x hx
      rw [List.mem_singleton] at he
      subst he
      simp only [List.mem_cons, List.not_mem_nil, or_false] at hx
      rcases hx with rfl | rfl
      · exact ⟨⟨fun _ _ _ => u, Matrix.Shows.of_vals ⟨by decide, by decide, by decide, by decide⟩ rfl (by simp)⟩, by simp [tinyModel]⟩
      · exact ⟨⟨fun _ _ _ => v, Matrix.Shows.of_vals ⟨by decide, by decide, by decide, by decide⟩ rfl (by simp)⟩, by simp [tinyModel]⟩) (by simp)
  obtain ⟨⟨cs, src⟩, rfl⟩ : ∃ e, es = [e] := List.length_eq_one_iff.1 (by simpa using congrArg List.length h1)
  obtain rfl : src = _ := by simpa using h1
  unfold train at h2
  obtain ⟨_, _, h2⟩ := Res.bind_eq_ok h2
  rw [if_pos (by rfl), List.foldlM_cons] at h2
  obtain ⟨o, ho, h2⟩ := Res.bind_eq_ok h2
  obtain ⟨r, hr, ho⟩ := Res.bind_eq_ok ho
  obtain rfl := Res.ok.inj ho
  cases r with
  | none => exact absurd (Res.ok.inj h2) (by simp)
  | some q =>
    obtain ⟨_, hcs, hr⟩ := runEpoch_inv (B := 2) rfl (by decide) (by decide) hr
    obtain ⟨sched, rfl⟩ : ∃ s, cs = [s] := List.length_eq_one_iff.1 (by simpa using hcs)
    obtain ⟨r, t, k1, k2, k3⟩ := runBatches_cons hr
    have hown : OwnLabels ((tinyModel w).setBatchSize 2) q.2 := by
      rw [k3]
      obtain rfl := Option.some.inj (Res.ok.inj k2)
      show OwnLabels _ (r.2 ++ [])
      rw [List.append_nil]
      exact own_one (B := 2) (by decide) rfl rfl k1
    refine ⟨sched, q, hr, fun T sched' q' h' ho' => (C101_binary64 _ ⟨1, 2, 1, 1⟩ ⟨1, 2, T, 1⟩ 2 1 T (by decide) le_rfl rfl rfl rfl rfl rfl [sched] [sched'] rfl _
      ((setBatchSize_shaped (tinyModel_runs _)).prepared roundKinds_work (setBatchSize_used (tinyModel_used _) 2)) ?_ le_rfl q q' hr h' hown ho').2⟩
    intro i l S hi hS
    match i, hi with
    | 0, hi =>
      obtain rfl := Option.some.inj hi
      exact absurd hS (by simp [Body.setBatchSize])
    | 1, _ => rfl
    | n + 2, hi => exact absurd hi (by simp [tinyModel, Model.setBatchSize])

/-- But four values in binary64 are not order-free, as C101_violated uses. -/
example : ¬ OrderFree Double 4 := by
  intro h
  have c0 : Double.of 0 = .num 0 := Double.of_exact 0 0 (by simp) (by norm_num) (by norm_num) (by norm_num)
  have ch : Double.of (1 / 2) = .num (1 / 2) := Double.of_exact 1 (-1) (by norm_num) (by norm_num) (by norm_num) (by norm_num)
  have cb : Double.of (2 ^ 59) = .num (2 ^ 59) := Double.of_exact 1 59 (by norm_num) (by norm_num) (by norm_num) (by norm_num)
  have := h [.num (1 / 2), .num (2 ^ 59), .num (-2 ^ 59), .num 0] [.num (2 ^ 59), .num (-2 ^ 59), .num 0, .num (1 / 2)]
    (List.perm_append_comm (l₁ := [_]) (l₂ := [_, _, _])) rfl
  simp only [List.foldl_cons, List.foldl_nil] at this
  rw [show (0 : Double) = .num 0 from rfl, Double.num_add, zero_add, ch, Double.num_add, Double.of_lost, Double.num_add, add_neg_cancel, c0, Double.num_add,
    add_zero, c0, Double.num_add, zero_add, cb, Double.num_add, add_neg_cancel, c0, Double.num_add, add_zero, c0, Double.num_add, zero_add, ch] at this
  have := Double.num.inj this
  norm_num at this

/-- It applies: a small model trained in binary64 with batches of one sample, with one thread or with two, always gets the
same parameters. -/
example : ∃ es N, es.map Prod.snd = [[roundSample]] ∧ train doubleEnv ⟨1, 1, 2, 1⟩ 1 es (roundModel (bigDouble 900)) = .ok (some N) ∧
    ∀ (T : ℤ) (es' : List (List (List Nat) × List (Sample Double))) (N' : Model Double), es'.map Prod.snd = [[roundSample]] →
      train doubleEnv ⟨1, 1, T, 1⟩ 1 es' (roundModel (bigDouble 900)) = .ok (some N') → ∀ i, N'.params i = N.params i := by
  obtain ⟨es, N, h1, h2⟩ := C70_train_ends doubleEnv rfl ⟨1, 1, 2, 1⟩ 1 2 rfl rfl (by decide) (by decide) (by decide) (by decide) 1 (by decide) (by decide)
    (roundModel (bigDouble 900)) ⟨1, 1, 1⟩ [.full 2] (roundModel_runs _) roundKinds_work [[roundSample]] rfl
    (by simpa using roundSample_fits _) (by simp)
  refine ⟨es, N, h1, h2, fun T es' N' h3 h4 => (C101_one_sample doubleEnv ⟨1, 1, 2, 1⟩ ⟨1, 1, T, 1⟩ rfl rfl rfl 1 (by decide) _
    ((setBatchSize_shaped (roundModel_runs _)).prepared roundKinds_work (setBatchSize_used (roundModel_used _) 1)) ?_ es es' (h1.trans h3.symm) ?_ N N' h2 h4).2⟩
  · intro i l S hi hS
    match i, hi with
    | 0, hi =>
      obtain rfl := Option.some.inj hi
      exact absurd hS (by simp [Body.setBatchSize])
    | 1, _ => rfl
    | n + 2, hi => exact absurd hi (by simp [roundModel, Model.setBatchSize])
  · intro e he
    have : e.2 ∈ es.map Prod.snd := List.mem_map.2 ⟨e, he, rfl⟩
    rw [h1, List.mem_singleton] at this
    rw [this]
    exact le_rfl

end Cnn
