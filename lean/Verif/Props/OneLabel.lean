import Verif.Lemmas.OneLabel
import Verif.Props.SmallBatch
/-!
# Properties C101 and C114 for training data sorted by label
-/
namespace Cnn
open Model Train
variable {α : Type} [Zero α] [One α] [Add α] [Sub α] [Mul α] [Div α] [Neg α]

/-- C101 if the samples of a batch have the same label and sums of `B` values do not depend on their order: two calls of `train` on the same
model and samples that both end give the same parameters, whatever the numbers of threads and the schedules. -/
theorem C101_one_label (E : Env α) (p p' : Hyper α) (B : Nat) (hf : OrderFree α B) (hp : p.batch = B) (hp' : p'.batch = B) (hr : p'.rate = p.rate)
    (hB : B < 2 ^ 24) (h0 : 0 < B) (size : Nat) (hsz : size < 2 ^ 24) (M : Model α) (hM : (M.setBatchSize B).Prepared B)
    (hl : (M.setBatchSize B).SoftmaxLast) (es es' : List (List (List Nat) × List (Sample α))) (hs : es.map Prod.snd = es'.map Prod.snd)
    (hlen : ∀ e ∈ es, B * ((size + B - 1) / B) ≤ e.2.length) (hone : ∀ e ∈ es, OneLabel B e.2) (N N' : Model α)
    (h : train E p size es M = .ok (some N)) (h' : train E p' size es' M = .ok (some N')) : N'.bare = N.bare ∧ ∀ i, N'.params i = N.params i :=
  have := (epochRuns_oneLabel hf hp hp' hr hB h0 hsz es es' _ _ hs (fun e he => ⟨hlen e he, hone e he⟩) hM hl rfl (train_epochs hp hB h) (train_epochs hp' hB h')).1
  ⟨this, fun i => Model.bare_params this i⟩

/-- The same in exact arithmetic, for every batch size. -/
theorem C101_one_label_exact {β : Type} [Field β] (E : Env β) (p p' : Hyper β) (B : Nat) (hp : p.batch = B) (hp' : p'.batch = B) (hr : p'.rate = p.rate)
    (hB : B < 2 ^ 24) (h0 : 0 < B) (size : Nat) (hsz : size < 2 ^ 24) (M : Model β) (hM : (M.setBatchSize B).Prepared B)
    (hl : (M.setBatchSize B).SoftmaxLast) (es es' : List (List (List Nat) × List (Sample β))) (hs : es.map Prod.snd = es'.map Prod.snd)
    (hlen : ∀ e ∈ es, B * ((size + B - 1) / B) ≤ e.2.length) (hone : ∀ e ∈ es, OneLabel B e.2) (N N' : Model β)
    (h : train E p size es M = .ok (some N)) (h' : train E p' size es' M = .ok (some N')) : ∀ i, N'.params i = N.params i :=
  (C101_one_label E p p' B (fun l l' hll _ => by rw [← List.sum_eq_foldl, ← List.sum_eq_foldl]; exact hll.sum_eq) hp hp' hr hB h0 size hsz M hM hl es es' hs hlen
    hone N N' h h').2

/-- The same in binary64 for batches of two samples. -/
theorem C101_one_label_binary64 (draws : Nat → Nat → Binary64) (p p' : Hyper Binary64) (hp : p.batch = 2) (hp' : p'.batch = 2) (hr : p'.rate = p.rate)
    (size : Nat) (hsz : size < 2 ^ 24) (M : Model Binary64) (hM : (M.setBatchSize 2).Prepared 2)
    (hl : (M.setBatchSize 2).SoftmaxLast) (es es' : List (List (List Nat) × List (Sample Binary64))) (hs : es.map Prod.snd = es'.map Prod.snd)
    (hlen : ∀ e ∈ es, 2 * ((size + 1) / 2) ≤ e.2.length) (hone : ∀ e ∈ es, OneLabel 2 e.2) (N N' : Model Binary64)
    (h : train (binary64Env draws) p size es M = .ok (some N)) (h' : train (binary64Env draws) p' size es' M = .ok (some N')) :
    ∀ i, N'.params i = N.params i :=
  (C101_one_label _ p p' 2 (OrderFree.two fun a b => by rw [Binary64.zero_add, Binary64.zero_add, Binary64.add_comm]) hp hp' hr (by decide) (by decide) size hsz M
    hM hl es es' hs hlen hone N N' h h').2

/-- It applies: two batches, one for each label, with two threads; every other training that ends gives the same parameters. -/
example (w u v x y : Binary64) : ∃ (es : List (List (List Nat) × List (Sample Binary64))) (N : Model Binary64),
    train (binary64Env fun _ _ => 0) ⟨1, 2, 2, 1⟩ 4 es (tinyModel w) = .ok (some N) ∧
    ∀ (T : ℤ) (es' : List (List (List Nat) × List (Sample Binary64))) (N' : Model Binary64),
      es'.map Prod.snd = [[⟨⟨dimN 1 1 1, [u]⟩, "a".toList⟩, ⟨⟨dimN 1 1 1, [v]⟩, "a".toList⟩, ⟨⟨dimN 1 1 1, [x]⟩, "b".toList⟩, ⟨⟨dimN 1 1 1, [y]⟩, "b".toList⟩]] →
      train (binary64Env fun _ _ => 0) ⟨1, 2, T, 1⟩ 4 es' (tinyModel w) = .ok (some N') → ∀ i, N'.params i = N.params i := by
  have fa : ∀ z : Binary64, (⟨⟨dimN 1 1 1, [z]⟩, "a".toList⟩ : Sample Binary64).Fits ⟨1, 1, 1⟩ (tinyModel w).labels := fun z =>
    ⟨⟨fun _ _ _ => z, Matrix.Shows.of_vals ⟨by decide, by decide, by decide, by decide⟩ rfl (by simp)⟩, by simp [tinyModel]⟩
  have fb : ∀ z : Binary64, (⟨⟨dimN 1 1 1, [z]⟩, "b".toList⟩ : Sample Binary64).Fits ⟨1, 1, 1⟩ (tinyModel w).labels := fun z =>
    ⟨⟨fun _ _ _ => z, Matrix.Shows.of_vals ⟨by decide, by decide, by decide, by decide⟩ rfl (by simp)⟩, by simp [tinyModel]⟩
  obtain ⟨es, N, e1, e2⟩ := C70_train_ends (binary64Env fun _ _ => 0) rfl ⟨1, 2, 2, 1⟩ 2 2 rfl rfl (by decide) (by decide) (by decide) (by decide) 4
    (by decide) (by decide) (tinyModel w) ⟨1, 1, 1⟩ [.full 2] (tinyModel_runs _) roundKinds_work
    [[⟨⟨dimN 1 1 1, [u]⟩, "a".toList⟩, ⟨⟨dimN 1 1 1, [v]⟩, "a".toList⟩, ⟨⟨dimN 1 1 1, [x]⟩, "b".toList⟩, ⟨⟨dimN 1 1 1, [y]⟩, "b".toList⟩]] rfl (by
      intro e he z hz
      rw [List.mem_singleton] at he
      subst he
      simp only [List.mem_cons, List.not_mem_nil, or_false] at hz
      rcases hz with rfl | rfl | rfl | rfl
      · exact fa _
      · exact fa _
      · exact fb _
      · exact fb _) (by simp)
  obtain ⟨⟨cs, src⟩, rfl⟩ : ∃ e, es = [e] := List.length_eq_one_iff.1 (by simpa using congrArg List.length e1)
  obtain rfl : src = _ := by simpa using e1
  refine ⟨_, N, e2, fun T es' N' f1 f2 => C101_one_label_binary64 _ ⟨1, 2, 2, 1⟩ ⟨1, 2, T, 1⟩ rfl rfl rfl 4 (by decide) (tinyModel w)
    ((setBatchSize_shaped (tinyModel_runs _)).prepared roundKinds_work (setBatchSize_used (tinyModel_used _) 2)) ?_ _ es' (by rw [f1]; rfl) (by simp) ?_ N N' e2 f2⟩
  · intro i l S hi hS
    match i, hi with
    | 0, hi =>
      obtain rfl := Option.some.inj hi
      exact absurd hS (by simp [Body.setBatchSize])
    | 1, _ => rfl
    | n + 2, hi => exact absurd hi (by simp [tinyModel, Model.setBatchSize])
  · intro e he j
    obtain rfl := List.mem_singleton.1 he
    match j with
    | 0 => simp
    | 1 => simp
    | n + 2 =>
      rw [List.drop_eq_nil_of_le (by simp; omega)]
      simp

/-- C114 with any number of threads and all schedules, if the samples of a batch have the same label and sums of `B` values do not depend on
their order. -/
theorem C114_one_label (E : Env α) (p p1 p2 : Hyper α) (B : Nat) (hf : OrderFree α B) (hp : p.batch = B) (hp1 : p1.batch = B) (hp2 : p2.batch = B)
    (hr1 : p1.rate = p.rate) (hr2 : p2.rate = p.rate) (hB : B < 2 ^ 24) (h0 : 0 < B) (size : Nat) (hsz : size < 2 ^ 24) (M : Model α)
    (hM : (M.setBatchSize B).Prepared B) (hl : (M.setBatchSize B).SoftmaxLast) (es es1 es2 : List (List (List Nat) × List (Sample α)))
    (hs : es.map Prod.snd = (es1 ++ es2).map Prod.snd) (hlen : ∀ e ∈ es, B * ((size + B - 1) / B) ≤ e.2.length) (hone : ∀ e ∈ es, OneLabel B e.2)
    (N N1 N2 : Model α) (h : train E p size es M = .ok (some N)) (h1 : train E p1 size es1 M = .ok (some N1))
    (h2 : train E p2 size es2 N1 = .ok (some N2)) : N2.bare = N.bare ∧ ∀ i, N2.params i = N.params i :=
  have := train_resume_label hf hp hp1 hp2 hr1 hr2 hB h0 hsz hM hl hs (fun e he => ⟨hlen e he, hone e he⟩) h h1 h2
  ⟨this, fun i => Model.bare_params this i⟩

/-- `C114_one_label` applies with two threads: two epochs over a batch for each label in binary64, in one call or in two. -/
example (w u v : Binary64) : ∃ (es es1 es2 : List (List (List Nat) × List (Sample Binary64))) (N N1 N2 : Model Binary64),
    es.map Prod.snd = (es1 ++ es2).map Prod.snd ∧ es1.length = 1 ∧ es2.length = 1 ∧
    train (binary64Env fun _ _ => 0) ⟨1, 2, 2, 2⟩ 4 es (tinyModel w) = .ok (some N) ∧
    train (binary64Env fun _ _ => 0) ⟨1, 2, 2, 1⟩ 4 es1 (tinyModel w) = .ok (some N1) ∧
    train (binary64Env fun _ _ => 0) ⟨1, 2, 2, 1⟩ 4 es2 N1 = .ok (some N2) ∧ ∀ i, N2.params i = N.params i := by
  let S : List (Sample Binary64) := [⟨⟨dimN 1 1 1, [u]⟩, "a".toList⟩, ⟨⟨dimN 1 1 1, [v]⟩, "a".toList⟩, ⟨⟨dimN 1 1 1, [v]⟩, "b".toList⟩, ⟨⟨dimN 1 1 1, [w]⟩, "b".toList⟩]
  have hS : ∀ x ∈ S, x.Fits ⟨1, 1, 1⟩ (tinyModel w).labels := by
    intro x hx
    simp only [S, List.mem_cons, List.not_mem_nil, or_false] at hx
    rcases hx with rfl | rfl | rfl | rfl
    · exact ⟨⟨fun _ _ _ => u, Matrix.Shows.of_vals ⟨by decide, by decide, by decide, by decide⟩ rfl (by simp)⟩, by simp [tinyModel]⟩
    · exact ⟨⟨fun _ _ _ => v, Matrix.Shows.of_vals ⟨by decide, by decide, by decide, by decide⟩ rfl (by simp)⟩, by simp [tinyModel]⟩
    · exact ⟨⟨fun _ _ _ => v, Matrix.Shows.of_vals ⟨by decide, by decide, by decide, by decide⟩ rfl (by simp)⟩, by simp [tinyModel]⟩
    · exact ⟨⟨fun _ _ _ => w, Matrix.Shows.of_vals ⟨by decide, by decide, by decide, by decide⟩ rfl (by simp)⟩, by simp [tinyModel]⟩
  obtain ⟨es, N, e1, e2⟩ := C70_train_ends (binary64Env fun _ _ => 0) rfl ⟨1, 2, 2, 2⟩ 2 2 rfl rfl (by decide) (by decide) (by decide) (by decide) 4
    (by decide) (by decide) (tinyModel w) ⟨1, 1, 1⟩ [.full 2] (tinyModel_runs _) roundKinds_work [S, S] rfl (by simpa using hS) (by simp [S])
  obtain ⟨es1, N1, f1, f2⟩ := C70_train_ends (binary64Env fun _ _ => 0) rfl ⟨1, 2, 2, 1⟩ 2 2 rfl rfl (by decide) (by decide) (by decide) (by decide) 4
    (by decide) (by decide) (tinyModel w) ⟨1, 1, 1⟩ [.full 2] (tinyModel_runs _) roundKinds_work [S] rfl (by simpa using hS) (by simp [S])
  obtain ⟨r1, r2, _⟩ := C70_trained_partial (binary64Env fun _ _ => 0) rfl ⟨1, 2, 2, 1⟩ 2 2 rfl rfl (by decide) (by decide) (by decide) (by decide) 4
    (by decide) (by decide) (tinyModel w) ⟨1, 1, 1⟩ [.full 2] (tinyModel_runs _) roundKinds_work es1 (by
      intro e he x hx
      have : e.2 ∈ es1.map Prod.snd := List.mem_map_of_mem he
      rw [f1, List.mem_singleton] at this
      exact hS x (this ▸ hx)) (by
      intro e he
      have : e.2 ∈ es1.map Prod.snd := List.mem_map_of_mem (List.mem_of_mem_head? he)
      rw [f1, List.mem_singleton] at this
      rw [this]
      simp [S]) N1 f2
  obtain ⟨es2, N2, g1, g2⟩ := C70_train_ends (binary64Env fun _ _ => 0) rfl ⟨1, 2, 2, 1⟩ 2 2 rfl rfl (by decide) (by decide) (by decide) (by decide) 4
    (by decide) (by decide) N1 ⟨1, 1, 1⟩ [.full 2] r1 roundKinds_work [S] rfl (by rw [r2]; simpa using hS) (by simp [S])
  have hs : es.map Prod.snd = (es1 ++ es2).map Prod.snd := by rw [List.map_append, e1, f1, g1]; rfl
  refine ⟨es, es1, es2, N, N1, N2, hs, by simpa using congrArg List.length f1, by simpa using congrArg List.length g1, e2, f2, g2,
    (C114_one_label _ ⟨1, 2, 2, 2⟩ ⟨1, 2, 2, 1⟩ ⟨1, 2, 2, 1⟩ 2
      (OrderFree.two fun a b => by rw [Binary64.zero_add, Binary64.zero_add, Binary64.add_comm]) rfl rfl rfl rfl rfl (by decide) (by decide) 4 (by decide) _
      ((setBatchSize_shaped (tinyModel_runs _)).prepared roundKinds_work (setBatchSize_used (tinyModel_used _) 2)) ?_ es es1 es2 hs ?_ ?_ N N1 N2 e2 f2 g2).2⟩
  · intro i l S hi hS
    match i, hi with
    | 0, hi =>
      obtain rfl := Option.some.inj hi
      exact absurd hS (by simp [Body.setBatchSize])
    | 1, _ => rfl
    | n + 2, hi => exact absurd hi (by simp [tinyModel, Model.setBatchSize])
  · intro e he
    have : e.2 ∈ es.map Prod.snd := List.mem_map_of_mem he
    rw [e1] at this
    simp only [List.mem_cons, List.not_mem_nil, or_false, or_self] at this
    rw [this]
    simp [S]
  · intro e he j
    have : e.2 ∈ es.map Prod.snd := List.mem_map_of_mem he
    rw [e1] at this
    simp only [List.mem_cons, List.not_mem_nil, or_false, or_self] at this
    rw [this]
    match j with
    | 0 => simp [S]
    | 1 => simp [S]
    | n + 2 =>
      rw [List.drop_eq_nil_of_le (by simp [S]; omega)]
      simp

end Cnn
