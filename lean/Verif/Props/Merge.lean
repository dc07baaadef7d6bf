import Verif.Lemmas.Merge
import Verif.Props.SmallBatch
/-!
# Property C115: where an epoch ends does not matter
-/
namespace Cnn
open Model Train
variable {α : Type} [Zero α] [One α] [Add α] [Sub α] [Mul α] [Div α] [Neg α]

/-- C115 with one thread, in any arithmetic: training over several epochs of `k` full batches each gives the parameters that one epoch
over all these samples one after the other gives. Missing: several threads. -/
theorem C115_one_thread_partial (E : Env α) (p p' : Hyper α) (B k : Nat) (hp : p.batch = B) (hp' : p'.batch = B) (hr : p'.rate = p.rate)
    (hB : B < 2 ^ 24) (h0 : 0 < B) (ht : p.threads = 1) (ht' : p'.threads = 1) (es : List (List (List Nat) × List (Sample α)))
    (hsz : B * k < 2 ^ 24) (hsz' : B * k * es.length < 2 ^ 24) (M : Model α) (hM : (M.setBatchSize B).Prepared B) (hl : (M.setBatchSize B).SoftmaxLast)
    (hlen : ∀ e ∈ es, e.2.length = B * k) (scheds : List (List Nat)) (N N' : Model α) (h : train E p (B * k) es M = .ok (some N))
    (h' : train E p' (B * k * es.length) [(scheds, (es.map Prod.snd).flatten)] M = .ok (some N')) :
    N'.bare = N.bare ∧ ∀ i, N'.params i = N.params i :=
  have := train_merge hp hp' hr hB h0 (.inr (.inl ⟨ht, ht'⟩)) hsz hsz' hM hl hlen h h'
  ⟨this, fun i => Model.bare_params this i⟩

/-- C115 with any number of threads and all schedules, if the samples of a batch have the same label and sums of `B` values do not depend on
their order. -/
theorem C115_one_label (E : Env α) (p p' : Hyper α) (B k : Nat) (hf : OrderFree α B) (hp : p.batch = B) (hp' : p'.batch = B) (hr : p'.rate = p.rate)
    (hB : B < 2 ^ 24) (h0 : 0 < B) (es : List (List (List Nat) × List (Sample α)))
    (hsz : B * k < 2 ^ 24) (hsz' : B * k * es.length < 2 ^ 24) (M : Model α) (hM : (M.setBatchSize B).Prepared B) (hl : (M.setBatchSize B).SoftmaxLast)
    (hlen : ∀ e ∈ es, e.2.length = B * k) (hone : ∀ e ∈ es, OneLabel B e.2) (scheds : List (List Nat)) (N N' : Model α)
    (h : train E p (B * k) es M = .ok (some N)) (h' : train E p' (B * k * es.length) [(scheds, (es.map Prod.snd).flatten)] M = .ok (some N')) :
    N'.bare = N.bare ∧ ∀ i, N'.params i = N.params i :=
  have := train_merge hp hp' hr hB h0 (.inr (.inr ⟨hf, hone⟩)) hsz hsz' hM hl hlen h h'
  ⟨this, fun i => Model.bare_params this i⟩

/-- C115 with batches of one sample, for all numbers of threads, schedules and arithmetics. -/
theorem C115_one_sample (E : Env α) (p p' : Hyper α) (n : Nat) (hp : p.batch = 1) (hp' : p'.batch = 1) (hr : p'.rate = p.rate)
    (es : List (List (List Nat) × List (Sample α))) (hsz : n < 2 ^ 24) (hsz' : n * es.length < 2 ^ 24) (M : Model α)
    (hM : (M.setBatchSize 1).Prepared 1) (hl : (M.setBatchSize 1).SoftmaxLast)
    (hlen : ∀ e ∈ es, e.2.length = n) (scheds : List (List Nat)) (N N' : Model α) (h : train E p n es M = .ok (some N))
    (h' : train E p' (n * es.length) [(scheds, (es.map Prod.snd).flatten)] M = .ok (some N')) :
    N'.bare = N.bare ∧ ∀ i, N'.params i = N.params i :=
  have := train_merge (B := 1) (k := n) hp hp' hr (by decide) Nat.one_pos (.inl rfl) (by simpa using hsz) (by simpa using hsz') hM hl (by simpa using hlen)
    (by simpa using h) (by simpa using h')
  ⟨this, fun i => Model.bare_params this i⟩

/-- It applies: two epochs over different pairs of samples, and one epoch over the four samples, in binary64. -/
example (w u v x y : Binary64) : ∃ (es es' : List (List (List Nat) × List (Sample Binary64))) (N N' : Model Binary64),
    es.map Prod.snd = [[⟨⟨dimN 1 1 1, [u]⟩, "a".toList⟩, ⟨⟨dimN 1 1 1, [v]⟩, "b".toList⟩], [⟨⟨dimN 1 1 1, [x]⟩, "a".toList⟩, ⟨⟨dimN 1 1 1, [y]⟩, "b".toList⟩]] ∧
    es'.map Prod.snd = [[⟨⟨dimN 1 1 1, [u]⟩, "a".toList⟩, ⟨⟨dimN 1 1 1, [v]⟩, "b".toList⟩, ⟨⟨dimN 1 1 1, [x]⟩, "a".toList⟩, ⟨⟨dimN 1 1 1, [y]⟩, "b".toList⟩]] ∧
    train (binary64Env fun _ _ => 0) ⟨1, 2, 1, 2⟩ 2 es (tinyModel w) = .ok (some N) ∧
    train (binary64Env fun _ _ => 0) ⟨1, 2, 1, 1⟩ 4 es' (tinyModel w) = .ok (some N') ∧ ∀ i, N'.params i = N.params i := by
  have fa : ∀ z : Binary64, (⟨⟨dimN 1 1 1, [z]⟩, "a".toList⟩ : Sample Binary64).Fits ⟨1, 1, 1⟩ (tinyModel w).labels := fun z =>
    ⟨⟨fun _ _ _ => z, Matrix.Shows.of_vals ⟨by decide, by decide, by decide, by decide⟩ rfl (by simp)⟩, by simp [tinyModel]⟩
  have fb : ∀ z : Binary64, (⟨⟨dimN 1 1 1, [z]⟩, "b".toList⟩ : Sample Binary64).Fits ⟨1, 1, 1⟩ (tinyModel w).labels := fun z =>
    ⟨⟨fun _ _ _ => z, Matrix.Shows.of_vals ⟨by decide, by decide, by decide, by decide⟩ rfl (by simp)⟩, by simp [tinyModel]⟩
  obtain ⟨es, N, e1, e2⟩ := C70_train_ends (binary64Env fun _ _ => 0) rfl ⟨1, 2, 1, 2⟩ 2 1 rfl rfl (by decide) (by decide) (by decide) (by decide) 2
    (by decide) (by decide) (tinyModel w) ⟨1, 1, 1⟩ [.full 2] (tinyModel_runs _) roundKinds_work
    [[⟨⟨dimN 1 1 1, [u]⟩, "a".toList⟩, ⟨⟨dimN 1 1 1, [v]⟩, "b".toList⟩], [⟨⟨dimN 1 1 1, [x]⟩, "a".toList⟩, ⟨⟨dimN 1 1 1, [y]⟩, "b".toList⟩]] rfl (by
      intro e he z hz
      simp only [List.mem_cons, List.not_mem_nil, or_false] at he
      rcases he with rfl | rfl <;>
      · simp only [List.mem_cons, List.not_mem_nil, or_false] at hz
        rcases hz with rfl | rfl
        · exact fa _
        · exact fb _) (by simp)
  obtain ⟨es', N', f1, f2⟩ := C70_train_ends (binary64Env fun _ _ => 0) rfl ⟨1, 2, 1, 1⟩ 2 1 rfl rfl (by decide) (by decide) (by decide) (by decide) 4
    (by decide) (by decide) (tinyModel w) ⟨1, 1, 1⟩ [.full 2] (tinyModel_runs _) roundKinds_work
    [[⟨⟨dimN 1 1 1, [u]⟩, "a".toList⟩, ⟨⟨dimN 1 1 1, [v]⟩, "b".toList⟩, ⟨⟨dimN 1 1 1, [x]⟩, "a".toList⟩, ⟨⟨dimN 1 1 1, [y]⟩, "b".toList⟩]] rfl (by
      intro e he z hz
      rw [List.mem_singleton] at he
      subst he
      simp only [List.mem_cons, List.not_mem_nil, or_false] at hz
      rcases hz with rfl | rfl | rfl | rfl
      · exact fa _
      · exact fb _
      · exact fa _
      · exact fb _) (by simp)
  obtain ⟨⟨cs, src⟩, rfl⟩ : ∃ e, es' = [e] := List.length_eq_one_iff.1 (by simpa using congrArg List.length f1)
  have hsrc : src = (es.map Prod.snd).flatten := by
    rw [e1]
    simpa using f1
  have hl2 : es.length = 2 := by simpa using congrArg List.length e1
  refine ⟨es, [(cs, src)], N, N', e1, f1, e2, f2, (C115_one_thread_partial _ ⟨1, 2, 1, 2⟩ ⟨1, 2, 1, 1⟩ 2 1 rfl rfl rfl (by decide) (by decide) rfl rfl es (by decide)
    (by rw [hl2]; decide) (tinyModel w) ((setBatchSize_shaped (tinyModel_runs _)).prepared roundKinds_work (setBatchSize_used (tinyModel_used _) 2)) ?_ ?_ cs N N' e2
    (by rw [hl2, ← hsrc]; exact f2)).2⟩
  · intro i l S hi hS
    match i, hi with
    | 0, hi =>
      obtain rfl := Option.some.inj hi
      exact absurd hS (by simp [Body.setBatchSize])
    | 1, _ => rfl
    | n + 2, hi => exact absurd hi (by simp [tinyModel, Model.setBatchSize])
  · intro e he
    have : e.2 ∈ es.map Prod.snd := List.mem_map_of_mem he
    rw [e1] at this
    simp only [List.mem_cons, List.not_mem_nil, or_false] at this
    rcases this with h | h <;> rw [h] <;> rfl

/-- It applies with two threads to two epochs over one sample each, and one epoch over both. -/
example (w u v : Binary64) : ∃ (es es' : List (List (List Nat) × List (Sample Binary64))) (N N' : Model Binary64),
    es.map Prod.snd = [[⟨⟨dimN 1 1 1, [u]⟩, "a".toList⟩], [⟨⟨dimN 1 1 1, [v]⟩, "b".toList⟩]] ∧
    es'.map Prod.snd = [[⟨⟨dimN 1 1 1, [u]⟩, "a".toList⟩, ⟨⟨dimN 1 1 1, [v]⟩, "b".toList⟩]] ∧
    train (binary64Env fun _ _ => 0) ⟨1, 1, 2, 2⟩ 1 es (tinyModel w) = .ok (some N) ∧
    train (binary64Env fun _ _ => 0) ⟨1, 1, 2, 1⟩ 2 es' (tinyModel w) = .ok (some N') ∧ ∀ i, N'.params i = N.params i := by
  have fa : (⟨⟨dimN 1 1 1, [u]⟩, "a".toList⟩ : Sample Binary64).Fits ⟨1, 1, 1⟩ (tinyModel w).labels :=
    ⟨⟨fun _ _ _ => u, Matrix.Shows.of_vals ⟨by decide, by decide, by decide, by decide⟩ rfl (by simp)⟩, by simp [tinyModel]⟩
  have fb : (⟨⟨dimN 1 1 1, [v]⟩, "b".toList⟩ : Sample Binary64).Fits ⟨1, 1, 1⟩ (tinyModel w).labels :=
    ⟨⟨fun _ _ _ => v, Matrix.Shows.of_vals ⟨by decide, by decide, by decide, by decide⟩ rfl (by simp)⟩, by simp [tinyModel]⟩
  obtain ⟨es, N, e1, e2⟩ := C70_train_ends (binary64Env fun _ _ => 0) rfl ⟨1, 1, 2, 2⟩ 1 2 rfl rfl (by decide) (by decide) (by decide) (by decide) 1
    (by decide) (by decide) (tinyModel w) ⟨1, 1, 1⟩ [.full 2] (tinyModel_runs _) roundKinds_work
    [[⟨⟨dimN 1 1 1, [u]⟩, "a".toList⟩], [⟨⟨dimN 1 1 1, [v]⟩, "b".toList⟩]] rfl (by
      intro e he z hz
      simp only [List.mem_cons, List.not_mem_nil, or_false] at he
      rcases he with rfl | rfl
      · obtain rfl := List.mem_singleton.1 hz
        exact fa
      · obtain rfl := List.mem_singleton.1 hz
        exact fb) (by simp)
  obtain ⟨es', N', f1, f2⟩ := C70_train_ends (binary64Env fun _ _ => 0) rfl ⟨1, 1, 2, 1⟩ 1 2 rfl rfl (by decide) (by decide) (by decide) (by decide) 2
    (by decide) (by decide) (tinyModel w) ⟨1, 1, 1⟩ [.full 2] (tinyModel_runs _) roundKinds_work
    [[⟨⟨dimN 1 1 1, [u]⟩, "a".toList⟩, ⟨⟨dimN 1 1 1, [v]⟩, "b".toList⟩]] rfl (by
      intro e he z hz
      rw [List.mem_singleton] at he
      subst he
      simp only [List.mem_cons, List.not_mem_nil, or_false] at hz
      rcases hz with rfl | rfl
      · exact fa
      · exact fb) (by simp)
  obtain ⟨⟨cs, src⟩, rfl⟩ : ∃ e, es' = [e] := List.length_eq_one_iff.1 (by simpa using congrArg List.length f1)
  have hsrc : src = (es.map Prod.snd).flatten := by
    rw [e1]
    simpa using f1
  have hl2 : es.length = 2 := by simpa using congrArg List.length e1
  refine ⟨es, [(cs, src)], N, N', e1, f1, e2, f2, (C115_one_sample _ ⟨1, 1, 2, 2⟩ ⟨1, 1, 2, 1⟩ 1 rfl rfl rfl es (by decide)
    (by rw [hl2]; decide) (tinyModel w) ((setBatchSize_shaped (tinyModel_runs _)).prepared roundKinds_work (setBatchSize_used (tinyModel_used _) 1)) ?_ ?_ cs N N' e2
    (by rw [hl2, ← hsrc]; exact f2)).2⟩
  · intro i l S hi hS
    match i, hi with
    | 0, hi =>
      obtain rfl := Option.some.inj hi
      exact absurd hS (by simp [Body.setBatchSize])
    | 1, _ => rfl
    | n + 2, hi => exact absurd hi (by simp [tinyModel, Model.setBatchSize])
  · intro e he
    have : e.2 ∈ es.map Prod.snd := List.mem_map_of_mem he
    rw [e1] at this
    simp only [List.mem_cons, List.not_mem_nil, or_false] at this
    rcases this with h | h <;> rw [h] <;> rfl

/-- `C115_one_label` applies with two threads to two epochs over a batch with one label each, and one epoch over both batches, in binary64. -/
example (w u v x y : Binary64) : ∃ (es es' : List (List (List Nat) × List (Sample Binary64))) (N N' : Model Binary64),
    es.map Prod.snd = [[⟨⟨dimN 1 1 1, [u]⟩, "a".toList⟩, ⟨⟨dimN 1 1 1, [v]⟩, "a".toList⟩], [⟨⟨dimN 1 1 1, [x]⟩, "b".toList⟩, ⟨⟨dimN 1 1 1, [y]⟩, "b".toList⟩]] ∧
    es'.map Prod.snd = [[⟨⟨dimN 1 1 1, [u]⟩, "a".toList⟩, ⟨⟨dimN 1 1 1, [v]⟩, "a".toList⟩, ⟨⟨dimN 1 1 1, [x]⟩, "b".toList⟩, ⟨⟨dimN 1 1 1, [y]⟩, "b".toList⟩]] ∧
    train (binary64Env fun _ _ => 0) ⟨1, 2, 2, 2⟩ 2 es (tinyModel w) = .ok (some N) ∧
    train (binary64Env fun _ _ => 0) ⟨1, 2, 2, 1⟩ 4 es' (tinyModel w) = .ok (some N') ∧ ∀ i, N'.params i = N.params i := by
  have fa : ∀ z : Binary64, (⟨⟨dimN 1 1 1, [z]⟩, "a".toList⟩ : Sample Binary64).Fits ⟨1, 1, 1⟩ (tinyModel w).labels := fun z =>
    ⟨⟨fun _ _ _ => z, Matrix.Shows.of_vals ⟨by decide, by decide, by decide, by decide⟩ rfl (by simp)⟩, by simp [tinyModel]⟩
  have fb : ∀ z : Binary64, (⟨⟨dimN 1 1 1, [z]⟩, "b".toList⟩ : Sample Binary64).Fits ⟨1, 1, 1⟩ (tinyModel w).labels := fun z =>
    ⟨⟨fun _ _ _ => z, Matrix.Shows.of_vals ⟨by decide, by decide, by decide, by decide⟩ rfl (by simp)⟩, by simp [tinyModel]⟩
  obtain ⟨es, N, e1, e2⟩ := C70_train_ends (binary64Env fun _ _ => 0) rfl ⟨1, 2, 2, 2⟩ 2 2 rfl rfl (by decide) (by decide) (by decide) (by decide) 2
    (by decide) (by decide) (tinyModel w) ⟨1, 1, 1⟩ [.full 2] (tinyModel_runs _) roundKinds_work
    [[⟨⟨dimN 1 1 1, [u]⟩, "a".toList⟩, ⟨⟨dimN 1 1 1, [v]⟩, "a".toList⟩], [⟨⟨dimN 1 1 1, [x]⟩, "b".toList⟩, ⟨⟨dimN 1 1 1, [y]⟩, "b".toList⟩]] rfl (by
      intro e he z hz
      simp only [List.mem_cons, List.not_mem_nil, or_false] at he
      rcases he with rfl | rfl <;>
      · simp only [List.mem_cons, List.not_mem_nil, or_false] at hz
        rcases hz with rfl | rfl
        all_goals first | exact fa _ | exact fb _) (by simp)
  obtain ⟨es', N', f1, f2⟩ := C70_train_ends (binary64Env fun _ _ => 0) rfl ⟨1, 2, 2, 1⟩ 2 2 rfl rfl (by decide) (by decide) (by decide) (by decide) 4
    (by decide) (by decide) (tinyModel w) ⟨1, 1, 1⟩ [.full 2] (tinyModel_runs _) roundKinds_work
    [[⟨⟨dimN 1 1 1, [u]⟩, "a".toList⟩, ⟨⟨dimN 1 1 1, [v]⟩, "a".toList⟩, ⟨⟨dimN 1 1 1, [x]⟩, "b".toList⟩, ⟨⟨dimN 1 1 1, [y]⟩, "b".toList⟩]] rfl (by
      intro e he z hz
      rw [List.mem_singleton] at he
      subst he
      simp only [List.mem_cons, List.not_mem_nil, or_false] at hz
      rcases hz with rfl | rfl | rfl | rfl
      · exact fa _
      · exact fa _
      · exact fb _
      · exact fb _) (by simp)
  obtain ⟨⟨cs, src⟩, rfl⟩ : ∃ e, es' = [e] := List.length_eq_one_iff.1 (by simpa using congrArg List.length f1)
  have hsrc : src = (es.map Prod.snd).flatten := by
    rw [e1]
    simpa using f1
  have hl2 : es.length = 2 := by simpa using congrArg List.length e1
  refine ⟨es, [(cs, src)], N, N', e1, f1, e2, f2, (C115_one_label _ ⟨1, 2, 2, 2⟩ ⟨1, 2, 2, 1⟩ 2 1
    (OrderFree.two fun a b => by rw [Binary64.zero_add, Binary64.zero_add, Binary64.add_comm]) rfl rfl rfl (by decide) (by decide) es (by decide)
    (by rw [hl2]; decide) (tinyModel w) ((setBatchSize_shaped (tinyModel_runs _)).prepared roundKinds_work (setBatchSize_used (tinyModel_used _) 2)) ?_ ?_ ?_ cs N N' e2
    (by rw [hl2, ← hsrc]; exact f2)).2⟩
  · intro i l S hi hS
    match i, hi with
    | 0, hi =>
      obtain rfl := Option.some.inj hi
      exact absurd hS (by simp [Body.setBatchSize])
    | 1, _ => rfl
    | n + 2, hi => exact absurd hi (by simp [tinyModel, Model.setBatchSize])
  · intro e he
    have : e.2 ∈ es.map Prod.snd := List.mem_map_of_mem he
    rw [e1] at this
    simp only [List.mem_cons, List.not_mem_nil, or_false] at this
    rcases this with h | h <;> rw [h] <;> rfl
  · intro e he j
    have : e.2 ∈ es.map Prod.snd := List.mem_map_of_mem he
    rw [e1] at this
    simp only [List.mem_cons, List.not_mem_nil, or_false] at this
    rcases this with h | h <;> rw [h] <;>
    · match j with
      | 0 => simp
      | n + 1 =>
        rw [List.drop_eq_nil_of_le (by simp)]
        simp

end Cnn
