import Verif.Lemmas.Make
import Verif.Props.OffUnits
import Verif.Props.Overlap
/-!
# Property C112: training changes the numbers of a model, not what it is
-/
namespace Cnn
open Model Train
variable {α : Type} [Zero α] [One α] [Add α] [Sub α] [Mul α] [Div α] [Neg α]

/-- C112 Training, if it ends, leaves labels, layers, their names and order, filters, strides, pools, functions and the sizes of all weights and biases as they
were. Nothing is required of the model, the parameters, the samples, the threads or the schedules. -/
theorem C112_train (E : Env α) (p : Hyper α) (size : Nat) (M : Model α) (epochs : List (List (List Nat) × List (Sample α))) (M' : Model α)
    (h : train E p size epochs M = .ok (some M')) : M.SameMake M' := by
  rw [train_room] at h
  obtain ⟨_, _, h⟩ := Res.bind_eq_ok h
  by_cases hl : epochs.length = p.epochs.toNat
  · rw [if_pos hl] at h
    exact (SameMake.setBatchSize M _).trans (epochs_make epochs h)
  · rw [if_neg hl] at h
    exact absurd (Res.ok.inj h) (by simp)

/-- C112 So it is at every moment while the threads of a batch are running. -/
theorem C112_moment (E : Env α) (p : Hyper α) (sh : Shared α) (s : Batch α) (hs : startBatch p.batch p.threads sh = .ok s) (sched : List Nat)
    (r : Batch α × List (Event α)) (h : s.run E sched = .ok r) : sh.model.SameMake r.1.shared.model := by
  have := run_make sched h
  rwa [startBatch_shared hs] at this

/-- C112 Classifying an image does not change it either. -/
theorem C112_forward (E : Env α) (M : Model α) (X : Matrix α) (b : Nat) (r : Results α × Model α) (h : M.forwardPropagation E X b = .ok r) : M.SameMake r.2 := by
  obtain ⟨s, _, h⟩ := Res.bind_eq_ok h
  obtain ⟨t, e, h⟩ := Res.bind_eq_ok h
  obtain ⟨_, _, h⟩ := Res.bind_eq_ok h
  obtain rfl := Res.ok.inj h
  suffices ∀ (l : List Nat) (u v : (Matrix α × List (Matrix α)) × Model α), l.foldlM (Model.forwardStep E b) u = .ok v → u.2.SameMake v.2 from this _ _ _ e
  intro l
  induction l with
  | nil =>
    intro u v h
    obtain rfl := Res.ok.inj h
    exact .refl _
  | cons a l ih =>
    intro u v h
    rw [List.foldlM_cons] at h
    obtain ⟨w, e, h⟩ := Res.bind_eq_ok h
    exact (forwardStep_make e).trans (ih _ _ h)

/-- C112 with calls of layers that overlap in time; here the fully connected layers must have been used before. -/
theorem C112_overlap (E : Env α) (p : Hyper α) (hB : p.batch < 2147483648) (size : Nat) (M : Model α)
    (hM : ∀ l ∈ M.layers, ∀ L, l.body = .connected L → L.initialized = true) (fine : List (List (List (Nat × Overlap.Act α)) × List (Sample α))) (M' : Model α)
    (h : Overlap.train E p size fine M = .ok (some M')) : M.SameMake M' := by
  obtain ⟨epochs, _, h2⟩ := Overlap.C76_overlap E p hB size M hM fine
  rw [h2] at h
  exact C112_train E p size M epochs M' h

/-- A training that ends: two images with two threads in binary64, with any numbers. -/
example (u w x y : Binary64) : ∃ es N, es.map Prod.snd = [[⟨⟨dimN 1 1 1, [x]⟩, "a".toList⟩, ⟨⟨dimN 1 1 1, [y]⟩, "b".toList⟩]] ∧
    train (binary64Env fun _ _ => 0) ⟨1, 2, 2, 1⟩ 2 es (offReluModel u w) = .ok (some N) ∧ (offReluModel u w).SameMake N := by
  have hk : KindsWork true ⟨1, 1, 1⟩ [.full 2, .act .relu, .full 2] := ⟨⟨by decide, by decide⟩, trivial, ⟨by decide, by decide⟩, trivial⟩
  obtain ⟨es, N, h1, h2⟩ := C70_train_ends (binary64Env fun _ _ => 0) rfl ⟨1, 2, 2, 1⟩ 2 2 rfl rfl (by decide) (by decide) (by decide) (by decide) 2
    (by decide) (by decide) (offReluModel u w) ⟨1, 1, 1⟩ [.full 2, .act .relu, .full 2] (offReluModel_runs _ _) hk
    [[⟨⟨dimN 1 1 1, [x]⟩, "a".toList⟩, ⟨⟨dimN 1 1 1, [y]⟩, "b".toList⟩]] rfl (by
      intro e he z hz
      rw [List.mem_singleton] at he
      subst he
      simp only [List.mem_cons, List.not_mem_nil, or_false] at hz
      rcases hz with rfl | rfl
      · exact ⟨⟨fun _ _ _ => x, Matrix.Shows.of_vals ⟨by decide, by decide, by decide, by decide⟩ rfl (by simp)⟩, by simp [offReluModel]⟩
      · exact ⟨⟨fun _ _ _ => y, Matrix.Shows.of_vals ⟨by decide, by decide, by decide, by decide⟩ rfl (by simp)⟩, by simp [offReluModel]⟩) (by simp)
  exact ⟨es, N, h1, h2, C112_train _ _ _ _ _ _ h2⟩

/-- The relation tells models apart: other labels, or one unit more. -/
example (u w : Binary64) : ¬ (offReluModel u w).SameMake { offReluModel u w with labels := ["a".toList] } := by
  intro h
  exact absurd h.1.1 (by simp [offReluModel])

example (u w : Binary64) : ¬ (Body.connected (offReluFirst u)).SameMake (.connected { offReluFirst u with weights := ⟨dimN 3 1 1, [u, 0, w]⟩ }) := by
  intro h
  exact absurd (h.2 rfl).2.2.2 (by simp [offReluFirst])

end Cnn
