import Verif.Lemmas.LabelOwn
import Verif.Props.Copies
/-!
# Property C113 for samples with the same label
-/
namespace Cnn
open Model Train
variable {α : Type}

/-- C113 with any numbers of threads and all schedules, if all samples of the batch have the same label. -/
theorem C113_one_label [Field α] [CharZero α] (E : Env α) (hE : ∀ n, E.num.ofNat n = (n : α)) (hO : E.order = .dimsFirst) (p p' : Hyper α) (B k T T' : Nat)
    (hp : p.batch = B) (hp' : p'.batch = (k * B : Nat)) (hq : p.threads = T) (hq' : p'.threads = T') (hT : 0 < T) (hT2 : T < 2147483648) (hT' : 0 < T')
    (hT2' : T' < 2147483648) (hr : p'.rate = p.rate) (hB : k * B < 2 ^ 24)
    (h0 : 0 < B) (hk : 0 < k) (M : Model α) (s : Shape) (ks : List LayerKind) (hM : M.Runs s ks) (hks : KindsWork true s ks) (hu : M.Used) (xs ys : List (Sample α))
    (hx : xs.length = B) (hfit : ∀ x ∈ xs, x.Fits s M.labels) (hone : ∀ x ∈ xs, ∀ y ∈ xs, x.label = y.label) (hy : ys.Perm (List.replicate k xs).flatten) :
    (∃ sched q, runBatch E p sched ⟨M.setBatchSize B, xs, 0⟩ = .ok (some q)) ∧ (∃ sched q, runBatch E p' sched ⟨M.setBatchSize (k * B), ys, 0⟩ = .ok (some q)) ∧
    ∀ sched sched' q q', runBatch E p sched ⟨M.setBatchSize B, xs, 0⟩ = .ok (some q) → runBatch E p' sched' ⟨M.setBatchSize (k * B), ys, 0⟩ = .ok (some q') →
      ∀ i W Bi, M.params i = some (W, Bi) → ∃ W' B', q.1.model.params i = some (W', B') ∧ q'.1.model.params i = some (W', B') := by
  have hkB : 0 < k * B := Nat.mul_pos hk h0
  have hBk : B ≤ k * B := Nat.le_mul_of_pos_left B hk
  have hyl : ys.length = k * B := by
    have := hy.length_eq
    simpa [hx] using this
  have hin : ∀ y ∈ ys, y ∈ xs := by
    intro y hm
    obtain ⟨l, hl, hm⟩ := List.mem_flatten.1 (hy.mem_iff.1 hm)
    rwa [List.eq_of_mem_replicate hl] at hm
  have hP : (M.setBatchSize B).Prepared B := (setBatchSize_shaped hM).prepared hks (setBatchSize_used hu B)
  have hP' : (M.setBatchSize (k * B)).Prepared (k * B) := (setBatchSize_shaped hM).prepared hks (setBatchSize_used hu _)
  refine ⟨runBatch_ends hO hks hp hq h0 (by omega) hT hT2 (sh := ⟨M.setBatchSize B, xs, 0⟩) ⟨setBatchSize_shaped hM, hfit, Or.inr hx.ge⟩,
    runBatch_ends hO hks hp' hq' hkB hB hT' hT2' (sh := ⟨M.setBatchSize (k * B), ys, 0⟩) ⟨setBatchSize_shaped hM, fun y hm => hfit y (hin y hm), Or.inr hyl.ge⟩, ?_⟩
  intro sched sched' q q' h h' i W Bi hi
  exact C113_partial E hE p p' B k T T' hp hp' hq hq' hr hB h0 hk M hP hP' xs ys 0 0 hx.ge
    (by rw [List.take_of_length_le hx.le, List.take_of_length_le hyl.le]; exact hy) sched sched' q q' h h'
    (ownLabels_alike hp hq (by omega) hP (fun x hx y hy => hone x (List.mem_of_mem_take hx) y (List.mem_of_mem_take hy)) h)
    (ownLabels_alike hp' hq' hB hP' (fun x hx y hy => hone x (hin x (List.mem_of_mem_take hx)) y (hin y (List.mem_of_mem_take hy))) h') i W Bi hi

/-- Two samples with one label on two threads, and both twice in another order on three threads. -/
example (w u v : ℝ) : let x : Sample ℝ := ⟨⟨dimN 1 1 1, [u]⟩, "a".toList⟩; let y : Sample ℝ := ⟨⟨dimN 1 1 1, [v]⟩, "a".toList⟩
    ∃ sched sched' q q' W Bi, runBatch exactEnv ⟨1, 2, 2, 1⟩ sched ⟨(copiesModel w).setBatchSize 2, [x, y], 0⟩ = .ok (some q) ∧
      runBatch exactEnv ⟨1, 4, 3, 1⟩ sched' ⟨(copiesModel w).setBatchSize 4, [y, x, x, y], 0⟩ = .ok (some q') ∧ q.1.model.params 0 = some (W, Bi) ∧
      q'.1.model.params 0 = some (W, Bi) := by
  intro x y
  obtain ⟨⟨sched, q, h⟩, ⟨sched', q', h'⟩, hs⟩ := C113_one_label exactEnv (fun _ => rfl) rfl ⟨1, 2, 2, 1⟩ ⟨1, 4, 3, 1⟩ 2 2 2 3 rfl rfl rfl rfl (by decide)
    (by decide) (by decide) (by decide) rfl (by decide)
    (by decide) (by decide) (copiesModel w) ⟨1, 1, 1⟩ [.full 2] (copiesModel_runs w) roundKinds_work (copiesModel_used w) [x, y] [y, x, x, y] rfl (by
      intro z hz
      simp only [List.mem_cons, List.not_mem_nil, or_false] at hz
      rcases hz with rfl | rfl
      · exact ⟨⟨fun _ _ _ => u, Matrix.Shows.of_vals ⟨by decide, by decide, by decide, by decide⟩ rfl (by simp [x])⟩, by simp [copiesModel, x]⟩
      · exact ⟨⟨fun _ _ _ => v, Matrix.Shows.of_vals ⟨by decide, by decide, by decide, by decide⟩ rfl (by simp [y])⟩, by simp [copiesModel, y]⟩) (by
      simp [x, y]) (by
      show [y, x, x, y].Perm [x, y, x, y]
      exact List.Perm.swap x y [x, y])
  obtain ⟨W, Bi, e1, e2⟩ := hs sched sched' q q' h h' 0 _ _ rfl
  exact ⟨sched, sched', q, q', W, Bi, h, h', e1, e2⟩

end Cnn
