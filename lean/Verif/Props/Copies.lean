import Verif.Lemmas.Still
import Verif.Lemmas.Copies
import Verif.Lemmas.NetDescent
import Verif.Props.NotANumber
import Verif.Props.Network
import Verif.Props.TrainUpdate
import Verif.Props.TrainLabels
import Mathlib.Algebra.CharZero.Defs
/-!
# Property C113: a batch in which each sample occurs several times
-/
namespace Cnn
open Model Train
variable {α : Type}

/-- C113 Two full batches trained from the same model `M`, the second with `k` copies of each sample of the first in any order and a batch size `k` times as large,
change the weights and biases alike, with any numbers of threads and any schedules, in exact arithmetic. Missing: schedules in which a gradient is computed with
the label of another sample (C52). -/
theorem C113_partial [Field α] [CharZero α] (E : Env α) (hE : ∀ n, E.num.ofNat n = (n : α)) (p p' : Hyper α) (B k T T' : Nat) (hp : p.batch = B)
    (hp' : p'.batch = (k * B : Nat)) (hq : p.threads = T) (hq' : p'.threads = T') (hr : p'.rate = p.rate) (hB : k * B < 2 ^ 24) (h0 : 0 < B) (hk : 0 < k)
    (M : Model α) (hM : (M.setBatchSize B).Prepared B) (hM' : (M.setBatchSize (k * B)).Prepared (k * B)) (xs ys : List (Sample α)) (hits hits' : Nat) (hx : B ≤ xs.length)
    (hy : (ys.take (k * B)).Perm (List.replicate k (xs.take B)).flatten)
    (sched sched' : List Nat) (q q' : Shared α × List (Event α)) (h : runBatch E p sched ⟨M.setBatchSize B, xs, hits⟩ = .ok (some q))
    (h' : runBatch E p' sched' ⟨M.setBatchSize (k * B), ys, hits'⟩ = .ok (some q')) (hown : OwnLabels (M.setBatchSize B) q.2)
    (hown' : OwnLabels (M.setBatchSize (k * B)) q'.2) (i : Nat) (W Bi : Matrix α) (hi : M.params i = some (W, Bi)) :
    ∃ W' B', q.1.model.params i = some (W', B') ∧ q'.1.model.params i = some (W', B') := by
  have hkB : 0 < k * B := Nat.mul_pos hk h0
  have hBk : B ≤ k * B := Nat.le_mul_of_pos_left B hk
  have hyl : k * B ≤ ys.length := by
    have := hy.length_eq
    simp only [List.length_take, List.length_flatten, List.map_replicate, List.sum_replicate, smul_eq_mul] at this
    rw [Nat.min_eq_left hx] at this
    omega
  obtain ⟨⟨X, Y, Z, w, hW⟩, F, b, hb⟩ := Prepared.sound hM ((setBatchSize_params M B i).trans hi)
  have hb : Bi.Shows F 1 1 (fun f _ _ => b f 0 0) := by
    refine hb.congr fun i _ j hj k hk => ?_
    obtain rfl : j = 0 := by omega
    obtain rfl : k = 0 := by omega
    rfl
  obtain ⟨g, c, a1, W1, B1, a2, a3, a4⟩ := C53_update_partial E p B T hp hq (by omega) ⟨M.setBatchSize B, xs, hits⟩ hM hx sched q h hown i W Bi X Y Z F
    w _ (by rw [setBatchSize_params]; exact hi) hW hb
  obtain ⟨g', c', a1', W2, B2, a2', a3', a4'⟩ := C53_update_partial E p' (k * B) T' hp' hq' hB ⟨M.setBatchSize (k * B), ys, hits'⟩ hM' hyl sched' q' h'
    hown' i W Bi X Y Z F w _ (by rw [setBatchSize_params]; exact hi) hW hb
  have hsame : ∀ x ∈ ys.take (k * B), (∀ a < X, ∀ b < Y, ∀ d < Z, g' x a b d = g x a b d) ∧ ∀ f < F, c' x f = c x f := by
    intro x hx'
    obtain ⟨G', H', o1', r1', r2'⟩ := a1' x hx'
    have hx : x ∈ xs.take B := by
      have := hy.mem_iff.1 hx'
      obtain ⟨l, hl, hm⟩ := List.mem_flatten.1 this
      rwa [List.eq_of_mem_replicate hl] at hm
    obtain ⟨G, H, o1, r1, r2⟩ := a1 x hx
    rw [ownGrads_setBatchSize E M h0] at o1
    rw [ownGrads_setBatchSize E M hkB, o1] at o1'
    obtain ⟨rfl, rfl⟩ := Prod.mk.inj (Option.some.inj o1')
    exact ⟨fun a ha b hb d hd => r1'.unique r1 a ha b hb d hd, fun f hf => r2'.unique r2 f hf 0 Nat.one_pos 0 Nat.one_pos⟩
  have hk' : (k : α) ≠ 0 := Nat.cast_ne_zero.2 (by omega)
  have hB' : (B : α) ≠ 0 := Nat.cast_ne_zero.2 (by omega)
  have hmean : ∀ f f' : Sample α → α, (∀ x ∈ ys.take (k * B), f' x = f x) →
      ((ys.take (k * B)).map f').sum / E.num.ofNat (k * B) = ((xs.take B).map f).sum / E.num.ofNat B := by
    intro f f' hf
    rw [List.map_congr_left hf, (hy.map f).sum_eq, sum_copies, hE, hE, Nat.cast_mul, mul_div_mul_left _ _ hk']
  refine ⟨W1, B1, a2, ?_⟩
  obtain rfl : W2 = W1 := Matrix.Shows.unique a3' (a3.congr fun a ha b hb d hd => by
    rw [hr, hmean (g · a b d) (g' · a b d) fun x hx => (hsame x hx).1 a ha b hb d hd])
  obtain rfl : B2 = B1 := Matrix.Shows.unique a4' (a4.congr fun f hf _ _ _ _ => by
    rw [hr, hmean (c · f) (c' · f) fun x hx => (hsame x hx).2 f hf])
  exact a2'

/-- C113 With one thread nothing is missing: networks whose layers fit together, any samples that fit. Both batches can be completed, and however they are, the
weights and biases are the same. Missing: several threads. -/
theorem C113_one_thread_partial [Field α] [CharZero α] (E : Env α) (hE : ∀ n, E.num.ofNat n = (n : α)) (hO : E.order = .dimsFirst) (p p' : Hyper α) (B k : Nat)
    (hp : p.batch = B) (hp' : p'.batch = (k * B : Nat)) (hq : p.threads = (1 : Nat)) (hq' : p'.threads = (1 : Nat)) (hr : p'.rate = p.rate) (hB : k * B < 2 ^ 24)
    (h0 : 0 < B) (hk : 0 < k) (M : Model α) (s : Shape) (ks : List LayerKind) (hM : M.Runs s ks) (hks : KindsWork true s ks) (hu : M.Used) (xs ys : List (Sample α))
    (hx : xs.length = B) (hfit : ∀ x ∈ xs, x.Fits s M.labels) (hy : ys.Perm (List.replicate k xs).flatten) :
    (∃ sched q, runBatch E p sched ⟨M.setBatchSize B, xs, 0⟩ = .ok (some q)) ∧ (∃ sched q, runBatch E p' sched ⟨M.setBatchSize (k * B), ys, 0⟩ = .ok (some q)) ∧
    ∀ sched sched' q q', runBatch E p sched ⟨M.setBatchSize B, xs, 0⟩ = .ok (some q) → runBatch E p' sched' ⟨M.setBatchSize (k * B), ys, 0⟩ = .ok (some q') →
      ∀ i W Bi, M.params i = some (W, Bi) → ∃ W' B', q.1.model.params i = some (W', B') ∧ q'.1.model.params i = some (W', B') := by
  have hkB : 0 < k * B := Nat.mul_pos hk h0
  have hBk : B ≤ k * B := Nat.le_mul_of_pos_left B hk
  have hyl : ys.length = k * B := by
    have := hy.length_eq
    simpa [hx] using this
  have hfit' : ∀ y ∈ ys, y.Fits s M.labels := by
    intro y hm
    obtain ⟨l, hl, hm⟩ := List.mem_flatten.1 (hy.mem_iff.1 hm)
    rw [List.eq_of_mem_replicate hl] at hm
    exact hfit y hm
  have hP : (M.setBatchSize B).Prepared B := (setBatchSize_shaped hM).prepared hks (setBatchSize_used hu B)
  refine ⟨runBatch_ends hO hks hp hq h0 (by omega) (by decide) (by decide) (sh := ⟨M.setBatchSize B, xs, 0⟩) ⟨setBatchSize_shaped hM, hfit, Or.inr hx.ge⟩,
    runBatch_ends hO hks hp' hq' hkB hB (by decide) (by decide) (sh := ⟨M.setBatchSize (k * B), ys, 0⟩) ⟨setBatchSize_shaped hM, hfit', Or.inr hyl.ge⟩, ?_⟩
  intro sched sched' q q' h h' i W Bi hi
  exact C113_partial E hE p p' B k 1 1 hp hp' hq hq' hr hB h0 hk M hP ((setBatchSize_shaped hM).prepared hks (setBatchSize_used hu _)) xs ys 0 0 hx.ge
    (by rw [List.take_of_length_le hx.le, List.take_of_length_le hyl.le]; exact hy) sched sched' q q' h h' (own_one (by omega) hp hq h) (own_one hB hp' hq' h') i W Bi hi

/-- A fully connected layer for two classes. -/
def copiesLayer (w : ℝ) : Connected ℝ :=
  { weights := ⟨dimN 2 1 1, [0, w]⟩, biases := ⟨dimN 2 1 1, [0, 0]⟩, inputDim := dimN 1 1 1, initialized := true, wGrads := [Matrix.empty],
    bGrads := [Matrix.empty] }

def copiesModel (w : ℝ) : Model ℝ :=
  { (Model.new : Model ℝ) with
    labels := ["a".toList, "b".toList]
    layers := [⟨[], .connected (copiesLayer w)⟩, ⟨[], .softmax (Softmax.new 2)⟩] }

theorem copiesModel_runs (w : ℝ) : (copiesModel w).Runs ⟨1, 1, 1⟩ [.full 2] := by
  refine ⟨rfl, ?_, ⟨_, _, rfl, rfl, rfl⟩, Or.inl rfl⟩
  intro i L k hL hk
  have hi : i < 1 := (List.getElem?_eq_some_iff.1 hk).1
  obtain rfl : i = 0 := by omega
  obtain rfl : LayerKind.full 2 = k := by simpa using hk
  obtain rfl : _ = L := by simpa [copiesModel] using hL
  refine Or.inl ⟨fun i _ => if i = 0 then 0 else w, fun _ => 0, ⟨?_, ?_, rfl⟩, Or.inl rfl⟩
  · refine Matrix.Shows.of_vals ⟨by omega, by decide, by omega, by decide⟩ rfl ?_
    simp [copiesLayer, List.range_succ, kindsOut]
  · refine Matrix.Shows.of_vals ⟨by omega, by omega, by omega, by omega⟩ rfl ?_
    simp [copiesLayer, List.range_succ]

theorem copiesModel_used (w : ℝ) : (copiesModel w).Used := by
  intro l hl L hL
  simp only [copiesModel, List.mem_cons, List.not_mem_nil, or_false] at hl
  rcases hl with rfl | rfl
  · obtain rfl : copiesLayer w = L := by simpa using hL
    rfl
  · simp at hL

/-- The samples x, y in a batch of two, and y, x, x, y in a batch of four. -/
example (w u v : ℝ) : let x : Sample ℝ := ⟨⟨dimN 1 1 1, [u]⟩, "a".toList⟩; let y : Sample ℝ := ⟨⟨dimN 1 1 1, [v]⟩, "b".toList⟩
    ∃ sched sched' q q' W Bi, runBatch exactEnv ⟨1, 2, 1, 1⟩ sched ⟨(copiesModel w).setBatchSize 2, [x, y], 0⟩ = .ok (some q) ∧
      runBatch exactEnv ⟨1, 4, 1, 1⟩ sched' ⟨(copiesModel w).setBatchSize 4, [y, x, x, y], 0⟩ = .ok (some q') ∧ q.1.model.params 0 = some (W, Bi) ∧
      q'.1.model.params 0 = some (W, Bi) := by
  intro x y
  obtain ⟨⟨sched, q, h⟩, ⟨sched', q', h'⟩, hs⟩ := C113_one_thread_partial exactEnv (fun _ => rfl) rfl ⟨1, 2, 1, 1⟩ ⟨1, 4, 1, 1⟩ 2 2 rfl rfl rfl rfl rfl (by decide)
    (by decide) (by decide) (copiesModel w) ⟨1, 1, 1⟩ [.full 2] (copiesModel_runs w) roundKinds_work (copiesModel_used w) [x, y] [y, x, x, y] rfl (by
      intro z hz
      simp only [List.mem_cons, List.not_mem_nil, or_false] at hz
      rcases hz with rfl | rfl
      · exact ⟨⟨fun _ _ _ => u, Matrix.Shows.of_vals ⟨by decide, by decide, by decide, by decide⟩ rfl (by simp [x])⟩, by simp [copiesModel, x]⟩
      · exact ⟨⟨fun _ _ _ => v, Matrix.Shows.of_vals ⟨by decide, by decide, by decide, by decide⟩ rfl (by simp [y])⟩, by simp [copiesModel, y]⟩) (by
      show [y, x, x, y].Perm [x, y, x, y]
      exact List.Perm.swap x y [x, y])
  obtain ⟨W, Bi, e1, e2⟩ := hs sched sched' q q' h h' 0 _ _ rfl
  exact ⟨sched, sched', q, q', W, Bi, h, h', e1, e2⟩

end Cnn
