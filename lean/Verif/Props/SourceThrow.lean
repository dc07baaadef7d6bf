import Verif.Props.Feed
import Verif.Lemmas.Throws
/-!
# Property C81, continued: data sources that throw

What happens depends on where the exception is thrown: `getNextDataPoint` is called by the threads, `reset` by the caller of `train`.
-/
namespace Cnn.Feed
open Train

variable {σ α : Type} [Zero α] [One α] [Add α] [Sub α] [Mul α] [Div α] [Neg α]

theorem run_reset (G : Source σ α) (f : Exec σ Unit) (E : Env α) (ts : List Nat) :
    ∀ s, Batch.run { G with reset := f } E ts s = Batch.run G E ts s := by
  induction ts with
  | nil => intro s; rfl
  | cons t ts ih =>
    intro s
    rw [Batch.run, Batch.run, show Batch.step { G with reset := f } E s t = Batch.step G E s t from rfl]
    cases Batch.step G E s t with
    | ok r => rw [Res.bind_ok, Res.bind_ok, ih]
    | _ => rfl

theorem runBatches_reset (G : Source σ α) (f : Exec σ Unit) (E : Env α) (p : Hyper α) (cs : List (List Nat)) :
    ∀ sh, runBatches { G with reset := f } E p cs sh = runBatches G E p cs sh := by
  induction cs with
  | nil => intro s; rfl
  | cons c cs ih =>
    intro s
    have h : runBatch { G with reset := f } E p c s = runBatch G E p c s := by
      unfold runBatch
      simp only [run_reset]
    rw [runBatches, runBatches, h]
    simp only [ih]

/-- C81: a data source whose `reset` throws. The first epoch is as with any other `reset`; if it ends, the exception reaches the
caller of `train`. -/
theorem C81_reset_throws (G : Source σ α) (E : Env α) (p : Hyper α) (f : Exec σ Unit) (e : Exc) (hf : ∀ g, (f g).1 = .throw e)
    (c : List (List Nat)) (M : Model α) (g : σ) (r : Model α × σ × List (Nat × Nat)) (h : Feed.train G E { p with epochs := 1 } [c] M g = .ok (some r))
    (cs : List (List (List Nat))) (hcs : cs.length + 1 = p.epochs.toNat) :
    Feed.train { G with reset := f } E p (c :: cs) M g = .throw e := by
  unfold Feed.train at h ⊢
  obtain ⟨u, hu, h⟩ := Res.bind_eq_ok h
  rw [show M.room p.batch = .ok u from hu, Res.bind_ok, if_pos (by rw [List.length_cons]; exact hcs)]
  rw [if_pos (by rfl)] at h
  unfold trainLoop at h ⊢
  have he : runEpoch { G with reset := f } E p c (M.setBatchSize (u64 p.batch)) g = runEpoch G E { p with epochs := 1 } c (M.setBatchSize (u64 p.batch)) g := by
    unfold runEpoch
    simp only [runBatches_reset]
    have hb : ∀ c sh, runBatches G E { p with epochs := 1 } c sh = runBatches G E p c sh := by
      intro c
      induction c with
      | nil => intro sh; rfl
      | cons c cs ih =>
        intro sh
        rw [runBatches, runBatches]
        simp only [ih]
        rfl
    simp only [hb]
  rw [he]
  obtain ⟨q, hq, h⟩ := Res.bind_eq_ok h
  rw [show runEpoch G E { p with epochs := 1 } c (M.setBatchSize (u64 p.batch)) g = .ok q from hq, Res.bind_ok]
  cases q with
  | none => cases h
  | some q =>
    show (call f q.1.gen >>= _) = _
    have : call f q.1.gen = .throw e := by
      unfold call
      have := hf q.1.gen
      generalize f q.1.gen = z at this ⊢
      obtain ⟨z, g'⟩ := z
      cases this
      rfl
    rw [this]
    rfl

/-- C81: a data source that says it has data and throws when asked for it. A thread does not catch the exception: the program ends
(`std::terminate`) as soon as the first thread asks. -/
theorem C81_next_throws (G : Source σ α) (E : Env α) (p : Hyper α) (B T : Nat) (hB0 : 0 < B) (hB : B < 2 ^ 24) (hT0 : 0 < T) (hT : T < 2147483648)
    (hp : p.batch = B) (hpT : p.threads = T) (M : Model α) (g : σ) (hg : G.size g < 2 ^ 24) (hhas : G.has g = true) (e : Exc) (hnext : (G.next g).1 = .throw e)
    (c : List Nat) (cs : List (List Nat)) (hc : cs.length + 1 = (G.size g + B - 1) / B) (ds : List (List (List Nat))) (hd : ds.length + 1 = p.epochs.toNat) :
    Feed.train G E p (((0 :: c) :: cs) :: ds) M g = .abort := by
  have hu : u64 p.batch = B := by rw [hp]; unfold u64; omega
  have hcall : call G.next g = .throw e := by
    unfold call
    generalize G.next g = z at hnext ⊢
    obtain ⟨z, g'⟩ := z
    cases hnext
    rfl
  have hrun : runBatch G E p (0 :: c) ⟨M.setBatchSize (u64 p.batch), g, 0⟩ = .abort := by
    have hshare : 0 < share B T := by unfold share; exact Nat.div_pos (by omega) hT0
    unfold runBatch
    rw [hp, hpT, startBatch_eq B T hB hT0 hT, Res.bind_ok, show u64 (B : Int) = B by rw [← hp]; exact hu]
    obtain ⟨T, rfl⟩ : ∃ j, T = j + 1 := ⟨T - 1, by omega⟩
    rw [Batch.run, Batch.step]
    simp only [List.range_succ_eq_map, List.map_cons, List.getElem?_cons_zero, Feed.step]
    rw [if_pos (by rw [Nat.zero_mul, Nat.zero_add, Nat.one_mul]; exact lt_min hshare hB0), if_pos hhas, hcall]
    rfl
  unfold Feed.train
  rw [Model.room_nonneg (by omega), Res.bind_ok, if_pos (by rw [List.length_cons]; exact hd), trainLoop]
  have hep : runEpoch G E p ((0 :: c) :: cs) (M.setBatchSize (u64 p.batch)) g = .abort := by
    unfold runEpoch
    rw [if_neg (by omega), hp, hpT, workCount_eq B T hB hT0, Res.bind_ok, if_neg (by omega), numBatches_eq (G.size g) B hg hB0, Res.bind_ok,
      if_pos (by rw [List.length_cons, hc]; rfl), runBatches]
    rw [← hp, hrun]
    rfl
  rw [hep]
  rfl

/-- A list whose `reset` throws: the training with one epoch of C81_reset_throws, and what two epochs do; a source that throws at once. -/
example : (Feed.train (ofList [toySample 1 2 "a", toySample 3 4 "b"]) toyEnv ⟨1, 2, 1, 1⟩ [[List.replicate 20 0]] (softmaxModel ["a".toList, "b".toList]) 0 >>= fun q =>
      .ok (q.map fun r => r.2)) = .ok (some (0, [(1, 2)])) ∧
    Feed.train { ofList [toySample 1 2 "a", toySample 3 4 "b"] with reset := fun g => (.throw .runtime, g) } toyEnv ⟨1, 2, 1, 2⟩
      (List.replicate 2 [List.replicate 20 0]) (softmaxModel ["a".toList, "b".toList]) 0 = .throw .runtime ∧
    Feed.train { ofList [toySample 1 2 "a", toySample 3 4 "b"] with next := fun g => (.throw .runtime, g) } toyEnv ⟨1, 2, 1, 2⟩
      (List.replicate 2 [List.replicate 20 0]) (softmaxModel ["a".toList, "b".toList]) 0 = .abort := by
  refine ⟨rfl, rfl, rfl⟩

end Cnn.Feed
