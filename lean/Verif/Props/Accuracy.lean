import Verif.Lemmas.AccuracyRun
import Verif.Props.Train
/-!
# Property C79: the accuracy reported by training

For each epoch `train` prints the percentage of the samples which the model classified correctly. What is counted is what the
model, used alone, would have answered at the beginning of the batch the sample was in, whatever slot, thread and schedule.
-/
namespace Cnn
namespace Train
variable {α : Type} [Zero α] [One α] [Add α] [Sub α] [Mul α] [Div α] [Neg α]

/-- C79 What a model whose layers have been used answers does not depend on the batch slot. -/
theorem C79_slot (E : Env α) (M : Model α) (hM : M.Used) (X : Matrix α) (b c : Nat) (r q : Results α) (M' M'' : Model α)
    (h : M.forwardPropagation E X b = .ok (r, M')) (h' : M.forwardPropagation E X c = .ok (q, M'')) : r = q := by
  refine Model.forwardPropagation_slot (fun l hl => ?_) h h'
  have := hM l hl
  revert this
  generalize l.body = y
  cases y <;> intro h <;> first | exact h _ rfl | trivial

/-- C79 for one batch, with a call of a layer as one step of a thread: the samples counted are those of the batch which the model
classifies correctly. What is missing: two threads inside the first call of a fully connected layer (C56). -/
theorem C79_batch_partial (E : Env α) (hE : E.order = .dimsFirst) (p : Hyper α) (B T : Nat) (hp : p.batch = B) (hq : p.threads = T)
    (h0 : 0 < B) (hB : B < 2 ^ 24) (hT0 : 0 < T) (hT : T < 2147483648) (M : Model α) (s : Shape) (ks : List LayerKind)
    (hM : M.Runs s ks) (hk : KindsWork true s ks) (hs : M.Sized B) (source : List (Sample α)) (hx : ∀ x ∈ source, x.Fits s M.labels)
    (hfull : B ≤ source.length) (sched : List Nat) (n : Nat) (sh : Shared α) (evs : List (Event α))
    (h : runBatch E p sched ⟨M, source, n⟩ = .ok (some (sh, evs))) : sh.hits = n + M.score E (source.take B) :=
  (runBatch_score hE hk hp hq h0 hB hT0 hT (sh := ⟨M, source, n⟩) ⟨hM.shaped hs, hx, Or.inr hfull⟩ h).1

/-- C79 for one epoch: the samples counted are those which are classified correctly at the beginning of their batch, and no more
than the source served. What is missing: see `C79_batch_partial`. -/
theorem C79_epoch_partial (E : Env α) (hE : E.order = .dimsFirst) (p : Hyper α) (B T : Nat) (hp : p.batch = B) (hq : p.threads = T)
    (h0 : 0 < B) (hB : B < 2 ^ 24) (hT0 : 0 < T) (hT : T < 2147483648) (size : Nat) (hsz : size < 2 ^ 24) (M : Model α) (s : Shape)
    (ks : List LayerKind) (hM : M.Runs s ks) (hk : KindsWork true s ks) (hs : M.Sized B) (source : List (Sample α))
    (hx : ∀ x ∈ source, x.Fits s M.labels) (hfull : B ≤ source.length) (scheds : List (List Nat)) (n : Nat) (sh : Shared α)
    (evs : List (Event α)) (h : runEpoch E p size scheds ⟨M, source, n⟩ = .ok (some (sh, evs))) :
    sh.hits = epochScore E p scheds M source ∧ sh.hits ≤ source.length := by
  have := runEpoch_score hE hk hp hq h0 hB hT0 hT hsz (sh := ⟨M, source, n⟩) ⟨hM.shaped hs, hx, Or.inr hfull⟩ h
  exact ⟨this, this ▸ epochScore_le⟩

/-- C79 for a training: one number for each epoch, the number of samples classified correctly at the beginning of their batch.
What is missing: see `C79_batch_partial`. -/
theorem C79_train_partial (E : Env α) (hE : E.order = .dimsFirst) (p : Hyper α) (B T : Nat) (hp : p.batch = B) (hq : p.threads = T)
    (h0 : 0 < B) (hB : B < 2 ^ 24) (hT0 : 0 < T) (hT : T < 2147483648) (size : Nat) (hs0 : 0 < size) (hsz : size < 2 ^ 24)
    (M : Model α) (s : Shape) (ks : List LayerKind) (hM : M.Runs s ks) (hk : KindsWork true s ks)
    (epochs : List (List (List Nat) × List (Sample α))) (hx : ∀ e ∈ epochs, ∀ x ∈ e.2, x.Fits s M.labels)
    (hfull : ∀ e ∈ epochs.head?, B ≤ e.2.length) (M' : Model α) (counts : List Nat)
    (h : report E p size epochs M = .ok (some (M', counts))) :
    train E p size epochs M = .ok (some M') ∧ counts = epochScores E p size epochs (M.setBatchSize B) ∧ counts.length = epochs.length ∧
    ∀ (i n : Nat) (e : List (List Nat) × List (Sample α)), counts[i]? = some n → epochs[i]? = some e → n ≤ e.2.length := by
  have ht := report_train E p size epochs M
  rw [h, Res.bind_ok] at ht
  have hu : u64 p.batch = B := by rw [hp]; exact u64_nat (by omega)
  unfold report at h
  rw [Model.room_nonneg (by omega), Res.bind_ok] at h
  by_cases hl : epochs.length = p.epochs.toNat
  · rw [if_pos hl, hu] at h
    have hc := reportLoop_score hE hk hp hq h0 hB hT0 hT hs0 hsz (Model.setBatchSize_shaped hM) hx (Or.inr hfull) h
    refine ⟨ht.symm, hc, reportLoop_length h, fun i n e hn he => ?_⟩
    dsimp only at hc
    rw [hc] at hn
    obtain ⟨e', he', hle⟩ := epochScores_length hn
    rw [he] at he'
    exact Option.some.inj he' ▸ hle
  · rw [if_neg hl] at h
    exact absurd (Res.ok.inj h) (by simp)

/-- C79 in full for one thread. -/
theorem C79_one_thread (E : Env α) (hE : E.order = .dimsFirst) (p : Hyper α) (B : Nat) (hp : p.batch = B) (hq : p.threads = 1)
    (h0 : 0 < B) (hB : B < 2 ^ 24) (size : Nat) (hs0 : 0 < size) (hsz : size < 2 ^ 24)
    (M : Model α) (s : Shape) (ks : List LayerKind) (hM : M.Runs s ks) (hk : KindsWork true s ks)
    (epochs : List (List (List Nat) × List (Sample α))) (hx : ∀ e ∈ epochs, ∀ x ∈ e.2, x.Fits s M.labels)
    (hfull : ∀ e ∈ epochs.head?, B ≤ e.2.length) (M' : Model α) (counts : List Nat)
    (h : report E p size epochs M = .ok (some (M', counts))) :
    train E p size epochs M = .ok (some M') ∧ counts = epochScores E p size epochs (M.setBatchSize B) ∧ counts.length = epochs.length :=
  have h := C79_train_partial E hE p B 1 hp hq h0 hB (by decide) (by decide) size hs0 hsz M s ks hM hk epochs hx hfull M' counts h
  ⟨h.1, h.2.1, h.2.2.1⟩

/-- C79 Whenever the training ends, there is such a report. -/
theorem C79_reported (E : Env α) (p : Hyper α) (size : Nat) (epochs : List (List (List Nat) × List (Sample α))) (M M' : Model α)
    (h : train E p size epochs M = .ok (some M')) : ∃ counts, report E p size epochs M = .ok (some (M', counts)) := by
  rw [← report_train] at h
  obtain ⟨o, e, h⟩ := Res.bind_eq_ok h
  obtain ⟨r, rfl, rfl⟩ := Option.map_eq_some_iff.1 (Res.ok.inj h)
  exact ⟨r.2, e⟩

/-- C79 The percentage printed is between 0 and 100, and 100 exactly if all were successes, for a source that serves what it says. -/
theorem C79_percent (successes size : Nat) (h0 : 0 < size) (h : successes ≤ size) :
    ∃ a, percent successes size = some a ∧ 0 ≤ a ∧ a ≤ 100 ∧ (a = 100 ↔ successes = size) := by
  have hp : (0 : Rat) < size := by exact_mod_cast h0
  have hs : (successes : Rat) ≤ size := by exact_mod_cast h
  have hn : (0 : Rat) ≤ successes := by exact_mod_cast Nat.zero_le successes
  refine ⟨_, if_neg (by omega), by positivity, ?_, ?_⟩
  · rw [div_le_iff₀ hp]; linarith
  · rw [div_eq_iff hp.ne']
    constructor
    · intro h
      have : (successes : Rat) = size := by linarith
      exact_mod_cast this
    · rintro rfl; rfl

/-! Two epochs of two batches of two on two threads. -/

theorem softmaxModel_runs : (softmaxModel ["a".toList, "b".toList] : Model Int).Runs ⟨2, 1, 1⟩ [] :=
  ⟨rfl, fun i L k _ h => by simp at h, ⟨_, _, rfl, rfl, rfl⟩, Or.inl rfl⟩

example : (report toyEnv ⟨1, 2, 2, 2⟩ 3
      [([[0, 1, 0, 1, 1, 0, 0, 1, 0, 1, 0, 1, 0, 1], [1, 0, 0, 1, 1, 1, 1, 1, 1, 1]], [toySample 1 2 "b", toySample 3 4 "b", toySample 5 6 "a"]),
       ([[0, 1, 0, 1, 1, 0, 0, 1, 0, 1, 0, 1, 0, 1], [1, 0, 0, 1, 1, 1, 1, 1, 1, 1]], [toySample 1 2 "a", toySample 3 4 "b", toySample 5 6 "a"])]
      (softmaxModel ["a".toList, "b".toList]) >>= fun q => .ok (q.map Prod.snd)) = .ok (some [1, 2]) := by rfl

end Train
end Cnn
