import Verif.Lemmas.Throws
import Verif.Props.Train
/-!
# Property C86: exceptions during training
-/
namespace Cnn
open Train

variable {α : Type} [Zero α] [One α] [Add α] [Sub α] [Mul α] [Div α] [Neg α]

/-- C86 as one would have it: if `forwardPropagation` throws for the only sample, then so does training on it, so that the caller can
handle the exception (`.ok none`: the schedule ends before the thread does). -/
def C86_claim : Prop := ∀ (E : Env Int) (p : Hyper Int) (M : Model Int) (x : Sample Int) (e : Exc), p.batch = 1 → p.threads = 1 → p.epochs = 1 →
  (M.setBatchSize 1).forwardPropagation E x.data 0 = .throw e →
  ∀ sched, train E p 1 [([sched], [x])] M = .throw e ∨ train E p 1 [([sched], [x])] M = .ok none

/-- C86: whatever the threads, schedules and samples, the only exceptions that reach the caller of `train` are `std::length_error`
and `MatrixSizeException`: those of the vectors of a negative size and of the update after a batch. None of the exceptions the
layers throw while a sample is processed does. -/
theorem C86_exceptions (E : Env α) (p : Hyper α) (size : Nat) (epochs : List (List (List Nat) × List (Sample α))) (M : Model α) (e : Exc)
    (h : train E p size epochs M = .throw e) : e = .length ∨ e = .matrixSize :=
  train_throws E p size epochs M e h

/-- C86: the threads of a batch never hand an exception to the thread that waits for them. -/
theorem C86_threads (E : Env α) (sched : List Nat) (s : Batch α) (e : Exc) : s.run E sched ≠ .throw e :=
  fun h => run_throws (S := fun _ => False) E sched s e h

/-- C86: if `forwardPropagation` throws for the first sample and the first thread gets to work on it before the others do anything,
the program is ended by `std::terminate`, for any number of threads. -/
theorem C86_terminates (E : Env α) (p : Hyper α) (B T : Nat) (hB0 : 0 < B) (hB : B < 2 ^ 24) (hT0 : 0 < T) (hT : T < 2147483648)
    (hp : p.batch = B) (hpT : p.threads = T) (size : Nat) (hs : size < 2 ^ 24) (x : Sample α) (xs : List (Sample α)) (M : Model α) (e : Exc)
    (h : (M.setBatchSize B).forwardPropagation E x.data 0 = .throw e) (k : Nat) (hk : M.layers.length + 2 ≤ k) (rest : List Nat) (cs : List (List Nat))
    (epochs : List (List (List Nat) × List (Sample α))) (hc : cs.length + 1 = (size + B - 1) / B) (he : epochs.length + 1 = p.epochs.toNat) :
    train E p size (((List.replicate k 0 ++ rest) :: cs, x :: xs) :: epochs) M = .abort :=
  train_terminates hB0 hB hT0 hT hp hpT hs h hk hc he

/-- A network whose convolution expects one channel. -/
def oneChannel : Model Int :=
  { (Model.new : Model Int) with
    labels := ["a".toList]
    layers := [⟨[], .kernel ⟨⟨1, 1, 1⟩, 1, 1, ⟨⟨1, 1, 1⟩, [1]⟩, ⟨⟨1, 1, 1⟩, [0]⟩, [], []⟩⟩, ⟨[], .softmax (Softmax.new 1)⟩] }

/-- A sample with two channels. -/
def twoChannels : Sample Int := ⟨⟨⟨1, 1, 2⟩, [1, 2]⟩, "a".toList⟩

/-- The direct call throws an exception that can be caught. -/
theorem oneChannel_throws : (oneChannel.setBatchSize 1).forwardPropagation toyEnv twoChannels.data 0 = .throw .modelLayer := by rfl

/-- C86 violated: training on it ends the program. -/
theorem C86_violated : ¬ C86_claim := by
  intro h
  have a := C86_terminates toyEnv ⟨1, 1, 1, 1⟩ 1 1 (by decide) (by decide) (by decide) (by decide) rfl rfl 1 (by decide) twoChannels [] oneChannel _
    oneChannel_throws 4 (by decide) [] [] [] (by decide) (by decide)
  rcases h toyEnv ⟨1, 1, 1, 1⟩ oneChannel twoChannels _ rfl rfl rfl oneChannel_throws (List.replicate 4 0 ++ []) with b | b <;>
    rw [a] at b <;> cases b

/-- Exceptions that do reach the caller: a negative number of threads, and a first batch that is short. -/
example : train toyEnv ⟨1, 1, -1, 1⟩ 1 [([[]], [])] oneChannel = .throw .length := by rfl
example : train toyEnv ⟨1, 2, 1, 1⟩ 1 [([[0]], [])] oneChannel = .throw .matrixSize := by rfl

end Cnn
