import Verif.Model.Layers
/-!
# Concurrent calls of ConnectedLayer::propagateForward

The threads of ModelDescription.tpp:232-255 call `propagateForward` of the same layer without a lock. Here a call is cut
at its accesses to the shared layer; a schedule picks the thread that makes the next step. The loops over `weights` and
`biases` and the final product are one step each, which leaves out interleavings within them. In C++ unsynchronised
access to the members is a data race.
-/
namespace Cnn.FirstUse
variable {α : Type} [Zero α] [Add α] [Mul α] [Div α]

/-- Where a call stands (ConnectedLayer.cpp lines); `e` is the local `expected_size`. -/
inductive Pc (α : Type) where
  | size                       -- 51
  | test (e : Dim3)            -- 52
  | claim (e : Dim3)           -- 53
  | inputDim (e : Dim3)        -- 54
  | alloc (e : Dim3)           -- 57
  | fillW                      -- 58-60
  | fillB                      -- 61-63
  | normW                      -- 66
  | normB                      -- 67
  | compare (e : Dim3)         -- 73, 81-84
  | compute                    -- 86-90
  | done (r : Res (Matrix α))
  deriving DecidableEq, Repr

/-- A calling thread: its position, its argument and the random numbers it will draw. -/
structure Thread (α : Type) where
  pc : Pc α
  input : Matrix α
  draws : Nat → α

/-- Go on with `f a`, or end the call with the failure. -/
def next {β : Type} (L : Connected α) : Res β → (β → Pc α × Connected α) → Pc α × Connected α
  | .ok a, f => f a
  | .throw x, _ => (.done (.throw x), L)
  | .ub, _ => (.done .ub, L)
  | .abort, _ => (.done .abort, L)

/-- One step of a call: new position and new shared layer (ConnectedLayer.cpp:49-91). -/
def step (N : Num α) (L : Connected α) (t : Thread α) : Pc α × Connected α :=
  match t.pc with
  | .size => next L (L.expected t.input) fun e => (.test e, L)
  | .test e => (if L.initialized then .compare e else .claim e, L)
  | .claim e => (.inputDim e, { L with initialized := true })
  | .inputDim e => (.alloc e, { L with inputDim := t.input.dim })
  | .alloc e => next L (Matrix.ofDim e 0) fun W => (.fillW, { L with weights := W })
  | .fillW => next L (L.weights.fillDraws t.draws 0) fun W => (.fillB, { L with weights := W })
  | .fillB => next L (L.biases.fillDraws t.draws L.weights.vals.length) fun B => (.normW, { L with biases := B })
  | .normW => next L (L.weights.normalise N) fun W => (.normB, { L with weights := W })
  | .normB => next L (L.biases.normalise N) fun B => (.compute, { L with biases := B })
  | .compare e => (if L.weights.dim = e then .compute else .done (.throw .modelLayer), L)
  | .compute => (.done (L.compute t.input), L)
  | .done r => (.done r, L)

/-- The layer and the threads that call it. -/
structure State (α : Type) where
  layer : Connected α
  threads : List (Thread α)

/-- Thread `t` makes a step; a number that names no thread changes nothing. -/
def State.step (N : Num α) (s : State α) (t : Nat) : State α :=
  match s.threads[t]? with
  | some th =>
    let r := FirstUse.step N s.layer th
    ⟨r.2, s.threads.set t { th with pc := r.1 }⟩
  | none => s

def State.run (N : Num α) (s : State α) (sched : List Nat) : State α := sched.foldl (State.step N) s

/-- Threads about to call `propagateForward` with these inputs. -/
def start (L : Connected α) (calls : List (Matrix α × (Nat → α))) : State α :=
  ⟨L, calls.map fun c => ⟨.size, c.1, c.2⟩⟩

/-- What call `t` returned or threw, once it is over. -/
def State.result (s : State α) (t : Nat) : Option (Res (Matrix α)) :=
  match s.threads[t]? with
  | some th => match th.pc with
    | .done r => some r
    | _ => none
  | none => none

end Cnn.FirstUse
