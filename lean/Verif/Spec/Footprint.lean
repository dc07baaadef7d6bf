import Verif.Model.Overlap
/-!
# Specification vocabulary for data races between training threads (C95)

The memory that training threads share, cut into locations, and which of them a step of a thread reads and writes, as in the source
text. A data race is a location that the next steps of two threads access, one of them writing, and that is neither protected by the
mutex nor atomic: nothing orders the two steps.
-/
namespace Cnn

/-- The parts of a layer. -/
inductive Part where
  /-- weights, biases, sizes, flags: all members but the following -/
  | params
  /-- element `b` of the vectors with an element for each slot of the batch: `weight_grads_`, `bias_grads_`, `affected_indices_` -/
  | slot (b : Nat)
  /-- Softmax.h:65-66: `knows_true_label_` and `true_label_idx_` -/
  | label
  deriving DecidableEq

/-- The locations. -/
inductive Loc where
  | layer (i : Nat) (p : Part)
  /-- the data source -/
  | source
  /-- `success_count` -/
  | hits
  deriving DecidableEq

/-- Accesses to the source are made under the mutex (ModelDescription.tpp:244-249); `success_count` is atomic (line 226). -/
def Loc.guarded : Loc → Prop
  | .layer _ _ => False
  | _ => True

section
variable {α : Type}

namespace Body

/-- The layer `dst` with a part of the layer `src` of the same class. -/
def copy (p : Part) (src dst : Body α) : Body α :=
  match p with
  | .slot b => src.putSlot b dst
  | .params =>
    match dst, src with
    | .kernel K, .kernel K' => .kernel { K' with wGrads := K.wGrads, bGrads := K.bGrads }
    | .pooling P, .pooling P' => .pooling { P' with indices := P.indices }
    | .connected L, .connected L' => .connected { L' with wGrads := L.wGrads, bGrads := L.bGrads }
    | .activation _, .activation A' => .activation A'
    | .softmax S, .softmax S' => .softmax { S with count := S'.count }
    | B, _ => B
  | .label =>
    match dst, src with
    | .softmax S, .softmax S' => .softmax { S with trueLabel := S'.trueLabel, knows := S'.knows }
    | B, _ => B

/-- What `propagateForward` reads (Kernel.cpp:105-126, Pooling.cpp:47-90, ConnectedLayer.cpp:80-91, Activation.cpp:60-69, Softmax.cpp:57-62). -/
def forwardReads (b : Nat) : Body α → List Part
  | .pooling _ => [.params, .slot b]
  | _ => [.params]

/-- What `propagateForward` writes; the first use of a fully connected layer makes its weights (ConnectedLayer.cpp:49-75). -/
def forwardWrites (b : Nat) : Body α → List Part
  | .pooling _ => [.slot b]
  | .connected L => if L.initialized then [] else [.params]
  | _ => []

/-- What `propagateBackward` reads (Kernel.cpp:131-228, Pooling.cpp:95-130, ConnectedLayer.cpp:96-135, Activation.cpp:74-90, Softmax.cpp:76-85). -/
def backwardReads (b : Nat) : Body α → List Part
  | .pooling _ => [.params, .slot b]
  | .softmax _ => [.label]
  | _ => [.params]

/-- What `propagateBackward` writes. -/
def backwardWrites (b : Nat) : Body α → List Part
  | .kernel _ => [.slot b]
  | .connected _ => [.slot b]
  | _ => []

end Body

namespace Train

/-- The state `dst` with the contents of a location of the state `src`. -/
def Shared.copy (src dst : Shared α) : Loc → Shared α
  | .source => { dst with source := src.source }
  | .hits => { dst with hits := src.hits }
  | .layer i p =>
    match src.model.layers[i]? with
    | none => dst
    | some l => { dst with model := { dst.model with layers := dst.model.layers.modify i fun k => { k with body := l.body.copy p k.body } } }

/-- The state `dst` with the contents of several locations of the state `src`. -/
def Shared.copies (src : Shared α) (ls : List Loc) (dst : Shared α) : Shared α := ls.foldr (fun l d => src.copy d l) dst

/-- What the next step of a thread reads; `assignTrueLabel` checks the label against the number of labels (Softmax.cpp:30-39). -/
def Pc.reads (cutoff : Nat) (M : Model α) : Pc α → List Loc
  | .fetch slot => if slot < cutoff then [.source] else []
  | .forward slot _ i _ => match M.layers[i]? with
    | some l => (l.body.forwardReads slot).map (.layer i)
    | none => []
  | .label _ _ _ => [.layer (M.layers.length - 1) .params]
  | .backward slot _ _ (i + 1) _ => match M.layers[i]? with
    | some l => (l.body.backwardReads slot).map (.layer i)
    | none => []
  | .backward _ _ _ 0 _ => [.hits]
  | .done _ => []

/-- What the next step of a thread writes. -/
def Pc.writes (cutoff : Nat) (M : Model α) : Pc α → List Loc
  | .fetch slot => if slot < cutoff then [.source] else []
  | .forward slot _ i _ => match M.layers[i]? with
    | some l => (l.body.forwardWrites slot).map (.layer i)
    | none => []
  | .label _ _ _ => [.layer (M.layers.length - 1) .label]
  | .backward slot _ _ (i + 1) _ => match M.layers[i]? with
    | some l => (l.body.backwardWrites slot).map (.layer i)
    | none => []
  | .backward _ _ _ 0 _ => [.hits]
  | .done _ => []

/-- The next step of a thread accesses a location. -/
def Touches (M : Model α) (w : Nat × Pc α) (l : Loc) : Prop := l ∈ w.2.reads w.1 M ∨ l ∈ w.2.writes w.1 M

/-- The next steps of two threads access a location and one of them writes it. -/
def Conflict (M : Model α) (v w : Nat × Pc α) (l : Loc) : Prop :=
  (l ∈ v.2.writes v.1 M ∧ Touches M w l) ∨ (l ∈ w.2.writes w.1 M ∧ Touches M v l)

/-- Threads `t` and `u` are about to access a location, one of them writing, and nothing orders the accesses. -/
def Batch.Races (s : Batch α) (t u : Nat) (l : Loc) : Prop :=
  t ≠ u ∧ ¬ l.guarded ∧ ∃ v w, s.workers[t]? = some v ∧ s.workers[u]? = some w ∧ Conflict s.shared.model v w l

/-- A thread is about to tell the output layer a label. -/
def Pc.Tells : Pc α → Prop
  | .label _ _ _ => True
  | _ => False

/-- A thread is about to back-propagate through the last of `n` layers. -/
def Pc.Asks (n : Nat) : Pc α → Prop
  | .backward _ _ _ m _ => m = n ∧ 0 < n
  | _ => False

end Train
end
end Cnn
