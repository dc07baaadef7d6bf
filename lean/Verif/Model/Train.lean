import Verif.Model.Network
/-!
# Training (src/ModelDescription.tpp:215-295)

The worker threads of a batch are modelled by interleaving: a schedule is a list of thread numbers, and each step lets one
thread run up to its next access to something shared: taking a sample from the data source (under the mutex), a call of one
layer, storing the label in the output layer, counting a success. A call of a layer is one step; what two threads do
inside layer calls at the same time touches different batch slots, except for the label stored in the output layer (a step
of its own here) and for the first use of a fully connected layer (see Model/FirstUse.lean). Model/Overlap.lean lets calls
overlap, and C76 shows that nothing else comes of it. The two conflicts are data races, hence undefined in C++; the model gives them the mildest meaning, some order of the accesses.
-/
namespace Cnn

/-- DataGenerator.h:8-12 with `std::string` labels. -/
structure Sample (α : Type) where
  data : Matrix α
  label : List Char

/-- ModelDescription.h:44-49 `Hyperparameters`. -/
structure Hyper (α : Type) where
  rate : α
  batch : Int
  threads : Int
  epochs : Int

namespace Train

/-- ModelDescription.tpp:222: `const int work_count = std::ceil((float)batch_size / num_threads)`. -/
def workCount (batch threads : Int) : Res Int :=
  match F32.div (F32.ofInt batch) (F32.ofInt threads) with
  | none => .ub
  | some q => chk q.ceil

/-- ModelDescription.tpp:228: `const int num_batches = std::ceil((float)data_source.size() / batch_size)`. -/
def numBatches (size : Nat) (batch : Int) : Res Int :=
  match F32.div (F32.ofInt size) (F32.ofInt batch) with
  | none => .ub
  | some q => chk q.ceil

/-- ModelDescription.tpp:238-239: `start` and `cutoff` of thread `t`. -/
def workRange (work batch : Int) (t : Nat) : Res (Nat × Nat) := do
  let s ← chk (t * work)
  let e ← chk ((t + 1) * work)
  .ok (u64 s, u64 (min e batch))

/-- Where a worker thread is (ModelDescription.tpp:242-256); `slot` is `batch_idx`. -/
inductive Pc (α : Type) where
  /-- before the test of the loop -/
  | fetch (slot : Nat)
  /-- in `forwardPropagation`, before layer `i` -/
  | forward (slot : Nat) (x : Sample α) (i : Nat) (s : Matrix α × List (Matrix α))
  /-- before `backwardsPropagation` -/
  | label (slot : Nat) (x : Sample α) (r : Results α)
  /-- in `backwardsPropagation`, `n` layers still to do -/
  | backward (slot : Nat) (x : Sample α) (r : Results α) (n : Nat) (dLdz : Matrix α)
  /-- the thread has ended, `batch_idx` being `slot` -/
  | done (slot : Nat)

/-- What a step lets an observer see. -/
inductive Event (α : Type) where
  /-- thread `t` took sample `x` for batch slot `slot` -/
  | fetch (t slot : Nat) (x : Sample α)
  /-- thread `t` told the output layer the label of sample `x` -/
  | label (t slot : Nat) (x : Sample α)
  /-- the output layer back-propagated for sample `x` with the true label `used` -/
  | grad (t slot : Nat) (x : Sample α) (used : Nat)
  /-- thread `t` has processed sample `x` -/
  | finish (t slot : Nat) (x : Sample α)

/-- What the threads share: the model, the samples the source still has, `success_count`. -/
structure Shared (α : Type) where
  model : Model α
  source : List (Sample α)
  hits : Nat

section
variable {α : Type} [Zero α] [One α] [Add α] [Sub α] [Mul α] [Div α] [Neg α]

/-- The label index stored in the output layer. -/
def storedLabel (M : Model α) : Option Nat :=
  match M.layers.getLast?.map Layer.body with
  | some (.softmax S) => some S.trueLabel
  | _ => none

/-- The back-propagation of the output layer (layer `i` if it is the last) uses the label stored there. -/
def gradEvent (M : Model α) (t slot : Nat) (x : Sample α) (i : Nat) : List (Event α) :=
  if i + 1 = M.layers.length then
    match storedLabel M with
    | some l => [.grad t slot x l]
    | none => []
  else []

/-- One step of thread `t`, whose loop ends at `cutoff`. -/
def Pc.step (E : Env α) (t cutoff : Nat) (sh : Shared α) : Pc α → Res (Pc α × Shared α × List (Event α))
  | .fetch slot =>
    if slot < cutoff then
      match sh.source with
      | [] => .ok (.done slot, sh, [])
      | x :: rest => do
        let s ← Model.forwardBegin E x.data
        .ok (.forward slot x 0 s, { sh with source := rest }, [.fetch t slot x])
    else .ok (.done slot, sh, [])
  | .forward slot x i s =>
    if i < sh.model.layers.length then do
      let r ← Model.forwardStep E slot (s, sh.model) i
      .ok (.forward slot x (i + 1) r.1, { sh with model := r.2 }, [])
    else do
      let r ← Model.forwardEnd E sh.model s.1 s.2
      .ok (.label slot x r, sh, [])
  | .label slot x r => do
    let q ← sh.model.backwardBegin E r x.label
    .ok (.backward slot x q.1 sh.model.layers.length Matrix.empty, { sh with model := q.2 }, [.label t slot x])
  | .backward slot x r (i + 1) dLdz => do
    let q ← Model.backwardStep E r slot (dLdz, sh.model) i
    .ok (.backward slot x r i q.1, { sh with model := q.2 }, gradEvent sh.model t slot x i)
  | .backward slot x r 0 _ =>
    .ok (.fetch (slot + 1), { sh with hits := if some r.labelIdx = r.trueIdx then sh.hits + 1 else sh.hits },
      [.finish t slot x])
  | .done slot => .ok (.done slot, sh, [])

/-- An exception that leaves a thread function ends the program (`std::terminate`). -/
def terminate {β : Type} : Res β → Res β
  | .throw _ => .abort
  | r => r

/-- A running batch: the shared state and for each thread its `cutoff` and where it is. -/
structure Batch (α : Type) where
  shared : Shared α
  workers : List (Nat × Pc α)

/-- Thread `t` makes a step (nothing happens if there is no such thread). -/
def Batch.step (E : Env α) (s : Batch α) (t : Nat) : Res (Batch α × List (Event α)) :=
  match s.workers[t]? with
  | none => .ok (s, [])
  | some w => do
    let r ← terminate (w.2.step E t w.1 s.shared)
    .ok (⟨r.2.1, s.workers.set t (w.1, r.1)⟩, r.2.2)

/-- The threads run as the schedule says. -/
def Batch.run (E : Env α) : List Nat → Batch α → Res (Batch α × List (Event α))
  | [], s => .ok (s, [])
  | t :: ts, s => do
    let r ← s.step E t
    let q ← Batch.run E ts r.1
    .ok (q.1, r.2 ++ q.2)

/-- All threads have ended; only then `join` returns for all of them (ModelDescription.tpp:259-261). -/
def Batch.over (s : Batch α) : Bool := s.workers.all fun w => match w.2 with | .done _ => true | _ => false

/-- ModelDescription.tpp:231-257: the threads are started. -/
def startBatch (batch threads : Int) (sh : Shared α) : Res (Batch α) := do
  let w ← workCount batch threads
  let ws ← (List.range threads.toNat).mapM (fun t => do
    let r ← workRange w batch t
    .ok (r.2, Pc.fetch r.1))
  .ok ⟨sh, ws⟩

/-- ModelDescription.tpp:229-270: one batch under a schedule; `none` if the schedule ends before the threads do. -/
def runBatch (E : Env α) (p : Hyper α) (sched : List Nat) (sh : Shared α) : Res (Option (Shared α × List (Event α))) := do
  let s ← startBatch p.batch p.threads sh
  let r ← s.run E sched
  if r.1.over then do
    let M ← r.1.shared.model.applyBatch E.num p.rate
    .ok (some ({ r.1.shared with model := M }, r.2))
  else .ok none

/-- The loop over the batches, one schedule for each. -/
def runBatches (E : Env α) (p : Hyper α) : List (List Nat) → Shared α → Res (Option (Shared α × List (Event α)))
  | [], sh => .ok (some (sh, []))
  | c :: cs, sh => do
    match ← runBatch E p c sh with
    | none => .ok none
    | some r => do
      match ← runBatches E p cs r.1 with
      | none => .ok none
      | some q => .ok (some (q.1, r.2 ++ q.2))

/-- ModelDescription.tpp:215-278 `runEpoch` on a source of the reported size `size`: the vectors of threads and results are
allocated first; `none` if the schedules do not fit (one for each batch, each letting all threads end). -/
def runEpoch (E : Env α) (p : Hyper α) (size : Nat) (scheds : List (List Nat)) (sh : Shared α) :
    Res (Option (Shared α × List (Event α))) := do
  if p.threads < 0 then .throw .length
  else do
    let _ ← workCount p.batch p.threads
    if p.batch < 0 then .throw .length
    else do
      let n ← numBatches size p.batch
      if scheds.length = n.toNat then runBatches E p scheds { sh with hits := 0 } else .ok none

/-- ModelDescription.tpp:280-295 `train`: for each epoch the schedules and the samples the source serves after the previous
`reset`. The numbers of successes are in `report` (Accuracy.lean). -/
def train (E : Env α) (p : Hyper α) (size : Nat) (epochs : List (List (List Nat) × List (Sample α))) (M : Model α) :
    Res (Option (Model α)) := do
  let _ ← M.room p.batch
  if epochs.length = p.epochs.toNat then
    epochs.foldlM (fun (M : Option (Model α)) e =>
      match M with
      | none => .ok none
      | some M => do
        let r ← runEpoch E p size e.1 ⟨M, e.2, 0⟩
        .ok (r.map fun q => q.1.model)) (some (M.setBatchSize (u64 p.batch)))
  else .ok none

end
end Train
end Cnn
