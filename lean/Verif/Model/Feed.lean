import Verif.Model.Train
/-!
# Training from a data source (include/cnn_from_scratch/DataGenerator.h, src/ModelDescription.tpp:215-295)

In Model/Train.lean the samples of an epoch are a list. Here they come from an object of a class derived from `DataGenerator`, as in the
code: a thread asks it for a sample when it needs one, and `train` resets it after each epoch.
-/
namespace Cnn.Feed
open Train

/-- DataGenerator.h:15-22: a data source whose objects have the states `σ`. `hasAvailableData` and `size` leave the object as it is. -/
structure Source (σ α : Type) where
  has : σ → Bool
  next : Exec σ (Sample α)
  size : σ → Nat
  reset : Exec σ Unit

/-- What the threads share: the model, the data source, `success_count`. -/
structure Shared (σ α : Type) where
  model : Model α
  gen : σ
  hits : Nat

/-- A running batch: the shared state and for each thread its `cutoff` and where it is. -/
structure Batch (σ α : Type) where
  shared : Shared σ α
  workers : List (Nat × Pc α)

/-- The result of a call on an object and the object afterwards; an exception goes on to the caller. -/
def call {σ β : Type} (m : Exec σ β) (g : σ) : Res (β × σ) :=
  match m g with
  | (.ok b, g') => .ok (b, g')
  | (.throw e, _) => .throw e
  | (.ub, _) => .ub
  | (.abort, _) => .abort

variable {σ α : Type} [Zero α] [One α] [Add α] [Sub α] [Mul α] [Div α] [Neg α]

/-- One step of thread `t`. Taking a sample (ModelDescription.tpp:242-248) is done under the mutex; no other step uses the data source. -/
def step (G : Source σ α) (E : Env α) (t cutoff : Nat) (sh : Shared σ α) : Pc α → Res (Pc α × Shared σ α × List (Event α))
  | .fetch slot =>
    if slot < cutoff then
      if G.has sh.gen then do
        let r ← call G.next sh.gen
        let s ← Model.forwardBegin E r.1.data
        .ok (.forward slot r.1 0 s, { sh with gen := r.2 }, [.fetch t slot r.1])
      else .ok (.done slot, sh, [])
    else .ok (.done slot, sh, [])
  | p => do
    let r ← p.step E t cutoff ⟨sh.model, [], sh.hits⟩
    .ok (r.1, { sh with model := r.2.1.model, hits := r.2.1.hits }, r.2.2)

/-- Thread `t` makes a step (nothing happens if there is no such thread). -/
def Batch.step (G : Source σ α) (E : Env α) (s : Batch σ α) (t : Nat) : Res (Batch σ α × List (Event α)) :=
  match s.workers[t]? with
  | none => .ok (s, [])
  | some w => do
    let r ← terminate (Feed.step G E t w.1 s.shared w.2)
    .ok (⟨r.2.1, s.workers.set t (w.1, r.1)⟩, r.2.2)

/-- The threads run as the schedule says. -/
def Batch.run (G : Source σ α) (E : Env α) : List Nat → Batch σ α → Res (Batch σ α × List (Event α))
  | [], s => .ok (s, [])
  | t :: ts, s => do
    let r ← s.step G E t
    let q ← Batch.run G E ts r.1
    .ok (q.1, r.2 ++ q.2)

/-- All threads have ended. -/
def Batch.over (s : Batch σ α) : Bool := s.workers.all fun w => match w.2 with | .done _ => true | _ => false

/-- ModelDescription.tpp:229-270: one batch under a schedule; `none` if the schedule ends before the threads do. -/
def runBatch (G : Source σ α) (E : Env α) (p : Hyper α) (sched : List Nat) (sh : Shared σ α) : Res (Option (Shared σ α × List (Event α))) := do
  let s ← startBatch p.batch p.threads ⟨sh.model, [], sh.hits⟩
  let r ← (⟨sh, s.workers⟩ : Batch σ α).run G E sched
  if r.1.over then do
    let M ← r.1.shared.model.applyBatch E.num p.rate
    .ok (some ({ r.1.shared with model := M }, r.2))
  else .ok none

/-- The loop over the batches, one schedule for each. -/
def runBatches (G : Source σ α) (E : Env α) (p : Hyper α) : List (List Nat) → Shared σ α → Res (Option (Shared σ α × List (Event α)))
  | [], sh => .ok (some (sh, []))
  | c :: cs, sh => do
    match ← runBatch G E p c sh with
    | none => .ok none
    | some r => do
      match ← runBatches G E p cs r.1 with
      | none => .ok none
      | some q => .ok (some (q.1, r.2 ++ q.2))

/-- ModelDescription.tpp:215-278 `runEpoch`. -/
def runEpoch (G : Source σ α) (E : Env α) (p : Hyper α) (scheds : List (List Nat)) (M : Model α) (g : σ) :
    Res (Option (Shared σ α × List (Event α))) := do
  if p.threads < 0 then .throw .length
  else do
    let _ ← workCount p.batch p.threads
    if p.batch < 0 then .throw .length
    else do
      let n ← numBatches (G.size g) p.batch
      if scheds.length = n.toNat then runBatches G E p scheds ⟨M, g, 0⟩ else .ok none

/-- ModelDescription.tpp:289-294: the loop over the epochs; for each what is printed about it: `success_count` and `data_source.size()`. -/
def trainLoop (G : Source σ α) (E : Env α) (p : Hyper α) : List (List (List Nat)) → Model α → σ → Res (Option (Model α × σ × List (Nat × Nat)))
  | [], M, g => .ok (some (M, g, []))
  | c :: cs, M, g => do
    match ← runEpoch G E p c M g with
    | none => .ok none
    | some q => do
      let g' ← call G.reset q.1.gen
      match ← trainLoop G E p cs q.1.model g'.2 with
      | none => .ok none
      | some r => .ok (some (r.1, r.2.1, (q.1.hits, G.size q.1.gen) :: r.2.2))

/-- ModelDescription.tpp:280-295 `train`; `none` if the schedules do not fit. -/
def train (G : Source σ α) (E : Env α) (p : Hyper α) (scheds : List (List (List Nat))) (M : Model α) (g : σ) :
    Res (Option (Model α × σ × List (Nat × Nat))) := do
  let _ ← M.room p.batch
  if scheds.length = p.epochs.toNat then trainLoop G E p scheds (M.setBatchSize (u64 p.batch)) g else .ok none

end Cnn.Feed
