import Verif.Model.Train
import Verif.Model.FirstUse
/-!
# Training in which forward calls of fully connected layers overlap (src/ModelDescription.tpp:215-295)

In Model/Train.lean a call of a layer is one step of a thread. Here the forward call of a fully connected layer is cut at its accesses to
the layer, as in Model/FirstUse.lean (ConnectedLayer.cpp:49-91); all other steps are as before. So this model includes what happens when
several threads are inside the first call of such a layer.
-/
namespace Cnn.Race
open Train

/-- A worker thread; `call` says how far it is in the call of a fully connected layer. -/
structure Worker (α : Type) where
  cutoff : Nat
  pc : Pc α
  call : Option (FirstUse.Pc α)

/-- A running batch. -/
structure Batch (α : Type) where
  shared : Shared α
  workers : List (Worker α)

/-- A forward call of a fully connected layer. -/
structure Call (α : Type) where
  slot : Nat
  sample : Sample α
  layer : Nat
  data : Matrix α × List (Matrix α)
  state : Connected α

/-- The forward call of a fully connected layer a thread is about to make or is in (ModelDescription.tpp:171). -/
def callOf {α : Type} (M : Model α) : Pc α → Option (Call α)
  | .forward slot x i s =>
    match M.layers[i]?.map Layer.body with
    | some (.connected L) => some ⟨slot, x, i, s, L⟩
    | _ => none
  | _ => none

variable {α : Type} [Zero α] [One α] [Add α] [Sub α] [Mul α] [Div α] [Neg α]

/-- A step of thread `t` inside a call `c`; at its end the output is recorded (ModelDescription.tpp:172). Every thread has its own random
numbers `rnd t i` for layer `i`. -/
def callStep (E : Env α) (rnd : Nat → Nat → Nat → α) (t : Nat) (w : Worker α) (sh : Shared α) (c : Call α) :
    Res (Worker α × Shared α × List (Event α)) :=
  let q := FirstUse.step E.num c.state ⟨w.call.getD .size, c.data.1, rnd t c.layer⟩
  let sh' := { sh with model := sh.model.setBody c.layer (.connected q.2) }
  match q.1 with
  | .done r => do
    let out ← r
    let R ← Model.record E out
    .ok (⟨w.cutoff, .forward c.slot c.sample (c.layer + 1) (out, c.data.2 ++ [R]), none⟩, sh', [])
  | pc => .ok (⟨w.cutoff, w.pc, some pc⟩, sh', [])

/-- One step of thread `t`. -/
def Worker.step (E : Env α) (rnd : Nat → Nat → Nat → α) (t : Nat) (w : Worker α) (sh : Shared α) : Res (Worker α × Shared α × List (Event α)) :=
  match callOf sh.model w.pc with
  | some c => callStep E rnd t w sh c
  | none => do
    let r ← w.pc.step E t w.cutoff sh
    .ok (⟨w.cutoff, r.1, none⟩, r.2.1, r.2.2)

/-- Thread `t` makes a step. -/
def Batch.step (E : Env α) (rnd : Nat → Nat → Nat → α) (s : Batch α) (t : Nat) : Res (Batch α × List (Event α)) :=
  match s.workers[t]? with
  | none => .ok (s, [])
  | some w => do
    let r ← terminate (w.step E rnd t s.shared)
    .ok (⟨r.2.1, s.workers.set t r.1⟩, r.2.2)

/-- The threads run as the schedule says. -/
def Batch.run (E : Env α) (rnd : Nat → Nat → Nat → α) : List Nat → Batch α → Res (Batch α × List (Event α))
  | [], s => .ok (s, [])
  | t :: ts, s => do
    let r ← s.step E rnd t
    let q ← Batch.run E rnd ts r.1
    .ok (q.1, r.2 ++ q.2)

/-- All threads have ended. -/
def Batch.over (s : Batch α) : Bool := s.workers.all fun w => match w.pc with | .done _ => true | _ => false

/-- The threads are started (ModelDescription.tpp:231-257). -/
def start (s : Train.Batch α) : Batch α := ⟨s.shared, s.workers.map fun w => ⟨w.1, w.2, none⟩⟩

/-- ModelDescription.tpp:229-270: as `Train.runBatch`. -/
def runBatch (E : Env α) (rnd : Nat → Nat → Nat → α) (p : Hyper α) (sched : List Nat) (sh : Shared α) : Res (Option (Shared α × List (Event α))) := do
  let s ← startBatch p.batch p.threads sh
  let r ← (start s).run E rnd sched
  if r.1.over then do
    let M ← r.1.shared.model.applyBatch E.num p.rate
    .ok (some ({ r.1.shared with model := M }, r.2))
  else .ok none

/-- The loop over the batches. -/
def runBatches (E : Env α) (rnd : Nat → Nat → Nat → α) (p : Hyper α) : List (List Nat) → Shared α → Res (Option (Shared α × List (Event α)))
  | [], sh => .ok (some (sh, []))
  | c :: cs, sh => do
    match ← runBatch E rnd p c sh with
    | none => .ok none
    | some r => do
      match ← runBatches E rnd p cs r.1 with
      | none => .ok none
      | some q => .ok (some (q.1, r.2 ++ q.2))

/-- ModelDescription.tpp:215-278 `runEpoch`. -/
def runEpoch (E : Env α) (rnd : Nat → Nat → Nat → α) (p : Hyper α) (size : Nat) (scheds : List (List Nat)) (sh : Shared α) :
    Res (Option (Shared α × List (Event α))) := do
  if p.threads < 0 then .throw .length
  else do
    let _ ← workCount p.batch p.threads
    if p.batch < 0 then .throw .length
    else do
      let n ← numBatches size p.batch
      if scheds.length = n.toNat then runBatches E rnd p scheds { sh with hits := 0 } else .ok none

/-- ModelDescription.tpp:280-295 `train`. -/
def train (E : Env α) (rnd : Nat → Nat → Nat → α) (p : Hyper α) (size : Nat) (epochs : List (List (List Nat) × List (Sample α))) (M : Model α) :
    Res (Option (Model α)) := do
  let _ ← M.room p.batch
  if epochs.length = p.epochs.toNat then
    epochs.foldlM (fun (M : Option (Model α)) e =>
      match M with
      | none => .ok none
      | some M => do
        let r ← runEpoch E rnd p size e.1 ⟨M, e.2, 0⟩
        .ok (r.map fun q => q.1.model)) (some (M.setBatchSize (u64 p.batch)))
  else .ok none

end Cnn.Race
