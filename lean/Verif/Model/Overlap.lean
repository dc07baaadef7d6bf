import Verif.Model.Train
/-!
# Training with overlapping layer calls (src/ModelDescription.tpp:215-295)

In Model/Train.lean a call of a layer is one step of a thread. Here it has a beginning and an end, other threads run in
between, and meanwhile

* the call may read the members of the layer (weights, biases, sizes) at any time: it works with the layer as it saw it last;
* the batch slot it works on (`affected_indices_[batch_idx]`, `weight_grads_[batch_idx]`, `bias_grads_[batch_idx]`) may hold anything.

At the end the slot holds what the call computed. Of the output layer a call reads the label only, once (Softmax.cpp:76-85), and writes
nothing; so its calls are single steps. The first use of a fully connected layer, which also writes the weights, is not modelled
here (see Model/FirstUse.lean).
-/
namespace Cnn

/-- `dst[b] = src[b]`. -/
def copySlot {β : Type} (b : Nat) (src dst : List β) : List β :=
  match src[b]? with
  | some a => dst.set b a
  | none => dst

/-- The layer `dst` with the contents of slot `b` of the layer `src` of the same class. -/
def Body.putSlot {α : Type} (b : Nat) (src dst : Body α) : Body α :=
  match dst, src with
  | .kernel K, .kernel K' => .kernel { K with wGrads := copySlot b K'.wGrads K.wGrads, bGrads := copySlot b K'.bGrads K.bGrads }
  | .pooling P, .pooling P' => .pooling { P with indices := copySlot b P'.indices P.indices }
  | .connected L, .connected L' => .connected { L with wGrads := copySlot b L'.wGrads L.wGrads, bGrads := copySlot b L'.bGrads L.bGrads }
  | B, _ => B

namespace Overlap
open Train

/-- What a scheduled thread does: go on; or, inside a call, read the layer again, or write anything into its slot. -/
inductive Act (α : Type) where
  | next
  | look
  | write (junk : Body α)

/-- A worker thread; `seen` is the layer as seen by the call it is in. -/
structure Worker (α : Type) where
  cutoff : Nat
  pc : Pc α
  seen : Option (Body α)

/-- A running batch. -/
structure Batch (α : Type) where
  shared : Shared α
  workers : List (Worker α)

section
variable {α : Type}

/-- Layer `i` unless it is an output layer. -/
def inner (M : Model α) (i : Nat) : Option (Body α) :=
  match M.layers[i]?.map Layer.body with
  | some (.softmax _) => none
  | o => o

/-- Where a layer is called (ModelDescription.tpp:171,210): the number of the layer and the batch slot. -/
def place : Pc α → Option (Nat × Nat)
  | .forward slot _ i _ => some (i, slot)
  | .backward slot _ _ (i + 1) _ => some (i, slot)
  | _ => none

/-- The layer call a thread is about to make or is in: the number of the layer, the batch slot, the layer as it is now. -/
def callAt (M : Model α) (p : Pc α) : Option (Nat × Nat × Body α) :=
  (place p).bind fun c => (inner M c.1).map fun B => (c.1, c.2, B)

variable [Zero α] [One α] [Add α] [Sub α] [Mul α] [Div α] [Neg α]

/-- The end of the call of layer `i` on slot `b`, which has worked with `seen` instead of the present state `cur` of the layer. -/
def finish (E : Env α) (t cutoff : Nat) (sh : Shared α) (p : Pc α) (i b : Nat) (seen cur : Body α) : Res (Pc α × Shared α × List (Event α)) := do
  let q ← p.step E t cutoff { sh with model := sh.model.setBody i seen }
  let l ← Res.ofOption q.2.1.model.layers[i]?
  .ok (q.1, { q.2.1 with model := sh.model.setBody i (l.body.putSlot b cur) }, q.2.2)

/-- Thread `t` does something. -/
def Batch.step (E : Env α) (s : Batch α) (t : Nat) (a : Act α) : Res (Batch α × List (Event α)) :=
  match s.workers[t]? with
  | none => .ok (s, [])
  | some w =>
    match callAt s.shared.model w.pc, w.seen, a with
    | none, _, .next => do
      let r ← terminate (w.pc.step E t w.cutoff s.shared)
      .ok (⟨r.2.1, s.workers.set t ⟨w.cutoff, r.1, none⟩⟩, r.2.2)
    | some c, none, .next => .ok (⟨s.shared, s.workers.set t ⟨w.cutoff, w.pc, some c.2.2⟩⟩, [])
    | some c, some B, .next => do
      let r ← terminate (finish E t w.cutoff s.shared w.pc c.1 c.2.1 B c.2.2)
      .ok (⟨r.2.1, s.workers.set t ⟨w.cutoff, r.1, none⟩⟩, r.2.2)
    | some c, some B, .look => .ok (⟨s.shared, s.workers.set t ⟨w.cutoff, w.pc, some (B.putSlot c.2.1 c.2.2)⟩⟩, [])
    | some c, some _, .write junk => .ok (⟨{ s.shared with model := s.shared.model.setBody c.1 (junk.putSlot c.2.1 c.2.2) }, s.workers⟩, [])
    | _, _, _ => .ok (s, [])

/-- The threads run as the schedule says. -/
def Batch.run (E : Env α) : List (Nat × Act α) → Batch α → Res (Batch α × List (Event α))
  | [], s => .ok (s, [])
  | a :: as, s => do
    let r ← s.step E a.1 a.2
    let q ← Batch.run E as r.1
    .ok (q.1, r.2 ++ q.2)

/-- All threads have ended. -/
def Batch.over (s : Batch α) : Bool := s.workers.all fun w => match w.pc with | .done _ => true | _ => false

/-- ModelDescription.tpp:229-270: as `Train.runBatch`. -/
def runBatch (E : Env α) (p : Hyper α) (sched : List (Nat × Act α)) (sh : Shared α) : Res (Option (Shared α × List (Event α))) := do
  let s ← startBatch p.batch p.threads sh
  let r ← (⟨s.shared, s.workers.map fun w => ⟨w.1, w.2, none⟩⟩ : Batch α).run E sched
  if r.1.over then do
    let M ← r.1.shared.model.applyBatch E.num p.rate
    .ok (some ({ r.1.shared with model := M }, r.2))
  else .ok none

/-- The loop over the batches. -/
def runBatches (E : Env α) (p : Hyper α) : List (List (Nat × Act α)) → Shared α → Res (Option (Shared α × List (Event α)))
  | [], sh => .ok (some (sh, []))
  | c :: cs, sh => do
    match ← runBatch E p c sh with
    | none => .ok none
    | some r => do
      match ← runBatches E p cs r.1 with
      | none => .ok none
      | some q => .ok (some (q.1, r.2 ++ q.2))

/-- ModelDescription.tpp:215-278 `runEpoch`. -/
def runEpoch (E : Env α) (p : Hyper α) (size : Nat) (scheds : List (List (Nat × Act α))) (sh : Shared α) :
    Res (Option (Shared α × List (Event α))) := do
  if p.threads < 0 then .throw .length
  else do
    let _ ← workCount p.batch p.threads
    if p.batch < 0 then .throw .length
    else do
      let n ← numBatches size p.batch
      if scheds.length = n.toNat then runBatches E p scheds { sh with hits := 0 } else .ok none

/-- ModelDescription.tpp:280-295 `train`. -/
def train (E : Env α) (p : Hyper α) (size : Nat) (epochs : List (List (List (Nat × Act α)) × List (Sample α))) (M : Model α) :
    Res (Option (Model α)) := do
  let _ ← M.room p.batch
  if epochs.length = p.epochs.toNat then
    epochs.foldlM (fun (M : Option (Model α)) e =>
      match M with
      | none => .ok none
      | some M => do
        let r ← runEpoch E p size e.1 ⟨M, e.2, 0⟩
        .ok (r.map fun q => q.1.model)) (some (M.setBatchSize (u64 p.batch)))
  else .ok none

end
end Overlap
end Cnn
