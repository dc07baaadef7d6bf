import Verif.Model.Train
import Verif.Model.Mnist
import Verif.Model.Display
/-!
# `validate` (src/main.cpp:56-106)

The worker threads are modelled by interleaving as in Model/Train.lean: a step lets one thread run up to its next access to
something shared, which is reading an image (under the mutex), a call of one layer, adding to the atomic counter. Accuracy and times
printed are not modelled.
-/
namespace Cnn.Validate
open Mnist Train

/-- The entries of an image as the model computes with them. -/
def input {α : Type} (c : F32 → α) (X : Matrix F32) : Matrix α := ⟨X.dim, X.vals.map c⟩

/-- Where a thread is in its loop (main.cpp:77-86); `i` is the number of the image. -/
inductive Pc (α : Type) where
  /-- before the test of the loop -/
  | next (i : Int)
  /-- in `forwardPropagation`, before layer `k` -/
  | forward (i : Int) (im : Image) (k : Nat) (s : Matrix α × List (Matrix α))
  /-- the loop has ended -/
  | done (i : Int)

/-- Thread `t` has classified image `i`, read as `im`, as `label`. -/
structure Event where
  thread : Nat
  image : Int
  im : Image
  label : List Char

/-- What the threads share: the model, the reader, `correct_count`. -/
structure Shared (α : Type) where
  model : Model α
  db : Reader
  correct : Int

/-- Everything fixed while the threads run: the host, the conversion of `float` entries, `num_images`, `workers.size()`. -/
structure Setup (α : Type) where
  env : Env α
  conv : F32 → α
  big : Bool
  lim : Nat
  num : Int
  workers : Nat

section
variable {α : Type} [Zero α] [One α] [Add α] [Sub α] [Mul α] [Div α] [Neg α]

/-- One step of thread `t`. -/
def Pc.step (S : Setup α) (t : Nat) (sh : Shared α) : Pc α → Res (Pc α × Shared α × List Event)
  | .next i =>
    if i < S.num then
      match Reader.getImage S.big S.lim (u64 i) sh.db with
      | (.ok im, db) => do
        let s ← Model.forwardBegin S.env (input S.conv im.data)
        .ok (.forward i im 0 s, { sh with db := db }, [])
      | (.throw e, _) => .throw e
      | (.ub, _) => .ub
      | (.abort, _) => .abort
    else .ok (.done i, sh, [])
  | .forward i im k s =>
    if k < sh.model.layers.length then do
      let r ← Model.forwardStep S.env 0 (s, sh.model) k
      .ok (.forward i im (k + 1) r.1, { sh with model := r.2 }, [])
    else do
      let r ← Model.forwardEnd S.env sh.model s.1 s.2
      let l ← Res.ofOption sh.model.labels[r.labelIdx]?
      .ok (.next (wrap32 (i + S.workers)), { sh with correct := wrap32 (sh.correct + if l = natText im.label then 1 else 0) }, [⟨t, i, im, l⟩])
  | .done i => .ok (.done i, sh, [])

/-- The threads running. -/
structure State (α : Type) where
  shared : Shared α
  workers : List (Pc α)

/-- Thread `t` makes a step (nothing happens if there is no such thread); an exception ends the program. -/
def State.step (S : Setup α) (b : State α) (t : Nat) : Res (State α × List Event) :=
  match b.workers[t]? with
  | none => .ok (b, [])
  | some w => do
    let r ← terminate (w.step S t b.shared)
    .ok (⟨r.2.1, b.workers.set t r.1⟩, r.2.2)

/-- The threads run as the schedule says. -/
def State.run (S : Setup α) : List Nat → State α → Res (State α × List Event)
  | [], b => .ok (b, [])
  | t :: ts, b => do
    let r ← b.step S t
    let q ← State.run S ts r.1
    .ok (q.1, r.2 ++ q.2)

/-- All threads have ended. -/
def State.over (b : State α) : Bool := b.workers.all fun w => match w with | .done _ => true | _ => false

/-- main.cpp:66-77: the state when all threads have been started. -/
def start (n : Nat) (M : Model α) (db : Reader) : State α :=
  ⟨⟨M, db, 0⟩, (List.range n).map fun t : Nat => .next (wrap32 (t : Int))⟩

/-- main.cpp:58-90: the files are opened, the threads classify the images; `none` if the schedule ends before the threads
do. -/
def count (E : Env α) (conv : F32 → α) (big : Bool) (lim : Nat) (images labels : Option (List UInt8)) (threads : Int) (sched : List Nat)
    (M : Model α) : Res (Option (State α × List Event)) := do
  let db ← Reader.new big images labels
  if threads < 0 then .throw .length
  else do
    let r ← (start threads.toNat M db).run ⟨E, conv, big, lim, wrap32 db.numImages, threads.toNat⟩ sched
    .ok (if r.1.over then some r else none)

/-- The number a `float` is. -/
def value (a : F32) : ℚ := (a.num : ℚ) / a.den

/-- main.cpp:96: `int idx = (double)(rand())/RAND_MAX * num_images`, where `rand()` has given `r`; `r64` is the rounding of `double`s. The
integers are converted exactly. -/
def pick (r64 : ℚ → ℚ) (randMax r : Nat) (num : Int) : Res Int :=
  let q := r64 (r64 (r / randMax) * num)
  if -2147483649 < q ∧ q < 2147483648 then .ok (if 0 ≤ q then q.floor else q.ceil) else .ub

/-- What is printed about an image: the label found, the true one, the picture, and from `operator<<` (main.cpp:39-51; the results have no
true label here) the index of the label found and the confidence. -/
structure Shown (α : Type) where
  found : List Char
  actual : Nat
  picture : List (List (List Nat))
  index : Nat
  confidence : α

/-- What is not determined about this part: the roundings, `RAND_MAX`. -/
structure Chance where
  r32 : ℚ → ℚ
  r64 : ℚ → ℚ
  randMax : Nat

/-- main.cpp:95-104: the body of the loop, `rand()` giving `r`. -/
def inspect (E : Env α) (conv : F32 → α) (big : Bool) (lim : Nat) (K : Chance) (num : Int) (st : Model α × Reader) (r : Nat) :
    Res (Shown α × Model α × Reader) := do
  let idx ← pick K.r64 K.randMax r num
  match Reader.getImage big lim (u64 idx) st.2 with
  | (.ok im, db) => do
    let p ← st.1.forwardPropagation E (input conv im.data) 0
    let l ← Res.ofOption p.2.labels[p.1.labelIdx]?
    let pic ← Image.print K.r32 K.r64 (input value im.data)
    .ok (⟨l, im.label, pic, p.1.labelIdx, p.1.confidence⟩, p.2, db)
  | (.throw e, _) => .throw e
  | (.ub, _) => .ub
  | (.abort, _) => .abort

/-- main.cpp:95: the loop, for the given random numbers (the code takes five). -/
def inspectAll (E : Env α) (conv : F32 → α) (big : Bool) (lim : Nat) (K : Chance) (num : Int) : List Nat → Model α × Reader →
    Res (List (Shown α) × Model α × Reader)
  | [], st => .ok ([], st)
  | r :: rs, st => do
    let a ← inspect E conv big lim K num st r
    let b ← inspectAll E conv big lim K num rs a.2
    .ok (a.1 :: b.1, b.2)

/-- main.cpp:56-106 `validate`: `correct_count`, what is printed about the images picked, and the model afterwards. -/
def validate (E : Env α) (conv : F32 → α) (big : Bool) (lim : Nat) (K : Chance) (images labels : Option (List UInt8)) (threads : Int)
    (sched rands : List Nat) (M : Model α) : Res (Option (Int × List (Shown α) × Model α)) := do
  match ← count E conv big lim images labels threads sched M with
  | none => .ok none
  | some r => do
    let q ← inspectAll E conv big lim K (wrap32 r.1.shared.db.numImages) rands (r.1.shared.model, r.1.shared.db)
    .ok (some (r.1.shared.correct, q.1, q.2.1))

end
end Cnn.Validate
