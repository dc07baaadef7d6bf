import Verif.Model.Validate
import Verif.Model.Feed
/-!
# The program (src/main.cpp:147-196)

The exceptions a program does not catch end it. Console output and the timer are not modelled.
-/
namespace Cnn.Main
open Mnist Train

section
variable {α : Type} [Zero α] [One α] [Add α] [Sub α] [Mul α] [Div α] [Neg α]

/-- main.cpp:164. -/
def labels : List (List Char) := ["0".toList, "1".toList, "2".toList, "3".toList, "4".toList, "5".toList, "6".toList, "7".toList, "8".toList, "9".toList]

/-- main.cpp:155-164: the model; `draws i` are the random numbers used by layer `i`. -/
def network (N : Num α) (draws : Nat → Nat → α) : Res (Model α) := do
  let M ← Model.new.addKernel N (draws 0) ⟨5, 5, 1⟩ 2
  let M := M.addActivation .sigmoid
  let M := M.addPooling ⟨2, 2⟩ ⟨2, 2⟩ .max
  let M ← M.addKernel N (draws 3) ⟨3, 3, 2⟩ 4
  let M := M.addActivation .relu
  let M := M.addPooling ⟨2, 2⟩ ⟨2, 2⟩ .max
  let M ← M.addConnected 10
  .ok (M.setOutputLabels labels true)

/-- main.cpp:167-171: `rate` is 0.03 as a `float`, `cores` is what `hardware_concurrency` returns. -/
def hyper (rate : α) (cores : Nat) : Hyper α := ⟨rate, 32, wrap32 (Max.max cores 1 : Nat), 2⟩

end

/-- main.cpp:112-142 `MNistGenerator` as a data source; `conv` is the conversion of the `float` entries of an image. -/
def source {α : Type} (conv : F32 → α) (big : Bool) (lim : Nat) : Feed.Source Reader α where
  has := hasData
  next := Exec.bind (getNext big) fun r => Exec.pure ⟨Validate.input conv r.1, r.2⟩
  size := size
  reset := reset big lim

/-- The files read. -/
structure Files where
  trainImages : Option (List UInt8)
  trainLabels : Option (List UInt8)
  testImages : Option (List UInt8)
  testLabels : Option (List UInt8)

/-- The host and what is left open by the language: the schedules of the training (for each epoch one for each batch) and of the validation,
the values of `rand()` in `validate`. -/
structure Host (α : Type) where
  env : Env α
  conv : F32 → α
  big : Bool
  lim : Nat
  chance : Validate.Chance
  cores : Nat
  trainScheds : List (List (List Nat))
  validScheds : List Nat
  rands : List Nat

/-- What the program leaves: the trained model, for each epoch `success_count` and `data_source.size()`, `correct_count`, what is printed about the images picked, and if a file name was given the result of
`saveModel` and the text written. -/
structure Outcome (α : Type) where
  trained : Model α
  epochs : List (Nat × Nat)
  correct : Int
  shown : List (Validate.Shown α)
  model : Model α
  saved : Option (Res Bool × Option (List Char))

section
variable {α : Type} [Zero α] [One α] [Add α] [Sub α] [Mul α] [Div α] [Neg α]

/-- main.cpp:147-196 `main`; `rate` is the learning rate, `save` is whether a file name is given and then whether the file can be opened. The
five random numbers used by `validate` are the first five of `rands`. `none` if the schedules end too early. -/
def program (H : Host α) (C : Codec α) (rate : α) (F : Files) (save : Option Bool) : Res (Option (Outcome α)) := do
  let G ← newGenerator H.big H.lim F.trainImages F.trainLabels
  let M ← network H.env.num H.env.draws
  let p := hyper rate H.cores
  match ← Feed.train (source H.conv H.big H.lim) H.env p H.trainScheds M G with
  | none => .ok none
  | some r => do
    match ← Validate.validate H.env H.conv H.big H.lim H.chance F.testImages F.testLabels p.threads H.validScheds (H.rands.take 5) r.1 with
    | none => .ok none
    | some v => .ok (some ⟨r.1, r.2.2, v.1, v.2.1, v.2.2, save.map fun opened => v.2.2.saveModel C opened⟩)

end
end Cnn.Main
