import Verif.Model.Main
import Verif.Model.Accuracy
/-!
# What the program writes on its standard output

`printf` and `std::cout` share one buffer (`sync_with_stdio` is not called), so the output is the sequence of characters in
program order. The text of a `double` or `float` is a parameter (`Texts`), and so are the file names and the time measured.
`std::cout` is taken in its default formatting state, which `loadingBar` restores.
-/
namespace Cnn.Console

/-- `ESC [` and the rest of a control sequence. -/
def csi (t : String) : List Char := Char.ofNat 27 :: '[' :: t.toList

/-- LoadingBar.h:6-14 `loadingBar`: everything it writes. -/
def bar (r32 r64 : ℚ → ℚ) (val total : ℚ) (width : Nat) : Res (List Char) := do
  let b ← loadingBar r32 r64 val total width
  .ok (csi "?25l" ++ '\r' :: (b.1 ++ b.2) ++ csi "?25h")

/-- imageUtil.h:19 `printf("\033[48;2;%d;%d;%dm  ", code, code, code)`. -/
def greyPlace (c : Nat) : List Char := csi "48;2;" ++ natText c ++ ';' :: natText c ++ ';' :: natText c ++ "m  ".toList

/-- imageUtil.h:30-39. -/
def colourPlace (codes : List Nat) : List Char := csi "48;2" ++ codes.flatMap (fun c => ';' :: natText c) ++ "m   ".toList

/-- imageUtil.h:14-22 resp. 28-42: the text for the codes; a place with one code belongs to a black-and-white picture. -/
def place : List Nat → List Char
  | [c] => greyPlace c
  | codes => colourPlace codes

/-- imageUtil.h:14-22 resp. 28-42. -/
def picture (rows : List (List (List Nat))) : List Char := rows.flatMap fun row => row.flatMap place ++ (csi "0m" ++ ['\n'])

/-- ModelDescription.tpp:273 after batch `n` of `total`; both are converted to `float`, the width is the default 50. -/
def batchBar (r32 r64 : ℚ → ℚ) (total n : Nat) : Res (List Char) := bar r32 r64 (r32 n) (r32 total) 50

/-- ModelDescription.tpp:225-274: what `runEpoch` writes during the first `n` of `total` batches. -/
def bars (r32 r64 : ℚ → ℚ) (total n : Nat) : Res (List Char) := do
  let l ← (List.range n).mapM (batchBar r32 r64 total)
  .ok l.flatten

/-- How numbers and names come out. -/
structure Texts (α : Type) where
  /-- a `double` that may be the quotient of a division by zero -/
  accuracy : Option ℚ → List Char
  /-- a `float` -/
  number : α → List Char
  trainImages : List Char
  trainLabels : List Char
  testImages : List Char
  testLabels : List Char
  milliseconds : List Char
  /-- the file saved to -/
  file : List Char

/-- ModelDescription.tpp:291. -/
def epochLine {α : Type} (T : Texts α) (epoch hits size : Nat) : List Char :=
  "\nEpoch ".toList ++ natText epoch ++ ": Accuracy was ".toList ++ T.accuracy (Train.percent hits size) ++ "%\n".toList

/-- ModelDescription.tpp:289-293: what `train` writes, given for each epoch the number of successes and the size of the data. -/
def train {α : Type} (T : Texts α) (r32 r64 : ℚ → ℚ) (batch : Int) : Nat → List (Nat × Nat) → Res (List Char)
  | _, [] => .ok []
  | epoch, e :: es => do
    let k ← Train.numBatches e.2 batch
    let b ← bars r32 r64 k.toNat k.toNat
    let rest ← train T r32 r64 batch (epoch + 1) es
    .ok (b ++ epochLine T epoch e.1 e.2 ++ rest)

/-- MNISTReader.cpp:40-42. -/
def opened (images labels : List Char) (R : Mnist.Reader) : List Char :=
  "Opened files \"".toList ++ images ++ "\" and \"".toList ++ labels ++ "\"\n".toList ++
  "Files contain ".toList ++ intText R.num ++ " images and labels\n".toList ++
  "Each image is of size ".toList ++ intText R.width ++ 'x' :: intText R.height ++ ['\n']

/-- main.cpp:39-51 `operator<<` for results without a true label. -/
def results {α : Type} (T : Texts α) (index : Nat) (confidence : α) : List Char :=
  "Layer Results:\n".toList ++ "\tLabel Index: ".toList ++ natText index ++ ['\n'] ++
  "\tConfidence:  ".toList ++ T.number confidence ++ ['\n'] ++ ['\n']

/-- main.cpp:102-104. -/
def shown {α : Type} (T : Texts α) (s : Validate.Shown α) : List Char :=
  "This image is a ".toList ++ s.found ++ " (actual label ".toList ++ natText s.actual ++ ")\n".toList ++
  picture s.picture ++ results T s.index s.confidence ++ "\n\n".toList

/-- main.cpp:56-106 `validate`. -/
def validate {α : Type} (T : Texts α) (R : Mnist.Reader) (correct : Int) (l : List (Validate.Shown α)) : List Char :=
  opened T.testImages T.testLabels R ++ "Running model validation test...\n".toList ++
  "\nValidation finished in ".toList ++ T.milliseconds ++ " milliseconds.\nValidation accuracy was ".toList ++
  T.accuracy (if wrap32 R.numImages = 0 then none else some (100 * (correct : ℚ) / (wrap32 R.numImages : Int))) ++ "%\n\n".toList ++
  l.flatMap (shown T)

/-- main.cpp:182-188 with ModelDescription.tpp:72-75; `saved` is `none` if no file name was given, else the result of `saveModel`. -/
def ending {α : Type} (T : Texts α) : Option (Res Bool) → List Char
  | none => "No file provided, model training results will not be saved\n".toList
  | some r => "Saving model to \"".toList ++ T.file ++ "\"\n".toList ++
      (if r = .ok false then "Something went wrong, file was not saved correctly\n".toList else [])

/-- main.cpp:147-196: what a run of the program writes that ends with the outcome `o`. -/
def program {α : Type} (T : Texts α) (H : Main.Host α) (F : Main.Files) (o : Main.Outcome α) : Res (List Char) := do
  let G ← Mnist.Reader.new H.big F.trainImages F.trainLabels
  let R ← Mnist.Reader.new H.big F.testImages F.testLabels
  let t ← train T H.chance.r32 H.chance.r64 32 0 o.epochs
  .ok (opened T.trainImages T.trainLabels G ++ t ++ validate T R o.correct o.shown ++ ending T (o.saved.map (·.1)))

end Cnn.Console
