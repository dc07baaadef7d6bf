import Verif.Spec.Terminal
import Verif.Model.Console
/-!
# Specification vocabulary for the console output (C88)
-/
namespace Cnn

/-- A rounding keeps the numbers with `p` binary digits (none of them so small that it matters). -/
def KeepsBits (r : ℚ → ℚ) (p : Nat) : Prop := ∀ (i : ℤ) (k : Nat), |i| ≤ 2 ^ p → k ≤ 100 → r (i / 2 ^ k) = i / 2 ^ k

namespace Console

/-- The progress line: a bar of 51 columns and a percentage. -/
def progress (filled percent : Nat) : List Char :=
  '[' :: List.replicate filled '=' ++ List.replicate (49 - filled) ' ' ++ ']' :: ' ' ::
    (List.replicate (3 - (natText percent).length) ' ' ++ natText percent ++ ['%'])

/-- The names and numbers printed contain no control characters. -/
structure Texts.Plain {α : Type} (T : Texts α) : Prop where
  accuracy : ∀ q, Terminal.Plain (T.accuracy q)
  number : ∀ a, Terminal.Plain (T.number a)
  trainImages : Terminal.Plain T.trainImages
  trainLabels : Terminal.Plain T.trainLabels
  testImages : Terminal.Plain T.testImages
  testLabels : Terminal.Plain T.testLabels
  milliseconds : Terminal.Plain T.milliseconds
  file : Terminal.Plain T.file

/-- A place of a picture: two blanks on grey, or three on a colour. -/
def square : List Nat → List Cell
  | [c] => List.replicate 2 ⟨' ', some (c, c, c)⟩
  | [r, g, b] => List.replicate 3 ⟨' ', some (r, g, b)⟩
  | _ => []

/-- The rows of a picture. -/
def screen (rows : List (List (List Nat))) : List (List Cell) := rows.map fun row => row.flatMap square

/-- A line of text. -/
def reads (s : String) (rest : List Char) : List Cell := Terminal.plain (s.toList ++ rest)

/-- The two lines for an epoch: what remains of the bar (for `total` batches), and the accuracy. -/
def IsEpoch {α : Type} (T : Texts α) (total epoch hits size : Nat) (ls : List (List Cell)) : Prop :=
  ∃ first, ls = [first, reads "Epoch " (natText epoch ++ ": Accuracy was ".toList ++ T.accuracy (Train.percent hits size) ++ ['%'])] ∧
    (total = 0 → first = []) ∧
    (0 < total → ∃ f < 50, first = Terminal.plain (progress f (100 * (total - 1) / total + 1)))

/-- The lines about the files of images. -/
def isOpened (images labels : List Char) (n w h : Nat) : List (List Cell) :=
  [reads "Opened files \"" (images ++ "\" and \"".toList ++ labels ++ ['"']),
   reads "Files contain " (natText n ++ " images and labels".toList),
   reads "Each image is of size " (natText w ++ 'x' :: natText h)]

/-- The lines about an image. A tab takes the cursor to the ninth column. -/
def isShown {α : Type} (T : Texts α) (s : Validate.Shown α) : List (List Cell) :=
  reads "This image is a " (s.found ++ " (actual label ".toList ++ natText s.actual ++ [')']) :: screen s.picture ++
  [reads "Layer Results:" [], reads "        Label Index: " (natText s.index), reads "        Confidence:  " (T.number s.confidence), [], [], []]

end Console
end Cnn
