import Verif.Model.Mnist
import Verif.Spec.Shows
/-!
# Specification vocabulary for the MNIST files (C59-C61)
-/
namespace Cnn.Mnist

/-- What an image file and its label file contain. -/
structure Content where
  n : Nat
  h : Nat
  w : Nat
  pix : Nat → Nat → Nat → UInt8
  label : Nat → UInt8

/-- The four bytes of a number, most significant first. -/
def be32 (v : Nat) : List UInt8 :=
  [UInt8.ofNat (v / 16777216), UInt8.ofNat (v / 65536), UInt8.ofNat (v / 256), UInt8.ofNat v]

namespace Content
variable (f : Content)

/-- The image file: magic number, counts, then the images one after the other, each row by row. -/
def images : List UInt8 :=
  be32 2051 ++ be32 f.n ++ be32 f.h ++ be32 f.w ++
    (List.range (f.n * (f.h * f.w))).map fun k => f.pix (k / (f.h * f.w)) (k % (f.h * f.w) / f.w) (k % (f.h * f.w) % f.w)

/-- The label file. -/
def labels : List UInt8 := be32 2049 ++ be32 f.n ++ (List.range f.n).map f.label

/-- Sizes the reader can represent; the files fit the system's limit for offsets. -/
structure Ok (lim : Nat) : Prop where
  n : f.n < 2147483648
  good : Good f.h f.w 1
  off : lim < 9223372036854775808
  img : f.images.length ≤ lim
  lab : f.labels.length ≤ lim

/-- The image object for record `i`. -/
def IsRecord (i : Nat) (im : Image) : Prop :=
  im.label = (f.label i).toNat ∧ im.data.Shows f.h f.w 1 (fun r c _ => pixel (f.pix i r c).toNat)

end Content

/-- Calls a user of the reader can make. -/
inductive Call where
  | get (i : Nat)
  | next
  deriving DecidableEq, Repr

/-- The record a call asks for when `cur` is the next one. -/
def Call.record (cur : Nat) : Call → Nat
  | .get i => i
  | .next => cur

/-- The call itself. -/
def Call.exec (big : Bool) (lim : Nat) : Call → Exec Reader Image
  | .get i => Reader.getImage big lim i
  | .next => Reader.nextImage big

/-- Outcomes of a list of calls, one after the other; exceptions are caught by the caller. -/
def runCalls (big : Bool) (lim : Nat) : List Call → Reader → List (Res Image) × Reader
  | [], R => ([], R)
  | c :: cs, R =>
    let r := c.exec big lim R
    let s := runCalls big lim cs r.2
    (r.1 :: s.1, s.2)

/-- What the calls should give when `cur` is the next record. -/
def Content.Answers (f : Content) : Nat → List Call → List (Res Image) → Prop
  | _, [], rs => rs = []
  | cur, c :: cs, rs => ∃ r rs', rs = r :: rs' ∧
      if c.record cur < f.n then (∃ im, r = .ok im ∧ f.IsRecord (c.record cur) im) ∧ f.Answers (c.record cur + 1) cs rs'
      else r = .throw .runtime ∧ f.Answers (c.record cur) cs rs'

end Cnn.Mnist
