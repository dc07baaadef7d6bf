import Verif.Model.Matrix
import Verif.Model.Display

/-!
Printing a matrix: the `operator<<` of include/cnn_from_scratch/Matrix/SimpleMatrix.h:134-163, for matrices,
views and lazy expressions alike. The function writes the entries to its argument `os` and sets the formatting
on `std::cout`, so the model keeps the two streams apart: `os` is `std::cout` or some other stream.

A stream is its formatting state and the text written so far. The formatting state has the parts the function
or its callers set: precision, notation (`std::ios::floatfield`), fill character, adjustment and width. How a
number looks in a given state is a parameter (`Elem.text`). Streams in a failed state are not modelled.
-/

namespace Cnn

namespace Show

/-- `std::ios::floatfield`. -/
inductive Notation | general | fixed | scientific | hex
  deriving DecidableEq, Repr

/-- `std::ios::adjustfield`; for the unsigned texts written here `internal` pads like `right`. -/
inductive Adjust | right | left | internal
  deriving DecidableEq, Repr

/-- The formatting state of a stream. -/
structure Fmt where
  prec : Int
  notat : Notation
  fill : Char
  adjust : Adjust
  width : Int
  deriving DecidableEq, Repr

/-- A stream. -/
structure OStream where
  fmt : Fmt
  out : List Char
  deriving DecidableEq, Repr

/-- `std::cout` and another stream. -/
structure World where
  cout : OStream
  other : OStream
  deriving DecidableEq, Repr

/-- Which of the two is `os`. -/
inductive Target | cout | other
  deriving DecidableEq, Repr

/-- What the function needs to know of the element type: `std::is_floating_point_v`, `val < 0`, `abs(val)`
(undefined for the least `int`), and the text of a value in a formatting state. -/
structure Elem (α : Type) where
  float : Bool
  neg : α → Bool
  mag : α → Res α
  text : Fmt → α → List Char

/-- A formatted insertion: padded to the width, which is then reset to 0. -/
def OStream.put (s : OStream) (t : List Char) : OStream :=
  { fmt := { s.fmt with width := 0 }
    out := s.out ++ (if s.fmt.adjust = .left then padRight s.fmt.width s.fmt.fill t
      else padLeft s.fmt.width s.fmt.fill t) }

/-- `os << std::setw(w)`. -/
def OStream.setw (s : OStream) (w : Int) : OStream := { s with fmt := { s.fmt with width := w } }

/-- `os << std::setprecision(p)` and a change of notation. -/
def OStream.setFloat (s : OStream) (p : Int) (n : Notation) : OStream :=
  { s with fmt := { s.fmt with prec := p, notat := n } }

def World.get (w : World) : Target → OStream
  | .cout => w.cout
  | .other => w.other

def World.set (w : World) (t : Target) (s : OStream) : World :=
  match t with
  | .cout => { w with cout := s }
  | .other => { w with other := s }

variable {α : Type}

/-- SimpleMatrix.h:151-152. -/
def entry (N : Elem α) (wide : Int) (os : OStream) (v : α) (last : Bool) : Res OStream := do
  let os := os.put [if N.neg v then '-' else ' ']
  let os := os.setw wide
  let m ← N.mag v
  let os := os.put (N.text os.fmt m)
  .ok (os.put [if last then ']' else ','])

/-- SimpleMatrix.h:147-157: the three loops. -/
def body (N : Elem α) (wide : Int) (M : MExpr α) (os : OStream) : Res OStream :=
  (List.range M.dim.x.toNat).foldlM (fun (os : OStream) (i : Nat) => do
    let os ← (List.range M.dim.z.toNat).foldlM (fun (os : OStream) (k : Nat) => do
      let os ← (List.range M.dim.y.toNat).foldlM (fun (os : OStream) (j : Nat) => do
        let v ← M.get ⟨(i : Int), (j : Int), (k : Int)⟩
        entry N wide os v (decide ((j : Int) = M.dim.y - 1))) (os.put ['['])
      .ok (os.put [' ', ' ', ' '])) os
    .ok (os.put ['\n'])) os

/-- SimpleMatrix.h:135-163 `operator<<(os, M)`, where `t` says whether `os` is `std::cout`. -/
def print (N : Elem α) (t : Target) (M : MExpr α) (w : World) : Res World := do
  let precision := wrap32 w.cout.fmt.prec
  let wide : Int := if N.float then 7 else 4
  let w := if N.float then { w with cout := w.cout.setFloat 2 .fixed } else w
  let os ← body N wide M ((w.get t).put ['\n'])
  let w := w.set t os
  .ok { w with cout := w.cout.setFloat precision .general }

end Show

end Cnn
