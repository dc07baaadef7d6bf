import Verif.Model.Matrix
import Mathlib.Data.Nat.Digits.Defs
/-!
# Character streams and text (include/cnn_from_scratch/Serialization.h and the `<istream>` operations it uses)

An input stream is the list of characters not yet extracted and the two state flags `eofbit` and `failbit` (`badbit`
needs a device error). The functions of the C++ standard library are modelled as libstdc++ implements them, in the
classic locale. Output streams are modelled by the text appended to them.
-/
namespace Cnn

/-- A computation on a state: the outcome and the state afterwards (also after an exception). -/
def Exec (σ α : Type) := σ → Res α × σ

namespace Exec
variable {σ τ α β : Type}

protected def pure (a : α) : Exec σ α := fun s => (.ok a, s)

protected def bind (m : Exec σ α) (f : α → Exec σ β) : Exec σ β := fun s =>
  match m s with
  | (.ok a, s') => f a s'
  | (.throw e, s') => (.throw e, s')
  | (.ub, s') => (.ub, s')
  | (.abort, s') => (.abort, s')

instance : Monad (Exec σ) where
  pure := Exec.pure
  bind := Exec.bind

/-- Change the state. -/
def modify (f : σ → σ) : Exec σ Unit := fun s => (.ok (), f s)

def throw (e : Exc) : Exec σ α := fun s => (.throw e, s)

/-- Run a computation on the second component. -/
def onSnd (m : Exec τ α) : Exec (σ × τ) α := fun s => let r := m s.2; (r.1, (s.1, r.2))

/-- `for (i : is) if (!body(i)) return false;` followed by `return true`. -/
def allM {ι : Type} (body : ι → Exec σ Bool) : List ι → Exec σ Bool
  | [] => Exec.pure true
  | i :: is => Exec.bind (body i) fun b => if b then allM body is else Exec.pure false

end Exec

/-- `std::istream`. -/
structure IStream where
  rest : List Char
  eof : Bool
  fail : Bool
  deriving DecidableEq, Repr

namespace IStream

/-- A stream opened on a text. -/
def ofText (t : List Char) : IStream := ⟨t, false, false⟩

/-- `good()`. -/
def good (s : IStream) : Bool := !s.eof && !s.fail

/-- Characters skipped by `std::ws` and formatted extraction (`isspace` in the classic locale). -/
def isWs (c : Char) : Bool := c = ' ' || c = '\n' || c = '\t' || c = '\r' || c = Char.ofNat 11 || c = Char.ofNat 12

/-- The sentry of an unformatted operation: a stream that is not good gets `failbit`. -/
def sentry (s : IStream) : Bool × IStream := if s.good then (true, s) else (false, { s with fail := true })

/-- The sentry of a formatted operation: also skips white space, and fails at the end of the text. -/
def sentryWs (s : IStream) : Bool × IStream :=
  if s.good then
    match s.rest.dropWhile isWs with
    | [] => (false, ⟨[], true, true⟩)
    | r => (true, ⟨r, false, false⟩)
  else (false, { s with fail := true })

/-- At most `n` characters, up to and including a newline; `true` if the end of the text was met first. -/
def dropLine : Nat → List Char → List Char × Bool
  | 0, l => (l, false)
  | _ + 1, [] => ([], true)
  | n + 1, c :: l => if c = '\n' then (l, false) else dropLine n l

/-- Serialization.h:15-17 `clearLine`: `S.ignore(std::numeric_limits<int>::max(), '\n')`. -/
def clearLine (s : IStream) : IStream :=
  if s.good then
    let r := dropLine 2147483647 s.rest
    ⟨r.1, r.2, false⟩
  else { s with fail := true }

/-- `std::getline(S, line)`; the line is empty if nothing can be read. -/
def getline (s : IStream) : List Char × IStream :=
  if s.good then
    let line := s.rest.takeWhile (· ≠ '\n')
    match s.rest.dropWhile (· ≠ '\n') with
    | [] => (line, ⟨[], true, line.isEmpty⟩)
    | _ :: r => (line, ⟨r, false, false⟩)
  else ([], { s with fail := true })

/-- Serialization.h:22-28 `readLine`: `tellg` and `getline` set `failbit` on a stream that is not good; `seekg` first
clears `eofbit` and does nothing more if `failbit` is set. -/
def readLine (s : IStream) : List Char × IStream :=
  if s.good then
    let r := s.getline
    if r.2.fail then (r.1, { r.2 with eof := false }) else (r.1, s)
  else ([], { s with eof := false, fail := true })

/-- `is.read(buffer, n)` into a buffer of `n` blanks (Serialization.h:51-52). -/
def readN (s : IStream) (n : Nat) : List Char × IStream :=
  if s.good then
    if n ≤ s.rest.length then (s.rest.take n, ⟨s.rest.drop n, false, false⟩)
    else (s.rest ++ List.replicate (n - s.rest.length) ' ', ⟨[], true, true⟩)
  else (List.replicate n ' ', { s with fail := true })

/-- Optional sign: `true` for minus. -/
def scanSign : List Char → Bool × List Char
  | '-' :: l => (true, l)
  | '+' :: l => (false, l)
  | l => (false, l)

/-- The value of a digit. -/
def digit (c : Char) : Nat := c.toNat - 48

/-- The number denoted by decimal digits. -/
def numeral (l : List Char) : Nat := l.foldl (fun n c => 10 * n + digit c) 0

/-- The characters of an integer, in base ten: sign, digits, and what follows. -/
def scanInt (l : List Char) : Bool × List Char × List Char :=
  let (neg, l) := scanSign l
  (neg, l.takeWhile Char.isDigit, l.dropWhile Char.isDigit)

/-- `is >> n` for an `int`. `none`: the sentry failed and `n` keeps its value. No digits: 0 and `failbit`; out of range:
the nearest limit and `failbit`. -/
def extractInt (s : IStream) : Option Int × IStream :=
  match s.sentryWs with
  | (false, s) => (none, s)
  | (true, s) =>
    let (neg, ds, r) := scanInt s.rest
    let v : Int := if neg then -(numeral ds : Int) else (numeral ds : Int)
    if ds.isEmpty then (some 0, ⟨r, r.isEmpty, true⟩)
    else if v < -2147483648 then (some (-2147483648), ⟨r, r.isEmpty, true⟩)
    else if 2147483647 < v then (some 2147483647, ⟨r, r.isEmpty, true⟩)
    else (some v, ⟨r, r.isEmpty, false⟩)

/-- `is >> n` for an `unsigned`: a negative number wraps. -/
def extractUnsigned (s : IStream) : Option Nat × IStream :=
  match s.sentryWs with
  | (false, s) => (none, s)
  | (true, s) =>
    let (neg, ds, r) := scanInt s.rest
    if ds.isEmpty then (some 0, ⟨r, r.isEmpty, true⟩)
    else if 4294967295 < numeral ds then (some 4294967295, ⟨r, r.isEmpty, true⟩)
    else (some (if neg then (4294967296 - numeral ds) % 4294967296 else numeral ds), ⟨r, r.isEmpty, false⟩)

/-- `is >> word` for a `std::string`: `none` if the sentry fails (the string keeps its value). -/
def extractWord (s : IStream) : Option (List Char) × IStream :=
  match s.sentryWs with
  | (false, s) => (none, s)
  | (true, s) =>
    let r := s.rest.dropWhile (fun c => !isWs c)
    (some (s.rest.takeWhile (fun c => !isWs c)), ⟨r, r.isEmpty, false⟩)

end IStream

/-! ## Numbers as text -/

/-- The decimal digits of a natural number (`os << n`). -/
def natText (n : Nat) : List Char := if n = 0 then ['0'] else (Nat.digits 10 n).reverse.map Nat.digitChar

/-- The text of an `int`. -/
def intText (n : Int) : List Char := if n < 0 then '-' :: natText n.natAbs else natText n.natAbs

/-- A number with six decimals, as `std::fixed` prints it: `±micro/10^6`. -/
structure Fix where
  neg : Bool
  micro : Nat
  deriving DecidableEq, Repr

/-- The text of a number with six decimals. -/
def Fix.text (f : Fix) : List Char :=
  (if f.neg then ['-'] else []) ++ natText (f.micro / 1000000) ++ '.' ::
    (List.replicate (6 - (natText (f.micro % 1000000)).length) '0' ++ natText (f.micro % 1000000))

/-- A decimal number as it is read: `± mant * 10^exp`. -/
structure Dec where
  neg : Bool
  mant : Nat
  exp : Int
  deriving DecidableEq, Repr

/-- The conversions of the entry type to and from text. -/
structure Codec (α : Type) where
  /-- The value rounded to six decimals; `none` for infinities and NaN. -/
  fixed : α → Option Fix
  /-- How an infinity or NaN is printed. -/
  word : α → List Char
  /-- `strtod`: the nearest value, and whether it is out of range. -/
  ofDec : Dec → α × Bool

/-- `os << std::fixed << a`. -/
def Codec.text {α : Type} (C : Codec α) (a : α) : List Char :=
  match C.fixed a with
  | some f => f.text
  | none => C.word a

/-- `os << std::setw(16)`: pad on the left. -/
def setw16 (t : List Char) : List Char := List.replicate (16 - t.length) ' ' ++ t

namespace IStream

/-- The characters of a floating-point number: what `num_get` accumulates. The first component is `none` if they do not
form a number (no digits, or an exponent without digits). -/
def scanFloat (l : List Char) : Option Dec × List Char :=
  let (neg, l) := scanSign l
  let ip := l.takeWhile Char.isDigit
  let l := l.dropWhile Char.isDigit
  let (fp, l) := match l with
    | '.' :: l => (l.takeWhile Char.isDigit, l.dropWhile Char.isDigit)
    | l => ([], l)
  if (ip ++ fp).isEmpty then (none, l)
  else match l with
    | c :: l' =>
      if c = 'e' || c = 'E' then
        let (eneg, ed, r) := scanInt l'
        if ed.isEmpty then (none, r)
        else (some ⟨neg, numeral (ip ++ fp), (if eneg then -(numeral ed : Int) else numeral ed) - fp.length⟩, r)
      else (some ⟨neg, numeral (ip ++ fp), -(fp.length : Int)⟩, l)
    | [] => (some ⟨neg, numeral (ip ++ fp), -(fp.length : Int)⟩, [])

/-- `is >> v` for a floating-point `v`: `none` if the sentry failed (`v` keeps its value). -/
def extractNum {α : Type} [Zero α] (C : Codec α) (s : IStream) : Option α × IStream :=
  match s.sentryWs with
  | (false, s) => (none, s)
  | (true, s) =>
    match scanFloat s.rest with
    | (none, r) => (some 0, ⟨r, r.isEmpty, true⟩)
    | (some d, r) => let (a, bad) := C.ofDec d; (some a, ⟨r, r.isEmpty, bad⟩)

/-! ## Serialization.h -/

/-- Serialization.h:51-55 and 63: `expect<void>`. -/
def expectVoid (label : List Char) : Exec IStream Unit := fun s =>
  let (got, s) := s.readN label.length
  if label ≠ got then (.throw .runtime, s) else (.ok (), s.clearLine)

/-- Serialization.h:50-61 `expect<int>`. If the extraction does not set `output`, an indeterminate value is returned:
undefined behaviour. -/
def expectInt (label : List Char) : Exec IStream Int := fun s =>
  let (got, s) := s.readN label.length
  if label ≠ got then (.throw .runtime, s)
  else match s.extractInt with
    | (some v, s) => (.ok v, s.clearLine)
    | (none, s) => (.ub, s.clearLine)

/-- `expect<unsigned>`. -/
def expectUnsigned (label : List Char) : Exec IStream Nat := fun s =>
  let (got, s) := s.readN label.length
  if label ≠ got then (.throw .runtime, s)
  else match s.extractUnsigned with
    | (some v, s) => (.ok v, s.clearLine)
    | (none, s) => (.ub, s.clearLine)

end IStream

/-- Serialization.h:36-38 `place` of an integer. -/
def placeText (label : List Char) (n : Int) : List Char := label ++ ' ' :: intText n ++ ['\n']

/-! ## SimpleMatrix -/

namespace Matrix
variable {α : Type}

/-- SimpleMatrix.tpp:231-232: one entry. -/
def entryText (C : Codec α) (M : Matrix α) (x y z : Nat) : Res (List Char) := do
  let v ← M.read ⟨(x : Int), (y : Int), (z : Int)⟩
  .ok (setw16 (C.text v) ++ [' '])

/-- SimpleMatrix.tpp:225-239 `serialize`: the text appended to the stream (the float format is restored afterwards). -/
def serialize (C : Codec α) (M : Matrix α) : Res (List Char) := do
  let head := intText M.dim.x ++ ' ' :: intText M.dim.y ++ ' ' :: intText M.dim.z ++ ['\n']
  (List.range M.dim.z.toNat).foldlM (fun os (z : Nat) => do
    let os ← (List.range M.dim.x.toNat).foldlM (fun os (x : Nat) => do
      let os ← (List.range M.dim.y.toNat).foldlM (fun os (y : Nat) => do
        let t ← M.entryText C x y z
        .ok (os ++ t)) os
      .ok (os ++ ['\n'])) os
    .ok (os ++ ['\n'])) head

/-- `this->resize(dim)` (SimpleMatrix.tpp:111-115): `dim_` is set before the vector is resized. -/
def resizeX [Zero α] (d : Dim3) : Exec (Matrix α × IStream) Unit := fun s =>
  match s.1.resize d 0 with
  | .ok M => (.ok (), (M, s.2))
  | .throw e => (.throw e, (⟨d, s.1.vals⟩, s.2))
  | .ub => (.ub, s)
  | .abort => (.abort, s)

/-- SimpleMatrix.tpp:257-258: `is >> (*this)(x, y, z)`; an extraction that does not set its target leaves the entry. -/
def readCell [Zero α] (C : Codec α) (x y z : Nat) : Exec (Matrix α × IStream) Bool := fun s =>
  match s.2.extractNum C with
  | (none, is) => (match s.1.read ⟨(x : Int), (y : Int), (z : Int)⟩ with | .ok _ => .ok (!is.fail) | _ => .ub, (s.1, is))
  | (some v, is) =>
    match s.1.write ⟨(x : Int), (y : Int), (z : Int)⟩ v with
    | .ok M => (.ok (!is.fail), (M, is))
    | _ => (.ub, (s.1, is))

/-- SimpleMatrix.tpp:262,266: `clearLine`, then on with the loop. -/
def endLine : Exec (Matrix α × IStream) Bool := fun s => (.ok true, (s.1, s.2.clearLine))

/-- SimpleMatrix.tpp:242-270 `deserialize`. -/
def deserialize [Zero α] (C : Codec α) : Exec (Matrix α × IStream) Bool := fun s =>
  let (x, is) := s.2.extractInt
  let (y, is) := is.extractInt
  let (z, is) := is.extractInt
  if is.fail then (.ok false, (s.1, is))
  else
    let d : Dim3 := ⟨x.getD 0, y.getD 0, z.getD 0⟩
    Exec.bind (resizeX d) (fun _ =>
      Exec.allM (fun (z : Nat) =>
        Exec.bind (Exec.allM (fun (x : Nat) =>
          Exec.bind (Exec.allM (fun (y : Nat) => readCell C x y z) (List.range d.y.toNat))
            fun b => if b then endLine else Exec.pure false) (List.range d.x.toNat))
          fun b => if b then endLine else Exec.pure false) (List.range d.z.toNat)) (s.1, is)

end Matrix
end Cnn
