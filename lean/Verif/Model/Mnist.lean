import Verif.Model.Layers
import Verif.Model.Float32
import Verif.Model.Stream
/-!
# MNISTReader (src/MNISTReader.cpp, include/cnn_from_scratch/MNISTReader.h) and MNistGenerator (src/main.cpp:112-142)

A file is the list of its bytes. `big` says whether the host stores integers with the most significant byte first. `lim`
is the largest file offset the operating system accepts; it is below 2^63. A value of which a byte could not be read is
indeterminate in C++; the model counts its use as undefined behaviour. Console output is not modelled.
-/
namespace Cnn.Mnist

/-- A `std::fstream` open for binary reading. -/
structure FStream where
  bytes : List UInt8
  pos : Nat
  eof : Bool
  fail : Bool
  deriving DecidableEq, Repr

namespace FStream

/-- A stream just opened. -/
def ofBytes (b : List UInt8) : FStream := ⟨b, 0, false, false⟩

/-- `stream.read(buf, n)`; `none` if fewer than `n` bytes were read. -/
def get (s : FStream) (n : Nat) : Option (List UInt8) × FStream :=
  if s.eof || s.fail then (none, { s with fail := true })
  else if s.pos + n ≤ s.bytes.length then (some ((s.bytes.drop s.pos).take n), { s with pos := s.pos + n })
  else (none, { s with pos := max s.pos s.bytes.length, eof := true, fail := true })

/-- `stream.seekg(off)`: first clears `eofbit`; on a failed stream nothing else happens; an offset the system refuses
(beyond `lim`, or negative as `std::streamoff`) sets `failbit`. -/
def seek (lim : Nat) (s : FStream) (off : Nat) : FStream :=
  if s.fail then { s with eof := false }
  else if off ≤ lim then { s with pos := off, eof := false }
  else { s with eof := false, fail := true }

end FStream

/-- MNISTReader.cpp:91-93: the bytes are read one by one into `buf[n-1], …, buf[0]`; `buf` holds those already read, in
memory order. -/
def readDown : Nat → List UInt8 → FStream → Res (List UInt8 × FStream)
  | 0, buf, s => .ok (buf, s)
  | i + 1, buf, s =>
    match s.get 1 with
    | (some [b], s') => readDown i (b :: buf) s'
    | _ => .ub

/-- MNISTReader.cpp:84-96 `read<T>` with `sizeof(T) = n`: the bytes of `val` in memory order. -/
def readBuf (big : Bool) (n : Nat) (s : FStream) : Res (List UInt8 × FStream) :=
  if big then
    match s.get n with
    | (some l, s') => .ok (l, s')
    | (none, _) => .ub
  else readDown n [] s

/-- The value of an unsigned integer with these bytes in memory. -/
def hostValue (big : Bool) (buf : List UInt8) : Nat :=
  if big then buf.foldl (fun n b => 256 * n + b.toNat) 0 else buf.foldr (fun b n => b.toNat + 256 * n) 0

/-- `read<int32_t>` (two's complement). -/
def readInt32 (big : Bool) (s : FStream) : Res (Int × FStream) := do
  let r ← readBuf big 4 s
  .ok (wrap32 (hostValue big r.1), r.2)

/-- `read<unsigned char>`. -/
def readByte (big : Bool) (s : FStream) : Res (Nat × FStream) := do
  let r ← readBuf big 1 s
  .ok (hostValue big r.1, r.2)

/-- MNISTReader.h:9-12. -/
structure Image where
  data : Matrix F32
  label : Nat
  deriving DecidableEq, Repr

/-- MNISTReader.h:28-34. -/
structure Reader where
  img : FStream
  lab : FStream
  num : Int
  width : Int
  height : Int
  cur : Nat
  deriving DecidableEq, Repr

/-- `assert(b)`. -/
def check (b : Bool) : Res Unit := if b then .ok () else .abort

/-- MNISTReader.cpp:10-43; a missing file is `none`. -/
def Reader.new (big : Bool) (images labels : Option (List UInt8)) : Res Reader := do
  check images.isSome
  check labels.isSome
  let (m₁, img) ← readInt32 big (FStream.ofBytes (images.getD []))
  check (m₁ = 2051)
  let (m₂, lab) ← readInt32 big (FStream.ofBytes (labels.getD []))
  check (m₂ = 2049)
  let (n₁, img) ← readInt32 big img
  let (n₂, lab) ← readInt32 big lab
  check (n₁ = n₂)
  let (h, img) ← readInt32 big img
  let (w, img) ← readInt32 big img
  .ok ⟨img, lab, n₁, w, h, 0⟩

/-- The entry of `img.data` for a pixel byte (MNISTReader.cpp:79): `out - 128` has element type `int`, the division is in
`float`. -/
def pixel (b : Nat) : F32 := ((F32.ofInt ((b : Int) - 128)).div (F32.ofInt 255)).getD ⟨0, 1⟩

instance : Zero F32 := ⟨⟨0, 1⟩⟩

/-- MNISTReader.cpp:71-76: the pixels row by row. -/
def readPixels (big : Bool) (h w : Int) (s : FStream) : Res (Matrix Nat × FStream) := do
  let out ← Matrix.ofDim ⟨h, w, 1⟩ 0
  (List.range h.toNat).foldlM (fun (st : Matrix Nat × FStream) (row : Nat) =>
    (List.range w.toNat).foldlM (fun (st : Matrix Nat × FStream) (col : Nat) => do
      let (b, s) ← readByte big st.2
      let out ← st.1.write ⟨(row : Int), (col : Int), 0⟩ b
      .ok (out, s)) st) (out, s)

/-- MNISTReader.cpp:69-81. -/
def Reader.take (big : Bool) (R : Reader) : Res (Image × Reader) := do
  let (out, img) ← readPixels big R.height R.width R.img
  let (label, lab) ← readByte big R.lab
  let E := MExpr.scal (fun i : Int => ((F32.ofInt i).div (F32.ofInt 255)).getD ⟨0, 1⟩)
    (MExpr.scal (fun b : Nat => (b : Int) - 128) out.expr)
  let data ← (Matrix.empty : Matrix F32).assignExpr E.dim (fun _ => E.deref)
  .ok (⟨data, label⟩, { R with img := img, lab := lab, cur := R.cur + 1 })

/-- MNISTReader.cpp:64-82 `nextImage`; `num_images_` is converted to `size_t` in the comparison. -/
def Reader.nextImage (big : Bool) : Exec Reader Image := fun R =>
  if R.cur ≥ u64 R.num then (.throw .runtime, R)
  else match R.take big with
    | .ok (i, R') => (.ok i, R')
    | .throw x => (.throw x, R)
    | .ub => (.ub, R)
    | .abort => (.abort, R)

/-- MNISTReader.cpp:50-62 `getImage`; offsets are computed in `size_t`. -/
def Reader.getImage (big : Bool) (lim idx : Nat) : Exec Reader Image := fun R =>
  Reader.nextImage big { R with
    cur := idx
    img := R.img.seek lim (u64 (16 + (idx : Int) * u64 R.height * u64 R.width))
    lab := R.lab.seek lim (u64 (8 + (idx : Int))) }

/-- MNISTReader.h:23 `numImages`. -/
def Reader.numImages (R : Reader) : Nat := u64 R.num

/-- main.cpp:136-138 `reset`. -/
def reset (big : Bool) (lim : Nat) : Exec Reader Unit := Exec.bind (Reader.getImage big lim 0) fun _ => Exec.pure ()

/-- main.cpp:114-118. -/
def newGenerator (big : Bool) (lim : Nat) (images labels : Option (List UInt8)) : Res Reader := do
  let R ← Reader.new big images labels
  match reset big lim R with
  | (.ok (), R) => .ok R
  | (.throw x, _) => .throw x
  | (.ub, _) => .ub
  | (.abort, _) => .abort

/-- main.cpp:120-126 `getNextDataPoint`: data and label text. -/
def getNext (big : Bool) : Exec Reader (Matrix F32 × List Char) :=
  Exec.bind (Reader.nextImage big) fun i => Exec.pure (i.data, natText i.label)

/-- main.cpp:128-130 `size`. -/
def size (R : Reader) : Nat := u64 ((R.numImages : Int) - 1)

/-- main.cpp:132-134 `hasAvailableData`. -/
def hasData (R : Reader) : Bool := R.cur < R.numImages

end Cnn.Mnist
