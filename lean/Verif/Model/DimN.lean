import Verif.Model.Dim

/-!
The template `Dim<N>` of include/cnn_from_scratch/Matrix/dim.h for every `N`, with its storage. `Dim3`
(Verif.Model.Dim) is the case the library computes with; `Props/DimN` relates the two.

The storage is an array of `max(N, 3)` ints (dim.h:14-19). A component no constructor has written is `none`;
using its value is undefined behaviour. Copying a `Dim` copies the representation and is defined also then.
-/

namespace Cnn

/-- dim.h:12-19: the union, seen as the array `data` of `max(N, 3)` ints. -/
structure DimN (N : Nat) where
  data : List (Option Int)
  len : data.length = max N 3

namespace DimN

variable {N : Nat}

theorem ext' {a b : DimN N} (h : a.data = b.data) : a = b := by
  cases a; cases b; cases h; rfl

instance : DecidableEq (DimN N) := fun a b =>
  if h : a.data = b.data then isTrue (ext' h) else isFalse fun e => h (e ▸ rfl)

/-- Use of the value of an `int` object. -/
def use : Option Int → Res Int
  | some v => .ok v
  | none => .ub

/-- Conversion of an integer to `int` (32 bits, two's complement). -/
def toInt (n : Int) : Int := (n + 2147483648) % 4294967296 - 2147483648

/-- An argument of a constructor: whether its type is exactly `int`, and its value. -/
structure Arg where
  isInt : Bool
  val : Int

/-- dim.h:22-24 `Dim(int val)`: `std::fill` over the whole array. -/
def fill (N : Nat) (v : Int) : DimN N := ⟨List.replicate (max N 3) (some v), by simp⟩

/-- dim.h:26-32 `Dim(ValSet... vals)`: the values are written to the front of the array; the rest stays
indeterminate. The second `static_assert` is the hypothesis. -/
def pack (N : Nat) (vs : List Int) (h : vs.length ≤ N) : DimN N :=
  ⟨vs.map (fun v => some (toInt v)) ++ List.replicate (max N 3 - vs.length) none, by
    simp; omega⟩

/-- `Dim<N>(args...)`. Overload resolution prefers `Dim(int val = 0)` over the template when there is no
argument, or one of type `int`; an argument of any other integral type matches the template better. -/
def make (N : Nat) (args : List Arg) (h : args.length ≤ N) : DimN N :=
  match args, h with
  | [], _ => fill N 0
  | [a], h => if a.isInt then fill N a.val else pack N [a.val] (by simpa using h)
  | a :: b :: as, h => pack N ((a :: b :: as).map Arg.val) (by simpa using h)

/-- `std::equal` over two arrays of the same length, as `std::array::operator==` runs it. -/
def sameLoop : List (Option Int) → List (Option Int) → Res Bool
  | a :: as, b :: bs => do
    let x ← use a
    let y ← use b
    if x = y then sameLoop as bs else .ok false
  | _, _ => .ok true

/-- dim.h:60-62 `operator==`: the whole arrays are compared. -/
def same (a b : DimN N) : Res Bool := sameLoop a.data b.data

/-- dim.h:64-66 `operator!=`: `!(other == *this)`. -/
def differ (a b : DimN N) : Res Bool := do
  let e ← same b a
  .ok (!e)

/-- The loops of dim.h:70-72 and 78-80. -/
def zipLoop (op : Int → Int → Int) : List (Option Int) → List (Option Int) → Res (List Int)
  | a :: as, b :: bs => do
    let x ← use a
    let y ← use b
    let v ← chk (op x y)
    let rest ← zipLoop op as bs
    .ok (v :: rest)
  | _, _ => .ok []

/-- dim.h:69-73, 77-81: `Dim<N> result;` is all zeros, then its first `N` components are written. -/
def componentwise (op : Int → Int → Int) (a b : DimN N) : Res (DimN N) := do
  let vs ← zipLoop op (a.data.take N) (b.data.take N)
  .ok ⟨(vs.map some ++ (fill N 0).data.drop vs.length).take (max N 3), by simp [fill]; omega⟩

/-- dim.h:68-74 `operator+`. -/
def add (a b : DimN N) : Res (DimN N) := componentwise (· + ·) a b

/-- dim.h:76-82 `operator-`. -/
def sub (a b : DimN N) : Res (DimN N) := componentwise (· - ·) a b

/-- The loop of dim.h:86-88, in `size_t`. -/
def sizeLoop : List (Option Int) → Nat → Res Nat
  | [], out => .ok out
  | a :: as, out => do
    let x ← use a
    sizeLoop as (out * u64 x % 18446744073709551616)

/-- dim.h:84-90 `size()`. -/
def size (d : DimN N) : Res Nat := sizeLoop (d.data.take N) 1

/-- The loop of dim.h:95-98, in `size_t`. -/
def flatLoop : List (Option Int) → List (Option Int) → Nat → Nat → Res Nat
  | d :: ds, o :: os, out, prod => do
    let y ← use o
    let out := (out + u64 y * prod % 18446744073709551616) % 18446744073709551616
    let x ← use d
    flatLoop ds os out (prod * u64 x % 18446744073709551616)
  | _, _, out, _ => .ok out

/-- dim.h:92-100 `getFlatIdx(other)`. -/
def flat (d other : DimN N) : Res Nat := flatLoop (d.data.take N) (other.data.take N) 0 1

/-- dim.h:34-37 and 43-47: a move copies and then clears the source. Returns destination and source. -/
def move (src : DimN N) : DimN N × DimN N := (src, fill N 0)

/-- The loop of dim.h:51-57. -/
def textLoop : List (Option Int) → Res String
  | [] => .ok ""
  | [a] => do
    let x ← use a
    .ok (toString x ++ ")")
  | a :: as => do
    let x ← use a
    let rest ← textLoop as
    .ok (toString x ++ (", " ++ rest))

/-- dim.h:49-59 `operator<<` (decimal output, the stream's default). -/
def text (d : DimN N) : Res String := do
  let rest ← textLoop (d.data.take N)
  .ok ("(" ++ rest)

/-- The loop of dim.h:117-123 from component `i` on, over what is left of `dim.data` and `idx.data`. -/
def nextLoop : List (Option Int) → List (Option Int) → Res (List (Option Int))
  | d :: ds, i :: is => do
    let x ← use i
    let x1 ← chk (x + 1)
    let y ← use d
    if x1 < y ∨ ds = [] then .ok (some x1 :: is)
    else do
      let rest ← nextLoop ds is
      .ok (some 0 :: rest)
  | _, is => .ok is

/-- dim.h:116-125 `DimIterator<N>::operator++`: the new `idx`. -/
def next (dim idx : DimN N) : Res (DimN N) := do
  let front ← nextLoop (dim.data.take N) (idx.data.take N)
  .ok ⟨(front ++ idx.data.drop N ++ List.replicate (max N 3) none).take (max N 3), by simp; omega⟩

/-- The two representations of a `dim3`. -/
def of3 (d : Dim3) : DimN 3 := ⟨[some d.x, some d.y, some d.z], rfl⟩

end DimN

end Cnn
