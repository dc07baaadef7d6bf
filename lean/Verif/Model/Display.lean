import Verif.Model.Layers
import Verif.Model.Stream
import Mathlib.Data.Rat.Floor
/-!
# Console output: printImage (include/cnn_from_scratch/imageUtil.h) and loadingBar (include/cnn_from_scratch/LoadingBar.h)

Values are rationals; every `float` operation is followed by the rounding `r32`, every `double` operation by `r64`, both
parameters of the model. An operation whose C++ result is NaN or infinite is only ever followed by a conversion to an
integer type, which is then undefined behaviour; so the model returns `ub` at a division by zero. Conversions to an
integer type truncate and are undefined outside its range. The escape sequences that surround the colour codes and the
cursor codes of the bar are in Console.lean; integer matrices are not modelled.
-/
namespace Cnn

/-- Truncating conversion of a floating number to an unsigned type with the given number of values. -/
def toUnsigned (bound : Nat) (q : ℚ) : Res Nat :=
  if -1 < q ∧ q < bound then .ok q.floor.toNat else .ub

namespace Image

/-- imageUtil.h:11-18: the code of an entry, `max` being the `max_val` and `min` the `min` of the code. -/
def bwCode (r32 r64 : ℚ → ℚ) (max min val : ℚ) : Res Nat :=
  let range := r32 (max - min)
  let dist := r32 (max - val)
  if range = 0 then .ub
  else
    let mapped := r32 (max * r32 (1 - r32 (dist / range)))
    toUnsigned 256 (Min.min (r64 (r64 (mapped / max) * 255)) 255)

/-- imageUtil.h:35. -/
def colourCode (r64 : ℚ → ℚ) (max val : ℚ) : Res Nat := toUnsigned 256 (Min.min (r64 (r64 (val / max) * 255)) 255)

/-- imageUtil.h:48-49: the largest entry, at least 1. -/
def maxVal (M : Matrix ℚ) : Res ℚ := do
  let m ← M.expr.max (fun a b => decide (a < b))
  .ok (if m < 1 then 1 else m)

/-- imageUtil.h:7-23 `printImageBWImpl`: the codes row by row. -/
def printBW (r32 r64 : ℚ → ℚ) (M : Matrix ℚ) (max : ℚ) : Res (List (List Nat)) := do
  let min ← M.expr.min (fun a b => decide (a < b))
  (List.range M.dim.x.toNat).mapM fun (x : Nat) => (List.range M.dim.y.toNat).mapM fun (y : Nat) => do
    let v ← M.read ⟨(x : Int), (y : Int), 0⟩
    bwCode r32 r64 max min v

/-- imageUtil.h:25-43 `printImageColorImpl`: three codes for each place. -/
def printColour (r64 : ℚ → ℚ) (M : Matrix ℚ) (max : ℚ) : Res (List (List (List Nat))) :=
  (List.range M.dim.x.toNat).mapM fun (x : Nat) => (List.range M.dim.y.toNat).mapM fun (y : Nat) =>
    (List.range 3).mapM fun (z : Nat) => do
      let v ← M.read ⟨(x : Int), (y : Int), (z : Int)⟩
      colourCode r64 max v

/-- imageUtil.h:45-55 `printImage`; a black-and-white place is one code. -/
def print (r32 r64 : ℚ → ℚ) (M : Matrix ℚ) : Res (List (List (List Nat))) := do
  let m ← maxVal M
  if M.dim.z = 3 then printColour r64 M m
  else do
    let rows ← printBW r32 r64 M m
    .ok (rows.map fun row => row.map fun c => [c])

end Image

/-- `std::setw(w) << std::left << t` with the fill character `c`. -/
def padRight (w : Int) (c : Char) (t : List Char) : List Char := t ++ List.replicate (w.toNat - t.length) c

/-- `std::setw(w) << std::right << t`. -/
def padLeft (w : Int) (c : Char) (t : List Char) : List Char := List.replicate (w.toNat - t.length) c ++ t

/-- LoadingBar.h:7 `occupied_width`. -/
def barFilled (r32 : ℚ → ℚ) (val total : ℚ) (width : Nat) : Res Nat :=
  if total = 0 then .ub else toUnsigned 18446744073709551616 (r32 (r32 (val / total) * r32 width))

/-- LoadingBar.h:12 `(int)(100.0*val/total+1)`. -/
def barPercent (r64 : ℚ → ℚ) (val total : ℚ) : Res Int :=
  if total = 0 then .ub
  else
    let q := r64 (r64 (r64 (100 * val) / total) + 1)
    if -2147483649 < q ∧ q < 2147483648 then .ok (if 0 ≤ q then q.floor else q.ceil) else .ub

/-- LoadingBar.h:8-11: the bar itself, from `[` to `]`. -/
def barText (filled width : Nat) : List Char :=
  padRight (wrap32 (filled + 1)) '=' ['['] ++ padLeft (wrap32 (u64 ((width : Int) - filled))) ' ' [']']

/-- LoadingBar.h:6-14 `loadingBar`: bar and percentage. -/
def loadingBar (r32 r64 : ℚ → ℚ) (val total : ℚ) (width : Nat) : Res (List Char × List Char) := do
  let f ← barFilled r32 val total width
  let p ← barPercent r64 val total
  .ok (barText f width, ' ' :: padLeft 3 ' ' (intText p) ++ ['%'])

end Cnn
