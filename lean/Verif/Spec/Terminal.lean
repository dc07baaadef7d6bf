/-!
# A terminal

What a person sees of the characters a program writes: lines of cells, each with a character and a background colour. The
sequences interpreted are those of ECMA-48 which the program uses: cursor hidden `ESC[?25l` and shown `ESC[?25h`, background
colour `ESC[48;2;r;g;bm` and reset `ESC[0m`; other sequences are skipped. Lines may have any length (nothing wraps around), a
newline also returns to the first column, tab stops are at the multiples of 8.
-/
namespace Cnn

/-- One place on the screen. `none` is the default background. -/
structure Cell where
  ch : Char
  bg : Option (Nat × Nat × Nat)
  deriving DecidableEq, Repr

/-- What is being received: ordinary text, the character after ESC, or the parameters of a control sequence. -/
inductive Receiving
  | text
  | escape
  | control (params : List Char)
  deriving DecidableEq, Repr

/-- The finished lines from the top, the current line, the cursor's column and whether it is shown, the background in use. -/
structure Terminal where
  above : List (List Cell)
  line : List Cell
  col : Nat
  cursor : Bool
  bg : Option (Nat × Nat × Nat)
  mode : Receiving
  deriving DecidableEq, Repr

namespace Terminal

/-- A cleared terminal. -/
def blank : Terminal := ⟨[], [], 0, true, none, .text⟩

/-- The decimal numeral of a parameter. -/
def number (l : List Char) : Nat := l.foldl (fun n c => 10 * n + (c.toNat - 48)) 0

/-- The parts of a text between semicolons. -/
def fields : List Char → List (List Char)
  | [] => [[]]
  | c :: s => if c = ';' then [] :: fields s else
    match fields s with
    | [] => [[c]]
    | f :: fs => (c :: f) :: fs

/-- The parameters, which are separated by semicolons. -/
def numbers (params : List Char) : List Nat := (fields params).map number

/-- The effect of a control sequence with the given last character. -/
def execute (t : Terminal) (params : List Char) (last : Char) : Terminal :=
  if last = 'm' then
    match numbers params with
    | [0] => { t with bg := none }
    | [48, 2, r, g, b] => { t with bg := some (r, g, b) }
    | _ => t
  else if params = ['?', '2', '5'] then
    if last = 'l' then { t with cursor := false } else if last = 'h' then { t with cursor := true } else t
  else t

/-- A cell written over place `n` of a line; places left free before it are blank. -/
def overwrite (line : List Cell) (n : Nat) (c : Cell) : List Cell :=
  line.take n ++ List.replicate (n - line.length) ⟨' ', none⟩ ++ c :: line.drop (n + 1)

/-- One character of ordinary text. -/
def show1 (t : Terminal) (c : Char) : Terminal :=
  if c = '\n' then { t with above := t.above ++ [t.line], line := [], col := 0 }
  else if c = '\r' then { t with col := 0 }
  else if c = '\t' then { t with col := (t.col / 8 + 1) * 8 }
  else { t with line := overwrite t.line t.col ⟨c, t.bg⟩, col := t.col + 1 }

/-- One character received. -/
def receive (t : Terminal) (c : Char) : Terminal :=
  match t.mode with
  | .text => if c = Char.ofNat 27 then { t with mode := .escape } else t.show1 c
  | .escape => if c = '[' then { t with mode := .control [] } else { t with mode := .text }
  | .control ps =>
    if 64 ≤ c.toNat ∧ c.toNat ≤ 126 then ({ t with mode := .text }).execute ps c else { t with mode := .control (ps ++ [c]) }

/-- The terminal after a text was written. -/
def write (t : Terminal) (s : List Char) : Terminal := s.foldl receive t

/-- The state in which a program should leave the terminal: default colours, cursor shown, nothing half received. -/
structure Normal (t : Terminal) : Prop where
  cursor : t.cursor = true
  bg : t.bg = none
  mode : t.mode = .text

/-- At the start of an empty line. -/
structure Fresh (t : Terminal) : Prop extends t.Normal where
  line : t.line = []
  col : t.col = 0

/-- A line of plain text on default background. -/
def plain (s : List Char) : List Cell := s.map fun c => ⟨c, none⟩

/-- Text without control characters. -/
def Plain (s : List Char) : Prop := ∀ c ∈ s, c ≠ '\n' ∧ c ≠ '\r' ∧ c ≠ '\t' ∧ c ≠ Char.ofNat 27

end Terminal
end Cnn
