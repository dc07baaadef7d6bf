import Verif.Lemmas.Show
import Verif.Lemmas.Shows
import Mathlib.Data.Nat.Digits.Defs
import Mathlib.Tactic.Linarith
import Mathlib.Tactic.NormNum

/-!
C78: printing a matrix with `<<` shows its entries row by row, floating ones with two decimals in columns, and
leaves the formatting of the streams as it was.

The layout is right for every matrix and every stream. The rest is false of the code: the two decimals are set
on `std::cout` whatever stream is printed to, and `std::cout` does not keep its notation.
-/

namespace Cnn

open Show

variable {α : Type}

/-- The formatting in which `<<` writes its entries: that of `std::cout` with two decimals when it prints
floating numbers to `std::cout`, and otherwise that of the stream. -/
def Show.used (N : Elem α) (t : Target) (w : World) : Fmt :=
  match t with
  | .cout => if N.float then { w.cout.fmt with prec := 2, notat := .fixed } else w.cout.fmt
  | .other => w.other.fmt

/-- What `<<` writes, for a stream that pads with blanks on the left (the default) and has no width pending:
the rows one below the other, the layers side by side, each entry as a sign or a blank and its magnitude flush
right in 7 columns (4 for integers). -/
theorem C78_layout (N : Elem α) (t : Target) {M : MExpr α} {X Y Z : Nat} {f m : Nat → Nat → Nat → α}
    (hM : M.Shows X Y Z f) (hm : ∀ i < X, ∀ j < Y, ∀ k < Z, N.mag (f i j k) = .ok (m i j k))
    (w : World) (h0 : (w.get t).fmt.width = 0) (ha : (w.get t).fmt.adjust ≠ .left)
    (hf : (w.get t).fmt.fill = ' ') :
    ∃ w', print N t M w = .ok w' ∧
      (w'.get t).out = (w.get t).out ++ layout X Y Z fun i j k =>
        (if N.neg (f i j k) then '-' else ' ') ::
          flushRight (if N.float then 7 else 4)
            (N.text { used N t w with width := if N.float then 7 else 4 } (m i j k)) := by
  cases t with
  | cout =>
    unfold print
    simp only [World.get] at h0 ha hf ⊢
    set F : Fmt := used N .cout w with hF
    have hw : F.width = 0 := by rw [hF, used]; split <;> exact h0
    have ha' : F.adjust ≠ .left := by rw [hF, used]; split <;> exact ha
    have hf' : F.fill = ' ' := by rw [hF, used]; split <;> exact hf
    have e : (World.cout (if N.float = true then { w with cout := w.cout.setFloat 2 .fixed } else w))
        = ⟨F, w.cout.out⟩ := by rw [hF, used]; split <;> rfl
    rw [e, body_ok N _ hM hm F hw]
    refine ⟨_, rfl, ?_⟩
    simp only [World.set, OStream.setFloat, cell]
    congr 2
    funext i j k
    cases N.float <;> simp [← pad_right F ha' hf']
  | other =>
    unfold print
    simp only [World.get] at h0 ha hf ⊢
    have e : (World.other (if N.float = true then { w with cout := w.cout.setFloat 2 .fixed } else w))
        = ⟨w.other.fmt, w.other.out⟩ := by split <;> rfl
    rw [e, body_ok N _ hM hm w.other.fmt h0]
    refine ⟨_, rfl, ?_⟩
    simp only [World.set, cell]
    congr 2
    funext i j k
    cases N.float <;> simp [← pad_right w.other.fmt ha hf, used]

/-- What becomes of the formatting: the stream keeps everything if it is not `std::cout`; `std::cout` keeps all
but its notation, which is the general one afterwards, also when only another stream was printed to. -/
theorem C78_state_partial (N : Elem α) (t : Target) {M : MExpr α} {X Y Z : Nat} {f m : Nat → Nat → Nat → α}
    (hM : M.Shows X Y Z f) (hm : ∀ i < X, ∀ j < Y, ∀ k < Z, N.mag (f i j k) = .ok (m i j k))
    (w : World) (h0 : (w.get t).fmt.width = 0) (hp : I32 w.cout.fmt.prec) :
    ∃ w', print N t M w = .ok w' ∧ w'.other.fmt = w.other.fmt ∧
      w'.cout.fmt = { w.cout.fmt with notat := .general } ∧
      (t = .other → w'.cout.out = w.cout.out) ∧ (t = .cout → w'.other.out = w.other.out) := by
  have hwrap : wrap32 w.cout.fmt.prec = w.cout.fmt.prec := by
    unfold I32 at hp; unfold wrap32; omega
  cases t with
  | cout =>
    unfold print
    simp only [World.get] at h0 ⊢
    set F : Fmt := used N .cout w with hF
    have hw : F.width = 0 := by rw [hF, used]; split <;> exact h0
    have e : (World.cout (if N.float = true then { w with cout := w.cout.setFloat 2 .fixed } else w))
        = ⟨F, w.cout.out⟩ := by rw [hF, used]; split <;> rfl
    rw [e, body_ok N _ hM hm F hw]
    refine ⟨_, rfl, ?_, ?_, fun h => (by cases h), fun _ => ?_⟩
    · simp only [World.set]; split <;> rfl
    · simp only [World.set, OStream.setFloat, hwrap, hF, used]; split <;> rfl
    · simp only [World.set]; split <;> rfl
  | other =>
    unfold print
    simp only [World.get] at h0 ⊢
    have e : (World.other (if N.float = true then { w with cout := w.cout.setFloat 2 .fixed } else w))
        = ⟨w.other.fmt, w.other.out⟩ := by split <;> rfl
    rw [e, body_ok N _ hM hm w.other.fmt h0]
    refine ⟨_, rfl, rfl, ?_, fun _ => ?_, fun h => (by cases h)⟩
    · simp only [World.set, OStream.setFloat, hwrap]; split <;> rfl
    · simp only [World.set, OStream.setFloat]; split <;> rfl

/-- The formatting is not always as before: printing any matrix, to any stream, after `std::cout << std::fixed`
leaves `std::cout` without it. -/
theorem C78_violated (N : Elem α) (t : Target) {M : MExpr α} {X Y Z : Nat} {f m : Nat → Nat → Nat → α}
    (hM : M.Shows X Y Z f) (hm : ∀ i < X, ∀ j < Y, ∀ k < Z, N.mag (f i j k) = .ok (m i j k))
    (w : World) (h0 : (w.get t).fmt.width = 0) (hp : I32 w.cout.fmt.prec) (hn : w.cout.fmt.notat = .fixed) :
    ∃ w', print N t M w = .ok w' ∧ w'.cout.fmt ≠ w.cout.fmt := by
  obtain ⟨w', e, _, h, _⟩ := C78_state_partial N t hM hm w h0 hp
  refine ⟨w', e, fun h' => ?_⟩
  rw [h'] at h
  have := congrArg Fmt.notat h
  rw [hn] at this
  cases this

private theorem digits_length (n e : Nat) (he : 0 < e) (h : n < 10 ^ e) : (digits n).length ≤ e := by
  have : (Nat.repr n).length ≤ e := Nat.repr_length n e he h
  exact this

private theorem centText_length (c : Nat) (h : c < 1000000) : (centText c).length ≤ 7 := by
  have h1 := digits_length (c / 100) 4 (by decide) (by norm_num; omega)
  have h2 := digits_length (c / 10 % 10) 1 (by decide) (by omega)
  have h3 := digits_length (c % 10) 1 (by decide) (by omega)
  simp only [centText, List.length_append, List.length_cons, List.length_nil]
  omega

/-- Rows of floating numbers printed to `std::cout` line up as long as every magnitude is below 9999.995 (`C78_wide`
shows that they need not from there on). -/
theorem C78_aligned (N : Elem ℚ) (hfl : N.float = true)
    (htext : ∀ F q, F.prec = 2 → F.notat = .fixed → 0 ≤ q → ∃ c, Cents q c ∧ N.text F q = centText c)
    {M : MExpr ℚ} {X Y Z : Nat} {f m : Nat → Nat → Nat → ℚ} (hM : M.Shows X Y Z f)
    (hm : ∀ i < X, ∀ j < Y, ∀ k < Z, N.mag (f i j k) = .ok (m i j k))
    (hb : ∀ i < X, ∀ j < Y, ∀ k < Z, 0 ≤ m i j k ∧ m i j k < 9999.995)
    (w : World) (h0 : w.cout.fmt.width = 0) (ha : w.cout.fmt.adjust ≠ .left) (hf : w.cout.fmt.fill = ' ') :
    ∃ (w' : World) (row : Nat → List Char), print N .cout M w = .ok w' ∧
      w'.cout.out = w.cout.out ++ (['\n'] ++ (List.range X).flatMap fun i => row i ++ ['\n']) ∧
      ∀ i < X, (row i).length = Z * (9 * Y + 4) := by
  obtain ⟨w', e, ho⟩ := C78_layout N .cout hM hm w h0 ha hf
  refine ⟨w', _, e, ho, fun i hi => ?_⟩
  rw [line_length Y Z 8 hM.good.y _ ?_]
  · ring
  · intro j hj k hk
    obtain ⟨h1, h2⟩ := hb i hi j hj k hk
    obtain ⟨c, hc, ht⟩ := htext { used N .cout w with width := if N.float then 7 else 4 } (m i j k)
      (by simp [used, hfl]) (by simp [used, hfl]) h1
    have hc6 : c < 1000000 := by
      have := (abs_le.1 hc).1
      have h2 : m i j k < 1999999 / 200 := by norm_num at h2; exact h2
      have : (c : ℚ) < 1000000 := by linarith
      exact_mod_cast this
    have := centText_length c hc6
    simp only [hfl, if_true] at ht
    simp only [hfl, if_true, List.length_cons, flushRight, List.length_append, List.length_replicate]
    rw [ht]
    omega

/-! ### Cases -/

/-- Integer hundredths, for the cases: the number `c` stands for `c/100`. In general notation they appear as
so many hundredths. -/
def Show.cents : Elem Int where
  float := true
  neg v := decide (v < 0)
  mag v := .ok (if v < 0 then -v else v)
  text F v := if F.prec = 2 ∧ F.notat = .fixed then centText v.natAbs else digits v.natAbs ++ ['/', '1', '0', '0']

/-- C++ `int`. -/
def Show.ints : Elem Int where
  float := false
  neg v := decide (v < 0)
  mag v := if v < 0 then chk (-v) else .ok v
  text _ v := digits v.natAbs

/-- A stream as it is at the start of a program. -/
def Show.plain : OStream := ⟨⟨6, .general, ' ', .right, 0⟩, []⟩

def Show.sample : Matrix Int := ⟨⟨2, 2, 1⟩, [150, -25, 0, 123456]⟩

example : print cents .cout sample.expr ⟨plain, plain⟩
    = .ok ⟨⟨plain.fmt, "\n[    1.50,    0.00]   \n[-   0.25, 1234.56]   \n".toList⟩, plain⟩ := by decide +kernel

/-- Two layers appear side by side. -/
example : print ints .cout (Matrix.expr ⟨⟨1, 2, 2⟩, [1, 2, 3, -4]⟩) ⟨plain, plain⟩
    = .ok ⟨⟨plain.fmt, "\n[    1,    2]   [    3,-   4]   \n".toList⟩, plain⟩ := by decide +kernel

/-- Printed to another stream the same matrix has no decimals. -/
theorem C78_violated_other : ∃ w', print cents .other sample.expr ⟨plain, plain⟩ = .ok w' ∧
    w'.other.out = "\n[ 150/100,   0/100]   \n[- 25/100, 123456/100]   \n".toList := by
  refine ⟨_, rfl, ?_⟩
  decide +kernel

/-- Rows of unequal length: the entries 1 and 10000. -/
theorem C78_wide : ∃ w', print cents .cout (Matrix.expr ⟨⟨2, 1, 1⟩, [100, 1000000]⟩) ⟨plain, plain⟩ = .ok w' ∧
    w'.cout.out = "\n[    1.00]   \n[ 10000.00]   \n".toList := by
  refine ⟨_, rfl, ?_⟩
  decide +kernel

/-- An `int` matrix that contains the least `int` cannot be printed. -/
theorem C78_least_int (w : World) :
    print ints .cout (Matrix.expr ⟨⟨1, 1, 1⟩, [-2147483648]⟩) w = .ub := rfl

/-- The hypotheses of `C78_aligned` can be met: fixed text with the number rounded half up. -/
example : ∃ N : Elem ℚ, N.float = true ∧
    ∀ F q, F.prec = 2 → F.notat = .fixed → 0 ≤ q → ∃ c, Cents q c ∧ N.text F q = centText c := by
  refine ⟨⟨true, fun q => decide (q < 0), fun q => .ok |q|, fun _ q => centText ⌊100 * q + 1 / 2⌋.toNat⟩, rfl,
    fun F q _ _ hq => ⟨_, ?_, rfl⟩⟩
  have h1 := Int.floor_le (100 * q + 1 / 2)
  have h2 := Int.lt_floor_add_one (100 * q + 1 / 2)
  have h0 : 0 ≤ ⌊100 * q + 1 / 2⌋ := Int.floor_nonneg.2 (by linarith)
  have e : ((⌊100 * q + 1 / 2⌋.toNat : ℕ) : ℚ) = (⌊100 * q + 1 / 2⌋ : ℤ) := by
    exact_mod_cast congrArg (Int.cast (R := ℚ)) (Int.toNat_of_nonneg h0)
  unfold Cents
  rw [e, abs_le]
  constructor <;> linarith

end Cnn
