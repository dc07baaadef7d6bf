import Verif.Lemmas.DoubleExact
/-!
# The values of type `double`

`Double` (Double.lean) contains all real numbers; here are only those that a `double` of /repo (`SimpleMatrix<double>`) can
hold, with the same operations. Simplifications: as in Double.lean.
-/
namespace Cnn

/-- An infinity, NaN or a number of the format. -/
def Double.Real64 : Double → Prop
  | .num x => Format.double.Has x
  | _ => True

/-- The values of type `double`. -/
def Binary64 : Type := { d : Double // d.Real64 }

namespace Double

theorem of_real64 (x : ℝ) : (of x).Real64 := by
  unfold of round
  split
  · rename_i h
    exact ⟨Format.round_has .double (by decide) x, h⟩
  · trivial

theorem Real64.of_eq {x : ℝ} (h : Format.double.Has x) : of x = num x := by
  obtain ⟨⟨m, e, h1, h2, h3⟩, h4⟩ := h
  have hr : Format.double.round x = x := Format.round_exact .double (by decide) m e h3 h1 h2
  unfold of round
  rw [hr, if_pos h4]

theorem real64_exact (m e : ℤ) {x : ℝ} (hx : x = m * 2 ^ e) (hm : |m| < 2 ^ 53) (h1 : -1074 ≤ e) (h2 : e ≤ 970) : (num x).Real64 := by
  rw [← of_exact m e hx hm h1 h2]
  exact of_real64 x

theorem real64_zero : Real64 0 := real64_exact 0 0 (by simp) (by norm_num) (by norm_num) (by norm_num)
theorem real64_one : Real64 1 := real64_exact 1 0 (by simp) (by norm_num) (by norm_num) (by norm_num)

theorem Real64.neg {a : Double} (h : a.Real64) : (-a).Real64 := by
  cases a with
  | num x =>
    obtain ⟨⟨m, e, h1, h2, h3⟩, h4⟩ := h
    exact ⟨⟨-m, e, by push_cast; rwa [abs_neg], h2, by rw [h3]; push_cast; ring⟩, by rwa [abs_neg]⟩
  | inf s => trivial
  | nan => trivial

theorem real64_add (a b : Double) : (a + b).Real64 := by
  cases a <;> cases b <;> first | exact of_real64 _ | trivial | skip
  rename_i s t
  show Real64 (if s = t then inf s else nan)
  split <;> trivial

theorem real64_sub (a b : Double) : (a - b).Real64 := by
  cases a <;> cases b <;> first | exact of_real64 _ | trivial | skip
  rename_i s t
  show Real64 (if s = t then nan else inf s)
  split <;> trivial

theorem real64_mul (a b : Double) : (a * b).Real64 := by
  cases a <;> cases b <;> first | exact of_real64 _ | trivial | skip
  · rename_i x s
    show Real64 (if x = 0 then nan else inf (s != decide (x < 0)))
    split <;> trivial
  · rename_i s x
    show Real64 (if x = 0 then nan else inf (s != decide (x < 0)))
    split <;> trivial

theorem real64_div (a b : Double) : (a / b).Real64 := by
  cases a <;> cases b <;> first | trivial | skip
  · rename_i x y
    show Real64 (if y = 0 then (if x = 0 then nan else inf (decide (x < 0))) else of (x / y))
    split
    · split <;> trivial
    · exact of_real64 _
  · exact real64_zero

end Double

namespace Binary64
open Double

noncomputable instance : Zero Binary64 := ⟨⟨0, real64_zero⟩⟩
noncomputable instance : One Binary64 := ⟨⟨1, real64_one⟩⟩
noncomputable instance : Neg Binary64 := ⟨fun a => ⟨-a.1, a.2.neg⟩⟩
noncomputable instance : Add Binary64 := ⟨fun a b => ⟨a.1 + b.1, real64_add _ _⟩⟩
noncomputable instance : Sub Binary64 := ⟨fun a b => ⟨a.1 - b.1, real64_sub _ _⟩⟩
noncomputable instance : Mul Binary64 := ⟨fun a b => ⟨a.1 * b.1, real64_mul _ _⟩⟩
noncomputable instance : Div Binary64 := ⟨fun a b => ⟨a.1 / b.1, real64_div _ _⟩⟩

theorem ext {a b : Binary64} (h : a.1 = b.1) : a = b := Subtype.ext h

/-- Zero is neutral: a `double` is not rounded again. -/
theorem zero_add (a : Binary64) : 0 + a = a := by
  obtain ⟨a, ha⟩ := a
  refine ext ?_
  show (0 : Double) + a = a
  cases a with
  | num x =>
    show of (0 + x) = num x
    rw [_root_.zero_add]
    exact Real64.of_eq ha
  | inf s => rfl
  | nan => rfl

theorem add_comm (a b : Binary64) : a + b = b + a := by
  obtain ⟨a, ha⟩ := a
  obtain ⟨b, hb⟩ := b
  refine ext ?_
  show a + b = b + a
  cases a <;> cases b <;> first | rfl | skip
  · rename_i x y
    show of (x + y) = of (y + x)
    rw [_root_.add_comm]
  · rename_i s t
    show (if s = t then inf s else nan) = if t = s then inf t else nan
    by_cases h : s = t
    · rw [if_pos h, if_pos h.symm, h]
    · rw [if_neg h, if_neg (Ne.symm h)]

/-- `Double.arith` and the conversion to `float` stay within the values of type `double`. -/
theorem arith_real64 : (∀ a : Double, (arith.exp a).Real64) ∧ (∀ a : Double, (arith.tanh a).Real64) ∧ (∀ a : Double, (arith.sqrt a).Real64) ∧
    (∀ a : Double, (arith.log2 a).Real64) ∧ (∀ n, (arith.ofNat n).Real64) ∧ arith.slopeF.Real64 ∧ arith.slopeD.Real64 ∧ arith.eps.Real64 ∧
    ∀ a : Double, (toFloat a).Real64 := by
  refine ⟨?_, ?_, ?_, ?_, fun n => of_real64 n, ?_, ?_, ?_, ?_⟩
  · intro a
    match a with
    | .num x => exact of_real64 _
    | .inf true => exact real64_zero
    | .inf false => trivial
    | .nan => trivial
  · intro a
    match a with
    | .num x => exact of_real64 _
    | .inf true =>
      show Real64 (num (if true = true then -1 else 1))
      rw [if_pos rfl]
      exact real64_exact (-1) 0 (by simp) (by norm_num) (by norm_num) (by norm_num)
    | .inf false => exact real64_one
    | .nan => trivial
  · intro a
    match a with
    | .num x =>
      show Real64 (if x < 0 then nan else of (Real.sqrt x))
      split
      · trivial
      · exact of_real64 _
    | .inf true => trivial
    | .inf false => trivial
    | .nan => trivial
  · intro a
    match a with
    | .num x =>
      show Real64 (if x < 0 then nan else if x = 0 then inf true else of (Real.logb 2 x))
      split
      · trivial
      · split
        · trivial
        · exact of_real64 _
    | .inf true => trivial
    | .inf false => trivial
    | .nan => trivial
  · exact real64_exact 13421773 (-27) (by norm_num) (by norm_num) (by norm_num) (by norm_num)
  · exact real64_exact 3602879701896397 (-55) (by norm_num) (by norm_num) (by norm_num) (by norm_num)
  · exact real64_exact 10995116 (-40) (by norm_num) (by norm_num) (by norm_num) (by norm_num)
  · intro a
    match a with
    | .num x =>
      show Real64 (Double.round .float x)
      unfold Double.round
      split
      · rename_i h
        obtain ⟨m, e, h1, h2, h3⟩ := Format.round_has .float (by decide) x
        refine ⟨⟨m, e, h1.trans (zpow_lt_zpow_right₀ (by norm_num) (by decide)), le_trans (by decide) h2, h3⟩, h.trans (zpow_lt_zpow_right₀ (by norm_num) (by decide))⟩
      · trivial
    | .inf s => trivial
    | .nan => trivial

/-- The arithmetic of the program. -/
noncomputable def arith : Num Binary64 where
  exp a := ⟨Double.arith.exp a.1, arith_real64.1 _⟩
  tanh a := ⟨Double.arith.tanh a.1, arith_real64.2.1 _⟩
  sqrt a := ⟨Double.arith.sqrt a.1, arith_real64.2.2.1 _⟩
  log2 a := ⟨Double.arith.log2 a.1, arith_real64.2.2.2.1 _⟩
  ofNat n := ⟨Double.arith.ofNat n, arith_real64.2.2.2.2.1 _⟩
  lt a b := Double.lt a.1 b.1
  slopeF := ⟨Double.arith.slopeF, arith_real64.2.2.2.2.2.1⟩
  slopeD := ⟨Double.arith.slopeD, arith_real64.2.2.2.2.2.2.1⟩
  eps := ⟨Double.arith.eps, arith_real64.2.2.2.2.2.2.2.1⟩

noncomputable def toFloat (a : Binary64) : Binary64 := ⟨Double.toFloat a.1, arith_real64.2.2.2.2.2.2.2.2 _⟩

end Binary64

/-- The environment of the program with any random numbers. -/
noncomputable def binary64Env (draws : Nat → Nat → Binary64) : Env Binary64 := ⟨Binary64.arith, draws, Binary64.toFloat, .dimsFirst⟩

end Cnn
