import Verif.Spec.Real
import Verif.Lemmas.Expr
import Verif.Lemmas.Reduce
/-! Helper lemmas on the activation functions and softmax over ℝ (C23–C28). -/
namespace Cnn
open Real

theorem real_lt (a b : ℝ) : Num.real.lt a b = decide (a < b) := rfl

theorem eval_real (f : ActFn) (x : ℝ) : f.eval Num.real x = actSpec f x := by
  cases f
  · simp only [ActFn.eval, actSpec, real_lt, decide_eq_true_eq]
    split_ifs with h
    · rw [max_eq_left h.le]
    · rw [max_eq_right (not_lt.mp h)]
  · simp [ActFn.eval, actSpec, Num.real, Real.sigmoid]
  · rfl
  · rfl
  · simp only [ActFn.eval, actSpec, Num.max, decide_eq_true_eq, Num.real]
    by_cases h : 0 ≤ x
    · rw [if_pos h]
      split_ifs with h'
      · rfl
      · nlinarith
    · rw [if_neg h, if_neg (by nlinarith)]

theorem tanh_eq (x : ℝ) : Real.tanh x = 2 * Real.sigmoid (2 * x) - 1 := by
  rw [Real.tanh_eq_sinh_div_cosh, Real.sinh_eq, Real.cosh_eq, Real.sigmoid_def]
  have h1 : Real.exp (-(2 * x)) = Real.exp (-x) * Real.exp (-x) := by rw [← Real.exp_add]; ring_nf
  have h2 : Real.exp x = (Real.exp (-x))⁻¹ := by rw [Real.exp_neg, inv_inv]
  have h3 := Real.exp_pos (-x)
  rw [h1, h2]
  field_simp
  ring

theorem tanh_strictMono : StrictMono Real.tanh := by
  intro a b h
  rw [tanh_eq, tanh_eq]
  have := Real.sigmoid_strictMono (show 2 * a < 2 * b by linarith)
  linarith

theorem hasDerivAt_tanh (x : ℝ) : HasDerivAt Real.tanh (1 - Real.tanh x * Real.tanh x) x := by
  have e : Real.tanh = fun x => 2 * Real.sigmoid (2 * x) - 1 := funext tanh_eq
  have h := ((Real.hasDerivAt_sigmoid (2 * x)).comp x ((hasDerivAt_id x).const_mul 2)).const_mul 2 |>.sub_const 1
  have h' : HasDerivAt (fun x => 2 * Real.sigmoid (2 * x) - 1)
      (2 * (Real.sigmoid (2 * x) * (1 - Real.sigmoid (2 * x)) * (2 * 1))) x := h
  rw [← e] at h'
  refine h'.congr_deriv ?_
  rw [tanh_eq]
  ring

theorem tanh_bounds (x : ℝ) : -1 < Real.tanh x ∧ Real.tanh x < 1 := by
  rw [tanh_eq]
  have h1 := Real.sigmoid_pos (2 * x)
  have h2 := Real.sigmoid_lt_one (2 * x)
  constructor <;> linarith

theorem actSpec_mono (f : ActFn) : Monotone (actSpec f) := by
  intro a b h
  cases f
  · exact max_le_max h le_rfl
  · exact Real.sigmoid_monotone h
  · exact h
  · exact tanh_strictMono.monotone h
  · simp only [actSpec]
    split_ifs <;> linarith

/-! ### Softmax -/

theorem sumExp_pos {n : Nat} (hn : 0 < n) (v : Nat → ℝ) : 0 < ∑ j ∈ Finset.range n, Real.exp (v j) :=
  Finset.sum_pos (fun _ _ => Real.exp_pos _) ⟨0, Finset.mem_range.2 hn⟩

theorem softmax_shift (n : Nat) (v : Nat → ℝ) (c : ℝ) (i : Nat) : softmax n (fun j => v j - c) i = softmax n v i := by
  have h : ∀ j, Real.exp (v j - c) = Real.exp (v j) / Real.exp c := fun j => Real.exp_sub _ _
  unfold softmax
  simp only [h]
  rw [← Finset.sum_div]
  have := Real.exp_pos c
  by_cases hs : ∑ j ∈ Finset.range n, Real.exp (v j) = 0
  · simp [hs]
  · field_simp

theorem softmax_sum {n : Nat} (hn : 0 < n) (v : Nat → ℝ) : ∑ i ∈ Finset.range n, softmax n v i = 1 := by
  unfold softmax
  rw [← Finset.sum_div]
  exact div_self (sumExp_pos hn v).ne'

/-- The sum as a function of one input. -/
theorem hasDerivAt_sumExp {n i : Nat} (hi : i < n) (v : Nat → ℝ) :
    HasDerivAt (fun s => ∑ j ∈ Finset.range n, Real.exp (Function.update v i s j)) (Real.exp (v i)) (v i) := by
  have h : ∀ j ∈ Finset.range n, HasDerivAt (fun s => Real.exp (Function.update v i s j))
      (if j = i then Real.exp (v i) else 0) (v i) := by
    intro j _
    by_cases hj : j = i
    · subst hj
      simpa using Real.hasDerivAt_exp (v j)
    · simp only [Function.update_of_ne hj, if_neg hj]
      exact hasDerivAt_const _ _
  have := HasDerivAt.fun_sum h
  rw [Finset.sum_ite_eq' (Finset.range n) i] at this
  simpa [hi] using this

theorem log_softmax {n : Nat} (hn : 0 < n) (v : Nat → ℝ) (t : Nat) :
    Real.log (softmax n v t) = v t - Real.log (∑ j ∈ Finset.range n, Real.exp (v j)) := by
  unfold softmax
  rw [Real.log_div (Real.exp_pos _).ne' (sumExp_pos hn v).ne', Real.log_exp]

/-- The derivative of the cross entropy. -/
theorem hasDerivAt_nll {n i : Nat} (hi : i < n) (v : Nat → ℝ) (t : Nat) :
    HasDerivAt (fun s => -Real.log (softmax n (Function.update v i s) t))
      (softmax n v i - if i = t then 1 else 0) (v i) := by
  have hn : 0 < n := by omega
  have e : (fun s => -Real.log (softmax n (Function.update v i s) t)) =
      fun s => Real.log (∑ j ∈ Finset.range n, Real.exp (Function.update v i s j)) - Function.update v i s t := by
    funext s
    rw [log_softmax hn]
    ring
  rw [e]
  have h1 := (hasDerivAt_sumExp hi v).log (by simpa using (sumExp_pos hn v).ne')
  have h2 : HasDerivAt (fun s => Function.update v i s t) (if i = t then 1 else 0) (v i) := by
    by_cases h : i = t
    · subst h
      simpa using hasDerivAt_id' (v i)
    · simp only [Function.update_of_ne (Ne.symm h), if_neg h]
      exact hasDerivAt_const _ _
  simpa [softmax] using h1.fun_sub h2

end Cnn
