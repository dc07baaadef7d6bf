import Verif.Lemmas.Softmax
import Mathlib.Analysis.SpecialFunctions.Log.Base
import Mathlib.Analysis.Complex.ExponentialBounds
/-!
# Softmax and the loss: C25 – C28 (exact arithmetic)
-/
namespace Cnn
open Real

/-! ## C25 -/

/-- C25: an accepted input (row or column of the label count) gives `exp(x_i)/∑_j exp(x_j)` in the same shape. -/
theorem C25_formula (S : Softmax) (M : Matrix ℝ) (n : Nat) (v : Nat → ℝ) (hM : M.IsVec n v) (hc : S.count = n) :
    ∃ P, S.forward Num.real M = .ok P ∧ P.dim = M.dim ∧
      P.IsVec n (fun i => Real.exp (v i) / ∑ j ∈ Finset.range n, Real.exp (v j)) :=
  softmax_forward hM hc

/-- C25: the outputs are positive, at most 1 and sum to 1; they keep the order of the inputs, in particular the position of every maximum. -/
theorem C25_probability (S : Softmax) (M : Matrix ℝ) (n : Nat) (v : Nat → ℝ) (hM : M.IsVec n v) (hc : S.count = n) :
    ∃ P p, S.forward Num.real M = .ok P ∧ P.IsVec n p ∧ (∀ i < n, 0 < p i ∧ p i ≤ 1) ∧
      ∑ i ∈ Finset.range n, p i = 1 ∧ (∀ i < n, ∀ j < n, p i ≤ p j ↔ v i ≤ v j) := by
  obtain ⟨P, e, _, s⟩ := C25_formula S M n v hM hc
  have hn := hM.facts.1
  have hs := sumExp_pos hn v
  have hpos : ∀ i < n, 0 < softmax n v i := fun i _ => div_pos (Real.exp_pos _) hs
  refine ⟨P, _, e, s, ?_, softmax_sum hn v, ?_⟩
  · intro i hi
    refine ⟨hpos i hi, ?_⟩
    rw [← softmax_sum hn v]
    exact Finset.single_le_sum (f := softmax n v) (fun j hj => (hpos j (Finset.mem_range.1 hj)).le) (Finset.mem_range.2 hi)
  · intro i _ j _
    rw [div_le_div_iff_of_pos_right hs, Real.exp_le_exp]

/-- C25: adding a constant to all inputs does not change the result. -/
theorem C25_shift (S : Softmax) (M M' : Matrix ℝ) (n : Nat) (v : Nat → ℝ) (c : ℝ) (hM : M.IsVec n v)
    (hM' : M'.IsVec n (fun i => v i + c)) (hc : S.count = n) :
    ∃ P P' p, S.forward Num.real M = .ok P ∧ S.forward Num.real M' = .ok P' ∧ P.IsVec n p ∧ P'.IsVec n p := by
  obtain ⟨P, e, _, s⟩ := softmax_forward hM hc
  obtain ⟨P', e', _, s'⟩ := softmax_forward hM' hc
  refine ⟨P, P', _, e, e', s, s'.congr ?_⟩
  intro i _
  have := softmax_shift n (fun i => v i + c) c i
  simp only [add_sub_cancel_right] at this
  exact this.symm

/-- C25: any other non-empty input throws. -/
theorem C25_reject {α : Type} [Zero α] [One α] [Add α] [Sub α] [Mul α] [Div α] (N : Num α) (S : Softmax) (M : Matrix α)
    (X Y Z : Nat) (x : Nat → Nat → Nat → α) (hM : M.Shows X Y Z x)
    (h : ¬ (Z = 1 ∧ (X = 1 ∨ Y = 1) ∧ X * Y * Z = S.count)) : S.forward N M = .throw .modelLayer := by
  unfold Softmax.forward Softmax.checkSize
  by_cases hr : (Matrix.isColumnD M.dim || Matrix.isRowD M.dim) = true
  · rw [if_pos hr, hM.dim, MExpr.sizeD_dimN hM.good]
    have : ¬ (X * Y * Z = S.count) := by
      intro hc
      refine h ⟨?_, ?_, hc⟩ <;>
        simp only [Matrix.isColumnD, Matrix.isRowD, Matrix.isFlatD, hM.dim, Bool.or_eq_true, Bool.and_eq_true,
          decide_eq_true_eq, Nat.cast_eq_one] at hr <;> omega
    simp [this]
  · rw [if_neg hr]
    simp

/-- A column of two zeros is accepted by a two-label softmax; a 2×2 matrix is not. -/
example : (⟨dimN 2 1 1, [0, 0]⟩ : Matrix ℝ).IsVec 2 (fun _ => 0) := by
  refine Or.inr (Matrix.Shows.of_vals ⟨by omega, by omega, by omega, by omega⟩ rfl ?_)
  simp [List.range_succ]

/-! ## C26 -/

/-- C26: after `assignTrueLabel(t)` the backward pass on the layer's own output returns, at every `i`, the partial
derivative of `-ln(softmax(x)_t)` with respect to input `i`. -/
theorem C26_gradient (S S' : Softmax) (M : Matrix ℝ) (n t : Nat) (v : Nat → ℝ) (hM : M.IsVec n v) (hc : S.count = n)
    (ht : S.assignTrueLabel t = (.ok (), S')) (Q G : Matrix ℝ) :
    ∃ P D g, S'.forward Num.real M = .ok P ∧ S'.backward Q P G = .ok D ∧ D.dim = M.dim ∧ D.IsVec n g ∧
      (∀ i < n, HasDerivAt (fun s => -Real.log (softmax n (Function.update v i s) t)) (g i) (v i)) ∧
      ∑ i ∈ Finset.range n, g i = 0 := by
  unfold Softmax.assignTrueLabel at ht
  split_ifs at ht with hlt
  · simp at ht
  obtain rfl : { S with trueLabel := t, knows := true } = S' := by simpa using ht
  have htn : t < n := by omega
  obtain ⟨P, e, d, s⟩ := softmax_forward (S := { S with trueLabel := t, knows := true }) hM hc
  obtain ⟨D, e1, d1, s1⟩ := s.setFlat htn (softmax n v t - 1)
  have hg : ∀ i, Function.update (softmax n v) t (softmax n v t - 1) i = softmax n v i - if i = t then 1 else 0 := by
    intro i
    by_cases h : i = t
    · subst h; simp
    · simp [h]
  refine ⟨P, D, _, e, ?_, d1.trans d, s1.congr (fun i _ => hg i), ?_, ?_⟩
  · simp [Softmax.backward, Softmax.getdLdX, s.flat htn, e1]
  · intro i hi
    exact hasDerivAt_nll hi v t
  · rw [Finset.sum_sub_distrib, softmax_sum hM.facts.1, Finset.sum_ite_eq']
    simp [htn]

/-- C26: `assignTrueLabel` throws `out_of_range` exactly for labels that do not exist and then changes nothing;
otherwise it succeeds. -/
theorem C26_assign (S : Softmax) (t : Nat) :
    (S.count ≤ t → S.assignTrueLabel t = (.throw .outOfRange, S)) ∧
    (t < S.count → ∃ S', S.assignTrueLabel t = (.ok (), S') ∧ S'.count = S.count) := by
  constructor
  · intro h; simp [Softmax.assignTrueLabel, h]
  · intro h; exact ⟨⟨S.count, t, true⟩, by rw [Softmax.assignTrueLabel, if_neg (by omega)], rfl⟩

/-- C26: a freshly constructed layer, and one that has only rejected labels, refuses to propagate backwards. -/
theorem C26_no_label (count : Nat) (ts : List Nat) (hts : ∀ t ∈ ts, count ≤ t) (X Z G : Matrix ℝ) :
    (ts.foldl (fun S t => (Softmax.assignTrueLabel S t).2) (Softmax.new count)).backward X Z G = .throw .modelLayer := by
  have : ts.foldl (fun S t => (Softmax.assignTrueLabel S t).2) (Softmax.new count) = Softmax.new count := by
    induction ts with
    | nil => rfl
    | cons t ts ih =>
      rw [List.foldl_cons, (C26_assign (Softmax.new count) t).1 (hts t (by simp))]
      exact ih (fun u hu => hts u (by simp [hu]))
  rw [this]
  rfl

/-- Two labels, true label 1: from probabilities `p` the gradient is `p - (0,1)`. -/
example : (do
    let (_, S) := (Softmax.new 2).assignTrueLabel 1
    S.backward (⟨dimN 2 1 1, [0, 0]⟩ : Matrix Int) ⟨dimN 2 1 1, [3, 4]⟩ Matrix.empty) = .ok ⟨dimN 2 1 1, [3, 3]⟩ := by
  decide

/-! ## C27 -/

/-- The constant `eps` of `lossFcn`. -/
theorem eps_bounds : (0 : ℝ) < Num.real.eps ∧ Num.real.eps < 1 / 10000 := by
  constructor <;> norm_num [Num.real]

theorem loss_eq (P : Matrix ℝ) (n t : Nat) (p : Nat → ℝ) (hP : P.IsVec n p) (ht : t < n) :
    lossFcn Num.real P t = .ok (max (-Real.logb 2 (p t + Num.real.eps)) 0) := by
  simp only [lossFcn, hP.flat ht, Res.bind_ok]
  congr 1
  simp only [Num.max, real_lt, decide_eq_true_eq]
  have : (Num.real.log2 (p t + Num.real.eps)) = Real.logb 2 (p t + Num.real.eps) := rfl
  rw [this]
  split_ifs with h
  · rw [max_eq_right (by linarith)]
  · rw [max_eq_left (by linarith)]; ring

/-- C27: the loss of a probability vector is never negative, is 0 exactly when the true label's probability is at
least `1 - eps`, and never exceeds `log2(1/eps)`. -/
theorem C27_range (P : Matrix ℝ) (n t : Nat) (p : Nat → ℝ) (hP : P.IsVec n p) (ht : t < n) (h0 : 0 ≤ p t) :
    ∃ l, lossFcn Num.real P t = .ok l ∧ 0 ≤ l ∧ (l = 0 ↔ 1 - Num.real.eps ≤ p t) ∧ l ≤ Real.logb 2 (1 / Num.real.eps) := by
  have he := eps_bounds
  have hp : 0 < p t + Num.real.eps := by linarith
  refine ⟨_, loss_eq P n t p hP ht, le_max_right _ _, ?_, ?_⟩
  · rw [max_eq_right_iff, neg_nonpos, Real.logb_nonneg_iff (by norm_num) hp]
    constructor <;> intro h <;> linarith
  · rw [one_div, Real.logb_inv]
    refine max_le ?_ ?_
    · have := Real.logb_le_logb_of_le (b := 2) (by norm_num) he.1 (show Num.real.eps ≤ p t + Num.real.eps by linarith)
      linarith
    · have := Real.logb_nonpos (b := 2) (by norm_num) he.1.le (show Num.real.eps ≤ 1 by linarith)
      linarith

/-- C27: a larger probability of the true label never gives a larger loss, and gives a strictly smaller one unless it is
already 0. -/
theorem C27_decreasing (P P' : Matrix ℝ) (n t : Nat) (p p' : Nat → ℝ) (hP : P.IsVec n p) (hP' : P'.IsVec n p') (ht : t < n)
    (h0 : 0 ≤ p t) (hlt : p t < p' t) :
    ∃ l l', lossFcn Num.real P t = .ok l ∧ lossFcn Num.real P' t = .ok l' ∧ l' ≤ l ∧ (0 < l → l' < l) := by
  have he := eps_bounds
  have hp : 0 < p t + Num.real.eps := by linarith
  have hl : Real.logb 2 (p t + Num.real.eps) < Real.logb 2 (p' t + Num.real.eps) :=
    Real.logb_lt_logb (by norm_num) hp (by linarith)
  refine ⟨_, _, loss_eq P n t p hP ht, loss_eq P' n t p' hP' ht, max_le_max (by linarith) le_rfl, ?_⟩
  intro h
  have h' : 0 < -Real.logb 2 (p t + Num.real.eps) := by
    rcases lt_max_iff.mp h with h | h
    · exact h
    · exact absurd h (lt_irrefl _)
  rw [max_eq_left h'.le]
  exact max_lt (by linarith) h'

/-- Probability 0 for the true label: the largest loss is about 16.6 and in particular positive. -/
example : ∃ l, lossFcn Num.real (⟨dimN 2 1 1, [0, 1]⟩ : Matrix ℝ) 0 = .ok l ∧ 0 < l := by
  have hv : (⟨dimN 2 1 1, [0, 1]⟩ : Matrix ℝ).IsVec 2 (fun i => i) := by
    refine Or.inr (Matrix.Shows.of_vals ⟨by omega, by omega, by omega, by omega⟩ rfl ?_)
    simp [List.range_succ]
  obtain ⟨l, e, h0, h1, _⟩ := C27_range _ 2 0 _ hv (by omega) (by simp)
  refine ⟨l, e, lt_of_le_of_ne h0 (fun h => ?_)⟩
  have := h1.mp h.symm
  have := eps_bounds
  norm_num at *
  linarith

/-! ## C28 -/

/-- The reported loss as a function of the output layer's inputs. -/
noncomputable def reportedLoss (n : Nat) (v : Nat → ℝ) (t : Nat) : ℝ :=
  max (-Real.logb 2 (softmax n v t + Num.real.eps)) 0

/-- `reportedLoss` is what `lossFcn` returns for the softmax layer's output. -/
theorem C28_reportedLoss (S : Softmax) (M : Matrix ℝ) (n t : Nat) (v : Nat → ℝ) (hM : M.IsVec n v) (hc : S.count = n)
    (ht : t < n) : ∃ P, S.forward Num.real M = .ok P ∧ lossFcn Num.real P t = .ok (reportedLoss n v t) := by
  obtain ⟨P, e, _, s⟩ := softmax_forward hM hc
  exact ⟨P, e, loss_eq P n t _ s ht⟩

/-- The full claim: the gradient returned by the output layer is the derivative of the reported loss. -/
def C28_claim : Prop := ∀ (S S' : Softmax) (M P D : Matrix ℝ) (n t : Nat) (v g : Nat → ℝ), M.IsVec n v → S.count = n →
  S.assignTrueLabel t = (.ok (), S') → S'.forward Num.real M = .ok P → S'.backward M P Matrix.empty = .ok D →
  D.IsVec n g → ∀ i < n, ∀ d, HasDerivAt (fun s => reportedLoss n (Function.update v i s) t) d (v i) → g i = d

theorem hasDerivAt_reportedLoss {n i : Nat} (hi : i < n) (v : Nat → ℝ) (t : Nat)
    (hlt : softmax n v t + Num.real.eps < 1) :
    HasDerivAt (fun s => reportedLoss n (Function.update v i s) t)
      (softmax n v t / ((softmax n v t + Num.real.eps) * Real.log 2) * (softmax n v i - if i = t then 1 else 0)) (v i) := by
  have hn : 0 < n := by omega
  have he := eps_bounds
  have hpos : ∀ w : Nat → ℝ, 0 < softmax n w t := fun w => div_pos (Real.exp_pos _) (sumExp_pos hn w)
  have hu : Function.update v i (v i) = v := Function.update_eq_self i v
  -- the softmax itself as a function of input i
  have h1 : HasDerivAt (fun s => softmax n (Function.update v i s) t)
      (-(softmax n v i - if i = t then 1 else 0) * softmax n v t) (v i) := by
    have h := (hasDerivAt_nll hi v t).fun_neg.exp
    simp only [neg_neg, hu, Real.exp_log (hpos _)] at h
    refine h.congr_deriv ?_
    ring
  have h2 : HasDerivAt (fun s => -Real.logb 2 (softmax n (Function.update v i s) t + Num.real.eps))
      (softmax n v t / ((softmax n v t + Num.real.eps) * Real.log 2) * (softmax n v i - if i = t then 1 else 0)) (v i) := by
    have h := ((h1.add_const Num.real.eps).log (by rw [hu]; linarith [hpos v])).div_const (Real.log 2) |>.fun_neg
    refine h.congr_deriv ?_
    rw [hu]
    have hl : Real.log 2 ≠ 0 := (Real.log_pos (by norm_num)).ne'
    have : softmax n v t + Num.real.eps ≠ 0 := by linarith [hpos v]
    field_simp
  refine h2.congr_of_eventuallyEq ?_
  have hc : ContinuousAt (fun s => softmax n (Function.update v i s) t + Num.real.eps) (v i) :=
    (h1.add_const Num.real.eps).continuousAt
  have hev := hc.eventually_lt (continuousAt_const (y := (1 : ℝ))) (by simpa [hu] using hlt)
  filter_upwards [hev] with s hs
  refine max_eq_left ?_
  have := Real.logb_nonpos (b := 2) (by norm_num) (by linarith [hpos (Function.update v i s)]) hs.le
  linarith

/-- C28 is false: for two labels and inputs (0,0) the layer returns -1/2, the loss has another slope. -/
theorem C28_violated : ¬ C28_claim := by
  intro h
  have hv : (⟨dimN 2 1 1, [0, 0]⟩ : Matrix ℝ).IsVec 2 (fun _ => 0) := by
    refine Or.inr (Matrix.Shows.of_vals ⟨by omega, by omega, by omega, by omega⟩ rfl ?_)
    simp [List.range_succ]
  have ht : (Softmax.new 2).assignTrueLabel 0 = (.ok (), ⟨2, 0, true⟩) := rfl
  obtain ⟨P, D, g, e1, e2, _, s, hd, _⟩ := C26_gradient (Softmax.new 2) _ _ 2 0 _ hv rfl ht
    ⟨dimN 2 1 1, [0, 0]⟩ Matrix.empty
  have hp : softmax 2 (fun _ => 0) 0 = 1 / 2 := by norm_num [softmax, Finset.sum_range_succ]
  have he := eps_bounds
  have h3 := h _ _ _ P D 2 0 _ g hv rfl ht e1 e2 s 0 (by omega) _
    (hasDerivAt_reportedLoss (by omega) (fun _ => 0) 0 (by rw [hp]; linarith))
  have h4 := (hd 0 (by omega)).unique (hasDerivAt_nll (by omega) (fun _ => (0 : ℝ)) 0)
  rw [h3, hp, if_pos rfl] at h4
  have hl := Real.log_two_lt_d9
  have hl0 := Real.log_pos (show (1:ℝ) < 2 by norm_num)
  have he1 := he.1
  have hne : (1 / 2 + Num.real.eps) * Real.log 2 ≠ 0 := mul_ne_zero (by linarith) hl0.ne'
  have h5 : 1 / 2 = (1 / 2 + Num.real.eps) * Real.log 2 := by
    have : 1 / 2 / ((1 / 2 + Num.real.eps) * Real.log 2) = 1 := by linarith
    rwa [div_eq_one_iff_eq hne] at this
  have h6 : (1 / 2 + Num.real.eps) * Real.log 2 ≤ (1 / 2 + 1 / 10000) * Real.log 2 :=
    mul_le_mul_of_nonneg_right (by linarith) hl0.le
  norm_num at hl
  linarith

/-- C28, what does hold: as long as the loss is positive, its derivative is the returned gradient times one positive factor
`p_t / ((p_t + eps) ln 2)` common to all inputs, so the step is a descent direction. Missing: the factor is not 1. -/
theorem C28_direction_partial (S S' : Softmax) (M : Matrix ℝ) (n t : Nat) (v : Nat → ℝ) (hM : M.IsVec n v)
    (hc : S.count = n) (ht : S.assignTrueLabel t = (.ok (), S')) (hpos : 0 < reportedLoss n v t) :
    ∃ P D g c, S'.forward Num.real M = .ok P ∧ S'.backward M P Matrix.empty = .ok D ∧ D.IsVec n g ∧ 0 < c ∧
      c = softmax n v t / ((softmax n v t + Num.real.eps) * Real.log 2) ∧
      ∀ i < n, HasDerivAt (fun s => reportedLoss n (Function.update v i s) t) (c * g i) (v i) := by
  obtain ⟨P, D, g, e1, e2, _, s, hd, _⟩ := C26_gradient S S' M n t v hM hc ht M Matrix.empty
  have hn := hM.facts.1
  have he := eps_bounds
  have hsp : 0 < softmax n v t := div_pos (Real.exp_pos _) (sumExp_pos hn v)
  have hlt : softmax n v t + Num.real.eps < 1 := by
    have h' : 0 < -Real.logb 2 (softmax n v t + Num.real.eps) := by
      rcases lt_max_iff.mp hpos with h | h
      · exact h
      · exact absurd h (lt_irrefl _)
    have : Real.logb 2 (softmax n v t + Num.real.eps) < 0 := by linarith
    exact (Real.logb_neg_iff (by norm_num) (by linarith)).mp this
  have hl := Real.log_pos (show (1:ℝ) < 2 by norm_num)
  refine ⟨P, D, g, _, e1, e2, s, div_pos hsp (mul_pos (by linarith) hl), rfl, ?_⟩
  intro i hi
  rw [(hd i hi).unique (hasDerivAt_nll hi v t)]
  exact hasDerivAt_reportedLoss hi v t hlt

/-- Two equal inputs have a positive loss. -/
example : 0 < reportedLoss 2 (fun _ => 0) 0 := by
  have hp : softmax 2 (fun _ => 0) 0 = 1 / 2 := by norm_num [softmax, Finset.sum_range_succ]
  have he := eps_bounds
  unfold reportedLoss
  rw [hp]
  refine lt_max_of_lt_left ?_
  have := Real.logb_neg (b := 2) (x := 1 / 2 + Num.real.eps) (by norm_num) (by linarith [he.1]) (by linarith [he.2])
  linarith

end Cnn
