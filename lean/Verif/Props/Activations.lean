import Verif.Lemmas.Real
/-!
# Activation layers: C23, C24
-/
namespace Cnn
open Real

variable {X Y Z : Nat}

/-! ## C23 -/

/-- C23: whatever the arithmetic, `propagateForward` keeps the dimensions and applies one function to every entry. -/
theorem C23_entrywise {α : Type} [Zero α] [One α] [Add α] [Sub α] [Mul α] [Div α] [Neg α] (N : Num α) (f : ActFn)
    (M : Matrix α) (x : Nat → Nat → Nat → α) (hM : M.Shows X Y Z x) :
    ∃ R, (Activation.new f).forward N M = .ok R ∧ R.Shows X Y Z (fun i j k => f.eval N (x i j k)) :=
  Matrix.ofExpr_shows (MExpr.un_shows (f.eval N) hM.expr) id

/-- C23: in exact arithmetic that function is the documented one. -/
theorem C23_forward (f : ActFn) (M : Matrix ℝ) (x : Nat → Nat → Nat → ℝ) (hM : M.Shows X Y Z x) :
    ∃ R, (Activation.new f).forward Num.real M = .ok R ∧ R.Shows X Y Z (fun i j k => actSpec f (x i j k)) := by
  obtain ⟨R, e, s⟩ := C23_entrywise Num.real f M x hM
  exact ⟨R, e, s.congr (fun i _ j _ k _ => eval_real f _)⟩

/-- C23: ranges and symmetry of what `propagateForward` returns. -/
theorem C23_ranges (M : Matrix ℝ) (x : Nat → Nat → Nat → ℝ) (hM : M.Shows X Y Z x) (f : ActFn) (R : Matrix ℝ)
    (hR : (Activation.new f).forward Num.real M = .ok R) (i j k : Nat) (hi : i < X) (hj : j < Y) (hk : k < Z) :
    ∃ r, R.read (dimN i j k) = .ok r ∧ (f = .relu → 0 ≤ r) ∧ (f = .sigmoid → 0 < r ∧ r < 1) ∧
      (f = .tangent → -1 < r ∧ r < 1) ∧ (f = .linear → r = x i j k) ∧ (f = .leaky → 0 ≤ x i j k → r = x i j k) := by
  obtain ⟨R', e, s⟩ := C23_forward f M x hM
  rw [hR] at e
  obtain rfl : R = R' := by simpa using e
  refine ⟨_, s.entry i hi j hj k hk, ?_, ?_, ?_, ?_, ?_⟩
  · rintro rfl; exact le_max_right _ _
  · rintro rfl; exact ⟨Real.sigmoid_pos _, Real.sigmoid_lt_one _⟩
  · rintro rfl; exact tanh_bounds _
  · rintro rfl; rfl
  · rintro rfl h; exact if_pos h

/-- C23: `sigmoid(-x) = 1 - sigmoid(x)` for the function the layer computes. -/
theorem C23_sigmoid_symm (x : ℝ) :
    ActFn.sigmoid.eval Num.real (-x) = 1 - ActFn.sigmoid.eval Num.real x := by
  rw [eval_real, eval_real]
  exact Real.sigmoid_neg x

/-- C23: the layer is monotone for each of the five functions: larger inputs never give smaller outputs. -/
theorem C23_monotone (f : ActFn) (M M' : Matrix ℝ) (x x' : Nat → Nat → Nat → ℝ) (hM : M.Shows X Y Z x)
    (hM' : M'.Shows X Y Z x') (hle : ∀ i < X, ∀ j < Y, ∀ k < Z, x i j k ≤ x' i j k) :
    ∃ R R' r r', (Activation.new f).forward Num.real M = .ok R ∧ (Activation.new f).forward Num.real M' = .ok R' ∧
      R.Shows X Y Z r ∧ R'.Shows X Y Z r' ∧ ∀ i < X, ∀ j < Y, ∀ k < Z, r i j k ≤ r' i j k := by
  obtain ⟨R, e, s⟩ := C23_forward f M x hM
  obtain ⟨R', e', s'⟩ := C23_forward f M' x' hM'
  exact ⟨R, R', _, _, e, e', s, s', fun i hi j hj k hk => actSpec_mono f (hle i hi j hj k hk)⟩

/-- The layer on a concrete 2×1 matrix (integers suffice for RELU). -/
def intNum : Num Int where
  exp := id
  tanh := id
  sqrt := id
  log2 := id
  ofNat n := n
  lt a b := decide (a < b)
  slopeF := 0
  slopeD := 0
  eps := 0

example : (Activation.new .relu).forward intNum ⟨dimN 2 1 1, [-3, 5]⟩ = .ok ⟨dimN 2 1 1, [0, 5]⟩ := by decide

/-! ## C24 -/

/-- The full claim for the activation function `f`: with `R` the layer's output for the input `M`, backward multiplies
the incoming gradient `g` by the derivative of the function at the input (wherever it has one). -/
def C24_claim (f : ActFn) : Prop := ∀ (X Y Z : Nat) (M R G : Matrix ℝ) (x g : Nat → Nat → Nat → ℝ),
  M.Shows X Y Z x → G.Shows X Y Z g → (Activation.new f).forward Num.real M = .ok R →
  ∃ D r, (Activation.new f).backward Num.real M R G = .ok D ∧ D.Shows X Y Z r ∧
    ∀ i < X, ∀ j < Y, ∀ k < Z, ∀ d, HasDerivAt (actSpec f) d (x i j k) → r i j k = g i j k * d

/-- C24: what backward really returns: the gradient function applied to the *output*. -/
theorem C24_exact (f : ActFn) (M R G : Matrix ℝ) (x g : Nat → Nat → Nat → ℝ) (hM : M.Shows X Y Z x)
    (hG : G.Shows X Y Z g) (hR : (Activation.new f).forward Num.real M = .ok R) :
    ∃ D, (Activation.new f).backward Num.real M R G = .ok D ∧
      D.Shows X Y Z (fun i j k => g i j k * f.grad Num.real (actSpec f (x i j k))) := by
  obtain ⟨R', e, s⟩ := C23_forward f M x hM
  rw [hR] at e
  obtain rfl : R = R' := by simpa using e
  obtain ⟨H, e1, s1⟩ := Matrix.ofExpr_shows (MExpr.un_shows (f.grad Num.real) s.expr) id
  obtain ⟨E, e2, s2⟩ := MExpr.bin_shows (· * ·) hG.expr s1.expr
  obtain ⟨D, e3, s3⟩ := Matrix.ofExpr_shows s2 id
  refine ⟨D, ?_, s3⟩
  simp [Activation.backward, Activation.gradient, Activation.new, e1, e2, e3]

/-- One-entry matrices. -/
theorem one_shows {α : Type} (a : α) : (⟨dimN 1 1 1, [a]⟩ : Matrix α).Shows 1 1 1 (fun _ _ _ => a) := by
  refine ⟨⟨by omega, by omega, by omega, by omega⟩, rfl, rfl, ?_⟩
  intro i hi j hj k hk
  obtain rfl : i = 0 := by omega
  obtain rfl : j = 0 := by omega
  obtain rfl : k = 0 := by omega
  rfl

/-- If the claim holds for `f`, the gradient function at the output is the derivative at the input. -/
theorem C24_claim_pointwise {f : ActFn} (h : C24_claim f) (x d : ℝ) (hd : HasDerivAt (actSpec f) d x) :
    f.grad Num.real (actSpec f x) = d := by
  obtain ⟨R, e, _⟩ := C23_forward f _ _ (one_shows x)
  obtain ⟨D, r, e1, s1, h1⟩ := h 1 1 1 _ R _ _ _ (one_shows x) (one_shows (1 : ℝ)) e
  obtain ⟨D', e2, s2⟩ := C24_exact f _ R _ _ _ (one_shows x) (one_shows (1 : ℝ)) e
  rw [e1] at e2
  obtain rfl : D = D' := by simpa using e2
  have h2 := s1.inj s2 (i := 0) (j := 0) (k := 0) (by omega) (by omega) (by omega)
  have h3 := h1 0 (by omega) 0 (by omega) 0 (by omega) d hd
  rw [h3] at h2
  simpa using h2.symm

/-- C24 is false for SIGMOID: at input 0 the layer uses `s(1/2)(1-s(1/2))` instead of `1/4`. -/
theorem C24_sigmoid_violated : ¬ C24_claim .sigmoid := by
  intro h
  have := C24_claim_pointwise h 0 _ (Real.hasDerivAt_sigmoid 0)
  simp only [ActFn.grad, eval_real, actSpec, Real.sigmoid_zero] at this
  have h1 := Real.sigmoid_strictMono (show (0 : ℝ) < 2⁻¹ by norm_num)
  rw [Real.sigmoid_zero] at h1
  nlinarith

/-- C24 is false for TANGENT: at input 1 the layer uses `1 - tanh(tanh 1)^2`. -/
theorem C24_tangent_violated : ¬ C24_claim .tangent := by
  intro h
  have := C24_claim_pointwise h 1 _ (hasDerivAt_tanh 1)
  simp only [ActFn.grad, eval_real, actSpec] at this
  have h1 := tanh_strictMono (tanh_bounds 1).2
  have h0 : 0 < Real.tanh (Real.tanh 1) := by
    have a := tanh_strictMono (show (0 : ℝ) < 1 by norm_num)
    rw [Real.tanh_zero] at a
    have b := tanh_strictMono a
    rwa [Real.tanh_zero] at b
  nlinarith

theorem hasDerivAt_leaky_neg {x : ℝ} (hx : x < 0) : HasDerivAt (actSpec .leaky) (13421773 / 2 ^ 27) x := by
  have h : HasDerivAt (fun y : ℝ => 13421773 / 2 ^ 27 * y) (13421773 / 2 ^ 27) x := by
    simpa using (hasDerivAt_id x).const_mul (13421773 / 2 ^ 27 : ℝ)
  refine h.congr_of_eventuallyEq ?_
  filter_upwards [Iio_mem_nhds hx] with y hy
  simp only [actSpec]
  rw [if_neg (not_le.mpr hy)]

/-- C24 is false for LEAKY_RELU at every negative input: forward uses the slope `0.1f`, backward `0.1`. -/
theorem C24_leaky_violated : ¬ C24_claim .leaky := by
  intro h
  have := C24_claim_pointwise h (-1) _ (hasDerivAt_leaky_neg (by norm_num))
  simp only [ActFn.grad, actSpec, real_lt, decide_eq_true_eq] at this
  norm_num [Num.real] at this

theorem hasDerivAt_relu {x d : ℝ} (h : HasDerivAt (actSpec .relu) d x) : d = if 0 < x then 1 else 0 := by
  rcases lt_trichotomy x 0 with hx | hx | hx
  · rw [if_neg (by linarith)]
    refine h.unique ((hasDerivAt_const x (0 : ℝ)).congr_of_eventuallyEq ?_)
    filter_upwards [Iio_mem_nhds hx] with y hy
    exact max_eq_right (le_of_lt hy)
  · subst hx
    exfalso
    -- one-sided derivatives 1 and 0
    have h1 : HasDerivWithinAt (actSpec .relu) d (Set.Ici 0) 0 := h.hasDerivWithinAt
    have h2 : HasDerivWithinAt (actSpec .relu) d (Set.Iic 0) 0 := h.hasDerivWithinAt
    have h1' : HasDerivWithinAt (actSpec .relu) 1 (Set.Ici 0) 0 :=
      (hasDerivWithinAt_id 0 (Set.Ici (0 : ℝ))).congr (fun y hy => max_eq_left hy) (by simp [actSpec])
    have h2' : HasDerivWithinAt (actSpec .relu) 0 (Set.Iic 0) 0 :=
      (hasDerivWithinAt_const 0 (Set.Iic (0 : ℝ)) (0 : ℝ)).congr (fun y hy => max_eq_right hy) (by simp [actSpec])
    have u1 := (uniqueDiffOn_Ici (0 : ℝ) 0 Set.self_mem_Ici).eq_deriv _ h1 h1'
    have u2 := (uniqueDiffOn_Iic (0 : ℝ) 0 Set.self_mem_Iic).eq_deriv _ h2 h2'
    linarith
  · rw [if_pos hx]
    refine h.unique ((hasDerivAt_id x).congr_of_eventuallyEq ?_)
    filter_upwards [Ioi_mem_nhds hx] with y hy
    exact max_eq_left (le_of_lt hy)

/-- C24 for RELU (wherever it is differentiable, i.e. away from 0) and LINEAR. Missing: SIGMOID, TANGENT and
LEAKY_RELU, for which the claim is false. -/
theorem C24_relu_linear_partial : C24_claim .relu ∧ C24_claim .linear := by
  constructor
  · intro X Y Z M R G x g hM hG hR
    obtain ⟨D, e, s⟩ := C24_exact .relu M R G x g hM hG hR
    refine ⟨D, _, e, s, ?_⟩
    intro i hi j hj k hk d hd
    rw [hasDerivAt_relu hd]
    simp only [ActFn.grad, actSpec, real_lt, decide_eq_true_eq]
    congr 1
    by_cases h : 0 < x i j k
    · rw [if_pos h, if_pos (lt_of_lt_of_le h (le_max_left _ _))]
    · rw [if_neg h, if_neg (by rw [max_eq_right (not_lt.mp h)]; exact lt_irrefl _)]
  · intro X Y Z M R G x g hM hG hR
    obtain ⟨D, e, s⟩ := C24_exact .linear M R G x g hM hG hR
    refine ⟨D, _, e, s, ?_⟩
    intro i hi j hj k hk d hd
    have : d = 1 := hd.unique (hasDerivAt_id _)
    rw [this]
    rfl

/-- C24 For all functions but LEAKY_RELU the factor is the derivative of the function, but at the *output* of the layer. -/
theorem C24_at_output (f : ActFn) (hf : f ≠ .leaky) (M R G : Matrix ℝ) (x g : Nat → Nat → Nat → ℝ) (hM : M.Shows X Y Z x)
    (hG : G.Shows X Y Z g) (hR : (Activation.new f).forward Num.real M = .ok R) :
    ∃ D r, (Activation.new f).backward Num.real M R G = .ok D ∧ D.Shows X Y Z r ∧
      ∀ i < X, ∀ j < Y, ∀ k < Z, ∀ d, HasDerivAt (actSpec f) d (actSpec f (x i j k)) → r i j k = g i j k * d := by
  obtain ⟨D, e, s⟩ := C24_exact f M R G x g hM hG hR
  refine ⟨D, _, e, s, fun i _ j _ k _ d hd => ?_⟩
  congr 1
  cases f with
  | relu =>
    rw [hasDerivAt_relu hd]
    simp only [ActFn.grad, real_lt, decide_eq_true_eq]
  | sigmoid =>
    have := hd.unique (Real.hasDerivAt_sigmoid _)
    rw [this]
    simp only [ActFn.grad, eval_real]
    rfl
  | linear =>
    rw [hd.unique (hasDerivAt_id _)]
    rfl
  | tangent =>
    have := hd.unique (hasDerivAt_tanh _)
    rw [this]
    simp only [ActFn.grad, eval_real, actSpec]
  | leaky => exact absurd rfl hf

/-- C24 LEAKY_RELU: 1 for positive inputs and the `double` 0.1 otherwise, while the function itself has the slope `0.1f` there. -/
theorem C24_leaky (M R G : Matrix ℝ) (x g : Nat → Nat → Nat → ℝ) (hM : M.Shows X Y Z x)
    (hG : G.Shows X Y Z g) (hR : (Activation.new .leaky).forward Num.real M = .ok R) :
    ∃ D, (Activation.new .leaky).backward Num.real M R G = .ok D ∧ D.Shows X Y Z (fun i j k => g i j k * if 0 < x i j k then 1 else 3602879701896397 / 2 ^ 55) := by
  obtain ⟨D, e, s⟩ := C24_exact .leaky M R G x g hM hG hR
  refine ⟨D, e, s.congr fun i _ j _ k _ => ?_⟩
  congr 1
  simp only [ActFn.grad, real_lt, decide_eq_true_eq, actSpec]
  by_cases h : 0 < x i j k
  · rw [if_pos h, if_pos (le_of_lt h), if_pos h]
  · rw [if_neg h, if_neg]
    · rfl
    · split
      · exact h
      · have : x i j k ≤ 0 := not_lt.1 h
        nlinarith

/-- RELU does have a derivative at −3 and at 5, so the claim is not empty. -/
example : HasDerivAt (actSpec .relu) 1 5 ∧ HasDerivAt (actSpec .relu) 0 (-3) := by
  constructor
  · refine (hasDerivAt_id (5 : ℝ)).congr_of_eventuallyEq ?_
    filter_upwards [Ioi_mem_nhds (show (0 : ℝ) < 5 by norm_num)] with y hy
    exact max_eq_left (le_of_lt hy)
  · refine (hasDerivAt_const (-3 : ℝ) (0 : ℝ)).congr_of_eventuallyEq ?_
    filter_upwards [Iio_mem_nhds (show (-3 : ℝ) < 0 by norm_num)] with y hy
    exact max_eq_right (le_of_lt hy)

example : (Activation.new .relu).backward intNum ⟨dimN 2 1 1, [-3, 5]⟩ ⟨dimN 2 1 1, [0, 5]⟩ ⟨dimN 2 1 1, [7, 11]⟩ =
    .ok ⟨dimN 2 1 1, [0, 11]⟩ := by decide

end Cnn
