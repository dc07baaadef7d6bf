import Verif.Lemmas.RoundingModel
import Verif.Lemmas.Double
/-!
# Properties C84, C85: rounding errors of forward propagation
-/
namespace Cnn
open Model Finset

variable {α : Type} [Zero α] [One α] [Add α] [Sub α] [Mul α] [Div α] [Neg α]

/-! ## C84 -/

/-- C84: in any arithmetic that rounds as `p` says, with the parameters of a network that fits its input, inputs that are off
by at most `e`, and no sum of magnitudes that overflows, `forwardPropagation` returns; the probabilities are finite, and each
is off by at most `netProb * (exp (2 ε) - 1) + softmaxErr n`, where `ε` bounds the errors of the inputs of softmax. The
records hold these probabilities, converted to `float`, and so does the confidence. -/
theorem C84_probabilities (E : Env α) (p : Precision) (hp : p.Ok) (F : Floating E.num p) (M : Model α) (b : Nat) (s : Shape) (ls : List NetLayer)
    (n : Nat) (hM : M.Holds F b s ls n) (hfit : NetFits ls s) (X : Matrix α) (x e : Tensor) (hX : X.Near F s x e) (hr : NetInRange p ls s x e)
    (ε : ℝ) (hε : ∀ t < n, flatOf (netOut ls s).X (netOut ls s).Y (netErr p ls s x e) t ≤ ε)
    (hΩ : ∀ t < n, 2 * (|flatOf (netOut ls s).X (netOut ls s).Y (netEval ls s x) t| + ε) ≤ p.Ω) (hn : (n : ℝ) + 1 ≤ p.Ω) (hs : p.sumErr n ≤ 1 / 2) :
    ∃ r M₁ P, ∃ f : Nat → α, M.forwardPropagation E X b = .ok (r, M₁) ∧ r.inputs.getLast? = some P ∧ P.IsVec n (fun t => E.toFloat (f t)) ∧
      r.labelIdx < n ∧ r.confidence = E.toFloat (f r.labelIdx) ∧
      (∀ t < n, F.Fin (f t) ∧ |F.val (f t) - netProb ls s n x t| ≤ netProb ls s n x t * (Real.exp (2 * ε) - 1) + p.softmaxErr n ∧
        |F.val (f t)| ≤ 1 + p.softmaxErr n) ∧
      ∀ t < n, F.val (f t) ≤ F.val (f r.labelIdx) :=
  model_near hp hM hfit hX hr hε hΩ hn hs

/-- C84: the label is the one the exact network gives, if its exact probability exceeds all others by more than
`exp (2 ε) - 1 + 2 * softmaxErr n`. -/
theorem C84_label (E : Env α) (p : Precision) (hp : p.Ok) (F : Floating E.num p) (M : Model α) (b : Nat) (s : Shape) (ls : List NetLayer)
    (n : Nat) (hM : M.Holds F b s ls n) (hfit : NetFits ls s) (X : Matrix α) (x e : Tensor) (hX : X.Near F s x e) (hr : NetInRange p ls s x e)
    (ε : ℝ) (hε : ∀ t < n, flatOf (netOut ls s).X (netOut ls s).Y (netErr p ls s x e) t ≤ ε)
    (hΩ : ∀ t < n, 2 * (|flatOf (netOut ls s).X (netOut ls s).Y (netEval ls s x) t| + ε) ≤ p.Ω) (hn : (n : ℝ) + 1 ≤ p.Ω) (hs : p.sumErr n ≤ 1 / 2)
    (t : Nat) (ht : t < n) (hmargin : ∀ t' < n, t' ≠ t → netProb ls s n x t' + (Real.exp (2 * ε) - 1 + 2 * p.softmaxErr n) < netProb ls s n x t) :
    ∃ r M₁, M.forwardPropagation E X b = .ok (r, M₁) ∧ r.labelIdx = t := by
  obtain ⟨r, M₁, P, f, h1, _, _, h2, _, h3, h4⟩ := model_near hp hM hfit hX hr hε hΩ hn hs
  refine ⟨r, M₁, h1, ?_⟩
  by_contra hne
  have hε0 : 0 ≤ ε := by
    by_contra hneg
    obtain ⟨y, hY⟩ : ∃ y : ℝ, |y| ≤ ε := by
      obtain ⟨⟨Bs, S, hlay, hden, hcount⟩, hlab, hout⟩ := hM
      obtain ⟨_, outs, _, _, _, _, f', _, h5⟩ := net_near hp E.draws ls Bs s X x e hden hfit hX hr
      have hin : t % (netOut ls s).X < (netOut ls s).X ∧ t / (netOut ls s).X % (netOut ls s).Y < (netOut ls s).Y ∧
          t / (netOut ls s).X / (netOut ls s).Y < (netOut ls s).Z := by
        rcases hout with h | h <;> rw [h] <;> simp [Nat.div_eq_of_lt, ht, Nat.mod_eq_of_lt, Nat.mod_one]
      exact ⟨_, (h5 _ hin.1 _ hin.2.1 _ hin.2.2).2.trans (hε t ht)⟩
    exact absurd ((abs_nonneg y).trans hY) hneg
  have hX1 : 1 ≤ Real.exp (2 * ε) := Real.one_le_exp (by linarith)
  have hsum : netProb ls s n x r.labelIdx + netProb ls s n x t ≤ 1 := by
    have hall := softmax_sum (n := n) (by omega) (flatOf (netOut ls s).X (netOut ls s).Y (netEval ls s x))
    have hsub : ({r.labelIdx, t} : Finset Nat) ⊆ range n := by
      intro i hi
      simp only [mem_insert, mem_singleton] at hi
      rcases hi with rfl | rfl <;> simpa
    have := sum_le_sum_of_subset_of_nonneg (f := netProb ls s n x) hsub fun i _ _ =>
      div_nonneg (Real.exp_pos _).le (sum_nonneg fun j _ => (Real.exp_pos _).le)
    rw [sum_pair hne] at this
    exact this.trans hall.le
  have a := (abs_sub_le_iff.1 (h3 t ht).2.1).2
  have c := (abs_sub_le_iff.1 (h3 _ h2).2.1).1
  have d := h4 t ht
  have m := hmargin _ h2 hne
  nlinarith [mul_le_mul_of_nonneg_right hsum (sub_nonneg.2 hX1)]

/-- C84: the bounds are zero if nothing is rounded. -/
theorem C84_exact (Ω : ℝ) (ls : List NetLayer) (s : Shape) (x : Tensor) (n : Nat) :
    netErr ⟨0, 0, 0, Ω⟩ ls s x (fun _ _ _ => 0) = (fun _ _ _ => 0) ∧ (⟨0, 0, 0, Ω⟩ : Precision).softmaxErr n = 0 := by
  constructor
  · induction ls generalizing s x with
    | nil => rfl
    | cons l ls ih =>
      rw [netErr]
      have : l.err ⟨0, 0, 0, Ω⟩ s x (fun _ _ _ => 0) = fun _ _ _ => 0 := by
        funext i j k
        have hw : ∀ px py sx sy, sSup (NetLayer.window px py sx sy (fun _ _ _ => (0 : ℝ)) i j k) = 0 := by
          intro px py sx sy
          have : NetLayer.window px py sx sy (fun _ _ _ => (0 : ℝ)) i j k ⊆ {0} := by
            rintro _ ⟨a, _, c, _, rfl⟩
            rfl
          rcases Set.subset_singleton_iff_eq.1 this with h | h <;> rw [h] <;> simp
        rcases l with _ | ⟨t, px, py, sx, sy⟩ | _ | f | _
        · simp [NetLayer.err, NetLayer.spread, NetLayer.rounding, convLayer]
        · cases t <;> simp [NetLayer.err, NetLayer.spread, NetLayer.rounding, hw]
        · simp [NetLayer.err, NetLayer.spread, NetLayer.rounding, flatOf]
        · cases f <;> simp [NetLayer.err, NetLayer.spread, NetLayer.rounding]
        · simp [NetLayer.err, NetLayer.spread, NetLayer.rounding]
      rw [this]
      exact ih _ _
  · simp [Precision.softmaxErr, Precision.sumErr, Precision.expErr]

/-- C84: the type `double` is such an arithmetic. -/
theorem C84_double : Double.precision.Ok ∧ ∃ F : Floating Double.arith Double.precision, F.Fin = Double.Fin ∧ F.val = Double.val :=
  ⟨Double.precision_ok, Double.floating, rfl, rfl⟩

/-! ### A network in binary64

One input, a fully connected layer with two outputs 0 and w * x, softmax over "a", "b". -/

noncomputable def roundNet (W : ℝ) : List NetLayer := [.full 2 (fun i _ _ => i * W) (fun _ => 0)]

noncomputable def roundLayer (w : Double) : Connected Double :=
  { weights := ⟨dimN 2 1 1, [0, w]⟩, biases := ⟨dimN 2 1 1, [0, 0]⟩, inputDim := dimN 1 1 1, initialized := true, wGrads := [Matrix.empty],
    bGrads := [Matrix.empty] }

noncomputable def roundModel (w : Double) : Model Double :=
  { (Model.new : Model Double) with
    labels := ["a".toList, "b".toList]
    layers := [⟨[], .connected (roundLayer w)⟩, ⟨[], .softmax (Softmax.new 2)⟩] }

/-- The environment of the program in binary64. -/
noncomputable def doubleEnv : Env Double := ⟨Double.arith, fun _ _ => 0, Double.toFloat, .dimsFirst⟩

theorem roundModel_holds {w : Double} (hw : w.Fin) : (roundModel w).Holds Double.floating 0 ⟨1, 1, 1⟩ (roundNet w.val) 2 := by
  refine ⟨⟨[.connected (roundLayer w)], Softmax.new 2, rfl, ⟨⟨fun i _ => if i = 0 then 0 else w, fun _ => 0, ⟨?_, ?_, rfl⟩, ?_, ?_⟩, trivial⟩, rfl⟩, rfl, Or.inl rfl⟩
  · refine Matrix.Shows.of_vals ⟨by omega, by decide, by omega, by decide⟩ rfl ?_
    simp [roundLayer, List.range_succ]
  · refine Matrix.Shows.of_vals ⟨by omega, by omega, by omega, by omega⟩ rfl ?_
    simp [roundLayer, List.range_succ]
  · intro i hi k hk
    obtain rfl | rfl : i = 0 ∨ i = 1 := by omega
    · simpa using Double.floating.zero
    · simpa using ⟨hw, rfl⟩
  · intro i hi
    exact Double.floating.zero

theorem roundInput_near {x : Double} (hx : x.Fin) :
    (⟨dimN 1 1 1, [x]⟩ : Matrix Double).Near Double.floating ⟨1, 1, 1⟩ (fun _ _ _ => x.val) (fun _ _ _ => 0) := by
  refine ⟨fun _ _ _ => x, Matrix.Shows.of_vals ⟨by decide, by decide, by decide, by decide⟩ rfl (by simp), ?_⟩
  intro i _ j _ k _
  exact ⟨hx, by show |x.val - x.val| ≤ 0; simp⟩

theorem double_consts : Double.precision.u ≤ 1 / 2 ^ 40 ∧ Double.precision.v ≤ 1 / 2 ^ 40 ∧ Double.precision.η ≤ 1 / 2 ^ 40 ∧ 2 ^ 40 ≤ Double.precision.Ω := by
  have e : (2 : ℝ) ^ (-40 : ℤ) = 1 / 2 ^ 40 := by rw [zpow_neg, one_div]; rfl
  have e' : (2 : ℝ) ^ (40 : ℤ) = 2 ^ 40 := rfl
  rw [← e, ← e']
  exact ⟨zpow_le_zpow_right₀ (by norm_num) (by norm_num), zpow_le_zpow_right₀ (by norm_num) (by norm_num),
    zpow_le_zpow_right₀ (by norm_num) (by norm_num), zpow_le_zpow_right₀ (by norm_num) (by norm_num)⟩

/-- `C84_label` applies: the label is "b". -/
example : ∃ r M₁, (roundModel 1).forwardPropagation doubleEnv ⟨dimN 1 1 1, [1]⟩ 0 = .ok (r, M₁) ∧ r.labelIdx = 1 := by
  obtain ⟨u1, v1, η1, hΩ⟩ := double_consts
  have hp := Double.precision_ok
  have u0 := hp.u0
  have v0 := hp.v0
  have η0 := hp.η0
  have hpow : (1 + Double.precision.u) ^ 3 ≤ 1 + 1 / 2 ^ 30 := by
    refine (pow_le_pow_left₀ (by linarith) (by linarith : 1 + Double.precision.u ≤ 1 + 1 / 2 ^ 40) 3).trans (by norm_num)
  have hpow2 : (1 + Double.precision.u) ^ 2 ≤ 1 + 1 / 2 ^ 30 := by
    refine (pow_le_pow_left₀ (by linarith) (by linarith : 1 + Double.precision.u ≤ 1 + 1 / 2 ^ 40) 2).trans (by norm_num)
  have hpow1 : 1 ≤ (1 + Double.precision.u) ^ 3 := one_le_pow₀ (by linarith)
  have hpow0 : 1 ≤ (1 + Double.precision.u) ^ 2 := one_le_pow₀ (by linarith)
  have hx : Double.precision.expErr ≤ 1 / 2 ^ 30 := by unfold Precision.expErr; norm_num at *; linarith
  have hx0 : 0 ≤ Double.precision.expErr := by unfold Precision.expErr; linarith
  have hsum : Double.precision.sumErr 2 ≤ 1 / 2 ^ 20 := by
    unfold Precision.sumErr
    push_cast
    nlinarith
  have hsum0 : 0 ≤ Double.precision.sumErr 2 := by
    unfold Precision.sumErr
    push_cast
    nlinarith
  have hsoft : Double.precision.softmaxErr 2 ≤ 1 / 2 ^ 15 := by
    unfold Precision.softmaxErr
    nlinarith
  have hout : netOut (roundNet 1) ⟨1, 1, 1⟩ = ⟨2, 1, 1⟩ := rfl
  have heval : ∀ i < 2, flatOf 2 1 (netEval (roundNet 1) ⟨1, 1, 1⟩ (fun _ _ _ => 1)) i = i := by
    intro i hi
    obtain rfl | rfl : i = 0 ∨ i = 1 := by omega
    · simp [flatOf, netEval, roundNet, NetLayer.eval]
    · simp [flatOf, netEval, roundNet, NetLayer.eval]
  have hP : ∀ i < 2, netProb (roundNet 1) ⟨1, 1, 1⟩ 2 (fun _ _ _ => 1) i = Real.exp i / (1 + Real.exp 1) := by
    intro i hi
    unfold netProb softmax
    rw [hout, heval i hi]
    simp only [sum_range_succ, sum_range_zero, heval 0 (by omega), heval 1 (by omega)]
    simp
  have hexp : Real.exp (2 * (1 / 2 ^ 20)) - 1 ≤ 1 / 2 ^ 10 := by
    have := Real.exp_bound_div_one_sub_of_interval (x := 2 * (1 / 2 ^ 20)) (by norm_num) (by norm_num)
    refine (sub_le_sub_right this 1).trans (by norm_num)
  refine C84_label doubleEnv Double.precision hp Double.floating (roundModel 1) 0 ⟨1, 1, 1⟩ (roundNet 1) 2 (roundModel_holds Double.floating.one.1) ⟨trivial, trivial⟩ _ (fun _ _ _ => 1) (fun _ _ _ => 0)
    (roundInput_near Double.floating.one.1) ⟨?_, trivial⟩ (1 / 2 ^ 20) ?_ ?_ ?_ ?_ 1 (by omega) ?_
  · intro i hi j hj k hk
    have hi : i < 2 := hi
    simp only [NetLayer.depth, NetLayer.magnitude, NetLayer.products, flatOf]
    have hi' : |(i : ℝ)| ≤ 1 := by
      obtain rfl | rfl : i = 0 ∨ i = 1 := by omega
      · simp
      · simp
    simp only [sum_range_succ, sum_range_zero, abs_zero, abs_one, add_zero, mul_one, zero_add, Nat.cast_one, one_mul]
    have h0 := abs_nonneg (i : ℝ)
    have : (1 + Double.precision.u) ^ (1 + 2) * (|(i : ℝ)| + Double.precision.η) ≤ (1 + 1 / 2 ^ 30) * 2 :=
      mul_le_mul hpow (by have := η1.trans (show (1 : ℝ) / 2 ^ 40 ≤ 1 by norm_num); linarith) (by linarith) (by norm_num)
    refine this.trans (le_trans (by norm_num) hΩ)
  · intro t ht
    rw [hout]
    have ht' : |(t : ℝ)| ≤ 1 := by
      obtain rfl | rfl : t = 0 ∨ t = 1 := by omega
      · simp
      · simp
    have h0 := abs_nonneg (t : ℝ)
    simp only [flatOf, netErr, roundNet, NetLayer.err, NetLayer.spread, NetLayer.rounding, NetLayer.depth, NetLayer.magnitude, NetLayer.products,
      Nat.mod_eq_of_lt ht, sum_range_succ, sum_range_zero, abs_zero, abs_one, add_zero, mul_one, zero_add, Nat.cast_one, one_mul, mul_zero]
    have h1 : ((1 + Double.precision.u) ^ (1 + 2) - 1) * |(t : ℝ)| ≤ (1 / 2 ^ 30) * 1 :=
      mul_le_mul (by linarith [hpow]) ht' h0 (by norm_num)
    have h2 : (1 + Double.precision.u) ^ (1 + 2) * Double.precision.η ≤ 2 * (1 / 2 ^ 40) :=
      mul_le_mul (hpow.trans (by norm_num)) η1 η0 (by norm_num)
    refine (add_le_add h1 h2).trans (by norm_num)
  · intro t ht
    rw [hout, heval t ht]
    refine le_trans ?_ hΩ
    obtain rfl | rfl : t = 0 ∨ t = 1 := by omega
    · norm_num
    · norm_num
  · refine le_trans ?_ hΩ
    norm_num
  · exact hsum.trans (by norm_num)
  · intro t' ht' hne
    obtain rfl : t' = 0 := by omega
    rw [hP 0 (by omega), hP 1 (by omega)]
    have h1 := Real.add_one_le_exp (1 : ℝ)
    have hpos : 0 < 1 + Real.exp 1 := by linarith
    have key : 1 / 3 * (1 + Real.exp 1) ≤ Real.exp 1 - 1 := by linarith
    have h2 : 1 / 3 ≤ (Real.exp 1 - 1) / (1 + Real.exp 1) := by rw [le_div_iff₀ hpos]; exact key
    rw [sub_div] at h2
    simp only [Nat.cast_zero, Nat.cast_one, Real.exp_zero]
    have h3 : Real.exp (2 * (1 / 2 ^ 20)) - 1 + 2 * Double.precision.softmaxErr 2 < 1 / 3 := by
      have : (1 : ℝ) / 2 ^ 10 + 2 * (1 / 2 ^ 15) < 1 / 3 := by norm_num
      linarith
    linarith

/-! ## C85 -/

/-- What the property asks: with finite parameters and a finite input, the probabilities and the confidence that
`forwardPropagation` reports are finite. -/
def C85_claim : Prop := ∀ (M : Model Double) (b : Nat) (s : Shape) (ls : List NetLayer) (n : Nat) (X : Matrix Double) (x : Tensor),
  M.Holds Double.floating b s ls n → NetFits ls s → X.Near Double.floating s x (fun _ _ _ => 0) →
  ∀ r M₁, M.forwardPropagation doubleEnv X b = .ok (r, M₁) → r.confidence.Fin ∧
    ∃ P, ∃ f : Nat → Double, r.inputs.getLast? = some P ∧ P.IsVec n f ∧ ∀ t < n, (f t).Fin

/-- It holds if no sum of magnitudes overflows. Missing: networks in which one does. -/
theorem C85_finite_partial (M : Model Double) (b : Nat) (s : Shape) (ls : List NetLayer) (n : Nat) (X : Matrix Double) (x e : Tensor)
    (hM : M.Holds Double.floating b s ls n) (hfit : NetFits ls s) (hX : X.Near Double.floating s x e) (hr : NetInRange Double.precision ls s x e)
    (ε : ℝ) (hε : ∀ t < n, flatOf (netOut ls s).X (netOut ls s).Y (netErr Double.precision ls s x e) t ≤ ε)
    (hΩ : ∀ t < n, 2 * (|flatOf (netOut ls s).X (netOut ls s).Y (netEval ls s x) t| + ε) ≤ Double.precision.Ω)
    (hn : (n : ℝ) + 1 ≤ Double.precision.Ω) (hs : Double.precision.sumErr n ≤ 1 / 2) :
    ∃ r M₁, M.forwardPropagation doubleEnv X b = .ok (r, M₁) ∧ r.confidence.Fin ∧
      ∃ P, ∃ f : Nat → Double, r.inputs.getLast? = some P ∧ P.IsVec n f ∧ ∀ t < n, (f t).Fin := by
  have hp := Double.precision_ok
  obtain ⟨r, M₁, P, f, h1, h2, h3, h4, h5, h6, _⟩ := model_near (E := doubleEnv) (F := Double.floating) hp hM hfit hX hr hε hΩ hn hs
  have key : ∀ t < n, (Double.toFloat (f t)).Fin := by
    intro t ht
    obtain ⟨k1, _, k3⟩ := h6 t ht
    refine Double.toFloat_fin k1 (k3.trans ?_)
    have := Floating.expErr_le hp
    have hu := hp.u1
    have hu0 := hp.u0
    have hη := hp.η1
    unfold Precision.softmaxErr
    nlinarith
  exact ⟨r, M₁, h1, by rw [h5]; exact key _ h4, P, _, h2, h3, key⟩

/-- The number `2 ^ k`. -/
noncomputable def bigDouble (k : ℤ) : Double := .num (2 ^ k)

theorem bigDouble_fin {k : ℤ} (h0 : -1074 ≤ k) (h1 : k ≤ 971) : (bigDouble k).Fin :=
  ⟨_, rfl, by simpa using Double.has_of (m := 1) (by norm_num) h0 h1⟩

/-- A weight and an input that are finite, but whose product overflows: all probabilities are NaN, and the label is "a"
although the exact network prefers "b". -/
theorem C85_overflow : (∃ r M₁ P, (roundModel (bigDouble 900)).forwardPropagation doubleEnv ⟨dimN 1 1 1, [bigDouble 900]⟩ 0 = .ok (r, M₁) ∧
      r.labelIdx = 0 ∧ r.confidence = .nan ∧ r.inputs.getLast? = some P ∧ P.IsVec 2 (fun _ => .nan)) ∧
    netProb (roundNet (2 ^ (900 : ℤ))) ⟨1, 1, 1⟩ 2 (fun _ _ _ => 2 ^ (900 : ℤ)) 0 < netProb (roundNet (2 ^ (900 : ℤ))) ⟨1, 1, 1⟩ 2 (fun _ _ _ => 2 ^ (900 : ℤ)) 1 := by
  have zz : (0 : Double) = .num 0 := rfl
  have hof : Double.of 0 = .num 0 := by simpa using Double.of_nat (n := 0) (by norm_num)
  constructor
  · have hX : (⟨dimN 1 1 1, [bigDouble 900]⟩ : Matrix Double).Shows 1 1 1 (fun _ _ _ => bigDouble 900) :=
      Matrix.Shows.of_vals ⟨by decide, by decide, by decide, by decide⟩ rfl (by simp)
    obtain ⟨X1, e1, s1⟩ := Matrix.ofExpr_shows hX.expr (id : Double → Double)
    have hL : (roundLayer (bigDouble 900)).Is 2 (1 * 1 * 1) (fun i _ => if i = 0 then 0 else bigDouble 900) (fun _ => 0) := by
      refine ⟨?_, ?_, rfl⟩
      · refine Matrix.Shows.of_vals ⟨by omega, by decide, by omega, by decide⟩ rfl ?_
        simp [roundLayer, List.range_succ]
      · refine Matrix.Shows.of_vals ⟨by omega, by omega, by omega, by omega⟩ rfl ?_
        simp [roundLayer, List.range_succ]
    have h := C37_forward Double.arith (fun _ => 0) (roundLayer (bigDouble 900)) _ _ X1 _ hL s1
    rw [if_pos rfl] at h
    obtain ⟨out, eo, so⟩ := h
    have hprod : bigDouble 900 * bigDouble 900 = .inf false := by
      show Double.of (2 ^ (900 : ℤ) * 2 ^ (900 : ℤ)) = _
      rw [← zpow_add₀ (by norm_num)]
      exact Double.of_inf (zpow_le_zpow_right₀ (by norm_num) (by norm_num))
    have hvec : out.IsVec 2 (fun i => if i = 0 then .num 0 else .inf false) := by
      refine Or.inr (so.congr ?_)
      intro i hi j hj k hk
      obtain rfl | rfl : i = 0 ∨ i = 1 := by omega
      · simp only [sumTo, Nat.mul_one, List.range_one, List.foldl_cons, List.foldl_nil, if_true, id]
        have m0 : (0 : Double) * bigDouble 900 = .num 0 := by
          show Double.of (0 * 2 ^ (900 : ℤ)) = _
          rw [zero_mul, hof]
        have a0 : (0 : Double) + .num 0 = .num 0 := by
          show Double.of (0 + 0) = _
          rw [add_zero, hof]
        rw [m0, a0, zz, show (Double.num 0 + Double.num 0 : Double) = _ from a0]
      · simp only [sumTo, Nat.mul_one, List.range_one, List.foldl_cons, List.foldl_nil, if_neg (show ¬ 1 = 0 by omega), id, hprod]
        rfl
    -- softmax
    obtain ⟨P, q, hq, eP, dP, sP, hmax⟩ := softMax_ordered Double.arith hvec Double.weakOn_lt (by
      intro i hi
      by_cases h : i = 0 <;> simp [h])
    obtain rfl : q = 1 := by
      rcases (show q = 0 ∨ q = 1 by omega) with rfl | rfl
      · exact absurd (hmax 1 (by omega)) (by simp [Double.arith, Double.lt])
      · rfl
    have hnan : P.IsVec 2 (fun _ => .nan) := by
      refine sP.congr ?_
      intro i hi
      have e1 : Double.arith.exp (Double.inf false - Double.inf false) = .nan := rfl
      have e2 : ∀ a : Double, a + .nan = .nan := by intro a; cases a <;> rfl
      have e3 : ∀ a : Double, a / .nan = .nan := by intro a; cases a <;> rfl
      simp only [sumTo, List.range_succ, List.range_zero, List.nil_append, List.cons_append, List.foldl_cons, List.foldl_nil, if_neg (show ¬ 1 = 0 by omega), e1, e2, e3]
    have hSm : (Softmax.new 2).forward Double.arith out = .ok P := by
      obtain ⟨_, _, hsz, hrow, _⟩ := hvec.facts
      unfold Softmax.forward Softmax.checkSize
      rw [if_pos hrow, hsz]
      simp [Softmax.new, eP]
    have hpass : Pass doubleEnv (roundModel (bigDouble 900)) 0 ⟨dimN 1 1 1, [bigDouble 900]⟩
        (fun i => if i = 0 then X1 else if i = 1 then out else P)
        (fun i => if i = 0 then .connected (roundLayer (bigDouble 900)) else .softmax (Softmax.new 2)) := by
      refine ⟨by simpa using e1, ?_⟩
      intro i l hl
      have hi : i < 2 := (List.getElem?_eq_some_iff.1 hl).1
      obtain rfl | rfl : i = 0 ∨ i = 1 := by omega
      · obtain rfl : _ = l := by simpa [roundModel] using hl
        simp [doubleEnv, Body.forward, eo]
      · obtain rfl : _ = l := by simpa [roundModel] using hl
        simp only [doubleEnv, Body.forward]
        simp [hSm]
    obtain ⟨r, R, k1, k2, k3, k4, k5, k6, k7⟩ := forward_result doubleEnv (roundModel (bigDouble 900)) _ 0 _ _ hpass (by
      intro i hi
      by_cases h0 : i = 0
      · simp only [h0, if_true]; exact ⟨_, _, _, _, s1⟩
      · by_cases h1 : i = 1
        · simp only [h1]; exact ⟨_, _, _, _, so⟩
        · simp only [h0, h1, if_false]
          rcases hnan with hnan | hnan <;> exact ⟨_, _, _, _, hnan⟩) (n := 2) (f := fun _ => .nan) (by simpa [roundModel] using hnan) rfl Double.weakOn_nan
      (fun _ _ => rfl)
    refine ⟨r, _, R, k1, ?_, k5, k2, k3⟩
    by_contra hne
    exact absurd (k7 0 (by omega)) (by simp [doubleEnv, Double.arith, Double.lt])
  · unfold netProb softmax
    refine div_lt_div_of_pos_right (Real.exp_lt_exp.2 ?_) (sum_pos (fun j _ => Real.exp_pos _) ⟨0, by simp⟩)
    simp [roundNet, netOut, NetLayer.out, netEval, NetLayer.eval, flatOf]

theorem C85_violated : ¬ C85_claim := by
  intro h
  obtain ⟨⟨r, M₁, P, h1, _, h2, _⟩, _⟩ := C85_overflow
  have hf := bigDouble_fin (k := 900) (by norm_num) (by norm_num)
  obtain ⟨⟨x, hx, _⟩, _⟩ := h _ _ _ _ _ _ _ (roundModel_holds hf) ⟨trivial, trivial⟩ (roundInput_near hf) r M₁ h1
  rw [h2] at hx
  cases hx

end Cnn
