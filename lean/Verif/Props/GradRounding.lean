import Verif.Lemmas.GradModel
import Verif.Lemmas.DoubleFloat
import Verif.Lemmas.GradExact
import Verif.Lemmas.RoundNet
import Verif.Props.Surrogate
import Verif.Props.Rounding
/-!
# Property C98: rounding errors of back-propagation

The forward pass is C84. Back-propagation starts from records that have been converted to `float`, and at kinks and ties may
take another branch than exact arithmetic; the bounds `netWeightErr` and `netBiasErr` of Spec/GradRounding.lean take this into
account.
-/
namespace Cnn
open Model Finset

variable {α : Type} [Zero α] [One α] [Add α] [Sub α] [Mul α] [Div α] [Neg α]

/-- C98: under the assumptions of C84, if the model has a batch slot `b`, the label is known and nothing overflows,
`forwardPropagation` and `backwardsPropagation` return; for every layer with parameters, each entry of the stored gradients is
finite and off by at most `netWeightErr`, `netBiasErr` from the number `netWeightGrad`, `netBiasGrad`, which is the derivative of the loss of `netSurrogate` (see
C83) with respect to that weight or bias. Missing: convolutions other than the first layer whose output is not square (the code
throws, `C65_violated`). -/
theorem C98_gradients_partial (E : Env α) (p : Precision) (hp : p.Ok) (F : Floating E.num p) (q : Conversion) (hE : E.Rounds F q) (M : Model α) (b : Nat)
    (s : Shape) (ls : List NetLayer) (n : Nat) (hM : M.Holds F b s ls n) (hR : SlottedAll b true s (M.layers.map (·.body)) ls) (hfit : NetFits ls s)
    (htr : NetTrains true ls s) (X : Matrix α) (x e : Tensor) (hX : X.Near F s x e) (hr : NetInRange p ls s x e)
    (ε : ℝ) (hε : ∀ t < n, flatOf (netOut ls s).X (netOut ls s).Y (netErr p ls s x e) t ≤ ε)
    (hΩ : ∀ t < n, 2 * (|flatOf (netOut ls s).X (netOut ls s).Y (netEval ls s x) t| + ε) ≤ p.Ω) (hn : (n : ℝ) + 1 ≤ p.Ω) (hs : p.sumErr n ≤ 1 / 2)
    (label : List Char) (hl : label ∈ M.labels) (hroom : ∀ t < n, M.labels[t]? = some label → NetBackRoom p q n t ε true ls s x e) :
    ∃ r M₁ t r' M₂, M.forwardPropagation E X b = .ok (r, M₁) ∧ M₁.backwardsPropagation E r label b = .ok (r', M₂) ∧
      (t < n ∧ M.labels[t]? = some label ∧ ∀ t' < t, M.labels[t']? ≠ some label) ∧
      ∀ i l w β, ls[i]? = some l → l.params = some (w, β) →
        ∃ DW DB, ∃ dw : Nat → Nat → Nat → α, ∃ db : Nat → α, M₂.stored i b = some (DW, DB) ∧
          DW.Shows (l.weightShape (netOut (ls.take i) s)).X (l.weightShape (netOut (ls.take i) s)).Y
            (l.weightShape (netOut (ls.take i) s)).Z dw ∧
          DB.Shows l.biasCount 1 1 (fun f _ _ => db f) ∧
          (∀ a < (l.weightShape (netOut (ls.take i) s)).X, ∀ b < (l.weightShape (netOut (ls.take i) s)).Y,
            ∀ c < (l.weightShape (netOut (ls.take i) s)).Z,
            HasDerivAt (fun v => netLoss ((netSurrogate ls s x).set i (l.withParams (w.update a b c v) β)) s n t x) (netWeightGrad n t i ls s x a b c) (w a b c) ∧
            F.Fin (dw a b c) ∧ |F.val (dw a b c) - netWeightGrad n t i ls s x a b c| ≤ netWeightErr p q n t ε i ls s x e a b c) ∧
          ∀ f < l.biasCount,
            HasDerivAt (fun v => netLoss ((netSurrogate ls s x).set i (l.withParams w (Function.update β f v))) s n t x) (netBiasGrad n t i ls s x f) (β f) ∧
            F.Fin (db f) ∧ |F.val (db f) - netBiasGrad n t i ls s x f| ≤ netBiasErr p q n t ε i ls s x e f := by
  obtain ⟨r, M₁, t, r', M₂, h1, h2, h3, h4, h5, hpl, hsh, h6⟩ := model_backs hp hE hM hR hfit hX hr hε hΩ hn hs htr hl fun t a b _ => hroom t a b
  refine ⟨r, M₁, t, r', M₂, h1, h5, ⟨h2, h3, h4⟩, ?_⟩
  intro i l w β hl hpa
  have hpn : l.params ≠ none := by rw [hpa]; simp
  obtain ⟨DW, DB, k1, ⟨dw, k2, k3⟩, db, k4, k5⟩ := h6 i l hl hpn
  have hg := (net_true h2 true (.surrogate ls s x) hfit htr hpl hsh hM.output).2 i l hl hpn
  have hl' := (C83_value ls s x n t hfit).2.2.2 i l hl hpn
  have hto := (NetStands.surrogate ls s x).netOut_take i
  refine ⟨DW, DB, dw, fun f => db f 0 0, k1, k2, k4.congr ?_, ?_, ?_⟩
  · intro i hi j hj k hk
    obtain rfl : j = 0 := Nat.lt_one_iff.1 hj
    obtain rfl : k = 0 := Nat.lt_one_iff.1 hk
    rfl
  · intro a ha b hb c hc
    exact ⟨hg.weight hl' hpa (by rwa [hto]) (by rwa [hto]) (by rwa [hto]), k3 a ha b hb c hc⟩
  · intro f hf
    exact ⟨hg.bias hl' hpa hf, k5 f hf 0 one_pos 0 one_pos⟩

/-- C98, where every layer is differentiable at its exact input: the derivatives are those of the network itself. -/
theorem C98_smooth_partial (E : Env α) (p : Precision) (hp : p.Ok) (F : Floating E.num p) (q : Conversion) (hE : E.Rounds F q) (M : Model α) (b : Nat)
    (s : Shape) (ls : List NetLayer) (n : Nat) (hM : M.Holds F b s ls n) (hR : SlottedAll b true s (M.layers.map (·.body)) ls) (hfit : NetFits ls s)
    (htr : NetTrains true ls s) (X : Matrix α) (x e : Tensor) (hsm : NetSmooth ls s x) (hX : X.Near F s x e) (hr : NetInRange p ls s x e)
    (ε : ℝ) (hε : ∀ t < n, flatOf (netOut ls s).X (netOut ls s).Y (netErr p ls s x e) t ≤ ε)
    (hΩ : ∀ t < n, 2 * (|flatOf (netOut ls s).X (netOut ls s).Y (netEval ls s x) t| + ε) ≤ p.Ω) (hn : (n : ℝ) + 1 ≤ p.Ω) (hs : p.sumErr n ≤ 1 / 2)
    (label : List Char) (hl : label ∈ M.labels) (hroom : ∀ t < n, M.labels[t]? = some label → NetBackRoom p q n t ε true ls s x e) :
    ∃ r M₁ t r' M₂, M.forwardPropagation E X b = .ok (r, M₁) ∧ M₁.backwardsPropagation E r label b = .ok (r', M₂) ∧
      (t < n ∧ M.labels[t]? = some label ∧ ∀ t' < t, M.labels[t']? ≠ some label) ∧
      ∀ i l w β, ls[i]? = some l → l.params = some (w, β) →
        ∃ DW DB, ∃ dw : Nat → Nat → Nat → α, ∃ db : Nat → α, M₂.stored i b = some (DW, DB) ∧
          DW.Shows (l.weightShape (netOut (ls.take i) s)).X (l.weightShape (netOut (ls.take i) s)).Y
            (l.weightShape (netOut (ls.take i) s)).Z dw ∧
          DB.Shows l.biasCount 1 1 (fun f _ _ => db f) ∧
          (∀ a < (l.weightShape (netOut (ls.take i) s)).X, ∀ b < (l.weightShape (netOut (ls.take i) s)).Y,
            ∀ c < (l.weightShape (netOut (ls.take i) s)).Z,
            HasDerivAt (fun v => netLoss (ls.set i (l.withParams (w.update a b c v) β)) s n t x) (netWeightGrad n t i ls s x a b c) (w a b c) ∧
            F.Fin (dw a b c) ∧ |F.val (dw a b c) - netWeightGrad n t i ls s x a b c| ≤ netWeightErr p q n t ε i ls s x e a b c) ∧
          ∀ f < l.biasCount,
            HasDerivAt (fun v => netLoss (ls.set i (l.withParams w (Function.update β f v))) s n t x) (netBiasGrad n t i ls s x f) (β f) ∧
            F.Fin (db f) ∧ |F.val (db f) - netBiasGrad n t i ls s x f| ≤ netBiasErr p q n t ε i ls s x e f := by
  obtain ⟨r, M₁, t, r', M₂, h1, h2, h3, h4, h5, hpl, hsh, h6⟩ := model_backs hp hE hM hR hfit hX hr hε hΩ hn hs htr hl fun t a b _ => hroom t a b
  refine ⟨r, M₁, t, r', M₂, h1, h5, ⟨h2, h3, h4⟩, ?_⟩
  intro i l w β hl hpa
  have hpn : l.params ≠ none := by rw [hpa]; simp
  obtain ⟨DW, DB, k1, ⟨dw, k2, k3⟩, db, k4, k5⟩ := h6 i l hl hpn
  have hg := (net_true h2 true (.self hsm) hfit htr hpl hsh hM.output).2 i l hl hpn
  refine ⟨DW, DB, dw, fun f => db f 0 0, k1, k2, k4.congr ?_, ?_, ?_⟩
  · intro i hi j hj k hk
    obtain rfl : j = 0 := Nat.lt_one_iff.1 hj
    obtain rfl : k = 0 := Nat.lt_one_iff.1 hk
    rfl
  · intro a ha b hb c hc
    exact ⟨hg.weight hl hpa ha hb hc, k3 a ha b hb c hc⟩
  · intro f hf
    exact ⟨hg.bias hl hpa hf, k5 f hf 0 one_pos 0 one_pos⟩

/-- C98: the bounds are zero if nothing is rounded, no MAX or MIN window is at a tie and no LEAKY_RELU at its kink. -/
theorem C98_exact (Ω Ω' : ℝ) (ls : List NetLayer) (s : Shape) (x : Tensor) (n t : Nat) (hc : NetClear ls s x) (i : Nat) (l : NetLayer) (hl : ls[i]? = some l) :
    (∀ a < (l.weightShape (netOut (ls.take i) s)).X, ∀ b < (l.weightShape (netOut (ls.take i) s)).Y, ∀ c < (l.weightShape (netOut (ls.take i) s)).Z,
      netWeightErr ⟨0, 0, 0, Ω⟩ ⟨0, 0, Ω'⟩ n t 0 i ls s x (fun _ _ _ => 0) a b c = 0) ∧
    ∀ f < l.biasCount, netBiasErr ⟨0, 0, 0, Ω⟩ ⟨0, 0, Ω'⟩ n t 0 i ls s x (fun _ _ _ => 0) f = 0 :=
  (net_exact hc).2 i l hl

theorem double_rounds : doubleEnv.Rounds Double.floating ⟨2 ^ (-24 : ℤ), 2 ^ (-150 : ℤ), 2 ^ (127 : ℤ)⟩ := by
  refine ⟨fun a ha h => Double.toFloat_near ha h, ?_, Double.slope_fin, rfl, (two_zpow_pos _).le, (two_zpow_pos _).le⟩
  show (Double.toFloat 0).Fin ∧ (Double.toFloat 0).val = 0
  rw [Double.toFloat_zero]
  exact Double.floating.zero

/-- A network as in `C98_exact`: LEAKY_RELU and MAX pooling of two different numbers. -/
example : NetClear [.act .leaky, .pool .max 2 1 1 1] ⟨2, 1, 1⟩ (fun i _ _ => i + 1) := by
  refine ⟨?_, ?_, trivial⟩
  · intro i _ j _ k _
    have : (0 : ℝ) ≤ i := Nat.cast_nonneg i
    show (i : ℝ) + 1 ≠ 0
    linarith
  · intro a ha c hc k hk
    obtain rfl : a = 0 := Nat.lt_one_iff.1 ha
    obtain rfl : c = 0 := Nat.lt_one_iff.1 hc
    refine ⟨1, 0, ⟨⟨by omega, by omega⟩, by omega, by omega⟩, ?_⟩
    rintro i' j' ⟨⟨_, h1⟩, _, h2⟩ hne
    obtain rfl : i' = 0 := by omega
    simp only [NetLayer.eval, actSpec]
    norm_num

/-- C98: the program in binary64, with records in binary32, is such an environment. -/
theorem C98_double : ∃ F : Floating doubleEnv.num Double.precision, F.Fin = Double.Fin ∧ F.val = Double.val ∧
    doubleEnv.Rounds F ⟨2 ^ (-24 : ℤ), 2 ^ (-150 : ℤ), 2 ^ (127 : ℤ)⟩ :=
  ⟨Double.floating, rfl, rfl, double_rounds⟩

/-- C98: the conversion to `float` gives a number of 24 bits, none of which is nearer; infinities and NaN are kept. -/
theorem C98_float (x : ℝ) (hx : |x| ≤ 2 ^ (127 : ℤ)) :
    (∃ m e : ℤ, |(m : ℝ)| < 2 ^ (24 : ℤ) ∧ -149 ≤ e ∧ Double.toFloat (.num x) = .num (m * 2 ^ e) ∧
      ∀ m' e' : ℤ, |(m' : ℝ)| < 2 ^ (24 : ℤ) → -149 ≤ e' → |(m : ℝ) * 2 ^ e - x| ≤ |(m' : ℝ) * 2 ^ e' - x|) ∧
    (∀ s, Double.toFloat (.inf s) = .inf s) ∧ Double.toFloat .nan = .nan := by
  refine ⟨?_, fun _ => rfl, rfl⟩
  obtain ⟨m, k, g1, g2, g3⟩ := Format.float.round_has (by decide) x
  refine ⟨m, k, g1, g2, ?_, ?_⟩
  · have hr : |Format.float.round x - x| ≤ 2 ^ (-24 : ℤ) * |x| + 2 ^ (-150 : ℤ) := Format.float.round_rel x
    rw [← g3]
    refine if_pos ?_
    have h1 := abs_add_le (Format.float.round x - x) x
    rw [sub_add_cancel] at h1
    have h2 : (2 : ℝ) ^ (-24 : ℤ) * |x| ≤ 1 / 4 * 2 ^ (127 : ℤ) := mul_le_mul (by norm_num) hx (abs_nonneg _) (by norm_num)
    have h3 : (2 : ℝ) ^ (-150 : ℤ) ≤ 2 ^ (0 : ℤ) := zpow_le_zpow_right₀ (by norm_num) (by norm_num)
    have h4 : (2 : ℝ) ^ (10 : ℤ) ≤ 2 ^ (127 : ℤ) := zpow_le_zpow_right₀ (by norm_num) (by norm_num)
    have e0 : (2 : ℝ) ^ (0 : ℤ) = 1 := zpow_zero _
    have e10 : (2 : ℝ) ^ (10 : ℤ) = 1024 := by norm_num
    have e : (2 : ℝ) ^ (128 : ℤ) = 2 * 2 ^ (127 : ℤ) := by rw [show (128 : ℤ) = 1 + 127 by norm_num, zpow_add₀ (by norm_num), zpow_one]
    rw [e0] at h3
    rw [e10] at h4
    show |Format.float.round x| < 2 ^ (128 : ℤ)
    rw [e]
    clear e
    generalize (2 : ℝ) ^ (127 : ℤ) = c at *
    generalize (2 : ℝ) ^ (-24 : ℤ) * |x| = d at *
    generalize (2 : ℝ) ^ (-150 : ℤ) = g at *
    linarith
  · intro m' e' h1 h2
    rw [← g3]
    exact Format.float.round_nearest (by decide) x h1 h2

/-! ### The network of C84 in binary64 -/

theorem slotted_round (w : Double) : SlottedAll 0 true ⟨1, 1, 1⟩ ((roundModel w).layers.map (·.body)) (roundNet w.val) :=
  ⟨⟨Nat.one_pos, Nat.one_pos, Or.inl rfl⟩, trivial⟩

/-- `C98_smooth_partial` applies: with the true label "b" the stored gradient of the second weight is within 1/100 of
`-1 / (1 + exp 1)`. -/
example : ∃ r M₁ r' M₂ DW DB, ∃ dw : Nat → Nat → Nat → Double, (roundModel 1).forwardPropagation doubleEnv ⟨dimN 1 1 1, [1]⟩ 0 = .ok (r, M₁) ∧
    M₁.backwardsPropagation doubleEnv r "b".toList 0 = .ok (r', M₂) ∧ M₂.stored 0 0 = some (DW, DB) ∧ DW.Shows 2 1 1 dw ∧ (dw 1 0 0).Fin ∧
    |(dw 1 0 0).val - -(1 / (1 + Real.exp 1))| ≤ 1 / 100 := by
  have hout : netOut (roundNet 1) ⟨1, 1, 1⟩ = ⟨2, 1, 1⟩ := rfl
  obtain ⟨_, _, _, hΩ⟩ := double_consts
  obtain ⟨f1, f2, _, f4, f5⟩ := round_facts
  obtain ⟨r, M₁, t, r', M₂, h1, h2, ⟨h3, h4, _⟩, h5⟩ := C98_smooth_partial doubleEnv Double.precision Double.precision_ok Double.floating _ double_rounds (roundModel 1) 0 ⟨1, 1, 1⟩ (roundNet 1) 2
    (roundModel_holds Double.floating.one.1) (slotted_round 1) ⟨trivial, trivial⟩ ⟨trivial, trivial⟩ ⟨dimN 1 1 1, [1]⟩ (fun _ _ _ => 1) (fun _ _ _ => 0)
    ⟨trivial, trivial⟩ (roundInput_near Double.floating.one.1) (f1 0 (by omega)).1 (1 / 2 ^ 20) (f1 0 (by omega)).2.1 (f1 0 (by omega)).2.2.1
    (le_trans (by norm_num) hΩ) f5 "b".toList (by simp [roundModel]) (fun t ht _ => (f1 t ht).2.2.2)
  obtain rfl : t = 1 := by
    obtain rfl | rfl : t = 0 ∨ t = 1 := by omega
    · simp [roundModel] at h4
    · rfl
  obtain ⟨DW, DB, dw, db, k1, k2, _, k4, _⟩ := h5 0 _ _ _ rfl rfl
  obtain ⟨_, k5, k6⟩ := k4 1 (by decide) 0 (by decide) 0 (by decide)
  refine ⟨r, M₁, r', M₂, DW, DB, dw, h1, h2, k1, k2, k5, ?_⟩
  rw [f4] at k6
  exact k6.trans (((f2 1 1 (by omega)).2).trans (by norm_num))

end Cnn
