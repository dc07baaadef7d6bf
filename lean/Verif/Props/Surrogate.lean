import Verif.Props.Stale
import Verif.Props.Main
/-!
# Property C83: what training computes, whatever the activation functions and the input

C65, C67 and C82 are about points where every layer is differentiable and activations that the program differentiates. The
program itself does not know about this: at a kink, at a tie, and for SIGMOID, TANGENT and LEAKY_RELU it computes something
too. It is the derivative of another network, `netSurrogate`. In particular this is what `main` computes, whose network
contains a SIGMOID layer.
-/
namespace Cnn
open Model

/-- C83, the network that is differentiated: it has the same layers with parameters, the same shapes, and at `x` the same
output, so the same loss. -/
theorem C83_value (ls : List NetLayer) (s : Shape) (x : Tensor) (n t : Nat) (hfit : NetFits ls s) :
    netOut (netSurrogate ls s x) s = netOut ls s ∧ netEval (netSurrogate ls s x) s x = netEval ls s x ∧
      netLoss (netSurrogate ls s x) s n t x = netLoss ls s n t x ∧
      ∀ (i : Nat) (l : NetLayer), ls[i]? = some l → l.params ≠ none → (netSurrogate ls s x)[i]? = some l := by
  have ho : ∀ ls s x, netOut (netSurrogate ls s x) s = netOut ls s := by
    intro ls
    induction ls with
    | nil => exact fun _ _ => rfl
    | cons l ls ih =>
      intro s x
      show netOut (netSurrogate ls (l.out s) (l.eval s x)) ((l.surrogate s x).out s) = netOut ls (l.out s)
      rw [NetLayer.Stands.out (x := x) (l := l) (Or.inr rfl), ih]
  have he : ∀ ls s x, NetFits ls s → netEval (netSurrogate ls s x) s x = netEval ls s x := by
    intro ls
    induction ls with
    | nil => exact fun _ _ _ => rfl
    | cons l ls ih =>
      intro s x h
      show netEval (netSurrogate ls (l.out s) (l.eval s x)) ((l.surrogate s x).out s) ((l.surrogate s x).eval s x) = netEval ls (l.out s) (l.eval s x)
      rw [NetLayer.Stands.out (x := x) (l := l) (Or.inr rfl), NetLayer.Stands.eval (x := x) (l := l) (Or.inr rfl) h.1, ih _ _ h.2]
  refine ⟨ho ls s x, he ls s x hfit, ?_, ?_⟩
  · unfold netLoss netProb
    rw [ho, he ls s x hfit]
  · intro i l hl hp
    exact (NetStands.surrogate ls s x).get hl hp

/-- C83 for one pass, for every network that fits its input and every input. In exact arithmetic `forwardPropagation` and
`backwardsPropagation` succeed, and for every layer with parameters what has been stored in the batch slot is, entry by
entry, the derivative of the loss of the network `netSurrogate ls s x` with respect to that one weight or bias. Missing:
convolutions other than the first layer whose output is not square (the code throws, `C65_violated`). -/
theorem C83_gradient_partial (E : Env ℝ) (hE : E.Exact) (M : Model ℝ) (b : Nat) (s : Shape) (ls : List NetLayer) (n : Nat)
    (hM : M.Denotes b s ls n) (X : Matrix ℝ) (x : Tensor) (hX : X.Shows s.X s.Y s.Z x) (hfit : NetFits ls s)
    (htr : NetTrains true ls s) (label : List Char) (hl : label ∈ M.labels) :
    ∃ r M₁ t r' M₂, M.forwardPropagation E X b = .ok (r, M₁) ∧ M₁.backwardsPropagation E r label b = .ok (r', M₂) ∧
      (∃ P, r.inputs.getLast? = some P ∧ P.IsVec n (netProb ls s n x)) ∧
      (t < n ∧ M.labels[t]? = some label ∧ ∀ t' < t, M.labels[t']? ≠ some label) ∧
      ∀ i l w β, ls[i]? = some l → l.params = some (w, β) →
        ∃ DW DB dw, ∃ db : Nat → ℝ, M₂.stored i b = some (DW, DB) ∧
          DW.Shows (l.weightShape (netOut (ls.take i) s)).X (l.weightShape (netOut (ls.take i) s)).Y
            (l.weightShape (netOut (ls.take i) s)).Z dw ∧
          DB.Shows l.biasCount 1 1 (fun f _ _ => db f) ∧
          (∀ a < (l.weightShape (netOut (ls.take i) s)).X, ∀ b < (l.weightShape (netOut (ls.take i) s)).Y,
            ∀ c < (l.weightShape (netOut (ls.take i) s)).Z,
            HasDerivAt (fun v => netLoss ((netSurrogate ls s x).set i (l.withParams (w.update a b c v) β)) s n t x) (dw a b c) (w a b c)) ∧
          ∀ f < l.biasCount,
            HasDerivAt (fun v => netLoss ((netSurrogate ls s x).set i (l.withParams w (Function.update β f v))) s n t x) (db f) (β f) := by
  obtain ⟨r, M₁, h1, h2, h3⟩ := model_pass hE hM hfit hX
  obtain ⟨t, r', M₂, ht, ht1, ht2, h4, h5⟩ := h3 htr _ (.surrogate ls s x) label hl
  refine ⟨r, M₁, t, r', M₂, h1, h4, h2, ⟨ht, ht1, ht2⟩, ?_⟩
  intro i l w β hl hp
  obtain ⟨DW, DB, dw, db, k1, k2, k3, k4⟩ := h5 i l hl (by rw [hp]; simp)
  have hl' := (C83_value ls s x n t hfit).2.2.2 i l hl (by rw [hp]; simp)
  have hto := (NetStands.surrogate ls s x).netOut_take i
  refine ⟨DW, DB, dw, db, k1, k2, k3, ?_, fun f hf => k4.bias hl' hp hf⟩
  intro a ha b hb c hc
  rw [← hto] at ha hb hc
  exact k4.weight hl' hp ha hb hc

namespace Train

/-- C83 for training with one thread, for any number of samples: gradient descent with remembered gradients (C82), the
gradients being those of `netSurrogate`. -/
theorem C83_train_partial (E : Env ℝ) (hE : E.Exact) (p : Hyper ℝ) (B size : Nat) (hp : p.batch = B) (hq : p.threads = 1)
    (h0 : 0 < B) (hBs : B ≤ size) (hsz : size < 2 ^ 24) (M : Model ℝ) (b : Nat) (s : Shape) (ls : List NetLayer) (n : Nat)
    (hD : M.Denotes b s ls n) (hfit : NetFits ls s) (htr : NetTrains true ls s)
    (ess : List (List (Tensor × Nat))) (hk : ∀ es ∈ ess, es.length = size) :
    (∀ epochs : List (List (List Nat) × List (Sample ℝ)),
      List.Forall₂ (fun e es => List.Forall₂ (Sample.Is M.labels s) e.2 es) epochs ess →
      (∃ o, train E p size epochs M = .ok o) ∧
      ∀ M', train E p size epochs M = .ok (some M') →
        M'.Denotes 0 s (staleDescents (fun ls x => netSurrogate ls s x) p.rate s n (ess.flatMap (batchesOf B)) [] ls) n) ∧
    (ess.length = p.epochs.toNat → ∀ srcs : List (List (Sample ℝ)), List.Forall₂ (List.Forall₂ (Sample.Is M.labels s)) srcs ess →
      ∃ epochs M', epochs.map Prod.snd = srcs ∧ train E p size epochs M = .ok (some M')) := by
  obtain ⟨a1, a2⟩ := trains_ready (T := 1) (.one hE hp hq (by omega)) hp hq h0 (by omega) hBs hsz hD hfit htr ess hk (leadsSmooth_surrogate _)
  constructor
  · intro epochs he
    obtain ⟨i1, i2⟩ := a1 epochs he
    refine ⟨i1, ?_⟩
    intro M' h
    obtain ⟨_, ls', j1, j2⟩ := i2 M' h
    rw [← leads_one _ j1]; exact j2
  · intro hep srcs hsrc
    obtain ⟨epochs, M', h1, _, h3⟩ := a2 hep srcs hsrc
    exact ⟨epochs, M', h1, h3⟩

/-- C83 for any number of threads and any schedules. -/
theorem C83_threads_partial (E : Env ℝ) (hE : E.Exact) (p : Hyper ℝ) (B T size : Nat) (hp : p.batch = B) (hq : p.threads = T)
    (h0 : 0 < B) (hT0 : 0 < T) (hT : T < 2147483648) (hBs : B ≤ size) (hsz : size < 2 ^ 24) (M : Model ℝ) (b : Nat) (s : Shape)
    (ls : List NetLayer) (n : Nat) (hD : M.Denotes b s ls n) (hfit : NetFits ls s) (htr : NetTrains true ls s)
    (ess : List (List (Tensor × Nat))) (hk : ∀ es ∈ ess, es.length = size) :
    (∀ epochs : List (List (List Nat) × List (Sample ℝ)),
      List.Forall₂ (fun e es => List.Forall₂ (Sample.Is M.labels s) e.2 es) epochs ess →
      (∃ o, train E p size epochs M = .ok o) ∧
      ∀ M', train E p size epochs M = .ok (some M') →
        ∃ out, StaleLeads (fun ls x => netSurrogate ls s x) p.rate s n (ess.flatMap (batchesOf B)) [] ls out ∧ M'.Denotes 0 s out n) ∧
    (ess.length = p.epochs.toNat → ∀ srcs : List (List (Sample ℝ)), List.Forall₂ (List.Forall₂ (Sample.Is M.labels s)) srcs ess →
      ∃ epochs M', epochs.map Prod.snd = srcs ∧ train E p size epochs M = .ok (some M')) := by
  obtain ⟨a1, a2⟩ := trains_ready (.many hE hp hq (by omega) hT0 hT) hp hq h0 hT0 hBs hsz hD hfit htr ess hk (leadsSmooth_surrogate _)
  constructor
  · intro epochs he
    obtain ⟨i1, i2⟩ := a1 epochs he
    refine ⟨i1, ?_⟩
    intro M' h
    obtain ⟨_, ls', j1, j2⟩ := i2 M' h
    exact ⟨ls', leads_many _ j1, j2⟩
  · intro hep srcs hsrc
    obtain ⟨epochs, M', h1, _, h3⟩ := a2 hep srcs hsrc
    exact ⟨epochs, M', h1, h3⟩

/-- C83 from building to training: a model built with the `add…` calls and trained. With one thread the result is determined. -/
theorem C83_build_partial (E : Env ℝ) (hE : E.Exact) (p : Hyper ℝ) (B T size : Nat) (hp : p.batch = B) (hq : p.threads = T)
    (h0 : 0 < B) (hT0 : 0 < T) (hT : T < 2147483648) (hBs : B ≤ size) (hsz : size < 2 ^ 24) (ks : List LayerKind)
    (labels : List (List Char)) (s : Shape) (hks : AllSized E.draws 0 s ks) (hfit : NetFits (drawnNet E.draws 0 s ks) s)
    (htr : NetTrains true (drawnNet E.draws 0 s ks) s)
    (hout : netOut (drawnNet E.draws 0 s ks) s = ⟨labels.length, 1, 1⟩ ∨ netOut (drawnNet E.draws 0 s ks) s = ⟨1, labels.length, 1⟩)
    (ess : List (List (Tensor × Nat))) (hne : ess ≠ []) (hk : ∀ es ∈ ess, es.length = size) :
    ∃ M, buildModel E.num E.draws ks labels = .ok M ∧
      (∀ epochs : List (List (List Nat) × List (Sample ℝ)),
        List.Forall₂ (fun e es => List.Forall₂ (Sample.Is labels s) e.2 es) epochs ess →
        (∃ o, train E p size epochs M = .ok o) ∧
        ∀ M', train E p size epochs M = .ok (some M') →
          (∃ out, StaleLeads (fun ls x => netSurrogate ls s x) p.rate s labels.length (ess.flatMap (batchesOf B)) [] (drawnNet E.draws 0 s ks) out ∧
            M'.Denotes 0 s out labels.length) ∧
          (T = 1 → M'.Denotes 0 s (staleDescents (fun ls x => netSurrogate ls s x) p.rate s labels.length (ess.flatMap (batchesOf B)) []
            (drawnNet E.draws 0 s ks)) labels.length)) ∧
      (ess.length = p.epochs.toNat → ∀ srcs : List (List (Sample ℝ)), List.Forall₂ (List.Forall₂ (Sample.Is labels s)) srcs ess →
        ∃ epochs M', epochs.map Prod.snd = srcs ∧ train E p size epochs M = .ok (some M')) := by
  obtain ⟨M, e, hl, hD⟩ := buildModel_starts E.draws ks labels hks hout
  rw [← hE.num] at e
  refine ⟨M, e, ?_⟩
  have key := trains_fresh hE (.many hE hp hq (by omega) hT0 hT) hp hq h0 hT0 hT hBs hsz hD hfit htr ess hne hk (leadsSmooth_surrogate _)
  rw [hl] at key
  constructor
  · intro epochs he
    obtain ⟨i1, i2⟩ := key.1 epochs he
    refine ⟨i1, ?_⟩
    intro M' h
    obtain ⟨_, ls', j1, j2⟩ := i2 M' h
    refine ⟨⟨ls', leads_many _ j1, j2⟩, ?_⟩
    rintro rfl
    have key1 := trains_fresh (T := 1) hE (.one hE hp hq (by omega)) hp hq h0 hT0 hT hBs hsz hD hfit htr ess hne hk (leadsSmooth_surrogate _)
    rw [hl] at key1
    obtain ⟨_, ls'', j3, j4⟩ := (key1.1 epochs he).2 M' h
    rw [← leads_one _ j3]; exact j4
  · intro hep srcs hsrc
    obtain ⟨epochs, M', h1, _, h3⟩ := key.2 hep srcs hsrc
    exact ⟨epochs, M', h1, h3⟩

end Train

/-! ### Examples -/

/-- A network with a SIGMOID layer: one input, a fully connected layer with one output, SIGMOID, a fully connected layer with
two outputs. -/
noncomputable def sigmoidNet : List NetLayer :=
  [.full 1 (fun _ _ _ => 0) (fun _ => 0), .act .sigmoid, .full 2 (fun i _ _ => if i = 0 then 1 else 0) (fun _ => 0)]

noncomputable def sigmoidBodies : List (Body ℝ) :=
  [.connected { weights := ⟨dimN 1 1 1, [0]⟩, biases := ⟨dimN 1 1 1, [0]⟩, inputDim := dimN 1 1 1, initialized := true,
                wGrads := [Matrix.empty], bGrads := [Matrix.empty] },
    .activation (Activation.new .sigmoid),
    .connected { weights := ⟨dimN 2 1 1, [1, 0]⟩, biases := ⟨dimN 2 1 1, [0, 0]⟩, inputDim := dimN 1 1 1, initialized := true,
                 wGrads := [Matrix.empty], bGrads := [Matrix.empty] }]

noncomputable def sigmoidModel : Model ℝ :=
  { (Model.new : Model ℝ) with
    labels := ["a".toList, "b".toList]
    layers := (sigmoidBodies ++ [Body.softmax (Softmax.new 2)]).map (fun b => ⟨[], b⟩) }

theorem sigmoidModel_denotes : sigmoidModel.Denotes 0 ⟨1, 1, 1⟩ sigmoidNet 2 := by
  refine ⟨⟨sigmoidBodies, Softmax.new 2, rfl, ⟨⟨⟨?_, ?_, rfl⟩, by simp, by simp, Or.inl rfl⟩, rfl,
    ⟨⟨?_, ?_, rfl⟩, by simp, by simp, Or.inr rfl⟩, trivial⟩, rfl⟩, rfl, Or.inl rfl⟩
  · refine Matrix.Shows.of_vals ⟨by decide, by decide, by decide, by decide⟩ rfl ?_
    simp [List.range_succ]
  · refine Matrix.Shows.of_vals ⟨by decide, by decide, by decide, by decide⟩ rfl ?_
    simp [List.range_succ]
  · refine Matrix.Shows.of_vals ⟨by decide, by decide, by decide, by decide⟩ rfl ?_
    simp [List.range_succ, NetLayer.out]
  · refine Matrix.Shows.of_vals ⟨by decide, by decide, by decide, by decide⟩ rfl ?_
    simp [List.range_succ]

theorem sigmoidNet_fits : NetFits sigmoidNet ⟨1, 1, 1⟩ := ⟨trivial, trivial, trivial, trivial⟩

theorem sigmoidNet_trains : NetTrains true sigmoidNet ⟨1, 1, 1⟩ := ⟨trivial, trivial, trivial, trivial⟩

/-- The loss of a network of this kind as a function of what the middle layer gives. -/
theorem two_loss (v : ℝ) : -Real.log (Real.exp v / (Real.exp v + 1)) = Real.log (Real.exp v + 1) - v := by
  rw [Real.log_div (Real.exp_ne_zero _) (by positivity), Real.log_exp]; ring

theorem two_loss_deriv (g : ℝ → ℝ) (m y : ℝ) (hg : HasDerivAt g m y) :
    HasDerivAt (fun v => Real.log (Real.exp (g v) + 1) - g v) (-(m / (Real.exp (g y) + 1))) y := by
  have hp : (0 : ℝ) < Real.exp (g y) + 1 := by positivity
  have h : HasDerivAt (fun v => Real.log (Real.exp (g v) + 1) - g v) _ y := (((hg.exp).add_const 1).log hp.ne').sub hg
  have e : Real.exp (g y) * m / (Real.exp (g y) + 1) - m = -(m / (Real.exp (g y) + 1)) := by
    field_simp
    ring
  rw [← e]; exact h

/-- C83, an example: the derivative stored for the first bias is too small in absolute value. The claim of C65 would be false
for SIGMOID layers. -/
theorem C83_sigmoid : ∃ r M₁ r' M₂ DW DB, ∃ db : Nat → ℝ, ∃ d, sigmoidModel.forwardPropagation exactEnv Train.shortInput 0 = .ok (r, M₁) ∧
    M₁.backwardsPropagation exactEnv r "a".toList 0 = .ok (r', M₂) ∧ M₂.stored 0 0 = some (DW, DB) ∧
    DB.Shows 1 1 1 (fun f _ _ => db f) ∧
    HasDerivAt (fun v => netLoss (sigmoidNet.set 0 (.full 1 (fun _ _ _ => 0) (fun _ => v))) ⟨1, 1, 1⟩ 2 0 (fun _ _ _ => 0)) d 0 ∧ d < db 0 ∧ db 0 < 0 := by
  obtain ⟨r, M₁, t, r', M₂, h1, h2, _, ⟨ht, ht1, ht2⟩, h3⟩ := C83_gradient_partial exactEnv ⟨rfl, rfl, rfl⟩ sigmoidModel 0 ⟨1, 1, 1⟩ sigmoidNet 2
    sigmoidModel_denotes _ _ Train.shortInput_shows sigmoidNet_fits sigmoidNet_trains "a".toList (by simp [sigmoidModel])
  obtain rfl : t = 0 := by
    by_contra hc
    exact ht2 0 (by omega) rfl
  obtain ⟨DW, DB, dw, db, k1, _, k3, _, k5⟩ := h3 0 _ _ _ rfl rfl
  have k5 := k5 0 (show 0 < 1 by omega)
  let m : ℝ := Real.sigmoid (1 / 2) * (1 - Real.sigmoid (1 / 2))
  have hs0 : Real.sigmoid 0 = 1 / 2 := by rw [Real.sigmoid_def]; norm_num
  have hup : ∀ v : ℝ, Function.update (fun _ : Nat => (0 : ℝ)) 0 v 0 = v := fun v => by simp
  have e1 : (fun v => netLoss ((netSurrogate sigmoidNet ⟨1, 1, 1⟩ (fun _ _ _ => 0)).set 0
      ((NetLayer.full 1 (fun _ _ _ => 0) (fun _ => 0)).withParams (fun _ _ _ => 0) (Function.update (fun _ => 0) 0 v))) ⟨1, 1, 1⟩ 2 0 (fun _ _ _ => 0)) =
      fun v => Real.log (Real.exp (m * v + 1 / 2) + 1) - (m * v + 1 / 2) := by
    funext v
    rw [← two_loss]
    simp [netLoss, netProb, softmax, netSurrogate, sigmoidNet, NetLayer.surrogate, NetLayer.withParams, netOut, NetLayer.out, netEval, NetLayer.eval, flatOf,
      Finset.sum_range_succ, actSpec, actSlope, hs0, m]
  have e2 : (fun v => netLoss (sigmoidNet.set 0 (.full 1 (fun _ _ _ => 0) (fun _ => v))) ⟨1, 1, 1⟩ 2 0 (fun _ _ _ => 0)) =
      fun v => Real.log (Real.exp (Real.sigmoid v) + 1) - Real.sigmoid v := by
    funext v
    rw [← two_loss]
    simp [netLoss, netProb, softmax, sigmoidNet, netOut, NetLayer.out, netEval, NetLayer.eval, flatOf, Finset.sum_range_succ, actSpec]
  rw [e1] at k5
  have d1 := two_loss_deriv (fun v => m * v + 1 / 2) m 0 (by simpa using ((hasDerivAt_id (0 : ℝ)).const_mul m).add_const (1 / 2))
  have d2 := two_loss_deriv Real.sigmoid (1 / 4) 0 (by
    have := Real.hasDerivAt_sigmoid 0
    rw [hs0] at this
    convert this using 1; norm_num)
  have hdb : db 0 = -(m / (Real.exp (1 / 2) + 1)) := by
    rw [k5.unique d1]; norm_num
  have hm : m < 1 / 4 := by
    have : Real.sigmoid (1 / 2) ≠ 1 / 2 := by
      rw [← hs0]
      intro hc
      have := Real.sigmoid_strictMono.injective hc
      norm_num at this
    have : 0 < (Real.sigmoid (1 / 2) - 1 / 2) ^ 2 := by
      have : Real.sigmoid (1 / 2) - 1 / 2 ≠ 0 := sub_ne_zero.2 this
      positivity
    show Real.sigmoid (1 / 2) * (1 - Real.sigmoid (1 / 2)) < 1 / 4
    nlinarith
  have hm0 : 0 < m := mul_pos (Real.sigmoid_pos _) (sub_pos.2 (Real.sigmoid_lt_one _))
  have hp : (0 : ℝ) < Real.exp (1 / 2) + 1 := by positivity
  refine ⟨r, M₁, r', M₂, DW, DB, db, _, h1, h2, k1, k3, by rw [e2]; exact d2, ?_, ?_⟩
  · rw [hdb, hs0]
    have := div_lt_div_of_pos_right hm hp
    linarith
  · rw [hdb]
    have := div_pos hm0 hp
    linarith

/-- A network with a tie and a kink: everything that enters RELU is 0, and so all entries of the pooling window are equal. -/
noncomputable def tieNet : List NetLayer :=
  [.conv 1 1 1 1 (fun _ _ _ => 0) (fun _ => 0), .act .relu, .pool .max 2 1 1 1, .full 2 (fun i _ _ => i) (fun _ => 0)]

/-- There the position chosen is the first of the window, and the slope of RELU is 0. -/
example (x : Tensor) : netSurrogate tieNet ⟨2, 1, 1⟩ x =
    [.conv 1 1 1 1 (fun _ _ _ => 0) (fun _ => 0), .gate 2 1 (fun i _ _ => i) (fun _ j _ => j) (fun _ _ _ => 0) (fun _ _ _ => 0),
      .gate 1 1 (fun i _ _ => i) (fun _ j _ => j) (fun _ _ _ => 1) (fun _ _ _ => 0), .full 2 (fun i _ _ => i) (fun _ => 0)] := by
  have hc : ∀ i j k, NetLayer.chosen (· ≤ ·) 2 1 1 1 (fun _ _ _ => (0 : ℝ)) i j k = 0 := by
    intro i j k
    exact Nat.sInf_eq_zero.2 (Or.inl ⟨by decide, fun a _ c _ => le_refl _⟩)
  have h0 : NetLayer.eval ⟨2, 1, 1⟩ x (.conv 1 1 1 1 (fun _ _ _ => 0) (fun _ => 0)) = fun _ _ _ => 0 := by
    funext i j k; simp [NetLayer.eval, convLayer]
  have h1 : NetLayer.eval ⟨2, 1, 1⟩ (fun _ _ _ => 0) (.act .relu) = fun _ _ _ => 0 := by
    funext i j k; simp [NetLayer.eval, actSpec]
  have e1 : NetLayer.out ⟨2, 1, 1⟩ (.conv 1 1 1 1 (fun _ _ _ => 0) (fun _ => 0)) = ⟨2, 1, 1⟩ := rfl
  have e2 : NetLayer.out ⟨2, 1, 1⟩ (.act .relu) = ⟨2, 1, 1⟩ := rfl
  unfold tieNet netSurrogate netSurrogate netSurrogate netSurrogate netSurrogate
  rw [e1, h0, e2, h1]
  simp [NetLayer.surrogate, NetLayer.selects, actSpec, actSlope, hc, windows]

/-- Training with SIGMOID, one thread, batches of two and three samples: the run completes and does what C83 says. -/
example : ∃ epochs M', Train.train exactEnv ⟨1, 2, 1, 1⟩ 3 epochs sigmoidModel = .ok (some M') ∧
    M'.Denotes 0 ⟨1, 1, 1⟩ (staleDescents (fun ls x => netSurrogate ls ⟨1, 1, 1⟩ x) 1 ⟨1, 1, 1⟩ 2 ([Train.shortData].flatMap (batchesOf 2)) [] sigmoidNet) 2 := by
  obtain ⟨h1, h2⟩ := Train.C83_train_partial exactEnv ⟨rfl, rfl, rfl⟩ ⟨1, 2, 1, 1⟩ 2 3 rfl rfl (by omega) (by omega) (by omega) sigmoidModel 0 ⟨1, 1, 1⟩
    _ 2 sigmoidModel_denotes sigmoidNet_fits sigmoidNet_trains [Train.shortData] (by simp [Train.shortData])
  obtain ⟨epochs, M', h3, h4⟩ := h2 rfl [Train.shortSource] (.cons Train.shortSource_is .nil)
  refine ⟨epochs, M', h4, (h1 epochs ?_).2 M' h4⟩
  have : List.Forall₂ (List.Forall₂ (Sample.Is sigmoidModel.labels ⟨1, 1, 1⟩)) (epochs.map Prod.snd) [Train.shortData] := by
    rw [h3]; exact .cons Train.shortSource_is .nil
  exact List.forall₂_map_left_iff.1 this

/-- … and with two threads. -/
example : ∃ epochs M', Train.train exactEnv ⟨1, 2, 2, 1⟩ 3 epochs sigmoidModel = .ok (some M') := by
  obtain ⟨_, h2⟩ := Train.C83_threads_partial exactEnv ⟨rfl, rfl, rfl⟩ ⟨1, 2, 2, 1⟩ 2 2 3 rfl rfl (by omega) (by omega) (by omega) (by omega) (by omega)
    sigmoidModel 0 ⟨1, 1, 1⟩ _ 2 sigmoidModel_denotes sigmoidNet_fits sigmoidNet_trains [Train.shortData] (by simp [Train.shortData])
  obtain ⟨epochs, M', _, h4⟩ := h2 rfl [Train.shortSource] (.cons Train.shortSource_is .nil)
  exact ⟨epochs, M', h4⟩

/-! ## The program -/

namespace Main
open Mnist Train

/-- The input and the number of the label of record `i`: `conv` gives the number a `float` stands for. -/
def trainDatum (conv : F32 → ℝ) (f : Content) (i : Nat) : Tensor × Nat :=
  (fun r c _ => conv (pixel (f.pix i r c).toNat), (f.label i).toNat)

/-- The data of one epoch: all records but the first. -/
def trainData (conv : F32 → ℝ) (f : Content) : List (Tensor × Nat) := (List.range' 1 (f.n - 1)).map (trainDatum conv f)

theorem label_index {n : Nat} (h : n ≤ 9) : labels[n]? = some (natText n) ∧ ∀ t < n, labels[t]? ≠ some (natText n) := by
  have : ∀ n : Fin 10, labels[n.1]? = some (natText n.1) ∧ ∀ t : Fin 10, t.1 < n.1 → labels[t.1]? ≠ some (natText n.1) := by decide
  obtain ⟨h1, h2⟩ := this ⟨n, by omega⟩
  exact ⟨h1, fun t ht => h2 ⟨t, by omega⟩ ht⟩

theorem IsTrainSample.is {conv : F32 → ℝ} {f : Content} {i : Nat} {x : Sample ℝ} (h : IsTrainSample conv f i x) (hh : f.h = 28) (hw : f.w = 28)
    (hd : f.label i ≤ 9) : x.Is labels image (trainDatum conv f i) := by
  obtain ⟨im, hr, e1, e2⟩ := h
  have hd : (f.label i).toNat ≤ 9 := UInt8.le_iff_toNat_le.mp hd
  obtain ⟨k1, k2⟩ := label_index hd
  refine ⟨?_, ?_, ?_⟩
  · have := Validate.input_shows conv hr.2
    rw [hh, hw] at this
    rw [e1]; exact this
  · rw [e2]; exact k1
  · rw [e2]; exact k2

/-- C83 for the program. In exact arithmetic, whatever the files contain (within `Suits`), the random numbers, the number of
cores and the schedules: when `main` ends, the model it has trained computes a network that the batches of 32 of the records
1, …, n-1, twice over, lead to from the network with the random weights, by gradient descent with remembered gradients, the
gradients being those of `netSurrogate`. On a machine with one core there is one such network. Missing: rounding, and a call
of a layer is one step of a thread. -/
theorem C83_program_partial (H : Host ℝ) (hE : H.env.Exact) (C : Codec ℝ) (rate : ℝ) (f g : Content) (hs : Suits H.lim H.cores f g)
    (save : Option Bool) (r : Outcome ℝ) (h : program H C rate (files f g) save = .ok (some r)) :
    (∃ out, StaleLeads (fun ls x => netSurrogate ls image x) rate image 10 ([trainData H.conv f, trainData H.conv f].flatMap (batchesOf 32)) []
        (drawnNet H.env.draws 0 image kinds) out ∧ r.trained.Denotes 0 image out 10) ∧
      (H.cores ≤ 1 → r.trained.Denotes 0 image (staleDescents (fun ls x => netSurrogate ls image x) rate image 10
        ([trainData H.conv f, trainData H.conv f].flatMap (batchesOf 32)) [] (drawnNet H.env.draws 0 image kinds)) 10) := by
  obtain ⟨G, M, l, e0, e1, hl, hR, e2, h3, h4, h5⟩ := before_training H f g hs
  have hthr := hyper_threads (rate := rate) hs.threads
  have ht0 : 0 < threads H.cores := by unfold threads; omega
  have ht1 : threads H.cores < 2147483648 := by have := hs.threads; omega
  have he := hs.enough
  have hfew := hs.few
  -- the samples
  have hdata : List.Forall₂ (Sample.Is labels image) l (trainData H.conv f) := by
    unfold trainData
    rw [List.forall₂_map_right_iff]
    refine List.Forall₂.flip ?_
    refine List.Forall₂.imp (R := fun i x => i < f.n ∧ IsTrainSample H.conv f i x) ?_ ?_
    · rintro i x ⟨hi, h⟩
      exact h.is hs.trainSize.1 hs.trainSize.2 (hs.digits i hi)
    · rw [List.forall₂_iff_get] at h3 ⊢
      refine ⟨h3.1, fun i hi hi' => ⟨?_, h3.2 i hi hi'⟩⟩
      rw [List.length_range'] at hi
      simp only [List.get_eq_getElem, List.getElem_range']
      omega
  -- the training
  unfold program files at h
  dsimp only at h
  rw [e0, Res.bind_ok, e1, Res.bind_ok] at h
  obtain ⟨o, ef, h⟩ := Res.bind_eq_ok h
  cases o with
  | none => exact absurd (Res.ok.inj h) (by simp)
  | some q =>
    dsimp only at h
    obtain ⟨v, ev, h⟩ := Res.bind_eq_ok h
    cases v with
    | none => exact absurd (Res.ok.inj h) (by simp)
    | some v =>
      have hr : r.trained = q.1 := by
        have := Option.some.inj (Res.ok.inj h)
        rw [← this]
      rw [hr]
      have h2 : H.trainScheds.length = 2 := by
        by_contra hc
        unfold Feed.train at ef
        rw [Model.room_nonneg (show (0 : Int) ≤ (hyper rate H.cores).batch from (by decide : (0 : Int) ≤ 32)), Res.bind_ok, if_neg (show ¬ H.trainScheds.length = (hyper rate H.cores).epochs.toNat from hc)] at ef
        exact absurd (Res.ok.inj ef) (by simp)
      have hF := Feed.C81_model (source H.conv H.big H.lim) H.env (hyper rate H.cores) (f.n - 1) [l, l] H.trainScheds h2 M G (e2 2)
      rw [ef, Res.bind_ok] at hF
      obtain ⟨w1, w2, w3, w4⟩ := drawnNet_works H.env.draws kinds (i := 0) kinds_work (by decide) (by decide) (by decide)
      obtain ⟨M₀, eb, k1, _⟩ := C83_build_partial H.env hE (hyper rate H.cores) 32 (threads H.cores) (f.n - 1) rfl hthr (by decide) ht0 ht1 (by omega)
        (by omega) kinds labels image w1 w2 w3 (Or.inl (w4.trans kinds_out)) [trainData H.conv f, trainData H.conv f] (by simp)
        (by intro es hes; obtain rfl : es = trainData H.conv f := by simpa using hes
            unfold trainData; rw [List.length_map, List.length_range'])
      rw [← network_eq, e1] at eb
      obtain rfl := Res.ok.inj eb
      obtain ⟨j1, j2⟩ := (k1 (H.trainScheds.zip [l, l]) (by
        match hT : H.trainScheds, h2 with
        | [a, b], _ => exact .cons hdata (.cons hdata .nil))).2 q.1 hF.symm
      exact ⟨j1, fun hc => j2 (by unfold threads; omega)⟩

/-- A machine with eight cores that computes with real numbers. -/
noncomputable def realHost : Host ℝ :=
  ⟨exactEnv, fun v => (Validate.value v : ℚ), true, 100000, ⟨fun q => q, fun q => q, 2147483647⟩, 8, [], [], [0, 1, 2, 3, 2147483646]⟩

/-- The hypotheses can be met: on the files of `someSuits` the program ends for some schedules. -/
example (C : Codec ℝ) : ∃ H : Host ℝ, ∃ r out, program H C (1 / 10) (files someTrain someTest) none = .ok (some r) ∧ r.trained.Denotes 0 image out 10 ∧
    StaleLeads (fun ls x => netSurrogate ls image x) (1 / 10) image 10 ([trainData H.conv someTrain, trainData H.conv someTrain].flatMap (batchesOf 32)) []
      (drawnNet H.env.draws 0 image kinds) out := by
  have herr : ∀ q : ℚ, 0 ≤ q → q ≤ q * (1 + 1 / 9007199254740992) := fun q hq => le_mul_of_one_le_right hq (by norm_num)
  have hr : ∀ r ∈ realHost.rands, r < 2147483647 := by decide
  obtain ⟨ts, vs, r, e⟩ := C71_ends realHost C (1 / 10) someTrain someTest someSuits rfl Rounding.id Rounding.id (by show (1 / 2 : ℚ) ≠ 0; norm_num) herr
    (Nat.le_refl _) hr none
  obtain ⟨⟨out, h1, h2⟩, _⟩ := C83_program_partial { realHost with trainScheds := ts, validScheds := vs } ⟨rfl, rfl, rfl⟩ C (1 / 10) someTrain someTest someSuits none r e
  exact ⟨_, r, out, e, h2, h1⟩

end Main
end Cnn
