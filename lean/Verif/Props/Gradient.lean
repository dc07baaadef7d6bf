import Verif.Lemmas.NetModel
import Verif.Props.TrainUpdate
/-!
# Property C65: back-propagation through a network computes the gradient of the loss
-/
namespace Cnn
open Model

/-! ## C65 -/

/-- C65 for every network that fits its input, at every point where each layer is differentiable. In exact arithmetic:
`forwardPropagation` succeeds and its last record is the vector of probabilities; `backwardsPropagation` with one of the
output labels succeeds; and for every layer with parameters, what it has stored in the batch slot is, entry by entry, the
derivative of `-ln (probability of the label)` with respect to that one weight or bias. Missing: convolutions other than the
first layer whose output is not square (the code throws, `C65_violated`), and the points where the network is differentiable
although one of its layers is not. -/
theorem C65_gradient_partial (E : Env ℝ) (hE : E.Exact) (M : Model ℝ) (b : Nat) (s : Shape) (ls : List NetLayer) (n : Nat)
    (hM : M.Denotes b s ls n) (X : Matrix ℝ) (x : Tensor) (hX : X.Shows s.X s.Y s.Z x) (hfit : NetFits ls s)
    (htr : NetTrains true ls s) (hsm : NetSmooth ls s x) (label : List Char) (hl : label ∈ M.labels) :
    ∃ r M₁ t r' M₂, M.forwardPropagation E X b = .ok (r, M₁) ∧ M₁.backwardsPropagation E r label b = .ok (r', M₂) ∧
      (∃ P, r.inputs.getLast? = some P ∧ P.IsVec n (netProb ls s n x)) ∧
      (t < n ∧ M.labels[t]? = some label ∧ ∀ t' < t, M.labels[t']? ≠ some label) ∧
      ∀ i l w β, ls[i]? = some l → l.params = some (w, β) →
        ∃ DW DB dw, ∃ db : Nat → ℝ, M₂.stored i b = some (DW, DB) ∧
          DW.Shows (l.weightShape (netOut (ls.take i) s)).X (l.weightShape (netOut (ls.take i) s)).Y
            (l.weightShape (netOut (ls.take i) s)).Z dw ∧
          DB.Shows l.biasCount 1 1 (fun f _ _ => db f) ∧
          (∀ a < (l.weightShape (netOut (ls.take i) s)).X, ∀ b < (l.weightShape (netOut (ls.take i) s)).Y,
            ∀ c < (l.weightShape (netOut (ls.take i) s)).Z,
            HasDerivAt (fun v => netLoss (ls.set i (l.withParams (w.update a b c v) β)) s n t x) (dw a b c) (w a b c)) ∧
          ∀ f < l.biasCount,
            HasDerivAt (fun v => netLoss (ls.set i (l.withParams w (Function.update β f v))) s n t x) (db f) (β f) := by
  obtain ⟨r, M₁, h1, h2, h3⟩ := model_pass hE hM hfit hX
  obtain ⟨t, r', M₂, ht, ht1, ht2, h4, h5⟩ := h3 htr ls (.self hsm) label hl
  refine ⟨r, M₁, t, r', M₂, h1, h4, h2, ⟨ht, ht1, ht2⟩, ?_⟩
  intro i l w β hl hp
  obtain ⟨DW, DB, dw, db, k1, k2, k3, k4⟩ := h5 i l hl (by rw [hp]; simp)
  exact ⟨DW, DB, dw, db, k1, k2, k3, fun a ha b hb c hc => k4.weight hl hp ha hb hc, fun f hf => k4.bias hl hp hf⟩

/-! ### A network

A 3×3 input, one 2×2 filter, RELU, 2×2 MAX pooling, a fully connected layer with two outputs, softmax over "a", "b". -/

/-- The layers as functions. -/
noncomputable def exampleNet : List NetLayer :=
  [.conv 2 2 1 1 (fun _ _ _ => 1) (fun _ => 1), .act .relu, .pool .max 2 2 2 2, .full 2 (fun i _ _ => i) (fun _ => 0)]

/-- The layers as objects. -/
noncomputable def exampleNetBodies : List (Body ℝ) :=
  [.kernel ⟨dimN 2 2 1, 1, 1, ⟨dimN 2 2 1, [1, 1, 1, 1]⟩, ⟨dimN 1 1 1, [1]⟩, [Matrix.empty], [Matrix.empty]⟩,
    .activation (Activation.new .relu), .pooling (Pooling.new ⟨2, 2⟩ ⟨2, 2⟩ .max),
    .connected { weights := ⟨dimN 2 1 1, [0, 1]⟩, biases := ⟨dimN 2 1 1, [0, 0]⟩, inputDim := dimN 1 1 1, initialized := true,
                 wGrads := [Matrix.empty], bGrads := [Matrix.empty] }]

noncomputable def exampleNetModel : Model ℝ :=
  { (Model.new : Model ℝ) with
    labels := ["a".toList, "b".toList]
    layers := (exampleNetBodies ++ [Body.softmax (Softmax.new 2)]).map (fun b => ⟨[], b⟩) }

theorem exampleNetModel_denotes : exampleNetModel.Denotes 0 ⟨3, 3, 1⟩ exampleNet 2 := by
  refine ⟨⟨exampleNetBodies, Softmax.new 2, rfl, ⟨⟨⟨rfl, rfl, rfl, ?_, ?_⟩, by simp, by simp⟩, rfl, ⟨rfl, rfl, rfl, by simp [Pooling.new]⟩,
    ⟨⟨?_, ?_, rfl⟩, by simp, by simp, Or.inr rfl⟩, trivial⟩, rfl⟩, rfl, Or.inl rfl⟩
  · refine Matrix.Shows.of_vals ⟨by omega, by omega, by omega, by omega⟩ rfl ?_
    simp [List.range_succ]
  · refine Matrix.Shows.of_vals ⟨by omega, by omega, by omega, by omega⟩ rfl ?_
    simp [List.range_succ]
  · refine Matrix.Shows.of_vals ⟨by omega, by decide, by omega, by decide⟩ rfl ?_
    simp [List.range_succ, NetLayer.out, windows]
  · refine Matrix.Shows.of_vals ⟨by omega, by omega, by omega, by omega⟩ rfl ?_
    simp [List.range_succ]

/-- The input `x + 2y`. -/
noncomputable def exampleNetInput : Matrix ℝ := ⟨dimN 3 3 1, [0, 1, 2, 2, 3, 4, 4, 5, 6]⟩

theorem exampleNetInput_shows : exampleNetInput.Shows 3 3 1 (fun i j _ => i + 2 * j) := by
  refine Matrix.Shows.of_vals ⟨by omega, by omega, by omega, by omega⟩ rfl ?_
  simp [exampleNetInput, List.range_succ]
  norm_num

theorem exampleNet_fits : NetFits exampleNet ⟨3, 3, 1⟩ := by
  refine ⟨⟨rfl, ⟨by decide, by decide, by decide⟩⟩, trivial, ⟨by decide, by decide, by decide, by decide, by decide, by decide, by decide, by decide⟩, trivial, trivial⟩

theorem exampleNet_trains : NetTrains true exampleNet ⟨3, 3, 1⟩ := ⟨Or.inl rfl, trivial, trivial, trivial, trivial⟩

theorem exampleNet_smooth : NetSmooth exampleNet ⟨3, 3, 1⟩ (fun i j _ => i + 2 * j) := by
  refine ⟨trivial, Or.inr ⟨rfl, ?_⟩, ?_, trivial, trivial⟩
  · intro i hi j hj k hk
    simp only [NetLayer.eval, convLayer, Finset.sum_range_succ, Finset.sum_range_zero]
    push_cast
    positivity
  · intro i hi j hj k hk
    refine ⟨1, by decide, 1, by decide, ?_⟩
    intro a ha c hc hne
    have hi : i < 1 := hi
    have hj : j < 1 := hj
    obtain rfl : i = 0 := by omega
    obtain rfl : j = 0 := by omega
    simp only [NetLayer.eval, actSpec, convLayer, Finset.sum_range_succ, Finset.sum_range_zero]
    obtain rfl | rfl : a = 0 ∨ a = 1 := by omega
    · obtain rfl | rfl : c = 0 ∨ c = 1 := by omega
      · norm_num
      · norm_num
    · obtain rfl : c = 0 := by omega
      norm_num

/-- The theorem applies: the gradients of the example network exist and are stored. -/
example (label : List Char) (hl : label ∈ exampleNetModel.labels) :
    ∃ r M₁ r' M₂ DW DB, exampleNetModel.forwardPropagation exactEnv exampleNetInput 0 = .ok (r, M₁) ∧
      M₁.backwardsPropagation exactEnv r label 0 = .ok (r', M₂) ∧ M₂.stored 0 0 = some (DW, DB) ∧ DW.dim = dimN 2 2 1 := by
  obtain ⟨r, M₁, t, r', M₂, h1, h2, _, _, h3⟩ := C65_gradient_partial exactEnv ⟨rfl, rfl, rfl⟩ exampleNetModel 0 ⟨3, 3, 1⟩ exampleNet 2
    exampleNetModel_denotes _ _ exampleNetInput_shows exampleNet_fits exampleNet_trains exampleNet_smooth label hl
  obtain ⟨DW, DB, dw, db, k1, k2, _⟩ := h3 0 _ _ _ rfl rfl
  exact ⟨r, M₁, r', M₂, DW, DB, h1, h2, k1, k2.dim⟩

/-! ### What fails -/

/-- C65, the full claim: wherever the loss is differentiable with respect to a parameter, the stored entry is the derivative. -/
def C65_claim : Prop :=
  ∀ (E : Env ℝ) (M : Model ℝ) (b : Nat) (s : Shape) (ls : List NetLayer) (n : Nat) (X : Matrix ℝ) (x : Tensor)
    (label : List Char), E.Exact → M.Denotes b s ls n → X.Shows s.X s.Y s.Z x → NetFits ls s →
    (∀ f, NetLayer.act f ∈ ls → f = .relu ∨ f = .linear) → label ∈ M.labels →
    ∃ r M₁ t r' M₂, M.forwardPropagation E X b = .ok (r, M₁) ∧ M₁.backwardsPropagation E r label b = .ok (r', M₂) ∧
      M.labels[t]? = some label ∧
      ∀ i l w β, ls[i]? = some l → l.params = some (w, β) →
        ∃ DW DB dw, ∃ db : Nat → ℝ, M₂.stored i b = some (DW, DB) ∧
          DW.Shows (l.weightShape (netOut (ls.take i) s)).X (l.weightShape (netOut (ls.take i) s)).Y
            (l.weightShape (netOut (ls.take i) s)).Z dw ∧
          DB.Shows l.biasCount 1 1 (fun f _ _ => db f) ∧
          (∀ a < (l.weightShape (netOut (ls.take i) s)).X, ∀ b < (l.weightShape (netOut (ls.take i) s)).Y,
            ∀ c < (l.weightShape (netOut (ls.take i) s)).Z, ∀ d,
            HasDerivAt (fun v => netLoss (ls.set i (l.withParams (w.update a b c v) β)) s n t x) d (w a b c) → dw a b c = d) ∧
          ∀ f < l.biasCount, ∀ d,
            HasDerivAt (fun v => netLoss (ls.set i (l.withParams w (Function.update β f v))) s n t x) d (β f) → db f = d

/-- A LINEAR activation and a 1×1 convolution, on 2×1 inputs. -/
noncomputable def lineNet : List NetLayer := [.act .linear, .conv 1 1 1 1 (fun _ _ _ => 1) (fun _ => 0)]

noncomputable def lineKernel : Kernel ℝ := ⟨dimN 1 1 1, 1, 1, ⟨dimN 1 1 1, [1]⟩, ⟨dimN 1 1 1, [0]⟩, [Matrix.empty], [Matrix.empty]⟩

noncomputable def lineModel : Model ℝ :=
  { (Model.new : Model ℝ) with
    labels := ["a".toList, "b".toList]
    layers := [⟨[], .activation (Activation.new .linear)⟩, ⟨[], .kernel lineKernel⟩, ⟨[], .softmax (Softmax.new 2)⟩] }

theorem lineKernel_is : lineKernel.Is 1 1 1 1 1 (fun _ _ _ => 1) (fun _ => 0) :=
  ⟨rfl, rfl, rfl, one_shows 1, one_shows 0⟩

theorem lineModel_denotes : lineModel.Denotes 0 ⟨2, 1, 1⟩ lineNet 2 :=
  ⟨⟨[.activation (Activation.new .linear), .kernel lineKernel], Softmax.new 2, rfl,
    ⟨rfl, ⟨lineKernel_is, by simp [lineKernel], by simp [lineKernel]⟩, trivial⟩, rfl⟩, rfl, Or.inl rfl⟩

/-- C65 is false of the code: a convolution that is not the first layer and whose output is not square (here 2×1) makes
`backwardsPropagation` throw `MatrixTransformException`. -/
theorem C65_violated : ¬ C65_claim := by
  intro h
  have hX : (⟨dimN 2 1 1, [0, 0]⟩ : Matrix ℝ).Shows 2 1 1 (fun _ _ _ => 0) := by
    refine Matrix.Shows.of_vals ⟨by omega, by omega, by omega, by omega⟩ rfl ?_
    simp [List.range_succ]
  obtain ⟨r, M₁, t, r', M₂, h1, h2, _⟩ := h exactEnv lineModel 0 ⟨2, 1, 1⟩ lineNet 2 _ _ "a".toList ⟨rfl, rfl, rfl⟩ lineModel_denotes hX
    ⟨trivial, ⟨rfl, by decide, by decide, by decide⟩, trivial⟩ (by
      intro f hf
      simp only [lineNet, List.mem_cons, NetLayer.act.injEq, List.not_mem_nil, or_false, reduceCtorEq] at hf
      exact Or.inr hf) (by simp [lineModel])
  obtain ⟨outs, bodies, hp, rfl, hlen, hrec, _⟩ := C57_consistent _ _ _ _ _ _ h1
  -- the layers after the forward pass
  obtain ⟨X0, e0, s0⟩ := Matrix.ofExpr_shows hX.expr (id : ℝ → ℝ)
  have q0 := Res.ok.inj (hp.start.symm.trans e0)
  obtain ⟨Y0, e1, s1⟩ := C23_forward .linear _ _ s0
  have p0 := hp.layer 0 _ rfl
  rw [q0] at p0
  have p1 := hp.layer 1 _ rfl
  have p2 := hp.layer 2 _ rfl
  have q1 : outs 1 = Y0 := by
    have : (Body.activation (Activation.new .linear)).forward Num.real (exactEnv.draws 0) X0 0 = .ok (Y0, .activation (Activation.new .linear)) := by
      simp only [Body.forward, e1, Res.bind_ok]
    exact (congrArg Prod.fst (Res.ok.inj (this.symm.trans p0))).symm
  have hfit : ConvFits 2 1 1 1 1 := ⟨by decide, by decide, by decide⟩
  obtain ⟨Y1, e2, s2⟩ := C33_formula lineKernel _ _ _ _ lineKernel_is s1 hfit
  have q2 : outs 2 = Y1 ∧ bodies 1 = .kernel lineKernel := by
    rw [q1] at p1
    have : (Body.kernel lineKernel).forward Num.real (exactEnv.draws 1) Y0 0 = .ok (Y1, .kernel lineKernel) := by
      simp only [Body.forward, e2, Res.bind_ok]
    have := Res.ok.inj (this.symm.trans p1)
    exact ⟨(congrArg Prod.fst this).symm, (congrArg Prod.snd this).symm⟩
  have hv : Y1.IsVec 2 _ := isVec_of_shape (s := ⟨2, 1, 1⟩) (Or.inl rfl) s2
  obtain ⟨P, e3, d3, s3⟩ := softmax_forward (S := Softmax.new 2) hv rfl
  have q3 : outs 3 = P ∧ bodies 2 = .softmax (Softmax.new 2) := by
    rw [q2.1] at p2
    have : (Body.softmax (Softmax.new 2)).forward Num.real (exactEnv.draws 2) Y1 0 = .ok (P, .softmax (Softmax.new 2)) := by
      simp only [Body.forward, e3, Res.bind_ok]
    have := Res.ok.inj (this.symm.trans p2)
    exact ⟨(congrArg Prod.fst this).symm, (congrArg Prod.snd this).symm⟩
  have s3' := shape_of_isVec (s := ⟨2, 1, 1⟩) (Or.inl rfl) (d3.trans s2.dim) s3
  -- the records
  obtain ⟨R1, g1, k1⟩ := hrec 1 (by decide)
  obtain ⟨R2, g2, k2⟩ := hrec 2 (by decide)
  obtain ⟨R3, g3, k3⟩ := hrec 3 (by decide)
  rw [q1] at k1
  rw [q2.1] at k2
  rw [q3.1] at k3
  obtain ⟨R1', f1, k1⟩ := Matrix.ofExpr_shows (k1 _ _ _ _ s1).expr (id : ℝ → ℝ)
  obtain ⟨R2', f2, k2⟩ := Matrix.ofExpr_shows (k2 _ _ _ _ s2).expr (id : ℝ → ℝ)
  have k3 := k3 _ _ _ _ s3'
  obtain ⟨R3', f3, k3'⟩ := Matrix.ofExpr_shows k3.expr (id : ℝ → ℝ)
  have hlay : (lineModel.withBodies bodies).layers = [⟨[], bodies 0⟩, ⟨[], .kernel lineKernel⟩, ⟨[], .softmax (Softmax.new 2)⟩] := by
    rw [← q2.2, ← q3.2]; rfl
  obtain ⟨t, ht, -, -, hbeg⟩ := C58_known_partial exactEnv (lineModel.withBodies bodies) r "a".toList R3
    (by rw [List.getLast?_eq_getElem?, hlen]; exact g3) _ _ _ _ k3 rfl (by simp [lineModel, Model.withBodies]) ⟨[], .softmax (Softmax.new 2)⟩
    (Softmax.new 2) (by rw [hlay]; rfl) rfl rfl
  unfold Model.backwardsPropagation at h2
  rw [hbeg, Res.bind_ok, hlay] at h2
  have hr : (List.range [(⟨[], bodies 0⟩ : Layer ℝ), ⟨[], .kernel lineKernel⟩, ⟨[], .softmax (Softmax.new 2)⟩].length).reverse = [2, 1, 0] := rfl
  rw [hr] at h2
  obtain ⟨s, h2, -⟩ := Res.bind_eq_ok h2
  simp only [List.foldlM_cons] at h2
  obtain ⟨u, hu, h2⟩ := Res.bind_eq_ok h2
  obtain ⟨u', hu', -⟩ := Res.bind_eq_ok h2
  obtain ⟨v, hv3⟩ : ∃ v, R3'.IsVec 2 v := ⟨_, isVec_of_shape (s := ⟨2, 1, 1⟩) (Or.inl rfl) k3'⟩
  obtain ⟨G, eG, dG, sG⟩ := hv3.setFlat (m := t) ht (v t - 1)
  have sG' := shape_of_isVec (s := ⟨2, 1, 1⟩) (Or.inl rfl) (dG.trans k3'.dim) sG
  -- the output layer hands on a 2×1 gradient
  have hu2 : u.1 = G ∧ u.2.layers[1]? = some ⟨[], .kernel lineKernel⟩ := by
    unfold Model.backwardStep at hu
    simp only [Model.recordAt, g2, g3, Res.bind_ok, Model.setBody, hlay, List.length_cons, List.length_nil, List.modify_succ_cons,
      List.modify_zero_cons, Nat.zero_add, Nat.reduceAdd, Nat.add_one_sub_one, List.getElem?_cons_succ, List.getElem?_cons_zero, Res.ofOption_some, f2, f3, Body.backward, Softmax.backward,
      Bool.not_true, Bool.false_eq_true, if_false, Softmax.getdLdX, hv3.flat (show t < 2 from ht), eG, Res.ok.injEq] at hu
    rw [← hu]
    exact ⟨rfl, rfl⟩
  -- the convolution throws
  unfold Model.backwardStep at hu'
  simp only [Model.recordAt, g1, g2, Res.bind_ok, hu2.2, Res.ofOption_some, f1, f2, Body.backward, hu2.1] at hu'
  have hth := C36_nonsquare_throws lineKernel _ _ _ _ R1' R2' G 0 lineKernel_is k1 hfit (by decide) sG' (by decide) (by decide)
  simp [hth] at hu'

end Cnn
