import Verif.Lemmas.Twins
import Verif.Props.Silent
/-!
# Property C106: two equal units stay equal during training

Random weights (C40) are needed: units of a layer that start with the same parameters, and that the next layer uses in the same
way, never become different.
-/
namespace Cnn
open Model

namespace Train

/-- C106: whatever the samples, the labels, the number of threads, the schedules and the number of epochs, and whatever the
activation function and the other layers. The numbers `w`, `w₂` outside of the matrices, about which `Denotes` says nothing, can
be chosen freely. Missing: as in C83 (exact arithmetic, at least one full batch, a call of a layer is one step of a thread). -/
theorem C106_train_partial (E : Env ℝ) (hE : E.Exact) (p : Hyper ℝ) (B T size : Nat) (hp : p.batch = B) (hq : p.threads = T)
    (h0 : 0 < B) (hT0 : 0 < T) (hT : T < 2147483648) (hBs : B ≤ size) (hsz : size < 2 ^ 24) (M : Model ℝ) (b : Nat) (s : Shape)
    (init : List NetLayer) (m q n i j : Nat) (hi : i < m) (hj : j < m) (w : Tensor) (β : Nat → ℝ) (f : ActFn) (w₂ : Tensor) (β₂ : Nat → ℝ)
    (rest : List NetLayer) (htw : Twins i j w β w₂) (hD : M.Denotes b s (init ++ .full m w β :: .act f :: .full q w₂ β₂ :: rest) n)
    (hfit : NetFits (init ++ .full m w β :: .act f :: .full q w₂ β₂ :: rest) s)
    (htr : NetTrains true (init ++ .full m w β :: .act f :: .full q w₂ β₂ :: rest) s)
    (epochs : List (List (List Nat) × List (Sample ℝ))) (ess : List (List (Tensor × Nat))) (hk : ∀ es ∈ ess, es.length = size)
    (he : List.Forall₂ (fun e es => List.Forall₂ (Sample.Is M.labels s) e.2 es) epochs ess)
    (M' : Model ℝ) (h : train E p size epochs M = .ok (some M')) :
    ∃ init' w' β' w₂' β₂' rest', M'.Denotes 0 s (init' ++ .full m w' β' :: .act f :: .full q w₂' β₂' :: rest') n ∧
      init'.length = init.length ∧ Twins i j w' β' w₂' := by
  obtain ⟨out, h1, h2⟩ := ((C83_threads_partial E hE p B T size hp hq h0 hT0 hT hBs hsz M b s _ n hD hfit htr ess hk).1 epochs he).2 M' h
  obtain ⟨init', w', β', w₂', β₂', rest', rfl, h3, h4⟩ := staleLeads_twins hi hj p.rate _ [] _ out (by simp)
    ⟨init, w, β, w₂, β₂, rest, rfl, rfl, htw⟩ h1
  exact ⟨init', w', β', w₂', β₂', rest', h2, h3, h4⟩

/-- C106 with calls that overlap in time. -/
theorem C106_overlap_partial (E : Env ℝ) (hE : E.Exact) (p : Hyper ℝ) (B T size : Nat) (hp : p.batch = B) (hq : p.threads = T)
    (h0 : 0 < B) (hT0 : 0 < T) (hT : T < 2147483648) (hBs : B ≤ size) (hsz : size < 2 ^ 24) (M : Model ℝ) (b : Nat) (s : Shape)
    (init : List NetLayer) (m q n i j : Nat) (hi : i < m) (hj : j < m) (w : Tensor) (β : Nat → ℝ) (f : ActFn) (w₂ : Tensor) (β₂ : Nat → ℝ)
    (rest : List NetLayer) (htw : Twins i j w β w₂) (hD : M.Denotes b s (init ++ .full m w β :: .act f :: .full q w₂ β₂ :: rest) n)
    (hfit : NetFits (init ++ .full m w β :: .act f :: .full q w₂ β₂ :: rest) s)
    (htr : NetTrains true (init ++ .full m w β :: .act f :: .full q w₂ β₂ :: rest) s)
    (fine : List (List (List (Nat × Overlap.Act ℝ)) × List (Sample ℝ))) (ess : List (List (Tensor × Nat))) (hk : ∀ es ∈ ess, es.length = size)
    (he : List.Forall₂ (fun e es => List.Forall₂ (Sample.Is M.labels s) e.2 es) fine ess)
    (M' : Model ℝ) (h : Overlap.train E p size fine M = .ok (some M')) :
    ∃ init' w' β' w₂' β₂' rest', M'.Denotes 0 s (init' ++ .full m w' β' :: .act f :: .full q w₂' β₂' :: rest') n ∧
      init'.length = init.length ∧ Twins i j w' β' w₂' := by
  obtain ⟨out, h1, h2⟩ := ((Overlap.C83_overlap_partial E hE p B T size hp hq h0 hT0 hT hBs hsz M b s _ n hD hfit htr ess hk).1 fine he).2 M' h
  obtain ⟨init', w', β', w₂', β₂', rest', rfl, h3, h4⟩ := staleLeads_twins hi hj p.rate _ [] _ out (by simp)
    ⟨init, w, β, w₂, β₂, rest, rfl, rfl, htw⟩ h1
  exact ⟨init', w', β', w₂', β₂', rest', h2, h3, h4⟩

end Train

/-! ### Example -/

/-- One input, a fully connected layer with two equal units, SIGMOID, a fully connected layer with two outputs. -/
noncomputable def twinBodies : List (Body ℝ) :=
  [.connected { weights := ⟨dimN 2 1 1, [1, 1]⟩, biases := ⟨dimN 2 1 1, [2, 2]⟩, inputDim := dimN 1 1 1, initialized := true,
                wGrads := [Matrix.empty], bGrads := [Matrix.empty] },
    .activation (Activation.new .sigmoid),
    .connected { weights := ⟨dimN 2 2 1, [1, 0, 1, 0]⟩, biases := ⟨dimN 2 1 1, [0, 0]⟩, inputDim := dimN 2 1 1, initialized := true,
                 wGrads := [Matrix.empty], bGrads := [Matrix.empty] }]

noncomputable def twinModel : Model ℝ :=
  { (Model.new : Model ℝ) with
    labels := ["a".toList, "b".toList]
    layers := (twinBodies ++ [Body.softmax (Softmax.new 2)]).map (fun b => ⟨[], b⟩) }

noncomputable def twinNet : List NetLayer :=
  [] ++ .full 2 (fun _ _ _ => 1) (fun _ => 2) :: .act .sigmoid :: .full 2 (fun i _ _ => if i = 0 then 1 else 0) (fun _ => 0) :: []

theorem twinModel_denotes : twinModel.Denotes 0 ⟨1, 1, 1⟩ twinNet 2 := by
  refine ⟨⟨twinBodies, Softmax.new 2, rfl, ⟨⟨⟨?_, ?_, rfl⟩, by simp, by simp, Or.inl rfl⟩, rfl,
    ⟨⟨?_, ?_, rfl⟩, by simp, by simp, Or.inr rfl⟩, trivial⟩, rfl⟩, rfl, Or.inl rfl⟩
  · refine Matrix.Shows.of_vals ⟨by decide, by decide, by decide, by decide⟩ rfl ?_
    simp [List.range_succ]
  · refine Matrix.Shows.of_vals ⟨by decide, by decide, by decide, by decide⟩ rfl ?_
    simp [List.range_succ]
  · refine Matrix.Shows.of_vals ⟨by decide, by decide, by decide, by decide⟩ rfl ?_
    simp [List.range_succ, NetLayer.out]
  · refine Matrix.Shows.of_vals ⟨by decide, by decide, by decide, by decide⟩ rfl ?_
    simp [List.range_succ]

/-- Two threads, a batch of two and a batch of one sample: the hypotheses are met, and the units stay equal. -/
example : ∃ epochs M', Train.train exactEnv ⟨1, 2, 2, 1⟩ 3 epochs twinModel = .ok (some M') ∧
    ∃ init' w' β' w₂' β₂' rest', M'.Denotes 0 ⟨1, 1, 1⟩ (init' ++ .full 2 w' β' :: .act .sigmoid :: .full 2 w₂' β₂' :: rest') 2 ∧ Twins 0 1 w' β' w₂' := by
  have hf : NetFits twinNet ⟨1, 1, 1⟩ := ⟨trivial, trivial, trivial, trivial⟩
  have ht : NetTrains true twinNet ⟨1, 1, 1⟩ := ⟨trivial, trivial, trivial, trivial⟩
  obtain ⟨_, h2⟩ := Train.C83_threads_partial exactEnv ⟨rfl, rfl, rfl⟩ ⟨1, 2, 2, 1⟩ 2 2 3 rfl rfl (by omega) (by omega) (by omega) (by omega) (by omega)
    twinModel 0 ⟨1, 1, 1⟩ _ 2 twinModel_denotes hf ht [Train.shortData] (by simp [Train.shortData])
  obtain ⟨epochs, M', h3, h4⟩ := h2 rfl [Train.shortSource] (.cons Train.shortSource_is .nil)
  have he : List.Forall₂ (List.Forall₂ (Sample.Is twinModel.labels ⟨1, 1, 1⟩)) (epochs.map Prod.snd) [Train.shortData] := by
    rw [h3]; exact .cons Train.shortSource_is .nil
  obtain ⟨init', w', β', w₂', β₂', rest', k1, _, k2⟩ := Train.C106_train_partial exactEnv ⟨rfl, rfl, rfl⟩ ⟨1, 2, 2, 1⟩ 2 2 3 rfl rfl (by omega) (by omega)
    (by omega) (by omega) (by omega) twinModel 0 ⟨1, 1, 1⟩ [] 2 2 2 0 1 (by omega) (by omega) _ _ _ _ _ _ ⟨fun _ => rfl, rfl, fun _ => rfl⟩ twinModel_denotes hf ht
    epochs [Train.shortData] (by simp [Train.shortData]) (List.forall₂_map_left_iff.1 he) M' h4
  exact ⟨epochs, M', h4, init', w', β', w₂', β₂', rest', k1, k2⟩

end Cnn
