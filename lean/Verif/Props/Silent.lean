import Verif.Lemmas.Silent
import Verif.Props.Balance
/-!
# Property C105: a RELU unit that is off for all training samples is not changed by training

The unit belongs to the first layer that has parameters, so that what enters it stays the same during training.
-/
namespace Cnn
open Model

/-- The inputs of some epochs. -/
def InputOf (ess : List (List (Tensor × Nat))) (x : Tensor) : Prop := ∃ es ∈ ess, ∃ e ∈ es, e.1 = x

theorem inputs_of {B : Nat} (ess : List (List (Tensor × Nat))) : ∀ d ∈ ess.flatMap (batchesOf B), ∀ e ∈ d, InputOf ess e.1 := by
  intro d hd e he
  obtain ⟨es, hes, hd⟩ := List.mem_flatMap.1 hd
  obtain ⟨k, _, rfl⟩ := List.mem_map.1 hd
  exact ⟨es, hes, e, List.mem_of_mem_drop (List.mem_of_mem_take he), rfl⟩

namespace Train

/-- C105: whatever the labels, the number of threads, the schedules and the number of epochs, the weights and the bias of the unit
are the same after training, and so it is still off for all samples. Missing: as in C83 (exact arithmetic, at least one full
batch, a call of a layer is one step of a thread). -/
theorem C105_train_partial (E : Env ℝ) (hE : E.Exact) (p : Hyper ℝ) (B T size : Nat) (hp : p.batch = B) (hq : p.threads = T)
    (h0 : 0 < B) (hT0 : 0 < T) (hT : T < 2147483648) (hBs : B ≤ size) (hsz : size < 2 ^ 24) (M : Model ℝ) (b : Nat) (s : Shape)
    (init : List NetLayer) (hno : NoParams init) (m n i : Nat) (w : Tensor) (β : Nat → ℝ) (rest : List NetLayer)
    (hD : M.Denotes b s (init ++ .full m w β :: .act .relu :: rest) n)
    (hfit : NetFits (init ++ .full m w β :: .act .relu :: rest) s) (htr : NetTrains true (init ++ .full m w β :: .act .relu :: rest) s)
    (epochs : List (List (List Nat) × List (Sample ℝ))) (ess : List (List (Tensor × Nat))) (hk : ∀ es ∈ ess, es.length = size)
    (he : List.Forall₂ (fun e es => List.Forall₂ (Sample.Is M.labels s) e.2 es) epochs ess) (hoff : Silent init s w β i (InputOf ess))
    (M' : Model ℝ) (h : train E p size epochs M = .ok (some M')) :
    ∃ w' β' rest', M'.Denotes 0 s (init ++ .full m w' β' :: .act .relu :: rest') n ∧ (∀ k, w' i k 0 = w i k 0) ∧ β' i = β i ∧
      Silent init s w' β' i (InputOf ess) := by
  obtain ⟨out, h1, h2⟩ := ((C83_threads_partial E hE p B T size hp hq h0 hT0 hT hBs hsz M b s _ n hD hfit htr ess hk).1 epochs he).2 M' h
  obtain ⟨w', β', rest', rfl, h3, h4⟩ := staleLeads_rests hno (netFits_left hfit) hoff p.rate _ (inputs_of ess) [] w β rest out (by simp) (fun _ _ => rfl) rfl h1
  refine ⟨w', β', rest', h2, fun k => h3 k 0, h4, ?_⟩
  intro x hx
  simp only [h3, h4]
  exact hoff x hx

/-- C105 for a model built with the `add…` calls: the unit keeps the random numbers drawn at its first use. -/
theorem C105_build_partial (E : Env ℝ) (hE : E.Exact) (p : Hyper ℝ) (B T size : Nat) (hp : p.batch = B) (hq : p.threads = T)
    (h0 : 0 < B) (hT0 : 0 < T) (hT : T < 2147483648) (hBs : B ≤ size) (hsz : size < 2 ^ 24) (ks : List LayerKind)
    (labels : List (List Char)) (s : Shape) (hks : AllSized E.draws 0 s ks) (hfit : NetFits (drawnNet E.draws 0 s ks) s)
    (htr : NetTrains true (drawnNet E.draws 0 s ks) s)
    (hout : netOut (drawnNet E.draws 0 s ks) s = ⟨labels.length, 1, 1⟩ ∨ netOut (drawnNet E.draws 0 s ks) s = ⟨1, labels.length, 1⟩)
    (init : List NetLayer) (hno : NoParams init) (m i : Nat) (w : Tensor) (β : Nat → ℝ) (rest : List NetLayer)
    (hnet : drawnNet E.draws 0 s ks = init ++ .full m w β :: .act .relu :: rest)
    (ess : List (List (Tensor × Nat))) (hne : ess ≠ []) (hk : ∀ es ∈ ess, es.length = size) (hoff : Silent init s w β i (InputOf ess)) :
    ∃ M, buildModel E.num E.draws ks labels = .ok M ∧
      ∀ epochs : List (List (List Nat) × List (Sample ℝ)), List.Forall₂ (fun e es => List.Forall₂ (Sample.Is labels s) e.2 es) epochs ess →
        ∀ M', train E p size epochs M = .ok (some M') →
          ∃ w' β' rest', M'.Denotes 0 s (init ++ .full m w' β' :: .act .relu :: rest') labels.length ∧ (∀ k, w' i k 0 = w i k 0) ∧ β' i = β i := by
  obtain ⟨M, e, k, _⟩ := C83_build_partial E hE p B T size hp hq h0 hT0 hT hBs hsz ks labels s hks hfit htr hout ess hne hk
  refine ⟨M, e, fun epochs he M' h => ?_⟩
  obtain ⟨⟨out, h1, h2⟩, _⟩ := (k epochs he).2 M' h
  rw [hnet] at h1 hfit
  obtain ⟨w', β', rest', rfl, h3, h4⟩ := staleLeads_rests hno (netFits_left hfit) hoff p.rate _ (inputs_of ess) [] w β rest out (by simp) (fun _ _ => rfl) rfl h1
  exact ⟨w', β', rest', h2, fun k => h3 k 0, h4⟩

end Train

/-! ### Example -/

/-- One input, a fully connected layer with two units of which the second is off if the input is not negative, RELU, a fully
connected layer with two outputs. -/
noncomputable def offBodies : List (Body ℝ) :=
  [.connected { weights := ⟨dimN 2 1 1, [1, -1]⟩, biases := ⟨dimN 2 1 1, [1, -1]⟩, inputDim := dimN 1 1 1, initialized := true,
                wGrads := [Matrix.empty], bGrads := [Matrix.empty] },
    .activation (Activation.new .relu),
    .connected { weights := ⟨dimN 2 2 1, [1, 0, 0, 1]⟩, biases := ⟨dimN 2 1 1, [0, 0]⟩, inputDim := dimN 2 1 1, initialized := true,
                 wGrads := [Matrix.empty], bGrads := [Matrix.empty] }]

noncomputable def offModel : Model ℝ :=
  { (Model.new : Model ℝ) with
    labels := ["a".toList, "b".toList]
    layers := (offBodies ++ [Body.softmax (Softmax.new 2)]).map (fun b => ⟨[], b⟩) }

noncomputable def offNet : List NetLayer :=
  [] ++ .full 2 (fun i _ _ => if i = 0 then 1 else -1) (fun i => if i = 0 then 1 else -1) :: .act .relu ::
    [.full 2 (fun i k _ => if i = k then 1 else 0) (fun _ => 0)]

theorem offModel_denotes : offModel.Denotes 0 ⟨1, 1, 1⟩ offNet 2 := by
  refine ⟨⟨offBodies, Softmax.new 2, rfl, ⟨⟨⟨?_, ?_, rfl⟩, by simp, by simp, Or.inl rfl⟩, rfl,
    ⟨⟨?_, ?_, rfl⟩, by simp, by simp, Or.inr rfl⟩, trivial⟩, rfl⟩, rfl, Or.inl rfl⟩
  · refine Matrix.Shows.of_vals ⟨by decide, by decide, by decide, by decide⟩ rfl ?_
    simp [List.range_succ]
  · refine Matrix.Shows.of_vals ⟨by decide, by decide, by decide, by decide⟩ rfl ?_
    simp [List.range_succ]
  · refine Matrix.Shows.of_vals ⟨by decide, by decide, by decide, by decide⟩ rfl ?_
    simp [List.range_succ, NetLayer.out]
  · refine Matrix.Shows.of_vals ⟨by decide, by decide, by decide, by decide⟩ rfl ?_
    simp [List.range_succ]

/-- Two threads, a batch of two and a batch of one sample: the hypotheses are met, and the unit keeps its weight and its bias. -/
example : ∃ epochs M', Train.train exactEnv ⟨1, 2, 2, 1⟩ 3 epochs offModel = .ok (some M') ∧
    ∃ w' β' rest', M'.Denotes 0 ⟨1, 1, 1⟩ (.full 2 w' β' :: .act .relu :: rest') 2 ∧ w' 1 0 0 = -1 ∧ β' 1 = -1 := by
  have hf : NetFits offNet ⟨1, 1, 1⟩ := ⟨trivial, trivial, trivial, trivial⟩
  have ht : NetTrains true offNet ⟨1, 1, 1⟩ := ⟨trivial, trivial, trivial, trivial⟩
  obtain ⟨_, h2⟩ := Train.C83_threads_partial exactEnv ⟨rfl, rfl, rfl⟩ ⟨1, 2, 2, 1⟩ 2 2 3 rfl rfl (by omega) (by omega) (by omega) (by omega) (by omega)
    offModel 0 ⟨1, 1, 1⟩ _ 2 offModel_denotes hf ht [Train.shortData] (by simp [Train.shortData])
  obtain ⟨epochs, M', h3, h4⟩ := h2 rfl [Train.shortSource] (.cons Train.shortSource_is .nil)
  have he : List.Forall₂ (List.Forall₂ (Sample.Is offModel.labels ⟨1, 1, 1⟩)) (epochs.map Prod.snd) [Train.shortData] := by
    rw [h3]; exact .cons Train.shortSource_is .nil
  obtain ⟨w', β', rest', k1, k2, k3, _⟩ := Train.C105_train_partial exactEnv ⟨rfl, rfl, rfl⟩ ⟨1, 2, 2, 1⟩ 2 2 3 rfl rfl (by omega) (by omega) (by omega) (by omega)
    (by omega) offModel 0 ⟨1, 1, 1⟩ [] (by intro l hl; simp at hl) 2 2 1 _ _ _ offModel_denotes hf ht epochs [Train.shortData] (by simp [Train.shortData])
    (List.forall₂_map_left_iff.1 he) (by
      rintro x ⟨es, hes, e, he, rfl⟩
      obtain rfl : es = Train.shortData := by simpa using hes
      have : e.1 = fun _ _ _ => 0 := by
        simp only [Train.shortData, List.mem_cons, List.not_mem_nil, or_false] at he
        rcases he with rfl | rfl | rfl <;> rfl
      simp [this, featureCount, feature, netOut, netEval, flatOf]) M' h4
  exact ⟨epochs, M', h4, w', β', rest', k1, by simpa using k2 0, by simpa using k3⟩

end Cnn
