import Verif.Lemmas.Gauge
import Verif.Props.OverlapDescent
/-!
# Property C104: training leaves the sums of the last layer's parameters over the labels unchanged

The gradient of the loss with respect to the values that enter softmax is `probability - 1` for the true label and
`probability` for the others, so its entries add up to 0. This holds for every label a thread may use by mistake (C52) and for
gradients that are remembered from earlier networks (C82).
-/
namespace Cnn
open Model

namespace Train

theorem labels_lt {labels : List (List Char)} {s : Shape} {B : Nat} {γ : Type} {epochs : List (γ × List (Sample ℝ))} {ess : List (List (Tensor × Nat))}
    (he : List.Forall₂ (fun e es => List.Forall₂ (Sample.Is labels s) e.2 es) epochs ess) :
    ∀ d ∈ ess.flatMap (batchesOf B), ∀ e ∈ d, e.2 < labels.length := by
  intro d hd e hed
  obtain ⟨es, hes, hd⟩ := List.mem_flatMap.1 hd
  obtain ⟨k, _, rfl⟩ := List.mem_map.1 hd
  have he' : e ∈ es := List.mem_of_mem_drop (List.mem_of_mem_take hed)
  obtain ⟨i, hi, rfl⟩ := List.getElem_of_mem hes
  obtain ⟨j, hj, rfl⟩ := List.getElem_of_mem he'
  have h1 := (List.forall₂_iff_get.1 he)
  have h2 := List.forall₂_iff_get.1 (h1.2 i (by rw [h1.1]; exact hi) hi)
  have h3 := h2.2 j (by rw [h2.1]; exact hj) hj
  exact (List.getElem?_eq_some_iff.1 h3.label).1

/-- C104: whatever the samples, the labels, the number of threads and the schedules, and although short batches use remembered
gradients, the model after training has a last layer with the same sums of weights and of biases. Missing: as in C83 (exact
arithmetic, at least one full batch, a call of a layer is one step of a thread). -/
theorem C104_train_partial (E : Env ℝ) (hE : E.Exact) (p : Hyper ℝ) (B T size : Nat) (hp : p.batch = B) (hq : p.threads = T)
    (h0 : 0 < B) (hT0 : 0 < T) (hT : T < 2147483648) (hBs : B ≤ size) (hsz : size < 2 ^ 24) (M : Model ℝ) (b : Nat) (s : Shape)
    (init : List NetLayer) (n : Nat) (w : Tensor) (β : Nat → ℝ) (hD : M.Denotes b s (init ++ [.full n w β]) n)
    (hfit : NetFits (init ++ [.full n w β]) s) (htr : NetTrains true (init ++ [.full n w β]) s)
    (epochs : List (List (List Nat) × List (Sample ℝ))) (ess : List (List (Tensor × Nat))) (hk : ∀ es ∈ ess, es.length = size)
    (he : List.Forall₂ (fun e es => List.Forall₂ (Sample.Is M.labels s) e.2 es) epochs ess)
    (M' : Model ℝ) (h : train E p size epochs M = .ok (some M')) :
    ∃ init' w' β', M'.Denotes 0 s (init' ++ [.full n w' β']) n ∧ init'.length = init.length ∧ SameSums n (featureCount init s) w β w' β' := by
  obtain ⟨out, h1, h2⟩ := ((C83_threads_partial E hE p B T size hp hq h0 hT0 hT hBs hsz M b s _ n hD hfit htr ess hk).1 epochs he).2 M' h
  obtain ⟨init', w', β', rfl, h3, h4⟩ := staleLeads_sums p.rate _ (by rw [← hD.labels]; exact labels_lt he) [] init w β out (by simp) h1
  exact ⟨init', w', β', h2, h3.length_eq.symm, h4⟩

/-- C104 for a model built with the `add…` calls, whose last layer is fully connected: the sums are still those of the random
numbers drawn at the first use. -/
theorem C104_build_partial (E : Env ℝ) (hE : E.Exact) (p : Hyper ℝ) (B T size : Nat) (hp : p.batch = B) (hq : p.threads = T)
    (h0 : 0 < B) (hT0 : 0 < T) (hT : T < 2147483648) (hBs : B ≤ size) (hsz : size < 2 ^ 24) (ks : List LayerKind)
    (labels : List (List Char)) (s : Shape) (hks : AllSized E.draws 0 s ks) (hfit : NetFits (drawnNet E.draws 0 s ks) s)
    (htr : NetTrains true (drawnNet E.draws 0 s ks) s)
    (hout : netOut (drawnNet E.draws 0 s ks) s = ⟨labels.length, 1, 1⟩ ∨ netOut (drawnNet E.draws 0 s ks) s = ⟨1, labels.length, 1⟩)
    (init : List NetLayer) (w : Tensor) (β : Nat → ℝ) (hlast : drawnNet E.draws 0 s ks = init ++ [.full labels.length w β])
    (ess : List (List (Tensor × Nat))) (hne : ess ≠ []) (hk : ∀ es ∈ ess, es.length = size) :
    ∃ M, buildModel E.num E.draws ks labels = .ok M ∧
      ∀ epochs : List (List (List Nat) × List (Sample ℝ)), List.Forall₂ (fun e es => List.Forall₂ (Sample.Is labels s) e.2 es) epochs ess →
        ∀ M', train E p size epochs M = .ok (some M') →
          ∃ init' w' β', M'.Denotes 0 s (init' ++ [.full labels.length w' β']) labels.length ∧ init'.length = init.length ∧
            SameSums labels.length (featureCount init s) w β w' β' := by
  obtain ⟨M, e, k, _⟩ := C83_build_partial E hE p B T size hp hq h0 hT0 hT hBs hsz ks labels s hks hfit htr hout ess hne hk
  refine ⟨M, e, fun epochs he M' h => ?_⟩
  obtain ⟨⟨out, h1, h2⟩, _⟩ := (k epochs he).2 M' h
  rw [hlast] at h1
  obtain ⟨init', w', β', rfl, h3, h4⟩ := staleLeads_sums p.rate _ (labels_lt he) [] init w β out (by simp) h1
  exact ⟨init', w', β', h2, h3.length_eq.symm, h4⟩

/-- C104, what the sums mean: two models that differ only in that one has `c k` more in all weights of input `k` of the last layer
and `δ` more in all biases. Trained by one thread with the same samples, they differ by the same afterwards, and give the same
probabilities for every input, before and after. So the sums have no influence on what is learnt. Missing: as in C83, and
several threads. -/
theorem C104_shift_partial (E : Env ℝ) (hE : E.Exact) (p : Hyper ℝ) (B size : Nat) (hp : p.batch = B) (hq : p.threads = 1)
    (h0 : 0 < B) (hBs : B ≤ size) (hsz : size < 2 ^ 24) (M₁ M₂ : Model ℝ) (b₁ b₂ : Nat) (s : Shape) (init : List NetLayer) (n : Nat) (w : Tensor)
    (β : Nat → ℝ) (c : Nat → ℝ) (δ : ℝ) (hD₁ : M₁.Denotes b₁ s (init ++ [.full n w β]) n)
    (hD₂ : M₂.Denotes b₂ s (init ++ [.full n (fun i k l => w i k l + c k) (fun i => β i + δ)]) n)
    (hfit : NetFits (init ++ [.full n w β]) s) (hfit₂ : NetFits (init ++ [.full n (fun i k l => w i k l + c k) (fun i => β i + δ)]) s)
    (htr : NetTrains true (init ++ [.full n w β]) s) (htr₂ : NetTrains true (init ++ [.full n (fun i k l => w i k l + c k) (fun i => β i + δ)]) s)
    (ess : List (List (Tensor × Nat))) (hk : ∀ es ∈ ess, es.length = size) (epochs₁ epochs₂ : List (List (List Nat) × List (Sample ℝ)))
    (he₁ : List.Forall₂ (fun e es => List.Forall₂ (Sample.Is M₁.labels s) e.2 es) epochs₁ ess)
    (he₂ : List.Forall₂ (fun e es => List.Forall₂ (Sample.Is M₂.labels s) e.2 es) epochs₂ ess)
    (M₁' M₂' : Model ℝ) (h₁ : train E p size epochs₁ M₁ = .ok (some M₁')) (h₂ : train E p size epochs₂ M₂ = .ok (some M₂')) :
    ∃ init' w' β', M₁'.Denotes 0 s (init' ++ [.full n w' β']) n ∧
      M₂'.Denotes 0 s (init' ++ [.full n (fun i k l => w' i k l + c k) (fun i => β' i + δ)]) n ∧
      (∀ x t, netProb (init ++ [.full n (fun i k l => w i k l + c k) (fun i => β i + δ)]) s n x t = netProb (init ++ [.full n w β]) s n x t) ∧
      ∀ x t, netProb (init' ++ [.full n (fun i k l => w' i k l + c k) (fun i => β' i + δ)]) s n x t = netProb (init' ++ [.full n w' β']) s n x t := by
  have k₁ := ((C83_train_partial E hE p B size hp hq h0 hBs hsz M₁ b₁ s _ n hD₁ hfit htr ess hk).1 epochs₁ he₁).2 M₁' h₁
  have k₂ := ((C83_train_partial E hE p B size hp hq h0 hBs hsz M₂ b₂ s _ n hD₂ hfit₂ htr₂ ess hk).1 epochs₂ he₂).2 M₂' h₂
  obtain ⟨e1, init', w', β', e2⟩ := staleDescents_shift (s := s) (n := n) c δ p.rate (ess.flatMap (batchesOf B)) (by rw [← hD₁.labels]; exact labels_lt he₁) [] init w β (by simp)
  rw [shiftNet_last, List.map_nil] at e1
  rw [e1, e2, shiftNet_last] at k₂
  rw [e2] at k₁
  exact ⟨init', w', β', k₁, k₂, fun x t => netProb_shift c δ init n w β s x t, fun x t => netProb_shift c δ init' n w' β' s x t⟩

end Train

/-- C104 with calls that overlap in time. -/
theorem C104_overlap_partial (E : Env ℝ) (hE : E.Exact) (p : Hyper ℝ) (B T size : Nat) (hp : p.batch = B) (hq : p.threads = T)
    (h0 : 0 < B) (hT0 : 0 < T) (hT : T < 2147483648) (hBs : B ≤ size) (hsz : size < 2 ^ 24) (M : Model ℝ) (b : Nat) (s : Shape)
    (init : List NetLayer) (n : Nat) (w : Tensor) (β : Nat → ℝ) (hD : M.Denotes b s (init ++ [.full n w β]) n)
    (hfit : NetFits (init ++ [.full n w β]) s) (htr : NetTrains true (init ++ [.full n w β]) s)
    (fine : List (List (List (Nat × Overlap.Act ℝ)) × List (Sample ℝ))) (ess : List (List (Tensor × Nat))) (hk : ∀ es ∈ ess, es.length = size)
    (he : List.Forall₂ (fun e es => List.Forall₂ (Sample.Is M.labels s) e.2 es) fine ess)
    (M' : Model ℝ) (h : Overlap.train E p size fine M = .ok (some M')) :
    ∃ init' w' β', M'.Denotes 0 s (init' ++ [.full n w' β']) n ∧ init'.length = init.length ∧ SameSums n (featureCount init s) w β w' β' := by
  obtain ⟨out, h1, h2⟩ := ((Overlap.C83_overlap_partial E hE p B T size hp hq h0 hT0 hT hBs hsz M b s _ n hD hfit htr ess hk).1 fine he).2 M' h
  obtain ⟨init', w', β', rfl, h3, h4⟩ := staleLeads_sums p.rate _ (by rw [← hD.labels]; exact Train.labels_lt he) [] init w β out (by simp) h1
  exact ⟨init', w', β', h2, h3.length_eq.symm, h4⟩

/-- With two labels the parameters for one label change by the opposite of those for the other. -/
theorem C104_two {K : Nat} {w : Tensor} {β : Nat → ℝ} {w' : Tensor} {β' : Nat → ℝ} (h : SameSums 2 K w β w' β') :
    (∀ k < K, w' 0 k 0 - w 0 k 0 = -(w' 1 k 0 - w 1 k 0)) ∧ β' 0 - β 0 = -(β' 1 - β 1) := by
  constructor
  · intro k hk
    have := h.1 k hk
    simp only [Finset.sum_range_succ, Finset.sum_range_zero, zero_add] at this
    linarith
  · have := h.2
    simp only [Finset.sum_range_succ, Finset.sum_range_zero, zero_add] at this
    linarith

/-- The network of C83 with a SIGMOID layer, trained by two threads with a batch of two and a batch of one sample: the hypotheses
are met, and the two weights of the last layer still add up to 1. -/
example : ∃ epochs M', Train.train exactEnv ⟨1, 2, 2, 1⟩ 3 epochs sigmoidModel = .ok (some M') ∧
    ∃ init' w' β', M'.Denotes 0 ⟨1, 1, 1⟩ (init' ++ [.full 2 w' β']) 2 ∧ w' 0 0 0 + w' 1 0 0 = 1 ∧ β' 0 + β' 1 = 0 := by
  obtain ⟨_, h2⟩ := Train.C83_threads_partial exactEnv ⟨rfl, rfl, rfl⟩ ⟨1, 2, 2, 1⟩ 2 2 3 rfl rfl (by omega) (by omega) (by omega) (by omega) (by omega)
    sigmoidModel 0 ⟨1, 1, 1⟩ _ 2 sigmoidModel_denotes sigmoidNet_fits sigmoidNet_trains [Train.shortData] (by simp [Train.shortData])
  obtain ⟨epochs, M', h3, h4⟩ := h2 rfl [Train.shortSource] (.cons Train.shortSource_is .nil)
  have he : List.Forall₂ (List.Forall₂ (Sample.Is sigmoidModel.labels ⟨1, 1, 1⟩)) (epochs.map Prod.snd) [Train.shortData] := by
    rw [h3]; exact .cons Train.shortSource_is .nil
  obtain ⟨init', w', β', k1, _, k2, k3⟩ := Train.C104_train_partial exactEnv ⟨rfl, rfl, rfl⟩ ⟨1, 2, 2, 1⟩ 2 2 3 rfl rfl (by omega) (by omega) (by omega) (by omega)
    (by omega) sigmoidModel 0 ⟨1, 1, 1⟩ [.full 1 (fun _ _ _ => 0) (fun _ => 0), .act .sigmoid] 2 (fun i _ _ => if i = 0 then 1 else 0) (fun _ => 0)
    sigmoidModel_denotes sigmoidNet_fits sigmoidNet_trains epochs [Train.shortData] (by simp [Train.shortData]) (List.forall₂_map_left_iff.1 he) M' h4
  refine ⟨epochs, M', h4, init', w', β', k1, ?_, ?_⟩
  · have := k2 0 (by decide)
    simpa [Finset.sum_range_succ] using this
  · simpa [Finset.sum_range_succ] using k3

/-- The same model with 1 more in the weights and 3 more in the biases of the last layer. -/
noncomputable def raisedBodies : List (Body ℝ) :=
  [.connected { weights := ⟨dimN 1 1 1, [0]⟩, biases := ⟨dimN 1 1 1, [0]⟩, inputDim := dimN 1 1 1, initialized := true,
                wGrads := [Matrix.empty], bGrads := [Matrix.empty] },
    .activation (Activation.new .sigmoid),
    .connected { weights := ⟨dimN 2 1 1, [2, 1]⟩, biases := ⟨dimN 2 1 1, [3, 3]⟩, inputDim := dimN 1 1 1, initialized := true,
                 wGrads := [Matrix.empty], bGrads := [Matrix.empty] }]

noncomputable def raisedModel : Model ℝ :=
  { (Model.new : Model ℝ) with
    labels := ["a".toList, "b".toList]
    layers := (raisedBodies ++ [Body.softmax (Softmax.new 2)]).map (fun b => ⟨[], b⟩) }

theorem raisedModel_denotes : raisedModel.Denotes 0 ⟨1, 1, 1⟩ ([.full 1 (fun _ _ _ => 0) (fun _ => 0), .act .sigmoid] ++
    [.full 2 (fun i _ _ => (if i = 0 then 1 else 0) + 1) (fun _ => 0 + 3)]) 2 := by
  refine ⟨⟨raisedBodies, Softmax.new 2, rfl, ⟨⟨⟨?_, ?_, rfl⟩, by simp, by simp, Or.inl rfl⟩, rfl,
    ⟨⟨?_, ?_, rfl⟩, by simp, by simp, Or.inr rfl⟩, trivial⟩, rfl⟩, rfl, Or.inl rfl⟩
  · refine Matrix.Shows.of_vals ⟨by decide, by decide, by decide, by decide⟩ rfl ?_
    simp [List.range_succ]
  · refine Matrix.Shows.of_vals ⟨by decide, by decide, by decide, by decide⟩ rfl ?_
    simp [List.range_succ]
  · refine Matrix.Shows.of_vals ⟨by decide, by decide, by decide, by decide⟩ rfl ?_
    simp [List.range_succ, NetLayer.out]
    norm_num
  · refine Matrix.Shows.of_vals ⟨by decide, by decide, by decide, by decide⟩ rfl ?_
    simp [List.range_succ]

/-- Both can be trained with a batch of two and a batch of one sample, and afterwards differ by the same. -/
example : ∃ epochs₁ epochs₂ M₁ M₂, Train.train exactEnv ⟨1, 2, 1, 1⟩ 3 epochs₁ sigmoidModel = .ok (some M₁) ∧
    Train.train exactEnv ⟨1, 2, 1, 1⟩ 3 epochs₂ raisedModel = .ok (some M₂) ∧
    ∃ init' w' β', M₁.Denotes 0 ⟨1, 1, 1⟩ (init' ++ [.full 2 w' β']) 2 ∧
      M₂.Denotes 0 ⟨1, 1, 1⟩ (init' ++ [.full 2 (fun i k l => w' i k l + 1) (fun i => β' i + 3)]) 2 := by
  have f2 : NetFits ([.full 1 (fun _ _ _ => 0) (fun _ => 0), .act .sigmoid] ++
    [.full 2 (fun i _ _ => (if i = 0 then 1 else 0) + 1) (fun _ => 0 + 3)]) ⟨1, 1, 1⟩ := ⟨trivial, trivial, trivial, trivial⟩
  have t2 : NetTrains true ([.full 1 (fun _ _ _ => 0) (fun _ => 0), .act .sigmoid] ++
    [.full 2 (fun i _ _ => (if i = 0 then 1 else 0) + 1) (fun _ => 0 + 3)]) ⟨1, 1, 1⟩ := ⟨trivial, trivial, trivial, trivial⟩
  obtain ⟨_, h2⟩ := Train.C83_train_partial exactEnv ⟨rfl, rfl, rfl⟩ ⟨1, 2, 1, 1⟩ 2 3 rfl rfl (by omega) (by omega) (by omega) sigmoidModel 0 ⟨1, 1, 1⟩
    _ 2 sigmoidModel_denotes sigmoidNet_fits sigmoidNet_trains [Train.shortData] (by simp [Train.shortData])
  obtain ⟨_, i2⟩ := Train.C83_train_partial exactEnv ⟨rfl, rfl, rfl⟩ ⟨1, 2, 1, 1⟩ 2 3 rfl rfl (by omega) (by omega) (by omega) raisedModel 0 ⟨1, 1, 1⟩
    _ 2 raisedModel_denotes f2 t2 [Train.shortData] (by simp [Train.shortData])
  obtain ⟨epochs₁, M₁, h3, h4⟩ := h2 rfl [Train.shortSource] (.cons Train.shortSource_is .nil)
  obtain ⟨epochs₂, M₂, i3, i4⟩ := i2 rfl [Train.shortSource] (.cons Train.shortSource_is .nil)
  have he₁ : List.Forall₂ (List.Forall₂ (Sample.Is sigmoidModel.labels ⟨1, 1, 1⟩)) (epochs₁.map Prod.snd) [Train.shortData] := by
    rw [h3]; exact .cons Train.shortSource_is .nil
  have he₂ : List.Forall₂ (List.Forall₂ (Sample.Is raisedModel.labels ⟨1, 1, 1⟩)) (epochs₂.map Prod.snd) [Train.shortData] := by
    rw [i3]; exact .cons Train.shortSource_is .nil
  obtain ⟨init', w', β', k1, k2, _⟩ := Train.C104_shift_partial exactEnv ⟨rfl, rfl, rfl⟩ ⟨1, 2, 1, 1⟩ 2 3 rfl rfl (by omega) (by omega) (by omega)
    sigmoidModel raisedModel 0 0 ⟨1, 1, 1⟩ [.full 1 (fun _ _ _ => 0) (fun _ => 0), .act .sigmoid] 2 (fun i _ _ => if i = 0 then 1 else 0) (fun _ => 0)
    (fun _ => 1) 3 sigmoidModel_denotes raisedModel_denotes sigmoidNet_fits f2 sigmoidNet_trains t2 [Train.shortData] (by simp [Train.shortData])
    epochs₁ epochs₂ (List.forall₂_map_left_iff.1 he₁) (List.forall₂_map_left_iff.1 he₂) M₁ M₂ h4 i4
  exact ⟨epochs₁, epochs₂, M₁, M₂, h4, i4, init', w', β', k1, k2⟩

namespace Main
open Mnist Train

/-- C104 for the program: at the end of `main`, for each of the inputs of the last layer, the ten weights add up to what the
random weights added up to before training, and so do the ten biases; whatever the files contain (within `Suits`), whatever the
number of cores and the schedules. Missing: rounding, and a call of a layer is one step of a thread. -/
theorem C104_program_partial (H : Host ℝ) (hE : H.env.Exact) (C : Codec ℝ) (rate : ℝ) (f g : Content) (hs : Suits H.lim H.cores f g)
    (save : Option Bool) (r : Outcome ℝ) (h : program H C rate (files f g) save = .ok (some r)) :
    ∃ init w β init' w' β', drawnNet H.env.draws 0 image kinds = init ++ [.full 10 w β] ∧
      r.trained.Denotes 0 image (init' ++ [.full 10 w' β']) 10 ∧ init'.length = init.length ∧ SameSums 10 100 w β w' β' := by
  obtain ⟨⟨out, h1, h2⟩, _⟩ := C83_program_partial H hE C rate f g hs save r h
  obtain ⟨init, w, β, e, hc⟩ : ∃ init w β, drawnNet H.env.draws 0 image kinds = init ++ [.full 10 w β] ∧ featureCount init image = 100 :=
    ⟨[_, _, _, _, _, _], _, _, rfl, by simp [featureCount, netOut, NetLayer.out, LayerKind.drawn, windows, image]⟩
  rw [e] at h1
  obtain ⟨init', w', β', rfl, h3, h4⟩ := staleLeads_sums rate _ (by
    intro d hd e he
    obtain ⟨es, hes, hd⟩ := List.mem_flatMap.1 hd
    obtain ⟨k, _, rfl⟩ := List.mem_map.1 hd
    obtain rfl : es = trainData H.conv f := by simpa using hes
    obtain ⟨i, hi, rfl⟩ := List.mem_map.1 (List.mem_of_mem_drop (List.mem_of_mem_take he))
    have hi : i < f.n := by rw [List.mem_range'_1] at hi; omega
    have := UInt8.le_iff_toNat_le.mp (hs.digits i hi)
    exact Nat.lt_of_le_of_lt this (by decide)) [] init w β out (by simp) h1
  rw [hc] at h4
  exact ⟨init, w, β, init', w', β', e, h2, h3.length_eq.symm, h4⟩

end Main
end Cnn
