import Verif.Lemmas.Span
import Verif.Props.Silent
/-!
# Property C107: training changes the weights of the first layer with parameters only by linear combinations of the inputs

So what is the same for all training images — a pixel which is always black, two pixels which are always equal — is not learnt
from: the weights of that pixel keep their random values, the difference of the weights of those pixels stays the same.
-/
namespace Cnn
open Model

namespace Train

/-- C107: the change of the weights of each unit is a linear combination of what enters the layer for the training samples,
whatever the labels, the number of threads, the schedules and the number of epochs, and whatever the layers behind it are. Missing:
as in C83 (exact arithmetic, at least one full batch, a call of a layer is one step of a thread). -/
theorem C107_train_partial (E : Env ℝ) (hE : E.Exact) (p : Hyper ℝ) (B T size : Nat) (hp : p.batch = B) (hq : p.threads = T)
    (h0 : 0 < B) (hT0 : 0 < T) (hT : T < 2147483648) (hBs : B ≤ size) (hsz : size < 2 ^ 24) (M : Model ℝ) (b : Nat) (s : Shape)
    (init : List NetLayer) (hno : NoParams init) (m n : Nat) (w : Tensor) (β : Nat → ℝ) (rest : List NetLayer)
    (hD : M.Denotes b s (init ++ .full m w β :: rest) n)
    (hfit : NetFits (init ++ .full m w β :: rest) s) (htr : NetTrains true (init ++ .full m w β :: rest) s)
    (epochs : List (List (List Nat) × List (Sample ℝ))) (ess : List (List (Tensor × Nat))) (hk : ∀ es ∈ ess, es.length = size)
    (he : List.Forall₂ (fun e es => List.Forall₂ (Sample.Is M.labels s) e.2 es) epochs ess)
    (M' : Model ℝ) (h : train E p size epochs M = .ok (some M')) :
    ∃ w' β' rest', M'.Denotes 0 s (init ++ .full m w' β' :: rest') n ∧ MovesWithin init s w w' (InputOf ess) := by
  obtain ⟨out, h1, h2⟩ := ((C83_threads_partial E hE p B T size hp hq h0 hT0 hT hBs hsz M b s _ n hD hfit htr ess hk).1 epochs he).2 M' h
  obtain ⟨w', β', rest', rfl, h3⟩ := staleLeads_span hno (netFits_left hfit) p.rate _ (inputs_of ess) [] w β rest out (by simp) h1
  exact ⟨w', β', rest', h2, h3⟩

/-- C107, what stays the same: a linear combination of the numbers that enter the layer which is 0 for all training samples is the
same for the weights before and after training. -/
theorem C107_constant_partial (E : Env ℝ) (hE : E.Exact) (p : Hyper ℝ) (B T size : Nat) (hp : p.batch = B) (hq : p.threads = T)
    (h0 : 0 < B) (hT0 : 0 < T) (hT : T < 2147483648) (hBs : B ≤ size) (hsz : size < 2 ^ 24) (M : Model ℝ) (b : Nat) (s : Shape)
    (init : List NetLayer) (hno : NoParams init) (m n : Nat) (w : Tensor) (β : Nat → ℝ) (rest : List NetLayer)
    (hD : M.Denotes b s (init ++ .full m w β :: rest) n)
    (hfit : NetFits (init ++ .full m w β :: rest) s) (htr : NetTrains true (init ++ .full m w β :: rest) s)
    (epochs : List (List (List Nat) × List (Sample ℝ))) (ess : List (List (Tensor × Nat))) (hk : ∀ es ∈ ess, es.length = size)
    (he : List.Forall₂ (fun e es => List.Forall₂ (Sample.Is M.labels s) e.2 es) epochs ess)
    (M' : Model ℝ) (h : train E p size epochs M = .ok (some M')) :
    ∃ w' β' rest', M'.Denotes 0 s (init ++ .full m w' β' :: rest') n ∧
      ∀ c : Nat → ℝ, (∀ x, InputOf ess x → ∑ k ∈ Finset.range (featureCount init s), c k * feature init s x k = 0) →
        ∀ i, ∑ k ∈ Finset.range (featureCount init s), c k * w' i k 0 = ∑ k ∈ Finset.range (featureCount init s), c k * w i k 0 := by
  obtain ⟨w', β', rest', h1, h2⟩ := C107_train_partial E hE p B T size hp hq h0 hT0 hT hBs hsz M b s init hno m n w β rest hD hfit htr epochs ess hk he M' h
  exact ⟨w', β', rest', h1, fun c hc i => h2.constant c hc i⟩

/-- C107 for images with `X · Y` pixels, when the fully connected layer is the first: the weights of a pixel `(a, c)` that is 0 in all
training images are those before training. -/
theorem C107_black_partial (E : Env ℝ) (hE : E.Exact) (p : Hyper ℝ) (B T size : Nat) (hp : p.batch = B) (hq : p.threads = T)
    (h0 : 0 < B) (hT0 : 0 < T) (hT : T < 2147483648) (hBs : B ≤ size) (hsz : size < 2 ^ 24) (M : Model ℝ) (b X Y : Nat)
    (m n : Nat) (w : Tensor) (β : Nat → ℝ) (rest : List NetLayer) (hD : M.Denotes b ⟨X, Y, 1⟩ (.full m w β :: rest) n)
    (hfit : NetFits (.full m w β :: rest) ⟨X, Y, 1⟩) (htr : NetTrains true (.full m w β :: rest) ⟨X, Y, 1⟩)
    (epochs : List (List (List Nat) × List (Sample ℝ))) (ess : List (List (Tensor × Nat))) (hk : ∀ es ∈ ess, es.length = size)
    (he : List.Forall₂ (fun e es => List.Forall₂ (Sample.Is M.labels ⟨X, Y, 1⟩) e.2 es) epochs ess)
    (a c : Nat) (ha : a < X) (hc : c < Y) (hblack : ∀ x, InputOf ess x → x a c 0 = 0)
    (M' : Model ℝ) (h : train E p size epochs M = .ok (some M')) :
    ∃ w' β' rest', M'.Denotes 0 ⟨X, Y, 1⟩ (.full m w' β' :: rest') n ∧ ∀ i, w' i (c * X + a) 0 = w i (c * X + a) 0 := by
  obtain ⟨w', β', rest', h1, h2⟩ := C107_constant_partial E hE p B T size hp hq h0 hT0 hT hBs hsz M b ⟨X, Y, 1⟩ [] (by intro l hl; simp at hl)
    m n w β rest hD hfit htr epochs ess hk he M' h
  refine ⟨w', β', rest', h1, fun i => ?_⟩
  have hlt : c * X + a < X * Y := by nlinarith
  have hm : (c * X + a) % X = a := by rw [Nat.mul_comm, Nat.mul_add_mod, Nat.mod_eq_of_lt ha]
  have hq : (c * X + a) / X = c := by rw [Nat.mul_comm, Nat.mul_add_div (by omega), Nat.div_eq_of_lt ha, Nat.add_zero]
  have := h2 (fun k => if k = c * X + a then 1 else 0) (fun x hx => by
    simp only [featureCount, feature, netOut, netEval, flatOf, ite_mul, one_mul, zero_mul]
    rw [Finset.sum_ite_eq']
    simp [hm, hq, hlt, Nat.mod_eq_of_lt hc, Nat.div_eq_of_lt hc, hblack x hx]) i
  simpa [featureCount, netOut, hlt] using this

/-- C107 with calls that overlap in time. -/
theorem C107_overlap_partial (E : Env ℝ) (hE : E.Exact) (p : Hyper ℝ) (B T size : Nat) (hp : p.batch = B) (hq : p.threads = T)
    (h0 : 0 < B) (hT0 : 0 < T) (hT : T < 2147483648) (hBs : B ≤ size) (hsz : size < 2 ^ 24) (M : Model ℝ) (b : Nat) (s : Shape)
    (init : List NetLayer) (hno : NoParams init) (m n : Nat) (w : Tensor) (β : Nat → ℝ) (rest : List NetLayer)
    (hD : M.Denotes b s (init ++ .full m w β :: rest) n)
    (hfit : NetFits (init ++ .full m w β :: rest) s) (htr : NetTrains true (init ++ .full m w β :: rest) s)
    (fine : List (List (List (Nat × Overlap.Act ℝ)) × List (Sample ℝ))) (ess : List (List (Tensor × Nat))) (hk : ∀ es ∈ ess, es.length = size)
    (he : List.Forall₂ (fun e es => List.Forall₂ (Sample.Is M.labels s) e.2 es) fine ess)
    (M' : Model ℝ) (h : Overlap.train E p size fine M = .ok (some M')) :
    ∃ w' β' rest', M'.Denotes 0 s (init ++ .full m w' β' :: rest') n ∧ MovesWithin init s w w' (InputOf ess) := by
  obtain ⟨out, h1, h2⟩ := ((Overlap.C83_overlap_partial E hE p B T size hp hq h0 hT0 hT hBs hsz M b s _ n hD hfit htr ess hk).1 fine he).2 M' h
  obtain ⟨w', β', rest', rfl, h3⟩ := staleLeads_span hno (netFits_left hfit) p.rate _ (inputs_of ess) [] w β rest out (by simp) h1
  exact ⟨w', β', rest', h2, h3⟩

/-- C107 for a model built with the `add…` calls: the weights drawn at the first use are changed only by linear combinations of the
inputs. -/
theorem C107_build_partial (E : Env ℝ) (hE : E.Exact) (p : Hyper ℝ) (B T size : Nat) (hp : p.batch = B) (hq : p.threads = T)
    (h0 : 0 < B) (hT0 : 0 < T) (hT : T < 2147483648) (hBs : B ≤ size) (hsz : size < 2 ^ 24) (ks : List LayerKind)
    (labels : List (List Char)) (s : Shape) (hks : AllSized E.draws 0 s ks) (hfit : NetFits (drawnNet E.draws 0 s ks) s)
    (htr : NetTrains true (drawnNet E.draws 0 s ks) s)
    (hout : netOut (drawnNet E.draws 0 s ks) s = ⟨labels.length, 1, 1⟩ ∨ netOut (drawnNet E.draws 0 s ks) s = ⟨1, labels.length, 1⟩)
    (init : List NetLayer) (hno : NoParams init) (m : Nat) (w : Tensor) (β : Nat → ℝ) (rest : List NetLayer)
    (hnet : drawnNet E.draws 0 s ks = init ++ .full m w β :: rest)
    (ess : List (List (Tensor × Nat))) (hne : ess ≠ []) (hk : ∀ es ∈ ess, es.length = size) :
    ∃ M, buildModel E.num E.draws ks labels = .ok M ∧
      ∀ epochs : List (List (List Nat) × List (Sample ℝ)), List.Forall₂ (fun e es => List.Forall₂ (Sample.Is labels s) e.2 es) epochs ess →
        ∀ M', train E p size epochs M = .ok (some M') →
          ∃ w' β' rest', M'.Denotes 0 s (init ++ .full m w' β' :: rest') labels.length ∧ MovesWithin init s w w' (InputOf ess) := by
  obtain ⟨M, e, k, _⟩ := C83_build_partial E hE p B T size hp hq h0 hT0 hT hBs hsz ks labels s hks hfit htr hout ess hne hk
  refine ⟨M, e, fun epochs he M' h => ?_⟩
  obtain ⟨⟨out, h1, h2⟩, _⟩ := (k epochs he).2 M' h
  rw [hnet] at h1 hfit
  obtain ⟨w', β', rest', rfl, h3⟩ := staleLeads_span hno (netFits_left hfit) p.rate _ (inputs_of ess) [] w β rest out (by simp) h1
  exact ⟨w', β', rest', h2, h3⟩

/-- C105, the weights behind the unit: the next layer, if fully connected, keeps the weights it uses the unit with. -/
theorem C105_outgoing_partial (E : Env ℝ) (hE : E.Exact) (p : Hyper ℝ) (B T size : Nat) (hp : p.batch = B) (hq : p.threads = T)
    (h0 : 0 < B) (hT0 : 0 < T) (hT : T < 2147483648) (hBs : B ≤ size) (hsz : size < 2 ^ 24) (M : Model ℝ) (b : Nat) (s : Shape)
    (init : List NetLayer) (hno : NoParams init) (m n q i : Nat) (hi : i < m) (w : Tensor) (β : Nat → ℝ) (w₂ : Tensor) (β₂ : Nat → ℝ) (rest : List NetLayer)
    (hD : M.Denotes b s (init ++ .full m w β :: .act .relu :: .full q w₂ β₂ :: rest) n)
    (hfit : NetFits (init ++ .full m w β :: .act .relu :: .full q w₂ β₂ :: rest) s)
    (htr : NetTrains true (init ++ .full m w β :: .act .relu :: .full q w₂ β₂ :: rest) s)
    (epochs : List (List (List Nat) × List (Sample ℝ))) (ess : List (List (Tensor × Nat))) (hk : ∀ es ∈ ess, es.length = size)
    (he : List.Forall₂ (fun e es => List.Forall₂ (Sample.Is M.labels s) e.2 es) epochs ess) (hoff : Silent init s w β i (InputOf ess))
    (M' : Model ℝ) (h : train E p size epochs M = .ok (some M')) :
    ∃ w' β' w₂' β₂' rest', M'.Denotes 0 s (init ++ .full m w' β' :: .act .relu :: .full q w₂' β₂' :: rest') n ∧
      (∀ k, w' i k 0 = w i k 0) ∧ β' i = β i ∧ ∀ a, w₂' a i 0 = w₂ a i 0 := by
  obtain ⟨out, h1, h2⟩ := ((C83_threads_partial E hE p B T size hp hq h0 hT0 hT hBs hsz M b s _ n hD hfit htr ess hk).1 epochs he).2 M' h
  obtain ⟨w', β', w₂', β₂', rest', rfl, h3, h4, h5⟩ := staleLeads_outgoing hno (netFits_left hfit) hi hoff p.rate _ (inputs_of ess) [] w β w₂ β₂ rest out (by simp) (fun _ _ => rfl) rfl (fun _ => rfl) h1
  exact ⟨w', β', w₂', β₂', rest', h2, fun k => h3 k 0, h4, h5⟩

end Train

/-! ### Example -/

/-- Two pixels, of which the second is always black; one fully connected layer with two outputs. -/
noncomputable def blackBodies : List (Body ℝ) :=
  [.connected { weights := ⟨dimN 2 2 1, [1, 0, 0, 1]⟩, biases := ⟨dimN 2 1 1, [0, 0]⟩, inputDim := dimN 2 1 1, initialized := true,
                wGrads := [Matrix.empty], bGrads := [Matrix.empty] }]

noncomputable def blackModel : Model ℝ :=
  { (Model.new : Model ℝ) with
    labels := ["a".toList, "b".toList]
    layers := (blackBodies ++ [Body.softmax (Softmax.new 2)]).map (fun b => ⟨[], b⟩) }

noncomputable def blackNet : List NetLayer := [.full 2 (fun i k _ => if i = k then 1 else 0) (fun _ => 0)]

theorem blackModel_denotes : blackModel.Denotes 0 ⟨2, 1, 1⟩ blackNet 2 := by
  refine ⟨⟨blackBodies, Softmax.new 2, rfl, ⟨⟨⟨?_, ?_, rfl⟩, by simp, by simp, Or.inr rfl⟩, trivial⟩, rfl⟩, rfl, Or.inl rfl⟩
  · refine Matrix.Shows.of_vals ⟨by decide, by decide, by decide, by decide⟩ rfl ?_
    simp [List.range_succ]
  · refine Matrix.Shows.of_vals ⟨by decide, by decide, by decide, by decide⟩ rfl ?_
    simp [List.range_succ]

noncomputable def blackImage : Matrix ℝ := ⟨dimN 2 1 1, [1, 0]⟩

theorem blackImage_shows : blackImage.Shows 2 1 1 (fun i _ _ => if i = 0 then 1 else 0) := by
  refine Matrix.Shows.of_vals ⟨by decide, by decide, by decide, by decide⟩ rfl ?_
  simp [List.range_succ, blackImage]

noncomputable def blackSource : List (Sample ℝ) := [⟨blackImage, "a".toList⟩, ⟨blackImage, "a".toList⟩, ⟨blackImage, "a".toList⟩]

def blackData : List (Tensor × Nat) := List.replicate 3 (fun i _ _ => if i = 0 then 1 else 0, 0)

theorem blackSource_is : List.Forall₂ (Sample.Is blackModel.labels ⟨2, 1, 1⟩) blackSource blackData := by
  have h : Sample.Is blackModel.labels ⟨2, 1, 1⟩ ⟨blackImage, "a".toList⟩ (fun i _ _ => if i = 0 then 1 else 0, 0) := ⟨blackImage_shows, rfl, by simp⟩
  exact .cons h (.cons h (.cons h .nil))

/-- Two threads, a batch of two images and a batch of one: the hypotheses are met, and the weights of the black pixel stay the same. -/
example : ∃ epochs M', Train.train exactEnv ⟨1, 2, 2, 1⟩ 3 epochs blackModel = .ok (some M') ∧
    ∃ w' β' rest', M'.Denotes 0 ⟨2, 1, 1⟩ (.full 2 w' β' :: rest') 2 ∧ w' 0 1 0 = 0 ∧ w' 1 1 0 = 1 := by
  have hf : NetFits blackNet ⟨2, 1, 1⟩ := ⟨trivial, trivial⟩
  have ht : NetTrains true blackNet ⟨2, 1, 1⟩ := ⟨trivial, trivial⟩
  obtain ⟨_, h2⟩ := Train.C83_threads_partial exactEnv ⟨rfl, rfl, rfl⟩ ⟨1, 2, 2, 1⟩ 2 2 3 rfl rfl (by omega) (by omega) (by omega) (by omega) (by omega)
    blackModel 0 ⟨2, 1, 1⟩ _ 2 blackModel_denotes hf ht [blackData] (by simp [blackData])
  obtain ⟨epochs, M', h3, h4⟩ := h2 rfl [blackSource] (.cons blackSource_is .nil)
  have he : List.Forall₂ (List.Forall₂ (Sample.Is blackModel.labels ⟨2, 1, 1⟩)) (epochs.map Prod.snd) [blackData] := by
    rw [h3]; exact .cons blackSource_is .nil
  obtain ⟨w', β', rest', k1, k2⟩ := Train.C107_black_partial exactEnv ⟨rfl, rfl, rfl⟩ ⟨1, 2, 2, 1⟩ 2 2 3 rfl rfl (by omega) (by omega) (by omega) (by omega)
    (by omega) blackModel 0 2 1 2 2 _ _ _ blackModel_denotes hf ht epochs [blackData] (by simp [blackData])
    (List.forall₂_map_left_iff.1 he) 1 0 (by omega) (by omega) (by
      rintro x ⟨es, hes, e, he, rfl⟩
      obtain rfl : es = blackData := by simpa using hes
      rw [List.eq_of_mem_replicate he]
      simp) M' h4
  exact ⟨epochs, M', h4, w', β', rest', k1, by simpa using k2 0, by simpa using k2 1⟩

/-- The network of C105: the unit keeps its weight, its bias and the weights behind it. -/
example : ∃ epochs M', Train.train exactEnv ⟨1, 2, 2, 1⟩ 3 epochs offModel = .ok (some M') ∧
    ∃ w' β' w₂' β₂' rest', M'.Denotes 0 ⟨1, 1, 1⟩ (.full 2 w' β' :: .act .relu :: .full 2 w₂' β₂' :: rest') 2 ∧ w' 1 0 0 = -1 ∧ β' 1 = -1 ∧
      w₂' 0 1 0 = 0 ∧ w₂' 1 1 0 = 1 := by
  have hf : NetFits offNet ⟨1, 1, 1⟩ := ⟨trivial, trivial, trivial, trivial⟩
  have ht : NetTrains true offNet ⟨1, 1, 1⟩ := ⟨trivial, trivial, trivial, trivial⟩
  obtain ⟨_, h2⟩ := Train.C83_threads_partial exactEnv ⟨rfl, rfl, rfl⟩ ⟨1, 2, 2, 1⟩ 2 2 3 rfl rfl (by omega) (by omega) (by omega) (by omega) (by omega)
    offModel 0 ⟨1, 1, 1⟩ _ 2 offModel_denotes hf ht [Train.shortData] (by simp [Train.shortData])
  obtain ⟨epochs, M', h3, h4⟩ := h2 rfl [Train.shortSource] (.cons Train.shortSource_is .nil)
  have he : List.Forall₂ (List.Forall₂ (Sample.Is offModel.labels ⟨1, 1, 1⟩)) (epochs.map Prod.snd) [Train.shortData] := by
    rw [h3]; exact .cons Train.shortSource_is .nil
  obtain ⟨w', β', w₂', β₂', rest', k1, k2, k3, k4⟩ := Train.C105_outgoing_partial exactEnv ⟨rfl, rfl, rfl⟩ ⟨1, 2, 2, 1⟩ 2 2 3 rfl rfl (by omega) (by omega)
    (by omega) (by omega) (by omega) offModel 0 ⟨1, 1, 1⟩ [] (by intro l hl; simp at hl) 2 2 2 1 (by omega) _ _ _ _ _ offModel_denotes hf ht epochs
    [Train.shortData] (by simp [Train.shortData]) (List.forall₂_map_left_iff.1 he) (by
      rintro x ⟨es, hes, e, he, rfl⟩
      obtain rfl : es = Train.shortData := by simpa using hes
      have : e.1 = fun _ _ _ => 0 := by
        simp only [Train.shortData, List.mem_cons, List.not_mem_nil, or_false] at he
        rcases he with rfl | rfl | rfl <;> rfl
      simp [this, featureCount, feature, netOut, netEval, flatOf]) M' h4
  exact ⟨epochs, M', h4, w', β', w₂', β₂', rest', k1, by simpa using k2 0, by simpa using k3, by simpa using k4 0, by simpa using k4 1⟩

end Cnn
