import Verif.Lemmas.SortedNet
import Verif.Props.Balance
/-!
# Properties C83 and C104 for training data sorted by label, with any number of threads
-/
namespace Cnn
namespace Train
open Model

/-- C83 for any number of threads and any schedules, if all batches are full and the samples of each batch have the same label: then training
is the same gradient descent as with one thread. Missing: the restrictions of C83. -/
theorem C83_one_label_partial (E : Env ℝ) (hE : E.Exact) (p : Hyper ℝ) (B T k : Nat) (hp : p.batch = B) (hq : p.threads = T)
    (h0 : 0 < B) (hT0 : 0 < T) (hT : T < 2147483648) (hk0 : 0 < k) (hsz : B * k < 2 ^ 24) (M : Model ℝ) (b : Nat) (s : Shape)
    (ls : List NetLayer) (n : Nat) (hD : M.Denotes b s ls n) (hfit : NetFits ls s) (htr : NetTrains true ls s)
    (ess : List (List (Tensor × Nat))) (hk : ∀ es ∈ ess, es.length = B * k) (hone : ∀ es ∈ ess, ∀ d ∈ batchesOf B es, ∀ e ∈ d, ∀ f ∈ d, e.2 = f.2)
    (epochs : List (List (List Nat) × List (Sample ℝ))) (he : List.Forall₂ (fun e es => List.Forall₂ (Sample.Is M.labels s) e.2 es) epochs ess)
    (M' : Model ℝ) (h : train E p (B * k) epochs M = .ok (some M')) :
    M'.Denotes 0 s (staleDescents (fun ls x => netSurrogate ls s x) p.rate s n (ess.flatMap (batchesOf B)) [] ls) n := by
  obtain ⟨out, h1, h2⟩ := ((C83_threads_partial E hE p B T (B * k) hp hq h0 hT0 hT (Nat.le_mul_of_pos_right B hk0) hsz M b s ls n hD hfit htr ess hk).1 epochs he).2 M' h
  rw [← staleLeads_sorted (B := B) _ _ _ _ (fun d hd => by
    obtain ⟨es, hes, hde⟩ := List.mem_flatMap.1 hd
    exact ⟨sorted_batch_full h0 (hk es hes) d hde, hone es hes d hde⟩) (by simp) h1]
  exact h2

/-- C104 for two models that differ in the last layer by the same numbers for all labels: with any numbers of threads they still differ by these
after training on full batches of samples with the same label. Missing: the restrictions of C83. -/
theorem C104_one_label_partial (E : Env ℝ) (hE : E.Exact) (p₁ p₂ : Hyper ℝ) (B T₁ T₂ k : Nat) (hp₁ : p₁.batch = B) (hp₂ : p₂.batch = B)
    (hq₁ : p₁.threads = T₁) (hq₂ : p₂.threads = T₂) (hr : p₂.rate = p₁.rate) (h0 : 0 < B) (hT₁ : 0 < T₁) (hT₁' : T₁ < 2147483648) (hT₂ : 0 < T₂)
    (hT₂' : T₂ < 2147483648) (hk0 : 0 < k) (hsz : B * k < 2 ^ 24) (M₁ M₂ : Model ℝ) (b₁ b₂ : Nat) (s : Shape) (init : List NetLayer) (n : Nat) (w : Tensor)
    (β : Nat → ℝ) (c : Nat → ℝ) (δ : ℝ) (hD₁ : M₁.Denotes b₁ s (init ++ [.full n w β]) n)
    (hD₂ : M₂.Denotes b₂ s (init ++ [.full n (fun i k l => w i k l + c k) (fun i => β i + δ)]) n)
    (hfit : NetFits (init ++ [.full n w β]) s) (hfit₂ : NetFits (init ++ [.full n (fun i k l => w i k l + c k) (fun i => β i + δ)]) s)
    (htr : NetTrains true (init ++ [.full n w β]) s) (htr₂ : NetTrains true (init ++ [.full n (fun i k l => w i k l + c k) (fun i => β i + δ)]) s)
    (ess : List (List (Tensor × Nat))) (hk : ∀ es ∈ ess, es.length = B * k) (hone : ∀ es ∈ ess, ∀ d ∈ batchesOf B es, ∀ e ∈ d, ∀ f ∈ d, e.2 = f.2)
    (epochs₁ epochs₂ : List (List (List Nat) × List (Sample ℝ)))
    (he₁ : List.Forall₂ (fun e es => List.Forall₂ (Sample.Is M₁.labels s) e.2 es) epochs₁ ess)
    (he₂ : List.Forall₂ (fun e es => List.Forall₂ (Sample.Is M₂.labels s) e.2 es) epochs₂ ess)
    (M₁' M₂' : Model ℝ) (h₁ : train E p₁ (B * k) epochs₁ M₁ = .ok (some M₁')) (h₂ : train E p₂ (B * k) epochs₂ M₂ = .ok (some M₂')) :
    ∃ init' w' β', M₁'.Denotes 0 s (init' ++ [.full n w' β']) n ∧
      M₂'.Denotes 0 s (init' ++ [.full n (fun i k l => w' i k l + c k) (fun i => β' i + δ)]) n ∧
      ∀ x t, netProb (init' ++ [.full n (fun i k l => w' i k l + c k) (fun i => β' i + δ)]) s n x t = netProb (init' ++ [.full n w' β']) s n x t := by
  have k₁ := C83_one_label_partial E hE p₁ B T₁ k hp₁ hq₁ h0 hT₁ hT₁' hk0 hsz M₁ b₁ s _ n hD₁ hfit htr ess hk hone epochs₁ he₁ M₁' h₁
  have k₂ := C83_one_label_partial E hE p₂ B T₂ k hp₂ hq₂ h0 hT₂ hT₂' hk0 hsz M₂ b₂ s _ n hD₂ hfit₂ htr₂ ess hk hone epochs₂ he₂ M₂' h₂
  obtain ⟨e1, init', w', β', e2⟩ := staleDescents_shift (s := s) (n := n) c δ p₁.rate (ess.flatMap (batchesOf B)) (by rw [← hD₁.labels]; exact labels_lt he₁) [] init w β (by simp)
  rw [shiftNet_last, List.map_nil] at e1
  rw [hr, e1, e2, shiftNet_last] at k₂
  rw [e2] at k₁
  exact ⟨init', w', β', k₁, k₂, fun x t => netProb_shift c δ init' n w' β' s x t⟩

/-- Two samples of each label, sorted. -/
def sortedData : List (Tensor × Nat) := shortData ++ [(fun _ _ _ => 0, 0)]

def sortedSource : List (Sample ℝ) := shortSource ++ [⟨shortInput, "a".toList⟩]

theorem sortedSource_is : List.Forall₂ (Sample.Is shortNetModel.labels ⟨1, 1, 1⟩) sortedSource sortedData :=
  List.rel_append shortSource_is (.cons ⟨shortInput_shows, rfl, by simp⟩ .nil)

theorem sortedData_sorted : ∀ es ∈ [sortedData], ∀ d ∈ batchesOf 2 es, ∀ e ∈ d, ∀ f ∈ d, e.2 = f.2 := by
  intro es hes d hd e he f hf
  obtain rfl := List.mem_singleton.1 hes
  have hds : batchesOf 2 sortedData = [[(fun _ _ _ => 0, 1), (fun _ _ _ => 0, 1)], [(fun _ _ _ => 0, 0), (fun _ _ _ => 0, 0)]] := rfl
  rw [hds] at hd
  simp only [List.mem_cons, List.not_mem_nil, or_false] at hd
  rcases hd with rfl | rfl
  · simp only [List.mem_cons, List.not_mem_nil, or_false, or_self] at he hf
    rw [he, hf]
  · simp only [List.mem_cons, List.not_mem_nil, or_false, or_self] at he hf
    rw [he, hf]

/-- The two models of C104 trained on these, one by two threads and the other by three. -/
example : ∃ epochs₁ epochs₂ M₁ M₂, Train.train exactEnv ⟨1, 2, 2, 1⟩ 4 epochs₁ sigmoidModel = .ok (some M₁) ∧
    Train.train exactEnv ⟨1, 2, 3, 1⟩ 4 epochs₂ raisedModel = .ok (some M₂) ∧
    ∃ init' w' β', M₁.Denotes 0 ⟨1, 1, 1⟩ (init' ++ [.full 2 w' β']) 2 ∧
      M₂.Denotes 0 ⟨1, 1, 1⟩ (init' ++ [.full 2 (fun i k l => w' i k l + 1) (fun i => β' i + 3)]) 2 := by
  have f2 : NetFits ([.full 1 (fun _ _ _ => 0) (fun _ => 0), .act .sigmoid] ++
    [.full 2 (fun i _ _ => (if i = 0 then 1 else 0) + 1) (fun _ => 0 + 3)]) ⟨1, 1, 1⟩ := ⟨trivial, trivial, trivial, trivial⟩
  have t2 : NetTrains true ([.full 1 (fun _ _ _ => 0) (fun _ => 0), .act .sigmoid] ++
    [.full 2 (fun i _ _ => (if i = 0 then 1 else 0) + 1) (fun _ => 0 + 3)]) ⟨1, 1, 1⟩ := ⟨trivial, trivial, trivial, trivial⟩
  obtain ⟨_, h2⟩ := C83_threads_partial exactEnv ⟨rfl, rfl, rfl⟩ ⟨1, 2, 2, 1⟩ 2 2 4 rfl rfl (by omega) (by omega) (by omega) (by omega) (by omega)
    sigmoidModel 0 ⟨1, 1, 1⟩ _ 2 sigmoidModel_denotes sigmoidNet_fits sigmoidNet_trains [sortedData] (by simp [sortedData, shortData])
  obtain ⟨_, i2⟩ := C83_threads_partial exactEnv ⟨rfl, rfl, rfl⟩ ⟨1, 2, 3, 1⟩ 2 3 4 rfl rfl (by omega) (by omega) (by omega) (by omega) (by omega)
    raisedModel 0 ⟨1, 1, 1⟩ _ 2 raisedModel_denotes f2 t2 [sortedData] (by simp [sortedData, shortData])
  obtain ⟨epochs₁, M₁, h3, h4⟩ := h2 rfl [sortedSource] (.cons sortedSource_is .nil)
  obtain ⟨epochs₂, M₂, i3, i4⟩ := i2 rfl [sortedSource] (.cons sortedSource_is .nil)
  have he₁ : List.Forall₂ (List.Forall₂ (Sample.Is sigmoidModel.labels ⟨1, 1, 1⟩)) (epochs₁.map Prod.snd) [sortedData] := by
    rw [h3]; exact .cons sortedSource_is .nil
  have he₂ : List.Forall₂ (List.Forall₂ (Sample.Is raisedModel.labels ⟨1, 1, 1⟩)) (epochs₂.map Prod.snd) [sortedData] := by
    rw [i3]; exact .cons sortedSource_is .nil
  obtain ⟨init', w', β', k1, k2, _⟩ := C104_one_label_partial exactEnv ⟨rfl, rfl, rfl⟩ ⟨1, 2, 2, 1⟩ ⟨1, 2, 3, 1⟩ 2 2 3 2 rfl rfl rfl rfl rfl (by omega) (by omega)
    (by omega) (by omega) (by omega) (by omega) (by omega) sigmoidModel raisedModel 0 0 ⟨1, 1, 1⟩ [.full 1 (fun _ _ _ => 0) (fun _ => 0), .act .sigmoid] 2
    (fun i _ _ => if i = 0 then 1 else 0) (fun _ => 0) (fun _ => 1) 3 sigmoidModel_denotes raisedModel_denotes sigmoidNet_fits f2 sigmoidNet_trains t2
    [sortedData] (by simp [sortedData, shortData]) sortedData_sorted epochs₁ epochs₂ (List.forall₂_map_left_iff.1 he₁) (List.forall₂_map_left_iff.1 he₂) M₁ M₂ h4 i4
  exact ⟨epochs₁, epochs₂, M₁, M₂, h4, i4, init', w', β', k1, k2⟩

end Train
end Cnn
