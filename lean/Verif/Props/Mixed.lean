import Verif.Props.Learns
import Verif.Lemmas.MixedTrain
/-! # C52 and C92 with several threads: all samples of a batch can be trained with one label -/
namespace Cnn
open Finset Model
namespace Train

/-- C52 fails as badly as possible: if there is one thread for each sample of a batch, then for every sample there is a schedule under which all
samples of the batch are trained with its label. -/
theorem C52_same_label {α : Type} [Field α] (E : Env α) (p : Hyper α) (B : Nat) (hp : p.batch = B) (hq : p.threads = B) (hB : B < 2 ^ 24) (h0 : 0 < B)
    (sh : Shared α) (hM : sh.model.Prepared B) (hfull : B ≤ sh.source.length)
    (hal : ∀ x ∈ sh.source.take B, ∀ y ∈ sh.source.take B, ∃ m, alone E sh.model ⟨x.data, y.label⟩ = .ok m)
    (hsize : ∀ i W Bi, sh.model.params i = some (W, Bi) → ∃ X Y Z F w, ∃ β : Nat → α, W.Shows X Y Z w ∧ Bi.Shows F 1 1 (fun f _ _ => β f) ∧
      ∀ x ∈ sh.source.take B, ∀ y ∈ sh.source.take B, ∃ G H u v, ownGrads E sh.model ⟨x.data, y.label⟩ i = some (G, H) ∧ G.Reads X Y Z u ∧ H.Reads F 1 1 v)
    (y : Sample α) (hy : y ∈ sh.source.take B) :
    ∃ sched q, runBatch E p sched sh = .ok (some q) ∧ ∀ t slot x used, (t, slot, x, used) ∈ grads q.2 → used = sh.model.labelIndex y.label := by
  obtain ⟨sched, q, h1, h2⟩ := runBatch_same hp hq hB h0 hM hal hsize hfull hy
  exact ⟨sched, q, h1, fun t slot x used h => h2 _ h⟩

/-- C92 fails with several threads: for every label `l` of the training data there are schedules under which the trained model answers with `l` for
every sample after enough epochs, whatever the labels of the samples are. -/
theorem C92_same_label (E : Env ℝ) (hE : E.Exact) (B : Nat) (h0 : 0 < B) (hB : B < 2 ^ 24) (M : Model ℝ) (b : Nat) (s : Shape)
    (init : List NetLayer) (n : Nat) (w : Tensor) (β : Nat → ℝ) (hD : M.Denotes b s (init ++ [.full n w β]) n) (hno : NoParams init)
    (hfit : NetFits (init ++ [.full n w β]) s) (htr : NetTrains true (init ++ [.full n w β]) s) (d : List (Tensor × Nat)) (hlen : d.length = B)
    (R rate : ℝ) (hR : ∀ e ∈ d, 1 + ∑ k ∈ range (featureCount init s), feature init s e.1 k ^ 2 ≤ R) (h1 : 0 < rate)
    (h2 : rate * R ≤ 2) (l : Nat) (hl : l < n) (hld : ∃ e ∈ d, e.2 = l) :
    ∃ N : Nat, ∀ p : Hyper ℝ, p.batch = B → p.threads = B → p.rate = rate → N ≤ p.epochs →
      ∀ srcs : List (List (Sample ℝ)), srcs.length = p.epochs.toNat → (∀ src ∈ srcs, SameData M.labels s d src) →
        ∃ epochs M', epochs.map Prod.snd = srcs ∧ train E p B epochs M = .ok (some M') ∧
          ∀ e ∈ d, ∀ X : Matrix ℝ, X.Shows s.X s.Y s.Z e.1 → ∃ r M'', M'.forwardPropagation E X 0 = .ok (r, M'') ∧ r.labelIdx = l := by
  have hd : d.map (fun e => (e.1, l)) ≠ [] := by
    intro h
    have := congrArg List.length h
    simp at this
    subst this
    simp at hlen
    omega
  have ht : ∀ e ∈ d.map (fun e => (e.1, l)), e.2 < n := by
    intro e he
    obtain ⟨f, _, rfl⟩ := List.mem_map.1 he
    exact hl
  have hR' : ∀ e ∈ d.map (fun e => (e.1, l)), 1 + ∑ k ∈ range (featureCount init s), feature init s e.1 k ^ 2 ≤ R := by
    intro e he
    obtain ⟨f, hf, rfl⟩ := List.mem_map.1 he
    exact hR f hf
  have hlog : 0 < Real.log 2 / (d.map fun e => (e.1, l)).length :=
    div_pos (Real.log_pos (by norm_num)) (by rw [List.length_map, hlen]; exact_mod_cast h0)
  obtain ⟨N, hN⟩ := head_small hd ht hR' h1 h2 w β (separable_small ht (same_separates init hl d) hlog)
  refine ⟨N, ?_⟩
  rintro p hp hq rfl hNp srcs hsl hs
  obtain ⟨ess, e1, e2⟩ := sameData_all id srcs hs
  have hM : Trainee M.labels s n B (M.setBatchSize B) (init ++ [.full n w β]) := ⟨hD.prepared hfit B, hD.setBatchSize h0, hfit, htr, rfl⟩
  have hu : u64 p.batch = B := by
    rw [hp]; unfold u64; omega
  obtain ⟨epochs, M', w', β', i1, i2, i3, i4⟩ := head_same hE hp hq hB h0 hno (netFits_left hfit) hlen hl hld w β ess e1 0 [] w β (M.setBatchSize B) hM
    (Recalls.nil _ _ _ _ _) (Or.inr rfl) (fun _ _ _ _ => rfl) srcs e2
  refine ⟨epochs, M', i1, ?_, ?_⟩
  · rw [train_eq (p := p) (by omega), if_pos, hu]
    · exact i2
    · rw [← hsl, ← i1, List.length_map]
  · intro e he X hX
    have hsmall : meanLoss s n (d.map fun e => (e.1, l)) (init ++ [.full n w' β']) < Real.log 2 / (d.map fun e => (e.1, l)).length := by
      have := hN p.epochs.toNat (by omega)
      rw [← comb_mean init n w' β' s ht]
      refine lt_of_le_of_lt (le_of_eq ?_) this
      unfold headLosses
      refine mean_congr fun e he => one_congr (fun i hi j hj => ?_) (ht e he)
      rw [i4 i hi j hj, Nat.zero_add, ← e2.length_eq, hsl]
    exact forward_label hE i3.denotes i3.fits hX hl (small_separates ht hsmall (e.1, l) (List.mem_map.2 ⟨e, he, rfl⟩))

/-- C92 in full: any number of threads. -/
def C92_claim : Prop :=
  ∀ (E : Env ℝ), E.Exact → ∀ (B T : Nat), 0 < B → B < 2 ^ 24 → 0 < T → T < 2147483648 → ∀ (M : Model ℝ) (b : Nat) (s : Shape)
    (init : List NetLayer) (n : Nat) (w : Tensor) (β : Nat → ℝ), M.Denotes b s (init ++ [.full n w β]) n → NoParams init →
    NetFits (init ++ [.full n w β]) s → NetTrains true (init ++ [.full n w β]) s → ∀ d : List (Tensor × Nat), d.length = B →
    (∀ e ∈ d, e.2 < n) → ∀ R rate : ℝ, (∀ e ∈ d, 1 + ∑ k ∈ range (featureCount init s), feature init s e.1 k ^ 2 ≤ R) → 0 < rate →
    rate * R ≤ 2 → ∀ (w₀ : Tensor) (β₀ : Nat → ℝ), Separates (init ++ [.full n w₀ β₀]) s n d →
    ∃ N : Nat, ∀ p : Hyper ℝ, p.batch = B → p.threads = T → p.rate = rate → N ≤ p.epochs →
      ∀ epochs : List (List (List Nat) × List (Sample ℝ)), (∀ e ∈ epochs, SameData M.labels s d e.2) →
        ∀ M', train E p B epochs M = .ok (some M') →
          ∀ e ∈ d, ∀ X : Matrix ℝ, X.Shows s.X s.Y s.Z e.1 → ∃ r M'', M'.forwardPropagation E X 0 = .ok (r, M'') ∧ r.labelIdx = e.2

theorem sign_square : ∀ e ∈ signData, 1 + ∑ k ∈ range (featureCount [] ⟨1, 1, 1⟩), feature [] ⟨1, 1, 1⟩ e.1 k ^ 2 ≤ 2 := by
  intro e he
  simp only [signData, List.mem_cons, List.not_mem_nil, or_false] at he
  rcases he with rfl | rfl <;> norm_num [featureCount, feature, netOut, netEval, flatOf]

/-- C92 is false with two threads: under some schedules a model with one fully connected layer never learns to tell 1 from -1. -/
theorem C92_violated : ¬ C92_claim := by
  intro h
  obtain ⟨N, hN⟩ := h exactEnv ⟨rfl, rfl, rfl⟩ 2 2 (by omega) (by omega) (by omega) (by omega) shortNetModel 0 ⟨1, 1, 1⟩ [] 2 _ _ shortNetModel_denotes
    (by simp [NoParams]) ⟨trivial, trivial⟩ ⟨trivial, trivial⟩ signData rfl (by simp [signData]) 2 1 sign_square (by norm_num) (by norm_num) _ _ sign_separates
  obtain ⟨N', hN'⟩ := C92_same_label exactEnv ⟨rfl, rfl, rfl⟩ 2 (by omega) (by omega) shortNetModel 0 ⟨1, 1, 1⟩ [] 2 _ _ shortNetModel_denotes
    (by simp [NoParams]) ⟨trivial, trivial⟩ ⟨trivial, trivial⟩ signData rfl 2 1 sign_square (by norm_num) (by norm_num) 1 (by omega)
    ⟨(fun _ _ _ => -1, 1), List.mem_cons_of_mem _ List.mem_cons_self, rfl⟩
  obtain ⟨epochs, M', h1, h2, h3⟩ := hN' ⟨1, 2, 2, (max N N' : Nat)⟩ rfl rfl rfl (Int.ofNat_le.2 (le_max_right _ _)) (List.replicate (max N N') signSource)
    (List.length_replicate.trans (Int.toNat_natCast _).symm) (fun src hs => by rw [List.eq_of_mem_replicate hs]; exact signSource_holds)
  obtain ⟨r, M'', k1, k2⟩ := h3 (fun _ _ _ => 1, 0) List.mem_cons_self _ (sign_shows 1)
  obtain ⟨r', M''', k3, k4⟩ := hN ⟨1, 2, 2, (max N N' : Nat)⟩ rfl rfl rfl (Int.ofNat_le.2 (le_max_left _ _)) epochs (fun e he => by
    have : e.2 ∈ epochs.map Prod.snd := List.mem_map_of_mem he
    rw [h1] at this
    rw [List.eq_of_mem_replicate this]; exact signSource_holds) M' h2 (fun _ _ _ => 1, 0) List.mem_cons_self _ (sign_shows 1)
  rw [k1] at k3
  obtain ⟨rfl, rfl⟩ := Prod.mk.inj (Res.ok.inj k3)
  rw [k2] at k4
  exact absurd k4 (by decide)

/-- Two samples, two threads: both samples are trained with label 1, and both with label 0, under suitable schedules. -/
example : ∀ y ∈ signSource, ∃ sched q, runBatch exactEnv ⟨1, 2, 2, 1⟩ sched ⟨shortNetModel.setBatchSize 2, signSource, 0⟩ = .ok (some q) ∧
    ∀ t slot x used, (t, slot, x, used) ∈ grads q.2 → used = (shortNetModel.setBatchSize 2).labelIndex y.label := by
  have hM : Trainee shortNetModel.labels ⟨1, 1, 1⟩ 2 2 (shortNetModel.setBatchSize 2) (shortNet (fun _ _ _ => 0) (fun _ => 0)) :=
    ⟨shortNetModel_denotes.prepared ⟨trivial, trivial⟩ 2, shortNetModel_denotes.setBatchSize (by omega), ⟨trivial, trivial⟩, ⟨trivial, trivial⟩, rfl⟩
  obtain ⟨es, _, hes⟩ := signSource_holds
  intro y hy
  exact C52_same_label exactEnv ⟨1, 2, 2, 1⟩ 2 rfl rfl (by omega) (by omega) ⟨shortNetModel.setBatchSize 2, signSource, 0⟩ hM.prepared (by simp [signSource])
    (hM.alone ⟨rfl, rfl, rfl⟩ hes) (hM.sizes ⟨rfl, rfl, rfl⟩ hes) y hy

end Train
end Cnn
