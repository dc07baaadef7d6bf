import Verif.Lemmas.Build
import Verif.Props.Descent
/-!
# Properties C67, C68 for models not yet used; property C69: from building a model to training it
-/
namespace Cnn
namespace Train
open Model

/-! ## A model before its first use -/

/-- C67 for a model before its first use: the fully connected layers without weights get them, normalised random numbers,
from the first sample; apart from this the statement is that of `C67_train_partial`. At least one batch is needed: before it
the model computes nothing. -/
theorem C67_fresh_partial (E : Env ℝ) (hE : E.Exact) (p : Hyper ℝ) (B k : Nat) (hp : p.batch = B) (hq : p.threads = 1)
    (h0 : 0 < B) (hB : B < 2 ^ 24) (hk0 : 0 < k) (hsz : B * k < 2 ^ 24) (M : Model ℝ) (s : Shape) (ls : List NetLayer) (n : Nat)
    (hD : M.Starts E.draws s ls n) (hfit : NetFits ls s) (htr : NetTrains true ls s) (dss : List (List (List (Tensor × Nat))))
    (hne : dss ≠ []) (hk : ∀ ds ∈ dss, ds.length = k) (hsm : SmoothAlong p.rate s n dss.flatten ls)
    (epochs : List (List (List Nat) × List (Sample ℝ))) (he : List.Forall₂ (fun e ds => Serves M.labels s B e.2 ds) epochs dss) :
    (∃ o, train E p (B * k) epochs M = .ok o) ∧
    ∀ M', train E p (B * k) epochs M = .ok (some M') → M'.Denotes 0 s (descents p.rate s n dss.flatten ls) n := by
  have hS : Steps E p M.labels s n B Eq := Steps.one hE hp hq hB
  obtain ⟨M₁, hT, ht⟩ := train_fresh (T := 1) hE hp hq hB h0 (by omega) (by omega) hk0 hsz hD hfit htr
  have hsm' : Smooth Eq p.rate s n dss.flatten ls := by
    intro ds' hds
    rw [List.forall₂_eq_eq_eq] at hds
    rw [← hds]; exact hsm
  obtain ⟨i1, i2⟩ := (hS.epochs (T := 1) hp hq hB h0 (by omega) hsz dss hk hT hsm').1 epochs he
  rw [ht dss epochs hne hk he]
  by_cases hl : epochs.length = p.epochs.toNat
  · rw [if_pos hl]
    refine ⟨i1, ?_⟩
    intro M' h
    obtain ⟨ds', j1, j2⟩ := i2 M' h
    rw [List.forall₂_eq_eq_eq] at j1
    rw [j1]; exact j2.denotes
  · rw [if_neg hl]
    exact ⟨⟨_, rfl⟩, fun M' h => absurd (Res.ok.inj h) (by simp)⟩

/-- C67 for a model before its first use, any number of threads: some schedules complete the training with this result. -/
theorem C67_fresh_threads_partial (E : Env ℝ) (hE : E.Exact) (p : Hyper ℝ) (B T k : Nat) (hp : p.batch = B) (hq : p.threads = T)
    (h0 : 0 < B) (hB : B < 2 ^ 24) (hT0 : 0 < T) (hT : T < 2147483648) (hk0 : 0 < k) (hsz : B * k < 2 ^ 24) (M : Model ℝ) (s : Shape)
    (ls : List NetLayer) (n : Nat) (hD : M.Starts E.draws s ls n) (hfit : NetFits ls s) (htr : NetTrains true ls s)
    (dss : List (List (List (Tensor × Nat)))) (hne : dss ≠ []) (hk : ∀ ds ∈ dss, ds.length = k) (hsm : SmoothAlong p.rate s n dss.flatten ls)
    (hep : dss.length = p.epochs.toNat) (srcs : List (List (Sample ℝ))) (hsrc : List.Forall₂ (Serves M.labels s B) srcs dss) :
    ∃ epochs M', epochs.map Prod.snd = srcs ∧ train E p (B * k) epochs M = .ok (some M') ∧
      M'.Denotes 0 s (descents p.rate s n dss.flatten ls) n := by
  obtain ⟨M₁, hM, ht⟩ := train_fresh hE hp hq hB h0 hT0 hT hk0 hsz hD hfit htr
  obtain ⟨epochs, M', h1, h2, h3⟩ := epochs_own hE hp hq hB h0 hT0 hT hsz dss hk hM hsm srcs hsrc
  refine ⟨epochs, M', h1, ?_, h3.denotes⟩
  rw [ht dss epochs hne hk, if_pos]
  · exact h2
  · rw [← hep, ← hsrc.length_eq, ← h1, List.length_map]
  · rw [← h1] at hsrc
    exact List.forall₂_map_left_iff.1 hsrc

/-- C68 for a model before its first use. -/
theorem C68_fresh_partial (E : Env ℝ) (hE : E.Exact) (p : Hyper ℝ) (B T k : Nat) (hp : p.batch = B) (hq : p.threads = T)
    (h0 : 0 < B) (hB : B < 2 ^ 24) (hT0 : 0 < T) (hT : T < 2147483648) (hk0 : 0 < k) (hsz : B * k < 2 ^ 24) (M : Model ℝ) (s : Shape)
    (ls : List NetLayer) (n : Nat) (hD : M.Starts E.draws s ls n) (hfit : NetFits ls s) (htr : NetTrains true ls s)
    (dss : List (List (List (Tensor × Nat)))) (hne : dss ≠ []) (hk : ∀ ds ∈ dss, ds.length = k)
    (hsm : ∀ ds', List.Forall₂ Relabels dss.flatten ds' → SmoothAlong p.rate s n ds' ls)
    (epochs : List (List (List Nat) × List (Sample ℝ))) (he : List.Forall₂ (fun e ds => Serves M.labels s B e.2 ds) epochs dss) :
    (∃ o, train E p (B * k) epochs M = .ok o) ∧
    ∀ M', train E p (B * k) epochs M = .ok (some M') →
      ∃ ds', List.Forall₂ Relabels dss.flatten ds' ∧ M'.Denotes 0 s (descents p.rate s n ds' ls) n := by
  have hS : Steps E p M.labels s n B Relabels := Steps.many hE hp hq hB hT0 hT
  obtain ⟨M₁, hM, ht⟩ := train_fresh hE hp hq hB h0 hT0 hT hk0 hsz hD hfit htr
  obtain ⟨i1, i2⟩ := (hS.epochs hp hq hB h0 hT0 hsz dss hk hM hsm).1 epochs he
  rw [ht dss epochs hne hk he]
  by_cases hl : epochs.length = p.epochs.toNat
  · rw [if_pos hl]
    refine ⟨i1, ?_⟩
    intro M' h
    obtain ⟨ds', j1, j2⟩ := i2 M' h
    exact ⟨ds', j1, j2.denotes⟩
  · rw [if_neg hl]
    exact ⟨⟨_, rfl⟩, fun M' h => absurd (Res.ok.inj h) (by simp)⟩

/-! ## From building to training -/

/-- C69: a model is built with the `add…` calls, the labels are set, and it is trained with one thread. Building succeeds; no
run of the training fails; and when it is over the model computes the network that mini-batch gradient descent makes of the
network whose weights and biases are the normalised random numbers. Partial as C67. -/
theorem C69_build_train_partial (E : Env ℝ) (hE : E.Exact) (p : Hyper ℝ) (B k : Nat) (hp : p.batch = B) (hq : p.threads = 1)
    (h0 : 0 < B) (hB : B < 2 ^ 24) (hk0 : 0 < k) (hsz : B * k < 2 ^ 24) (ks : List LayerKind) (labels : List (List Char)) (s : Shape)
    (hks : AllSized E.draws 0 s ks) (hfit : NetFits (drawnNet E.draws 0 s ks) s) (htr : NetTrains true (drawnNet E.draws 0 s ks) s)
    (hout : netOut (drawnNet E.draws 0 s ks) s = ⟨labels.length, 1, 1⟩ ∨ netOut (drawnNet E.draws 0 s ks) s = ⟨1, labels.length, 1⟩)
    (dss : List (List (List (Tensor × Nat)))) (hne : dss ≠ []) (hk : ∀ ds ∈ dss, ds.length = k)
    (hsm : SmoothAlong p.rate s labels.length dss.flatten (drawnNet E.draws 0 s ks))
    (epochs : List (List (List Nat) × List (Sample ℝ))) (he : List.Forall₂ (fun e ds => Serves labels s B e.2 ds) epochs dss) :
    ∃ M, buildModel E.num E.draws ks labels = .ok M ∧ (∃ o, train E p (B * k) epochs M = .ok o) ∧
      ∀ M', train E p (B * k) epochs M = .ok (some M') →
        M'.Denotes 0 s (descents p.rate s labels.length dss.flatten (drawnNet E.draws 0 s ks)) labels.length := by
  obtain ⟨M, e, hl, hD⟩ := buildModel_starts E.draws ks labels hks hout
  rw [← hE.num] at e
  rw [← hl] at he
  exact ⟨M, e, C67_fresh_partial E hE p B k hp hq h0 hB hk0 hsz M s _ _ hD hfit htr dss hne hk hsm epochs he⟩

/-- C69, any number of threads: some schedules complete the training with this result. -/
theorem C69_threads_partial (E : Env ℝ) (hE : E.Exact) (p : Hyper ℝ) (B T k : Nat) (hp : p.batch = B) (hq : p.threads = T)
    (h0 : 0 < B) (hB : B < 2 ^ 24) (hT0 : 0 < T) (hT : T < 2147483648) (hk0 : 0 < k) (hsz : B * k < 2 ^ 24) (ks : List LayerKind)
    (labels : List (List Char)) (s : Shape) (hks : AllSized E.draws 0 s ks) (hfit : NetFits (drawnNet E.draws 0 s ks) s)
    (htr : NetTrains true (drawnNet E.draws 0 s ks) s)
    (hout : netOut (drawnNet E.draws 0 s ks) s = ⟨labels.length, 1, 1⟩ ∨ netOut (drawnNet E.draws 0 s ks) s = ⟨1, labels.length, 1⟩)
    (dss : List (List (List (Tensor × Nat)))) (hne : dss ≠ []) (hk : ∀ ds ∈ dss, ds.length = k)
    (hsm : SmoothAlong p.rate s labels.length dss.flatten (drawnNet E.draws 0 s ks)) (hep : dss.length = p.epochs.toNat)
    (srcs : List (List (Sample ℝ))) (hsrc : List.Forall₂ (Serves labels s B) srcs dss) :
    ∃ M, buildModel E.num E.draws ks labels = .ok M ∧ ∃ epochs M', epochs.map Prod.snd = srcs ∧ train E p (B * k) epochs M = .ok (some M') ∧
      M'.Denotes 0 s (descents p.rate s labels.length dss.flatten (drawnNet E.draws 0 s ks)) labels.length := by
  obtain ⟨M, e, hl, hD⟩ := buildModel_starts E.draws ks labels hks hout
  rw [← hE.num] at e
  rw [← hl] at hsrc
  exact ⟨M, e, C67_fresh_threads_partial E hE p B T k hp hq h0 hB hT0 hT hk0 hsz M s _ _ hD hfit htr dss hne hk hsm hep srcs hsrc⟩

/-! ### An example: convolution, ReLU, max pooling, fully connected layer; the generator draws 1 each time -/

noncomputable def onesEnv : Env ℝ := ⟨Num.real, fun _ _ => 1, id, .dimsFirst⟩

def exampleKinds : List LayerKind := [.conv 2 2 1 1, .act .relu, .pool .max 2 2 2 2, .full 2]

theorem unitDraws_ones (n k : Nat) (d : Nat → ℝ) (h : ∀ r, d r = 1) : unitDraws n d k = 1 / √n := by
  unfold unitDraws
  simp [h]

theorem exampleKinds_smooth : NetSmooth (drawnNet onesEnv.draws 0 ⟨3, 3, 1⟩ exampleKinds) ⟨3, 3, 1⟩ (fun i j _ => i + 2 * j) := by
  have h4 : √((2 * 2 * (1 * 1) : Nat) : ℝ) = 2 := by
    rw [show ((2 * 2 * (1 * 1) : Nat) : ℝ) = 2 ^ 2 by norm_num]
    exact Real.sqrt_sq (by norm_num)
  have hw : ∀ a, unitDraws (2 * 2 * (1 * 1)) (onesEnv.draws 0) a = 1 / 2 := by
    intro a; rw [unitDraws_ones _ a (onesEnv.draws 0) (fun _ => rfl), h4]
  have hb : ∀ a, unitDraws 1 (fun r => onesEnv.draws 0 (2 * 2 * (1 * 1) + r)) a = 1 := by
    intro a; rw [unitDraws_ones _ a (fun r => onesEnv.draws 0 (2 * 2 * (1 * 1) + r)) (fun _ => rfl)]; norm_num
  refine ⟨trivial, Or.inr ⟨rfl, ?_⟩, ?_, trivial, trivial⟩
  · intro i hi j hj k hk
    simp only [LayerKind.drawn, NetLayer.eval, convLayer, Finset.sum_range_succ, Finset.sum_range_zero, hw, hb]
    push_cast
    positivity
  · intro i hi j hj k hk
    refine ⟨1, by decide, 1, by decide, ?_⟩
    intro a ha c hc hne
    have hi : i < 1 := hi
    have hj : j < 1 := hj
    obtain rfl : i = 0 := by omega
    obtain rfl : j = 0 := by omega
    simp only [LayerKind.drawn, NetLayer.eval, actSpec, convLayer, Finset.sum_range_succ, Finset.sum_range_zero, hw, hb]
    obtain rfl | rfl : a = 0 ∨ a = 1 := by omega
    · obtain rfl | rfl : c = 0 ∨ c = 1 := by omega
      · norm_num
      · norm_num
    · obtain rfl : c = 0 := by omega
      norm_num

/-- The model can be built, and trained with two threads on a batch of two samples. -/
example : ∃ M, buildModel onesEnv.num onesEnv.draws exampleKinds ["a".toList, "b".toList] = .ok M ∧
    ∃ epochs M', train onesEnv ⟨1, 2, 2, 1⟩ 2 epochs M = .ok (some M') ∧ M'.Denotes 0 ⟨3, 3, 1⟩
      (descend 1 (meanLoss ⟨3, 3, 1⟩ 2 exampleBatch) (drawnNet onesEnv.draws 0 ⟨3, 3, 1⟩ exampleKinds)) 2 := by
  have hs : SmoothAlong 1 ⟨3, 3, 1⟩ 2 [[exampleBatch]].flatten (drawnNet onesEnv.draws 0 ⟨3, 3, 1⟩ exampleKinds) := by
    refine ⟨?_, trivial⟩
    intro e he
    have : e.1 = fun (i j _ : Nat) => (i : ℝ) + 2 * (j : ℝ) := by
      simp only [exampleBatch, List.mem_cons, List.not_mem_nil, or_false] at he
      obtain rfl | rfl := he <;> rfl
    rw [this]
    exact exampleKinds_smooth
  obtain ⟨M, e, epochs, M', _, h1, h2⟩ := C69_threads_partial onesEnv ⟨rfl, rfl, rfl⟩ ⟨1, 2, 2, 1⟩ 2 2 1 rfl rfl (by omega) (by omega) (by omega)
    (by omega) (by omega) (by omega) exampleKinds ["a".toList, "b".toList] ⟨3, 3, 1⟩
    ⟨by simp [LayerKind.Sized], trivial, trivial, ⟨by decide, by decide, by decide⟩, trivial⟩
    ⟨⟨rfl, ⟨by decide, by decide, by decide⟩⟩, trivial, ⟨by decide, by decide, by decide, by decide, by decide, by decide, by decide, by decide⟩, trivial, trivial⟩
    ⟨Or.inl rfl, trivial, trivial, trivial, trivial⟩ (Or.inl rfl) [[exampleBatch]] (by simp) (by simp) hs rfl [exampleSource]
    (.cons exampleSource_serves .nil)
  exact ⟨M, e, epochs, M', h1, h2⟩

/-- And the first theorem with one thread: no run of this training fails. -/
example (sched : List (List Nat)) : ∃ M, buildModel onesEnv.num onesEnv.draws exampleKinds ["a".toList, "b".toList] = .ok M ∧
    ∃ o, train onesEnv ⟨1, 2, 1, 1⟩ 2 [(sched, exampleSource)] M = .ok o := by
  have hs : SmoothAlong 1 ⟨3, 3, 1⟩ 2 [[exampleBatch]].flatten (drawnNet onesEnv.draws 0 ⟨3, 3, 1⟩ exampleKinds) := by
    refine ⟨?_, trivial⟩
    intro e he
    have : e.1 = fun (i j _ : Nat) => (i : ℝ) + 2 * (j : ℝ) := by
      simp only [exampleBatch, List.mem_cons, List.not_mem_nil, or_false] at he
      obtain rfl | rfl := he <;> rfl
    rw [this]
    exact exampleKinds_smooth
  obtain ⟨M, e, h, _⟩ := C69_build_train_partial onesEnv ⟨rfl, rfl, rfl⟩ ⟨1, 2, 1, 1⟩ 2 1 rfl rfl (by omega) (by omega) (by omega)
    (by omega) exampleKinds ["a".toList, "b".toList] ⟨3, 3, 1⟩
    ⟨by simp [LayerKind.Sized], trivial, trivial, ⟨by decide, by decide, by decide⟩, trivial⟩
    ⟨⟨rfl, ⟨by decide, by decide, by decide⟩⟩, trivial, ⟨by decide, by decide, by decide, by decide, by decide, by decide, by decide, by decide⟩, trivial, trivial⟩
    ⟨Or.inl rfl, trivial, trivial, trivial, trivial⟩ (Or.inl rfl) [[exampleBatch]] (by simp) (by simp) hs [(sched, exampleSource)]
    (.cons exampleSource_serves .nil)
  exact ⟨M, e, h⟩

end Train
end Cnn
