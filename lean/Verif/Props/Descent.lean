import Verif.Lemmas.NetDescent
import Verif.Props.Gradient
/-!
# Properties C67, C68: training is gradient descent
-/
namespace Cnn
namespace Train
open Model

/-! ## One batch -/

/-- One full batch whose gradients all used the right label is one step of gradient descent on the mean loss of its samples:
the model computes a network before, and afterwards it computes the network in which each weight and each bias has decreased
by the rate times the partial derivative of the mean loss. -/
theorem C67_batch_partial (E : Env ℝ) (hE : E.Exact) (p : Hyper ℝ) (B T : Nat) (hp : p.batch = B) (hq : p.threads = T)
    (hB : B < 2 ^ 24) (sh : Shared ℝ) (hM : sh.model.Prepared B) (s : Shape) (ls : List NetLayer) (n : Nat)
    (hD : sh.model.Denotes 0 s ls n) (hfit : NetFits ls s) (htr : NetTrains true ls s) (d : List (Tensor × Nat)) (hl : d.length = B)
    (hd : List.Forall₂ (Sample.Is sh.model.labels s) (sh.source.take B) d) (hsm : ∀ e ∈ d, NetSmooth ls s e.1)
    (sched : List Nat) (q : Shared ℝ × List (Event ℝ)) (h : runBatch E p sched sh = .ok (some q)) (hown : OwnLabels sh.model q.2) :
    q.1.model.Denotes 0 s (descend p.rate (meanLoss s n d) ls) n ∧ HasPartials s (meanLoss s n d) ls := by
  obtain ⟨k1, k2, _⟩ := Trainee.step_own (labels := sh.model.labels) hE hp hq hB ⟨hM, hD, hfit, htr, rfl⟩ hl hd hsm h hown
  exact ⟨k1.denotes, k2⟩

/-- One full batch under any schedule: a step of gradient descent on the mean loss of the same inputs, each with the label of
some sample of the batch. -/
theorem C68_batch_partial (E : Env ℝ) (hE : E.Exact) (p : Hyper ℝ) (B T : Nat) (hp : p.batch = B) (hq : p.threads = T)
    (hB : B < 2 ^ 24) (sh : Shared ℝ) (hM : sh.model.Prepared B) (s : Shape) (ls : List NetLayer) (n : Nat)
    (hD : sh.model.Denotes 0 s ls n) (hfit : NetFits ls s) (htr : NetTrains true ls s) (d : List (Tensor × Nat)) (hl : d.length = B)
    (hd : List.Forall₂ (Sample.Is sh.model.labels s) (sh.source.take B) d) (hsm : ∀ e ∈ d, NetSmooth ls s e.1)
    (sched : List Nat) (q : Shared ℝ × List (Event ℝ)) (h : runBatch E p sched sh = .ok (some q)) :
    ∃ d', Relabels d d' ∧ q.1.model.Denotes 0 s (descend p.rate (meanLoss s n d') ls) n ∧ HasPartials s (meanLoss s n d') ls := by
  obtain ⟨d', k0, k1, k2, _⟩ := Trainee.step_any (labels := sh.model.labels) hE hp hq hB ⟨hM, hD, hfit, htr, rfl⟩ hl hd hsm h
  exact ⟨d', k0, k1.denotes, k2⟩

/-! ## `train` -/

/-- C67: `train` with one thread is mini-batch gradient descent. The model computes a network `ls`; every epoch the source
serves `k` full batches (`dss`, epoch by epoch, in the order in which it serves them). Then no run fails, and when training
is over the model computes the network that gradient descent on the mean losses of the batches, one after the other, makes
of `ls`. Partial: exact arithmetic, fully connected layers already sized, all batches full, and the networks on the way are
differentiable, layer by layer, at the samples. -/
theorem C67_train_partial (E : Env ℝ) (hE : E.Exact) (p : Hyper ℝ) (B k : Nat) (hp : p.batch = B) (hq : p.threads = 1)
    (h0 : 0 < B) (hB : B < 2 ^ 24) (hsz : B * k < 2 ^ 24) (M : Model ℝ) (b : Nat) (s : Shape) (ls : List NetLayer) (n : Nat)
    (hD : M.Denotes b s ls n) (hfit : NetFits ls s) (htr : NetTrains true ls s) (dss : List (List (List (Tensor × Nat))))
    (hk : ∀ ds ∈ dss, ds.length = k) (hsm : SmoothAlong p.rate s n dss.flatten ls)
    (epochs : List (List (List Nat) × List (Sample ℝ))) (he : List.Forall₂ (fun e ds => Serves M.labels s B e.2 ds) epochs dss) :
    (∃ o, train E p (B * k) epochs M = .ok o) ∧
    ∀ M', train E p (B * k) epochs M = .ok (some M') → M'.Denotes 0 s (descents p.rate s n dss.flatten ls) n := by
  have hS : Steps E p M.labels s n B Eq := Steps.one hE hp hq hB
  have hT : Trainee M.labels s n B (M.setBatchSize B) ls := ⟨hD.prepared hfit B, hD.setBatchSize h0, hfit, htr, rfl⟩
  have hsm' : Smooth Eq p.rate s n dss.flatten ls := by
    intro ds' hds
    rw [List.forall₂_eq_eq_eq] at hds
    rw [← hds]; exact hsm
  have hu : u64 p.batch = B := by
    rw [hp]; unfold u64; omega
  obtain ⟨i1, i2⟩ := (hS.epochs (T := 1) hp hq hB h0 (by omega) hsz dss hk hT hsm').1 epochs he
  rw [train_eq (p := p) (by omega), hu]
  by_cases hl : epochs.length = p.epochs.toNat
  · rw [if_pos hl]
    refine ⟨i1, ?_⟩
    intro M' h
    obtain ⟨ds', j1, j2⟩ := i2 M' h
    rw [List.forall₂_eq_eq_eq] at j1
    rw [j1]; exact j2.denotes
  · rw [if_neg hl]
    exact ⟨⟨_, rfl⟩, fun M' h => absurd (Res.ok.inj h) (by simp)⟩

/-- C67, there are such runs: for every such sequence of sources, one for each epoch, some schedules complete the training. -/
theorem C67_completes_partial (E : Env ℝ) (hE : E.Exact) (p : Hyper ℝ) (B k : Nat) (hp : p.batch = B) (hq : p.threads = 1)
    (h0 : 0 < B) (hB : B < 2 ^ 24) (hsz : B * k < 2 ^ 24) (M : Model ℝ) (b : Nat) (s : Shape) (ls : List NetLayer) (n : Nat)
    (hD : M.Denotes b s ls n) (hfit : NetFits ls s) (htr : NetTrains true ls s) (dss : List (List (List (Tensor × Nat))))
    (hk : ∀ ds ∈ dss, ds.length = k) (hsm : SmoothAlong p.rate s n dss.flatten ls) (hep : dss.length = p.epochs.toNat)
    (srcs : List (List (Sample ℝ))) (hsrc : List.Forall₂ (Serves M.labels s B) srcs dss) :
    ∃ epochs M', epochs.map Prod.snd = srcs ∧ train E p (B * k) epochs M = .ok (some M') := by
  have hS : Steps E p M.labels s n B Eq := Steps.one hE hp hq hB
  have hT : Trainee M.labels s n B (M.setBatchSize B) ls := ⟨hD.prepared hfit B, hD.setBatchSize h0, hfit, htr, rfl⟩
  have hsm' : Smooth Eq p.rate s n dss.flatten ls := by
    intro ds' hds
    rw [List.forall₂_eq_eq_eq] at hds
    rw [← hds]; exact hsm
  have hu : u64 p.batch = B := by
    rw [hp]; unfold u64; omega
  obtain ⟨epochs, M', h1, h2⟩ := (hS.epochs (T := 1) hp hq hB h0 (by omega) hsz dss hk hT hsm').2 srcs hsrc
  refine ⟨epochs, M', h1, ?_⟩
  rw [train_eq (p := p) (by omega), if_pos, hu]
  · exact h2
  · rw [← hep, ← hsrc.length_eq, ← h1, List.length_map]

/-- C67 for several threads: for every number of threads there are schedules under which `train` is the gradient descent of
`C67_train_partial`. (It is not for all schedules, as `C52_violated` shows; see C68.) -/
theorem C67_threads_partial (E : Env ℝ) (hE : E.Exact) (p : Hyper ℝ) (B T k : Nat) (hp : p.batch = B) (hq : p.threads = T)
    (h0 : 0 < B) (hB : B < 2 ^ 24) (hT0 : 0 < T) (hT : T < 2147483648) (hsz : B * k < 2 ^ 24) (M : Model ℝ) (b : Nat) (s : Shape)
    (ls : List NetLayer) (n : Nat) (hD : M.Denotes b s ls n) (hfit : NetFits ls s) (htr : NetTrains true ls s)
    (dss : List (List (List (Tensor × Nat)))) (hk : ∀ ds ∈ dss, ds.length = k) (hsm : SmoothAlong p.rate s n dss.flatten ls)
    (hep : dss.length = p.epochs.toNat) (srcs : List (List (Sample ℝ))) (hsrc : List.Forall₂ (Serves M.labels s B) srcs dss) :
    ∃ epochs M', epochs.map Prod.snd = srcs ∧ train E p (B * k) epochs M = .ok (some M') ∧
      M'.Denotes 0 s (descents p.rate s n dss.flatten ls) n := by
  have hM : Trainee M.labels s n B (M.setBatchSize B) ls := ⟨hD.prepared hfit B, hD.setBatchSize h0, hfit, htr, rfl⟩
  have hu : u64 p.batch = B := by
    rw [hp]; unfold u64; omega
  obtain ⟨epochs, M', h1, h2, h3⟩ := epochs_own hE hp hq hB h0 hT0 hT hsz dss hk hM hsm srcs hsrc
  refine ⟨epochs, M', h1, ?_, h3.denotes⟩
  rw [train_eq (p := p) (by omega), if_pos, hu]
  · exact h2
  · rw [← hep, ← hsrc.length_eq, ← h1, List.length_map]

/-- C68: `train` with any number of threads under any schedules: the same, with inputs of each batch paired with labels of
the same batch (`C52`: a thread can use the label another thread has stored). -/
theorem C68_train_partial (E : Env ℝ) (hE : E.Exact) (p : Hyper ℝ) (B T k : Nat) (hp : p.batch = B) (hq : p.threads = T)
    (h0 : 0 < B) (hB : B < 2 ^ 24) (hT0 : 0 < T) (hT : T < 2147483648) (hsz : B * k < 2 ^ 24) (M : Model ℝ) (b : Nat) (s : Shape)
    (ls : List NetLayer) (n : Nat) (hD : M.Denotes b s ls n) (hfit : NetFits ls s) (htr : NetTrains true ls s)
    (dss : List (List (List (Tensor × Nat)))) (hk : ∀ ds ∈ dss, ds.length = k)
    (hsm : ∀ ds', List.Forall₂ Relabels dss.flatten ds' → SmoothAlong p.rate s n ds' ls)
    (epochs : List (List (List Nat) × List (Sample ℝ))) (he : List.Forall₂ (fun e ds => Serves M.labels s B e.2 ds) epochs dss) :
    (∃ o, train E p (B * k) epochs M = .ok o) ∧
    ∀ M', train E p (B * k) epochs M = .ok (some M') →
      ∃ ds', List.Forall₂ Relabels dss.flatten ds' ∧ M'.Denotes 0 s (descents p.rate s n ds' ls) n := by
  have hS : Steps E p M.labels s n B Relabels := Steps.many hE hp hq hB hT0 hT
  have hT : Trainee M.labels s n B (M.setBatchSize B) ls := ⟨hD.prepared hfit B, hD.setBatchSize h0, hfit, htr, rfl⟩
  have hu : u64 p.batch = B := by
    rw [hp]; unfold u64; omega
  obtain ⟨i1, i2⟩ := (hS.epochs hp hq hB h0 hT0 hsz dss hk hT hsm).1 epochs he
  rw [train_eq (p := p) (by omega), hu]
  by_cases hl : epochs.length = p.epochs.toNat
  · rw [if_pos hl]
    refine ⟨i1, ?_⟩
    intro M' h
    obtain ⟨ds', j1, j2⟩ := i2 M' h
    exact ⟨ds', j1, j2.denotes⟩
  · rw [if_neg hl]
    exact ⟨⟨_, rfl⟩, fun M' h => absurd (Res.ok.inj h) (by simp)⟩

/-- C68, there are such runs. -/
theorem C68_completes_partial (E : Env ℝ) (hE : E.Exact) (p : Hyper ℝ) (B T k : Nat) (hp : p.batch = B) (hq : p.threads = T)
    (h0 : 0 < B) (hB : B < 2 ^ 24) (hT0 : 0 < T) (hT : T < 2147483648) (hsz : B * k < 2 ^ 24) (M : Model ℝ) (b : Nat) (s : Shape)
    (ls : List NetLayer) (n : Nat) (hD : M.Denotes b s ls n) (hfit : NetFits ls s) (htr : NetTrains true ls s)
    (dss : List (List (List (Tensor × Nat)))) (hk : ∀ ds ∈ dss, ds.length = k)
    (hsm : ∀ ds', List.Forall₂ Relabels dss.flatten ds' → SmoothAlong p.rate s n ds' ls) (hep : dss.length = p.epochs.toNat)
    (srcs : List (List (Sample ℝ))) (hsrc : List.Forall₂ (Serves M.labels s B) srcs dss) :
    ∃ epochs M', epochs.map Prod.snd = srcs ∧ train E p (B * k) epochs M = .ok (some M') := by
  have hS : Steps E p M.labels s n B Relabels := Steps.many hE hp hq hB hT0 hT
  have hT : Trainee M.labels s n B (M.setBatchSize B) ls := ⟨hD.prepared hfit B, hD.setBatchSize h0, hfit, htr, rfl⟩
  have hu : u64 p.batch = B := by
    rw [hp]; unfold u64; omega
  obtain ⟨epochs, M', h1, h2⟩ := (hS.epochs hp hq hB h0 hT0 hsz dss hk hT hsm).2 srcs hsrc
  refine ⟨epochs, M', h1, ?_⟩
  rw [train_eq (p := p) (by omega), if_pos, hu]
  · exact h2
  · rw [← hep, ← hsrc.length_eq, ← h1, List.length_map]

/-! ### The example network, trained for one epoch with one batch of two samples -/

noncomputable def exampleSource : List (Sample ℝ) := [⟨exampleNetInput, "a".toList⟩, ⟨exampleNetInput, "b".toList⟩]

noncomputable def exampleBatch : List (Tensor × Nat) := [(fun i j _ => i + 2 * j, 0), (fun i j _ => i + 2 * j, 1)]

theorem exampleSource_serves : Serves exampleNetModel.labels ⟨3, 3, 1⟩ 2 exampleSource [exampleBatch] := by
  refine ⟨rfl, ?_, rfl⟩
  refine .cons ⟨exampleNetInput_shows, rfl, by simp⟩ (.cons ⟨exampleNetInput_shows, rfl, ?_⟩ .nil)
  intro t ht
  obtain rfl : t = 0 := by
    have : t < 1 := ht
    omega
  simp [exampleNetModel]

theorem exampleBatch_smooth (rate : ℝ) (ds' : List (List (Tensor × Nat))) (h : List.Forall₂ Relabels [exampleBatch] ds') :
    SmoothAlong rate ⟨3, 3, 1⟩ 2 ds' exampleNet := by
  cases h with
  | @cons _ d _ ds h1 h2 =>
    cases h2
    refine ⟨?_, trivial⟩
    intro e he
    have : e.1 ∈ d.map Prod.fst := List.mem_map.2 ⟨e, he, rfl⟩
    rw [h1.1] at this
    have : e.1 = fun (i j _ : Nat) => (i : ℝ) + 2 * (j : ℝ) := by simpa [exampleBatch] using this
    rw [this]
    exact exampleNet_smooth

/-- With one thread: the training completes and ends with the network after one step of gradient descent. -/
example : ∃ epochs M', train exactEnv ⟨1, 2, 1, 1⟩ 2 epochs exampleNetModel = .ok (some M') ∧
    M'.Denotes 0 ⟨3, 3, 1⟩ (descend 1 (meanLoss ⟨3, 3, 1⟩ 2 exampleBatch) exampleNet) 2 := by
  have hsm : SmoothAlong 1 ⟨3, 3, 1⟩ 2 [[exampleBatch]].flatten exampleNet :=
    exampleBatch_smooth 1 _ (.cons (Relabels.refl _) .nil)
  obtain ⟨epochs, M', h1, h2⟩ := C67_completes_partial exactEnv ⟨rfl, rfl, rfl⟩ ⟨1, 2, 1, 1⟩ 2 1 rfl rfl (by omega) (by omega) (by omega)
    exampleNetModel 0 ⟨3, 3, 1⟩ exampleNet 2 exampleNetModel_denotes exampleNet_fits exampleNet_trains [[exampleBatch]] (by simp) hsm rfl
    [exampleSource] (.cons exampleSource_serves .nil)
  refine ⟨epochs, M', h2, ?_⟩
  obtain ⟨e, rfl⟩ : ∃ e, epochs = [e] := List.length_eq_one_iff.1 (by rw [← List.length_map (f := Prod.snd), h1]; rfl)
  refine (C67_train_partial exactEnv ⟨rfl, rfl, rfl⟩ ⟨1, 2, 1, 1⟩ 2 1 rfl rfl (by omega) (by omega) (by omega)
    exampleNetModel 0 ⟨3, 3, 1⟩ exampleNet 2 exampleNetModel_denotes exampleNet_fits exampleNet_trains [[exampleBatch]] (by simp) hsm [e]
    (.cons ?_ .nil)).2 M' h2
  have : e.2 = exampleSource := by simpa using h1
  rw [this]; exact exampleSource_serves

/-- With two threads there are schedules with the same result. -/
example : ∃ epochs M', train exactEnv ⟨1, 2, 2, 1⟩ 2 epochs exampleNetModel = .ok (some M') ∧
    M'.Denotes 0 ⟨3, 3, 1⟩ (descend 1 (meanLoss ⟨3, 3, 1⟩ 2 exampleBatch) exampleNet) 2 := by
  obtain ⟨epochs, M', h1, h2, h3⟩ := C67_threads_partial exactEnv ⟨rfl, rfl, rfl⟩ ⟨1, 2, 2, 1⟩ 2 2 1 rfl rfl (by omega) (by omega) (by omega) (by omega)
    (by omega) exampleNetModel 0 ⟨3, 3, 1⟩ exampleNet 2 exampleNetModel_denotes exampleNet_fits exampleNet_trains [[exampleBatch]] (by simp)
    (exampleBatch_smooth 1 _ (.cons (Relabels.refl _) .nil)) rfl [exampleSource] (.cons exampleSource_serves .nil)
  exact ⟨epochs, M', h2, h3⟩

/-- The hypotheses of C53 can be met with two threads: a full batch of two samples is completed with the right labels, and
the parameters of the convolution change as `C53_update_partial` says. -/
example : ∃ (sched : List Nat) (q : Shared ℝ × List (Event ℝ)) (W' B' : Matrix ℝ),
    runBatch exactEnv ⟨1, 2, 2, 1⟩ sched ⟨exampleNetModel.setBatchSize 2, exampleSource, 0⟩ = .ok (some q) ∧
    OwnLabels (exampleNetModel.setBatchSize 2) q.2 ∧ q.1.model.params 0 = some (W', B') ∧ W'.dim = dimN 2 2 1 := by
  have hT : Trainee exampleNetModel.labels ⟨3, 3, 1⟩ 2 2 (exampleNetModel.setBatchSize 2) exampleNet :=
    ⟨exampleNetModel_denotes.prepared exampleNet_fits 2, exampleNetModel_denotes.setBatchSize (by omega), exampleNet_fits, exampleNet_trains, rfl⟩
  obtain ⟨sched, q, h1, h2⟩ := hT.own (E := exactEnv) (p := ⟨1, 2, 2, 1⟩) (T := 2) (sh := ⟨exampleNetModel.setBatchSize 2, exampleSource, 0⟩) ⟨rfl, rfl, rfl⟩
    rfl rfl (show 2 < 2 ^ 24 by norm_num) (by omega) (by omega) rfl exampleSource_serves.2.1
  obtain ⟨W, Bi, e1, e2, e3⟩ := hT.denotes.params (i := 0) rfl rfl
  obtain ⟨g, c, _, W', B', k1, k2, _⟩ := C53_update_partial exactEnv ⟨1, 2, 2, 1⟩ 2 2 rfl rfl (by omega)
    ⟨exampleNetModel.setBatchSize 2, exampleSource, 0⟩ hT.prepared (by simp [exampleSource]) sched q h1 h2 0 W Bi _ _ _ _ _ _ e1 e2 e3
  exact ⟨sched, q, W', B', h1, h2, k1, k2.dim⟩

/-- With two threads every schedule of the training does what C68 says; some complete it. -/
example : ∃ epochs M', train exactEnv ⟨1, 2, 2, 1⟩ 2 epochs exampleNetModel = .ok (some M') := by
  obtain ⟨epochs, M', h1, h2⟩ := C68_completes_partial exactEnv ⟨rfl, rfl, rfl⟩ ⟨1, 2, 2, 1⟩ 2 2 1 rfl rfl (by omega) (by omega) (by omega) (by omega)
    (by omega) exampleNetModel 0 ⟨3, 3, 1⟩ exampleNet 2 exampleNetModel_denotes exampleNet_fits exampleNet_trains [[exampleBatch]] (by simp)
    (exampleBatch_smooth 1) rfl [exampleSource] (.cons exampleSource_serves .nil)
  exact ⟨epochs, M', h2⟩

end Train
end Cnn
