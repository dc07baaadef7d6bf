import Verif.Lemmas.Rising
import Verif.Props.Surrogate
/-!
# C91: a small enough step of training lowers the mean loss of the batch
-/
namespace Cnn
namespace Train

/-- The loss is one of the model, not of the network chosen to describe it: all networks that a model computes have the same mean loss. -/
theorem C91_unique (E : Env ℝ) (hE : E.Exact) (M : Model ℝ) (b b' : Nat) (s : Shape) (ls ls' : List NetLayer) (n : Nat) (h : M.Denotes b s ls n)
    (h' : M.Denotes b' s ls' n) (hf : NetFits ls s) (hf' : NetFits ls' s) (d : List (Tensor × Nat))
    (hd : ∀ e ∈ d, e.2 < n ∧ ∃ X : Matrix ℝ, X.Shows s.X s.Y s.Z e.1) : meanLoss s n d ls = meanLoss s n d ls' :=
  meanLoss_unique hE h h' hf hf' hd

/-- C91 for one batch, any number of threads and any schedule in which the threads use their own labels. Partial: exact
arithmetic, and the network is differentiable, layer by layer, at the samples (which excludes SIGMOID, see `C91_violated`). -/
theorem C91_batch_partial (E : Env ℝ) (hE : E.Exact) (B T : Nat) (hB : B < 2 ^ 24) (sh : Shared ℝ) (hM : sh.model.Prepared B) (s : Shape)
    (ls : List NetLayer) (n : Nat) (hD : sh.model.Denotes 0 s ls n) (hfit : NetFits ls s) (htr : NetTrains true ls s)
    (d : List (Tensor × Nat)) (hl : d.length = B) (hd : List.Forall₂ (Sample.Is sh.model.labels s) (sh.source.take B) d)
    (hsm : ∀ e ∈ d, NetSmooth ls s e.1) (hns : ¬ Stationary s (meanLoss s n d) ls) :
    ∃ ρ > 0, ∀ p : Hyper ℝ, p.batch = B → p.threads = T → 0 < p.rate → p.rate < ρ →
      ∀ sched q, runBatch E p sched sh = .ok (some q) → OwnLabels sh.model q.2 →
        ∃ ls', q.1.model.Denotes 0 s ls' n ∧ NetFits ls' s ∧ meanLoss s n d ls' < meanLoss s n d ls := by
  obtain ⟨ρ, h1, h2⟩ := lowers hE hD hfit htr hd hsm hns
  exact ⟨ρ, h1, fun p hp hq r1 r2 sched q h ho => ⟨_, (C67_batch_partial E hE p B T hp hq hB sh hM s ls n hD hfit htr d hl hd hsm sched q h ho).1, (descend_same _ _ _).fits hfit, h2 _ r1 r2⟩⟩

/-- C91 for `train` with one thread and one epoch over a source that consists of one batch, under every schedule. -/
theorem C91_train_partial (E : Env ℝ) (hE : E.Exact) (B : Nat) (h0 : 0 < B) (hB : B < 2 ^ 24) (M : Model ℝ) (b : Nat) (s : Shape)
    (ls : List NetLayer) (n : Nat) (hD : M.Denotes b s ls n) (hfit : NetFits ls s) (htr : NetTrains true ls s)
    (d : List (Tensor × Nat)) (source : List (Sample ℝ)) (hsrc : Serves M.labels s B source [d])
    (hsm : ∀ e ∈ d, NetSmooth ls s e.1) (hns : ¬ Stationary s (meanLoss s n d) ls) :
    ∃ ρ > 0, ∀ p : Hyper ℝ, p.batch = B → p.threads = 1 → p.epochs = 1 → 0 < p.rate → p.rate < ρ →
      (∃ sched M', train E p B [(sched, source)] M = .ok (some M')) ∧
      ∀ sched, (∃ o, train E p B [(sched, source)] M = .ok o) ∧
        ∀ M', train E p B [(sched, source)] M = .ok (some M') →
          ∃ ls', M'.Denotes 0 s ls' n ∧ NetFits ls' s ∧ meanLoss s n d ls' < meanLoss s n d ls := by
  obtain ⟨ρ, h1, h2⟩ := lowers hE hD hfit htr hsrc.2.1 hsm hns
  refine ⟨ρ, h1, fun p hp hq he r1 r2 => ⟨?_, fun sched => ?_⟩⟩
  · obtain ⟨epochs, M', k1, k2⟩ := C67_completes_partial E hE p B 1 hp hq h0 hB (by omega) M b s ls n hD hfit htr [[d]] (by simp) ⟨hsm, trivial⟩
      (by rw [he]; rfl) [source] (.cons hsrc .nil)
    obtain ⟨e, rfl⟩ : ∃ e, epochs = [e] := List.length_eq_one_iff.1 (by rw [← List.length_map (f := Prod.snd), k1]; rfl)
    obtain ⟨sched, src⟩ := e
    obtain rfl : src = source := by simpa using k1
    rw [Nat.mul_one] at k2
    exact ⟨sched, M', k2⟩
  · obtain ⟨k1, k2⟩ := C67_train_partial E hE p B 1 hp hq h0 hB (by omega) M b s ls n hD hfit htr [[d]] (by simp) ⟨hsm, trivial⟩
      [(sched, source)] (.cons hsrc .nil)
    rw [Nat.mul_one] at k1 k2
    exact ⟨k1, fun M' h => ⟨_, k2 M' h, (descend_same _ _ _).fits hfit, h2 _ r1 r2⟩⟩

/-- C91, when there is something to learn: if the last layer before the softmax is fully connected and some label does not occur in the batch,
the gradient is not 0. -/
theorem C91_missing (init : List NetLayer) (n : Nat) (w : Tensor) (β : Nat → ℝ) (s : Shape) (d : List (Tensor × Nat)) (hd : d ≠ [])
    (ht : ∀ e ∈ d, e.2 < n) (k : Nat) (hk : k < n) (hmiss : ∀ e ∈ d, e.2 ≠ k) : ¬ Stationary s (meanLoss s n d) (init ++ [.full n w β]) :=
  not_stationary hd ht hk hmiss

/-- The example network and one sample. -/
example : ∃ ρ > 0, ∀ rate : ℝ, 0 < rate → rate < ρ →
    ∃ sched M' ls', train exactEnv ⟨rate, 1, 1, 1⟩ 1 [(sched, [⟨exampleNetInput, "a".toList⟩])] exampleNetModel = .ok (some M') ∧
      M'.Denotes 0 ⟨3, 3, 1⟩ ls' 2 ∧ NetFits ls' ⟨3, 3, 1⟩ ∧
      meanLoss ⟨3, 3, 1⟩ 2 [(fun i j _ => i + 2 * j, 0)] ls' < meanLoss ⟨3, 3, 1⟩ 2 [(fun i j _ => i + 2 * j, 0)] exampleNet := by
  obtain ⟨ρ, h1, h2⟩ := C91_train_partial exactEnv ⟨rfl, rfl, rfl⟩ 1 (by omega) (by omega) exampleNetModel 0 ⟨3, 3, 1⟩ exampleNet 2
    exampleNetModel_denotes exampleNet_fits exampleNet_trains [(fun i j _ => i + 2 * j, 0)] [⟨exampleNetInput, "a".toList⟩]
    ⟨rfl, .cons ⟨exampleNetInput_shows, rfl, by simp⟩ .nil, rfl⟩ (by simpa using exampleNet_smooth)
    (C91_missing [.conv 2 2 1 1 (fun _ _ _ => 1) (fun _ => 1), .act .relu, .pool .max 2 2 2 2] 2 _ _ _ _ (by simp) (by simp) 1 (by omega) (by simp))
  refine ⟨ρ, h1, fun rate r1 r2 => ?_⟩
  obtain ⟨⟨sched, M', k1⟩, k2⟩ := h2 ⟨rate, 1, 1, 1⟩ rfl rfl rfl r1 r2
  obtain ⟨ls', k3⟩ := (k2 sched).2 M' k1
  exact ⟨sched, M', ls', k1, k3⟩

/-! ### What fails -/

/-- C91, the full claim: for every network that is differentiable at the samples of the batch and whose mean loss has a derivative other than 0,
steps that are small enough lower the mean loss. -/
def C91_claim : Prop :=
  ∀ (E : Env ℝ) (B : Nat) (M : Model ℝ) (b : Nat) (s : Shape) (ls : List NetLayer) (n : Nat) (d : List (Tensor × Nat)) (source : List (Sample ℝ)),
    E.Exact → 0 < B → B < 2 ^ 24 → M.Denotes b s ls n → NetFits ls s → NetTrains true ls s → Serves M.labels s B source [d] →
    (∀ e ∈ d, NetDifferentiable ls s e.1) → ¬ Stationary s (meanLoss s n d) ls →
    ∃ ρ > 0, ∀ p : Hyper ℝ, p.batch = B → p.threads = 1 → p.epochs = 1 → 0 < p.rate → p.rate < ρ →
      ∀ sched M', train E p B [(sched, source)] M = .ok (some M') →
        ∃ ls', M'.Denotes 0 s ls' n ∧ NetFits ls' s ∧ meanLoss s n d ls' < meanLoss s n d ls

noncomputable def risingBodies : List (Body ℝ) :=
  [.connected { weights := ⟨dimN 1 1 1, [1 / 64]⟩, biases := ⟨dimN 1 1 1, [-1]⟩, inputDim := dimN 1 1 1, initialized := true,
                wGrads := [Matrix.empty], bGrads := [Matrix.empty] },
    .activation (Activation.new .sigmoid),
    .connected { weights := ⟨dimN 2 1 1, [1, 0]⟩, biases := ⟨dimN 2 1 1, [0, 0]⟩, inputDim := dimN 1 1 1, initialized := true,
                 wGrads := [Matrix.empty], bGrads := [Matrix.empty] }]

/-- One input, a fully connected layer with one output, SIGMOID, a fully connected layer with two outputs, softmax. -/
noncomputable def risingModel : Model ℝ :=
  { (Model.new : Model ℝ) with
    labels := ["a".toList, "b".toList]
    layers := (risingBodies ++ [Body.softmax (Softmax.new 2)]).map (fun b => ⟨[], b⟩) }

theorem risingModel_denotes : risingModel.Denotes 0 ⟨1, 1, 1⟩ risingNet 2 := by
  refine ⟨⟨risingBodies, Softmax.new 2, rfl, ⟨⟨⟨?_, ?_, rfl⟩, by simp, by simp, Or.inl rfl⟩, rfl,
    ⟨⟨?_, ?_, rfl⟩, by simp, by simp, Or.inr rfl⟩, trivial⟩, rfl⟩, rfl, Or.inl rfl⟩
  · refine Matrix.Shows.of_vals ⟨by decide, by decide, by decide, by decide⟩ rfl ?_
    simp [List.range_succ]
  · refine Matrix.Shows.of_vals ⟨by decide, by decide, by decide, by decide⟩ rfl ?_
    simp [List.range_succ]
  · refine Matrix.Shows.of_vals ⟨by decide, by decide, by decide, by decide⟩ rfl ?_
    simp [List.range_succ, NetLayer.out]
  · refine Matrix.Shows.of_vals ⟨by decide, by decide, by decide, by decide⟩ rfl ?_
    simp [List.range_succ]

theorem risingNet_fits : NetFits risingNet ⟨1, 1, 1⟩ := ⟨trivial, trivial, trivial, trivial⟩

theorem risingNet_trains : NetTrains true risingNet ⟨1, 1, 1⟩ := ⟨trivial, trivial, trivial, trivial⟩

theorem risingNet_differentiable (x : Tensor) : NetDifferentiable risingNet ⟨1, 1, 1⟩ x :=
  ⟨trivial, fun _ _ _ _ _ _ => (Real.hasDerivAt_sigmoid _).differentiableAt, trivial, trivial⟩

/-- Two samples. -/
def risingSource : List (Sample ℝ) := [⟨⟨dimN 1 1 1, [64]⟩, "b".toList⟩, ⟨⟨dimN 1 1 1, [512]⟩, "a".toList⟩]

theorem risingSource_is : List.Forall₂ (Sample.Is risingModel.labels ⟨1, 1, 1⟩) risingSource risingData := by
  refine .cons ⟨?_, rfl, ?_⟩ (.cons ⟨?_, rfl, by simp⟩ .nil)
  · refine Matrix.Shows.of_vals ⟨by decide, by decide, by decide, by decide⟩ rfl ?_
    simp [List.range_succ]
  · intro t ht
    obtain rfl : t = 0 := by
      have : t < 1 := ht
      omega
    simp [risingModel]
  · refine Matrix.Shows.of_vals ⟨by decide, by decide, by decide, by decide⟩ rfl ?_
    simp [List.range_succ]

/-- C91 fails with SIGMOID, whose derivative the program takes at the wrong place (C24): for this model and this batch every step that is small
enough *raises* the mean loss, although the gradient is not 0. -/
theorem C91_rises : ¬ Stationary ⟨1, 1, 1⟩ (meanLoss ⟨1, 1, 1⟩ 2 risingData) risingNet ∧
    ∃ ρ > 0, ∀ p : Hyper ℝ, p.batch = 2 → p.threads = 1 → p.epochs = 1 → 0 < p.rate → p.rate < ρ →
      (∃ sched M', train exactEnv p 2 [(sched, risingSource)] risingModel = .ok (some M')) ∧
      ∀ sched M', train exactEnv p 2 [(sched, risingSource)] risingModel = .ok (some M') →
        ∀ ls', M'.Denotes 0 ⟨1, 1, 1⟩ ls' 2 → NetFits ls' ⟨1, 1, 1⟩ →
          meanLoss ⟨1, 1, 1⟩ 2 risingData risingNet < meanLoss ⟨1, 1, 1⟩ 2 risingData ls' := by
  refine ⟨rising_moves, ?_⟩
  obtain ⟨ρ, h1, h2⟩ := risen_rises
  refine ⟨ρ, h1, fun p hp hq he r1 r2 => ?_⟩
  obtain ⟨k1, k2⟩ := C83_train_partial exactEnv ⟨rfl, rfl, rfl⟩ p 2 2 hp hq (by omega) (by omega) (by omega) risingModel 0 ⟨1, 1, 1⟩ _ 2
    risingModel_denotes risingNet_fits risingNet_trains [risingData] (by simp [risingData])
  constructor
  · obtain ⟨epochs, M', j1, j2⟩ := k2 (by rw [he]; rfl) [risingSource] (.cons risingSource_is .nil)
    obtain ⟨e, rfl⟩ : ∃ e, epochs = [e] := List.length_eq_one_iff.1 (by rw [← List.length_map (f := Prod.snd), j1]; rfl)
    obtain ⟨sched, src⟩ := e
    obtain rfl : src = risingSource := by simpa using j1
    exact ⟨sched, M', j2⟩
  · intro sched M' h ls' hD hf
    have j := (k1 [(sched, risingSource)] (.cons risingSource_is .nil)).2 M' h
    have e : staleDescents (fun ls x => netSurrogate ls ⟨1, 1, 1⟩ x) p.rate ⟨1, 1, 1⟩ 2 ([risingData].flatMap (batchesOf 2)) [] risingNet = risen p.rate := rfl
    rw [e] at j
    have hX : ∀ e ∈ risingData, e.2 < 2 ∧ ∃ X : Matrix ℝ, X.Shows 1 1 1 e.1 := by
      have := risingSource_is
      unfold risingSource risingData at this
      cases this with
      | cons a h => cases h with
        | cons b _ =>
          intro e he
          rcases List.mem_cons.1 he with rfl | he
          · exact ⟨Nat.lt_succ_self 1, _, a.data⟩
          · obtain rfl := List.mem_singleton.1 he
            exact ⟨Nat.zero_lt_two, _, b.data⟩
    rw [C91_unique exactEnv ⟨rfl, rfl, rfl⟩ M' 0 0 _ ls' _ 2 hD j hf ((memStep_same _ _ _ _ _ _).fits risingNet_fits) risingData hX]
    exact h2 _ r1 r2

theorem C91_violated : ¬ C91_claim := by
  intro h
  obtain ⟨ρ, h1, h2⟩ := h exactEnv 2 risingModel 0 ⟨1, 1, 1⟩ risingNet 2 risingData risingSource ⟨rfl, rfl, rfl⟩ (by omega) (by omega) risingModel_denotes
    risingNet_fits risingNet_trains ⟨rfl, risingSource_is, rfl⟩ (fun e _ => risingNet_differentiable e.1) C91_rises.1
  obtain ⟨-, ρ', h1', h2'⟩ := C91_rises
  have hm : 0 < min ρ ρ' := lt_min h1 h1'
  let p : Hyper ℝ := ⟨min ρ ρ' / 2, 2, 1, 1⟩
  have hr : p.rate < min ρ ρ' := half_lt_self hm
  have hr0 : 0 < p.rate := half_pos hm
  obtain ⟨⟨sched, M', k1⟩, k2⟩ := h2' p rfl rfl rfl hr0 (hr.trans_le (min_le_right _ _))
  obtain ⟨ls', j1, j2, j3⟩ := h2 p rfl rfl rfl hr0 (hr.trans_le (min_le_left _ _)) sched M' k1
  exact absurd (k2 sched M' k1 ls' j1 j2) (by linarith)

end Train
end Cnn
