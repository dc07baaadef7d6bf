import Verif.Lemmas.StaleTrain
import Verif.Props.Descent
import Verif.Props.ShortBatch
/-!
# Property C82: training with short batches

`main` trains on 59999 samples in batches of 32: the last batch of every epoch has 31. The slots for the gradients are not
emptied between batches (C54), so the step after a short batch uses gradients of the batch before, of the network before.
-/
namespace Cnn
namespace Train
open Model

/-- C82: `train` with one thread, for any number of samples that is at least the batch size: every epoch serves `size`
samples (`ess`, epoch by epoch, in the order in which the source serves them). Then no run fails, and when training is over
the model computes the network that gradient descent with remembered gradients makes of `ls`. Partial: exact arithmetic,
fully connected layers already sized, and the networks on the way are differentiable, layer by layer, at the samples. -/
theorem C82_train_partial (E : Env ℝ) (hE : E.Exact) (p : Hyper ℝ) (B size : Nat) (hp : p.batch = B) (hq : p.threads = 1)
    (h0 : 0 < B) (hBs : B ≤ size) (hsz : size < 2 ^ 24) (M : Model ℝ) (b : Nat) (s : Shape) (ls : List NetLayer) (n : Nat)
    (hD : M.Denotes b s ls n) (hfit : NetFits ls s) (htr : NetTrains true ls s) (ess : List (List (Tensor × Nat)))
    (hk : ∀ es ∈ ess, es.length = size) (hsm : StaleSmooth p.rate s n (ess.flatMap (batchesOf B)) [] ls)
    (epochs : List (List (List Nat) × List (Sample ℝ)))
    (he : List.Forall₂ (fun e es => List.Forall₂ (Sample.Is M.labels s) e.2 es) epochs ess) :
    (∃ o, train E p size epochs M = .ok o) ∧
    ∀ M', train E p size epochs M = .ok (some M') → M'.Denotes 0 s (staleDescents itself p.rate s n (ess.flatMap (batchesOf B)) [] ls) n := by
  obtain ⟨i1, i2⟩ := (trains_ready (T := 1) (.one hE hp hq (by omega)) hp hq h0 (by omega) hBs hsz hD hfit htr ess hk (leadsSmooth_one _ hsm)).1 epochs he
  refine ⟨i1, ?_⟩
  intro M' h
  obtain ⟨_, ls', j1, j2⟩ := i2 M' h
  rw [← leads_one _ j1]; exact j2

/-- C82, there are such runs: for every such sequence of sources, one for each epoch, some schedules complete the training. -/
theorem C82_completes_partial (E : Env ℝ) (hE : E.Exact) (p : Hyper ℝ) (B size : Nat) (hp : p.batch = B) (hq : p.threads = 1)
    (h0 : 0 < B) (hBs : B ≤ size) (hsz : size < 2 ^ 24) (M : Model ℝ) (b : Nat) (s : Shape) (ls : List NetLayer) (n : Nat)
    (hD : M.Denotes b s ls n) (hfit : NetFits ls s) (htr : NetTrains true ls s) (ess : List (List (Tensor × Nat)))
    (hk : ∀ es ∈ ess, es.length = size) (hsm : StaleSmooth p.rate s n (ess.flatMap (batchesOf B)) [] ls)
    (hep : ess.length = p.epochs.toNat) (srcs : List (List (Sample ℝ))) (hsrc : List.Forall₂ (List.Forall₂ (Sample.Is M.labels s)) srcs ess) :
    ∃ epochs M', epochs.map Prod.snd = srcs ∧ train E p size epochs M = .ok (some M') ∧
      M'.Denotes 0 s (staleDescents itself p.rate s n (ess.flatMap (batchesOf B)) [] ls) n := by
  obtain ⟨epochs, M', h1, h2, h3⟩ := (trains_ready (T := 1) (.one hE hp hq (by omega)) hp hq h0 (by omega) hBs hsz hD hfit htr ess hk
    (leadsSmooth_one _ hsm)).2 hep srcs hsrc
  exact ⟨epochs, M', h1, h3, (C82_train_partial E hE p B size hp hq h0 hBs hsz M b s ls n hD hfit htr ess hk hsm epochs h2).2 M' h3⟩

/-- C82 for any number of threads under any schedules: which slots a short batch leaves alone depends on the threads, and a
thread can use the label another thread has stored (C52). -/
theorem C82_threads_partial (E : Env ℝ) (hE : E.Exact) (p : Hyper ℝ) (B T size : Nat) (hp : p.batch = B) (hq : p.threads = T)
    (h0 : 0 < B) (hT0 : 0 < T) (hT : T < 2147483648) (hBs : B ≤ size) (hsz : size < 2 ^ 24) (M : Model ℝ) (b : Nat) (s : Shape)
    (ls : List NetLayer) (n : Nat) (hD : M.Denotes b s ls n) (hfit : NetFits ls s) (htr : NetTrains true ls s)
    (ess : List (List (Tensor × Nat))) (hk : ∀ es ∈ ess, es.length = size)
    (hsm : StaleSmoothAll p.rate s n (ess.flatMap (batchesOf B)) [] ls) (epochs : List (List (List Nat) × List (Sample ℝ)))
    (he : List.Forall₂ (fun e es => List.Forall₂ (Sample.Is M.labels s) e.2 es) epochs ess) :
    (∃ o, train E p size epochs M = .ok o) ∧
    ∀ M', train E p size epochs M = .ok (some M') →
      ∃ out, StaleLeads itself p.rate s n (ess.flatMap (batchesOf B)) [] ls out ∧ M'.Denotes 0 s out n := by
  obtain ⟨i1, i2⟩ := (trains_ready (.many hE hp hq (by omega) hT0 hT) hp hq h0 hT0 hBs hsz hD hfit htr ess hk (leadsSmooth_many _ hsm)).1 epochs he
  refine ⟨i1, ?_⟩
  intro M' h
  obtain ⟨_, ls', j1, j2⟩ := i2 M' h
  exact ⟨ls', leads_many _ j1, j2⟩

/-- C82 for any number of threads, there are such runs; here the networks need not be differentiable. -/
theorem C82_threads_completes_partial (E : Env ℝ) (hE : E.Exact) (p : Hyper ℝ) (B T size : Nat) (hp : p.batch = B) (hq : p.threads = T)
    (h0 : 0 < B) (hT0 : 0 < T) (hT : T < 2147483648) (hBs : B ≤ size) (hsz : size < 2 ^ 24) (M : Model ℝ) (b : Nat) (s : Shape)
    (ls : List NetLayer) (n : Nat) (hD : M.Denotes b s ls n) (hfit : NetFits ls s) (htr : NetTrains true ls s)
    (ess : List (List (Tensor × Nat))) (hk : ∀ es ∈ ess, es.length = size)
    (hep : ess.length = p.epochs.toNat)
    (srcs : List (List (Sample ℝ))) (hsrc : List.Forall₂ (List.Forall₂ (Sample.Is M.labels s)) srcs ess) :
    ∃ epochs M', epochs.map Prod.snd = srcs ∧ train E p size epochs M = .ok (some M') := by
  obtain ⟨epochs, M', h1, _, h3⟩ := (trains_ready (.many hE hp hq (by omega) hT0 hT) hp hq h0 hT0 hBs hsz hD hfit htr ess hk
    (leadsSmooth_surrogate _)).2 hep srcs hsrc
  exact ⟨epochs, M', h1, h3⟩

/-! ## A model before its first use, and from building to training -/

/-- C82 for a model before its first use, one thread: the fully connected layers without weights get them from the first
sample. -/
theorem C82_fresh_partial (E : Env ℝ) (hE : E.Exact) (p : Hyper ℝ) (B size : Nat) (hp : p.batch = B) (hq : p.threads = 1)
    (h0 : 0 < B) (hBs : B ≤ size) (hsz : size < 2 ^ 24) (M : Model ℝ) (s : Shape) (ls : List NetLayer) (n : Nat)
    (hD : M.Starts E.draws s ls n) (hfit : NetFits ls s) (htr : NetTrains true ls s) (ess : List (List (Tensor × Nat))) (hne : ess ≠ [])
    (hk : ∀ es ∈ ess, es.length = size) (hsm : StaleSmooth p.rate s n (ess.flatMap (batchesOf B)) [] ls)
    (epochs : List (List (List Nat) × List (Sample ℝ)))
    (he : List.Forall₂ (fun e es => List.Forall₂ (Sample.Is M.labels s) e.2 es) epochs ess) :
    (∃ o, train E p size epochs M = .ok o) ∧
    ∀ M', train E p size epochs M = .ok (some M') → M'.Denotes 0 s (staleDescents itself p.rate s n (ess.flatMap (batchesOf B)) [] ls) n := by
  obtain ⟨i1, i2⟩ := (trains_fresh (T := 1) hE (.one hE hp hq (by omega)) hp hq h0 (by omega) (by omega) hBs hsz hD hfit htr ess hne hk
    (leadsSmooth_one _ hsm)).1 epochs he
  refine ⟨i1, ?_⟩
  intro M' h
  obtain ⟨_, ls', j1, j2⟩ := i2 M' h
  rw [← leads_one _ j1]; exact j2

/-- C82 for a model before its first use, any number of threads, any schedules; and some schedules complete the training. -/
theorem C82_fresh_threads_partial (E : Env ℝ) (hE : E.Exact) (p : Hyper ℝ) (B T size : Nat) (hp : p.batch = B) (hq : p.threads = T)
    (h0 : 0 < B) (hT0 : 0 < T) (hT : T < 2147483648) (hBs : B ≤ size) (hsz : size < 2 ^ 24) (M : Model ℝ) (s : Shape)
    (ls : List NetLayer) (n : Nat) (hD : M.Starts E.draws s ls n) (hfit : NetFits ls s) (htr : NetTrains true ls s)
    (ess : List (List (Tensor × Nat))) (hne : ess ≠ []) (hk : ∀ es ∈ ess, es.length = size)
    (hsm : StaleSmoothAll p.rate s n (ess.flatMap (batchesOf B)) [] ls) :
    (∀ epochs : List (List (List Nat) × List (Sample ℝ)),
      List.Forall₂ (fun e es => List.Forall₂ (Sample.Is M.labels s) e.2 es) epochs ess →
      (∃ o, train E p size epochs M = .ok o) ∧
      ∀ M', train E p size epochs M = .ok (some M') →
        ∃ out, StaleLeads itself p.rate s n (ess.flatMap (batchesOf B)) [] ls out ∧ M'.Denotes 0 s out n) ∧
    (ess.length = p.epochs.toNat → ∀ srcs : List (List (Sample ℝ)), List.Forall₂ (List.Forall₂ (Sample.Is M.labels s)) srcs ess →
      ∃ epochs M', epochs.map Prod.snd = srcs ∧ train E p size epochs M = .ok (some M')) := by
  obtain ⟨a1, a2⟩ := trains_fresh hE (.many hE hp hq (by omega) hT0 hT) hp hq h0 hT0 hT hBs hsz hD hfit htr ess hne hk (leadsSmooth_many _ hsm)
  constructor
  · intro epochs he
    obtain ⟨i1, i2⟩ := a1 epochs he
    refine ⟨i1, ?_⟩
    intro M' h
    obtain ⟨_, ls', j1, j2⟩ := i2 M' h
    exact ⟨ls', leads_many _ j1, j2⟩
  · intro hep srcs hsrc
    obtain ⟨epochs, M', h1, _, h3⟩ := a2 hep srcs hsrc
    exact ⟨epochs, M', h1, h3⟩

/-- C82 from building to training: a model built with the `add…` calls and trained, any number of threads, any schedules. -/
theorem C82_build_partial (E : Env ℝ) (hE : E.Exact) (p : Hyper ℝ) (B T size : Nat) (hp : p.batch = B) (hq : p.threads = T)
    (h0 : 0 < B) (hT0 : 0 < T) (hT : T < 2147483648) (hBs : B ≤ size) (hsz : size < 2 ^ 24) (ks : List LayerKind)
    (labels : List (List Char)) (s : Shape) (hks : AllSized E.draws 0 s ks) (hfit : NetFits (drawnNet E.draws 0 s ks) s)
    (htr : NetTrains true (drawnNet E.draws 0 s ks) s)
    (hout : netOut (drawnNet E.draws 0 s ks) s = ⟨labels.length, 1, 1⟩ ∨ netOut (drawnNet E.draws 0 s ks) s = ⟨1, labels.length, 1⟩)
    (ess : List (List (Tensor × Nat))) (hne : ess ≠ []) (hk : ∀ es ∈ ess, es.length = size)
    (hsm : StaleSmoothAll p.rate s labels.length (ess.flatMap (batchesOf B)) [] (drawnNet E.draws 0 s ks)) :
    ∃ M, buildModel E.num E.draws ks labels = .ok M ∧
      (∀ epochs : List (List (List Nat) × List (Sample ℝ)),
        List.Forall₂ (fun e es => List.Forall₂ (Sample.Is labels s) e.2 es) epochs ess →
        (∃ o, train E p size epochs M = .ok o) ∧
        ∀ M', train E p size epochs M = .ok (some M') →
          ∃ out, StaleLeads itself p.rate s labels.length (ess.flatMap (batchesOf B)) [] (drawnNet E.draws 0 s ks) out ∧ M'.Denotes 0 s out labels.length) ∧
      (ess.length = p.epochs.toNat → ∀ srcs : List (List (Sample ℝ)), List.Forall₂ (List.Forall₂ (Sample.Is labels s)) srcs ess →
        ∃ epochs M', epochs.map Prod.snd = srcs ∧ train E p size epochs M = .ok (some M')) := by
  obtain ⟨M, e, hl, hD⟩ := buildModel_starts E.draws ks labels hks hout
  rw [← hE.num] at e
  have := C82_fresh_threads_partial E hE p B T size hp hq h0 hT0 hT hBs hsz M s _ _ hD hfit htr ess hne hk hsm
  rw [hl] at this
  exact ⟨M, e, this⟩

/-! ## It is not gradient descent -/

/-- C67, the full claim: whatever the number of samples, training with one thread is mini-batch gradient descent. -/
def C67_claim : Prop :=
  ∀ (E : Env ℝ) (p : Hyper ℝ) (B size : Nat) (M : Model ℝ) (b : Nat) (s : Shape) (ls : List NetLayer) (n : Nat)
    (ess : List (List (Tensor × Nat))) (epochs : List (List (List Nat) × List (Sample ℝ))) (M' : Model ℝ),
    E.Exact → p.batch = B → p.threads = 1 → 0 < B → B ≤ size → size < 2 ^ 24 → M.Denotes b s ls n → NetFits ls s → NetTrains true ls s →
    (∀ es ∈ ess, es.length = size) → SmoothAlong p.rate s n (ess.flatMap (batchesOf B)) ls →
    List.Forall₂ (fun e es => List.Forall₂ (Sample.Is M.labels s) e.2 es) epochs ess →
    train E p size epochs M = .ok (some M') → M'.Denotes 0 s (descents p.rate s n (ess.flatMap (batchesOf B)) ls) n

/-- The partial derivative with respect to the first bias. -/
theorem shortNet_partial (w : Tensor) (β : Nat → ℝ) :
    biasPartial ⟨1, 1, 1⟩ 2 (shortNet w β, (fun _ _ _ => 0, 0)) 0 0 < 0 ∧ 0 < biasPartial ⟨1, 1, 1⟩ 2 (shortNet w β, (fun _ _ _ => 0, 1)) 0 0 := by
  have hp : (0 : ℝ) < Real.exp (β 0) + Real.exp (β 1) := by positivity
  have hlog : HasDerivAt (fun v => Real.log (Real.exp v + Real.exp (β 1))) (Real.exp (β 0) / (Real.exp (β 0) + Real.exp (β 1))) (β 0) :=
    ((Real.hasDerivAt_exp (β 0)).add_const _).log hp.ne'
  have hloss : ∀ t < 2, (fun v => netLoss ((shortNet w β).set 0 ((NetLayer.full 2 w β).withParams w (Function.update β 0 v))) ⟨1, 1, 1⟩ 2 t
      (fun _ _ _ => 0)) = fun v => Real.log (Real.exp v + Real.exp (β 1)) - (if t = 0 then v else β 1) := by
    intro t ht
    funext v
    have hp : (0 : ℝ) < Real.exp v + Real.exp (β 1) := by positivity
    obtain rfl | rfl : t = 0 ∨ t = 1 := by omega
    · simp [shortNet, netLoss, netProb, softmax, NetLayer.withParams, netOut, NetLayer.out, netEval, NetLayer.eval, flatOf, Finset.sum_range_succ]
      rw [Real.log_div (Real.exp_ne_zero _) hp.ne', Real.log_exp]
      ring
    · simp [shortNet, netLoss, netProb, softmax, NetLayer.withParams, netOut, NetLayer.out, netEval, NetLayer.eval, flatOf, Finset.sum_range_succ]
      rw [Real.log_div (Real.exp_ne_zero _) hp.ne', Real.log_exp]
      ring
  constructor
  · show deriv (fun v => netLoss ((shortNet w β).set 0 ((NetLayer.full 2 w β).withParams w (Function.update β 0 v))) ⟨1, 1, 1⟩ 2 0 (fun _ _ _ => 0)) (β 0) < 0
    rw [hloss 0 (by omega)]
    simp only [if_true]
    have hd : HasDerivAt (fun v => Real.log (Real.exp v + Real.exp (β 1)) - v) _ (β 0) := hlog.sub (hasDerivAt_id' (β 0))
    rw [hd.deriv, sub_neg, div_lt_one hp]
    have := Real.exp_pos (β 1)
    linarith
  · show 0 < deriv (fun v => netLoss ((shortNet w β).set 0 ((NetLayer.full 2 w β).withParams w (Function.update β 0 v))) ⟨1, 1, 1⟩ 2 1 (fun _ _ _ => 0)) (β 0)
    rw [hloss 1 (by omega)]
    simp only [Nat.one_ne_zero, if_false]
    rw [(hlog.sub_const (β 1)).deriv]
    positivity

theorem shortNet_memStep (rate : ℝ) (s : Shape) (n : Nat) (mem : List Remembered) (w : Tensor) (β : Nat → ℝ) :
    memStep itself rate s n mem (shortNet w β) = shortNet
      (fun a b c => w a b c - rate * ((mem.map fun m => weightPartial s n m 0 a b c).sum / mem.length))
      (fun k => β k - rate * ((mem.map fun m => biasPartial s n m 0 k).sum / mem.length)) := rfl

/-- For copies of one sample, the two kinds of step agree. -/
theorem shortNet_copies (rate : ℝ) (s : Shape) (n k : Nat) (e : Tensor × Nat) (w : Tensor) (β : Nat → ℝ) (hk : 0 < k) :
    descend rate (meanLoss s n (List.replicate k e)) (shortNet w β) = memStep itself rate s n (List.replicate k (shortNet w β, e)) (shortNet w β) := by
  have hk' : (k : ℝ) ≠ 0 := by exact_mod_cast hk.ne'
  have h1 : meanLoss s n (List.replicate k e) = fun ls => netLoss ls s n e.2 e.1 := by
    funext ls
    simp only [meanLoss, List.map_replicate, List.sum_replicate, nsmul_eq_mul, List.length_replicate]
    field_simp
  rw [h1, shortNet_memStep]
  simp only [List.map_replicate, List.sum_replicate, nsmul_eq_mul, List.length_replicate, mul_div_cancel_left₀ _ hk']
  rfl

theorem shortNet_smooth (w : Tensor) (β : Nat → ℝ) (s : Shape) (x : Tensor) : NetSmooth (shortNet w β) s x := ⟨trivial, trivial⟩

theorem shortNet_smoothAlong (rate : ℝ) (s : Shape) (n : Nat) (ds : List (List (Tensor × Nat))) : ∀ (w : Tensor) (β : Nat → ℝ),
    SmoothAlong rate s n ds (shortNet w β) := by
  induction ds with
  | nil => exact fun _ _ => trivial
  | cons d ds ih =>
    intro w β
    refine ⟨fun e _ => shortNet_smooth w β s e.1, ?_⟩
    obtain ⟨w', β', e⟩ := shortNet_descend rate (meanLoss s n d) w β
    rw [e]; exact ih w' β'

theorem shortNet_staleSmoothAll (rate : ℝ) (s : Shape) (n : Nat) (ds : List (List (Tensor × Nat))) : ∀ (mem : List Remembered) (w : Tensor) (β : Nat → ℝ),
    StaleSmoothAll rate s n ds mem (shortNet w β) := by
  induction ds with
  | nil => exact fun _ _ _ => trivial
  | cons d ds ih => exact fun mem w β => ⟨fun e _ => shortNet_smooth w β s e.1, fun m _ => ih m _ _⟩

theorem shortNet_staleSmooth (rate : ℝ) (s : Shape) (n : Nat) (ds : List (List (Tensor × Nat))) : ∀ (mem : List Remembered) (w : Tensor) (β : Nat → ℝ),
    StaleSmooth rate s n ds mem (shortNet w β) := by
  induction ds with
  | nil => exact fun _ _ _ => trivial
  | cons d ds ih => exact fun mem w β => ⟨fun e _ => shortNet_smooth w β s e.1, ih _ _ _⟩

/-- The samples "b", "b", "a". -/
def shortSource : List (Sample ℝ) := [⟨shortInput, "b".toList⟩, ⟨shortInput, "b".toList⟩, ⟨shortInput, "a".toList⟩]

def shortData : List (Tensor × Nat) := [(fun _ _ _ => 0, 1), (fun _ _ _ => 0, 1), (fun _ _ _ => 0, 0)]

theorem shortSource_is : List.Forall₂ (Sample.Is shortNetModel.labels ⟨1, 1, 1⟩) shortSource shortData := by
  have hb : Sample.Is shortNetModel.labels ⟨1, 1, 1⟩ ⟨shortInput, "b".toList⟩ (fun _ _ _ => 0, 1) := by
    refine ⟨shortInput_shows, rfl, ?_⟩
    intro t ht
    obtain rfl : t = 0 := by
      have : t < 1 := ht
      omega
    simp [shortNetModel]
  exact .cons hb (.cons hb (.cons ⟨shortInput_shows, rfl, by simp⟩ .nil))

/-- C67 fails for a number of samples that the batch size does not divide: the samples "b", "b", "a" in batches of two. -/
theorem C67_violated : ¬ C67_claim := by
  intro hc
  have hE : (exactEnv).Exact := ⟨rfl, rfl, rfl⟩
  have hone : ∀ es ∈ [shortData], es.length = 3 := by simp [shortData]
  obtain ⟨epochs, M', h1, h2, h3⟩ := C82_completes_partial exactEnv hE ⟨1, 2, 1, 1⟩ 2 3 rfl rfl (by omega) (by omega) (by omega) shortNetModel 0 ⟨1, 1, 1⟩
    _ 2 shortNetModel_denotes ⟨trivial, trivial⟩ ⟨trivial, trivial⟩ [shortData] hone (shortNet_staleSmooth _ _ _ _ _ _ _) rfl
    [shortSource] (.cons shortSource_is .nil)
  have h4 := hc exactEnv ⟨1, 2, 1, 1⟩ 2 3 shortNetModel 0 ⟨1, 1, 1⟩ _ 2 [shortData] epochs M' hE rfl rfl (by omega) (by omega) (by omega)
    shortNetModel_denotes ⟨trivial, trivial⟩ ⟨trivial, trivial⟩ hone (shortNet_smoothAlong _ _ _ _ _ _) (by
      have : List.Forall₂ (List.Forall₂ (Sample.Is shortNetModel.labels ⟨1, 1, 1⟩)) (epochs.map Prod.snd) [shortData] := by
        rw [h1]; exact .cons shortSource_is .nil
      exact List.forall₂_map_left_iff.1 this) h2
  have hds : [shortData].flatMap (batchesOf 2) = [[(fun _ _ _ => 0, 1), (fun _ _ _ => 0, 1)], [(fun _ _ _ => 0, 0)]] := rfl
  rw [hds] at h3 h4
  generalize hL0 : shortNet (fun _ _ _ => (0 : ℝ)) (fun _ => 0) = L0 at h3 h4
  obtain ⟨w₁, β₁, hL1⟩ : ∃ w β, memStep itself 1 ⟨1, 1, 1⟩ 2 (List.replicate 2 (L0, ((fun _ _ _ => 0, 1) : Tensor × Nat))) L0 = shortNet w β := by
    subst hL0; exact ⟨_, _, rfl⟩
  have e1 : staleDescents itself 1 ⟨1, 1, 1⟩ 2 [[(fun _ _ _ => 0, 1), (fun _ _ _ => 0, 1)], [(fun _ _ _ => 0, 0)]] [] L0 =
      memStep itself 1 ⟨1, 1, 1⟩ 2 [(shortNet w₁ β₁, (fun _ _ _ => 0, 0)), (L0, (fun _ _ _ => 0, 1))] (shortNet w₁ β₁) := by
    rw [← hL1]; rfl
  have e2 : descents 1 ⟨1, 1, 1⟩ 2 [[(fun _ _ _ => 0, 1), (fun _ _ _ => 0, 1)], [(fun _ _ _ => 0, 0)]] L0 =
      memStep itself 1 ⟨1, 1, 1⟩ 2 [(shortNet w₁ β₁, (fun _ _ _ => 0, 0))] (shortNet w₁ β₁) := by
    have a := shortNet_copies 1 ⟨1, 1, 1⟩ 2 2 (fun _ _ _ => 0, 1) (fun _ _ _ => 0) (fun _ => 0) (by omega)
    rw [hL0, hL1] at a
    have b := shortNet_copies 1 ⟨1, 1, 1⟩ 2 1 (fun _ _ _ => 0, 0) w₁ β₁ (by omega)
    simp only [descents]
    rw [show [((fun _ _ _ => 0, 1) : Tensor × Nat), (fun _ _ _ => 0, 1)] = List.replicate 2 (fun _ _ _ => 0, 1) from rfl, a]
    exact b
  have h3 : M'.Denotes 0 ⟨1, 1, 1⟩ _ 2 := h3
  have h4 : M'.Denotes 0 ⟨1, 1, 1⟩ _ 2 := h4
  rw [e1, shortNet_memStep] at h3
  rw [e2, shortNet_memStep] at h4
  obtain ⟨W, Bi, p1, _, p2⟩ := h3.params (i := 0) rfl rfl
  obtain ⟨W', Bi', p3, _, p4⟩ := h4.params (i := 0) rfl rfl
  rw [p1] at p3
  simp only [Option.some.injEq, Prod.mk.injEq] at p3
  obtain ⟨rfl, rfl⟩ := p3
  have e := Res.ok.inj ((p2.entry 0 (show 0 < 2 by omega) 0 (by omega) 0 (by omega)).symm.trans (p4.entry 0 (show 0 < 2 by omega) 0 (by omega) 0 (by omega)))
  have hneg := (shortNet_partial w₁ β₁).1
  have hpos : 0 < biasPartial ⟨1, 1, 1⟩ 2 (L0, (fun _ _ _ => 0, 1)) 0 0 := by subst hL0; exact (shortNet_partial _ _).2
  simp only [List.map_cons, List.map_nil, List.sum_cons, List.sum_nil, add_zero, List.length_cons, List.length_nil] at e
  norm_num at e
  linarith

/-! ### Examples -/

/-- With one thread: the run completes, and the last step uses a gradient of the first batch, of the first network. -/
example : ∃ epochs M' L₁, train exactEnv ⟨1, 2, 1, 1⟩ 3 epochs shortNetModel = .ok (some M') ∧
    M'.Denotes 0 ⟨1, 1, 1⟩ (memStep itself 1 ⟨1, 1, 1⟩ 2
      [(L₁, (fun _ _ _ => 0, 0)), (shortNet (fun _ _ _ => 0) (fun _ => 0), (fun _ _ _ => 0, 1))] L₁) 2 := by
  obtain ⟨epochs, M', _, h2, h3⟩ := C82_completes_partial exactEnv ⟨rfl, rfl, rfl⟩ ⟨1, 2, 1, 1⟩ 2 3 rfl rfl (by omega) (by omega) (by omega) shortNetModel 0 ⟨1, 1, 1⟩
    _ 2 shortNetModel_denotes ⟨trivial, trivial⟩ ⟨trivial, trivial⟩ [shortData] (by simp [shortData]) (shortNet_staleSmooth _ _ _ _ _ _ _) rfl
    [shortSource] (.cons shortSource_is .nil)
  exact ⟨epochs, M', _, h2, h3⟩

/-- With two threads: some run completes, and every completed run leads to one of the networks described. -/
example : ∃ epochs M' out, train exactEnv ⟨1, 2, 2, 1⟩ 3 epochs shortNetModel = .ok (some M') ∧
    StaleLeads itself 1 ⟨1, 1, 1⟩ 2 ([shortData].flatMap (batchesOf 2)) [] (shortNet (fun _ _ _ => 0) (fun _ => 0)) out ∧
    M'.Denotes 0 ⟨1, 1, 1⟩ out 2 := by
  obtain ⟨epochs, M', h1, h2⟩ := C82_threads_completes_partial exactEnv ⟨rfl, rfl, rfl⟩ ⟨1, 2, 2, 1⟩ 2 2 3 rfl rfl (by omega) (by omega) (by omega)
    (by omega) (by omega) shortNetModel 0 ⟨1, 1, 1⟩ _ 2 shortNetModel_denotes ⟨trivial, trivial⟩ ⟨trivial, trivial⟩ [shortData] (by simp [shortData])
    rfl [shortSource] (.cons shortSource_is .nil)
  obtain ⟨out, h3, h4⟩ := (C82_threads_partial exactEnv ⟨rfl, rfl, rfl⟩ ⟨1, 2, 2, 1⟩ 2 2 3 rfl rfl (by omega) (by omega) (by omega)
    (by omega) (by omega) shortNetModel 0 ⟨1, 1, 1⟩ _ 2 shortNetModel_denotes ⟨trivial, trivial⟩ ⟨trivial, trivial⟩ [shortData] (by simp [shortData])
    (shortNet_staleSmoothAll _ _ _ _ _ _ _) epochs (by
      have : List.Forall₂ (List.Forall₂ (Sample.Is shortNetModel.labels ⟨1, 1, 1⟩)) (epochs.map Prod.snd) [shortData] := by
        rw [h1]; exact .cons shortSource_is .nil
      exact List.forall₂_map_left_iff.1 this)).2 M' h2
  exact ⟨epochs, M', out, h2, h3, h4⟩

/-- A model that is built with one fully connected layer: its weights are drawn when the first sample arrives. -/
example : ∃ M, buildModel exactEnv.num exactEnv.draws [.full 2] ["a".toList, "b".toList] = .ok M ∧
    ∃ epochs M' out, train exactEnv ⟨1, 2, 2, 1⟩ 3 epochs M = .ok (some M') ∧
      StaleLeads itself 1 ⟨1, 1, 1⟩ 2 ([shortData].flatMap (batchesOf 2)) [] (drawnNet exactEnv.draws 0 ⟨1, 1, 1⟩ [.full 2]) out ∧
      M'.Denotes 0 ⟨1, 1, 1⟩ out 2 := by
  obtain ⟨M, e, h1, h2⟩ := C82_build_partial exactEnv ⟨rfl, rfl, rfl⟩ ⟨1, 2, 2, 1⟩ 2 2 3 rfl rfl (by omega) (by omega) (by omega) (by omega) (by omega)
    [.full 2] ["a".toList, "b".toList] ⟨1, 1, 1⟩ ⟨⟨by decide, by decide, by decide⟩, trivial⟩ ⟨trivial, trivial⟩ ⟨trivial, trivial⟩ (Or.inl rfl) [shortData]
    (by simp) (by simp [shortData]) (shortNet_staleSmoothAll _ _ _ _ _ _ _)
  obtain ⟨epochs, M', h3, h4⟩ := h2 rfl [shortSource] (.cons shortSource_is .nil)
  obtain ⟨out, h5, h6⟩ := (h1 epochs (by
      have : List.Forall₂ (List.Forall₂ (Sample.Is shortNetModel.labels ⟨1, 1, 1⟩)) (epochs.map Prod.snd) [shortData] := by
        rw [h3]; exact .cons shortSource_is .nil
      exact List.forall₂_map_left_iff.1 this)).2 M' h4
  exact ⟨M, e, epochs, M', out, h4, h5, h6⟩

end Train
end Cnn
