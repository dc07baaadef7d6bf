import Verif.Lemmas.StepTrain
import Verif.Lemmas.Stale
import Verif.Props.GradRounding
import Verif.Props.Descent
/-!
# Property C99: training in rounded arithmetic

C67 and C68 are for exact arithmetic; C98 bounds the rounding errors of one gradient. Here: what a batch, and a run of `train`,
computes from such gradients. The bounds are those of Spec/StepRounding.lean.
-/
namespace Cnn
namespace Train
open Model Finset

variable {α : Type} [Zero α] [One α] [Add α] [Sub α] [Mul α] [Div α] [Neg α]

/-- C99: one full batch. The model stores the network `ls` as finite numbers, the samples are `ds` up to their errors, nothing
overflows. Then no schedule fails, some schedule ends, and after each that ends the model stores a network `ls'` whose parameters are
within `stepErr` of `w - rate * mean`, the mean of the exact gradients (the derivatives of the loss of `netSurrogate`, see C83) over the inputs of
the batch with labels of the batch (C52), the right ones if all gradients used the right label. Missing: convolutions other than the first layer whose output is not square
(`C65_violated`), a batch that is not full. -/
theorem C99_batch_partial (E : Env α) (p : Precision) (hp : p.Ok) (F : Floating E.num p) (q : Conversion) (hE : E.Rounds F q) (h : Hyper α) (B T : Nat)
    (hb : h.batch = B) (ht : h.threads = T) (h0 : 0 < B) (hB : B < 2 ^ 24) (hT0 : 0 < T) (hT : T < 2147483648) (hr : F.Fin h.rate) (sh : Shared α)
    (hM : sh.model.Prepared B) (s : Shape) (ls : List NetLayer) (n : Nat) (hH : sh.model.Holds F 0 s ls n)
    (hR : SlottedAll 0 true s (sh.model.layers.map (·.body)) ls) (hfit : NetFits ls s) (htr : NetTrains true ls s) (hn : (n : ℝ) + 1 ≤ p.Ω)
    (hs : p.sumErr n ≤ 1 / 2) (ds : List Datum) (hl : ds.length = B) (hd : List.Forall₂ (Sample.Near F sh.model.labels s) (sh.source.take B) ds)
    (ε : ℝ) (hroom : RoomFor p q (F.val h.rate) n ε s ds ls) :
    (∀ sched, ∃ o, runBatch E h sched sh = .ok o) ∧ (∃ sched o, runBatch E h sched sh = .ok (some o)) ∧
    ∀ sched o, runBatch E h sched sh = .ok (some o) → ∃ ds' ls', Datum.Relabels ds ds' ∧ (OwnLabels sh.model o.2 → ds' = ds) ∧
      NetStep p q (F.val h.rate) n ε s ds' ls ls' ∧ o.1.model.Holds F 0 s ls' n ∧
      ∀ i l w β, ls[i]? = some l → l.params = some (w, β) →
        (∀ a < (l.weightShape (netOut (ls.take i) s)).X, ∀ b < (l.weightShape (netOut (ls.take i) s)).Y, ∀ c < (l.weightShape (netOut (ls.take i) s)).Z,
          HasDerivAt (fun v => (ds'.map fun d => netLoss ((netSurrogate ls s d.x).set i (l.withParams (w.update a b c v) β)) s n d.label d.x).sum / ds'.length)
            (Precision.mean (weightTerms p q n ε i ls s ds' a b c)) (w a b c)) ∧
        ∀ f < l.biasCount,
          HasDerivAt (fun v => (ds'.map fun d => netLoss ((netSurrogate ls s d.x).set i (l.withParams w (Function.update β f v))) s n d.label d.x).sum / ds'.length)
            (Precision.mean (biasTerms p q n ε i ls s ds' f)) (β f) := by
  have hT' : Trains F sh.model.labels s n B sh.model ls := ⟨hM, ⟨hH, hR⟩, hfit, htr, rfl, hn, hs⟩
  obtain ⟨p1, p2⟩ := hT'.progress hp hE hb ht hB hT0 hT hl hd hroom
  refine ⟨p1, p2, ?_⟩
  intro sched o hrun
  obtain ⟨ds', ls', k1, k2, k3, k4, _⟩ := hT'.step hp hE hb ht h0 hB hr hl hd hroom hrun
  obtain ⟨j1, j2, j3⟩ := hT'.uses hp hE h0 hl hd hroom k1
  refine ⟨ds', ls', k1, k2, k3, k4.carries.1, ?_⟩
  intro i l w β hi hpa
  exact mean_true j3 (m := fun d => netSurrogate ls s d.x) (fun d _ => .surrogate ls s d.x) hfit htr j1 j2 hH.output hi
    (fun d _ => (C83_value ls s d.x n d.label hfit).2.2.2 i l hi (by rw [hpa]; simp)) hpa

/-- C99, where every layer is differentiable at its exact inputs: the new parameters are within `stepErr` of the step of gradient
descent on the mean loss. -/
theorem C99_smooth_partial (E : Env α) (p : Precision) (hp : p.Ok) (F : Floating E.num p) (q : Conversion) (hE : E.Rounds F q) (h : Hyper α) (B T : Nat)
    (hb : h.batch = B) (ht : h.threads = T) (h0 : 0 < B) (hB : B < 2 ^ 24) (hr : F.Fin h.rate) (sh : Shared α)
    (hM : sh.model.Prepared B) (s : Shape) (ls : List NetLayer) (n : Nat) (hH : sh.model.Holds F 0 s ls n)
    (hR : SlottedAll 0 true s (sh.model.layers.map (·.body)) ls) (hfit : NetFits ls s) (htr : NetTrains true ls s) (hn : (n : ℝ) + 1 ≤ p.Ω)
    (hs : p.sumErr n ≤ 1 / 2) (ds : List Datum) (hl : ds.length = B) (hd : List.Forall₂ (Sample.Near F sh.model.labels s) (sh.source.take B) ds)
    (hsm : ∀ d ∈ ds, NetSmooth ls s d.x) (ε : ℝ) (hroom : RoomFor p q (F.val h.rate) n ε s ds ls) (sched : List Nat) (o : Shared α × List (Event α))
    (hrun : runBatch E h sched sh = .ok (some o)) : ∃ ds' ls', Datum.Relabels ds ds' ∧ (OwnLabels sh.model o.2 → ds' = ds) ∧
      o.1.model.Holds F 0 s ls' n ∧ HasPartials s (meanLoss s n (ds'.map fun d => (d.x, d.label))) ls ∧
      ∀ i l l₀ l₁ w β w₀ β₀ w₁ β₁, ls[i]? = some l → l.params = some (w, β) →
        (descend (F.val h.rate) (meanLoss s n (ds'.map fun d => (d.x, d.label))) ls)[i]? = some l₀ → l₀.params = some (w₀, β₀) →
        ls'[i]? = some l₁ → l₁.params = some (w₁, β₁) →
        (∀ a < (l.weightShape (netOut (ls.take i) s)).X, ∀ b < (l.weightShape (netOut (ls.take i) s)).Y, ∀ c < (l.weightShape (netOut (ls.take i) s)).Z,
          |w₁ a b c - w₀ a b c| ≤ p.stepErr (F.val h.rate) (w a b c) (weightTerms p q n ε i ls s ds' a b c)) ∧
        ∀ f < l.biasCount, |β₁ f - β₀ f| ≤ p.stepErr (F.val h.rate) (β f) (biasTerms p q n ε i ls s ds' f) := by
  have hT' : Trains F sh.model.labels s n B sh.model ls := ⟨hM, ⟨hH, hR⟩, hfit, htr, rfl, hn, hs⟩
  obtain ⟨ds', ls', k1, k2, k3, k4, _⟩ := hT'.step hp hE hb ht h0 hB hr hl hd hroom hrun
  obtain ⟨j1, j2, j3⟩ := hT'.uses hp hE h0 hl hd hroom k1
  have hsm' : ∀ d ∈ ds', NetSmooth ls s d.x := by
    intro d hd'
    have : (d.x, d.err) ∈ ds'.map (fun d => (d.x, d.err)) := List.mem_map.2 ⟨d, hd', rfl⟩
    rw [k1.1] at this
    obtain ⟨e, he, hxe⟩ := List.mem_map.1 this
    have := hsm e he
    rw [(Prod.mk.inj hxe).1] at this
    exact this
  have key := fun (i : Nat) (l : NetLayer) (w : Tensor) (β : Nat → ℝ) (hi : ls[i]? = some l) (hpa : l.params = some (w, β)) =>
    mean_true (p := p) (q := q) (ε := ε) j3 (m := fun _ => ls) (fun d hd => .self (hsm' d hd)) hfit htr j1 j2 hH.output hi (fun _ _ => hi) hpa
  have hml : ∀ m : List NetLayer, meanLoss s n (ds'.map fun d => (d.x, d.label)) m = (ds'.map fun d => netLoss m s n d.label d.x).sum / ds'.length := by
    intro m
    simp only [meanLoss, List.map_map, List.length_map]
    rfl
  refine ⟨ds', ls', k1, k2, k4.carries.1, ?_, ?_⟩
  · intro i l w β hi hpa
    obtain ⟨g1, g2⟩ := key i l w β hi hpa
    simp only [hml]
    exact ⟨fun a ha b hb c hc => (g1 a ha b hb c hc).differentiableAt, fun f hf => (g2 f hf).differentiableAt⟩
  · intro i l l₀ l₁ w β w₀ β₀ w₁ β₁ hi hpa hi0 hp0 hi1 hp1
    obtain ⟨g1, g2⟩ := key i l w β hi hpa
    obtain ⟨w', β', e1, e2⟩ := k3.2 i l hi
    obtain ⟨e3, e4⟩ := e2 w β hpa
    rw [hi1] at e1
    obtain rfl := Option.some.inj e1
    rw [NetLayer.withParams_params (by rw [hpa]; simp)] at hp1
    obtain ⟨rfl, rfl⟩ := Prod.mk.inj (Option.some.inj hp1)
    simp only [descend, List.getElem?_mapIdx, hi, Option.map_some, hpa] at hi0
    obtain rfl := Option.some.inj hi0
    rw [NetLayer.withParams_params (by rw [hpa]; simp)] at hp0
    obtain ⟨rfl, rfl⟩ := Prod.mk.inj (Option.some.inj hp0)
    simp only [hml]
    constructor
    · intro a ha b hb c hc
      rw [(g1 a ha b hb c hc).deriv]
      exact e3 a ha b hb c hc
    · intro f hf
      rw [(g2 f hf).deriv]
      exact e4 f hf

/-- C99 for `train`: `k` full batches in every epoch, `dss` epoch by epoch. If nothing overflows, in the networks on the way and those
within the errors of them, then no run fails, and after training the model stores a network that is reached from `ls` by one such step for each batch,
with the labels of C52 (the right ones if there is one thread). Missing: as in `C99_batch_partial`. -/
theorem C99_train_partial (E : Env α) (p : Precision) (hp : p.Ok) (F : Floating E.num p) (q : Conversion) (hE : E.Rounds F q) (h : Hyper α) (B T k : Nat)
    (hb : h.batch = B) (ht : h.threads = T) (h0 : 0 < B) (hB : B < 2 ^ 24) (hT0 : 0 < T) (hT : T < 2147483648) (hsz : B * k < 2 ^ 24) (hr : F.Fin h.rate)
    (M : Model α) (b : Nat) (s : Shape) (ls : List NetLayer) (n : Nat) (hH : M.Holds F b s ls n) (hR : SlottedAll b true s (M.layers.map (·.body)) ls)
    (hfit : NetFits ls s) (htr : NetTrains true ls s) (hn : (n : ℝ) + 1 ≤ p.Ω) (hs : p.sumErr n ≤ 1 / 2) (dss : List (List (List Datum)))
    (hk : ∀ ds ∈ dss, ds.length = k) (ε : ℝ) (hroom : RoomAlong p q (F.val h.rate) n ε s dss.flatten ls)
    (epochs : List (List (List Nat) × List (Sample α))) (he : List.Forall₂ (fun e ds => ServesNear F M.labels s B e.2 ds) epochs dss) :
    (∃ o, train E h (B * k) epochs M = .ok o) ∧
    ∀ M', train E h (B * k) epochs M = .ok (some M') → ∃ ds' ls', List.Forall₂ Datum.Relabels dss.flatten ds' ∧ (T = 1 → ds' = dss.flatten) ∧
      NetSteps p q (F.val h.rate) n ε s ds' ls ls' ∧ M'.Holds F 0 s ls' n := by
  have hc : M.Carries F b s ls n := ⟨hH, hR⟩
  have hT' : Trains F M.labels s n B (M.setBatchSize B) ls := ⟨hc.prepared hfit B, hc.setBatchSize h0, hfit, htr, rfl, hn, hs⟩
  have hu : u64 h.batch = B := by
    rw [hb]; unfold u64; omega
  obtain ⟨i1, i2⟩ := (Trains.epochs hp hE hb ht h0 hB hT0 hT hr hsz dss hk hT' hroom).1 epochs he
  rw [train_eq (p := h) (by omega), hu]
  by_cases hl : epochs.length = h.epochs.toNat
  · rw [if_pos hl]
    refine ⟨i1, ?_⟩
    intro M' hrun
    obtain ⟨ds', ls', j1, j2, j3, j4⟩ := i2 M' hrun
    exact ⟨ds', ls', j1, j2, j3, j4.carries.1⟩
  · rw [if_neg hl]
    exact ⟨⟨_, rfl⟩, fun M' h => absurd (Res.ok.inj h) (by simp)⟩

/-- C99, there are such runs: for every such sequence of sources, one for each epoch, some schedules complete the training. -/
theorem C99_completes_partial (E : Env α) (p : Precision) (hp : p.Ok) (F : Floating E.num p) (q : Conversion) (hE : E.Rounds F q) (h : Hyper α) (B T k : Nat)
    (hb : h.batch = B) (ht : h.threads = T) (h0 : 0 < B) (hB : B < 2 ^ 24) (hT0 : 0 < T) (hT : T < 2147483648) (hsz : B * k < 2 ^ 24) (hr : F.Fin h.rate)
    (M : Model α) (b : Nat) (s : Shape) (ls : List NetLayer) (n : Nat) (hH : M.Holds F b s ls n) (hR : SlottedAll b true s (M.layers.map (·.body)) ls)
    (hfit : NetFits ls s) (htr : NetTrains true ls s) (hn : (n : ℝ) + 1 ≤ p.Ω) (hs : p.sumErr n ≤ 1 / 2) (dss : List (List (List Datum)))
    (hk : ∀ ds ∈ dss, ds.length = k) (ε : ℝ) (hroom : RoomAlong p q (F.val h.rate) n ε s dss.flatten ls) (hep : dss.length = h.epochs.toNat)
    (srcs : List (List (Sample α))) (hsrc : List.Forall₂ (ServesNear F M.labels s B) srcs dss) :
    ∃ epochs M', epochs.map Prod.snd = srcs ∧ train E h (B * k) epochs M = .ok (some M') := by
  have hc : M.Carries F b s ls n := ⟨hH, hR⟩
  have hT' : Trains F M.labels s n B (M.setBatchSize B) ls := ⟨hc.prepared hfit B, hc.setBatchSize h0, hfit, htr, rfl, hn, hs⟩
  have hu : u64 h.batch = B := by
    rw [hb]; unfold u64; omega
  obtain ⟨epochs, M', h1, h2⟩ := (Trains.epochs hp hE hb ht h0 hB hT0 hT hr hsz dss hk hT' hroom).2 srcs hsrc
  refine ⟨epochs, M', h1, ?_⟩
  rw [train_eq (p := h) (by omega), if_pos, hu]
  · exact h2
  · rw [← hep, ← hsrc.length_eq, ← h1, List.length_map]

/-- C99: the bound is zero if nothing is rounded and the gradients are exact. -/
theorem C99_exact (Ω r w : ℝ) (gs : List (ℝ × ℝ)) (hg : ∀ g ∈ gs, g.2 = 0) : Precision.stepErr ⟨0, 0, 0, Ω⟩ r w gs = 0 := by
  have ht : Precision.totalErr ⟨0, 0, 0, Ω⟩ gs = 0 := by
    have : (gs.map fun g => |g.1| + g.2) = gs.map fun g => |g.1| := List.map_congr_left fun g h => by rw [hg g h, add_zero]
    simp [Precision.totalErr, Precision.grown, this]
  simp [Precision.stepErr, Precision.shiftErr, Precision.meanErr, Precision.grown, ht]

/-! ### The network of C84 in binary64 -/

/-- A step with one gradient of at most 1 that is off by at most 1/100, at rate 1. -/
theorem step_single {w g e : ℝ} (hw : |w| ≤ 1) (hg : |g| ≤ 1) (he : e ≤ 1 / 2 ^ 7) :
    Double.precision.StepRoom 1 w [(g, e)] ∧ Double.precision.stepErr 1 w [(g, e)] ≤ 1 / 50 ∧ Precision.mean [(g, e)] = g := by
  obtain ⟨u1, v1, η1, hΩ⟩ := double_consts
  have hp := Double.precision_ok
  have u0 := hp.u0
  have η0 := hp.η0
  have hm : Precision.mean [(g, e)] = g := by simp [Precision.mean]
  have g0 := abs_nonneg g
  have w0 := abs_nonneg w
  have hwg : |w - 1 * g| ≤ 2 := by
    rw [one_mul]
    exact (abs_sub w g).trans (by linarith)
  have hwg0 := abs_nonneg (w - 1 * g)
  -- products with the unit roundoff
  have hu : ∀ x : ℝ, x ≤ 4 → Double.precision.u * x ≤ 1 / 2 ^ 38 := by
    intro x hx
    have := mul_le_mul_of_nonneg_left hx u0
    have h2 := mul_le_mul_of_nonneg_right u1 (show (0 : ℝ) ≤ 4 by norm_num)
    norm_num at *
    linarith
  have ht : Double.precision.totalErr [(g, e)] = e + Double.precision.u * (|g| + e) := by
    simp only [Precision.totalErr, Precision.grown, List.length_singleton, List.map_cons, List.map_nil, List.sum_cons, List.sum_nil, add_zero,
      Nat.cast_zero, zero_mul, pow_one]
    ring
  have k1 := hu (|g| + e) (by norm_num at *; linarith)
  have hme : Double.precision.meanErr [(g, e)] = e + Double.precision.u * (|g| + e) +
      (Double.precision.u * (|g| + (e + Double.precision.u * (|g| + e))) + Double.precision.η) := by
    simp only [Precision.meanErr, hm, ht, List.length_singleton, Nat.cast_one, div_one]
  have k2 := hu (|g| + (e + Double.precision.u * (|g| + e))) (by norm_num at *; linarith)
  have hsh : Double.precision.shiftErr 1 [(g, e)] = Double.precision.meanErr [(g, e)] + Double.precision.η +
      Double.precision.u * (|g| + Double.precision.meanErr [(g, e)] + Double.precision.η) := by
    simp only [Precision.shiftErr, Precision.grown, hm, abs_one, one_mul, Nat.cast_one, pow_one]
    ring
  have k3 := hu (|g| + Double.precision.meanErr [(g, e)] + Double.precision.η) (by rw [hme]; norm_num at *; linarith)
  have hst : Double.precision.stepErr 1 w [(g, e)] = Double.precision.shiftErr 1 [(g, e)] +
      Double.precision.u * (|w - 1 * g| + Double.precision.shiftErr 1 [(g, e)]) := by
    simp only [Precision.stepErr, Precision.grown, hm, Nat.cast_zero, zero_mul, add_zero, pow_one]
    ring
  have k4 := hu (|w - 1 * g| + Double.precision.shiftErr 1 [(g, e)]) (by rw [hsh, hme] at *; norm_num at *; linarith)
  refine ⟨⟨?_, ?_, ?_, ?_⟩, ?_, hm⟩
  · simp only [Precision.Room, List.length_singleton, List.map_cons, List.map_nil, List.sum_cons, List.sum_nil, add_zero, Nat.cast_zero, zero_mul, pow_one]
    rw [add_mul, one_mul]
    refine le_trans ?_ hΩ
    norm_num at *
    linarith
  · rw [hm, ht, List.length_singleton, Nat.cast_one, div_one]
    refine le_trans ?_ hΩ
    norm_num at *
    linarith
  · rw [hm, hme, abs_one, one_mul]
    refine le_trans ?_ hΩ
    norm_num at *
    linarith
  · rw [hm, hsh, hme] at *
    refine le_trans ?_ hΩ
    norm_num at *
    linarith
  · rw [hst, hsh, hme] at *
    norm_num at *
    linarith

/-- A batch of one sample keeps its label. -/
theorem relabels_single {d : Datum} {ds : List Datum} (h : Datum.Relabels [d] ds) : ds = [d] := by
  obtain ⟨h1, h2⟩ := h
  cases ds with
  | nil => simp at h1
  | cons e es =>
    cases es with
    | cons _ _ => simp at h1
    | nil =>
      obtain ⟨f, hf, he⟩ := h2 e (by simp)
      rw [List.mem_singleton] at hf
      subst hf
      simp only [List.map_cons, List.map_nil, List.cons.injEq, Prod.mk.injEq, and_true] at h1
      obtain ⟨x, y, l⟩ := e
      obtain ⟨x', y', l'⟩ := f
      obtain ⟨rfl, rfl⟩ := h1
      obtain rfl : l = l' := he
      rfl

theorem round_roomFor : RoomFor Double.precision ⟨2 ^ (-24 : ℤ), 2 ^ (-150 : ℤ), 2 ^ (127 : ℤ)⟩ 1 2 (1 / 2 ^ 20) ⟨1, 1, 1⟩ [roundDatum 1] (roundNet 1) := by
  obtain ⟨f1, f2, f3, _⟩ := round_facts
  intro ds' hr
  obtain rfl := relabels_single hr
  refine ⟨by simpa using f1 1 (by omega), ?_⟩
  intro i l w β hi hpa
  obtain rfl : i = 0 := by
    have : i < 1 := (List.getElem?_eq_some_iff.1 hi).1
    omega
  obtain rfl := Option.some.inj hi
  obtain ⟨rfl, rfl⟩ := Prod.mk.inj (Option.some.inj hpa)
  constructor
  · intro a ha b hb c hc
    have ha : a < 2 := ha
    obtain rfl : b = 0 := Nat.lt_one_iff.1 hb
    obtain rfl : c = 0 := Nat.lt_one_iff.1 hc
    refine (step_single ?_ (f2 1 a ha).1 (f2 1 a ha).2).1
    obtain rfl | rfl : a = 0 ∨ a = 1 := by omega
    · simp
    · simp
  · intro f hf
    exact (step_single (by simp) (f3 1 f hf).1 (f3 1 f hf).2).1

theorem round_step {m : List NetLayer} (h : NetStep Double.precision ⟨2 ^ (-24 : ℤ), 2 ^ (-150 : ℤ), 2 ^ (127 : ℤ)⟩ 1 2 (1 / 2 ^ 20) ⟨1, 1, 1⟩ [roundDatum 1]
    (roundNet 1) m) : ∃ w β, m = [.full 2 w β] ∧ |w 1 0 0 - (1 + 1 / (1 + Real.exp 1))| ≤ 1 / 50 := by
  obtain ⟨_, f2, _, f4, _⟩ := round_facts
  obtain ⟨hlen, s1⟩ := h
  obtain ⟨w, β, e1, e2⟩ := s1 0 _ rfl
  obtain ⟨e3, _⟩ := e2 _ _ rfl
  have h3 := e3 1 (by decide) 0 (by decide) 0 (by decide)
  simp only [weightTerms, List.map_cons, List.map_nil, roundDatum] at h3
  obtain ⟨_, t2, t3⟩ := step_single (w := 1) (by simp) (f2 1 1 (by omega)).1 (f2 1 1 (by omega)).2
  rw [t3, Nat.cast_one, one_mul] at h3
  have h3 := h3.trans t2
  rw [f4] at h3
  refine ⟨w, β, ?_, ?_⟩
  · match m, hlen, e1 with
    | [l], _, e1 => exact congrArg (fun l => [l]) (Option.some.inj e1)
  · rw [one_mul, sub_neg_eq_add] at h3
    exact h3

theorem full_holds {N : Num α} {p : Precision} {F : Floating N p} {M : Model α} {b n k : Nat} {s : Shape} {v : Tensor} {γ : Nat → ℝ}
    (hM : M.Holds F b s [.full n v γ] k) : ∃ (W Bi : Matrix α) (w : Nat → Nat → Nat → α), M.params 0 = some (W, Bi) ∧
      W.Shows n (s.X * s.Y * s.Z) 1 w ∧ ∀ i < n, ∀ j < s.X * s.Y * s.Z, F.Fin (w i j 0) ∧ F.val (w i j 0) = v i j 0 := by
  obtain ⟨⟨Bs, S, q1, q2, _⟩, _⟩ := hM
  cases Bs with
  | nil => exact q2.elim
  | cons B Bs =>
    obtain ⟨q2, _⟩ := q2
    cases B with
    | connected L =>
      obtain ⟨w, β, r1, r2, _⟩ := q2
      refine ⟨L.weights, L.biases, fun i k _ => w i k, ?_, r1.weights, r2⟩
      have := congrArg (·[0]?) q1
      simp only [List.getElem?_map, List.cons_append, List.getElem?_cons_zero, Option.map_eq_some_iff] at this
      obtain ⟨L', hL', hb⟩ := this
      simp [Model.params, hL', hb, Body.params]
    | _ => exact q2.elim

theorem round_second {M : Model Double} {m : List NetLayer} (h : NetStep Double.precision ⟨2 ^ (-24 : ℤ), 2 ^ (-150 : ℤ), 2 ^ (127 : ℤ)⟩ 1 2 (1 / 2 ^ 20)
    ⟨1, 1, 1⟩ [roundDatum 1] (roundNet 1) m) (hM : M.Holds Double.floating 0 ⟨1, 1, 1⟩ m 2) :
    ∃ (W Bi : Matrix Double) (w : Nat → Nat → Nat → Double), M.params 0 = some (W, Bi) ∧ W.Shows 2 1 1 w ∧ (w 1 0 0).Fin ∧
      |(w 1 0 0).val - (1 + 1 / (1 + Real.exp 1))| ≤ 1 / 50 := by
  obtain ⟨w', β', rfl, hw'⟩ := round_step h
  obtain ⟨W, Bi, w, k1, k2, k3⟩ := full_holds hM
  obtain ⟨k4, k5⟩ := k3 1 (by omega) 0 (by simp)
  have hv : (w 1 0 0).val = w' 1 0 0 := k5
  refine ⟨W, Bi, w, k1, k2, k4, ?_⟩
  rw [hv]
  exact hw'

/-- `C99_train_partial` applies: one epoch in binary64 with one sample of label "b", at rate 1. No schedule fails, some schedule ends, and after
each that ends the second weight is within 1/50 of `1 + 1 / (1 + exp 1)`. -/
example (sched : List Nat) :
    (∃ o, train doubleEnv ⟨1, 1, 1, 1⟩ (1 * 1) [([sched], [⟨⟨dimN 1 1 1, [1]⟩, "b".toList⟩])] (roundModel 1) = .ok o) ∧
    ∀ M', train doubleEnv ⟨1, 1, 1, 1⟩ (1 * 1) [([sched], [⟨⟨dimN 1 1 1, [1]⟩, "b".toList⟩])] (roundModel 1) = .ok (some M') →
      ∃ (W Bi : Matrix Double) (w : Nat → Nat → Nat → Double), M'.params 0 = some (W, Bi) ∧ W.Shows 2 1 1 w ∧ (w 1 0 0).Fin ∧
        |(w 1 0 0).val - (1 + 1 / (1 + Real.exp 1))| ≤ 1 / 50 := by
  obtain ⟨_, _, _, hΩ⟩ := double_consts
  obtain ⟨f1, f2, f3, f4, f5⟩ := round_facts
  have h1 : (1 : Double).val = 1 := Double.floating.one.2
  have hrate : Double.floating.val (1 : Double) = 1 := Double.floating.one.2
  obtain ⟨k1, k2⟩ := C99_train_partial doubleEnv Double.precision Double.precision_ok Double.floating _ double_rounds ⟨1, 1, 1, 1⟩ 1 1 1 rfl rfl (by omega)
    (by norm_num) (by omega) (by omega) (by norm_num) Double.floating.one.1 (roundModel 1) 0 ⟨1, 1, 1⟩ (roundNet 1) 2
    (by have := roundModel_holds Double.floating.one.1; rw [h1] at this; exact this) (by have := slotted_round 1; rw [h1] at this; exact this)
    ⟨trivial, trivial⟩ ⟨trivial, trivial⟩ (le_trans (by norm_num) hΩ) f5 [[[roundDatum 1]]] (by simp) (1 / 2 ^ 20)
    (by rw [hrate]; exact ⟨round_roomFor, fun _ _ _ _ => trivial⟩) [([sched], [⟨⟨dimN 1 1 1, [1]⟩, "b".toList⟩])]
    (.cons ⟨rfl, .cons ⟨by have := roundInput_near Double.floating.one.1; rw [h1] at this; exact this, rfl,
      by intro t ht; obtain rfl : t = 0 := Nat.lt_one_iff.1 ht; simp [roundModel]⟩ .nil, rfl⟩ .nil)
  refine ⟨k1, ?_⟩
  intro M' hrun
  obtain ⟨ds', ls', j1, j2, j3, j4⟩ := k2 M' hrun
  obtain rfl := j2 rfl
  obtain ⟨m, j3, rfl⟩ := j3
  rw [hrate] at j3
  exact round_second j3 j4

/-- `C99_completes_partial` applies to it: some schedule ends. -/
example : ∃ epochs M', epochs.map (·.2) = [[⟨⟨dimN 1 1 1, [1]⟩, "b".toList⟩]] ∧ train doubleEnv ⟨1, 1, 1, 1⟩ (1 * 1) epochs (roundModel 1) = .ok (some M') := by
  obtain ⟨_, _, _, hΩ⟩ := double_consts
  obtain ⟨f1, f2, f3, f4, f5⟩ := round_facts
  have h1 : (1 : Double).val = 1 := Double.floating.one.2
  have hrate : Double.floating.val (1 : Double) = 1 := Double.floating.one.2
  exact C99_completes_partial doubleEnv Double.precision Double.precision_ok Double.floating _ double_rounds ⟨1, 1, 1, 1⟩ 1 1 1 rfl rfl (by omega)
    (by norm_num) (by omega) (by omega) (by norm_num) Double.floating.one.1 (roundModel 1) 0 ⟨1, 1, 1⟩ (roundNet 1) 2
    (by have := roundModel_holds Double.floating.one.1; rw [h1] at this; exact this) (by have := slotted_round 1; rw [h1] at this; exact this)
    ⟨trivial, trivial⟩ ⟨trivial, trivial⟩ (le_trans (by norm_num) hΩ) f5 [[[roundDatum 1]]] (by simp) (1 / 2 ^ 20)
    (by rw [hrate]; exact ⟨round_roomFor, fun _ _ _ _ => trivial⟩) rfl [[⟨⟨dimN 1 1 1, [1]⟩, "b".toList⟩]]
    (.cons ⟨rfl, .cons ⟨by have := roundInput_near Double.floating.one.1; rw [h1] at this; exact this, rfl,
      by intro t ht; obtain rfl : t = 0 := Nat.lt_one_iff.1 ht; simp [roundModel]⟩ .nil, rfl⟩ .nil)

/-- `C99_batch_partial` and `C99_smooth_partial` apply to its only batch: some schedule ends, and the stored network is that of gradient descent up to `stepErr`. -/
example : ∃ sched o ds' ls', runBatch doubleEnv ⟨1, 1, 1, 1⟩ sched ⟨(roundModel 1).setBatchSize 1, [⟨⟨dimN 1 1 1, [1]⟩, "b".toList⟩], 0⟩ = .ok (some o) ∧
    Datum.Relabels [roundDatum 1] ds' ∧ o.1.model.Holds Double.floating 0 ⟨1, 1, 1⟩ ls' 2 ∧
    HasPartials ⟨1, 1, 1⟩ (meanLoss ⟨1, 1, 1⟩ 2 (ds'.map fun d => (d.x, d.label))) (roundNet 1) := by
  obtain ⟨_, _, _, hΩ⟩ := double_consts
  obtain ⟨f1, f2, f3, f4, f5⟩ := round_facts
  have h1 : (1 : Double).val = 1 := Double.floating.one.2
  have hrate : Double.floating.val (1 : Double) = 1 := Double.floating.one.2
  have hc : (roundModel 1).Carries (E := doubleEnv) Double.floating 0 ⟨1, 1, 1⟩ (roundNet 1) 2 :=
    ⟨by have := roundModel_holds Double.floating.one.1; rw [h1] at this; exact this, by have := slotted_round 1; rw [h1] at this; exact this⟩
  have hfit : NetFits (roundNet 1) ⟨1, 1, 1⟩ := ⟨trivial, trivial⟩
  have hn : List.Forall₂ (Sample.Near Double.floating ((roundModel 1).setBatchSize 1).labels ⟨1, 1, 1⟩)
      (List.take 1 [⟨⟨dimN 1 1 1, [1]⟩, "b".toList⟩]) [roundDatum 1] :=
    .cons ⟨by have := roundInput_near Double.floating.one.1; rw [h1] at this; exact this, rfl,
      by intro t ht; obtain rfl : t = 0 := Nat.lt_one_iff.1 ht; simp [roundModel, Model.setBatchSize]⟩ .nil
  obtain ⟨_, ⟨sched, o, k⟩, _⟩ := C99_batch_partial doubleEnv Double.precision Double.precision_ok Double.floating _ double_rounds ⟨1, 1, 1, 1⟩ 1 1 rfl rfl
    (by omega) (by norm_num) (by omega) (by omega) Double.floating.one.1 ⟨(roundModel 1).setBatchSize 1, [⟨⟨dimN 1 1 1, [1]⟩, "b".toList⟩], 0⟩
    (hc.prepared hfit 1) ⟨1, 1, 1⟩ (roundNet 1) 2 (hc.setBatchSize (by omega)).1 (hc.setBatchSize (by omega)).2 hfit ⟨trivial, trivial⟩
    (le_trans (by norm_num) hΩ) f5 [roundDatum 1] rfl hn (1 / 2 ^ 20) (by rw [hrate]; exact round_roomFor)
  obtain ⟨ds', ls', j1, _, j3, j4, _⟩ := C99_smooth_partial doubleEnv Double.precision Double.precision_ok Double.floating _ double_rounds ⟨1, 1, 1, 1⟩ 1 1 rfl rfl
    (by omega) (by norm_num) Double.floating.one.1 ⟨(roundModel 1).setBatchSize 1, [⟨⟨dimN 1 1 1, [1]⟩, "b".toList⟩], 0⟩
    (hc.prepared hfit 1) ⟨1, 1, 1⟩ (roundNet 1) 2 (hc.setBatchSize (by omega)).1 (hc.setBatchSize (by omega)).2 hfit ⟨trivial, trivial⟩
    (le_trans (by norm_num) hΩ) f5 [roundDatum 1] rfl hn (fun _ _ => ⟨trivial, trivial⟩) (1 / 2 ^ 20) (by rw [hrate]; exact round_roomFor) sched o k
  exact ⟨sched, o, ds', ls', k, j1, j3, j4⟩

end Train
end Cnn
