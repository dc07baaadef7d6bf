import Verif.Lemmas.ShortBatch
import Verif.Props.Network
/-!
# Property C54: a short last batch
-/
namespace Cnn
namespace Train
open Model Finset

/-- C54, the full claim: in a run that starts with `setBatchSize` and has processed some batches, the next batch lowers every
bias by the rate times the mean, over the samples that the batch processes, of the gradients that these samples give on
their own (and the weights likewise; the claim about the biases is enough to refute it). -/
def C54_claim : Prop :=
  ∀ (E : Env ℝ) (p : Hyper ℝ) (B : Nat) (M : Model ℝ) (s : Shape) (ls : List NetLayer) (n : Nat) (src : List (Sample ℝ))
    (scheds : List (List Nat)) (q₀ : Shared ℝ × List (Event ℝ)) (sched : List Nat) (q : Shared ℝ × List (Event ℝ)),
    E.Exact → M.Denotes 0 s ls n → p.batch = B → p.threads = (1 : Nat) → 0 < B → B < 2 ^ 24 →
    runBatches E p scheds ⟨M.setBatchSize B, src, 0⟩ = .ok (some q₀) → runBatch E p sched q₀.1 = .ok (some q) →
    q₀.1.source ≠ [] →
    ∀ (i F : Nat) (W Bi : Matrix ℝ) (β : Nat → ℝ) (c : Sample ℝ → Nat → ℝ), q₀.1.model.params i = some (W, Bi) →
      Bi.Shows F 1 1 (fun f _ _ => β f) →
      (∀ x ∈ q₀.1.source.take B, ∃ G H, ownGrads E q₀.1.model x i = some (G, H) ∧ H.Reads F 1 1 (fun f _ _ => c x f)) →
      ∃ W' B', q.1.model.params i = some (W', B') ∧
        B'.Shows F 1 1 (fun f _ _ => β f - p.rate * (((q₀.1.source.take B).map (c · f)).sum / (q₀.1.source.take B).length))

/-! ### A network that violates it: one input, two outputs -/

noncomputable def shortLayer : Connected ℝ :=
  { weights := ⟨dimN 2 1 1, [0, 0]⟩, biases := ⟨dimN 2 1 1, [0, 0]⟩, inputDim := dimN 1 1 1, initialized := true,
    wGrads := [Matrix.empty], bGrads := [Matrix.empty] }

noncomputable def shortNetModel : Model ℝ :=
  { (Model.new : Model ℝ) with
    labels := ["a".toList, "b".toList]
    layers := [⟨[], .connected shortLayer⟩, ⟨[], .softmax (Softmax.new 2)⟩] }

def shortNet (w : Tensor) (β : Nat → ℝ) : List NetLayer := [.full 2 w β]

theorem shortNetModel_denotes : shortNetModel.Denotes 0 ⟨1, 1, 1⟩ (shortNet (fun _ _ _ => 0) (fun _ => 0)) 2 := by
  refine ⟨⟨[.connected shortLayer], Softmax.new 2, rfl, ⟨⟨⟨?_, ?_, rfl⟩, by simp [shortLayer], by simp [shortLayer], Or.inl rfl⟩, trivial⟩, rfl⟩, rfl, Or.inl rfl⟩
  · refine Matrix.Shows.of_vals ⟨by decide, by decide, by decide, by decide⟩ rfl ?_
    simp [shortLayer, List.range_succ]
  · refine Matrix.Shows.of_vals ⟨by decide, by decide, by decide, by decide⟩ rfl ?_
    simp [shortLayer, List.range_succ]

def shortInput : Matrix ℝ := ⟨dimN 1 1 1, [0]⟩

theorem shortInput_shows : shortInput.Shows 1 1 1 (fun _ _ _ => 0) := by
  refine Matrix.Shows.of_vals ⟨by omega, by omega, by omega, by omega⟩ rfl ?_
  simp [shortInput, List.range_succ]

/-- The derivative of the loss with respect to the first bias is negative for the first label and positive for the second. -/
theorem shortNet_bias {w dw : Tensor} {β db : Nat → ℝ} {t : Nat} (h : NetParamGrad (shortNet w β) 0 ⟨1, 1, 1⟩ 2 t (fun _ _ _ => 0) dw db) :
    (t = 0 → db 0 < 0) ∧ (t = 1 → 0 < db 0) := by
  have hd := h.bias (l := .full 2 w β) (w := w) (β := β) (f := 0) rfl rfl (show 0 < 2 by omega)
  have hloss : ∀ t < 2, (fun v => netLoss ((shortNet w β).set 0 ((NetLayer.full 2 w β).withParams w (Function.update β 0 v))) ⟨1, 1, 1⟩ 2 t
      (fun _ _ _ => 0)) = fun v => Real.log (Real.exp v + Real.exp (β 1)) - (if t = 0 then v else β 1) := by
    intro t ht
    funext v
    have hp : (0 : ℝ) < Real.exp v + Real.exp (β 1) := by positivity
    obtain rfl | rfl : t = 0 ∨ t = 1 := by omega
    · simp [shortNet, netLoss, netProb, softmax, NetLayer.withParams, netOut, NetLayer.out, netEval, NetLayer.eval, flatOf, sum_range_succ]
      rw [Real.log_div (Real.exp_ne_zero _) hp.ne', Real.log_exp]
      ring
    · simp [shortNet, netLoss, netProb, softmax, NetLayer.withParams, netOut, NetLayer.out, netEval, NetLayer.eval, flatOf, sum_range_succ]
      rw [Real.log_div (Real.exp_ne_zero _) hp.ne', Real.log_exp]
      ring
  have hp : (0 : ℝ) < Real.exp (β 0) + Real.exp (β 1) := by positivity
  have hlog : HasDerivAt (fun v => Real.log (Real.exp v + Real.exp (β 1))) (Real.exp (β 0) / (Real.exp (β 0) + Real.exp (β 1))) (β 0) :=
    ((Real.hasDerivAt_exp (β 0)).add_const _).log hp.ne'
  constructor
  · rintro rfl
    rw [hloss 0 (by omega)] at hd
    simp only [if_true] at hd
    rw [hd.unique (hlog.sub (hasDerivAt_id' (β 0))), sub_neg, div_lt_one hp]
    have := Real.exp_pos (β 1)
    linarith
  · rintro rfl
    rw [hloss 1 (by omega)] at hd
    simp only [Nat.one_ne_zero, if_false] at hd
    rw [hd.unique (hlog.sub_const (β 1))]
    positivity

theorem shortNet_descend (rate : ℝ) (f : List NetLayer → ℝ) (w : Tensor) (β : Nat → ℝ) :
    ∃ w' β', descend rate f (shortNet w β) = shortNet w' β' := by
  have h := descend_same rate f (shortNet w β)
  generalize descend rate f (shortNet w β) = ls' at h
  cases h with
  | cons h1 h2 =>
    cases h2
    obtain ⟨w', β', rfl⟩ := h1
    exact ⟨w', β', rfl⟩

/-- C54 fails: the samples "b", "b", "a" in batches of two. The second batch contains only the sample "a"; the other slot
still holds the gradient of a sample "b" from the batch before, which points in the other direction, and enters the update. -/
theorem C54_violated : ¬ C54_claim := by
  intro hc
  let a : Sample ℝ := ⟨shortInput, "a".toList⟩
  let b : Sample ℝ := ⟨shortInput, "b".toList⟩
  let p : Hyper ℝ := ⟨1, 2, 1, 1⟩
  let s : Shape := ⟨1, 1, 1⟩
  let z : Tensor := fun _ _ _ => 0
  have hE : (exactEnv).Exact := ⟨rfl, rfl, rfl⟩
  have hB : (2 : Nat) < 2 ^ 24 := by omega
  have fits : ∀ w β, NetFits (shortNet w β) s := fun _ _ => ⟨trivial, trivial⟩
  have trains : ∀ w β, NetTrains true (shortNet w β) s := fun _ _ => ⟨trivial, trivial⟩
  have smooth : ∀ w β, NetSmooth (shortNet w β) s z := fun _ _ => ⟨trivial, trivial⟩
  let labels := ["a".toList, "b".toList]
  have ha : a.Is labels s (z, 0) := ⟨shortInput_shows, rfl, by simp⟩
  have hb : b.Is labels s (z, 1) := by
    refine ⟨shortInput_shows, rfl, ?_⟩
    intro t ht
    obtain rfl : t = 0 := by
      have : t < 1 := ht
      omega
    simp [labels, b]
  -- the first batch
  let sh₀ : Shared ℝ := ⟨shortNetModel.setBatchSize 2, [b, b, a], 0⟩
  have hT₀ : Trainee labels s 2 2 sh₀.model (shortNet z (fun _ => 0)) :=
    ⟨shortNetModel_denotes.prepared (fits _ _) 2, shortNetModel_denotes.setBatchSize (by omega), fits _ _, trains _ _, rfl⟩
  have hd₀ : List.Forall₂ (Sample.Is labels s) (sh₀.source.take 2) [(z, 1), (z, 1)] := .cons hb (.cons hb .nil)
  have hsm₀ : ∀ e ∈ [(z, 1), (z, 1)], NetSmooth (shortNet z (fun _ => 0)) s e.1 := by
    intro e he
    have : e = (z, 1) := by simpa using he
    rw [this]; exact smooth _ _
  obtain ⟨sched₀, q₀, hq₀⟩ := (hT₀.progress (p := p) (T := 1) hE rfl rfl hB (by omega) (by omega) rfl hd₀).2
  have hown₀ : OwnLabels sh₀.model q₀.2 := own_one (p := p) hB rfl rfl hq₀
  obtain ⟨hT₁, -, hsrc⟩ := hT₀.step_own (p := p) (T := 1) hE rfl rfl hB rfl hd₀ hsm₀ hq₀ hown₀
  obtain ⟨w₁, β₁, hls⟩ := shortNet_descend p.rate (meanLoss s 2 [(z, 1), (z, 1)]) z (fun _ => 0)
  rw [hls] at hT₁
  have hsrc : q₀.1.source = [a] := hsrc
  -- what it leaves in the slots
  obtain ⟨-, t, ht, ht', hg₀⟩ := alone_net hE hT₀.denotes (fits _ _) (trains _ _) hb.data (.self (smooth _ _)) (label := b.label)
    (by rw [hT₀.labels]; simp [labels, b])
  obtain rfl : t = 1 := by
    rw [hT₀.labels] at ht ht'
    have hlt := (List.getElem?_eq_some_iff.1 ht).1
    have : t < 2 := hlt
    obtain rfl | rfl : t = 0 ∨ t = 1 := by omega
    · simp [labels, b] at ht
    · rfl
  obtain ⟨DW₀, DB₀, dw₀, db₀, o₀, s₀, s₀', n₀⟩ := hg₀ 0 _ rfl (by simp [NetLayer.params])
  have pos := (shortNet_bias n₀).2 rfl
  have hslots : ∀ s < 2, q₀.1.model.stored 0 s = some (DW₀, DB₀) := by
    intro s hs
    obtain ⟨x, hx, hxs⟩ := full_slots (p := p) (T := 1) rfl rfl hB hT₀.prepared (by simp [sh₀]) hq₀ hown₀ s hs
    have : x = b := by simpa [sh₀] using hx
    rw [hxs, this]
    exact o₀
  -- the second batch
  obtain ⟨-, t, ht, ht', hg₁⟩ := alone_net hE hT₁.denotes (fits _ _) (trains _ _) ha.data (.self (smooth _ _)) (label := a.label)
    (by rw [hT₁.labels]; simp [labels, a])
  obtain rfl : t = 0 := by
    rw [hT₁.labels] at ht ht'
    have hlt := (List.getElem?_eq_some_iff.1 ht).1
    have : t < 2 := hlt
    obtain rfl | rfl : t = 0 ∨ t = 1 := by omega
    · rfl
    · simp [labels, a] at ht
  obtain ⟨DW₁, DB₁, dw₁, db₁, o₁, s₁, s₁', n₁⟩ := hg₁ 0 _ rfl (by simp [NetLayer.params])
  have neg := (shortNet_bias n₁).1 rfl
  have htake : q₀.1.source.take 2 = [a] := by rw [hsrc]; rfl
  have hd₁ : List.Forall₂ (Sample.Is labels s) (q₀.1.source.take 2) [(z, 0)] := by rw [htake]; exact .cons ha .nil
  have hsm₁ : ∀ e ∈ [(z, 0)], NetSmooth (shortNet w₁ β₁) s e.1 := by
    intro e he
    have : e = (z, 0) := by simpa using he
    rw [this]; exact smooth _ _
  obtain ⟨W, Bi, hpar, hW, hBi⟩ := hT₁.denotes.params (i := 0) (l := .full 2 w₁ β₁) rfl rfl
  obtain ⟨sched, q, hq⟩ := (runBatch_progress (p := p) (T := 1) rfl rfl hB (by omega) (by omega) hT₁.prepared (hT₁.alone hE hd₁)
    (hT₁.sizes hE hd₁) (Or.inr (by
      intro i W' Bi' X Y Z F w β hp' hW' hBi' s hs
      obtain ⟨l, w', β', e1, e2⟩ := hT₁.denotes.has_params hp'
      obtain rfl : i = 0 := by
        have : i < 1 := (List.getElem?_eq_some_iff.1 e1).1
        omega
      rw [hpar] at hp'
      simp only [Option.some.injEq, Prod.mk.injEq] at hp'
      obtain ⟨rfl, rfl⟩ := hp'
      obtain ⟨d1, d2, d3⟩ := dimN_inj.1 (hW.dim.symm.trans hW'.dim)
      obtain ⟨d4, -, -⟩ := dimN_inj.1 (hBi.dim.symm.trans hBi'.dim)
      subst d1 d2 d3 d4
      exact ⟨DW₀, DB₀, dw₀, fun f _ _ => db₀ f, hslots s hs, Matrix.Shows.reads s₀, s₀'.reads⟩))).2
  have hown : OwnLabels q₀.1.model q.2 := own_one (p := p) hB rfl rfl hq
  obtain ⟨free, f1, f2, f3, f4⟩ := C54_update_partial exactEnv p 2 1 rfl rfl hB q₀.1 hT₁.prepared sched q hq hown
  obtain ⟨g, c, g', c', k1, k2, W', B', k3, -, k4⟩ := f4 0 W Bi _ _ _ _ w₁ β₁ hpar hW hBi
  rw [htake] at f3 k1 k4
  obtain ⟨x, rfl⟩ : ∃ x, free = [x] := List.length_eq_one_iff.1 (by simp at f3; omega)
  -- what the claim says
  obtain ⟨W'', B'', c3, c4⟩ := hc exactEnv p 2 shortNetModel s _ 2 [b, b, a] [sched₀] (q₀.1, q₀.2 ++ []) sched q hE shortNetModel_denotes rfl rfl
    (by omega) hB (by simp only [runBatches, hq₀, Res.bind_ok, sh₀]) hq (by rw [hsrc]; simp) 0 2 W Bi β₁ c hpar hBi (by
      rw [htake]
      intro x hx
      obtain ⟨G, H, h1, _, h3⟩ := k1 x hx
      exact ⟨G, H, h1, h3⟩)
  rw [k3] at c3
  simp only [Option.some.injEq, Prod.mk.injEq] at c3
  obtain ⟨rfl, rfl⟩ := c3
  rw [htake] at c4
  have e := (k4.entry 0 (show 0 < 2 by omega) 0 (by omega) 0 (by omega)).symm.trans (c4.entry 0 (by omega) 0 (by omega) 0 (by omega))
  have e := Res.ok.inj e
  have ea : c a 0 = db₁ 0 := by
    obtain ⟨G, H, h1, _, h3⟩ := k1 a (by simp)
    have h1 : some (DW₁, DB₁) = some (G, H) := o₁.symm.trans h1
    simp only [Option.some.injEq, Prod.mk.injEq] at h1
    obtain ⟨rfl, rfl⟩ := h1
    exact Res.ok.inj ((h3.entry 0 (show 0 < 2 by omega) 0 (by omega) 0 (by omega)).symm.trans (s₁'.entry 0 (show 0 < 2 by omega) 0 (by omega) 0 (by omega)))
  have eb : c' x 0 = db₀ 0 := by
    obtain ⟨G, H, h1, _, h3⟩ := k2 x (by simp)
    rw [hslots x (f2 x (by simp)).1] at h1
    simp only [Option.some.injEq, Prod.mk.injEq] at h1
    obtain ⟨rfl, rfl⟩ := h1
    exact Res.ok.inj ((h3.entry 0 (show 0 < 2 by omega) 0 (by omega) 0 (by omega)).symm.trans (s₀'.entry 0 (show 0 < 2 by omega) 0 (by omega) 0 (by omega)))
  simp only [List.map_cons, List.map_nil, List.sum_cons, List.sum_nil, add_zero, List.length_cons, List.length_nil, ea, eb, p, exactEnv, Num.real] at e
  norm_num at e
  linarith

end Train
end Cnn
