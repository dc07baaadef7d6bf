import Verif.Lemmas.Lowers
import Verif.Lemmas.Stale
import Verif.Spec.Surrogate
/-! A network with a SIGMOID layer for which the step of training raises the mean loss (C91). -/
namespace Cnn
open Finset

/-- The loss of two outputs. -/
noncomputable def two (t : Nat) (a b : ℝ) : ℝ := Real.log (Real.exp a + Real.exp b) - if t = 0 then a else b

theorem two_deriv (t : Nat) {f g : ℝ → ℝ} {f' g' θ : ℝ} (hf : HasDerivAt f f' θ) (hg : HasDerivAt g g' θ) :
    HasDerivAt (fun τ => two t (f τ) (g τ)) ((Real.exp (f θ) / (Real.exp (f θ) + Real.exp (g θ)) - if t = 0 then 1 else 0) * (f' - g')) θ := by
  have hp : 0 < Real.exp (f θ) + Real.exp (g θ) := by positivity
  have h := (hf.exp.fun_add hg.exp).log hp.ne'
  unfold two
  by_cases ht : t = 0
  · simp only [ht, if_true]
    refine (h.fun_sub hf).congr_deriv ?_
    field_simp
    ring
  · simp only [ht, if_false]
    refine (h.fun_sub hg).congr_deriv ?_
    field_simp
    ring

/-- Two fully connected layers with an activation between them. -/
abbrev threeNet (w : Tensor) (b : Nat → ℝ) (l : NetLayer) (U : Tensor) (β : Nat → ℝ) : List NetLayer := [.full 1 w b, l, .full 2 U β]

theorem threeNet_loss (w : Tensor) (b : Nat → ℝ) (f : ActFn) (U : Tensor) (β : Nat → ℝ) {t : Nat} (ht : t < 2) (x : Tensor) :
    netLoss (threeNet w b (.act f) U β) ⟨1, 1, 1⟩ 2 t x =
      two t (β 0 + U 0 0 0 * actSpec f (b 0 + w 0 0 0 * x 0 0 0)) (β 1 + U 1 0 0 * actSpec f (b 0 + w 0 0 0 * x 0 0 0)) := by
  obtain rfl | rfl : t = 0 ∨ t = 1 := by omega
  all_goals
    simp only [netLoss, netProb, softmax, netOut, NetLayer.out, netEval, NetLayer.eval, flatOf, sum_range_succ, sum_range_zero, zero_add, two]
    rw [Real.log_div (Real.exp_ne_zero _) (by positivity), Real.log_exp]
    norm_num

theorem threeNet_gate (w : Tensor) (b : Nat → ℝ) (m c : Tensor) (U : Tensor) (β : Nat → ℝ) {t : Nat} (ht : t < 2) (x : Tensor) :
    netLoss (threeNet w b (.gate 1 1 (fun i _ _ => i) (fun _ j _ => j) m c) U β) ⟨1, 1, 1⟩ 2 t x =
      two t (β 0 + U 0 0 0 * (m 0 0 0 * (b 0 + w 0 0 0 * x 0 0 0) + c 0 0 0)) (β 1 + U 1 0 0 * (m 0 0 0 * (b 0 + w 0 0 0 * x 0 0 0) + c 0 0 0)) := by
  obtain rfl | rfl : t = 0 ∨ t = 1 := by omega
  all_goals
    simp only [netLoss, netProb, softmax, netOut, NetLayer.out, netEval, NetLayer.eval, flatOf, sum_range_succ, sum_range_zero, zero_add, two]
    rw [Real.log_div (Real.exp_ne_zero _) (by positivity), Real.log_exp]
    norm_num

/-- The network. -/
noncomputable def risingNet : List NetLayer :=
  threeNet (fun _ _ _ => 1 / 64) (fun _ => -1) (.act .sigmoid) (fun i _ _ => if i = 0 then 1 else 0) (fun _ => 0)

/-- The output of the first layer, that of the second, the slope used there, the difference between the first probability and the one wanted. -/
noncomputable def risingZ (ξ : ℝ) : ℝ := -1 + 1 / 64 * ξ
noncomputable def risingY (ξ : ℝ) : ℝ := Real.sigmoid (risingZ ξ)
noncomputable def risingM (ξ : ℝ) : ℝ := Real.sigmoid (risingY ξ) * (1 - Real.sigmoid (risingY ξ))
noncomputable def risingR (t : Nat) (ξ : ℝ) : ℝ := Real.sigmoid (risingY ξ) - if t = 0 then 1 else 0

theorem sigmoid_two (y : ℝ) : Real.exp y / (Real.exp y + 1) = Real.sigmoid y := by
  rw [Real.sigmoid_def, Real.exp_neg]
  have := Real.exp_pos y
  field_simp

/-- The network in its place. -/
theorem risingNet_surrogate (ξ : ℝ) : netSurrogate risingNet ⟨1, 1, 1⟩ (fun _ _ _ => ξ) = threeNet (fun _ _ _ => 1 / 64) (fun _ => -1)
    (.gate 1 1 (fun i _ _ => i) (fun _ j _ => j) (fun _ _ _ => risingM ξ) (fun _ _ _ => risingY ξ - risingM ξ * risingZ ξ))
    (fun i _ _ => if i = 0 then 1 else 0) (fun _ => 0) := by
  simp [risingNet, threeNet, netSurrogate, NetLayer.surrogate, NetLayer.eval, NetLayer.out, actSlope, actSpec, risingM, risingY, risingZ, flatOf]

theorem rising_first (t : Nat) (ht : t < 2) (ξ : ℝ) :
    weightPartial ⟨1, 1, 1⟩ 2 (netSurrogate risingNet ⟨1, 1, 1⟩ (fun _ _ _ => ξ), ((fun _ _ _ => ξ), t)) 0 0 0 0 = risingR t ξ * (risingM ξ * ξ) ∧
    biasPartial ⟨1, 1, 1⟩ 2 (netSurrogate risingNet ⟨1, 1, 1⟩ (fun _ _ _ => ξ), ((fun _ _ _ => ξ), t)) 0 0 = risingR t ξ * risingM ξ := by
  rw [risingNet_surrogate]
  simp only [weightPartial, biasPartial, List.getElem?_cons_zero, NetLayer.params, List.set_cons_zero, NetLayer.withParams, threeNet_gate _ _ _ _ _ _ ht,
    Tensor.update, Function.update_self]
  constructor
  · have h : HasDerivAt (fun v : ℝ => risingM ξ * (-1 + v * ξ) + (risingY ξ - risingM ξ * risingZ ξ)) (risingM ξ * ξ) (1 / 64) := by
      have := ((((hasDerivAt_id' (1 / 64 : ℝ)).mul_const ξ).const_add (-1)).const_mul (risingM ξ)).add_const (risingY ξ - risingM ξ * risingZ ξ)
      simpa using this
    have h2 := two_deriv t h (hasDerivAt_const (1 / 64 : ℝ) (0 : ℝ))
    have e : risingM ξ * (-1 + 1 / 64 * ξ) + (risingY ξ - risingM ξ * risingZ ξ) = risingY ξ := by unfold risingZ; ring
    rw [e, Real.exp_zero, sigmoid_two, sub_zero] at h2
    simpa [risingR] using h2.deriv
  · have h : HasDerivAt (fun v : ℝ => risingM ξ * (v + 1 / 64 * ξ) + (risingY ξ - risingM ξ * risingZ ξ)) (risingM ξ) (-1) := by
      have := (((hasDerivAt_id' (-1 : ℝ)).add_const (1 / 64 * ξ)).const_mul (risingM ξ)).add_const (risingY ξ - risingM ξ * risingZ ξ)
      simpa using this
    have h2 := two_deriv t h (hasDerivAt_const (-1 : ℝ) (0 : ℝ))
    have e : risingM ξ * (-1 + 1 / 64 * ξ) + (risingY ξ - risingM ξ * risingZ ξ) = risingY ξ := by unfold risingZ; ring
    rw [e, Real.exp_zero, sigmoid_two, sub_zero] at h2
    simpa [risingR] using h2.deriv

theorem rising_last (t : Nat) (ht : t < 2) (ξ : ℝ) :
    weightPartial ⟨1, 1, 1⟩ 2 (netSurrogate risingNet ⟨1, 1, 1⟩ (fun _ _ _ => ξ), ((fun _ _ _ => ξ), t)) 2 0 0 0 = risingR t ξ * risingY ξ ∧
    weightPartial ⟨1, 1, 1⟩ 2 (netSurrogate risingNet ⟨1, 1, 1⟩ (fun _ _ _ => ξ), ((fun _ _ _ => ξ), t)) 2 1 0 0 = -(risingR t ξ * risingY ξ) ∧
    biasPartial ⟨1, 1, 1⟩ 2 (netSurrogate risingNet ⟨1, 1, 1⟩ (fun _ _ _ => ξ), ((fun _ _ _ => ξ), t)) 2 0 = risingR t ξ ∧
    biasPartial ⟨1, 1, 1⟩ 2 (netSurrogate risingNet ⟨1, 1, 1⟩ (fun _ _ _ => ξ), ((fun _ _ _ => ξ), t)) 2 1 = -risingR t ξ := by
  rw [risingNet_surrogate]
  have e : risingM ξ * (-1 + 1 / 64 * ξ) + (risingY ξ - risingM ξ * risingZ ξ) = risingY ξ := by unfold risingZ; ring
  have h0 : HasDerivAt (fun _ : ℝ => (0 : ℝ)) 0 0 := hasDerivAt_const _ _
  have hy0 : HasDerivAt (fun _ : ℝ => risingY ξ) 0 0 := hasDerivAt_const _ _
  have hy1 : HasDerivAt (fun _ : ℝ => risingY ξ) 0 1 := hasDerivAt_const _ _
  have h1 : HasDerivAt (fun v : ℝ => v * risingY ξ) (risingY ξ) 1 := by simpa using (hasDerivAt_id' (1 : ℝ)).mul_const (risingY ξ)
  have h2 : HasDerivAt (fun v : ℝ => v * risingY ξ) (risingY ξ) 0 := by simpa using (hasDerivAt_id' (0 : ℝ)).mul_const (risingY ξ)
  have h3 : HasDerivAt (fun v : ℝ => v + risingY ξ) 1 0 := (hasDerivAt_id' (0 : ℝ)).add_const (risingY ξ)
  have k1 := (two_deriv t h1 (hasDerivAt_const (1 : ℝ) (0 : ℝ))).deriv
  have k2 := (two_deriv t hy0 h2).deriv
  have k3 := (two_deriv t h3 h0).deriv
  have k4 := (two_deriv t hy0 (hasDerivAt_id' (0 : ℝ))).deriv
  simp only [one_mul, zero_mul, zero_add, Real.exp_zero, sigmoid_two] at k1 k2 k3 k4
  simp only [weightPartial, biasPartial, List.getElem?_cons_succ, List.getElem?_cons_zero, NetLayer.params, List.set_cons_succ, List.set_cons_zero, NetLayer.withParams]
  simp only [threeNet_gate _ _ _ _ _ _ ht, Tensor.update, Function.update_self, e]
  refine ⟨?_, ?_, ?_, ?_⟩
  · simpa [risingR] using k1
  · simpa [risingR] using k2
  · simpa [risingR] using k3
  · simpa [risingR] using k4

/-- The two samples: 64 with the second label, 512 with the first. -/
noncomputable def risingData : List (Tensor × Nat) := [(fun _ _ _ => 64, 1), (fun _ _ _ => 512, 0)]

/-- The network after one step. -/
noncomputable def risen (rate : ℝ) : List NetLayer :=
  memStep (fun ls x => netSurrogate ls ⟨1, 1, 1⟩ x) rate ⟨1, 1, 1⟩ 2 (risingData.map fun e => (risingNet, e)) risingNet

theorem risen_loss (rate ξ : ℝ) {t : Nat} (ht : t < 2) : netLoss (risen rate) ⟨1, 1, 1⟩ 2 t (fun _ _ _ => ξ) =
    two t (0 - rate * ((risingR 1 64 + risingR 0 512) / 2) + (1 - rate * ((risingR 1 64 * risingY 64 + risingR 0 512 * risingY 512) / 2)) *
        Real.sigmoid (-1 - rate * ((risingR 1 64 * risingM 64 + risingR 0 512 * risingM 512) / 2) +
          (1 / 64 - rate * ((risingR 1 64 * (risingM 64 * 64) + risingR 0 512 * (risingM 512 * 512)) / 2)) * ξ))
      (0 - rate * ((-risingR 1 64 + -risingR 0 512) / 2) + (0 - rate * ((-(risingR 1 64 * risingY 64) + -(risingR 0 512 * risingY 512)) / 2)) *
        Real.sigmoid (-1 - rate * ((risingR 1 64 * risingM 64 + risingR 0 512 * risingM 512) / 2) +
          (1 / 64 - rate * ((risingR 1 64 * (risingM 64 * 64) + risingR 0 512 * (risingM 512 * 512)) / 2)) * ξ)) := by
  obtain ⟨a1, a2⟩ := rising_first 1 (by omega) 64
  obtain ⟨b1, b2⟩ := rising_first 0 (by omega) 512
  obtain ⟨a3, a4, a5, a6⟩ := rising_last 1 (by omega) 64
  obtain ⟨b3, b4, b5, b6⟩ := rising_last 0 (by omega) 512
  have hr : risen rate = threeNet
      (fun a b c => 1 / 64 - rate * (((risingData.map fun e => (risingNet, e)).map fun m =>
        weightPartial ⟨1, 1, 1⟩ 2 (netSurrogate m.1 ⟨1, 1, 1⟩ m.2.1, m.2) 0 a b c).sum / (risingData.map fun e => (risingNet, e)).length))
      (fun k => -1 - rate * (((risingData.map fun e => (risingNet, e)).map fun m =>
        biasPartial ⟨1, 1, 1⟩ 2 (netSurrogate m.1 ⟨1, 1, 1⟩ m.2.1, m.2) 0 k).sum / (risingData.map fun e => (risingNet, e)).length))
      (.act .sigmoid)
      (fun a b c => (if a = 0 then 1 else 0) - rate * (((risingData.map fun e => (risingNet, e)).map fun m =>
        weightPartial ⟨1, 1, 1⟩ 2 (netSurrogate m.1 ⟨1, 1, 1⟩ m.2.1, m.2) 2 a b c).sum / (risingData.map fun e => (risingNet, e)).length))
      (fun k => 0 - rate * (((risingData.map fun e => (risingNet, e)).map fun m =>
        biasPartial ⟨1, 1, 1⟩ 2 (netSurrogate m.1 ⟨1, 1, 1⟩ m.2.1, m.2) 2 k).sum / (risingData.map fun e => (risingNet, e)).length)) := rfl
  rw [hr, threeNet_loss _ _ _ _ _ ht]
  simp only [risingData, List.map_cons, List.map_nil, List.sum_cons, List.sum_nil, add_zero, List.length_cons, List.length_nil, a1, a2, b1, b2, a3, a4, a5, a6, b3, b4, b5, b6, actSpec]
  norm_num

theorem risen_zero : risen 0 = risingNet := by
  have h : ∀ (l : NetLayer) (w : Tensor) (β : Nat → ℝ), l.params = some (w, β) → l.withParams (fun a b c => w a b c - 0) (fun k => β k - 0) = l := by
    intro l w β h
    simp only [sub_zero]
    exact withParams_same h
  unfold risen memStep
  refine List.ext_getElem? fun i => ?_
  rw [List.getElem?_mapIdx]
  cases h' : risingNet[i]? with
  | none => rfl
  | some l =>
    simp only [Option.map_some, Option.some.injEq]
    cases hp : l.params with
    | none => rfl
    | some v =>
      obtain ⟨w, β⟩ := v
      simp only [zero_mul]
      exact h l w β hp

/-- The derivative of the mean loss along the step is positive. -/
theorem risen_deriv : ∃ m > 0, HasDerivAt (fun τ => meanLoss ⟨1, 1, 1⟩ 2 risingData (risen τ)) m 0 := by
  have hline : ∀ p q : ℝ, HasDerivAt (fun τ => p - τ * q) (-q) 0 := fun p q => by
    simpa using ((hasDerivAt_id' (0 : ℝ)).mul_const q).const_sub p
  have key : ∀ (t : Nat) (ξ p q u b w : ℝ), HasDerivAt (fun τ : ℝ => two t (0 - τ * p + (1 - τ * q) * Real.sigmoid (-1 - τ * b + (1 / 64 - τ * w) * ξ))
      (0 - τ * (-p) + (0 - τ * (-q)) * Real.sigmoid (-1 - τ * b + (1 / 64 - τ * w) * ξ)))
      (risingR t ξ * (-2 * p - 2 * q * risingY ξ - risingY ξ * (1 - risingY ξ) * (b + w * ξ))) 0 := by
    intro t ξ p q u b w
    have hz : HasDerivAt (fun τ : ℝ => -1 - τ * b + (1 / 64 - τ * w) * ξ) (-b + -w * ξ) 0 := (hline (-1) b).fun_add ((hline (1 / 64) w).mul_const ξ)
    have hs := (Real.hasDerivAt_sigmoid (-1 - 0 * b + (1 / 64 - 0 * w) * ξ)).comp (0 : ℝ) hz
    have e : -1 - 0 * b + (1 / 64 - 0 * w) * ξ = risingZ ξ := by unfold risingZ; ring
    rw [e] at hs
    have hs : HasDerivAt (fun τ : ℝ => Real.sigmoid (-1 - τ * b + (1 / 64 - τ * w) * ξ)) (risingY ξ * (1 - risingY ξ) * (-b + -w * ξ)) 0 := hs
    have h1 := (hline 0 p).fun_add ((hline 1 q).fun_mul hs)
    have h2 := (hline 0 (-p)).fun_add ((hline 0 (-q)).fun_mul hs)
    have h3 := two_deriv t h1 h2
    refine h3.congr_deriv ?_
    simp only [zero_mul, sub_zero, zero_add, one_mul, Real.exp_zero, risingR]
    rw [show Real.sigmoid (-1 + 1 / 64 * ξ) = risingY ξ from rfl, sigmoid_two]
    ring
  have h1 := key 1 64 ((risingR 1 64 + risingR 0 512) / 2) ((risingR 1 64 * risingY 64 + risingR 0 512 * risingY 512) / 2) 0
    ((risingR 1 64 * risingM 64 + risingR 0 512 * risingM 512) / 2) ((risingR 1 64 * (risingM 64 * 64) + risingR 0 512 * (risingM 512 * 512)) / 2)
  have h2 := key 0 512 ((risingR 1 64 + risingR 0 512) / 2) ((risingR 1 64 * risingY 64 + risingR 0 512 * risingY 512) / 2) 0
    ((risingR 1 64 * risingM 64 + risingR 0 512 * risingM 512) / 2) ((risingR 1 64 * (risingM 64 * 64) + risingR 0 512 * (risingM 512 * 512)) / 2)
  have h := (h1.fun_add h2).div_const 2
  refine ⟨_, ?_, h.congr_of_eventuallyEq (Filter.Eventually.of_forall fun τ => ?_)⟩
  · -- the numbers
    have p0 : ∀ y : ℝ, 0 ≤ y → 1 / 2 ≤ Real.sigmoid y := fun y hy => by
      have : Real.sigmoid 0 ≤ Real.sigmoid y := Real.sigmoid_strictMono.monotone hy
      rw [show Real.sigmoid 0 = 1 / 2 by rw [Real.sigmoid_def]; norm_num] at this
      exact this
    have p1 : ∀ y : ℝ, y ≤ 1 → Real.sigmoid y ≤ 3 / 4 := fun y hy => by
      refine (Real.sigmoid_strictMono.monotone hy).trans ?_
      rw [← sigmoid_two, div_le_div_iff₀ (by positivity) (by norm_num)]
      have := Real.exp_one_lt_d9
      linarith
    have hy1 : risingY 64 = 1 / 2 := by
      unfold risingY risingZ
      rw [Real.sigmoid_def]; norm_num
    have hy2 : 127 / 128 ≤ risingY 512 := by
      unfold risingY risingZ
      rw [← sigmoid_two, show (-1 + 1 / 64 * 512 : ℝ) = (7 : ℕ) by norm_num, ← Real.exp_one_pow, div_le_div_iff₀ (by norm_num) (by positivity)]
      have : (2 : ℝ) ^ 7 ≤ Real.exp 1 ^ 7 := by
        refine pow_le_pow_left₀ (by norm_num) ?_ 7
        have := Real.exp_one_gt_d9
        linarith
      norm_num at this ⊢
      linarith
    have hy3 : risingY 512 < 1 := Real.sigmoid_lt_one _
    have hs1 := p0 (risingY 64) (by rw [hy1]; norm_num)
    have hs2 := p1 (risingY 64) (by rw [hy1]; norm_num)
    have hs3 := p0 (risingY 512) (by linarith)
    have hs4 := p1 (risingY 512) (by linarith)
    have hr1 : risingR 1 64 = Real.sigmoid (risingY 64) := by simp [risingR]
    have hr2 : risingR 0 512 = Real.sigmoid (risingY 512) - 1 := by simp [risingR]
    have hm1 : risingM 64 = Real.sigmoid (risingY 64) * (1 - Real.sigmoid (risingY 64)) := rfl
    have hm2 : risingM 512 = Real.sigmoid (risingY 512) * (1 - Real.sigmoid (risingY 512)) := rfl
    have hm1u : risingM 64 ≤ 1 / 4 := by rw [hm1]; nlinarith [sq_nonneg (Real.sigmoid (risingY 64) - 1 / 2)]
    have hm1l : 3 / 16 ≤ risingM 64 := by rw [hm1]; nlinarith
    have hm2u : risingM 512 ≤ 1 / 4 := by rw [hm2]; nlinarith [sq_nonneg (Real.sigmoid (risingY 512) - 1 / 2)]
    have hm2l : 3 / 16 ≤ risingM 512 := by rw [hm2]; nlinarith
    generalize risingM 64 = m1 at *
    generalize risingM 512 = m2 at *
    rw [hy1, hr1, hr2]
    generalize Real.sigmoid (risingY 64) = s1 at *
    generalize Real.sigmoid (risingY 512) = s2 at *
    generalize risingY 512 = y at *
    clear hm1 hm2 h h1 h2 key hline
    have hk0 : 0 ≤ y * (1 - y) := mul_nonneg (by linarith) (by linarith)
    have hk1 : y * (1 - y) ≤ 1 / 128 := by nlinarith
    have hw : (s1 * (m1 * 64) + (s2 - 1) * (m2 * 512)) / 2 ≤ -6 := by nlinarith
    have hb : (s1 * m1 + (s2 - 1) * m2) / 2 ≤ 1 / 8 := by nlinarith
    have hb' : -1 / 8 ≤ (s1 * m1 + (s2 - 1) * m2) / 2 := by nlinarith
    have hq : |(s1 * (1 / 2) + (s2 - 1) * y) / 2| ≤ 1 / 2 := by rw [abs_le]; constructor <;> nlinarith
    have hp : |(s1 + (s2 - 1)) / 2| ≤ 1 / 2 := by rw [abs_le]; constructor <;> linarith
    have hq2 := (sq_le_sq₀ (abs_nonneg _) (by norm_num)).2 hq
    have hp2 := (sq_le_sq₀ (abs_nonneg _) (by norm_num)).2 hp
    rw [sq_abs] at hq2 hp2
    have hT : 6 ≤ 16 * s1 + 512 * ((s2 - 1) * (y * (1 - y))) := by nlinarith
    have hB : |s1 / 4 + (s2 - 1) * (y * (1 - y))| ≤ 1 := by rw [abs_le]; constructor <;> nlinarith
    have hbB : (s1 * m1 + (s2 - 1) * m2) / 2 * (s1 / 4 + (s2 - 1) * (y * (1 - y))) ≤ 1 / 8 := by
      refine (le_abs_self _).trans ?_
      rw [abs_mul]
      have := mul_le_mul (abs_le.2 ⟨by linarith, hb⟩ : |(s1 * m1 + (s2 - 1) * m2) / 2| ≤ 1 / 8) hB (abs_nonneg _) (by norm_num)
      linarith
    have hwT : (s1 * (m1 * 64) + (s2 - 1) * (m2 * 512)) / 2 * (16 * s1 + 512 * ((s2 - 1) * (y * (1 - y)))) ≤ -36 := by nlinarith
    have e : (s1 * (-2 * ((s1 + (s2 - 1)) / 2) - 2 * ((s1 * (1 / 2) + (s2 - 1) * y) / 2) * (1 / 2) -
          1 / 2 * (1 - 1 / 2) * ((s1 * m1 + (s2 - 1) * m2) / 2 + (s1 * (m1 * 64) + (s2 - 1) * (m2 * 512)) / 2 * 64)) +
        (s2 - 1) * (-2 * ((s1 + (s2 - 1)) / 2) - 2 * ((s1 * (1 / 2) + (s2 - 1) * y) / 2) * y -
          y * (1 - y) * ((s1 * m1 + (s2 - 1) * m2) / 2 + (s1 * (m1 * 64) + (s2 - 1) * (m2 * 512)) / 2 * 512))) / 2 =
        (-4 * ((s1 + (s2 - 1)) / 2) ^ 2 - 4 * ((s1 * (1 / 2) + (s2 - 1) * y) / 2) ^ 2
          - (s1 * m1 + (s2 - 1) * m2) / 2 * (s1 / 4 + (s2 - 1) * (y * (1 - y)))
          - (s1 * (m1 * 64) + (s2 - 1) * (m2 * 512)) / 2 * (16 * s1 + 512 * ((s2 - 1) * (y * (1 - y))))) / 2 := by ring
    rw [gt_iff_lt, e]
    linarith
  · simp only [meanLoss, risingData, List.map_cons, List.map_nil, List.sum_cons, List.sum_nil, add_zero, List.length_cons, List.length_nil]
    rw [risen_loss _ _ (by omega), risen_loss _ _ (by omega)]
    have e1 : (-risingR 1 64 + -risingR 0 512) / 2 = -((risingR 1 64 + risingR 0 512) / 2) := by ring
    have e2 : (-(risingR 1 64 * risingY 64) + -(risingR 0 512 * risingY 512)) / 2 = -((risingR 1 64 * risingY 64 + risingR 0 512 * risingY 512) / 2) := by ring
    rw [e1, e2]
    norm_num

/-- A function with a positive derivative increases at first. -/
theorem risen_rises : ∃ ρ > 0, ∀ τ, 0 < τ → τ < ρ → meanLoss ⟨1, 1, 1⟩ 2 risingData risingNet < meanLoss ⟨1, 1, 1⟩ 2 risingData (risen τ) := by
  obtain ⟨m, hm, h⟩ := risen_deriv
  obtain ⟨ρ, h1, h2⟩ := lowers_of_deriv h.fun_neg (neg_lt_zero.2 hm)
  refine ⟨ρ, h1, fun τ r1 r2 => ?_⟩
  have := h2 τ r1 r2
  rw [risen_zero] at this
  linarith

theorem rising_moves : ¬ Stationary ⟨1, 1, 1⟩ (meanLoss ⟨1, 1, 1⟩ 2 risingData) risingNet := by
  intro h
  have h1 := (h 2 _ _ _ rfl rfl).2 0 (show 0 < 2 by omega)
  have hd : ∀ t < 2, ∀ ξ : ℝ, HasDerivAt (fun v => netLoss (risingNet.set 2 ((NetLayer.full 2 (fun i _ _ => if i = 0 then 1 else 0) (fun _ => 0)).withParams
      (fun i _ _ => if i = 0 then 1 else 0) (Function.update (fun _ => 0) 0 v))) ⟨1, 1, 1⟩ 2 t (fun _ _ _ => ξ)) (risingR t ξ) 0 := by
    intro t ht ξ
    have h3 : HasDerivAt (fun v : ℝ => v + risingY ξ) 1 0 := (hasDerivAt_id' (0 : ℝ)).add_const (risingY ξ)
    have k3 := two_deriv t h3 (hasDerivAt_const (0 : ℝ) (0 : ℝ))
    simp only [zero_add, Real.exp_zero, sigmoid_two, sub_zero, mul_one] at k3
    refine k3.congr_of_eventuallyEq (Filter.Eventually.of_forall fun v => ?_)
    show netLoss (threeNet (fun _ _ _ => 1 / 64) (fun _ => -1) (.act .sigmoid) (fun i _ _ => if i = 0 then 1 else 0) (Function.update (fun _ => 0) 0 v)) ⟨1, 1, 1⟩ 2 t (fun _ _ _ => ξ) = _
    rw [threeNet_loss _ _ _ _ _ ht]
    simp [actSpec, risingY, risingZ]
  have h2 := ((hd 1 (by omega) 64).fun_add (hd 0 (by omega) 512)).div_const 2
  have h3 : HasDerivAt (fun v => meanLoss ⟨1, 1, 1⟩ 2 risingData (risingNet.set 2 ((NetLayer.full 2 (fun i _ _ => if i = 0 then 1 else 0) (fun _ => 0)).withParams
      (fun i _ _ => if i = 0 then 1 else 0) (Function.update (fun _ => 0) 0 v)))) ((risingR 1 64 + risingR 0 512) / 2) 0 := by
    refine h2.congr_of_eventuallyEq (Filter.Eventually.of_forall fun v => ?_)
    simp [meanLoss, risingData]
  rw [h3.deriv] at h1
  have hs : ∀ y : ℝ, 0 < y → 1 / 2 < Real.sigmoid y := fun y hy => by
    have : Real.sigmoid 0 < Real.sigmoid y := Real.sigmoid_strictMono hy
    rw [show Real.sigmoid 0 = 1 / 2 by rw [Real.sigmoid_def]; norm_num] at this
    exact this
  have a1 := hs (risingY 64) (Real.sigmoid_pos _)
  have a2 := hs (risingY 512) (Real.sigmoid_pos _)
  simp only [risingR] at h1
  norm_num at h1
  linarith

/-- A model determines the losses of the networks it computes. -/
theorem meanLoss_unique {E : Env ℝ} (hE : E.Exact) {M : Model ℝ} {b b' : Nat} {s : Shape} {ls ls' : List NetLayer} {n : Nat} (h : M.Denotes b s ls n)
    (h' : M.Denotes b' s ls' n) (hf : NetFits ls s) (hf' : NetFits ls' s) {d : List (Tensor × Nat)}
    (hd : ∀ e ∈ d, e.2 < n ∧ ∃ X : Matrix ℝ, X.Shows s.X s.Y s.Z e.1) : meanLoss s n d ls = meanLoss s n d ls' := by
  have key : ∀ e ∈ d, netLoss ls s n e.2 e.1 = netLoss ls' s n e.2 e.1 := by
    intro e he
    obtain ⟨ht, X, hX⟩ := hd e he
    have k := h.setBatchSize (m := 1) (c := 0) (by omega)
    have k' := h'.setBatchSize (m := 1) (c := 0) (by omega)
    obtain ⟨r, M₁, h1, ⟨P, p1, p2⟩, -⟩ := model_pass hE k hf hX
    obtain ⟨r', M₁', h1', ⟨P', p1', p2'⟩, -⟩ := model_pass hE k' hf' hX
    rw [h1] at h1'
    obtain ⟨rfl, rfl⟩ : r = r' ∧ M₁ = M₁' := by simpa using h1'
    rw [p1] at p1'
    obtain rfl : P = P' := by simpa using p1'
    unfold netLoss
    rw [p2.inj p2' ht]
  unfold meanLoss
  rw [List.map_congr_left key]

end Cnn
