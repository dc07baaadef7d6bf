import Mathlib.Probability.Moments.SubGaussian
import Verif.Spec.Real
/-! Softmax regression: the loss is convex and smooth, and gradient descent with small steps approaches its infimum (C92). -/
namespace Cnn.Convex
open Finset MeasureTheory ProbabilityTheory

/-- Logarithm of the sum of the exponentials. -/
noncomputable def lse (n : Nat) (v : Nat → ℝ) : ℝ := Real.log (∑ i ∈ range n, Real.exp (v i))

theorem sum_exp_pos {n : Nat} (hn : 0 < n) (v : Nat → ℝ) : 0 < ∑ i ∈ range n, Real.exp (v i) :=
  sum_pos (fun _ _ => Real.exp_pos _) ⟨0, mem_range.2 hn⟩

/-- Hoeffding's lemma for finitely many values. -/
theorem hoeffding {n : Nat} (p δ : Nat → ℝ) (hp : ∀ i, 0 ≤ p i) (h1 : ∑ i ∈ range n, p i = 1) (a b : ℝ) (hab : ∀ i ∈ range n, δ i ∈ Set.Icc a b) :
    ∑ i ∈ range n, p i * Real.exp (δ i) ≤ Real.exp (∑ i ∈ range n, p i * δ i + (b - a) ^ 2 / 8) := by
  let μ : Measure Nat := ∑ i ∈ range n, ENNReal.ofReal (p i) • Measure.dirac i
  have hint : ∀ f : Nat → ℝ, Integrable f μ ∧ ∫ x, f x ∂μ = ∑ i ∈ range n, p i * f i := by
    intro f
    have hi : ∀ i ∈ range n, Integrable f (ENNReal.ofReal (p i) • Measure.dirac i) := fun i _ =>
      (integrable_dirac (by simp)).smul_measure ENNReal.ofReal_ne_top
    refine ⟨integrable_finsetSum_measure.2 hi, ?_⟩
    rw [integral_finsetSum_measure hi]
    refine sum_congr rfl fun i _ => ?_
    rw [integral_smul_measure, integral_dirac, ENNReal.toReal_ofReal (hp i), smul_eq_mul]
  have hprob : IsProbabilityMeasure μ := by
    constructor
    simp only [μ, Measure.finsetSum_apply, Measure.smul_apply, measure_univ, smul_eq_mul, mul_one]
    rw [← ENNReal.ofReal_sum_of_nonneg fun i _ => hp i, h1, ENNReal.ofReal_one]
  have hae : ∀ᵐ ω ∂μ, δ ω ∈ Set.Icc a b := by
    rw [ae_iff]
    simp only [μ, Measure.finsetSum_apply, Measure.smul_apply, smul_eq_mul]
    refine sum_eq_zero fun i hi => ?_
    rw [Measure.dirac_apply' _ (MeasurableSet.of_discrete)]
    simpa using Or.inr (hab i hi)
  have h := (hasSubgaussianMGF_of_mem_Icc (X := δ) (μ := μ) (measurable_of_countable _).aemeasurable hae).mgf_le 1
  unfold mgf at h
  rw [(hint _).2] at h
  have hm := (hint δ).2
  simp only [hm, one_mul] at h
  have e : ∀ i ∈ range n, p i * Real.exp (δ i) = p i * Real.exp (δ i - ∑ i ∈ range n, p i * δ i) * Real.exp (∑ i ∈ range n, p i * δ i) := by
    intro i _
    rw [mul_assoc, ← Real.exp_add]; ring_nf
  rw [sum_congr rfl e, ← sum_mul, Real.exp_add, mul_comm]
  refine mul_le_mul_of_nonneg_left (h.trans (le_of_eq ?_)) (Real.exp_pos _).le
  congr 1
  push_cast
  simp only [Real.norm_eq_abs]
  rw [div_pow, sq_abs]
  norm_num
  ring

theorem softmax_sum {n : Nat} (hn : 0 < n) (v : Nat → ℝ) : ∑ i ∈ range n, softmax n v i = 1 := by
  unfold softmax
  rw [← sum_div, div_self (sum_exp_pos hn v).ne']

theorem softmax_nonneg (n : Nat) (v : Nat → ℝ) (i : Nat) : 0 ≤ softmax n v i :=
  div_nonneg (Real.exp_pos _).le (sum_nonneg fun _ _ => (Real.exp_pos _).le)

theorem lse_add {n : Nat} (hn : 0 < n) (v δ : Nat → ℝ) :
    lse n (fun i => v i + δ i) = lse n v + Real.log (∑ i ∈ range n, softmax n v i * Real.exp (δ i)) := by
  have h0 := sum_exp_pos hn v
  have h1 : ∑ i ∈ range n, softmax n v i * Real.exp (δ i) = (∑ i ∈ range n, Real.exp (v i + δ i)) / ∑ i ∈ range n, Real.exp (v i) := by
    rw [sum_div]
    refine sum_congr rfl fun i _ => ?_
    rw [Real.exp_add]; unfold softmax; ring
  rw [h1, Real.log_div (sum_exp_pos hn fun i => v i + δ i).ne' h0.ne']
  unfold lse; ring

theorem lse_lower {n : Nat} (hn : 0 < n) (v δ : Nat → ℝ) : lse n v + ∑ i ∈ range n, softmax n v i * δ i ≤ lse n fun i => v i + δ i := by
  rw [lse_add hn]
  refine add_le_add_right ?_ _
  let c := ∑ i ∈ range n, softmax n v i * δ i
  have h : Real.exp c ≤ ∑ i ∈ range n, softmax n v i * Real.exp (δ i) := by
    have h1 : ∑ i ∈ range n, softmax n v i * (Real.exp c * (δ i - c + 1)) ≤ ∑ i ∈ range n, softmax n v i * Real.exp (δ i) := by
      refine sum_le_sum fun i _ => mul_le_mul_of_nonneg_left ?_ (softmax_nonneg n v i)
      have := mul_le_mul_of_nonneg_left (Real.add_one_le_exp (δ i - c)) (Real.exp_pos c).le
      rwa [← Real.exp_add, add_sub_cancel] at this
    refine le_trans (le_of_eq ?_) h1
    have : ∀ i, softmax n v i * (Real.exp c * (δ i - c + 1)) = Real.exp c * (softmax n v i * δ i) + Real.exp c * (1 - c) * softmax n v i := fun i => by ring
    simp only [this]
    rw [sum_add_distrib, ← mul_sum, ← mul_sum, softmax_sum hn]
    show Real.exp c = Real.exp c * c + _
    ring
  exact (Real.le_log_iff_exp_le (lt_of_lt_of_le (Real.exp_pos _) h)).2 h

theorem lse_upper {n : Nat} (hn : 0 < n) (v δ : Nat → ℝ) :
    (lse n fun i => v i + δ i) ≤ lse n v + ∑ i ∈ range n, softmax n v i * δ i + 1 / 4 * ∑ i ∈ range n, δ i ^ 2 := by
  rw [lse_add hn, add_assoc]
  refine add_le_add_right ?_ _
  have hne : (range n).Nonempty := ⟨0, mem_range.2 hn⟩
  obtain ⟨i, hi, himin⟩ := exists_min_image (range n) δ hne
  obtain ⟨j, hj, hjmax⟩ := exists_max_image (range n) δ hne
  have h := hoeffding (n := n) (softmax n v) δ (softmax_nonneg n v) (softmax_sum hn v) (δ i) (δ j) fun k hk => ⟨himin k hk, hjmax k hk⟩
  have hpos : 0 < ∑ i ∈ range n, softmax n v i * Real.exp (δ i) :=
    sum_pos (fun i _ => mul_pos (div_pos (Real.exp_pos _) (sum_exp_pos hn v)) (Real.exp_pos _)) hne
  refine ((Real.log_le_iff_le_exp hpos).2 h).trans (add_le_add_right ?_ _)
  have hs : (δ j - δ i) ^ 2 ≤ 2 * ∑ i ∈ range n, δ i ^ 2 := by
    by_cases hij : i = j
    · subst hij
      rw [sub_self]
      simpa using sum_nonneg fun i (_ : i ∈ range n) => sq_nonneg (δ i)
    · have h2 : δ i ^ 2 + δ j ^ 2 ≤ ∑ i ∈ range n, δ i ^ 2 := by
        rw [← sum_pair (f := fun i => δ i ^ 2) hij]
        exact sum_le_sum_of_subset_of_nonneg (by intro k hk; simp at hk; rcases hk with rfl | rfl <;> assumption) fun _ _ _ => sq_nonneg _
      nlinarith [sq_nonneg (δ i + δ j)]
  linarith

/-! ### Softmax regression -/

section
variable {γ : Type} (n K : Nat) (ψ : γ → Nat → ℝ) (t : γ → Nat)

/-- The value given to label `i`. -/
def logit (θ : Nat → Nat → ℝ) (e : γ) (i : Nat) : ℝ := ∑ j ∈ range K, θ i j * ψ e j

/-- The loss of one sample. -/
noncomputable def one (θ : Nat → Nat → ℝ) (e : γ) : ℝ := lse n (logit K ψ θ e) - logit K ψ θ e (t e)

noncomputable def mean (d : List γ) (f : γ → ℝ) : ℝ := (d.map f).sum / d.length

/-- The partial derivative of the loss of one sample. -/
noncomputable def part (θ : Nat → Nat → ℝ) (i j : Nat) (e : γ) : ℝ := (softmax n (logit K ψ θ e) i - if i = t e then 1 else 0) * ψ e j

noncomputable def grad (d : List γ) (θ : Nat → Nat → ℝ) (i j : Nat) : ℝ := mean d (part n K ψ t θ i j)

def dot (a b : Nat → Nat → ℝ) : ℝ := ∑ i ∈ range n, ∑ j ∈ range K, a i j * b i j

noncomputable def step (rate : ℝ) (d : List γ) (θ : Nat → Nat → ℝ) : Nat → Nat → ℝ := fun i j => θ i j - rate * grad n K ψ t d θ i j

theorem mean_add (d : List γ) (f g : γ → ℝ) : mean d (fun e => f e + g e) = mean d f + mean d g := by
  unfold mean; rw [List.sum_map_add, add_div]

theorem mean_mul (d : List γ) (f : γ → ℝ) (c : ℝ) : mean d (fun e => f e * c) = mean d f * c := by
  unfold mean; rw [List.sum_map_mul_right]; ring

theorem mean_zero (d : List γ) : mean d (fun _ => 0) = 0 := by simp [mean]

theorem mean_sum (d : List γ) (m : Nat) (f : γ → Nat → ℝ) : mean d (fun e => ∑ i ∈ range m, f e i) = ∑ i ∈ range m, mean d fun e => f e i := by
  induction m with
  | zero => simp [mean_zero]
  | succ m ih => simp only [sum_range_succ, mean_add, ih]

theorem mean_le {d : List γ} {f g : γ → ℝ} (h : ∀ e ∈ d, f e ≤ g e) : mean d f ≤ mean d g := by
  unfold mean
  exact div_le_div_of_nonneg_right (List.sum_le_sum h) (Nat.cast_nonneg _)

theorem mean_const {d : List γ} (hd : d ≠ []) (c : ℝ) : mean d (fun _ => c) = c := by
  have : (d.length : ℝ) ≠ 0 := by exact_mod_cast (List.length_pos_iff.2 hd).ne'
  simp [mean, this]

theorem logit_add (θ Δ : Nat → Nat → ℝ) (e : γ) : logit K ψ (fun i j => θ i j + Δ i j) e = fun i => logit K ψ θ e i + logit K ψ Δ e i := by
  funext i
  simp only [logit, add_mul, sum_add_distrib]

theorem part_dot {e : γ} (ht : t e < n) (θ Δ : Nat → Nat → ℝ) :
    ∑ i ∈ range n, ∑ j ∈ range K, part n K ψ t θ i j e * Δ i j =
      ∑ i ∈ range n, softmax n (logit K ψ θ e) i * logit K ψ Δ e i - logit K ψ Δ e (t e) := by
  have h : ∀ i, ∑ j ∈ range K, part n K ψ t θ i j e * Δ i j = (softmax n (logit K ψ θ e) i - if i = t e then 1 else 0) * logit K ψ Δ e i := by
    intro i
    unfold part logit
    rw [mul_sum]
    exact sum_congr rfl fun j _ => by ring
  simp only [h, sub_mul, sum_sub_distrib, ite_mul, one_mul, zero_mul]
  rw [sum_ite_eq' (range n) (t e), if_pos (mem_range.2 ht)]

theorem grad_dot (d : List γ) (θ Δ : Nat → Nat → ℝ) :
    dot n K (grad n K ψ t d θ) Δ = mean d fun e => ∑ i ∈ range n, ∑ j ∈ range K, part n K ψ t θ i j e * Δ i j := by
  rw [mean_sum]
  unfold dot grad
  refine sum_congr rfl fun i _ => ?_
  rw [mean_sum]
  exact sum_congr rfl fun j _ => (mean_mul d _ _).symm

theorem convex {d : List γ} (ht : ∀ e ∈ d, t e < n) (θ Δ : Nat → Nat → ℝ) :
    mean d (one n K ψ t θ) + dot n K (grad n K ψ t d θ) Δ ≤ mean d (one n K ψ t fun i j => θ i j + Δ i j) := by
  rw [grad_dot, ← mean_add]
  refine mean_le fun e he => ?_
  have h := lse_lower (Nat.zero_lt_of_lt (ht e he)) (logit K ψ θ e) (logit K ψ Δ e)
  rw [part_dot n K ψ t (ht e he)]
  unfold one
  rw [logit_add]
  linarith

theorem smooth {d : List γ} (hd : d ≠ []) (ht : ∀ e ∈ d, t e < n) {R : ℝ} (hR : ∀ e ∈ d, ∑ j ∈ range K, ψ e j ^ 2 ≤ R) (θ Δ : Nat → Nat → ℝ) :
    mean d (one n K ψ t fun i j => θ i j + Δ i j) ≤ mean d (one n K ψ t θ) + dot n K (grad n K ψ t d θ) Δ + R / 4 * dot n K Δ Δ := by
  rw [grad_dot, ← mean_add, ← mean_const hd (R / 4 * dot n K Δ Δ), ← mean_add]
  refine mean_le fun e he => ?_
  have h := lse_upper (Nat.zero_lt_of_lt (ht e he)) (logit K ψ θ e) (logit K ψ Δ e)
  rw [part_dot n K ψ t (ht e he)]
  have h2 : ∑ i ∈ range n, logit K ψ Δ e i ^ 2 ≤ R * dot n K Δ Δ := by
    unfold dot
    rw [mul_sum]
    refine sum_le_sum fun i _ => ?_
    have c := sum_mul_sq_le_sq_mul_sq (range K) (fun j => Δ i j) (fun j => ψ e j)
    refine c.trans ?_
    rw [mul_comm]
    have e1 : ∑ j ∈ range K, Δ i j ^ 2 = ∑ j ∈ range K, Δ i j * Δ i j := sum_congr rfl fun _ _ => sq _
    rw [e1]
    exact mul_le_mul_of_nonneg_right (hR e he) (sum_nonneg fun j _ => mul_self_nonneg _)
  unfold one
  rw [logit_add]
  linarith

theorem dot_smul (a b : Nat → Nat → ℝ) (c : ℝ) : dot n K a (fun i j => c * b i j) = c * dot n K a b := by
  unfold dot
  rw [mul_sum]
  refine sum_congr rfl fun i _ => ?_
  rw [mul_sum]
  exact sum_congr rfl fun j _ => by ring

theorem dot_comm (a b : Nat → Nat → ℝ) : dot n K a b = dot n K b a :=
  sum_congr rfl fun _ _ => sum_congr rfl fun _ _ => mul_comm _ _

theorem dot_sub_sq (a b : Nat → Nat → ℝ) (c : ℝ) :
    dot n K (fun i j => a i j - c * b i j) (fun i j => a i j - c * b i j) = dot n K a a - 2 * c * dot n K b a + c ^ 2 * dot n K b b := by
  unfold dot
  rw [mul_sum, mul_sum, ← sum_sub_distrib, ← sum_add_distrib]
  refine sum_congr rfl fun i _ => ?_
  rw [mul_sum, mul_sum, ← sum_sub_distrib, ← sum_add_distrib]
  exact sum_congr rfl fun j _ => by ring

theorem dot_self_nonneg (a : Nat → Nat → ℝ) : 0 ≤ dot n K a a := sum_nonneg fun _ _ => sum_nonneg fun _ _ => mul_self_nonneg _

/-- A step lowers the loss by at least half of what the derivative promises. -/
theorem step_le {d : List γ} (hd : d ≠ []) (ht : ∀ e ∈ d, t e < n) {R rate : ℝ} (hR : ∀ e ∈ d, ∑ j ∈ range K, ψ e j ^ 2 ≤ R) (h0 : 0 ≤ rate)
    (h2 : rate * R ≤ 2) (θ : Nat → Nat → ℝ) :
    mean d (one n K ψ t (step n K ψ t rate d θ)) ≤ mean d (one n K ψ t θ) - rate / 2 * dot n K (grad n K ψ t d θ) (grad n K ψ t d θ) := by
  have h := smooth n K ψ t hd ht hR θ (fun i j => -rate * grad n K ψ t d θ i j)
  have e1 : (fun i j => θ i j + -rate * grad n K ψ t d θ i j) = step n K ψ t rate d θ := by
    funext i j; unfold step; ring
  rw [e1, dot_smul, dot_smul, dot_comm n K (fun i j => -rate * grad n K ψ t d θ i j), dot_smul] at h
  have g := dot_self_nonneg n K (grad n K ψ t d θ)
  nlinarith [mul_le_mul_of_nonneg_left h2 (mul_nonneg h0 g)]

/-- Gradient descent approaches the infimum. -/
theorem descends {d : List γ} (hd : d ≠ []) (ht : ∀ e ∈ d, t e < n) {R rate : ℝ} (hR : ∀ e ∈ d, ∑ j ∈ range K, ψ e j ^ 2 ≤ R) (h0 : 0 < rate)
    (h2 : rate * R ≤ 2) (θ : Nat → Nat → Nat → ℝ) (hs : ∀ k, θ (k + 1) = step n K ψ t rate d (θ k)) (best : Nat → Nat → ℝ) (k : Nat) :
    k * (mean d (one n K ψ t (θ k)) - mean d (one n K ψ t best)) * (2 * rate) + dot n K (fun i j => θ k i j - best i j) (fun i j => θ k i j - best i j) ≤
      dot n K (fun i j => θ 0 i j - best i j) (fun i j => θ 0 i j - best i j) := by
  induction k with
  | zero => simp
  | succ k ih =>
    refine le_trans ?_ ih
    have a := step_le n K ψ t hd ht hR h0.le h2 (θ k)
    have b := convex n K ψ t ht (θ k) (fun i j => -1 * (θ k i j - best i j))
    have e : (fun i j => θ k i j + -1 * (θ k i j - best i j)) = best := by funext i j; ring
    rw [e, dot_smul] at b
    rw [hs k]
    have e2 : (fun i j => step n K ψ t rate d (θ k) i j - best i j) = fun i j => (θ k i j - best i j) - rate * grad n K ψ t d (θ k) i j := by
      funext i j; unfold step; ring
    rw [e2, dot_sub_sq]
    have g := dot_self_nonneg n K (grad n K ψ t d (θ k))
    push_cast
    generalize mean d (one n K ψ t (step n K ψ t rate d (θ k))) = F1 at *
    generalize mean d (one n K ψ t (θ k)) = F0 at *
    generalize mean d (one n K ψ t best) = Fb at *
    generalize dot n K (grad n K ψ t d (θ k)) (grad n K ψ t d (θ k)) = G at *
    generalize dot n K (grad n K ψ t d (θ k)) (fun i j => θ k i j - best i j) = H at *
    generalize dot n K (fun i j => θ k i j - best i j) (fun i j => θ k i j - best i j) = D at *
    have hk : (0 : ℝ) ≤ k := Nat.cast_nonneg k
    have m1 : F1 ≤ F0 := by nlinarith
    nlinarith [mul_le_mul_of_nonneg_left m1 (mul_nonneg hk h0.le), mul_le_mul_of_nonneg_left a h0.le, mul_le_mul_of_nonneg_left b h0.le]

end
end Cnn.Convex
