import Verif.Lemmas.Linear
/-! Softmax regression in batches: how the loss of the batches adds up, and small steps from batch to batch (C93). -/
namespace Cnn.Convex
open Finset

section
variable {γ : Type} (n K : Nat) (ψ : γ → Nat → ℝ) (t : γ → Nat)

/-- The parameters after one step for each batch. -/
noncomputable def run (rate : ℝ) (bs : List (List γ)) (θ : Nat → Nat → ℝ) : Nat → Nat → ℝ := bs.foldl (fun θ b => step n K ψ t rate b θ) θ

/-- The sum, over the batches, of their mean losses. -/
noncomputable def total (bs : List (List γ)) (θ : Nat → Nat → ℝ) : ℝ := (bs.map fun b => mean b (one n K ψ t θ)).sum

theorem one_nonneg {e : γ} (ht : t e < n) (θ : Nat → Nat → ℝ) : 0 ≤ one n K ψ t θ e := by
  unfold one lse
  rw [sub_nonneg, Real.le_log_iff_exp_le (sum_exp_pos (Nat.zero_lt_of_lt ht) _)]
  exact single_le_sum (f := fun i => Real.exp (logit K ψ θ e i)) (fun _ _ => (Real.exp_pos _).le) (mem_range.2 ht)

theorem mean_nonneg {d : List γ} {f : γ → ℝ} (h : ∀ e ∈ d, 0 ≤ f e) : 0 ≤ mean d f :=
  div_nonneg (List.sum_nonneg (by simpa using h)) (Nat.cast_nonneg _)

/-- The gradient is small where the loss is. -/
theorem grad_le {d : List γ} (hd : d ≠ []) (ht : ∀ e ∈ d, t e < n) {R : ℝ} (hR : ∀ e ∈ d, ∑ j ∈ range K, ψ e j ^ 2 ≤ R) (hp : 0 < R)
    (θ : Nat → Nat → ℝ) : dot n K (grad n K ψ t d θ) (grad n K ψ t d θ) ≤ R * mean d (one n K ψ t θ) := by
  have h := step_le n K ψ t hd ht hR (rate := 2 / R) (by positivity) (by rw [div_mul_cancel₀ _ hp.ne']) θ
  have h2 := mean_nonneg (d := d) fun e he => one_nonneg n K ψ t (ht e he) (step n K ψ t (2 / R) d θ)
  have h3 : 2 / R / 2 * dot n K (grad n K ψ t d θ) (grad n K ψ t d θ) ≤ mean d (one n K ψ t θ) := by linarith
  rw [show 2 / R / 2 = 1 / R by ring, one_div, inv_mul_le_iff₀ hp] at h3
  exact h3

/-- One step brings the parameters closer to any other parameters, but for the loss these have. -/
theorem closer {d : List γ} (hd : d ≠ []) (ht : ∀ e ∈ d, t e < n) {R rate : ℝ} (hR : ∀ e ∈ d, ∑ j ∈ range K, ψ e j ^ 2 ≤ R) (hp : 0 < R)
    (h0 : 0 ≤ rate) (θ w : Nat → Nat → ℝ) :
    dot n K (fun i j => step n K ψ t rate d θ i j - w i j) (fun i j => step n K ψ t rate d θ i j - w i j) + rate * (2 - rate * R) * mean d (one n K ψ t θ) ≤
      dot n K (fun i j => θ i j - w i j) (fun i j => θ i j - w i j) + 2 * rate * mean d (one n K ψ t w) := by
  have a := grad_le n K ψ t hd ht hR hp θ
  have b := convex n K ψ t ht θ (fun i j => -1 * (θ i j - w i j))
  have e : (fun i j => θ i j + -1 * (θ i j - w i j)) = w := by funext i j; ring
  rw [e, dot_smul] at b
  have e2 : (fun i j => step n K ψ t rate d θ i j - w i j) = fun i j => (θ i j - w i j) - rate * grad n K ψ t d θ i j := by
    funext i j; unfold step; ring
  rw [e2, dot_sub_sq]
  nlinarith [mul_le_mul_of_nonneg_left a (sq_nonneg rate), mul_le_mul_of_nonneg_left b h0]

/-- The sum of the losses that the batches have when their turn comes. -/
noncomputable def online (rate : ℝ) : List (List γ) → (Nat → Nat → ℝ) → ℝ
  | [], _ => 0
  | b :: bs, θ => mean b (one n K ψ t θ) + online rate bs (step n K ψ t rate b θ)

theorem online_append (rate : ℝ) (a b : List (List γ)) (θ : Nat → Nat → ℝ) :
    online n K ψ t rate (a ++ b) θ = online n K ψ t rate a θ + online n K ψ t rate b (run n K ψ t rate a θ) := by
  induction a generalizing θ with
  | nil => simp [online, run]
  | cons x a ih =>
    simp only [List.cons_append, online, ih, add_assoc]
    rfl

theorem run_append (rate : ℝ) (a b : List (List γ)) (θ : Nat → Nat → ℝ) : run n K ψ t rate (a ++ b) θ = run n K ψ t rate b (run n K ψ t rate a θ) :=
  List.foldl_append

/-- The losses met on the way, compared with those for any other parameters. -/
theorem online_le {R rate : ℝ} (hp : 0 < R) (h0 : 0 ≤ rate) (bs : List (List γ)) (hne : ∀ b ∈ bs, b ≠ []) (ht : ∀ b ∈ bs, ∀ e ∈ b, t e < n)
    (hR : ∀ b ∈ bs, ∀ e ∈ b, ∑ j ∈ range K, ψ e j ^ 2 ≤ R) (θ w : Nat → Nat → ℝ) :
    rate * (2 - rate * R) * online n K ψ t rate bs θ ≤ dot n K (fun i j => θ i j - w i j) (fun i j => θ i j - w i j) + 2 * rate * total n K ψ t bs w := by
  have key : dot n K (fun i j => run n K ψ t rate bs θ i j - w i j) (fun i j => run n K ψ t rate bs θ i j - w i j) +
      rate * (2 - rate * R) * online n K ψ t rate bs θ ≤
      dot n K (fun i j => θ i j - w i j) (fun i j => θ i j - w i j) + 2 * rate * total n K ψ t bs w := by
    induction bs generalizing θ with
    | nil => simp [run, online, total]
    | cons b bs ih =>
      have a := closer n K ψ t (hne b (by simp)) (ht b (by simp)) (hR b (by simp)) hp h0 θ w
      have c := ih (fun b hb => hne b (by simp [hb])) (fun b hb => ht b (by simp [hb])) (fun b hb => hR b (by simp [hb])) (step n K ψ t rate b θ)
      have e1 : run n K ψ t rate (b :: bs) θ = run n K ψ t rate bs (step n K ψ t rate b θ) := rfl
      have e2 : total n K ψ t (b :: bs) w = mean b (one n K ψ t w) + total n K ψ t bs w := rfl
      have e3 : online n K ψ t rate (b :: bs) θ = mean b (one n K ψ t θ) + online n K ψ t rate bs (step n K ψ t rate b θ) := rfl
      rw [e1, e2, e3]
      linarith
  linarith [dot_self_nonneg n K (fun i j => run n K ψ t rate bs θ i j - w i j)]

/-! ### Small changes of the parameters -/

/-- The probability of all wrong labels together. -/
noncomputable def wrong (θ : Nat → Nat → ℝ) (e : γ) : ℝ := 1 - softmax n (logit K ψ θ e) (t e)

end

section
variable {n : Nat} {v δ : Nat → ℝ} {τ : ℝ} {s : Nat}

theorem softmax_le_one (hi : s < n) : softmax n v s ≤ 1 := by
  rw [← softmax_sum (Nat.zero_lt_of_lt hi) v]
  exact single_le_sum (fun i _ => softmax_nonneg n v i) (mem_range.2 hi)

theorem softmax_others (hs : s < n) {i : Nat} (hi : i < n) (hne : i ≠ s) : softmax n v i ≤ 1 - softmax n v s := by
  rw [le_sub_iff_add_le, ← softmax_sum (Nat.zero_lt_of_lt hi) v, ← sum_pair (f := softmax n v) hne]
  refine sum_le_sum_of_subset_of_nonneg ?_ fun k _ _ => softmax_nonneg n v k
  intro k hk
  simp only [mem_insert, mem_singleton] at hk
  rcases hk with rfl | rfl
  · exact mem_range.2 hi
  · exact mem_range.2 hs

theorem softmax_dist (hs : s < n) {i : Nat} (hi : i < n) : |softmax n v i - if i = s then 1 else 0| ≤ 1 - softmax n v s := by
  by_cases h : i = s
  · subst h
    rw [if_pos rfl, abs_sub_comm, abs_of_nonneg (sub_nonneg.2 (softmax_le_one hs))]
  · rw [if_neg h, sub_zero, abs_of_nonneg (softmax_nonneg n v i)]
    exact softmax_others hs hi h

theorem softmax_dist_sum (hs : s < n) : ∑ i ∈ range n, |softmax n v i - if i = s then 1 else 0| = 2 * (1 - softmax n v s) := by
  rw [← add_sum_erase _ _ (mem_range.2 hs), if_pos rfl, abs_sub_comm, abs_of_nonneg (sub_nonneg.2 (softmax_le_one hs))]
  have h1 : ∑ i ∈ (range n).erase s, |softmax n v i - if i = s then 1 else 0| = ∑ i ∈ (range n).erase s, softmax n v i := by
    refine sum_congr rfl fun i hi => ?_
    rw [if_neg (ne_of_mem_erase hi), sub_zero, abs_of_nonneg (softmax_nonneg n v i)]
  have h2 := add_sum_erase (range n) (softmax n v) (mem_range.2 hs)
  rw [softmax_sum (Nat.zero_lt_of_lt hs)] at h2
  rw [h1]
  linarith

/-- A small change of the values changes a probability by a factor close to 1. -/
theorem softmax_change (hδ : ∀ i < n, |δ i| ≤ τ) {i : Nat} (hi : i < n) : softmax n (fun i => v i + δ i) i ≤ Real.exp (2 * τ) * softmax n v i := by
  have hn := Nat.zero_lt_of_lt hi
  have h1 : ∑ j ∈ range n, Real.exp (v j) ≤ Real.exp τ * ∑ j ∈ range n, Real.exp (v j + δ j) := by
    rw [mul_sum]
    refine sum_le_sum fun j hj => ?_
    rw [← Real.exp_add, Real.exp_le_exp]
    linarith [(abs_le.1 (hδ j (mem_range.1 hj))).1]
  have h2 : Real.exp (v i + δ i) ≤ Real.exp τ * Real.exp (v i) := by
    rw [← Real.exp_add, Real.exp_le_exp]
    linarith [(abs_le.1 (hδ i hi)).2]
  unfold softmax
  rw [div_le_iff₀ (sum_exp_pos hn _)]
  refine h2.trans ?_
  have e : Real.exp (2 * τ) * (Real.exp (v i) / ∑ j ∈ range n, Real.exp (v j)) * ∑ j ∈ range n, Real.exp (v j + δ j) =
      Real.exp τ * Real.exp (v i) * ((Real.exp τ * ∑ j ∈ range n, Real.exp (v j + δ j)) / ∑ j ∈ range n, Real.exp (v j)) := by
    rw [two_mul, Real.exp_add]; ring
  rw [e]
  exact le_mul_of_one_le_right (by positivity) ((one_le_div (sum_exp_pos hn v)).2 h1)

theorem softmax_back (hδ : ∀ i < n, |δ i| ≤ τ) {i : Nat} (hi : i < n) : softmax n v i ≤ Real.exp (2 * τ) * softmax n (fun i => v i + δ i) i := by
  have h := softmax_change (v := fun i => v i + δ i) (δ := fun i => -δ i) (τ := τ) (fun i hi => by rw [abs_neg]; exact hδ i hi) hi
  simpa using h

theorem softmax_near (hτ : 0 ≤ τ) (hδ : ∀ i < n, |δ i| ≤ τ) {i : Nat} (hi : i < n) :
    |softmax n (fun i => v i + δ i) i - softmax n v i| ≤ (Real.exp (2 * τ) - 1) * softmax n v i := by
  have a := softmax_change (v := v) hδ hi
  have b := softmax_back (v := v) hδ hi
  have c : 1 ≤ Real.exp (2 * τ) := Real.one_le_exp (by linarith)
  have p := softmax_nonneg n v i
  have p' := softmax_nonneg n (fun i => v i + δ i) i
  rw [abs_le]
  constructor
  · have h1 := mul_le_mul_of_nonneg_left a (by linarith : (0 : ℝ) ≤ Real.exp (2 * τ) - 1)
    nlinarith
  · linarith

theorem wrong_eq_sum (hs : s < n) (v : Nat → ℝ) : 1 - softmax n v s = ∑ i ∈ (range n).erase s, softmax n v i := by
  have h2 := add_sum_erase (range n) (softmax n v) (mem_range.2 hs)
  rw [softmax_sum (Nat.zero_lt_of_lt hs)] at h2
  linarith

theorem wrong_change (hs : s < n) (hδ : ∀ i < n, |δ i| ≤ τ) : 1 - softmax n (fun i => v i + δ i) s ≤ Real.exp (2 * τ) * (1 - softmax n v s) := by
  rw [wrong_eq_sum hs, wrong_eq_sum hs, mul_sum]
  exact sum_le_sum fun i hi => softmax_change hδ (mem_range.1 (mem_of_mem_erase hi))

theorem softmax_near_wrong (hτ : 0 ≤ τ) (hs : s < n) (hδ : ∀ i < n, |δ i| ≤ τ) {i : Nat} (hi : i < n) :
    |softmax n (fun i => v i + δ i) i - softmax n v i| ≤ (Real.exp (2 * τ) - 1) * (1 - softmax n v s) := by
  have c : 1 ≤ Real.exp (2 * τ) := Real.one_le_exp (by linarith)
  by_cases h : i = s
  · subst h
    rw [show softmax n (fun i => v i + δ i) i - softmax n v i = -((1 - softmax n (fun i => v i + δ i) i) - (1 - softmax n v i)) by ring, abs_neg,
      wrong_eq_sum hs, wrong_eq_sum hs, ← sum_sub_distrib, mul_sum]
    exact (abs_sum_le_sum_abs _ _).trans (sum_le_sum fun j hj => softmax_near hτ hδ (mem_range.1 (mem_of_mem_erase hj)))
  · exact (softmax_near hτ hδ hi).trans (mul_le_mul_of_nonneg_left (softmax_others hs hi h) (by linarith))
end

section
variable {γ : Type} {n K : Nat} {ψ : γ → Nat → ℝ} {t : γ → Nat}

theorem abs_mean {d : List γ} {f g : γ → ℝ} (h : ∀ e ∈ d, |f e| ≤ g e) : |mean d f| ≤ mean d g := by
  rw [abs_le]
  constructor
  · have := mean_le (d := d) (f := fun e => g e * -1) (g := f) fun e he => by linarith [(abs_le.1 (h e he)).1]
    rw [mean_mul] at this
    linarith
  · exact mean_le fun e he => (abs_le.1 (h e he)).2

theorem wrong_nonneg {e : γ} (ht : t e < n) (θ : Nat → Nat → ℝ) : 0 ≤ wrong n K ψ t θ e := sub_nonneg.2 (softmax_le_one ht)

theorem wrong_le_one (θ : Nat → Nat → ℝ) (e : γ) : wrong n K ψ t θ e ≤ 1 := by
  unfold wrong
  linarith [softmax_nonneg n (logit K ψ θ e) (t e)]

theorem inner_le {R : ℝ} {e f : γ} (he : ∑ j ∈ range K, ψ e j ^ 2 ≤ R) (hf : ∑ j ∈ range K, ψ f j ^ 2 ≤ R) : |∑ j ∈ range K, ψ e j * ψ f j| ≤ R := by
  have h0 : 0 ≤ ∑ j ∈ range K, ψ e j ^ 2 := sum_nonneg fun _ _ => sq_nonneg _
  have h0' : 0 ≤ ∑ j ∈ range K, ψ f j ^ 2 := sum_nonneg fun _ _ => sq_nonneg _
  have hR : 0 ≤ R := h0.trans he
  refine abs_le_of_sq_le_sq ?_ hR
  refine (sum_mul_sq_le_sq_mul_sq (range K) _ _).trans ?_
  rw [sq]
  exact mul_le_mul he hf h0' hR

theorem logit_grad (d : List γ) (θ : Nat → Nat → ℝ) (f : γ) (i : Nat) :
    logit K ψ (grad n K ψ t d θ) f i = mean d fun e => (softmax n (logit K ψ θ e) i - if i = t e then 1 else 0) * ∑ j ∈ range K, ψ e j * ψ f j := by
  unfold logit grad
  simp only [← mean_mul]
  rw [← mean_sum]
  refine mean_congr fun e _ => ?_
  unfold part
  rw [mul_sum]
  exact sum_congr rfl fun j _ => by unfold logit; ring

theorem logit_sub (θ Δ : Nat → Nat → ℝ) (e : γ) (i : Nat) : logit K ψ (fun i j => θ i j - Δ i j) e i = logit K ψ θ e i - logit K ψ Δ e i := by
  simp only [logit, sub_mul, sum_sub_distrib]

theorem logit_smul (c : ℝ) (θ : Nat → Nat → ℝ) (e : γ) (i : Nat) : logit K ψ (fun i j => c * θ i j) e i = c * logit K ψ θ e i := by
  simp only [logit, mul_assoc, ← mul_sum]

theorem logit_grad_le {d : List γ} (ht : ∀ e ∈ d, t e < n) {R : ℝ} (hR : ∀ e ∈ d, ∑ j ∈ range K, ψ e j ^ 2 ≤ R) (θ : Nat → Nat → ℝ) {f : γ}
    (hf : ∑ j ∈ range K, ψ f j ^ 2 ≤ R) {i : Nat} (hi : i < n) : |logit K ψ (grad n K ψ t d θ) f i| ≤ R * mean d (wrong n K ψ t θ) := by
  rw [logit_grad, mul_comm, ← mean_mul]
  refine abs_mean fun e he => ?_
  rw [abs_mul]
  exact mul_le_mul (softmax_dist (ht e he) hi) (inner_le (hR e he) hf) (abs_nonneg _) (wrong_nonneg (ht e he) θ)

theorem logit_grad_near {d : List γ} (ht : ∀ e ∈ d, t e < n) {R τ : ℝ} (hτ : 0 ≤ τ) (hR : ∀ e ∈ d, ∑ j ∈ range K, ψ e j ^ 2 ≤ R) (θ Δ : Nat → Nat → ℝ)
    (hΔ : ∀ e ∈ d, ∀ i < n, |logit K ψ Δ e i| ≤ τ) {f : γ} (hf : ∑ j ∈ range K, ψ f j ^ 2 ≤ R) {i : Nat} (hi : i < n) :
    |logit K ψ (grad n K ψ t d fun i j => θ i j + Δ i j) f i - logit K ψ (grad n K ψ t d θ) f i| ≤
      R * ((Real.exp (2 * τ) - 1) * mean d (wrong n K ψ t θ)) := by
  have hc : 0 ≤ Real.exp (2 * τ) - 1 := by linarith [Real.one_le_exp (by linarith : 0 ≤ 2 * τ)]
  rw [logit_grad, logit_grad]
  have e1 : ∀ a b : γ → ℝ, mean d a - mean d b = mean d fun e => a e + b e * -1 := by
    intro a b
    rw [mean_add, mean_mul]; ring
  rw [e1, show R * ((Real.exp (2 * τ) - 1) * mean d (wrong n K ψ t θ)) = mean d (wrong n K ψ t θ) * ((Real.exp (2 * τ) - 1) * R) by ring, ← mean_mul]
  refine abs_mean fun e he => ?_
  rw [logit_add]
  have h := softmax_near_wrong (v := logit K ψ θ e) (δ := logit K ψ Δ e) hτ (ht e he) (hΔ e he) hi
  rw [show ∀ a b c s : ℝ, (a - c) * s + (b - c) * s * -1 = (a - b) * s by intros; ring, abs_mul]
  refine (mul_le_mul h (inner_le (hR e he) hf) (abs_nonneg _) (mul_nonneg hc (wrong_nonneg (ht e he) θ))).trans (le_of_eq ?_)
  unfold wrong; ring

theorem dot_grad_le {d : List γ} (ht : ∀ e ∈ d, t e < n) (θ Δ : Nat → Nat → ℝ) {C : ℝ} (hΔ : ∀ e ∈ d, ∀ i < n, |logit K ψ Δ e i| ≤ C) :
    |dot n K (grad n K ψ t d θ) Δ| ≤ 2 * mean d (wrong n K ψ t θ) * C := by
  rw [grad_dot, show 2 * mean d (wrong n K ψ t θ) * C = mean d (wrong n K ψ t θ) * (2 * C) by ring, ← mean_mul]
  refine abs_mean fun e he => ?_
  have h : ∀ i, ∑ j ∈ range K, part n K ψ t θ i j e * Δ i j = (softmax n (logit K ψ θ e) i - if i = t e then 1 else 0) * logit K ψ Δ e i := by
    intro i
    unfold part logit
    rw [mul_sum]
    exact sum_congr rfl fun j _ => by ring
  simp only [h]
  refine (abs_sum_le_sum_abs _ _).trans ?_
  have h2 : ∑ i ∈ range n, |(softmax n (logit K ψ θ e) i - if i = t e then 1 else 0) * logit K ψ Δ e i| ≤
      ∑ i ∈ range n, |softmax n (logit K ψ θ e) i - if i = t e then 1 else 0| * C := by
    refine sum_le_sum fun i hi => ?_
    rw [abs_mul]
    exact mul_le_mul_of_nonneg_left (hΔ e he i (mem_range.1 hi)) (abs_nonneg _)
  refine h2.trans (le_of_eq ?_)
  rw [← sum_mul, softmax_dist_sum (ht e he)]
  unfold wrong; ring

theorem mean_wrong_change {d : List γ} (ht : ∀ e ∈ d, t e < n) {τ : ℝ} (θ Δ : Nat → Nat → ℝ)
    (hΔ : ∀ e ∈ d, ∀ i < n, |logit K ψ Δ e i| ≤ τ) :
    mean d (wrong n K ψ t fun i j => θ i j + Δ i j) ≤ Real.exp (2 * τ) * mean d (wrong n K ψ t θ) := by
  rw [mul_comm, ← mean_mul]
  refine mean_le fun e he => ?_
  unfold wrong
  rw [logit_add, mul_comm]
  exact wrong_change (ht e he) (hΔ e he)

theorem mean_wrong_le_one (d : List γ) (θ : Nat → Nat → ℝ) : mean d (wrong n K ψ t θ) ≤ 1 := by
  by_cases hd : d = []
  · subst hd; simp [mean]
  · rw [← mean_const hd 1]
    exact mean_le fun e _ => wrong_le_one θ e
end

section
variable {γ : Type} {n K : Nat} {ψ : γ → Nat → ℝ} {t : γ → Nat}

/-- The sum, over the batches, of the mean probabilities of wrong labels. -/
noncomputable def totalWrong (n K : Nat) (ψ : γ → Nat → ℝ) (t : γ → Nat) (bs : List (List γ)) (θ : Nat → Nat → ℝ) : ℝ :=
  (bs.map fun b => mean b (wrong n K ψ t θ)).sum

/-- The sum of the gradients of the batches. -/
noncomputable def totalGrad (n K : Nat) (ψ : γ → Nat → ℝ) (t : γ → Nat) (bs : List (List γ)) (θ : Nat → Nat → ℝ) (i j : Nat) : ℝ :=
  (bs.map fun b => grad n K ψ t b θ i j).sum

theorem dot_add (a b c : Nat → Nat → ℝ) : dot n K (fun i j => a i j + b i j) c = dot n K a c + dot n K b c := by
  unfold dot
  rw [← sum_add_distrib]
  refine sum_congr rfl fun i _ => ?_
  rw [← sum_add_distrib]
  exact sum_congr rfl fun j _ => by ring

theorem dot_neg_smul (a b : Nat → Nat → ℝ) (c : ℝ) : dot n K (fun i j => -(c * a i j)) b = -(c * dot n K a b) := by
  unfold dot
  rw [mul_sum, ← sum_neg_distrib]
  refine sum_congr rfl fun i _ => ?_
  rw [mul_sum, ← sum_neg_distrib]
  exact sum_congr rfl fun j _ => by ring

theorem run_snoc (rate : ℝ) (bs : List (List γ)) (b : List γ) (θ : Nat → Nat → ℝ) :
    run n K ψ t rate (bs ++ [b]) θ = step n K ψ t rate b (run n K ψ t rate bs θ) := by
  unfold run
  rw [List.foldl_append]
  rfl

/-- Where an epoch leads: almost as if all gradients were those at the start. -/
theorem run_near {R rate τ : ℝ} (h0 : 0 ≤ rate) (hR0 : 0 ≤ R) (θ : Nat → Nat → ℝ) (bs : List (List γ)) (ht : ∀ b ∈ bs, ∀ e ∈ b, t e < n)
    (hR : ∀ b ∈ bs, ∀ e ∈ b, ∑ j ∈ range K, ψ e j ^ 2 ≤ R) (hτ : rate * R * bs.length ≤ τ) :
    ∃ Δ err : Nat → Nat → ℝ, (run n K ψ t rate bs θ = fun i j => θ i j + Δ i j) ∧
      (Δ = fun i j => -(rate * (totalGrad n K ψ t bs θ i j + err i j))) ∧
      (∀ f, ∑ j ∈ range K, ψ f j ^ 2 ≤ R → ∀ i < n, |logit K ψ Δ f i| ≤ rate * R * bs.length ∧
        |logit K ψ Δ f i| ≤ rate * R * (Real.exp (2 * τ) * totalWrong n K ψ t bs θ) ∧
        |logit K ψ err f i| ≤ R * ((Real.exp (2 * τ) - 1) * totalWrong n K ψ t bs θ)) ∧
      ∀ (V : Nat → Nat → ℝ) (C : ℝ), 0 ≤ C → (∀ b ∈ bs, ∀ e ∈ b, ∀ i < n, |logit K ψ V e i| ≤ C) →
        |dot n K Δ V| ≤ rate * (2 * (Real.exp (2 * τ) * totalWrong n K ψ t bs θ) * C) := by
  induction bs using List.reverseRecOn with
  | nil =>
    refine ⟨fun _ _ => 0, fun _ _ => 0, by simp [run], by simp [totalGrad], ?_, ?_⟩
    · intro f _ i _
      simp [logit, totalWrong]
    · intro V C _ _
      simp [dot, totalWrong]
  | append_singleton bs b ih =>
    have hl : rate * R * bs.length ≤ τ := by
      refine le_trans ?_ hτ
      rw [List.length_append]
      push_cast
      nlinarith [mul_nonneg h0 hR0]
    have hτ0 : 0 ≤ τ := le_trans (by positivity) hl
    obtain ⟨Δ, err, e1, e2, h1, h2⟩ := ih (fun b hb => ht b (by simp [hb])) (fun b hb => hR b (by simp [hb])) hl
    have htb := ht b (by simp)
    have hRb := hR b (by simp)
    have hΔ : ∀ e ∈ b, ∀ i < n, |logit K ψ Δ e i| ≤ τ := fun e he i hi => ((h1 e (hRb e he) i hi).1).trans hl
    have hw : totalWrong n K ψ t (bs ++ [b]) θ = totalWrong n K ψ t bs θ + mean b (wrong n K ψ t θ) := by
      unfold totalWrong; rw [List.map_append, List.sum_append]; simp
    have hg : ∀ i j, totalGrad n K ψ t (bs ++ [b]) θ i j = totalGrad n K ψ t bs θ i j + grad n K ψ t b θ i j := by
      intro i j
      unfold totalGrad; rw [List.map_append, List.sum_append]; simp
    let φ : Nat → Nat → ℝ := fun i j => θ i j + Δ i j
    have hch := mean_wrong_change htb θ Δ hΔ
    have hL : ∀ f i, logit K ψ (fun i j => Δ i j - rate * grad n K ψ t b φ i j) f i = logit K ψ Δ f i - rate * logit K ψ (grad n K ψ t b φ) f i := by
      intro f i
      rw [logit_sub, logit_smul]
    refine ⟨fun i j => Δ i j - rate * grad n K ψ t b φ i j, fun i j => err i j + (grad n K ψ t b φ i j - grad n K ψ t b θ i j), ?_, ?_, ?_, ?_⟩
    · rw [run_snoc, e1]
      funext i j
      unfold step
      ring
    · funext i j
      rw [hg, show Δ i j = _ from congrFun (congrFun e2 i) j]
      ring
    · intro f hf i hi
      obtain ⟨k1, k2, k3⟩ := h1 f hf i hi
      have g1 := logit_grad_le htb hRb φ hf hi
      have g2 := mean_wrong_le_one (n := n) (K := K) (ψ := ψ) (t := t) b φ
      have g3 := logit_grad_near htb hτ0 hRb θ Δ hΔ hf hi
      have hstep : |logit K ψ (fun i j => Δ i j - rate * grad n K ψ t b φ i j) f i| ≤
          |logit K ψ Δ f i| + rate * |logit K ψ (grad n K ψ t b φ) f i| := by
        rw [hL]
        refine (abs_sub _ _).trans ?_
        rw [abs_mul, abs_of_nonneg h0]
      refine ⟨?_, ?_, ?_⟩
      · rw [List.length_append]
        push_cast
        have : R * mean b (wrong n K ψ t φ) ≤ R * 1 := mul_le_mul_of_nonneg_left g2 hR0
        have := mul_le_mul_of_nonneg_left (g1.trans this) h0
        simp only [List.length_cons, List.length_nil]
        push_cast
        linarith
      · rw [hw]
        have := mul_le_mul_of_nonneg_left (g1.trans (mul_le_mul_of_nonneg_left hch hR0)) h0
        linarith
      · rw [hw]
        have e3 : logit K ψ (fun i j => err i j + (grad n K ψ t b φ i j - grad n K ψ t b θ i j)) f i =
            logit K ψ err f i + (logit K ψ (grad n K ψ t b φ) f i - logit K ψ (grad n K ψ t b θ) f i) := by
          rw [← logit_sub]
          exact congrFun (logit_add K ψ err (fun i j => grad n K ψ t b φ i j - grad n K ψ t b θ i j) f) i
        rw [e3]
        refine (abs_add_le _ _).trans ?_
        linarith
    · intro V C hC hV
      have k := h2 V C hC fun b hb => hV b (by simp [hb])
      have g := dot_grad_le htb φ V (hV b (by simp))
      have e3 : dot n K (fun i j => Δ i j - rate * grad n K ψ t b φ i j) V = dot n K Δ V - rate * dot n K (grad n K ψ t b φ) V := by
        have := dot_add (n := n) (K := K) Δ (fun i j => -(rate * grad n K ψ t b φ i j)) V
        rw [dot_neg_smul] at this
        exact this
      rw [e3, hw]
      refine (abs_sub _ _).trans ?_
      rw [abs_mul, abs_of_nonneg h0]
      have := mul_le_mul_of_nonneg_left g h0
      have := mul_le_mul_of_nonneg_left (mul_le_mul_of_nonneg_right hch hC) h0
      linarith

theorem totalGrad_dot (bs : List (List γ)) (θ Δ : Nat → Nat → ℝ) :
    dot n K (totalGrad n K ψ t bs θ) Δ = (bs.map fun b => dot n K (grad n K ψ t b θ) Δ).sum := by
  induction bs with
  | nil => simp [totalGrad, dot]
  | cons b bs ih =>
    rw [List.map_cons, List.sum_cons, ← ih, ← dot_add]
    rfl

/-- The parameters `w` give the right label of each sample a value that exceeds the others by 1 at least. -/
def Margin (n K : Nat) (ψ : γ → Nat → ℝ) (t : γ → Nat) (w : Nat → Nat → ℝ) (e : γ) : Prop :=
  ∀ i < n, i ≠ t e → logit K ψ w e i + 1 ≤ logit K ψ w e (t e)

theorem grad_margin {d : List γ} (ht : ∀ e ∈ d, t e < n) (θ w : Nat → Nat → ℝ) (hw : ∀ e ∈ d, Margin n K ψ t w e) :
    dot n K (grad n K ψ t d θ) w ≤ -mean d (wrong n K ψ t θ) := by
  rw [grad_dot, ← neg_one_mul, mul_comm, ← mean_mul]
  refine mean_le fun e he => ?_
  rw [part_dot n K ψ t (ht e he)]
  have hs := softmax_sum (Nat.zero_lt_of_lt (ht e he)) (logit K ψ θ e)
  have h : ∑ i ∈ range n, softmax n (logit K ψ θ e) i * logit K ψ w e i ≤
      ∑ i ∈ range n, (softmax n (logit K ψ θ e) i * (logit K ψ w e (t e) - 1) + if i = t e then softmax n (logit K ψ θ e) i else 0) := by
    refine sum_le_sum fun i hi => ?_
    have p := softmax_nonneg n (logit K ψ θ e) i
    by_cases h : i = t e
    · rw [if_pos h, h]; linarith
    · rw [if_neg h, add_zero]
      exact mul_le_mul_of_nonneg_left (by linarith [hw e he i (mem_range.1 hi) h]) p
  rw [sum_add_distrib, ← sum_mul, hs, sum_ite_eq', if_pos (mem_range.2 (ht e he))] at h
  unfold wrong
  linarith

/-- The length of the sum of the gradients. -/
theorem totalWrong_sq {S : ℝ} (bs : List (List γ)) (ht : ∀ b ∈ bs, ∀ e ∈ b, t e < n) (θ w : Nat → Nat → ℝ)
    (hw : ∀ b ∈ bs, ∀ e ∈ b, Margin n K ψ t w e) (hS : dot n K w w ≤ S) (hS0 : 0 < S) :
    totalWrong n K ψ t bs θ ^ 2 ≤ S * dot n K (totalGrad n K ψ t bs θ) (totalGrad n K ψ t bs θ) := by
  have hP : 0 ≤ totalWrong n K ψ t bs θ := by
    refine List.sum_nonneg fun x hx => ?_
    obtain ⟨b, hb, rfl⟩ := List.mem_map.1 hx
    exact mean_nonneg fun e he => wrong_nonneg (ht b hb e he) θ
  have h1 : dot n K (totalGrad n K ψ t bs θ) w ≤ -totalWrong n K ψ t bs θ := by
    rw [totalGrad_dot]
    unfold totalWrong
    clear hP
    induction bs with
    | nil => simp
    | cons b bs ih =>
      have a := grad_margin (ht b (by simp)) θ w (hw b (by simp))
      have c := ih (fun b hb => ht b (by simp [hb])) (fun b hb => hw b (by simp [hb]))
      simp only [List.map_cons, List.sum_cons]
      linarith
  have h2 := dot_self_nonneg n K (fun i j => totalGrad n K ψ t bs θ i j - -(totalWrong n K ψ t bs θ / S) * w i j)
  rw [dot_sub_sq, dot_comm n K w] at h2
  generalize totalWrong n K ψ t bs θ = P at *
  generalize dot n K (totalGrad n K ψ t bs θ) (totalGrad n K ψ t bs θ) = G at *
  generalize dot n K (totalGrad n K ψ t bs θ) w = H at *
  have hc : 0 ≤ P / S := div_nonneg hP hS0.le
  have h3 : 0 ≤ G - 2 * (P / S) * P + (P / S) ^ 2 * S := by
    have a := mul_le_mul_of_nonneg_left h1 hc
    have b := mul_le_mul_of_nonneg_left hS (sq_nonneg (P / S))
    have : (-(P / S)) ^ 2 = (P / S) ^ 2 := by ring
    rw [this] at h2
    linarith
  have h4 : G - 2 * (P / S) * P + (P / S) ^ 2 * S = G - P ^ 2 / S := by field_simp; ring
  rw [h4, sub_nonneg, div_le_iff₀ hS0] at h3
  linarith

/-- With small steps an epoch lowers the loss. -/
theorem epoch_le {R rate S : ℝ} (h0 : 0 < rate) (hR0 : 0 < R) (θ w : Nat → Nat → ℝ) (bs : List (List γ)) (hne : ∀ b ∈ bs, b ≠ [])
    (ht : ∀ b ∈ bs, ∀ e ∈ b, t e < n) (hR : ∀ b ∈ bs, ∀ e ∈ b, ∑ j ∈ range K, ψ e j ^ 2 ≤ R) (hw : ∀ b ∈ bs, ∀ e ∈ b, Margin n K ψ t w e)
    (hS : dot n K w w ≤ S) (hRS : 1 ≤ 2 * (R * S)) (hsmall : 20 * rate * bs.length * R ^ 2 * S ≤ 1) :
    total n K ψ t bs (run n K ψ t rate bs θ) ≤ total n K ψ t bs θ - rate / (2 * S) * totalWrong n K ψ t bs θ ^ 2 := by
  have hS0 : 0 < S := by
    by_contra hc
    nlinarith [mul_nonneg hR0.le (sub_nonneg.2 (not_lt.1 hc))]
  let z := rate * R * bs.length
  have hz0 : 0 ≤ z := by positivity
  have hz : 20 * z * (R * S) ≤ 1 := by
    have : 20 * z * (R * S) = 20 * rate * bs.length * R ^ 2 * S := by simp only [z]; ring
    rw [this]; exact hsmall
  have hz1 : z ≤ 1 / 10 := by nlinarith [mul_le_mul_of_nonneg_left hRS (by positivity : 0 ≤ 10 * z)]
  obtain ⟨Δ, err, e1, e2, h1, h2⟩ := run_near (n := n) (K := K) (ψ := ψ) (t := t) h0.le hR0.le θ bs ht hR (le_refl z)
  have hP : 0 ≤ totalWrong n K ψ t bs θ := by
    refine List.sum_nonneg fun x hx => ?_
    obtain ⟨b, hb, rfl⟩ := List.mem_map.1 hx
    exact mean_nonneg fun e he => wrong_nonneg (ht b hb e he) θ
  have hG := totalWrong_sq bs ht θ w hw hS hS0
  have hexp1 : Real.exp (2 * z) - 1 ≤ 4 * z := by
    have h := Real.abs_exp_sub_one_le (x := 2 * z) (by rw [abs_of_nonneg (by linarith)]; linarith)
    rw [abs_of_nonneg (by linarith : 0 ≤ 2 * z)] at h
    linarith [le_abs_self (Real.exp (2 * z) - 1)]
  have hexp0 : 1 ≤ Real.exp (2 * z) := Real.one_le_exp (by linarith)
  have hexp2 : Real.exp (2 * z) ≤ 14 / 10 := by linarith
  -- the loss of each batch
  have hsm : total n K ψ t bs (run n K ψ t rate bs θ) ≤ total n K ψ t bs θ + dot n K (totalGrad n K ψ t bs θ) Δ + bs.length * (R / 4 * dot n K Δ Δ) := by
    rw [e1, totalGrad_dot]
    unfold total
    clear hG hP h1 h2 hsmall hz hz1 e1 e2 hz0 z hexp0 hexp1 hexp2
    induction bs with
    | nil => simp
    | cons b bs ih =>
      have a := smooth n K ψ t (hne b (by simp)) (ht b (by simp)) (hR b (by simp)) θ Δ
      have c := ih (fun b hb => hne b (by simp [hb])) (fun b hb => ht b (by simp [hb])) (fun b hb => hR b (by simp [hb])) (fun b hb => hw b (by simp [hb]))
      simp only [List.map_cons, List.sum_cons, List.length_cons]
      push_cast
      linarith
  generalize hPd : totalWrong n K ψ t bs θ = P at *
  have hd1 : |dot n K (totalGrad n K ψ t bs θ) err| ≤ 2 * P * (R * ((Real.exp (2 * z) - 1) * P)) := by
    rw [totalGrad_dot]
    have hC : ∀ b ∈ bs, ∀ e ∈ b, ∀ i < n, |logit K ψ err e i| ≤ R * ((Real.exp (2 * z) - 1) * P) := fun b hb e he i hi => (h1 e (hR b hb e he) i hi).2.2
    generalize R * ((Real.exp (2 * z) - 1) * P) = C at hC
    have key : ∀ l : List (List γ), (∀ b ∈ l, b ∈ bs) → |(l.map fun b => dot n K (grad n K ψ t b θ) err).sum| ≤ 2 * (l.map fun b => mean b (wrong n K ψ t θ)).sum * C := by
      intro l
      induction l with
      | nil => simp
      | cons b l ih =>
        intro hl
        have a := dot_grad_le (ht b (hl b (by simp))) θ err (hC b (hl b (by simp)))
        have c := ih fun b hb => hl b (by simp [hb])
        simp only [List.map_cons, List.sum_cons]
        refine (abs_add_le _ _).trans ?_
        linarith
    have := key bs fun _ h => h
    rwa [show (bs.map fun b => mean b (wrong n K ψ t θ)).sum = P from hPd] at this
  have hd2 : dot n K (totalGrad n K ψ t bs θ) Δ = -(rate * (dot n K (totalGrad n K ψ t bs θ) (totalGrad n K ψ t bs θ) + dot n K (totalGrad n K ψ t bs θ) err)) := by
    rw [dot_comm, e2, dot_neg_smul, dot_add, dot_comm n K err]
  have hd3 : dot n K Δ Δ ≤ rate * (2 * (Real.exp (2 * z) * P) * (rate * R * (Real.exp (2 * z) * P))) :=
    (le_abs_self _).trans (h2 Δ _ (by positivity) fun b hb e he i hi => (h1 e (hR b hb e he) i hi).2.1)
  rw [hd2] at hsm
  generalize dot n K (totalGrad n K ψ t bs θ) (totalGrad n K ψ t bs θ) = G at *
  generalize dot n K (totalGrad n K ψ t bs θ) err = H at *
  generalize dot n K Δ Δ = D at *
  have hH : -H ≤ 8 * z * R * P ^ 2 := by
    have : 2 * P * (R * ((Real.exp (2 * z) - 1) * P)) ≤ 8 * z * R * P ^ 2 := by
      have := mul_le_mul_of_nonneg_left hexp1 (by positivity : 0 ≤ 2 * R * P ^ 2)
      nlinarith
    linarith [neg_abs_le H]
  have hD : bs.length * (R / 4 * D) ≤ rate * (z * R * P ^ 2) := by
    have hx : Real.exp (2 * z) ^ 2 ≤ 2 := by nlinarith
    have h3 := mul_le_mul_of_nonneg_left hd3 (by positivity : (0 : ℝ) ≤ bs.length * (R / 4))
    have h4 : bs.length * (R / 4) * (rate * (2 * (Real.exp (2 * z) * P) * (rate * R * (Real.exp (2 * z) * P)))) = rate * (z * R * P ^ 2) * (Real.exp (2 * z) ^ 2 / 2) := by
      simp only [z]; ring
    rw [h4] at h3
    have h5 : rate * (z * R * P ^ 2) * (Real.exp (2 * z) ^ 2 / 2) ≤ rate * (z * R * P ^ 2) * 1 :=
      mul_le_mul_of_nonneg_left (by linarith) (by positivity)
    linarith
  have hfin : 10 * z * R * P ^ 2 ≤ P ^ 2 / (2 * S) := by
    rw [le_div_iff₀ (by positivity)]
    nlinarith [mul_le_mul_of_nonneg_right hz (sq_nonneg P)]
  have hG2 : P ^ 2 / S ≤ G := by
    rw [div_le_iff₀ hS0]; linarith
  have e5 : P ^ 2 / S = 2 * (P ^ 2 / (2 * S)) := by field_simp
  have e6 : rate / (2 * S) * P ^ 2 = rate * (P ^ 2 / (2 * S)) := by ring
  rw [e6]
  have h7 : -(rate * (G + H)) + rate * (z * R * P ^ 2) ≤ -(rate * (P ^ 2 / (2 * S))) := by
    have h8 : -(G + H) + z * R * P ^ 2 ≤ -(P ^ 2 / (2 * S)) := by nlinarith [mul_nonneg (mul_nonneg hz0 hR0.le) (sq_nonneg P)]
    have := mul_le_mul_of_nonneg_left h8 h0.le
    linarith
  linarith
end

end Cnn.Convex
