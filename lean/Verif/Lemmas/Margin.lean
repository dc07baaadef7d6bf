import Verif.Lemmas.Batches
/-! Helper lemmas: epochs of several batches for data that a linear classifier tells apart (C93). -/
namespace Cnn
open Finset Model

namespace Convex
variable {γ : Type} {n K : Nat} {ψ : γ → Nat → ℝ} {t : γ → Nat}

/-- If the wrong labels have little probability, the loss is small. -/
theorem one_le_wrong {e : γ} (ht : t e < n) {θ : Nat → Nat → ℝ} (h : wrong n K ψ t θ e ≤ 1 / 2) : one n K ψ t θ e ≤ 2 * wrong n K ψ t θ e := by
  unfold wrong at h ⊢
  unfold one
  rw [← neg_log_softmax _ ht]
  have hp : (1 : ℝ) / 2 ≤ softmax n (logit K ψ θ e) (t e) := by linarith
  have hq1 := softmax_le_one (n := n) (v := logit K ψ θ e) ht
  generalize softmax n (logit K ψ θ e) (t e) = q at *
  have hq : 0 < q := by linarith
  have h1 := Real.log_le_sub_one_of_pos (inv_pos.2 hq)
  rw [Real.log_inv] at h1
  have h2 : q⁻¹ - 1 ≤ 2 * (1 - q) := by
    rw [inv_eq_one_div, div_sub_one hq.ne', div_le_iff₀ hq]
    nlinarith
  linarith

theorem mean_one_lt {d : List γ} (hd : d ≠ []) (ht : ∀ e ∈ d, t e < n) {θ : Nat → Nat → ℝ}
    (h : mean d (wrong n K ψ t θ) < Real.log 2 / (2 * d.length)) : mean d (one n K ψ t θ) < Real.log 2 / d.length := by
  have hN : (0 : ℝ) < d.length := by exact_mod_cast List.length_pos_iff.2 hd
  have hl : Real.log 2 < 1 := by linarith [Real.log_two_lt_d9]
  have hsum : (d.map (wrong n K ψ t θ)).sum < Real.log 2 / 2 := by
    unfold mean at h
    rw [div_lt_div_iff₀ hN (by positivity)] at h
    nlinarith
  have h1 : mean d (one n K ψ t θ) ≤ mean d fun e => 2 * wrong n K ψ t θ e := by
    refine mean_le fun e he => one_le_wrong (ht e he) ?_
    have : wrong n K ψ t θ e ≤ (d.map (wrong n K ψ t θ)).sum :=
      List.single_le_sum (fun x hx => by obtain ⟨f, hf, rfl⟩ := List.mem_map.1 hx; exact wrong_nonneg (ht f hf) θ) _ (List.mem_map_of_mem he)
    linarith
  refine h1.trans_lt ?_
  unfold mean
  rw [div_lt_div_iff_of_pos_right hN]
  have : (d.map fun e => 2 * wrong n K ψ t θ e).sum = 2 * (d.map (wrong n K ψ t θ)).sum := List.sum_map_mul_left ..
  linarith

/-- With a margin the parameters are not too small. -/
theorem margin_large {w : Nat → Nat → ℝ} {e : γ} {R S : ℝ} (ht : t e < n) (h : Margin n K ψ t w e) (hR : ∑ j ∈ range K, ψ e j ^ 2 ≤ R) (hS : dot n K w w ≤ S)
    (hn : 2 ≤ n) : 1 ≤ 2 * (R * S) := by
  obtain ⟨i, hi, hne⟩ : ∃ i < n, i ≠ t e := by
    by_cases h0 : t e = 0
    · exact ⟨1, by omega, by omega⟩
    · exact ⟨0, by omega, by omega⟩
  have h1 := h i hi hne
  have h2 : 1 ≤ ∑ j ∈ range K, (w (t e) j - w i j) * ψ e j := by
    have : ∑ j ∈ range K, (w (t e) j - w i j) * ψ e j = logit K ψ w e (t e) - logit K ψ w e i := by
      unfold logit
      rw [← sum_sub_distrib]
      exact sum_congr rfl fun j _ => by ring
    linarith
  have h3 := sum_mul_sq_le_sq_mul_sq (range K) (fun j => w (t e) j - w i j) (fun j => ψ e j)
  have h4 : ∑ j ∈ range K, (w (t e) j - w i j) ^ 2 ≤ 2 * S := by
    have h5 : ∑ j ∈ range K, w (t e) j * w (t e) j + ∑ j ∈ range K, w i j * w i j ≤ S := by
      refine le_trans ?_ hS
      unfold dot
      rw [← sum_pair (f := fun i => ∑ j ∈ range K, w i j * w i j) hne.symm]
      refine sum_le_sum_of_subset_of_nonneg ?_ fun _ _ _ => sum_nonneg fun _ _ => mul_self_nonneg _
      intro x hx
      rcases mem_insert.1 hx with rfl | hx
      · exact mem_range.2 ht
      · rw [mem_singleton.1 hx]; exact mem_range.2 hi
    have h6 : ∑ j ∈ range K, (w (t e) j - w i j) ^ 2 ≤ ∑ j ∈ range K, 2 * (w (t e) j * w (t e) j + w i j * w i j) :=
      sum_le_sum fun j _ => by nlinarith [sq_nonneg (w (t e) j + w i j)]
    rw [← mul_sum, sum_add_distrib] at h6
    linarith
  have h7 : 0 ≤ ∑ j ∈ range K, ψ e j ^ 2 := sum_nonneg fun _ _ => sq_nonneg _
  have h8 : 0 ≤ ∑ j ∈ range K, (w (t e) j - w i j) ^ 2 := sum_nonneg fun _ _ => sq_nonneg _
  nlinarith [mul_le_mul h4 hR h7 (by linarith)]

/-- One epoch. -/
theorem epoch_mean {R rate S : ℝ} {B m : Nat} {d es : List γ} (hd : d.length = m * B) (hB : 0 < B) (hm : 0 < m) (hp : es.Perm d) (h0 : 0 < rate) (hR0 : 0 < R)
    (θ w : Nat → Nat → ℝ) (ht : ∀ e ∈ d, t e < n) (hR : ∀ e ∈ d, ∑ j ∈ range K, ψ e j ^ 2 ≤ R) (hw : ∀ e ∈ d, Margin n K ψ t w e)
    (hS : dot n K w w ≤ S) (hRS : 1 ≤ 2 * (R * S)) (hsmall : 20 * rate * m * R ^ 2 * S ≤ 1) :
    mean d (one n K ψ t (run n K ψ t rate (batchesOf B es) θ)) ≤ mean d (one n K ψ t θ) - rate * m / (2 * S) * mean d (wrong n K ψ t θ) ^ 2 := by
  obtain ⟨b1, b2, -⟩ := batchesOf_full hB m (hp.length_eq.trans hd)
  have hmem : ∀ b ∈ batchesOf B es, ∀ e ∈ b, e ∈ d := fun b hb e he => hp.mem_iff.1 (mem_batchesOf hb e he)
  have h := epoch_le (n := n) (K := K) (ψ := ψ) (t := t) h0 hR0 θ w (batchesOf B es) (fun b hb => by
      intro hc
      have := b1 b hb
      rw [hc] at this
      simp at this; omega) (fun b hb e he => ht e (hmem b hb e he)) (fun b hb e he => hR e (hmem b hb e he)) (fun b hb e he => hw e (hmem b hb e he)) hS hRS
    (by rw [b2]; exact hsmall)
  have hm' : (0 : ℝ) < m := by exact_mod_cast hm
  have e1 : ∀ θ, total n K ψ t (batchesOf B es) θ = m * mean d (one n K ψ t θ) := fun θ => batches_total hB hp hd _
  have e2 : totalWrong n K ψ t (batchesOf B es) θ = m * mean d (wrong n K ψ t θ) := batches_total hB hp hd _
  rw [e1, e1, e2] at h
  refine le_of_mul_le_mul_left (h.trans (le_of_eq ?_)) hm'
  ring

/-- Some epochs: the loss does not increase, and is small in the end or has been reduced by every epoch. -/
theorem epochs_mean {R rate S : ℝ} {B m : Nat} {d : List γ} (hd : d.length = m * B) (hB : 0 < B) (hm : 0 < m) (h0 : 0 < rate) (hR0 : 0 < R)
    (w : Nat → Nat → ℝ) (ht : ∀ e ∈ d, t e < n) (hR : ∀ e ∈ d, ∑ j ∈ range K, ψ e j ^ 2 ≤ R) (hw : ∀ e ∈ d, Margin n K ψ t w e)
    (hS : dot n K w w ≤ S) (hRS : 1 ≤ 2 * (R * S)) (hsmall : 20 * rate * m * R ^ 2 * S ≤ 1) (ess : List (List γ)) (hp : ∀ es ∈ ess, es.Perm d) :
    ∀ θ, mean d (one n K ψ t (run n K ψ t rate (ess.flatMap (batchesOf B)) θ)) ≤ mean d (one n K ψ t θ) ∧
      (mean d (one n K ψ t (run n K ψ t rate (ess.flatMap (batchesOf B)) θ)) < Real.log 2 / d.length ∨
        mean d (one n K ψ t (run n K ψ t rate (ess.flatMap (batchesOf B)) θ)) ≤
          mean d (one n K ψ t θ) - ess.length * (rate * m / (2 * S) * (Real.log 2 / (2 * d.length)) ^ 2)) := by
  have hS0 : 0 < S := by
    by_contra hc
    nlinarith [mul_nonneg hR0.le (sub_nonneg.2 (not_lt.1 hc))]
  have hne : d ≠ [] := by
    rintro rfl
    have := Nat.mul_pos hm hB
    simp at hd; omega
  have hN : (0 : ℝ) < d.length := by exact_mod_cast List.length_pos_iff.2 hne
  have hm' : (0 : ℝ) < m := by exact_mod_cast hm
  have hlog : 0 < Real.log 2 := Real.log_pos (by norm_num)
  induction ess with
  | nil => exact fun θ => ⟨le_rfl, Or.inr (by simp [run])⟩
  | cons es ess ih =>
    intro θ
    have h1 := epoch_mean hd hB hm (hp es (by simp)) h0 hR0 θ w ht hR hw hS hRS hsmall
    obtain ⟨h2, h3⟩ := ih (fun es hes => hp es (by simp [hes])) (run n K ψ t rate (batchesOf B es) θ)
    rw [List.flatMap_cons, run_append]
    have hc : 0 ≤ rate * m / (2 * S) := by positivity
    have h4 : mean d (one n K ψ t (run n K ψ t rate (batchesOf B es) θ)) ≤ mean d (one n K ψ t θ) := by
      nlinarith [mul_nonneg hc (sq_nonneg (mean d (wrong n K ψ t θ)))]
    refine ⟨h2.trans h4, ?_⟩
    by_cases hq : mean d (wrong n K ψ t θ) < Real.log 2 / (2 * d.length)
    · left
      exact (h2.trans h4).trans_lt (mean_one_lt hne ht hq)
    · rcases h3 with h3 | h3
      · exact Or.inl h3
      · right
        have h5 : (Real.log 2 / (2 * d.length)) ^ 2 ≤ mean d (wrong n K ψ t θ) ^ 2 := pow_le_pow_left₀ (by positivity) (not_lt.1 hq) 2
        have h6 := mul_le_mul_of_nonneg_left h5 hc
        rw [List.length_cons]
        push_cast
        linarith

/-- After enough epochs the loss is so small that all labels are right. -/
theorem epochs_small {R rate S : ℝ} {B m : Nat} {d : List γ} (hd : d.length = m * B) (hB : 0 < B) (hm : 0 < m) (h0 : 0 < rate) (hR0 : 0 < R)
    (w : Nat → Nat → ℝ) (ht : ∀ e ∈ d, t e < n) (hR : ∀ e ∈ d, ∑ j ∈ range K, ψ e j ^ 2 ≤ R) (hw : ∀ e ∈ d, Margin n K ψ t w e)
    (hS : dot n K w w ≤ S) (hsmall : 20 * rate * m * R ^ 2 * S ≤ 1) (ess : List (List γ)) (hp : ∀ es ∈ ess, es.Perm d) (θ : Nat → Nat → ℝ)
    (hlong : 8 * S * d.length ^ 2 * mean d (one n K ψ t θ) < ess.length * rate * m * Real.log 2 ^ 2) :
    mean d (one n K ψ t (run n K ψ t rate (ess.flatMap (batchesOf B)) θ)) < Real.log 2 / d.length := by
  have hne : d ≠ [] := by
    rintro rfl
    have := Nat.mul_pos hm hB
    simp at hd; omega
  have hN : (0 : ℝ) < d.length := by exact_mod_cast List.length_pos_iff.2 hne
  have hlog : 0 < Real.log 2 := Real.log_pos (by norm_num)
  by_cases hn : 2 ≤ n
  · obtain ⟨e, he⟩ := List.exists_mem_of_ne_nil d hne
    have hRS := margin_large (ht e he) (hw e he) (hR e he) hS hn
    have hS0 : 0 < S := by
      by_contra hc
      nlinarith [mul_nonneg hR0.le (sub_nonneg.2 (not_lt.1 hc))]
    obtain ⟨-, h | h⟩ := epochs_mean hd hB hm h0 hR0 w ht hR hw hS hRS hsmall ess hp θ
    · exact h
    · exfalso
      have h1 : 0 ≤ mean d (one n K ψ t (run n K ψ t rate (ess.flatMap (batchesOf B)) θ)) := mean_nonneg fun e he => one_nonneg n K ψ t (ht e he) _
      have h2 : (ess.length : ℝ) * (rate * m / (2 * S) * (Real.log 2 / (2 * d.length)) ^ 2) = ess.length * rate * m * Real.log 2 ^ 2 / (8 * S * d.length ^ 2) := by
        field_simp
        ring
      have h3 : ess.length * rate * m * Real.log 2 ^ 2 / (8 * S * d.length ^ 2) ≤ mean d (one n K ψ t θ) := by rw [← h2]; linarith
      rw [div_le_iff₀ (by positivity)] at h3
      linarith
  · refine mean_one_lt hne ht ?_
    have : mean d (wrong n K ψ t (run n K ψ t rate (ess.flatMap (batchesOf B)) θ)) ≤ 0 := by
      have h1 : mean d (wrong n K ψ t (run n K ψ t rate (ess.flatMap (batchesOf B)) θ)) = mean d fun _ => 0 := by
        refine mean_congr fun e he => ?_
        unfold wrong
        have hte := ht e he
        rw [wrong_eq_sum hte, show (range n).erase (t e) = ∅ from ?_, sum_empty]
        ext i
        simp
        omega
      rw [h1]
      unfold mean
      simp
    exact this.trans_lt (by positivity)

end Convex

section
open Convex
variable {init : List NetLayer} {n : Nat} {s : Shape} {d : List (Tensor × Nat)} {w : Tensor} {β : Nat → ℝ}

theorem margin_comb (ht : ∀ e ∈ d, e.2 < n) (h : Margin init s n d w β) :
    ∀ e ∈ d, Convex.Margin n (featureCount init s + 1) (combFeature init s) Prod.snd (comb (featureCount init s) w β) e := by
  intro e he i hi hne
  rw [comb_logit _ _ _ _ _ _ hi, comb_logit _ _ _ _ _ _ (ht e he), last_value _ _ _ _ _ _ hi, last_value _ _ _ _ _ _ (ht e he)]
  exact h e he i hi hne

theorem comb_square (n K : Nat) (w : Tensor) (β : Nat → ℝ) : dot n (K + 1) (comb K w β) (comb K w β) = paramDist n K w β (fun _ _ _ => 0) (fun _ => 0) := by
  rw [← comb_dist]
  congr 1 <;> funext i j <;> simp [comb]

/-- Finitely many positive numbers are greater than one of them, made smaller. -/
theorem exists_least {ι : Type} (l : List ι) (f : ι → ℝ) (h : ∀ i ∈ l, 0 < f i) : ∃ c > 0, ∀ i ∈ l, c ≤ f i := by
  induction l with
  | nil => exact ⟨1, one_pos, by simp⟩
  | cons i l ih =>
    obtain ⟨c, hc, hl⟩ := ih fun j hj => h j (by simp [hj])
    refine ⟨min c (f i), lt_min hc (h i (by simp)), fun j hj => ?_⟩
    rcases List.mem_cons.1 hj with rfl | hj
    · exact min_le_right _ _
    · exact (min_le_left _ _).trans (hl j hj)

/-- A classifier that is right for all samples is, made greater, right with a margin. -/
theorem separates_margin (ht : ∀ e ∈ d, e.2 < n) (h : Separates (init ++ [.full n w β]) s n d) : ∃ w₁ β₁, Margin init s n d w₁ β₁ := by
  let v : Tensor × Nat → Nat → ℝ := fun e i => β i + ∑ k ∈ range (featureCount init s), w i k 0 * feature init s e.1 k
  have hv : ∀ e ∈ d, ∀ i < n, i ≠ e.2 → v e i < v e e.2 := by
    intro e he i hi hne
    have h := h e he i hi hne
    rw [netProb_last, netProb_last] at h
    unfold softmax at h
    rw [div_lt_div_iff_of_pos_right (sum_exp_pos (Nat.zero_lt_of_lt hi) _), Real.exp_lt_exp, last_value _ _ _ _ _ _ hi, last_value _ _ _ _ _ _ (ht e he)] at h
    exact h
  obtain ⟨c, hc, hl⟩ := exists_least (d.flatMap fun e => ((List.range n).filter (· ≠ e.2)).map fun i => (e, i)) (fun p => v p.1 p.1.2 - v p.1 p.2) (by
    intro p hp
    obtain ⟨e, he, hp⟩ := List.mem_flatMap.1 hp
    obtain ⟨i, hi, rfl⟩ := List.mem_map.1 hp
    obtain ⟨hi, hne⟩ := List.mem_filter.1 hi
    exact sub_pos.2 (hv e he i (List.mem_range.1 hi) (by simpa using hne)))
  refine ⟨fun i j k => c⁻¹ * w i j k, fun i => c⁻¹ * β i, ?_⟩
  intro e he i hi hne
  have h1 := hl (e, i) (List.mem_flatMap.2 ⟨e, he, List.mem_map.2 ⟨i, List.mem_filter.2 ⟨List.mem_range.2 hi, by simpa using hne⟩, rfl⟩⟩)
  have h2 : ∀ j, c⁻¹ * β j + ∑ k ∈ range (featureCount init s), c⁻¹ * w j k 0 * feature init s e.1 k = c⁻¹ * v e j := by
    intro j
    simp only [v, mul_add, mul_sum, mul_assoc]
  rw [h2, h2]
  have h3 := mul_le_mul_of_nonneg_left h1 (inv_pos.2 hc).le
  rw [inv_mul_cancel₀ hc.ne', mul_sub] at h3
  linarith

theorem epochs_total {γ : Type} {B m : Nat} (h0 : 0 < B) {d : List γ} (hd : d.length = m * B) {ess : List (List γ)} (hp : ∀ es ∈ ess, es.Perm d) (f : γ → ℝ) :
    ((ess.flatMap (batchesOf B)).map fun b => mean b f).sum = ess.length * m * mean d f := by
  induction ess with
  | nil => simp
  | cons es ess ih =>
    rw [List.flatMap_cons, List.map_append, List.sum_append, batches_total h0 (hp es (by simp)) hd, ih fun es hes => hp es (by simp [hes]), List.length_cons]
    push_cast
    ring

theorem radius_pos {R : ℝ} (hd : d ≠ []) (hR : ∀ e ∈ d, 1 + ∑ k ∈ range (featureCount init s), feature init s e.1 k ^ 2 ≤ R) : 0 < R := by
  obtain ⟨e, he⟩ := List.exists_mem_of_ne_nil d hd
  have := sum_nonneg fun k (_ : k ∈ range (featureCount init s)) => sq_nonneg (feature init s e.1 k)
  linarith [hR e he]

theorem batch_mem {B m : Nat} (h0 : 0 < B) (hd : d.length = m * B) {ess : List (List (Tensor × Nat))} (hp : ∀ es ∈ ess, es.Perm d) :
    ∀ b ∈ ess.flatMap (batchesOf B), b ≠ [] ∧ ∀ e ∈ b, e ∈ d := by
  intro b hb
  obtain ⟨es, hes, hb⟩ := List.mem_flatMap.1 hb
  refine ⟨?_, fun e he => (hp es hes).mem_iff.1 (mem_batchesOf hb e he)⟩
  have := (batchesOf_full h0 m ((hp es hes).length_eq.trans hd)).1 b hb
  rintro rfl
  simp at this
  omega

/-- The bound for the wrong answers. -/
theorem mistakes_le {R rate : ℝ} {B m k c : Nat} (hd : d.length = m * B) (h0 : 0 < B) (hm : 0 < m) (ht : ∀ e ∈ d, e.2 < n)
    (hR : ∀ e ∈ d, 1 + ∑ k ∈ range (featureCount init s), feature init s e.1 k ^ 2 ≤ R) (h1 : 0 < rate) (h2 : rate * R ≤ 2) (w : Tensor) (β : Nat → ℝ)
    (w₀ : Tensor) (β₀ : Nat → ℝ) {ess : List (List (Tensor × Nat))} (hp : ∀ es ∈ ess, es.Perm d) (hk : ess.length = k)
    (h : Real.log 2 * ((k * (m * B) : ℝ) - c) ≤
      B * online n (featureCount init s + 1) (combFeature init s) Prod.snd rate (ess.flatMap (batchesOf B)) (comb (featureCount init s) w β)) :
    rate * (2 - rate * R) * Real.log 2 * (k * (m * B) - c) ≤
      B * paramDist n (featureCount init s) w β w₀ β₀ + 2 * rate * (k * (m * B)) * meanLoss s n d (init ++ [.full n w₀ β₀]) := by
  have hne : d ≠ [] := by
    rintro rfl
    have := Nat.mul_pos hm h0
    simp at hd; omega
  have hb := batch_mem h0 hd hp
  have a := online_le n (featureCount init s + 1) (combFeature init s) Prod.snd (radius_pos hne hR) h1.le (ess.flatMap (batchesOf B)) (fun b h => (hb b h).1)
    (fun b h e he => ht e ((hb b h).2 e he)) (fun b h e he => head_square hR e ((hb b h).2 e he)) (comb (featureCount init s) w β) (comb (featureCount init s) w₀ β₀)
  have e1 : Convex.total n (featureCount init s + 1) (combFeature init s) Prod.snd (ess.flatMap (batchesOf B)) (comb (featureCount init s) w₀ β₀) =
      k * m * meanLoss s n d (init ++ [.full n w₀ β₀]) := by
    rw [← comb_mean init n w₀ β₀ s ht, ← hk]
    exact epochs_total h0 hd hp _
  rw [comb_dist, e1] at a
  have hB : (0 : ℝ) < B := by exact_mod_cast h0
  have c1 : 0 ≤ rate * (2 - rate * R) := mul_nonneg h1.le (by linarith)
  have c2 := mul_le_mul_of_nonneg_left h c1
  have c3 := mul_le_mul_of_nonneg_left a hB.le
  nlinarith

theorem counts_sum {q : Nat} (l : List Nat) (h : ∀ c ∈ l, c ≤ q) (hn : ∀ c ∈ l, c ≠ q) : l.sum + l.length ≤ l.length * q := by
  induction l with
  | nil => simp
  | cons c l ih =>
    have := ih (fun c hc => h c (by simp [hc])) fun c hc => hn c (by simp [hc])
    have h1 := h c (by simp)
    have h2 := hn c (by simp)
    rw [List.sum_cons, List.length_cons, Nat.succ_mul]
    omega

theorem Train.percent_all {q : Nat} (h : 0 < q) : Train.percent q q = some 100 := by
  have : (q : ℚ) ≠ 0 := by exact_mod_cast h.ne'
  unfold Train.percent
  rw [if_neg h.ne', mul_div_cancel_right₀ _ this]

/-- The wrong answers become rare. -/
theorem few_mistakes {R rate : ℝ} {B m : Nat} (h0 : 0 < B) (hm : 0 < m) (ht : ∀ e ∈ d, e.2 < n) (h1 : 0 < rate) (h2 : rate * R < 2) (w : Tensor) (β : Nat → ℝ)
    {w₀ : Tensor} {β₀ : Nat → ℝ} (hsep : Separates (init ++ [.full n w₀ β₀]) s n d) {ε : ℝ} (hε : 0 < ε) :
    ∃ N : Nat, ∀ k ≥ N, ∀ counts : List Nat, counts.length = k → (∀ c ∈ counts, c ≤ m * B) →
      (∀ (w₀ : Tensor) (β₀ : Nat → ℝ), rate * (2 - rate * R) * Real.log 2 * (k * (m * B) - counts.sum) ≤
        B * paramDist n (featureCount init s) w β w₀ β₀ + 2 * rate * (k * (m * B)) * meanLoss s n d (init ++ [.full n w₀ β₀])) →
      (1 - ε) * (k * (m * B)) ≤ counts.sum ∧ ∃ c ∈ counts, c = m * B := by
  have hlog : 0 < Real.log 2 := Real.log_pos (by norm_num)
  have hB : (0 : ℝ) < B := by exact_mod_cast h0
  have hm' : (0 : ℝ) < m := by exact_mod_cast hm
  have hc : 0 < rate * (2 - rate * R) * Real.log 2 := mul_pos (mul_pos h1 (by linarith)) hlog
  obtain ⟨δ, hδ⟩ : ∃ δ, δ = min ε (1 / (2 * (m * B))) := ⟨_, rfl⟩
  have hδ0 : 0 < δ := by rw [hδ]; positivity
  have hδ1 : δ ≤ ε := by rw [hδ]; exact min_le_left _ _
  have hδ2 : δ * (2 * (m * B)) ≤ 1 := by
    rw [← le_div_iff₀ (by positivity), hδ]; exact min_le_right _ _
  obtain ⟨w₁, β₁, hloss⟩ := separable_small ht hsep (ε := rate * (2 - rate * R) * Real.log 2 * δ / (4 * rate)) (by positivity)
  obtain ⟨N, hN⟩ := exists_nat_gt (B * paramDist n (featureCount init s) w β w₁ β₁ / (rate * (2 - rate * R) * Real.log 2 * δ / 2 * (m * B)))
  refine ⟨N + 1, fun k hk counts hl hle h => ?_⟩
  have h3 := h w₁ β₁
  generalize paramDist n (featureCount init s) w β w₁ β₁ = D at *
  generalize meanLoss s n d (init ++ [.full n w₁ β₁]) = L at *
  generalize rate * (2 - rate * R) * Real.log 2 = c at *
  have hk' : (N : ℝ) < k := by exact_mod_cast (by omega : N < k)
  have hk0 : (0 : ℝ) < k := by exact_mod_cast (by omega : 0 < k)
  have h4 : B * D < c * δ / 2 * (m * B) * k := by
    rw [div_lt_iff₀ (by positivity)] at hN
    nlinarith [mul_lt_mul_of_pos_right hk' (by positivity : 0 < c * δ / 2 * (m * B))]
  have h5 : 2 * rate * (k * (m * B)) * L < c * δ / 2 * (m * B) * k := by
    rw [lt_div_iff₀ (by positivity)] at hloss
    have := mul_lt_mul_of_pos_right hloss (by positivity : 0 < (k : ℝ) * (m * B) / 2)
    nlinarith
  have h6 : (k : ℝ) * (m * B) - counts.sum < δ * (k * (m * B)) := by
    by_contra hcon
    have := mul_le_mul_of_nonneg_left (not_lt.1 hcon) hc.le
    nlinarith
  have hkm : 0 < (k : ℝ) * (m * B) := by positivity
  refine ⟨by nlinarith [mul_le_mul_of_nonneg_right hδ1 hkm.le], ?_⟩
  by_contra hcon
  have h7 := counts_sum counts hle fun c hc he => hcon ⟨c, hc, he⟩
  rw [hl] at h7
  have h8 : (counts.sum : ℝ) + k ≤ k * (m * B) := by exact_mod_cast h7
  nlinarith [mul_le_mul_of_nonneg_left hδ2 hk0.le]

/-- The result of a training with small steps. -/
theorem margin_result {R S rate : ℝ} {B m : Nat} (hd : d.length = m * B) (h0 : 0 < B) (hm : 0 < m) (ht : ∀ e ∈ d, e.2 < n)
    (hR : ∀ e ∈ d, 1 + ∑ k ∈ range (featureCount init s), feature init s e.1 k ^ 2 ≤ R) {w₀ : Tensor} {β₀ : Nat → ℝ} (hmar : Margin init s n d w₀ β₀)
    (hS : paramDist n (featureCount init s) w₀ β₀ (fun _ _ _ => 0) (fun _ => 0) ≤ S) (h1 : 0 < rate) (h2 : 20 * rate * m * R ^ 2 * S ≤ 1) (w : Tensor) (β : Nat → ℝ)
    {ess : List (List (Tensor × Nat))} (hp : ∀ es ∈ ess, es.Perm d)
    (h3 : 8 * S * d.length ^ 2 * meanLoss s n d (init ++ [.full n w β]) < ess.length * rate * m * Real.log 2 ^ 2) {w' : Tensor} {β' : Nat → ℝ}
    (h : ∀ i < n, ∀ j < featureCount init s + 1, comb (featureCount init s) w' β' i j =
      run n (featureCount init s + 1) (combFeature init s) Prod.snd rate (ess.flatMap (batchesOf B)) (comb (featureCount init s) w β) i j) :
    meanLoss s n d (init ++ [.full n w' β']) < Real.log 2 / d.length := by
  have hne : d ≠ [] := by
    rintro rfl
    have := Nat.mul_pos hm h0
    simp at hd; omega
  rw [← comb_mean init n w' β' s ht, mean_congr fun e he => one_congr h (ht e he)]
  exact epochs_small hd h0 hm h1 (radius_pos hne hR) (comb (featureCount init s) w₀ β₀) ht (head_square hR) (margin_comb ht hmar) (by rw [comb_square]; exact hS) h2 ess hp _
    (by rw [comb_mean init n w β s ht]; exact h3)

/-- For data that can be told apart there are learning rates and numbers of epochs that are enough. -/
theorem margin_exists (hne : d ≠ []) (ht : ∀ e ∈ d, e.2 < n) {w₀ : Tensor} {β₀ : Nat → ℝ} (hsep : Separates (init ++ [.full n w₀ β₀]) s n d) (w : Tensor) (β : Nat → ℝ) :
    ∃ rate₀ > 0, ∀ rate : ℝ, 0 < rate → rate ≤ rate₀ → ∃ N : Nat, ∀ B m : Nat, d.length = m * B → ∀ (ess : List (List (Tensor × Nat))) (w' : Tensor) (β' : Nat → ℝ),
      (∀ es ∈ ess, es.Perm d) → N ≤ ess.length →
      (∀ i < n, ∀ j < featureCount init s + 1, comb (featureCount init s) w' β' i j =
        run n (featureCount init s + 1) (combFeature init s) Prod.snd rate (ess.flatMap (batchesOf B)) (comb (featureCount init s) w β) i j) →
      meanLoss s n d (init ++ [.full n w' β']) < Real.log 2 / d.length := by
  have hN : (0 : ℝ) < d.length := by exact_mod_cast List.length_pos_iff.2 hne
  obtain ⟨w₁, β₁, hmar⟩ := separates_margin ht hsep
  obtain ⟨S, hS⟩ : ∃ S, S = paramDist n (featureCount init s) w₁ β₁ (fun _ _ _ => 0) (fun _ => 0) + 1 := ⟨_, rfl⟩
  have hS0 : 0 < S := by
    rw [hS, ← comb_square]
    linarith [dot_self_nonneg n (featureCount init s + 1) (comb (featureCount init s) w₁ β₁)]
  obtain ⟨R, hR⟩ : ∃ R, ∀ e ∈ d, 1 + ∑ k ∈ range (featureCount init s), feature init s e.1 k ^ 2 ≤ R := by
    refine ⟨(d.map fun e => 1 + ∑ k ∈ range (featureCount init s), feature init s e.1 k ^ 2).sum, fun e he => ?_⟩
    refine List.single_le_sum (fun x hx => ?_) _ (List.mem_map_of_mem (f := fun e : Tensor × Nat => 1 + ∑ k ∈ range (featureCount init s), feature init s e.1 k ^ 2) he)
    obtain ⟨e, -, rfl⟩ := List.mem_map.1 hx
    have := sum_nonneg fun k (_ : k ∈ range (featureCount init s)) => sq_nonneg (feature init s e.1 k)
    linarith
  have hR0 := radius_pos hne hR
  have hlog : 0 < Real.log 2 := Real.log_pos (by norm_num)
  refine ⟨1 / (20 * d.length * R ^ 2 * S), by positivity, fun rate h1 h2 => ?_⟩
  rw [le_div_iff₀ (by positivity)] at h2
  obtain ⟨N, hN'⟩ := exists_nat_gt (8 * S * d.length ^ 2 * meanLoss s n d (init ++ [.full n w β]) / (rate * Real.log 2 ^ 2))
  rw [div_lt_iff₀ (by positivity)] at hN'
  refine ⟨N, fun B m hd ess w' β' hp hl h => ?_⟩
  have hpos : 0 < m * B := by rw [← hd]; exact List.length_pos_iff.2 hne
  have h0 : 0 < B := Nat.pos_of_mul_pos_left hpos
  have hm : 0 < m := Nat.pos_of_mul_pos_right hpos
  have hmd : (m : ℝ) ≤ d.length := by rw [hd]; exact_mod_cast Nat.le_mul_of_pos_right m h0
  have hm1 : (1 : ℝ) ≤ m := by exact_mod_cast hm
  refine margin_result hd h0 hm ht hR hmar (S := S) (by rw [hS]; linarith) h1 ?_ w β hp ?_ h
  · nlinarith [mul_le_mul_of_nonneg_left hmd (by positivity : 0 ≤ 20 * rate * R ^ 2 * S)]
  · have hl' : (N : ℝ) ≤ ess.length := by exact_mod_cast hl
    have hx : 0 < rate * Real.log 2 ^ 2 := by positivity
    have hy := mul_le_mul hl' hm1 (by norm_num) (by positivity)
    nlinarith [mul_le_mul_of_nonneg_right hy hx.le]

end
end Cnn
