import Verif.Lemmas.Convex
import Verif.Lemmas.Lowers
import Verif.Spec.Linear
import Verif.Spec.Stale
import Verif.Props.Surrogate
/-! Training the last layer alone is softmax regression (C92). -/
namespace Cnn
open Finset _root_.Cnn.Convex

theorem netSurrogate_append (a b : List NetLayer) (s : Shape) (x : Tensor) :
    netSurrogate (a ++ b) s x = netSurrogate a s x ++ netSurrogate b (netOut a s) (netEval a s x) := by
  induction a generalizing s x with
  | nil => rfl
  | cons l a ih => simp only [List.cons_append, netSurrogate, netOut, netEval, ih]

theorem netSurrogate_length (a : List NetLayer) (s : Shape) (x : Tensor) : (netSurrogate a s x).length = a.length := by
  induction a generalizing s x with
  | nil => rfl
  | cons l a ih => simp [netSurrogate, ih]

theorem netFits_left {a b : List NetLayer} {s : Shape} (h : NetFits (a ++ b) s) : NetFits a s := by
  induction a generalizing s with
  | nil => trivial
  | cons l a ih => exact ⟨h.1, ih h.2⟩

/-- The sum that a fully connected layer computes. -/
theorem last_value (init : List NetLayer) (n : Nat) (w : Tensor) (β : Nat → ℝ) (s : Shape) (x : Tensor) {i : Nat} (hi : i < n) :
    flatOf n 1 ((NetLayer.full n w β).eval (netOut init s) (netEval init s x)) i = β i + ∑ k ∈ range (featureCount init s), w i k 0 * feature init s x k := by
  simp only [NetLayer.eval, flatOf, Nat.mod_eq_of_lt hi]
  rfl

theorem last_weight (init : List NetLayer) (n : Nat) (w : Tensor) (β : Nat → ℝ) (s : Shape) {t : Nat} (ht : t < n) (x : Tensor) {a b : Nat} (ha : a < n)
    (hb : b < featureCount init s) :
    HasDerivAt (fun v => netLoss (init ++ [.full n (w.update a b 0 v) β]) s n t x)
      ((netProb (init ++ [.full n w β]) s n x a - if a = t then 1 else 0) * feature init s x b) (w a b 0) := by
  simp only [netLoss_last, netProb_last]
  have e : w.update a b 0 (w a b 0) = w := by
    funext i j k; unfold Tensor.update; split
    · rename_i h; rw [h.1, h.2.1, h.2.2]
    · rfl
  refine (softmax_curve ht _ (fun i => if i = a then feature init s x b else 0) (w a b 0) fun i hi => ?_).congr_deriv ?_
  · simp only [last_value _ _ _ _ _ _ hi]
    refine HasDerivAt.const_add _ ?_
    have h1 : ∀ k ∈ range (featureCount init s), HasDerivAt (fun v => w.update a b 0 v i k 0 * feature init s x k)
        (if i = a ∧ k = b then feature init s x b else 0) (w a b 0) := by
      intro k _
      unfold Tensor.update
      by_cases h : i = a ∧ k = b
      · obtain ⟨rfl, rfl⟩ := h
        simpa using (hasDerivAt_id' (w i k 0)).mul_const (feature init s x k)
      · simpa [h] using hasDerivAt_const (w a b 0) (w i k 0 * feature init s x k)
    refine (HasDerivAt.fun_sum h1).congr_deriv ?_
    by_cases h : i = a
    · simp [h, hb]
    · simp [h]
  · rw [e]
    simp [ha]

/-- All parameters of the last layer in one table; the biases are the last column. -/
noncomputable def comb (K : Nat) (w : Tensor) (β : Nat → ℝ) : Nat → Nat → ℝ := fun i j => if j < K then w i j 0 else β i

noncomputable def combFeature (init : List NetLayer) (s : Shape) (e : Tensor × Nat) : Nat → ℝ :=
  fun j => if j < featureCount init s then feature init s e.1 j else 1

theorem comb_logit (init : List NetLayer) (n : Nat) (w : Tensor) (β : Nat → ℝ) (s : Shape) (e : Tensor × Nat) {i : Nat} (hi : i < n) :
    logit (featureCount init s + 1) (combFeature init s) (comb (featureCount init s) w β) e i =
      flatOf n 1 ((NetLayer.full n w β).eval (netOut init s) (netEval init s e.1)) i := by
  rw [last_value _ _ _ _ _ _ hi]
  unfold logit
  rw [sum_range_succ, add_comm]
  congr 1
  · simp [comb, combFeature]
  · refine sum_congr rfl fun j hj => ?_
    simp [comb, combFeature, mem_range.1 hj]

theorem softmax_congr_range {n : Nat} {u v : Nat → ℝ} (h : ∀ i < n, u i = v i) {i : Nat} (hi : i < n) : softmax n u i = softmax n v i := by
  unfold softmax
  rw [h i hi, sum_congr rfl fun j hj => by rw [h j (mem_range.1 hj)]]

theorem comb_softmax (init : List NetLayer) (n : Nat) (w : Tensor) (β : Nat → ℝ) (s : Shape) (e : Tensor × Nat) {i : Nat} (hi : i < n) :
    softmax n (logit (featureCount init s + 1) (combFeature init s) (comb (featureCount init s) w β) e) i = netProb (init ++ [.full n w β]) s n e.1 i := by
  rw [netProb_last]
  exact softmax_congr_range (fun j hj => comb_logit init n w β s e hj) hi

theorem neg_log_softmax {n : Nat} (v : Nat → ℝ) {t : Nat} (ht : t < n) : -Real.log (softmax n v t) = lse n v - v t := by
  unfold softmax lse
  rw [Real.log_div (Real.exp_pos _).ne' (sum_exp_pos (Nat.zero_lt_of_lt ht) v).ne', Real.log_exp]
  ring

theorem comb_one (init : List NetLayer) (n : Nat) (w : Tensor) (β : Nat → ℝ) (s : Shape) (e : Tensor × Nat) (ht : e.2 < n) :
    one n (featureCount init s + 1) (combFeature init s) Prod.snd (comb (featureCount init s) w β) e = netLoss (init ++ [.full n w β]) s n e.2 e.1 := by
  unfold one netLoss
  rw [← neg_log_softmax _ ht, comb_softmax init n w β s e ht]

theorem comb_mean (init : List NetLayer) (n : Nat) (w : Tensor) (β : Nat → ℝ) (s : Shape) {d : List (Tensor × Nat)} (ht : ∀ e ∈ d, e.2 < n) :
    mean d (one n (featureCount init s + 1) (combFeature init s) Prod.snd (comb (featureCount init s) w β)) = meanLoss s n d (init ++ [.full n w β]) := by
  unfold mean meanLoss
  congr 2
  exact List.map_congr_left fun e he => comb_one init n w β s e (ht e he)

theorem mean_perm {γ : Type} {d d' : List γ} (h : d.Perm d') (f : γ → ℝ) : mean d f = mean d' f := by
  unfold mean
  rw [(h.map f).sum_eq, h.length_eq]

theorem mean_congr {γ : Type} {d : List γ} {f g : γ → ℝ} (h : ∀ e ∈ d, f e = g e) : mean d f = mean d g := by
  unfold mean
  rw [List.map_congr_left h]

section
variable {γ : Type} {n K : Nat} {ψ : γ → Nat → ℝ} {t : γ → Nat}

/-- The values outside the table do not matter. -/
theorem logit_congr {θ θ' : Nat → Nat → ℝ} (h : ∀ i < n, ∀ j < K, θ i j = θ' i j) (e : γ) {i : Nat} (hi : i < n) : logit K ψ θ e i = logit K ψ θ' e i :=
  sum_congr rfl fun j hj => by rw [h i hi j (mem_range.1 hj)]

theorem one_congr {θ θ' : Nat → Nat → ℝ} (h : ∀ i < n, ∀ j < K, θ i j = θ' i j) {e : γ} (ht : t e < n) : one n K ψ t θ e = one n K ψ t θ' e := by
  unfold one lse
  rw [logit_congr h e ht, sum_congr rfl fun i hi => by rw [logit_congr h e (mem_range.1 hi)]]

theorem step_congr {θ θ' : Nat → Nat → ℝ} (h : ∀ i < n, ∀ j < K, θ i j = θ' i j) (rate : ℝ) (d : List γ) {i j : Nat} (hi : i < n) (hj : j < K) :
    step n K ψ t rate d θ i j = step n K ψ t rate d θ' i j := by
  unfold step grad
  rw [h i hi j hj, mean_congr (g := part n K ψ t θ' i j)]
  intro e _
  unfold part
  rw [softmax_congr_range (fun m hm => logit_congr h e hm) hi]

theorem dot_congr {a a' b b' : Nat → Nat → ℝ} (h : ∀ i < n, ∀ j < K, a i j = a' i j) (h' : ∀ i < n, ∀ j < K, b i j = b' i j) : dot n K a b = dot n K a' b' :=
  sum_congr rfl fun i hi => sum_congr rfl fun j hj => by rw [h i (mem_range.1 hi) j (mem_range.1 hj), h' i (mem_range.1 hi) j (mem_range.1 hj)]
end

/-- The step that training takes. -/
theorem head_step {init : List NetLayer} (hno : NoParams init) {n : Nat} {s : Shape} (hfit : NetFits init s) (rate : ℝ) {d : List (Tensor × Nat)}
    (ht : ∀ e ∈ d, e.2 < n) (w : Tensor) (β : Nat → ℝ) :
    ∃ w' β', memStep (fun ls x => netSurrogate ls s x) rate s n (d.map fun e => (init ++ [.full n w β], e)) (init ++ [.full n w β]) = init ++ [.full n w' β'] ∧
      ∀ i < n, ∀ j < featureCount init s + 1, comb (featureCount init s) w' β' i j =
        step n (featureCount init s + 1) (combFeature init s) Prod.snd rate d (comb (featureCount init s) w β) i j := by
  let K := featureCount init s
  let mem : List Remembered := d.map fun e => (init ++ [.full n w β], e)
  let rep : Rep := fun ls x => netSurrogate ls s x
  refine ⟨fun a b c => w a b c - rate * ((mem.map fun m => weightPartial s n (rep m.1 m.2.1, m.2) init.length a b c).sum / mem.length),
    fun k => β k - rate * ((mem.map fun m => biasPartial s n (rep m.1 m.2.1, m.2) init.length k).sum / mem.length), ?_, ?_⟩
  · unfold memStep
    rw [List.mapIdx_append]
    congr 1
    · refine List.ext_getElem? fun i => ?_
      rw [List.getElem?_mapIdx]
      cases h : init[i]? with
      | none => rfl
      | some l => simp [hno l (List.mem_of_getElem? h)]
    · simp [NetLayer.params, NetLayer.withParams, mem, rep]
  · have hsur : ∀ x, netSurrogate (init ++ [.full n w β]) s x = netSurrogate init s x ++ [.full n w β] := by
      intro x
      rw [netSurrogate_append]
      rfl
    have hval : ∀ x, featureCount (netSurrogate init s x) s = K ∧ feature (netSurrogate init s x) s x = feature init s x := by
      intro x
      obtain ⟨h1, h2, _⟩ := C83_value init s x n 0 hfit
      unfold feature featureCount
      rw [h1, h2]
      exact ⟨rfl, rfl⟩
    have hprob : ∀ x i, netProb (netSurrogate init s x ++ [.full n w β]) s n x i = netProb (init ++ [.full n w β]) s n x i := by
      intro x i
      obtain ⟨h1, h2, _⟩ := C83_value init s x n 0 hfit
      rw [netProb_last, netProb_last, h1, h2]
    have hget : ∀ x, (netSurrogate init s x ++ [NetLayer.full n w β])[init.length]? = some (.full n w β) := by
      intro x
      rw [List.getElem?_append_right (by rw [netSurrogate_length])]
      simp [netSurrogate_length]
    have hset : ∀ x l, (netSurrogate init s x ++ [NetLayer.full n w β]).set init.length l = netSurrogate init s x ++ [l] := by
      intro x l
      rw [List.set_append_right _ _ (by rw [netSurrogate_length])]
      simp [netSurrogate_length]
    intro i hi j hj
    show (if j < K then _ else _) = (if j < K then _ else _) - rate * mean d _
    by_cases hjK : j < K
    · rw [if_pos hjK, if_pos hjK]
      show w i j 0 - rate * _ = w i j 0 - rate * _
      congr 2
      show (mem.map _).sum / (mem.length : ℝ) = (d.map _).sum / _
      simp only [mem, List.map_map, List.length_map]
      congr 2
      refine List.map_congr_left fun e he => ?_
      show weightPartial s n (netSurrogate (init ++ [.full n w β]) s e.1, e) init.length i j 0 = _
      rw [hsur]
      simp only [weightPartial, hget, NetLayer.params, NetLayer.withParams, hset]
      have hb : j < featureCount (netSurrogate init s e.1) s := by rw [(hval e.1).1]; exact hjK
      rw [(last_weight (netSurrogate init s e.1) n w β s (ht e he) e.1 hi hb).deriv, hprob, (hval e.1).2]
      unfold part
      rw [comb_softmax init n w β s e hi]
      simp only [combFeature]
      rw [if_pos hjK]
    · rw [if_neg hjK, if_neg hjK]
      show β i - rate * _ = β i - rate * _
      congr 2
      show (mem.map _).sum / (mem.length : ℝ) = (d.map _).sum / _
      simp only [mem, List.map_map, List.length_map]
      congr 2
      refine List.map_congr_left fun e he => ?_
      show biasPartial s n (netSurrogate (init ++ [.full n w β]) s e.1, e) init.length i = _
      rw [hsur]
      simp only [biasPartial, hget, NetLayer.params, NetLayer.withParams, hset]
      rw [(last_bias (netSurrogate init s e.1) n w β s (ht e he) e.1 hi).deriv, hprob]
      unfold part
      rw [comb_softmax init n w β s e hi]
      simp only [combFeature]
      rw [if_neg hjK, mul_one]

/-- The whole training. -/
theorem head_descents {init : List NetLayer} (hno : NoParams init) {n : Nat} {s : Shape} (hfit : NetFits init s) (rate : ℝ) {d : List (Tensor × Nat)}
    (ht : ∀ e ∈ d, e.2 < n) (θ : Nat → Nat → Nat → ℝ)
    (hs : ∀ k, θ (k + 1) = step n (featureCount init s + 1) (combFeature init s) Prod.snd rate d (θ k)) (ess : List (List (Tensor × Nat)))
    (hd : ∀ es ∈ ess, es.Perm d) :
    ∀ (k : Nat) (mem : List Remembered) (w : Tensor) (β : Nat → ℝ), mem.length ≤ d.length →
      (∀ i < n, ∀ j < featureCount init s + 1, comb (featureCount init s) w β i j = θ k i j) →
      ∃ w' β', staleDescents (fun ls x => netSurrogate ls s x) rate s n ess mem (init ++ [.full n w β]) = init ++ [.full n w' β'] ∧
        ∀ i < n, ∀ j < featureCount init s + 1, comb (featureCount init s) w' β' i j = θ (k + ess.length) i j := by
  induction ess with
  | nil => exact fun k mem w β _ h => ⟨w, β, rfl, h⟩
  | cons es ess ih =>
    intro k mem w β hm h
    have hp := hd es (by simp)
    obtain ⟨w1, β1, e1, h1⟩ := head_step hno hfit rate (d := es) (fun e he => ht e (hp.subset he)) w β
    have hr : refill (init ++ [.full n w β]) es mem = es.map fun e => (init ++ [.full n w β], e) := by
      unfold refill
      rw [List.drop_of_length_le (by rw [hp.length_eq]; exact hm), List.append_nil]
    show ∃ w' β', staleDescents _ rate s n ess (refill _ es mem) (memStep _ rate s n (refill _ es mem) _) = _ ∧ _
    rw [hr, e1]
    have := ih (fun es hes => hd es (List.mem_cons_of_mem _ hes)) (k + 1) (es.map fun e => (init ++ [.full n w β], e)) w1 β1
      (by rw [List.length_map, hp.length_eq]) (by
        intro i hi j hj
        rw [h1 i hi j hj, hs k, ← step_congr h rate d hi hj]
        unfold step grad
        rw [mean_perm hp])
    rwa [Nat.add_assoc, Nat.add_comm 1] at this

end Cnn
