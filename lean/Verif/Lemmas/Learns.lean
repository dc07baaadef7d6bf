import Verif.Lemmas.Linear
import Verif.Lemmas.RoundingModel
/-! From the loss to the labels found (C92). -/
namespace Cnn
open Finset Model _root_.Cnn.Convex

/-- The parameters after each epoch. -/
noncomputable def headParams (init : List NetLayer) (n : Nat) (s : Shape) (rate : ℝ) (d : List (Tensor × Nat)) (w : Tensor) (β : Nat → ℝ) : Nat → Nat → Nat → ℝ
  | 0 => comb (featureCount init s) w β
  | k + 1 => step n (featureCount init s + 1) (combFeature init s) Prod.snd rate d (headParams init n s rate d w β k)

/-- The mean loss after each epoch. -/
noncomputable def headLosses (init : List NetLayer) (n : Nat) (s : Shape) (rate : ℝ) (d : List (Tensor × Nat)) (w : Tensor) (β : Nat → ℝ) (k : Nat) : ℝ :=
  mean d (one n (featureCount init s + 1) (combFeature init s) Prod.snd (headParams init n s rate d w β k))

section
variable {init : List NetLayer} {n : Nat} {s : Shape} {rate : ℝ} {d : List (Tensor × Nat)}

theorem head_square {R : ℝ} (hR : ∀ e ∈ d, 1 + ∑ k ∈ range (featureCount init s), feature init s e.1 k ^ 2 ≤ R) :
    ∀ e ∈ d, ∑ j ∈ range (featureCount init s + 1), combFeature init s e j ^ 2 ≤ R := by
  intro e he
  refine le_trans (le_of_eq ?_) (hR e he)
  rw [sum_range_succ, add_comm]
  congr 1
  · simp [combFeature]
  · exact sum_congr rfl fun j hj => by simp [combFeature, mem_range.1 hj]

theorem head_antitone {R : ℝ} (hd : d ≠ []) (ht : ∀ e ∈ d, e.2 < n) (hR : ∀ e ∈ d, 1 + ∑ k ∈ range (featureCount init s), feature init s e.1 k ^ 2 ≤ R)
    (h0 : 0 < rate) (h2 : rate * R ≤ 2) (w : Tensor) (β : Nat → ℝ) : Antitone (headLosses init n s rate d w β) := by
  refine antitone_nat_of_succ_le fun k => ?_
  have h := step_le n (featureCount init s + 1) (combFeature init s) Prod.snd hd ht (head_square hR) h0.le h2 (headParams init n s rate d w β k)
  have g := dot_self_nonneg n (featureCount init s + 1)
    (grad n (featureCount init s + 1) (combFeature init s) Prod.snd d (headParams init n s rate d w β k))
  show mean d (one n _ _ _ (step _ _ _ _ _ _ _)) ≤ mean d _
  nlinarith

theorem comb_dist (K : Nat) (w w' : Tensor) (β β' : Nat → ℝ) :
    dot n (K + 1) (fun i j => comb K w β i j - comb K w' β' i j) (fun i j => comb K w β i j - comb K w' β' i j) = paramDist n K w β w' β' := by
  unfold dot paramDist
  refine sum_congr rfl fun i _ => ?_
  rw [sum_range_succ]
  congr 1
  · refine sum_congr rfl fun j hj => ?_
    simp [comb, mem_range.1 hj, sq]
  · simp [comb, sq]

theorem head_bound {R : ℝ} (hd : d ≠ []) (ht : ∀ e ∈ d, e.2 < n) (hR : ∀ e ∈ d, 1 + ∑ k ∈ range (featureCount init s), feature init s e.1 k ^ 2 ≤ R)
    (h0 : 0 < rate) (h2 : rate * R ≤ 2) (w w₀ : Tensor) (β β₀ : Nat → ℝ) (k : Nat) :
    2 * rate * k * (headLosses init n s rate d w β k - meanLoss s n d (init ++ [.full n w₀ β₀])) ≤ paramDist n (featureCount init s) w β w₀ β₀ := by
  have h := descends n (featureCount init s + 1) (combFeature init s) Prod.snd hd ht (head_square hR) h0 h2 (headParams init n s rate d w β)
    (fun _ => rfl) (comb (featureCount init s) w₀ β₀) k
  rw [comb_mean init n w₀ β₀ s ht] at h
  have h3 : dot n (featureCount init s + 1) (fun i j => headParams init n s rate d w β 0 i j - comb (featureCount init s) w₀ β₀ i j)
      (fun i j => headParams init n s rate d w β 0 i j - comb (featureCount init s) w₀ β₀ i j) = paramDist n (featureCount init s) w β w₀ β₀ := comb_dist _ _ _ _ _
  rw [h3] at h
  have g := dot_self_nonneg n (featureCount init s + 1) (fun i j => headParams init n s rate d w β k i j - comb (featureCount init s) w₀ β₀ i j)
  unfold headLosses
  linarith

/-- The network after some epochs. -/
theorem head_result (hno : NoParams init) (hfit : NetFits init s) (ht : ∀ e ∈ d, e.2 < n) (w : Tensor) (β : Nat → ℝ) (ess : List (List (Tensor × Nat)))
    (hd : ∀ es ∈ ess, es.Perm d) {B : Nat} (hB : d.length = B) (h0 : 0 < B) :
    ∃ w' β', staleDescents (fun ls x => netSurrogate ls s x) rate s n (ess.flatMap (batchesOf B)) [] (init ++ [.full n w β]) = init ++ [.full n w' β'] ∧
      meanLoss s n d (init ++ [.full n w' β']) = headLosses init n s rate d w β ess.length := by
  have hb : ess.flatMap (batchesOf B) = ess := by
    clear ht
    induction ess with
    | nil => rfl
    | cons es ess ih =>
      have hl : es.length = B := (hd es (by simp)).length_eq.trans hB
      rw [List.flatMap_cons, ih fun e he => hd e (List.mem_cons_of_mem _ he), batchesOf_cons h0 (by rintro rfl; simp at hl; omega),
        List.take_of_length_le hl.le, List.drop_of_length_le hl.le, batchesOf_nil h0]
      rfl
  rw [hb]
  obtain ⟨w', β', e1, e2⟩ := head_descents hno hfit rate ht (headParams init n s rate d w β) (fun _ => rfl) ess hd 0 [] w β (by simp) (fun _ _ _ _ => rfl)
  refine ⟨w', β', e1, ?_⟩
  rw [← comb_mean init n w' β' s ht]
  unfold headLosses
  refine mean_congr fun e he => one_congr (fun i hi j hj => ?_) (ht e he)
  rw [e2 i hi j hj, Nat.zero_add]

/-- A separating choice of the parameters, scaled, makes the loss small. -/
theorem separable_small {w₀ : Tensor} {β₀ : Nat → ℝ} (ht : ∀ e ∈ d, e.2 < n) (hsep : Separates (init ++ [.full n w₀ β₀]) s n d) {ε : ℝ} (hε : 0 < ε) :
    ∃ w β, meanLoss s n d (init ++ [.full n w β]) < ε := by
  let v : Tensor × Nat → Nat → ℝ := fun e i => β₀ i + ∑ k ∈ range (featureCount init s), w₀ i k 0 * feature init s e.1 k
  have hv : ∀ e ∈ d, ∀ i < n, i ≠ e.2 → v e i < v e e.2 := by
    intro e he i hi hne
    have h := hsep e he i hi hne
    rw [netProb_last, netProb_last] at h
    unfold softmax at h
    rw [div_lt_div_iff_of_pos_right (sum_exp_pos (Nat.zero_lt_of_lt hi) _), Real.exp_lt_exp, last_value _ _ _ _ _ _ hi, last_value _ _ _ _ _ _ (ht e he)] at h
    exact h
  have hloss : ∀ c : ℝ, ∀ e ∈ d, netLoss (init ++ [.full n (fun i j k => c * w₀ i j k) (fun i => c * β₀ i)]) s n e.2 e.1 =
      Real.log (∑ i ∈ range n, Real.exp (c * (v e i - v e e.2))) := by
    intro c e he
    have hl : ∀ i < n, flatOf n 1 ((NetLayer.full n (fun i j k => c * w₀ i j k) (fun i => c * β₀ i)).eval (netOut init s) (netEval init s e.1)) i = c * v e i := by
      intro i hi
      rw [last_value _ _ _ _ _ _ hi]
      simp only [v, mul_add, mul_sum, mul_assoc]
    rw [netLoss_last, neg_log_softmax _ (ht e he), hl _ (ht e he)]
    have h1 : ∑ i ∈ range n, Real.exp (c * (v e i - v e e.2)) = (∑ i ∈ range n, Real.exp (c * v e i)) / Real.exp (c * v e e.2) := by
      rw [sum_div]
      exact sum_congr rfl fun i _ => by rw [← Real.exp_sub]; ring_nf
    rw [h1, Real.log_div (sum_exp_pos (Nat.zero_lt_of_lt (ht e he)) fun i => c * v e i).ne' (Real.exp_pos _).ne', Real.log_exp]
    unfold lse
    rw [sum_congr rfl fun i hi => by rw [hl i (mem_range.1 hi)]]
  have htend : ∀ e ∈ d, Filter.Tendsto (fun c : ℝ => Real.log (∑ i ∈ range n, Real.exp (c * (v e i - v e e.2)))) Filter.atTop (nhds 0) := by
    intro e he
    have h1 : Filter.Tendsto (fun c : ℝ => ∑ i ∈ range n, Real.exp (c * (v e i - v e e.2))) Filter.atTop (nhds (∑ i ∈ range n, if i = e.2 then 1 else 0)) := by
      refine tendsto_finsetSum _ fun i hi => ?_
      by_cases h : i = e.2
      · subst h; simp
      · rw [if_neg h]
        exact Real.tendsto_exp_atBot.comp (Filter.tendsto_id.atTop_mul_const_of_neg (sub_neg.2 (hv e he i (mem_range.1 hi) h)))
    rw [sum_ite_eq', if_pos (mem_range.2 (ht e he))] at h1
    have h2 := (Real.continuousAt_log (one_ne_zero (α := ℝ))).tendsto.comp h1
    rw [Real.log_one] at h2
    exact h2
  have hsum : Filter.Tendsto (fun c : ℝ => meanLoss s n d (init ++ [.full n (fun i j k => c * w₀ i j k) (fun i => c * β₀ i)])) Filter.atTop (nhds 0) := by
    have h2 : Filter.Tendsto (fun c : ℝ => (d.map fun e => Real.log (∑ i ∈ range n, Real.exp (c * (v e i - v e e.2)))).sum) Filter.atTop (nhds 0) := by
      clear hsep hv hloss ht
      induction d with
      | nil => simp
      | cons e d ih => simpa using (htend e (by simp)).add (ih fun x hx => htend x (List.mem_cons_of_mem _ hx))
    have h3 := h2.div_const (d.length : ℝ)
    rw [zero_div] at h3
    refine h3.congr fun c => ?_
    unfold meanLoss
    rw [List.map_congr_left fun e he => (hloss c e he).symm]
  obtain ⟨c, hc⟩ := ((hsum.eventually (Iio_mem_nhds hε)).and (Filter.eventually_ge_atTop 0)).exists
  exact ⟨_, _, hc.1⟩

theorem netProb_last_sum (hn : 0 < n) (w : Tensor) (β : Nat → ℝ) (x : Tensor) : ∑ i ∈ range n, netProb (init ++ [.full n w β]) s n x i = 1 := by
  rw [← Convex.softmax_sum hn (flatOf n 1 ((NetLayer.full n w β).eval (netOut init s) (netEval init s x)))]
  exact sum_congr rfl fun i _ => netProb_last _ _ _ _ _ _ _

/-- A small loss means that the right label has the greatest probability. -/
theorem small_separates {w : Tensor} {β : Nat → ℝ} (ht : ∀ e ∈ d, e.2 < n) (h : meanLoss s n d (init ++ [.full n w β]) < Real.log 2 / d.length) :
    Separates (init ++ [.full n w β]) s n d := by
  intro e he i hi hne
  have hn : 0 < n := Nat.zero_lt_of_lt hi
  have hpos : ∀ x j, 0 < netProb (init ++ [.full n w β]) s n x j := fun x j => by
    rw [netProb_last]; exact div_pos (Real.exp_pos _) (sum_exp_pos hn _)
  have hle : ∀ x, ∀ j < n, netProb (init ++ [.full n w β]) s n x j ≤ 1 := fun x j hj => by
    rw [← netProb_last_sum hn w β x]
    exact single_le_sum (f := netProb (init ++ [.full n w β]) s n x) (fun k _ => (hpos x k).le) (mem_range.2 hj)
  have hB : (0 : ℝ) < d.length := by exact_mod_cast List.length_pos_of_mem he
  have hsum : (d.map fun e => netLoss (init ++ [.full n w β]) s n e.2 e.1).sum < Real.log 2 := by
    unfold meanLoss at h
    rwa [div_lt_div_iff_of_pos_right hB] at h
  have h1 : netLoss (init ++ [.full n w β]) s n e.2 e.1 < Real.log 2 := by
    refine lt_of_le_of_lt ?_ hsum
    refine List.single_le_sum (l := d.map fun e => netLoss (init ++ [.full n w β]) s n e.2 e.1) ?_ _ (List.mem_map.2 ⟨e, he, rfl⟩)
    intro y hy
    obtain ⟨f, hf, rfl⟩ := List.mem_map.1 hy
    exact neg_nonneg.2 (Real.log_nonpos (hpos _ _).le (hle _ _ (ht f hf)))
  have h2 : (1 : ℝ) / 2 < netProb (init ++ [.full n w β]) s n e.1 e.2 := by
    unfold netLoss at h1
    rw [← Real.log_inv, Real.log_lt_log_iff (inv_pos.2 (hpos _ _)) (by norm_num)] at h1
    rw [div_lt_iff₀ (by norm_num)]
    have := mul_lt_mul_of_pos_left h1 (hpos e.1 e.2)
    rwa [mul_inv_cancel₀ (hpos _ _).ne'] at this
  have h3 : netProb (init ++ [.full n w β]) s n e.1 i + netProb (init ++ [.full n w β]) s n e.1 e.2 ≤ 1 := by
    rw [← netProb_last_sum (init := init) (s := s) hn w β e.1, ← sum_pair (f := netProb (init ++ [NetLayer.full n w β]) s n e.1) hne]
    refine sum_le_sum_of_subset_of_nonneg ?_ fun k _ _ => (hpos _ k).le
    intro k hk
    simp only [mem_insert, mem_singleton] at hk
    rcases hk with rfl | rfl
    · exact mem_range.2 hi
    · exact mem_range.2 (ht e he)
  linarith
end

theorem netFits_last {init : List NetLayer} {n : Nat} {w w' : Tensor} {β β' : Nat → ℝ} {s : Shape} (h : NetFits (init ++ [.full n w β]) s) :
    NetFits (init ++ [.full n w' β']) s := by
  induction init generalizing s with
  | nil => exact ⟨trivial, trivial⟩
  | cons l init ih => exact ⟨h.1, ih h.2⟩

/-- The loss gets below everything that the loss for some parameters is below. -/
theorem head_small {init : List NetLayer} {n : Nat} {s : Shape} {rate : ℝ} {d : List (Tensor × Nat)} {R : ℝ} (hd : d ≠ []) (ht : ∀ e ∈ d, e.2 < n)
    (hR : ∀ e ∈ d, 1 + ∑ k ∈ range (featureCount init s), feature init s e.1 k ^ 2 ≤ R) (h0 : 0 < rate) (h2 : rate * R ≤ 2) (w : Tensor) (β : Nat → ℝ)
    {best : ℝ} (hbest : ∃ w₀ β₀, meanLoss s n d (init ++ [.full n w₀ β₀]) < best) : ∃ N : Nat, ∀ k ≥ N, headLosses init n s rate d w β k < best := by
  obtain ⟨w₀, β₀, hb⟩ := hbest
  obtain ⟨N, hN⟩ := exists_nat_gt (paramDist n (featureCount init s) w β w₀ β₀ / (2 * rate * (best - meanLoss s n d (init ++ [.full n w₀ β₀]))))
  refine ⟨N, fun k hk => ?_⟩
  have hpos : 0 < best - meanLoss s n d (init ++ [.full n w₀ β₀]) := by linarith
  have hN2 : (N : ℝ) ≤ (k : ℝ) := by exact_mod_cast hk
  have a := head_bound hd ht hR h0 h2 w w₀ β β₀ k
  rw [div_lt_iff₀ (by positivity)] at hN
  by_contra hc
  have c1 : best - meanLoss s n d (init ++ [.full n w₀ β₀]) ≤ headLosses init n s rate d w β k - meanLoss s n d (init ++ [.full n w₀ β₀]) := by linarith
  have c2 := mul_le_mul hN2 c1 hpos.le (Nat.cast_nonneg _)
  nlinarith [mul_le_mul_of_nonneg_left c2 (by positivity : (0 : ℝ) ≤ 2 * rate)]

/-- The label found is the one with the greatest probability. -/
theorem forward_label {E : Env ℝ} (hE : E.Exact) {M : Model ℝ} {b : Nat} {s : Shape} {ls : List NetLayer} {n : Nat}
    (hM : M.Denotes b s ls n) (hf : NetFits ls s) {X : Matrix ℝ} {x : Tensor} (hX : X.Is3 s x) {t : Nat} (ht : t < n)
    (h : ∀ i < n, i ≠ t → netProb ls s n x i < netProb ls s n x t) : ∃ r M₁, M.forwardPropagation E X b = .ok (r, M₁) ∧ r.labelIdx = t := by
  obtain ⟨⟨Bs, S, hlay, hden, hcount⟩, hlab, hout⟩ := hM
  obtain ⟨X1, e1, s1⟩ := Matrix.ofExpr_shows hX.expr (id : ℝ → ℝ)
  obtain ⟨hlen, outs, bodies, h0, h1, h2, h3⟩ := net_pass E.draws ls Bs true s X1 x hden hf s1
  have hml : M.layers.length = ls.length + 1 := by
    rw [← List.length_map (as := M.layers) (f := (·.body)), hlay]
    simp [hlen]
  have hlast := h2 ls.length le_rfl
  rw [List.take_length] at hlast
  have hvec := isVec_of_shape hout hlast
  obtain ⟨P, eP, dP, sP⟩ := softmax_forward hvec hcount
  have hbody : ∀ (i : Nat) (l : Layer ℝ), M.layers[i]? = some l → (Bs ++ [Body.softmax S])[i]? = some l.body := by
    intro i l hl
    rw [← hlay, List.getElem?_map, hl]; rfl
  have hpass : Pass E M b X (fun i => if i ≤ ls.length then outs i else P)
      (fun i => if i < ls.length then bodies i else .softmax S) := by
    refine ⟨by simpa [h0] using e1, ?_⟩
    intro i l hl
    have hi : i < ls.length + 1 := hml ▸ (List.getElem?_eq_some_iff.1 hl).1
    have hb := hbody i l hl
    by_cases h : i < ls.length
    · rw [List.getElem?_append_left (by omega)] at hb
      have := h1 i _ hb
      rw [hE.num]
      simpa [h, h.le, Nat.succ_le_of_lt h] using this
    · obtain rfl : i = ls.length := by omega
      rw [List.getElem?_append_right (by omega), hlen] at hb
      simp only [Nat.sub_self, List.getElem?_cons_zero, Option.some.injEq] at hb
      rw [← hb, hE.num]
      simp [Body.forward, eP]
  have hshow : ∀ i ≤ M.layers.length, ∃ A B C f, (if i ≤ ls.length then outs i else P).Shows A B C f := by
    intro i hi
    by_cases h : i ≤ ls.length
    · rw [if_pos h]; exact ⟨_, _, _, _, h2 i h⟩
    · rw [if_neg h]
      rcases sP with sP | sP <;> exact ⟨_, _, _, _, sP⟩
  have hlt : E.num.lt = fun a b => decide (a < b) := by rw [hE.num]; rfl
  obtain ⟨r, R, k1, -, -, k2, -, k3, -⟩ := forward_result E M X b _ _ hpass hshow (n := n) (f := netProb ls s n x)
    (by rw [hml, if_neg (by omega)]; exact sP) hlab.symm (S := fun _ => True) (by
      rw [hlt]
      refine ⟨fun a _ => by simp, fun a b c _ _ _ h1 h2 => ?_, fun a b c _ _ _ h1 h2 => ?_⟩
      · simp only [decide_eq_true_eq] at *; exact h1.trans h2
      · simp only [decide_eq_true_eq, decide_eq_false_iff_not, not_lt] at *; exact lt_of_le_of_lt h1 h2) (fun _ _ => trivial)
  refine ⟨r, _, k1, ?_⟩
  by_contra hne
  have h4 := k3 t ht
  rw [hlt] at h4
  simp only [decide_eq_false_iff_not, not_lt] at h4
  exact absurd (h _ k2 hne) (not_lt.2 h4)

/-! Networks as they are built. -/

theorem drawnNet_last (draws : Nat → Nat → ℝ) (i : Nat) (s : Shape) (kinds : List LayerKind) (n : Nat) :
    ∃ w β, drawnNet draws i s (kinds ++ [.full n]) = drawnNet draws i s kinds ++ [.full n w β] := by
  induction kinds generalizing i s with
  | nil => exact ⟨_, _, rfl⟩
  | cons k kinds ih =>
    obtain ⟨w, β, h⟩ := ih (i + 1) ((k.drawn (draws i) s).out s)
    exact ⟨w, β, by simp only [List.cons_append, drawnNet, h]⟩

theorem drawnNet_plain (draws : Nat → Nat → ℝ) (i : Nat) (s : Shape) {kinds : List LayerKind} (h : ∀ k ∈ kinds, k.Plain) : NoParams (drawnNet draws i s kinds) := by
  induction kinds generalizing i s with
  | nil => intro l hl; cases hl
  | cons k kinds ih =>
    intro l hl
    rcases List.mem_cons.1 hl with rfl | hl
    · have := h k (by simp)
      cases k <;> first | rfl | exact absurd this id
    · exact ih _ _ (fun x hx => h x (List.mem_cons_of_mem _ hx)) l hl

theorem netFits_snoc {init : List NetLayer} {n : Nat} {w : Tensor} {β : Nat → ℝ} {s : Shape} (h : NetFits init s) : NetFits (init ++ [.full n w β]) s := by
  induction init generalizing s with
  | nil => exact ⟨trivial, trivial⟩
  | cons l init ih => exact ⟨h.1, ih h.2⟩

theorem netTrains_plain {init : List NetLayer} {n : Nat} {w : Tensor} {β : Nat → ℝ} {s : Shape} {f : Bool} (h : NoParams init) :
    NetTrains f (init ++ [.full n w β]) s := by
  induction init generalizing s f with
  | nil => exact ⟨trivial, trivial⟩
  | cons l init ih =>
    refine ⟨?_, ih fun x hx => h x (List.mem_cons_of_mem _ hx)⟩
    have := h l (by simp)
    cases l <;> first | exact trivial | exact absurd this (by simp [NetLayer.params])

theorem netOut_snoc (init : List NetLayer) (l : NetLayer) (s : Shape) : netOut (init ++ [l]) s = l.out (netOut init s) := by
  induction init generalizing s with
  | nil => rfl
  | cons k init ih => exact ih _

end Cnn
