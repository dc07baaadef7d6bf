import Verif.Lemmas.NetTotal
import Verif.Lemmas.NetTrain
import Verif.Spec.Lowers
/-! The mean loss along a step of gradient descent (C91). -/
namespace Cnn
open Finset

theorem sum_map_range {γ : Type} (ds : List γ) (F : γ → Nat → ℝ) (L : Nat) :
    (ds.map fun d => ∑ i ∈ range L, F d i).sum = ∑ i ∈ range L, (ds.map fun d => F d i).sum := by
  induction ds with
  | nil => simp
  | cons d ds ih => simp only [List.map_cons, List.sum_cons, ih, sum_add_distrib]

theorem sum_map_mul {γ : Type} (ds : List γ) (F : γ → ℝ) (c : ℝ) : (ds.map fun d => F d * c).sum = (ds.map F).sum * c := by
  induction ds with
  | nil => simp
  | cons d ds ih => simp only [List.map_cons, List.sum_cons, ih, add_mul]

theorem sum_map_total {γ : Type} (ds : List γ) (X Y Z : Nat) (F : γ → Tensor) :
    (ds.map fun d => total X Y Z (F d)).sum = total X Y Z (fun a b c => (ds.map fun d => F d a b c).sum) := by
  induction ds with
  | nil => simp [total]
  | cons d ds ih => rw [List.map_cons, List.sum_cons, ih]; simp only [List.map_cons, List.sum_cons, total, sum_add_distrib]

/-- A sum of derivatives over a list. -/
theorem hasDerivAt_map {γ : Type} {F : γ → ℝ → ℝ} {G : γ → ℝ} {θ : ℝ} (ds : List γ) (h : ∀ d ∈ ds, HasDerivAt (F d) (G d) θ) :
    HasDerivAt (fun v => (ds.map fun d => F d v).sum) (ds.map G).sum θ := by
  induction ds with
  | nil => simpa using hasDerivAt_const θ (0 : ℝ)
  | cons d ds ih =>
    simp only [List.map_cons, List.sum_cons]
    exact (h d (by simp)).fun_add (ih fun x hx => h x (List.mem_cons_of_mem _ hx))

/-- The parameters of layer `i`, with the layer. -/
def layerParams (ls : List NetLayer) (i : Nat) : Option (NetLayer × Tensor × (Nat → ℝ)) :=
  ls[i]?.bind fun l => l.params.map fun p => (l, p.1, p.2)

theorem layerParams_eq {ls : List NetLayer} {i : Nat} {l : NetLayer} {w : Tensor} {β : Nat → ℝ} (h : ls[i]? = some l) (hp : l.params = some (w, β)) :
    layerParams ls i = some (l, w, β) := by
  simp [layerParams, h, hp]

theorem layerParams_none {ls : List NetLayer} {i : Nat} {l : NetLayer} (h : ls[i]? = some l) (hp : l.params = none) : layerParams ls i = none := by
  simp [layerParams, h, hp]

/-- Minus the partial derivatives. -/
noncomputable def slopeW (f : List NetLayer → ℝ) (ls : List NetLayer) (i : Nat) : Tensor :=
  match layerParams ls i with
  | none => fun _ _ _ => 0
  | some (l, w, β) => fun a b c => -deriv (fun v => f (ls.set i (l.withParams (w.update a b c v) β))) (w a b c)

noncomputable def slopeB (f : List NetLayer → ℝ) (ls : List NetLayer) (i : Nat) : Nat → ℝ :=
  match layerParams ls i with
  | none => fun _ => 0
  | some (l, w, β) => fun k => -deriv (fun v => f (ls.set i (l.withParams w (Function.update β k v)))) (β k)

noncomputable def lineW (f : List NetLayer → ℝ) (ls : List NetLayer) (i : Nat) (τ : ℝ) : Tensor :=
  match layerParams ls i with
  | none => fun _ _ _ => 0
  | some (_, w, _) => fun a b c => w a b c + τ * slopeW f ls i a b c

noncomputable def lineB (f : List NetLayer → ℝ) (ls : List NetLayer) (i : Nat) (τ : ℝ) : Nat → ℝ :=
  match layerParams ls i with
  | none => fun _ => 0
  | some (_, _, β) => fun k => β k + τ * slopeB f ls i k

theorem descend_line (f : List NetLayer → ℝ) (ls : List NetLayer) (τ : ℝ) : descend τ f ls = netWith ls (fun i => lineW f ls i τ) (fun i => lineB f ls i τ) := by
  unfold descend netWith
  refine List.ext_getElem? fun i => ?_
  rw [List.getElem?_mapIdx, List.getElem?_mapIdx]
  cases h : ls[i]? with
  | none => rfl
  | some l =>
    simp only [Option.map_some, Option.some.injEq]
    cases hp : l.params with
    | none => exact (withParams_none _ _ hp).symm
    | some v =>
      obtain ⟨w, β⟩ := v
      have e := layerParams_eq h hp
      simp only [lineW, lineB, slopeW, slopeB, e]
      congr 1
      · funext a b c; ring
      · funext k; ring

theorem line_curve (f : List NetLayer → ℝ) (ls : List NetLayer) (s : Shape) (i : Nat) (l : NetLayer) (h : ls[i]? = some l) :
    ParamCurve l s (lineW f ls i) (slopeW f ls i) (lineB f ls i) (slopeB f ls i) 0 := by
  intro w β hp
  have e := layerParams_eq h hp
  have line : ∀ p q : ℝ, HasDerivAt (fun τ => p + τ * q) q 0 := fun p q => by
    simpa using ((hasDerivAt_id' (0 : ℝ)).mul_const q).const_add p
  refine ⟨⟨?_, fun a _ b _ c _ => ?_⟩, ?_, fun k _ => ?_⟩
  · simp only [lineW, e]; funext a b c; ring
  · simp only [lineW, e]; exact line _ _
  · simp only [lineB, e]; funext k; ring
  · simp only [lineB, e]; exact line _ _

/-- The square of the length of the gradient, for layer `i`. -/
noncomputable def gradSquare (s : Shape) (f : List NetLayer → ℝ) (ls : List NetLayer) (i : Nat) : ℝ :=
  match layerParams ls i with
  | none => 0
  | some (l, _, _) => total (l.weightShape (netOut (ls.take i) s)).X (l.weightShape (netOut (ls.take i) s)).Y (l.weightShape (netOut (ls.take i) s)).Z
      (fun a b c => slopeW f ls i a b c ^ 2) + ∑ k ∈ range l.biasCount, slopeB f ls i k ^ 2

theorem total_nonneg {X Y Z : Nat} {F : Tensor} (h : ∀ a b c, 0 ≤ F a b c) : 0 ≤ total X Y Z F :=
  sum_nonneg fun _ _ => sum_nonneg fun _ _ => sum_nonneg fun _ _ => h _ _ _

theorem total_pos {X Y Z : Nat} {F : Tensor} (h : ∀ a b c, 0 ≤ F a b c) {a b c : Nat} (ha : a < X) (hb : b < Y) (hc : c < Z) (hp : 0 < F a b c) :
    0 < total X Y Z F := by
  refine sum_pos' (fun _ _ => sum_nonneg fun _ _ => sum_nonneg fun _ _ => h _ _ _) ⟨a, mem_range.2 ha, ?_⟩
  refine sum_pos' (fun _ _ => sum_nonneg fun _ _ => h _ _ _) ⟨b, mem_range.2 hb, ?_⟩
  exact sum_pos' (fun _ _ => h _ _ _) ⟨c, mem_range.2 hc, hp⟩

theorem gradSquare_nonneg (s : Shape) (f : List NetLayer → ℝ) (ls : List NetLayer) (i : Nat) : 0 ≤ gradSquare s f ls i := by
  unfold gradSquare
  split
  · exact le_refl _
  · exact add_nonneg (total_nonneg fun _ _ _ => sq_nonneg _) (sum_nonneg fun _ _ => sq_nonneg _)

theorem gradSquare_pos {s : Shape} {f : List NetLayer → ℝ} {ls : List NetLayer} (h : ¬ Stationary s f ls) : 0 < ∑ i ∈ range ls.length, gradSquare s f ls i := by
  unfold Stationary at h
  push Not at h
  obtain ⟨i, l, w, β, hl, hp, h⟩ := h
  refine sum_pos' (fun i _ => gradSquare_nonneg s f ls i) ⟨i, mem_range.2 (List.getElem?_eq_some_iff.1 hl).1, ?_⟩
  have e := layerParams_eq hl hp
  simp only [gradSquare, e]
  by_cases hw : ∀ a < (l.weightShape (netOut (ls.take i) s)).X, ∀ b < (l.weightShape (netOut (ls.take i) s)).Y,
      ∀ c < (l.weightShape (netOut (ls.take i) s)).Z, deriv (fun v => f (ls.set i (l.withParams (w.update a b c v) β))) (w a b c) = 0
  · obtain ⟨k, hk, hne⟩ := h hw
    refine add_pos_of_nonneg_of_pos (total_nonneg fun _ _ _ => sq_nonneg _) (sum_pos' (fun _ _ => sq_nonneg _) ⟨k, mem_range.2 hk, ?_⟩)
    simp only [slopeB, e]
    exact sq_pos_of_ne_zero (neg_ne_zero.2 hne)
  · push Not at hw
    obtain ⟨a, ha, b, hb, c, hc, hne⟩ := hw
    refine add_pos_of_pos_of_nonneg (total_pos (fun _ _ _ => sq_nonneg _) ha hb hc ?_) (sum_nonneg fun _ _ => sq_nonneg _)
    simp only [slopeW, e]
    exact sq_pos_of_ne_zero (neg_ne_zero.2 hne)

theorem slopeW_mean {s : Shape} {n : Nat} {ls : List NetLayer} {data : List (Tensor × Nat)} {i : Nat} {l : NetLayer} {w : Tensor} {β : Nat → ℝ}
    {dw : Tensor × Nat → Tensor} {db : Tensor × Nat → Nat → ℝ} (hl : ls[i]? = some l) (hp : l.params = some (w, β))
    (hG : ∀ d ∈ data, NetParamGrad ls i s n d.2 d.1 (dw d) (db d)) {a b c : Nat} (ha : a < (l.weightShape (netOut (ls.take i) s)).X)
    (hb : b < (l.weightShape (netOut (ls.take i) s)).Y) (hc : c < (l.weightShape (netOut (ls.take i) s)).Z) :
    slopeW (meanLoss s n data) ls i a b c = -((data.map fun d => dw d a b c).sum / data.length) := by
  have h := (hasDerivAt_map (F := fun d v => netLoss (ls.set i (l.withParams (w.update a b c v) β)) s n d.2 d.1) (G := fun d => dw d a b c) data
    fun d hd => (hG d hd).weight hl hp ha hb hc).div_const (data.length : ℝ)
  simp only [slopeW, layerParams_eq hl hp]
  rw [← h.deriv]
  rfl

theorem slopeB_mean {s : Shape} {n : Nat} {ls : List NetLayer} {data : List (Tensor × Nat)} {i : Nat} {l : NetLayer} {w : Tensor} {β : Nat → ℝ}
    {dw : Tensor × Nat → Tensor} {db : Tensor × Nat → Nat → ℝ} (hl : ls[i]? = some l) (hp : l.params = some (w, β))
    (hG : ∀ d ∈ data, NetParamGrad ls i s n d.2 d.1 (dw d) (db d)) {k : Nat} (hk : k < l.biasCount) :
    slopeB (meanLoss s n data) ls i k = -((data.map fun d => db d k).sum / data.length) := by
  have h := (hasDerivAt_map (F := fun d v => netLoss (ls.set i (l.withParams w (Function.update β k v))) s n d.2 d.1) (G := fun d => db d k) data
    fun d hd => (hG d hd).bias hl hp hk).div_const (data.length : ℝ)
  simp only [slopeB, layerParams_eq hl hp]
  rw [← h.deriv]
  rfl

/-- The derivative of the mean loss along the step is minus the square of the length of the gradient. -/
theorem meanLoss_descend {s : Shape} {n : Nat} {ls : List NetLayer} {data : List (Tensor × Nat)}
    (hn : (netOut ls s).X * (netOut ls s).Y * (netOut ls s).Z = n) (ht : ∀ d ∈ data, d.2 < n) (hJ : ∀ d ∈ data, NetJoint ls s d.1)
    (hG : ∀ d ∈ data, ∀ i l, ls[i]? = some l → l.params ≠ none → ∃ dw, ∃ db : Nat → ℝ, NetParamGrad ls i s n d.2 d.1 dw db) :
    HasDerivAt (fun τ => meanLoss s n data (descend τ (meanLoss s n data) ls)) (-∑ i ∈ range ls.length, gradSquare s (meanLoss s n data) ls i) 0 := by
  classical
  obtain ⟨dw, db, hG⟩ : ∃ (dw : Tensor × Nat → Nat → Tensor) (db : Tensor × Nat → Nat → Nat → ℝ), ∀ d ∈ data, ∀ i l, ls[i]? = some l → l.params ≠ none →
      NetParamGrad ls i s n d.2 d.1 (dw d i) (db d i) := by
    have : ∀ d : Tensor × Nat, ∀ i, ∃ dw, ∃ db : Nat → ℝ, d ∈ data → ∀ l, ls[i]? = some l → l.params ≠ none → NetParamGrad ls i s n d.2 d.1 dw db := by
      intro d i
      by_cases h : d ∈ data ∧ ∃ l, ls[i]? = some l ∧ l.params ≠ none
      · obtain ⟨h1, l, h2, h3⟩ := h
        obtain ⟨dw, db, h4⟩ := hG d h1 i l h2 h3
        exact ⟨dw, db, fun _ _ _ _ => h4⟩
      · exact ⟨fun _ _ _ => 0, fun _ => 0, fun h1 l h2 h3 => absurd ⟨h1, l, h2, h3⟩ h⟩
    choose dw db h using this
    exact ⟨dw, db, fun d hd i l hl hp => h d i hd l hl hp⟩
  let f := meanLoss s n data
  -- the partial derivatives of the mean loss
  have hw : ∀ i l w β, ls[i]? = some l → l.params = some (w, β) → ∀ a < (l.weightShape (netOut (ls.take i) s)).X,
      ∀ b < (l.weightShape (netOut (ls.take i) s)).Y, ∀ c < (l.weightShape (netOut (ls.take i) s)).Z,
      slopeW f ls i a b c = -((data.map fun d => dw d i a b c).sum / data.length) := fun i l w β hl hp a ha b hb c hc =>
    slopeW_mean (dw := fun d => dw d i) (db := fun d => db d i) hl hp (fun d hd => hG d hd i l hl (by rw [hp]; simp)) ha hb hc
  have hb : ∀ i l w β, ls[i]? = some l → l.params = some (w, β) → ∀ k < l.biasCount, slopeB f ls i k = -((data.map fun d => db d i k).sum / data.length) :=
    fun i l w β hl hp k hk => slopeB_mean (dw := fun d => dw d i) (db := fun d => db d i) hl hp (fun d hd => hG d hd i l hl (by rw [hp]; simp)) hk
  -- the derivative for each sample
  let D : Tensor × Nat → Nat → ℝ := fun d i =>
    match layerParams ls i with
    | none => 0
    | some (l, _, _) => total (l.weightShape (netOut (ls.take i) s)).X (l.weightShape (netOut (ls.take i) s)).Y (l.weightShape (netOut (ls.take i) s)).Z
        (fun a b c => dw d i a b c * slopeW f ls i a b c) + ∑ k ∈ range l.biasCount, db d i k * slopeB f ls i k
  have hd : ∀ d ∈ data, HasDerivAt (fun τ => netLoss (netWith ls (fun i => lineW f ls i τ) (fun i => lineB f ls i τ)) s n d.2 d.1) (∑ i ∈ range ls.length, D d i) 0 := by
    intro d hd
    obtain ⟨G, hG1, _, h⟩ := net_total (ht d hd) hn (hJ d hd)
    obtain ⟨D', h1, h2⟩ := h 0 (lineW f ls) (slopeW f ls) (lineB f ls) (slopeB f ls) fun i l hl => line_curve f ls _ i l hl
    have h3 := h2 (fun _ => d.1) (fun _ _ _ => 0) ⟨rfl, fun i _ j _ k _ => hasDerivAt_const _ _⟩
    have h0 : G (fun _ _ _ => 0) = 0 := by
      have := hG1 (fun _ _ _ => 0) (fun _ _ _ => 0)
      have e : Tensor.add (fun _ _ _ => 0) (fun _ _ _ => 0) = fun _ _ _ => 0 := by funext i j k; simp [Tensor.add]
      rw [e] at this
      linarith
    rw [h0, zero_add] at h3
    refine h3.congr_deriv (sum_congr rfl fun i hi => ?_)
    have hl : ls[i]? = some (ls[i]'(mem_range.1 hi)) := List.getElem?_eq_getElem _
    generalize ls[i]'(mem_range.1 hi) = l at hl
    cases hp : l.params with
    | none =>
      have h4 := h1 i l hl
      simp only [withParams_none _ _ hp] at h4
      simp only [D, layerParams_none hl hp]
      exact h4.unique (hasDerivAt_const _ _)
    | some v =>
      obtain ⟨w, β⟩ := v
      simp only [D, layerParams_eq hl hp]
      have hc := line_curve f ls (netOut (ls.take i) s) i l hl w β hp
      exact (h1 i l hl).unique (hG d hd i l hl (by rw [hp]; simp) l w β hl hp 0 _ _ _ _ hc.1 hc.2.1 hc.2.2)
  have hmain := (hasDerivAt_map (F := fun d τ => netLoss (netWith ls (fun i => lineW f ls i τ) (fun i => lineB f ls i τ)) s n d.2 d.1)
    (G := fun d => ∑ i ∈ range ls.length, D d i) data hd).div_const (data.length : ℝ)
  have he : (fun τ => meanLoss s n data (descend τ (meanLoss s n data) ls)) = fun τ =>
      (data.map fun d => netLoss (netWith ls (fun i => lineW f ls i τ) (fun i => lineB f ls i τ)) s n d.2 d.1).sum / data.length := by
    funext τ
    rw [descend_line]
    rfl
  rw [he]
  refine hmain.congr_deriv ?_
  rw [sum_map_range, sum_div, ← sum_neg_distrib]
  refine sum_congr rfl fun i hi => ?_
  have hl : ls[i]? = some (ls[i]'(mem_range.1 hi)) := List.getElem?_eq_getElem _
  generalize ls[i]'(mem_range.1 hi) = l at hl
  cases hp : l.params with
  | none => simp [D, gradSquare, layerParams_none hl hp]
  | some v =>
    obtain ⟨w, β⟩ := v
    simp only [D, gradSquare, layerParams_eq hl hp]
    rw [List.sum_map_add, sum_map_total, sum_map_range]
    simp only [sum_map_mul]
    rw [add_div, neg_add]
    congr 1
    · unfold total
      rw [sum_div, ← sum_neg_distrib]
      refine sum_congr rfl fun a ha => ?_
      rw [sum_div, ← sum_neg_distrib]
      refine sum_congr rfl fun b hb' => ?_
      rw [sum_div, ← sum_neg_distrib]
      refine sum_congr rfl fun c hc => ?_
      show (data.map fun d => dw d i a b c).sum * slopeW f ls i a b c / data.length = -slopeW f ls i a b c ^ 2
      rw [hw i l w β hl hp a (mem_range.1 ha) b (mem_range.1 hb') c (mem_range.1 hc)]
      ring
    · rw [sum_div, ← sum_neg_distrib]
      refine sum_congr rfl fun k hk => ?_
      show (data.map fun d => db d i k).sum * slopeB f ls i k / data.length = -slopeB f ls i k ^ 2
      rw [hb i l w β hl hp k (mem_range.1 hk)]
      ring

theorem descend_zero (f : List NetLayer → ℝ) (ls : List NetLayer) : descend 0 f ls = ls := by
  unfold descend
  refine List.ext_getElem? fun i => ?_
  rw [List.getElem?_mapIdx]
  cases h : ls[i]? with
  | none => rfl
  | some l =>
    simp only [Option.map_some, Option.some.injEq]
    cases hp : l.params with
    | none => rfl
    | some v =>
      obtain ⟨w, β⟩ := v
      simp only [zero_mul, sub_zero]
      exact withParams_same hp

/-- A function with a negative derivative decreases at first. -/
theorem lowers_of_deriv {F : ℝ → ℝ} {m : ℝ} (h : HasDerivAt F m 0) (hm : m < 0) : ∃ ρ > 0, ∀ τ, 0 < τ → τ < ρ → F τ < F 0 := by
  have h1 := (hasDerivAt_iff_tendsto_slope.1 h).eventually (Iio_mem_nhds hm)
  rw [eventually_nhdsWithin_iff, Metric.eventually_nhds_iff] at h1
  obtain ⟨ρ, hρ, h1⟩ := h1
  refine ⟨ρ, hρ, fun τ h0 hτ => ?_⟩
  have := h1 (y := τ) (by rw [Real.dist_eq, sub_zero, abs_of_pos h0]; exact hτ) h0.ne'
  rw [slope_def_field, sub_zero] at this
  rw [div_lt_iff₀ h0, zero_mul] at this
  linarith

theorem no_gates {b : Nat} {first : Bool} {s : Shape} {Bs : List (Body ℝ)} {ls : List NetLayer} (h : DenotesAll b first s Bs ls) :
    ∀ l ∈ ls, ∀ X Y u v m c, l ≠ .gate X Y u v m c := by
  induction ls generalizing first s Bs with
  | nil => simp
  | cons l ls ih =>
    cases Bs with
    | nil => exact absurd h (by simp [DenotesAll])
    | cons B Bs =>
      obtain ⟨h1, h2⟩ := h
      intro m hm
      rcases List.mem_cons.1 hm with rfl | hm
      · rintro X Y u v m c rfl
        cases B <;> exact h1
      · exact ih h2 m hm

/-- A network that ends with a fully connected layer. -/
theorem netLoss_last (init : List NetLayer) (n : Nat) (w : Tensor) (β : Nat → ℝ) (s : Shape) (t : Nat) (x : Tensor) :
    netLoss (init ++ [.full n w β]) s n t x = -Real.log (softmax n (flatOf n 1 ((NetLayer.full n w β).eval (netOut init s) (netEval init s x))) t) := by
  induction init generalizing s x with
  | nil => rfl
  | cons l init ih => rw [List.cons_append, netLoss_cons, ih]; rfl

theorem netProb_last (init : List NetLayer) (n : Nat) (w : Tensor) (β : Nat → ℝ) (s : Shape) (t : Nat) (x : Tensor) :
    netProb (init ++ [.full n w β]) s n x t = softmax n (flatOf n 1 ((NetLayer.full n w β).eval (netOut init s) (netEval init s x))) t := by
  induction init generalizing s x with
  | nil => rfl
  | cons l init ih =>
    have : netProb (l :: init ++ [.full n w β]) s n x t = netProb (init ++ [.full n w β]) (l.out s) n (l.eval s x) t := rfl
    rw [this, ih]; rfl

theorem last_bias (init : List NetLayer) (n : Nat) (w : Tensor) (β : Nat → ℝ) (s : Shape) {t : Nat} (ht : t < n) (x : Tensor) {k : Nat} (hk : k < n) :
    HasDerivAt (fun v => netLoss (init ++ [.full n w (Function.update β k v)]) s n t x) (netProb (init ++ [.full n w β]) s n x k - if k = t then 1 else 0) (β k) := by
  simp only [netLoss_last, netProb_last]
  refine (softmax_curve ht _ (fun i => if i = k then 1 else 0) (β k) fun i hi => ?_).congr_deriv ?_
  · simp only [NetLayer.eval, flatOf, Nat.mod_eq_of_lt hi]
    refine HasDerivAt.add_const _ ?_
    by_cases h : i = k
    · subst h; simpa using hasDerivAt_id' (β i)
    · simpa [Function.update_of_ne h, h] using hasDerivAt_const (β k) (β i)
  · simp [hk]

theorem not_stationary {init : List NetLayer} {n : Nat} {w : Tensor} {β : Nat → ℝ} {s : Shape} {data : List (Tensor × Nat)} (hd : data ≠ [])
    (ht : ∀ d ∈ data, d.2 < n) {k : Nat} (hk : k < n) (hmiss : ∀ d ∈ data, d.2 ≠ k) :
    ¬ Stationary s (meanLoss s n data) (init ++ [.full n w β]) := by
  intro h
  have h1 := (h init.length (.full n w β) w β (by simp) rfl).2 k hk
  have e : (fun v => meanLoss s n data ((init ++ [NetLayer.full n w β]).set init.length ((NetLayer.full n w β).withParams w (Function.update β k v)))) =
      fun v => (data.map fun d => netLoss (init ++ [.full n w (Function.update β k v)]) s n d.2 d.1).sum / data.length := by
    funext v; simp [meanLoss, NetLayer.withParams]
  rw [e, ((hasDerivAt_map data fun d hd => last_bias init n w β s (ht d hd) d.1 hk).div_const _).deriv] at h1
  have h2 : 0 < (data.map fun d => netProb (init ++ [.full n w β]) s n d.1 k - if k = d.2 then 1 else 0).sum := by
    refine List.sum_pos _ (fun y hy => ?_) (by simpa using hd)
    obtain ⟨d, hdm, rfl⟩ := List.mem_map.1 hy
    rw [if_neg fun h => hmiss d hdm h.symm, sub_zero, netProb_last]
    exact div_pos (Real.exp_pos _) (sum_pos (fun _ _ => Real.exp_pos _) ⟨k, mem_range.2 hk⟩)
  have h3 : (0 : ℝ) < data.length := by exact_mod_cast List.length_pos_iff.2 hd
  exact (div_pos h2 h3).ne' h1

/-- For a network computed by a model that is not stationary, small steps lower the mean loss. -/
theorem lowers {E : Env ℝ} (hE : E.Exact) {M : Model ℝ} {b : Nat} {s : Shape} {ls : List NetLayer} {n : Nat} (hD : M.Denotes b s ls n)
    (hfit : NetFits ls s) (htr : NetTrains true ls s) {source : List (Sample ℝ)} {d : List (Tensor × Nat)} (hd : List.Forall₂ (Sample.Is M.labels s) source d)
    (hsm : ∀ e ∈ d, NetSmooth ls s e.1) (hns : ¬ Stationary s (meanLoss s n d) ls) :
    ∃ ρ > 0, ∀ τ, 0 < τ → τ < ρ → meanLoss s n d (descend τ (meanLoss s n d) ls) < meanLoss s n d ls := by
  have hsrc : ∀ e ∈ d, ∃ x, Sample.Is M.labels s x e := by
    clear hsm hns
    induction hd with
    | nil => simp
    | cons h _ ih =>
      intro e he
      rcases List.mem_cons.1 he with rfl | he
      · exact ⟨_, h⟩
      · exact ih e he
  obtain ⟨⟨Bs, S, -, hB, -⟩, hlab, hout⟩ := id hD
  have hn : (netOut ls s).X * (netOut ls s).Y * (netOut ls s).Z = n := by
    rcases hout with h | h <;> rw [h] <;> simp
  have h := meanLoss_descend (data := d) hn (fun e he => by
      obtain ⟨x, hx⟩ := hsrc e he
      rw [← hlab]
      exact (List.getElem?_eq_some_iff.1 hx.label).1) (fun e he => net_joint hfit (hsm e he) (no_gates hB)) (by
      intro e he i l hl hp
      obtain ⟨x, hx⟩ := hsrc e he
      obtain ⟨-, t, t1, t2, t3⟩ := alone_net hE hD hfit htr hx.data (.self (hsm e he)) (label := x.label) (List.mem_of_getElem? hx.label)
      obtain ⟨_, _, dw, db, -, -, -, h⟩ := t3 i l hl hp
      have : t = e.2 := hx.index t1 t2
      exact ⟨dw, db, this ▸ h⟩)
  obtain ⟨ρ, h1, h2⟩ := lowers_of_deriv h (neg_lt_zero.2 (gradSquare_pos hns))
  refine ⟨ρ, h1, fun τ r1 r2 => ?_⟩
  have := h2 τ r1 r2
  rwa [descend_zero] at this

end Cnn
