import Verif.Spec.Net
import Verif.Lemmas.Kernel
import Verif.Lemmas.Pooling
import Verif.Lemmas.Real
import Verif.Lemmas.Softmax
/-! The chain rule for the layers of a network, as statements about differentiable curves of inputs and parameters. -/
namespace Cnn
open Finset

/-- A differentiable curve of tensors through `x`. -/
structure Curve (s : Shape) (x : Tensor) (γ : ℝ → Tensor) (γ' : Tensor) (θ : ℝ) : Prop where
  start : γ θ = x
  deriv : ∀ i < s.X, ∀ j < s.Y, ∀ k < s.Z, HasDerivAt (fun τ => γ τ i j k) (γ' i j k) θ

/-- `d` is what back-propagation through `l` must return for the gradient `g` of its output. -/
def LayerAdj (l : NetLayer) (s : Shape) (x g d : Tensor) : Prop :=
  ∀ θ γ γ', Curve s x γ γ' θ → ∃ δ', Curve (l.out s) (l.eval s x) (fun τ => l.eval s (γ τ)) δ' θ ∧
    total (l.out s).X (l.out s).Y (l.out s).Z (fun i j k => g i j k * δ' i j k) =
      total s.X s.Y s.Z (fun i j k => d i j k * γ' i j k)

/-- The same for the parameters of `l`. -/
def ParamAdj (l : NetLayer) (s : Shape) (x g dw : Tensor) (db : Nat → ℝ) : Prop :=
  ∀ w β, l.params = some (w, β) → ∀ θ W W' (B : ℝ → Nat → ℝ) (B' : Nat → ℝ), Curve (l.weightShape s) w W W' θ → B θ = β →
    (∀ f < l.biasCount, HasDerivAt (fun τ => B τ f) (B' f) θ) →
    ∃ δ', Curve (l.out s) (l.eval s x) (fun τ => (l.withParams (W τ) (B τ)).eval s x) δ' θ ∧
      total (l.out s).X (l.out s).Y (l.out s).Z (fun i j k => g i j k * δ' i j k) =
        total (l.weightShape s).X (l.weightShape s).Y (l.weightShape s).Z (fun a b c => dw a b c * W' a b c) +
          ∑ f ∈ range l.biasCount, db f * B' f

/-- `d` is the gradient of the loss with respect to the input `x` of the network `ls`. -/
def IsGrad (ls : List NetLayer) (s : Shape) (n t : Nat) (x d : Tensor) : Prop :=
  ∀ θ γ γ', Curve s x γ γ' θ → HasDerivAt (fun τ => netLoss ls s n t (γ τ)) (total s.X s.Y s.Z (fun i j k => d i j k * γ' i j k)) θ

/-- `dw`, `db` are the gradient of the loss with respect to the parameters of the first layer. -/
def IsParamGrad (l : NetLayer) (ls : List NetLayer) (s : Shape) (n t : Nat) (x dw : Tensor) (db : Nat → ℝ) : Prop :=
  ∀ w β, l.params = some (w, β) → ∀ θ W W' (B : ℝ → Nat → ℝ) (B' : Nat → ℝ), Curve (l.weightShape s) w W W' θ → B θ = β →
    (∀ f < l.biasCount, HasDerivAt (fun τ => B τ f) (B' f) θ) →
    HasDerivAt (fun τ => netLoss (l.withParams (W τ) (B τ) :: ls) s n t x)
      (total (l.weightShape s).X (l.weightShape s).Y (l.weightShape s).Z (fun a b c => dw a b c * W' a b c) +
          ∑ f ∈ range l.biasCount, db f * B' f) θ

theorem IsGrad.cons {l : NetLayer} {ls : List NetLayer} {s : Shape} {n t : Nat} {x g d : Tensor}
    (h : IsGrad ls (l.out s) n t (l.eval s x) g) (ha : LayerAdj l s x g d) : IsGrad (l :: ls) s n t x d := by
  intro θ γ γ' hγ
  obtain ⟨δ', hc, e⟩ := ha θ γ γ' hγ
  rw [← e]
  exact h θ _ δ' hc

theorem withParams_out (l : NetLayer) (w : Tensor) (β : Nat → ℝ) (s : Shape) : (l.withParams w β).out s = l.out s := by
  cases l <;> rfl

theorem IsParamGrad.of {l : NetLayer} {ls : List NetLayer} {s : Shape} {n t : Nat} {x g dw : Tensor} {db : Nat → ℝ}
    (h : IsGrad ls (l.out s) n t (l.eval s x) g) (ha : ParamAdj l s x g dw db) : IsParamGrad l ls s n t x dw db := by
  intro w β hp θ W W' B B' hW hB hB'
  obtain ⟨δ', hc, e⟩ := ha w β hp θ W W' B B' hW hB hB'
  rw [← e]
  have := h θ _ δ' hc
  refine this.congr_of_eventuallyEq (Filter.Eventually.of_forall fun τ => ?_)
  simp only [netLoss, netProb, netOut, netEval, withParams_out]

theorem conv_adj {A B C F : Nat} {w : Tensor} {β : Nat → ℝ} {s : Shape} (x g : Tensor) {S : Nat} (hX : A + S = s.X + 1)
    (hY : B + S = s.Y + 1) (hZ : s.Z = C) (hS : 0 < S) :
    LayerAdj (.conv A B C F w β) s x g (fun i j c => ∑ f ∈ range F, ∑ p ∈ range S, ∑ q ∈ range S,
      if (p ≤ i ∧ i < p + A) ∧ (q ≤ j ∧ j < q + B) then w (i - p) (j - q) (f * C + c) * g p q f else 0) := by
  intro θ γ γ' hγ
  refine ⟨fun i j f => ∑ c ∈ range C, ∑ a ∈ range A, ∑ b ∈ range B, γ' (i + a) (j + b) c * w a b (f * C + c),
    ⟨by simp only [hγ.start], ?_⟩, ?_⟩
  · intro i hi j hj f hf
    simp only [NetLayer.out] at hi hj hf
    simp only [NetLayer.eval, convLayer]
    refine HasDerivAt.const_add _ ?_
    refine HasDerivAt.fun_sum fun c hc => HasDerivAt.fun_sum fun a ha => HasDerivAt.fun_sum fun b hb => ?_
    simp only [mem_range] at hc ha hb
    exact (hγ.deriv _ (by omega) _ (by omega) _ (by omega)).mul_const _
  · have h1 : s.X - A + 1 = S := by omega
    have h2 : s.Y - B + 1 = S := by omega
    simp only [NetLayer.out, h1, h2, hZ]
    exact Kernel.adjoint_input hX hY w γ' g

theorem conv_param {A B C F : Nat} {w : Tensor} {β : Nat → ℝ} {s : Shape} (x g : Tensor) (hC : 0 < C) :
    ParamAdj (.conv A B C F w β) s x g (fun a b m => ∑ p ∈ range (s.X - A + 1), ∑ q ∈ range (s.Y - B + 1),
      x (a + p) (b + q) (m % C) * g p q (m / C)) (fun f => ∑ p ∈ range (s.X - A + 1), ∑ q ∈ range (s.Y - B + 1), g p q f) := by
  intro w0 β0 hp θ W W' B' B'' hW hB hB'
  obtain ⟨rfl, rfl⟩ := Prod.mk.inj (Option.some.inj hp)
  refine ⟨fun i j f => B'' f + ∑ c ∈ range C, ∑ a ∈ range A, ∑ b ∈ range B, x (i + a) (j + b) c * W' a b (f * C + c),
    ⟨by simp only [hW.start, hB]; rfl, ?_⟩, ?_⟩
  · intro i hi j hj f hf
    simp only [NetLayer.out] at hi hj hf
    simp only [NetLayer.eval, NetLayer.withParams, convLayer]
    refine (hB' f hf).fun_add ?_
    refine HasDerivAt.fun_sum fun c hc => HasDerivAt.fun_sum fun a ha => HasDerivAt.fun_sum fun b hb => ?_
    simp only [mem_range] at hc ha hb
    have := Kernel.slot_le (C := C) hf
    exact (hW.deriv a ha b hb (f * C + c) (by simp only [NetLayer.weightShape]; omega)).const_mul _
  · simp only [NetLayer.out, NetLayer.weightShape, NetLayer.biasCount]
    rw [← Kernel.adjoint_weights (s.X - A + 1) (s.Y - B + 1) A B C F hC x W' g]
    simp only [mul_add]
    have hsplit : ∀ u v : Tensor, total (s.X - A + 1) (s.Y - B + 1) F (fun i j k => u i j k + v i j k) =
        total (s.X - A + 1) (s.Y - B + 1) F u + total (s.X - A + 1) (s.Y - B + 1) F v := by
      intro u v
      simp only [total, sum_add_distrib]
    rw [hsplit, add_comm]
    congr 1
    simp only [sum_mul, total]
    rw [sum_rot, sum_rot]

theorem full_adj {n : Nat} {w : Tensor} {β : Nat → ℝ} {s : Shape} (x g : Tensor) (hX : 0 < s.X) (hY : 0 < s.Y) :
    LayerAdj (.full n w β) s x g (fun a b c => ∑ i ∈ range n, w i (fl s.X s.Y a b c) 0 * g i 0 0) := by
  intro θ γ γ' hγ
  refine ⟨fun i _ _ => ∑ k ∈ range (s.X * s.Y * s.Z), w i k 0 * flatOf s.X s.Y γ' k, ⟨by simp only [hγ.start], ?_⟩, ?_⟩
  · intro i hi j hj f hf
    simp only [NetLayer.eval]
    refine HasDerivAt.const_add _ ?_
    refine HasDerivAt.fun_sum fun k hk => ?_
    obtain ⟨u1, u2, u3⟩ := unflat_lt hX hY (mem_range.1 hk)
    exact (hγ.deriv _ u1 _ u2 _ u3).const_mul _
  · rw [← sum_flat s.X s.Y s.Z]
    simp only [fl_unflat, NetLayer.out, total, sum_range_one, flatOf, sum_mul, mul_sum]
    rw [sum_comm]
    refine sum_congr rfl fun k _ => sum_congr rfl fun i _ => by ring

theorem full_param {n : Nat} {w : Tensor} {β : Nat → ℝ} {s : Shape} (x g : Tensor) :
    ParamAdj (.full n w β) s x g (fun i k _ => g i 0 0 * flatOf s.X s.Y x k) (fun i => g i 0 0) := by
  intro w0 β0 hp θ W W' B B' hW hB hB'
  obtain ⟨rfl, rfl⟩ := Prod.mk.inj (Option.some.inj hp)
  refine ⟨fun i _ _ => B' i + ∑ k ∈ range (s.X * s.Y * s.Z), W' i k 0 * flatOf s.X s.Y x k,
    ⟨by simp only [hW.start, hB]; rfl, ?_⟩, ?_⟩
  · intro i hi j hj f hf
    simp only [NetLayer.eval, NetLayer.withParams]
    refine (hB' i hi).fun_add (HasDerivAt.fun_sum fun k hk => ?_)
    exact (hW.deriv i hi k (mem_range.1 hk) 0 (by simp [NetLayer.weightShape])).mul_const _
  · simp only [NetLayer.out, NetLayer.weightShape, NetLayer.biasCount, total, sum_range_one]
    rw [← sum_add_distrib]
    refine sum_congr rfl fun i _ => ?_
    rw [mul_add, mul_sum, add_comm]
    congr 1
    exact sum_congr rfl fun k _ => by ring

theorem avg_adj {px py sx sy : Nat} {s : Shape} (x g : Tensor) (hf : PoolFits s.X s.Y px py sx sy) :
    LayerAdj (.pool .avg px py sx sy) s x g (fun i j k => total (windows s.X px sx) (windows s.Y py sy) s.Z (fun p q l =>
        if inBox (p * sx) (q * sy) l px py 1 i j k then g p q l / ((px : ℝ) * (py : ℝ)) else 0)) := by
  intro θ γ γ' hγ
  refine ⟨fun i j k => (∑ a ∈ range px, ∑ c ∈ range py, γ' (i * sx + a) (j * sy + c) k) / ((px : ℝ) * (py : ℝ)),
    ⟨by simp only [hγ.start], ?_⟩, ?_⟩
  · intro i hi j hj k hk
    simp only [NetLayer.out] at hi hj hk
    have hx := windows_inside hf.x hi
    have hy := windows_inside hf.y hj
    simp only [NetLayer.eval]
    refine HasDerivAt.div_const (HasDerivAt.fun_sum fun a ha => HasDerivAt.fun_sum fun c hc => ?_) _
    simp only [mem_range] at ha hc
    exact hγ.deriv _ (by omega) _ (by omega) _ hk
  · simp only [NetLayer.out]
    have h1 : ∀ i j k, total (windows s.X px sx) (windows s.Y py sy) s.Z (fun p q l =>
        if inBox (p * sx) (q * sy) l px py 1 i j k then g p q l / ((px : ℝ) * (py : ℝ)) else 0) * γ' i j k =
        total (windows s.X px sx) (windows s.Y py sy) s.Z (fun p q l =>
          (if inBox (p * sx) (q * sy) l px py 1 i j k then g p q l / ((px : ℝ) * (py : ℝ)) * γ' i j k else 0)) := by
      intro i j k
      unfold total
      simp only [sum_mul, ite_mul, zero_mul]
    simp only [h1]
    rw [total_exchange]
    refine total_congr fun p hp q hq l hl => ?_
    rw [total_box (p * sx) (q * sy) l (windows_inside hf.x hp) (windows_inside hf.y hq) hl
      (fun i j k => g p q l / ((px : ℝ) * (py : ℝ)) * γ' i j k)]
    simp only [← mul_sum]
    rw [div_mul_eq_mul_div, mul_div_assoc]

/-- MAX and MIN: `u`, `v` is where each output comes from. -/
theorem select_adj {l : NetLayer} {px py sx sy : Nat} {s : Shape} (x g : Tensor) (u v : Nat → Nat → Nat → Nat)
    (ho : l.out s = ⟨windows s.X px sx, windows s.Y py sy, s.Z⟩)
    (hin : ∀ i < windows s.X px sx, ∀ j < windows s.Y py sy, ∀ k < s.Z, u i j k < s.X ∧ v i j k < s.Y)
    (hloc : ∀ θ γ γ', Curve s x γ γ' θ → ∀ i < windows s.X px sx, ∀ j < windows s.Y py sy, ∀ k < s.Z,
      (fun τ => l.eval s (γ τ) i j k) =ᶠ[nhds θ] fun τ => γ τ (u i j k) (v i j k) k) :
    LayerAdj l s x g (fun i j k => total (windows s.X px sx) (windows s.Y py sy) s.Z (fun p q l =>
        if u p q l = i ∧ v p q l = j ∧ l = k then g p q l else 0)) := by
  intro θ γ γ' hγ
  refine ⟨fun i j k => γ' (u i j k) (v i j k) k, ⟨by simp only [hγ.start], ?_⟩, ?_⟩
  · rw [ho]
    intro i hi j hj k hk
    obtain ⟨h1, h2⟩ := hin i hi j hj k hk
    exact (hγ.deriv _ h1 _ h2 _ hk).congr_of_eventuallyEq (hloc θ γ γ' hγ i hi j hj k hk)
  · simp only [ho]
    have h1 : ∀ i j k, total (windows s.X px sx) (windows s.Y py sy) s.Z (fun p q l =>
        if u p q l = i ∧ v p q l = j ∧ l = k then g p q l else 0) * γ' i j k =
        total (windows s.X px sx) (windows s.Y py sy) s.Z (fun p q l =>
          (if u p q l = i ∧ v p q l = j ∧ l = k then g p q l * γ' (u p q l) (v p q l) l else 0)) := by
      intro i j k
      unfold total
      simp only [sum_mul, ite_mul, zero_mul]
      refine sum_congr rfl fun p _ => sum_congr rfl fun q _ => sum_congr rfl fun l _ => ?_
      split
      · rename_i h; obtain ⟨rfl, rfl, rfl⟩ := h; rfl
      · rfl
    simp only [h1]
    rw [total_exchange]
    refine total_congr fun p hp q hq l hl => ?_
    obtain ⟨h1, h2⟩ := hin p hp q hq l hl
    rw [total_single h1 h2 hl]

theorem window_greatest {px py sx sy i j k p q : Nat} {x : Tensor} (hp : p < px) (hq : q < py)
    (h : ∀ a < px, ∀ c < py, x (i * sx + a) (j * sy + c) k ≤ x (i * sx + p) (j * sy + q) k) :
    sSup (NetLayer.window px py sx sy x i j k) = x (i * sx + p) (j * sy + q) k := by
  refine IsGreatest.csSup_eq ⟨⟨p, hp, q, hq, rfl⟩, ?_⟩
  rintro _ ⟨a, ha, c, hc, rfl⟩
  exact h a ha c hc

theorem window_least {px py sx sy i j k p q : Nat} {x : Tensor} (hp : p < px) (hq : q < py)
    (h : ∀ a < px, ∀ c < py, x (i * sx + p) (j * sy + q) k ≤ x (i * sx + a) (j * sy + c) k) :
    sInf (NetLayer.window px py sx sy x i j k) = x (i * sx + p) (j * sy + q) k := by
  refine IsLeast.csInf_eq ⟨⟨p, hp, q, hq, rfl⟩, ?_⟩
  rintro _ ⟨a, ha, c, hc, rfl⟩
  exact h a ha c hc

theorem max_local {px py sx sy : Nat} {s : Shape} {x : Tensor} (hf : PoolFits s.X s.Y px py sx sy) {θ : ℝ}
    {γ : ℝ → Tensor} {γ' : Tensor} (hγ : Curve s x γ γ' θ) {i j k p q : Nat} (hi : i < windows s.X px sx)
    (hj : j < windows s.Y py sy) (hk : k < s.Z) (hp : p < px) (hq : q < py)
    (h : ∀ a < px, ∀ c < py, ¬ (a = p ∧ c = q) → x (i * sx + a) (j * sy + c) k < x (i * sx + p) (j * sy + q) k) :
    (fun τ => (NetLayer.pool .max px py sx sy).eval s (γ τ) i j k) =ᶠ[nhds θ] fun τ => γ τ (i * sx + p) (j * sy + q) k := by
  have hx := windows_inside hf.x hi
  have hy := windows_inside hf.y hj
  have hc : ∀ a < px, ∀ c < py, ContinuousAt (fun τ => γ τ (i * sx + a) (j * sy + c) k) θ := fun a ha c hc =>
    (hγ.deriv _ (by omega) _ (by omega) _ hk).continuousAt
  have hev : ∀ᶠ τ in nhds θ, ∀ a ∈ range px, ∀ c ∈ range py, γ τ (i * sx + a) (j * sy + c) k ≤ γ τ (i * sx + p) (j * sy + q) k := by
    rw [Filter.eventually_all_finset]
    intro a ha
    rw [Filter.eventually_all_finset]
    intro c hc'
    simp only [mem_range] at ha hc'
    by_cases he : a = p ∧ c = q
    · obtain ⟨rfl, rfl⟩ := he
      exact Filter.Eventually.of_forall fun τ => le_rfl
    · have := h a ha c hc' he
      rw [← hγ.start] at this
      exact ((hc a ha c hc').eventually_lt (hc p hp q hq) this).mono fun τ hτ => hτ.le
  filter_upwards [hev] with τ hτ
  exact window_greatest hp hq fun a ha c hc => hτ a (mem_range.2 ha) c (mem_range.2 hc)

theorem min_local {px py sx sy : Nat} {s : Shape} {x : Tensor} (hf : PoolFits s.X s.Y px py sx sy) {θ : ℝ}
    {γ : ℝ → Tensor} {γ' : Tensor} (hγ : Curve s x γ γ' θ) {i j k p q : Nat} (hi : i < windows s.X px sx)
    (hj : j < windows s.Y py sy) (hk : k < s.Z) (hp : p < px) (hq : q < py)
    (h : ∀ a < px, ∀ c < py, ¬ (a = p ∧ c = q) → x (i * sx + p) (j * sy + q) k < x (i * sx + a) (j * sy + c) k) :
    (fun τ => (NetLayer.pool .min px py sx sy).eval s (γ τ) i j k) =ᶠ[nhds θ] fun τ => γ τ (i * sx + p) (j * sy + q) k := by
  have hx := windows_inside hf.x hi
  have hy := windows_inside hf.y hj
  have hc : ∀ a < px, ∀ c < py, ContinuousAt (fun τ => γ τ (i * sx + a) (j * sy + c) k) θ := fun a ha c hc =>
    (hγ.deriv _ (by omega) _ (by omega) _ hk).continuousAt
  have hev : ∀ᶠ τ in nhds θ, ∀ a ∈ range px, ∀ c ∈ range py, γ τ (i * sx + p) (j * sy + q) k ≤ γ τ (i * sx + a) (j * sy + c) k := by
    rw [Filter.eventually_all_finset]
    intro a ha
    rw [Filter.eventually_all_finset]
    intro c hc'
    simp only [mem_range] at ha hc'
    by_cases he : a = p ∧ c = q
    · obtain ⟨rfl, rfl⟩ := he
      exact Filter.Eventually.of_forall fun τ => le_rfl
    · have := h a ha c hc' he
      rw [← hγ.start] at this
      exact ((hc p hp q hq).eventually_lt (hc a ha c hc') this).mono fun τ hτ => hτ.le
  filter_upwards [hev] with τ hτ
  exact window_least hp hq fun a ha c hc => hτ a (mem_range.2 ha) c (mem_range.2 hc)

theorem act_adj {f : ActFn} {s : Shape} (x g r : Tensor)
    (h : ∀ i < s.X, ∀ j < s.Y, ∀ k < s.Z, HasDerivAt (actSpec f) (r i j k) (x i j k)) :
    LayerAdj (.act f) s x g (fun i j k => g i j k * r i j k) := by
  intro θ γ γ' hγ
  refine ⟨fun i j k => r i j k * γ' i j k, ⟨by simp only [hγ.start], ?_⟩, ?_⟩
  · intro i hi j hj k hk
    have h1 := h i hi j hj k hk
    have h2 := hγ.deriv i hi j hj k hk
    have e : x i j k = (fun τ => γ τ i j k) θ := by rw [← hγ.start]
    rw [e] at h1
    exact h1.comp θ h2
  · exact total_congr fun i _ j _ k _ => by ring

theorem relu_deriv {x : ℝ} (h : x ≠ 0) : HasDerivAt (actSpec .relu) (if 0 < x then 1 else 0) x := by
  rcases lt_or_gt_of_ne h with hx | hx
  · rw [if_neg (by linarith)]
    refine (hasDerivAt_const x (0 : ℝ)).congr_of_eventuallyEq ?_
    filter_upwards [Iio_mem_nhds hx] with y hy
    exact max_eq_right (le_of_lt hy)
  · rw [if_pos hx]
    refine (hasDerivAt_id x).congr_of_eventuallyEq ?_
    filter_upwards [Ioi_mem_nhds hx] with y hy
    exact max_eq_left (le_of_lt hy)

/-- The loss as a function of the inputs of the softmax, along a curve. -/
theorem softmax_curve {n t : Nat} (ht : t < n) (v : ℝ → Nat → ℝ) (v' : Nat → ℝ) (θ : ℝ)
    (h : ∀ i < n, HasDerivAt (fun τ => v τ i) (v' i) θ) :
    HasDerivAt (fun τ => -Real.log (softmax n (v τ) t))
      (∑ i ∈ range n, (softmax n (v θ) i - if i = t then 1 else 0) * v' i) θ := by
  have hpos : ∀ u : Nat → ℝ, 0 < ∑ j ∈ range n, Real.exp (u j) := fun u =>
    sum_pos (fun _ _ => Real.exp_pos _) ⟨t, mem_range.2 ht⟩
  have e : (fun τ => -Real.log (softmax n (v τ) t)) = fun τ => Real.log (∑ j ∈ range n, Real.exp (v τ j)) - v τ t := by
    funext τ
    rw [softmax, Real.log_div (Real.exp_pos _).ne' (hpos _).ne', Real.log_exp]
    ring
  rw [e]
  have h1 : HasDerivAt (fun τ => ∑ j ∈ range n, Real.exp (v τ j)) (∑ j ∈ range n, Real.exp (v θ j) * v' j) θ :=
    HasDerivAt.fun_sum fun j hj => (h j (mem_range.1 hj)).exp
  refine ((h1.log (hpos _).ne').fun_sub (h t ht)).congr_deriv ?_
  simp only [sub_mul, sum_sub_distrib, ite_mul, one_mul, zero_mul, sum_ite_eq', mem_range, ht, if_true]
  congr 1
  rw [sum_div]
  refine sum_congr rfl fun i _ => ?_
  rw [softmax, div_mul_eq_mul_div]

/-- The empty network: the gradient of the loss is what the softmax layer returns. -/
theorem IsGrad.nil {s : Shape} {n t : Nat} (ht : t < n) (hn : s.X * s.Y * s.Z = n) (hX : 0 < s.X) (hY : 0 < s.Y) (x g : Tensor)
    (hg : ∀ i < n, flatOf s.X s.Y g i = softmax n (flatOf s.X s.Y x) i - if i = t then 1 else 0) : IsGrad [] s n t x g := by
  intro θ γ γ' hγ
  have h := softmax_curve ht (fun τ => flatOf s.X s.Y (γ τ)) (flatOf s.X s.Y γ') θ (by
    intro i hi
    obtain ⟨u1, u2, u3⟩ := unflat_lt hX hY (hn ▸ hi)
    exact hγ.deriv _ u1 _ u2 _ u3)
  refine h.congr_deriv ?_
  rw [← sum_flat s.X s.Y s.Z, hn]
  refine sum_congr rfl fun i hi => ?_
  simp only [hγ.start]
  rw [← hg i (mem_range.1 hi)]
  rfl

end Cnn
