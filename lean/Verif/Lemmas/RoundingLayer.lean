import Verif.Lemmas.Rounding
import Verif.Lemmas.NetLayer
import Verif.Props.Kernel
import Verif.Props.Connected
import Verif.Props.Activations
import Mathlib.Analysis.Calculus.MeanValue
/-! One layer in rounded arithmetic (C84). -/
namespace Cnn
open Finset

/-! ### Exact functions -/

theorem sigmoid_lipschitz (a b : ℝ) : |Real.sigmoid a - Real.sigmoid b| ≤ |a - b| / 4 := by
  have := Convex.norm_image_sub_le_of_norm_hasDerivWithin_le (s := Set.univ) (C := 1 / 4) (x := b) (y := a)
    (fun x _ => (Real.hasDerivAt_sigmoid x).hasDerivWithinAt) (by
      intro x _
      have h0 := Real.sigmoid_pos x
      have h1 := Real.sigmoid_lt_one x
      rw [Real.norm_eq_abs, abs_of_nonneg (mul_nonneg h0.le (by linarith))]
      nlinarith [sq_nonneg (Real.sigmoid x - 1 / 2)]) convex_univ trivial trivial
  rw [Real.norm_eq_abs, Real.norm_eq_abs] at this
  linarith

theorem tanh_lipschitz (a b : ℝ) : |Real.tanh a - Real.tanh b| ≤ |a - b| := by
  have := Convex.norm_image_sub_le_of_norm_hasDerivWithin_le (s := Set.univ) (C := 1) (x := b) (y := a)
    (fun x _ => (hasDerivAt_tanh x).hasDerivWithinAt) (by
      intro x _
      have h := tanh_bounds x
      rw [Real.norm_eq_abs, abs_of_nonneg (by nlinarith)]
      nlinarith [mul_self_nonneg (Real.tanh x)]) convex_univ trivial trivial
  rwa [Real.norm_eq_abs, Real.norm_eq_abs, one_mul] at this

theorem leaky_eq_max (x : ℝ) : actSpec .leaky x = max (13421773 / 2 ^ 27 * x) x := by
  simp only [actSpec]
  split
  · rw [max_eq_right]; nlinarith
  · rw [max_eq_left]; nlinarith

theorem window_finite (px py sx sy : Nat) (x : Tensor) (i j k : Nat) : (NetLayer.window px py sx sy x i j k).Finite := by
  refine (((range px ×ˢ range py).image fun q : Nat × Nat => x (i * sx + q.1) (j * sy + q.2) k).finite_toSet).subset ?_
  rintro _ ⟨a, ha, c, hc, rfl⟩
  simp only [coe_image, Set.mem_image, mem_coe, mem_product, mem_range]
  exact ⟨(a, c), ⟨ha, hc⟩, rfl⟩

theorem window_le {px py sx sy : Nat} (x : Tensor) (i j k : Nat) {a c : Nat} (ha : a < px) (hc : c < py) :
    x (i * sx + a) (j * sy + c) k ≤ sSup (NetLayer.window px py sx sy x i j k) :=
  le_csSup (window_finite ..).bddAbove ⟨a, ha, c, hc, rfl⟩

theorem window_ge {px py sx sy : Nat} (x : Tensor) (i j k : Nat) {a c : Nat} (ha : a < px) (hc : c < py) :
    sInf (NetLayer.window px py sx sy x i j k) ≤ x (i * sx + a) (j * sy + c) k :=
  csInf_le (window_finite ..).bddBelow ⟨a, ha, c, hc, rfl⟩

/-- The largest of the approximate numbers is close to the largest of the exact ones. -/
theorem sup_near {px py sx sy i j k : Nat} {x e y : Tensor} (hn : ∀ a < px, ∀ c < py,
      |y (i * sx + a) (j * sy + c) k - x (i * sx + a) (j * sy + c) k| ≤ e (i * sx + a) (j * sy + c) k) {a c : Nat} (ha : a < px) (hc : c < py)
    (hmax : ∀ a' < px, ∀ c' < py, y (i * sx + a') (j * sy + c') k ≤ y (i * sx + a) (j * sy + c) k) :
    |y (i * sx + a) (j * sy + c) k - sSup (NetLayer.window px py sx sy x i j k)| ≤ sSup (NetLayer.window px py sx sy e i j k) := by
  rw [abs_sub_le_iff]
  constructor
  · have h1 := window_le (sx := sx) (sy := sy) x i j k ha hc
    have h2 := window_le (sx := sx) (sy := sy) e i j k ha hc
    have h3 := (abs_sub_le_iff.1 (hn a ha c hc)).1
    linarith
  · have : sSup (NetLayer.window px py sx sy x i j k) ≤ y (i * sx + a) (j * sy + c) k + sSup (NetLayer.window px py sx sy e i j k) := by
      refine csSup_le ⟨_, a, ha, c, hc, rfl⟩ ?_
      rintro _ ⟨a', ha', c', hc', rfl⟩
      have h1 := hmax a' ha' c' hc'
      have h2 := window_le (sx := sx) (sy := sy) e i j k ha' hc'
      have h3 := (abs_sub_le_iff.1 (hn a' ha' c' hc')).2
      linarith
    linarith

theorem inf_near {px py sx sy i j k : Nat} {x e y : Tensor} (hn : ∀ a < px, ∀ c < py,
      |y (i * sx + a) (j * sy + c) k - x (i * sx + a) (j * sy + c) k| ≤ e (i * sx + a) (j * sy + c) k) {a c : Nat} (ha : a < px) (hc : c < py)
    (hmin : ∀ a' < px, ∀ c' < py, y (i * sx + a) (j * sy + c) k ≤ y (i * sx + a') (j * sy + c') k) :
    |y (i * sx + a) (j * sy + c) k - sInf (NetLayer.window px py sx sy x i j k)| ≤ sSup (NetLayer.window px py sx sy e i j k) := by
  rw [abs_sub_le_iff]
  constructor
  · have : y (i * sx + a) (j * sy + c) k - sSup (NetLayer.window px py sx sy e i j k) ≤ sInf (NetLayer.window px py sx sy x i j k) := by
      refine le_csInf ⟨_, a, ha, c, hc, rfl⟩ ?_
      rintro _ ⟨a', ha', c', hc', rfl⟩
      have h1 := hmin a' ha' c' hc'
      have h2 := window_le (sx := sx) (sy := sy) e i j k ha' hc'
      have h3 := (abs_sub_le_iff.1 (hn a' ha' c' hc')).1
      linarith
    linarith
  · have h1 := window_ge (sx := sx) (sy := sy) x i j k ha hc
    have h2 := window_le (sx := sx) (sy := sy) e i j k ha hc
    have h3 := (abs_sub_le_iff.1 (hn a ha c hc)).2
    linarith

/-- A linear function of inputs that are off by at most `e`. -/
theorem linear_near (n : Nat) (w y x e : Nat → ℝ) (h : ∀ k < n, |y k - x k| ≤ e k) :
    |∑ k ∈ range n, w k * y k - ∑ k ∈ range n, w k * x k| ≤ ∑ k ∈ range n, |w k| * e k := by
  rw [← sum_sub_distrib]
  refine (abs_sum_le_sum_abs _ _).trans (sum_le_sum fun k hk => ?_)
  rw [← mul_sub, abs_mul]
  exact mul_le_mul_of_nonneg_left (h k (mem_range.1 hk)) (abs_nonneg _)

theorem conv_near {A B C : Nat} (w : Tensor) (β : Nat → ℝ) (y x e : Tensor) (i j f : Nat)
    (h : ∀ a < A, ∀ b < B, ∀ c < C, |y (i + a) (j + b) c - x (i + a) (j + b) c| ≤ e (i + a) (j + b) c) :
    |convLayer A B C w β y i j f - convLayer A B C w β x i j f| ≤ convLayer A B C (fun a b c => |w a b c|) (fun _ => 0) e i j f := by
  unfold convLayer
  rw [add_sub_add_left_eq_sub, zero_add, ← sum_sub_distrib]
  refine (abs_sum_le_sum_abs _ _).trans (sum_le_sum fun c hc => ?_)
  rw [← sum_sub_distrib]
  refine (abs_sum_le_sum_abs _ _).trans (sum_le_sum fun a ha => ?_)
  rw [← sum_sub_distrib]
  refine (abs_sum_le_sum_abs _ _).trans (sum_le_sum fun b hb => ?_)
  rw [← sub_mul, abs_mul]
  exact mul_le_mul_of_nonneg_right (h a (mem_range.1 ha) b (mem_range.1 hb) c (mem_range.1 hc)) (abs_nonneg _)

/-! ### Rounded layers -/

section
variable {α : Type} [Zero α] [One α] [Add α] [Sub α] [Mul α] [Div α] [Neg α] {N : Num α} {p : Precision} {F : Floating N p}

theorem abs_le_of_near {a x e : ℝ} (h : |a - x| ≤ e) : |a| ≤ |x| + e := by
  have := abs_add_le (a - x) x
  rw [sub_add_cancel] at this
  linarith

namespace Floating

/-- One output of a convolution layer. -/
theorem conv_close (hp : p.Ok) {A B C : Nat} {w : Tensor} {β : Nat → ℝ} {w' x' : Nat → Nat → Nat → α} {β' : Nat → α} {m : Tensor} {i j f : Nat}
    (hw : ∀ a < A, ∀ b < B, ∀ c < C, F.Fin (w' a b (f * C + c)) ∧ F.val (w' a b (f * C + c)) = w a b (f * C + c))
    (hβ : F.Fin (β' f) ∧ F.val (β' f) = β f)
    (hx : ∀ a < A, ∀ b < B, ∀ c < C, F.Fin (x' (i + a) (j + b) c) ∧ |F.val (x' (i + a) (j + b) c)| ≤ m (i + a) (j + b) c)
    (hr : (1 + p.u) ^ (A * B + C + 2) * (convLayer A B C (fun a b c => |w a b c|) (fun f => |β f|) m i j f + ((A * B * C : Nat) : ℝ) * p.η) ≤ p.Ω) :
    F.Close (A * B + C + 2) (convLayer A B C (fun a b c => |w a b c|) (fun f => |β f|) m i j f) (((A * B * C : Nat) : ℝ) * p.η)
      (sumTo C (fun c => sumTo2 A B (fun a b => x' (i + a) (j + b) c * w' a b (f * C + c))) + β' f)
      (convLayer A B C w β (fun i j k => F.val (x' i j k)) i j f) := by
  unfold convLayer at *
  set T : Nat → Nat → Nat → ℝ := fun c a b => m (i + a) (j + b) c * |w a b (f * C + c)| with hT
  have hT0 : ∀ c < C, ∀ a < A, ∀ b < B, 0 ≤ T c a b := fun c hc a ha b hb =>
    mul_nonneg ((abs_nonneg _).trans (hx a ha b hb c hc).2) (abs_nonneg _)
  have hη : ((A * B * C : Nat) : ℝ) * p.η = ∑ c ∈ range C, ∑ a ∈ range A, ∑ b ∈ range B, p.η := by
    simp only [sum_const, card_range, nsmul_eq_mul]; push_cast; ring
  rw [hη] at hr ⊢
  have hc0 : ∀ c < C, 0 ≤ ∑ a ∈ range A, ∑ b ∈ range B, T c a b := fun c hc =>
    sum_nonneg fun a ha => sum_nonneg fun b hb => hT0 c hc a (mem_range.1 ha) b (mem_range.1 hb)
  have he0 : ∀ c : Nat, 0 ≤ ∑ a ∈ range A, ∑ b ∈ range B, p.η := fun c =>
    sum_nonneg fun a _ => sum_nonneg fun b _ => hp.η0
  have hs0 : 0 ≤ ∑ c ∈ range C, ∑ a ∈ range A, ∑ b ∈ range B, T c a b := sum_nonneg fun c hc => hc0 c (mem_range.1 hc)
  have hg0 : 0 ≤ ∑ c ∈ range C, ∑ a ∈ range A, ∑ b ∈ range B, p.η := sum_nonneg fun c _ => he0 c
  have hβ0 := abs_nonneg (β f)
  have hpow : ∀ k ≤ A * B + C + 2, ∀ t : ℝ, 0 ≤ t → t ≤ |β f| + ∑ c ∈ range C, ∑ a ∈ range A, ∑ b ∈ range B, T c a b +
      ∑ c ∈ range C, ∑ a ∈ range A, ∑ b ∈ range B, p.η → (1 + p.u) ^ k * t ≤ p.Ω := fun k hk t h0 ht =>
    le_trans (mul_le_mul (pow_mono hp hk) ht h0 (zero_le_one.trans (one_le_pow hp _))) hr
  -- one channel
  have h1 : ∀ c < C, F.Close (1 + A * B) (∑ a ∈ range A, ∑ b ∈ range B, T c a b) (∑ a ∈ range A, ∑ b ∈ range B, p.η)
      (sumTo2 A B (fun a b => x' (i + a) (j + b) c * w' a b (f * C + c)))
      (∑ a ∈ range A, ∑ b ∈ range B, F.val (x' (i + a) (j + b) c) * w a b (f * C + c)) := by
    intro c hc
    have hle : ∑ a ∈ range A, ∑ b ∈ range B, T c a b ≤ ∑ c ∈ range C, ∑ a ∈ range A, ∑ b ∈ range B, T c a b :=
      single_le_sum (f := fun c => ∑ a ∈ range A, ∑ b ∈ range B, T c a b) (fun c hc => hc0 c (mem_range.1 hc)) (mem_range.2 hc)
    have hle' : ∑ a ∈ range A, ∑ b ∈ range B, p.η ≤ ∑ c ∈ range C, ∑ a ∈ range A, ∑ b ∈ range B, p.η :=
      single_le_sum (f := fun _ => ∑ a ∈ range A, ∑ b ∈ range B, p.η) (fun c _ => he0 c) (mem_range.2 hc)
    refine Close.sumTo2 hp A B ?_ (hpow _ (by omega) _ (add_nonneg (hc0 c hc) (he0 c)) (by linarith))
    intro a ha b hb
    obtain ⟨x1, x2⟩ := hx a ha b hb c hc
    obtain ⟨w1, w2⟩ := hw a ha b hb c hc
    have hprod : |F.val (x' (i + a) (j + b) c) * F.val (w' a b (f * C + c))| ≤ T c a b := by
      rw [abs_mul, w2]
      exact mul_le_mul_of_nonneg_right x2 (abs_nonneg _)
    have hone : T c a b ≤ ∑ a ∈ range A, ∑ b ∈ range B, T c a b :=
      (single_le_sum (f := fun b => T c a b) (fun b hb => hT0 c hc a ha b (mem_range.1 hb)) (mem_range.2 hb)).trans
        (single_le_sum (f := fun a => ∑ b ∈ range B, T c a b) (fun a ha => sum_nonneg fun b hb => hT0 c hc a (mem_range.1 ha) b (mem_range.1 hb)) (mem_range.2 ha))
    have hΩ := hpow 0 (by omega) _ (hT0 c hc a ha b hb) (by linarith)
    rw [pow_zero, one_mul] at hΩ
    have := (Close.mul hp x1 w1 (hprod.trans hΩ)).mono hp le_rfl hprod le_rfl
    rwa [w2] at this
  have h2 := Close.sumTo hp C h1 (hpow _ (by omega) _ (add_nonneg hs0 hg0) (by linarith))
  have h3 := (Close.exact hβ.1 hβ.2).mono (l := 1 + A * B + C) hp (by omega) le_rfl le_rfl
  have h4 := h2.add hp h3 (hpow _ (by omega) _ (by linarith) (by linarith))
  have := h4.mono (l := A * B + C + 2) hp (by omega) (add_comm _ _).le (add_zero _).le
  rwa [add_comm _ (β f)] at this

/-- One output of a fully connected layer. -/
theorem full_close (hp : p.Ok) {n : Nat} {w : Nat → ℝ} {β : ℝ} {w' x' : Nat → α} {β' : α} {m : Nat → ℝ}
    (hw : ∀ k < n, F.Fin (w' k) ∧ F.val (w' k) = w k) (hβ : F.Fin β' ∧ F.val β' = β) (hx : ∀ k < n, F.Fin (x' k) ∧ |F.val (x' k)| ≤ m k)
    (hr : (1 + p.u) ^ (n + 2) * (|β| + ∑ k ∈ range n, |w k| * m k + (n : ℝ) * p.η) ≤ p.Ω) :
    F.Close (n + 2) (|β| + ∑ k ∈ range n, |w k| * m k) ((n : ℝ) * p.η) (sumTo n (fun k => w' k * x' k) + β')
      (β + ∑ k ∈ range n, w k * F.val (x' k)) := by
  have hT0 : ∀ k < n, 0 ≤ |w k| * m k := fun k hk => mul_nonneg (abs_nonneg _) ((abs_nonneg _).trans (hx k hk).2)
  have hη : (n : ℝ) * p.η = ∑ k ∈ range n, p.η := by simp
  rw [hη] at hr ⊢
  have hs0 : 0 ≤ ∑ k ∈ range n, |w k| * m k := sum_nonneg fun k hk => hT0 k (mem_range.1 hk)
  have hg0 : 0 ≤ ∑ k ∈ range n, p.η := sum_nonneg fun _ _ => hp.η0
  have hβ0 := abs_nonneg β
  have hpow : ∀ k ≤ n + 2, ∀ t : ℝ, 0 ≤ t → t ≤ |β| + ∑ k ∈ range n, |w k| * m k + ∑ k ∈ range n, p.η → (1 + p.u) ^ k * t ≤ p.Ω :=
    fun k hk t h0 ht => le_trans (mul_le_mul (pow_mono hp hk) ht h0 (zero_le_one.trans (one_le_pow hp _))) hr
  have h1 : ∀ k < n, F.Close 1 (|w k| * m k) p.η (w' k * x' k) (w k * F.val (x' k)) := by
    intro k hk
    obtain ⟨x1, x2⟩ := hx k hk
    obtain ⟨w1, w2⟩ := hw k hk
    have hprod : |F.val (w' k) * F.val (x' k)| ≤ |w k| * m k := by
      rw [abs_mul, w2]
      exact mul_le_mul_of_nonneg_left x2 (abs_nonneg _)
    have hone : |w k| * m k ≤ ∑ k ∈ range n, |w k| * m k :=
      single_le_sum (f := fun k => |w k| * m k) (fun k hk => hT0 k (mem_range.1 hk)) (mem_range.2 hk)
    have hΩ := hpow 0 (by omega) _ (hT0 k hk) (by linarith)
    rw [pow_zero, one_mul] at hΩ
    have := (Close.mul hp w1 x1 (hprod.trans hΩ)).mono hp le_rfl hprod le_rfl
    rwa [w2] at this
  have h2 := Close.sumTo hp n h1 (hpow _ (by omega) _ (add_nonneg hs0 hg0) (by linarith))
  have h3 := (Close.exact hβ.1 hβ.2).mono (l := 1 + n) hp (by omega) le_rfl le_rfl
  have h4 := h2.add hp h3 (hpow _ (by omega) _ (by linarith) (by linarith))
  have := h4.mono (l := n + 2) hp (by omega) (add_comm _ _).le (add_zero _).le
  rwa [add_comm _ β] at this

/-- `1 / (1 + exp (-v))`. -/
theorem sigmoid_near (hp : p.Ok) {a : α} (ha : F.Fin a) (hr : 2 + 2 * Real.exp |F.val a| ≤ p.Ω) :
    F.Fin (ActFn.sigmoid.eval N a) ∧ |F.val (ActFn.sigmoid.eval N a) - Real.sigmoid (F.val a)| ≤ 3 * p.u + 2 * p.v + 3 * p.η := by
  obtain ⟨u0, v0, η0, u1, v1, η1, hΩ⟩ := hp
  obtain ⟨n1, n2⟩ := F.neg a ha
  have hexp : Real.exp (-F.val a) ≤ Real.exp |F.val a| := Real.exp_le_exp.2 (neg_le_abs _)
  have hpos := Real.exp_pos (-F.val a)
  set h := Real.exp (-F.val a) with hh
  obtain ⟨e1, e2⟩ := F.exp (-a) n1 (by rw [n2]; linarith)
  rw [n2, ← hh] at e2
  set E := F.val (N.exp (-a)) with hE
  obtain ⟨l1, l2⟩ := abs_sub_le_iff.1 e2
  have hvh : p.v * h ≤ h / 16 := by nlinarith
  have hvh0 : 0 ≤ p.v * h := mul_nonneg v0 hpos.le
  have hD0 : |F.val 1 + F.val (N.exp (-a))| = 1 + E := by
    rw [F.one.2, ← hE, abs_of_pos]; linarith
  obtain ⟨d1, d2⟩ := F.add 1 (N.exp (-a)) F.one.1 e1 (by rw [hD0]; linarith)
  rw [hD0, F.one.2, ← hE] at d2
  set D := F.val (1 + N.exp (-a)) with hD
  obtain ⟨k1, k2⟩ := abs_sub_le_iff.1 d2
  -- the denominator
  have hden : |D - (1 + h)| ≤ (p.v + p.η + 9 / 8 * p.u) * (1 + h) := by
    have q1 : p.u * (1 + E) ≤ p.u * ((9 / 8) * (1 + h)) := mul_le_mul_of_nonneg_left (by nlinarith) u0
    have q2 : 0 ≤ p.η * h := mul_nonneg η0 hpos.le
    have q3 : p.v * h ≤ p.v * (1 + h) := mul_le_mul_of_nonneg_left (by linarith) v0
    rw [abs_sub_le_iff]
    constructor <;> nlinarith
  have hρ : (p.v + p.η + 9 / 8 * p.u) ≤ 1 / 4 := by linarith
  have hDlow : 3 / 4 * (1 + h) ≤ D := by
    have := (abs_sub_le_iff.1 hden).2
    nlinarith
  have hDpos : 0 < D := by nlinarith
  have hinv : 1 / D ≤ 4 / 3 := by rw [div_le_div_iff₀ hDpos (by norm_num)]; nlinarith
  have hinv0 : 0 < 1 / D := by positivity
  obtain ⟨r1, r2⟩ := F.div 1 (1 + N.exp (-a)) F.one.1 d1 (by rw [← hD]; exact hDpos.ne') (by
    rw [F.one.2, ← hD, abs_of_pos hinv0]; linarith)
  rw [F.one.2, ← hD, abs_of_pos hinv0] at r2
  refine ⟨r1, ?_⟩
  have hs : Real.sigmoid (F.val a) = 1 / (1 + h) := by rw [Real.sigmoid_def, hh, one_div]
  have h1h : 0 < 1 + h := by linarith
  have hmain : |1 / D - 1 / (1 + h)| ≤ 4 / 3 * (p.v + p.η + 9 / 8 * p.u) := by
    have e : 1 / D - 1 / (1 + h) = ((1 + h) - D) / (D * (1 + h)) := by field_simp
    rw [e, abs_div, abs_of_pos (mul_pos hDpos h1h), abs_sub_comm, div_le_iff₀ (mul_pos hDpos h1h)]
    refine hden.trans ?_
    have q : 0 ≤ p.v + p.η + 9 / 8 * p.u := by linarith
    have : (p.v + p.η + 9 / 8 * p.u) * (1 + h) ≤ 4 / 3 * (p.v + p.η + 9 / 8 * p.u) * (D * 1) := by nlinarith
    have q2 : D * 1 ≤ D * (1 + h) := mul_le_mul_of_nonneg_left (by linarith) hDpos.le
    have q3 := mul_le_mul_of_nonneg_left q2 (show 0 ≤ 4 / 3 * (p.v + p.η + 9 / 8 * p.u) by linarith)
    linarith
  rw [hs]
  have ht : |F.val (ActFn.sigmoid.eval N a) - 1 / (1 + h)| ≤ |F.val (1 / (1 + N.exp (-a))) - 1 / D| + |1 / D - 1 / (1 + h)| := abs_sub_le _ _ _
  have hu : p.u * (1 / D) ≤ p.u * (4 / 3) := mul_le_mul_of_nonneg_left hinv u0
  linarith

/-- An activation function. -/
theorem act_near (hp : p.Ok) (f : ActFn) {a : α} {x e : ℝ} (ha : F.Fin a) (hx : |F.val a - x| ≤ e)
    (h1 : f = .sigmoid → 2 + 2 * Real.exp (|x| + e) ≤ p.Ω) (h2 : f = .leaky → |x| + e ≤ p.Ω) :
    F.Fin (f.eval N a) ∧ |F.val (f.eval N a) - actSpec f x| ≤
      (NetLayer.act f).err p ⟨1, 1, 1⟩ (fun _ _ _ => x) (fun _ _ _ => e) 0 0 0 := by
  have hae := abs_le_of_near hx
  have he : 0 ≤ e := (abs_nonneg _).trans hx
  cases f with
  | linear => simpa [ActFn.eval, actSpec, NetLayer.err, NetLayer.spread, NetLayer.rounding] using ⟨ha, hx⟩
  | relu =>
    simp only [ActFn.eval, actSpec, NetLayer.err, NetLayer.spread, NetLayer.rounding, add_zero]
    by_cases c : N.lt 0 a = true
    · rw [if_pos c]
      rw [F.lt _ _ F.zero.1 ha, F.zero.2] at c
      refine ⟨ha, ?_⟩
      have := abs_max_sub_max_le_abs (F.val a) x 0
      rw [max_eq_left c.le] at this
      exact this.trans hx
    · rw [if_neg c]
      rw [F.lt _ _ F.zero.1 ha, F.zero.2, not_lt] at c
      refine ⟨F.zero.1, ?_⟩
      have := abs_max_sub_max_le_abs (F.val a) x 0
      rw [max_eq_right c] at this
      rw [F.zero.2]
      exact this.trans hx
  | sigmoid =>
    obtain ⟨k1, k2⟩ := sigmoid_near hp ha (le_trans (by have := Real.exp_le_exp.2 hae; linarith) (h1 rfl))
    refine ⟨k1, ?_⟩
    simp only [actSpec, NetLayer.err, NetLayer.spread, NetLayer.rounding]
    have h3 := sigmoid_lipschitz (F.val a) x
    have := abs_sub_le (F.val (ActFn.sigmoid.eval N a)) (Real.sigmoid (F.val a)) (Real.sigmoid x)
    linarith
  | tangent =>
    obtain ⟨k1, k2⟩ := F.tanh a ha
    refine ⟨k1, ?_⟩
    simp only [actSpec, NetLayer.err, NetLayer.spread, NetLayer.rounding, ActFn.eval]
    have h3 := tanh_lipschitz (F.val a) x
    have := abs_sub_le (F.val (N.tanh a)) (Real.tanh (F.val a)) (Real.tanh x)
    have hb := tanh_bounds (F.val a)
    have : p.v * |Real.tanh (F.val a)| ≤ p.v * 1 := mul_le_mul_of_nonneg_left (abs_le.2 ⟨hb.1.le, hb.2.le⟩) hp.v0
    linarith
  | leaky =>
    simp only [NetLayer.err, NetLayer.spread, NetLayer.rounding]
    rw [leaky_eq_max]
    simp only [ActFn.eval, Num.max]
    obtain ⟨s1, s2⟩ := F.slope
    have hsm : |F.val N.slopeF * F.val a| ≤ |x| + e := by
      rw [abs_mul, s2, abs_of_pos (by norm_num)]
      nlinarith [abs_nonneg (F.val a)]
    obtain ⟨m1, m2⟩ := F.mul _ a s1 ha (hsm.trans (h2 rfl))
    rw [s2] at m2 hsm
    have hprod : |F.val (N.slopeF * a) - 13421773 / 2 ^ 27 * x| ≤ e + (p.u * (|x| + e) + p.η) := by
      have q1 := abs_sub_le (F.val (N.slopeF * a)) (13421773 / 2 ^ 27 * F.val a) (13421773 / 2 ^ 27 * x)
      have q2 : |13421773 / 2 ^ 27 * F.val a - 13421773 / 2 ^ 27 * x| ≤ e := by
        rw [← mul_sub, abs_mul, abs_of_pos (by norm_num)]
        nlinarith [abs_nonneg (F.val a - x)]
      have q3 := mul_le_mul_of_nonneg_left hsm hp.u0
      linarith
    have hself : |F.val a - x| ≤ e + (p.u * (|x| + e) + p.η) := by
      have := mul_nonneg hp.u0 (add_nonneg (abs_nonneg x) he)
      linarith [hp.η0]
    have hmm := (abs_max_sub_max_le_max (F.val (N.slopeF * a)) (F.val a) (13421773 / 2 ^ 27 * x) x).trans (max_le hprod hself)
    by_cases c : N.lt (N.slopeF * a) a = true
    · rw [if_pos c]
      rw [F.lt _ _ m1 ha] at c
      rw [max_eq_right c.le] at hmm
      exact ⟨ha, hmm⟩
    · rw [if_neg c]
      rw [F.lt _ _ m1 ha, not_lt] at c
      rw [max_eq_left c] at hmm
      exact ⟨m1, hmm⟩

theorem weakOn_lt : MExpr.WeakOn N.lt F.Fin where
  irrefl a ha := by
    have := (F.lt a a ha ha).not.2 (lt_irrefl _)
    simpa using this
  trans a b c ha hb hc h1 h2 := by
    rw [F.lt _ _ ha hb] at h1
    rw [F.lt _ _ hb hc] at h2
    rw [F.lt _ _ ha hc]
    exact h1.trans h2
  neg a b c ha hb hc h1 h2 := by
    have h1 : ¬ N.lt a b = true := by simp [h1]
    rw [F.lt _ _ ha hb, not_lt] at h1
    rw [F.lt _ _ ha hc] at h2
    rw [F.lt _ _ hb hc]
    exact h1.trans_lt h2

theorem weakOn_gt : MExpr.WeakOn (fun a b => N.lt b a) F.Fin where
  irrefl a ha := (weakOn_lt (F := F)).irrefl a ha
  trans a b c ha hb hc h1 h2 := (weakOn_lt (F := F)).trans c b a hc hb ha h2 h1
  neg a b c ha hb hc h1 h2 := by
    have h1 : ¬ N.lt b a = true := by simp [h1]
    rw [F.lt _ _ hb ha, not_lt] at h1
    simp only [F.lt _ _ hc ha] at h2
    simp only [F.lt _ _ hc hb]
    exact h2.trans_le h1

end Floating

open NetLayer in
/-- One layer. -/
theorem layer_near (hp : p.Ok) {B : Body α} {b : Nat} {s : Shape} {l : NetLayer} (draws : Nat → α) (hB : B.Holds F b s l) (hf : l.Fits s)
    {X : Matrix α} {x e : Tensor} (hX : X.Near F s x e) (hr : l.InRange p s x e) :
    ∃ out B', B.forward N draws X b = .ok (out, B') ∧ out.Near F (l.out s) (l.eval s x) (l.err p s x e) := by
  obtain ⟨y, hX, hy⟩ := hX
  have hm : ∀ i < s.X, ∀ j < s.Y, ∀ k < s.Z, |F.val (y i j k)| ≤ |x i j k| + e i j k := fun i hi j hj k hk =>
    abs_le_of_near (hy i hi j hj k hk).2
  match B, l, hB with
  | .kernel K, .conv A B C M w β, hB =>
    obtain ⟨w', β', hK, hw, hβ⟩ := hB
    obtain ⟨hz, hfit⟩ := hf
    have hX' := hX
    rw [hz] at hX'
    obtain ⟨out, eo, so⟩ := C33_entries K w' y β' X hK hX' hfit
    refine ⟨out, .kernel K, by simp only [Body.forward, eo, Res.bind_ok], _, so, ?_⟩
    intro i hi j hj f hf'
    have hi : i < s.X - A + 1 := hi
    have hj : j < s.Y - B + 1 := hj
    have hf' : f < M := hf'
    have := hfit.x
    have := hfit.y
    have hc := Floating.conv_close (F := F) (w := w) (β := β) (x' := y) (w' := w') (β' := β') (m := fun i j k => |x i j k| + e i j k) (i := i) (j := j) (f := f) hp
      (A := A) (B := B) (C := C) (fun a ha b hb c hc => hw a ha b hb _ (by nlinarith)) (hβ f hf')
      (fun a ha b hb c hc => ⟨(hy _ (by omega) _ (by omega) c (by omega)).1, hm _ (by omega) _ (by omega) c (by omega)⟩)
      (hr i hi j hj f hf')
    refine ⟨hc.fin, ?_⟩
    have h1 := conv_near w β (fun i j k => F.val (y i j k)) x e i j f (A := A) (B := B) (C := C)
      (fun a ha b hb c hc => (hy _ (by omega) _ (by omega) c (by omega)).2)
    have h2 := hc.err
    refine (abs_sub_le _ _ _).trans ((add_le_add h2 h1).trans (le_of_eq ?_))
    simp only [err, spread, rounding, depth, magnitude, products]
    ring
  | .connected L, .full n w β, hB =>
    obtain ⟨w', β', hL, hw, hβ⟩ := hB
    have h := C37_forward N draws L w' β' X y hL hX
    rw [if_pos rfl] at h
    obtain ⟨out, eo, so⟩ := h
    refine ⟨out, .connected L, by simp only [Body.forward, eo, Res.bind_ok], _, so, ?_⟩
    intro i hi j hj k hk
    have hi : i < n := hi
    have hin : ∀ q < s.X * s.Y * s.Z, q % s.X < s.X ∧ q / s.X % s.Y < s.Y ∧ q / s.X / s.Y < s.Z := fun q hq =>
      unflat_lt hX.good.x hX.good.y hq
    have hc := Floating.full_close (F := F) (n := s.X * s.Y * s.Z) (w := fun k => w i k 0) (β := β i) (w' := fun k => w' i k) (β' := β' i)
      (x' := fun q => y (q % s.X) (q / s.X % s.Y) (q / s.X / s.Y)) (m := flatOf s.X s.Y fun i j k => |x i j k| + e i j k) hp
      (fun q hq => hw i hi q hq) (hβ i hi) (fun q hq => by
        obtain ⟨a, b, c⟩ := hin q hq
        exact ⟨(hy _ a _ b _ c).1, hm _ a _ b _ c⟩) (hr i hi j hj k hk)
    refine ⟨hc.fin, ?_⟩
    have h1 := linear_near (s.X * s.Y * s.Z) (fun k => w i k 0) (fun q => F.val (y (q % s.X) (q / s.X % s.Y) (q / s.X / s.Y)))
      (flatOf s.X s.Y x) (flatOf s.X s.Y e) (fun q hq => by
        obtain ⟨a, b, c⟩ := hin q hq
        exact (hy _ a _ b _ c).2)
    have h2 := hc.err
    have h3 : |F.val (sumTo (s.X * s.Y * s.Z) (fun k => w' i k * y (k % s.X) (k / s.X % s.Y) (k / s.X / s.Y)) + β' i) -
        (NetLayer.full n w β).eval s x i j k| ≤ _ := (abs_sub_le _ _ _).trans (add_le_add h2 (by
        have e : β i + ∑ k ∈ range (s.X * s.Y * s.Z), w i k 0 * F.val (y (k % s.X) (k / s.X % s.Y) (k / s.X / s.Y)) -
            (NetLayer.full n w β).eval s x i j k = ∑ k ∈ range (s.X * s.Y * s.Z), w i k 0 * F.val (y (k % s.X) (k / s.X % s.Y) (k / s.X / s.Y)) -
              ∑ k ∈ range (s.X * s.Y * s.Z), w i k 0 * flatOf s.X s.Y x k := by
          simp only [NetLayer.eval]; ring
        exact e ▸ h1))
    refine h3.trans (le_of_eq ?_)
    simp only [err, spread, rounding, depth, magnitude, products]
    ring
  | .activation A, .act f, hB =>
    obtain rfl : A = Activation.new f := hB
    obtain ⟨out, eo, so⟩ := C23_entrywise N f X y hX
    refine ⟨out, .activation (Activation.new f), by simp only [Body.forward, eo, Res.bind_ok], _, so, ?_⟩
    intro i hi j hj k hk
    have hi : i < s.X := hi
    have hj : j < s.Y := hj
    have hk : k < s.Z := hk
    have := Floating.act_near hp f (hy i hi j hj k hk).1 (hy i hi j hj k hk).2 (by rintro rfl; exact hr i hi j hj k hk)
      (by rintro rfl; exact hr i hi j hj k hk)
    refine ⟨this.1, this.2.trans (le_of_eq ?_)⟩
    cases f <;> simp [err, spread, rounding]
  | .pooling P, .pool t px py sx sy, hB =>
    obtain ⟨ht, hd, hs, hb⟩ := hB
    by_cases hav : t = .avg
    · subst hav
      obtain ⟨out, ind, eo, so⟩ := Pooling.forward_avg_ordered N P X y b hX hd hs hf hb ht
      refine ⟨out, .pooling { P with indices := P.indices.set b ind }, by simp only [Body.forward, eo, Res.bind_ok], _, so, ?_⟩
      intro i hi j hj k hk
      have hi : i < windows s.X px sx := hi
      have hj : j < windows s.Y py sy := hj
      have hk : k < s.Z := hk
      have bx := windows_inside hf.x hi
      have b_y := windows_inside hf.y hj
      have hpp : 1 ≤ px * py := Nat.mul_pos hf.px0 hf.py0
      have hin : ∀ n < px * py, i * sx + n % px < s.X ∧ j * sy + n / px < s.Y := by
        intro n hn
        have := Nat.mod_lt n hf.px0
        have : n / px < py := Nat.div_lt_of_lt_mul hn
        omega
      have hr := hr i hi j hj k hk
      simp only [depth, magnitude, products, Nat.cast_zero, zero_mul, add_zero] at hr
      have hsum : ∀ g : Tensor, ∑ n ∈ range (px * py), g (i * sx + n % px) (j * sy + n / px) k =
          ∑ a ∈ range px, ∑ c ∈ range py, g (i * sx + a) (j * sy + c) k := fun g =>
        Pooling.sum_window hf.px0 (fun a c => g a c k) (i * sx) (j * sy)
      have hm0 : 0 ≤ ∑ a ∈ range px, ∑ c ∈ range py, (|x (i * sx + a) (j * sy + c) k| + e (i * sx + a) (j * sy + c) k) :=
        sum_nonneg fun a ha => sum_nonneg fun c hc => (abs_nonneg _).trans (hm _ (by have := mem_range.1 ha; omega) _ (by have := mem_range.1 hc; omega) k hk)
      have hrange : ∀ q ≤ px * py + 1, (1 + p.u) ^ q * (∑ n ∈ range (px * py), (|x (i * sx + n % px) (j * sy + n / px) k| + e (i * sx + n % px) (j * sy + n / px) k)) ≤ p.Ω := by
        intro q hq
        rw [hsum (fun i j k => |x i j k| + e i j k)]
        exact le_trans (mul_le_mul_of_nonneg_right (Floating.pow_mono hp hq) hm0) hr
      have hc := Floating.Close.sumTo (F := F) hp (k := 0) (px * py) (T := fun n => |x (i * sx + n % px) (j * sy + n / px) k| + e (i * sx + n % px) (j * sy + n / px) k)
        (G := fun _ => 0) (z := fun n => F.val (y (i * sx + n % px) (j * sy + n / px) k)) (t := fun n => y (i * sx + n % px) (j * sy + n / px) k) (by
          intro n hn
          obtain ⟨a, c⟩ := hin n hn
          exact (Floating.Close.exact (hy _ a _ c k hk).1 rfl).mono hp le_rfl (hm _ a _ c k hk) le_rfl) (by
          rw [sum_const_zero, add_zero]
          exact hrange _ (by omega))
      rw [sum_const_zero] at hc
      have hsmall : px * py < 2147483648 := by
        have g := hX.good
        have h1 : px * py ≤ s.X * s.Y := Nat.mul_le_mul hf.x hf.y
        have h2 : s.X * s.Y * 1 ≤ s.X * s.Y * s.Z := Nat.mul_le_mul_left _ g.z
        have := g.small
        omega
      obtain ⟨o1, o2⟩ := F.ofNat (px * py) hsmall
      obtain ⟨d1, d2⟩ := hc.div hp o1 o2 (by exact_mod_cast hpp) (by rw [add_zero]; exact hrange _ (by omega))
      refine ⟨d1, ?_⟩
      have hc0 : (0 : ℝ) < ((px * py : Nat) : ℝ) := by exact_mod_cast hpp
      have h1 := linear_near (px * py) (fun _ => 1) (fun n => F.val (y (i * sx + n % px) (j * sy + n / px) k)) (fun n => x (i * sx + n % px) (j * sy + n / px) k)
        (fun n => e (i * sx + n % px) (j * sy + n / px) k) (fun n hn => by
          obtain ⟨a, c⟩ := hin n hn
          exact (hy _ a _ c k hk).2)
      simp only [one_mul, abs_one] at h1
      have h2 := div_le_div_of_nonneg_right h1 hc0.le
      rw [← abs_of_pos hc0, ← abs_div, abs_of_pos hc0, sub_div] at h2
      refine (abs_sub_le _ _ _).trans ((add_le_add d2 (le_trans (le_of_eq ?_) h2)).trans (le_of_eq ?_))
      · simp only [NetLayer.eval]
        rw [hsum x]
        push_cast
        rfl
      · simp only [err, spread, rounding, depth, magnitude]
        rw [hsum e, hsum (fun i j k => |x i j k| + e i j k)]
        push_cast
        ring
    · obtain ⟨out, ind, u, v, eo, so, _, hsel⟩ := Pooling.forward_select N P X y b hX hd hs hf hb (by rw [ht]; exact hav)
      refine ⟨out, .pooling { P with indices := P.indices.set b ind }, by simp only [Body.forward, eo, Res.bind_ok], _, so, ?_⟩
      intro i hi j hj k hk
      have hi : i < windows s.X px sx := hi
      have hj : j < windows s.Y py sy := hj
      have hk : k < s.Z := hk
      have bx := windows_inside hf.x hi
      have b_y := windows_inside hf.y hj
      obtain ⟨h1, h2, h3, _⟩ := hsel i hi j hj k hk
      have hu : u i j k < s.X := by omega
      have hv : v i j k < s.Y := by omega
      refine ⟨(hy _ hu _ hv k hk).1, ?_⟩
      have eu : u i j k = i * sx + (u i j k - i * sx) := by omega
      have ev : v i j k = j * sy + (v i j k - j * sy) := by omega
      have hn : ∀ a < px, ∀ c < py, |F.val (y (i * sx + a) (j * sy + c) k) - x (i * sx + a) (j * sy + c) k| ≤ e (i * sx + a) (j * sy + c) k :=
        fun a ha c hc => (hy _ (by omega) _ (by omega) k hk).2
      rw [ht] at h3
      cases t with
      | avg => exact absurd rfl hav
      | max =>
        have h3 := h3 ⟨F.Fin, Floating.weakOn_lt, fun i hi j hj k hk => (hy i hi j hj k hk).1⟩
        simp only [NetLayer.eval, err, spread, rounding, add_zero]
        have := sup_near (y := fun i j k => F.val (y i j k)) hn (a := u i j k - i * sx) (c := v i j k - j * sy) (by omega) (by omega) (by
          intro a ha c hc
          have h4 := h3 a ha c hc
          rw [← eu, ← ev]
          have h4 : ¬ N.lt (y (u i j k) (v i j k) k) (y (i * sx + a) (j * sy + c) k) = true := by simpa [Pooling.better] using h4
          rw [F.lt _ _ (hy _ hu _ hv k hk).1 (hy _ (by omega) _ (by omega) k hk).1, not_lt] at h4
          exact h4)
        simpa only [← eu, ← ev] using this
      | min =>
        have h3 := h3 ⟨F.Fin, Floating.weakOn_gt, fun i hi j hj k hk => (hy i hi j hj k hk).1⟩
        simp only [NetLayer.eval, err, spread, rounding, add_zero]
        have := inf_near (y := fun i j k => F.val (y i j k)) hn (a := u i j k - i * sx) (c := v i j k - j * sy) (by omega) (by omega) (by
          intro a ha c hc
          have h4 := h3 a ha c hc
          rw [← eu, ← ev]
          have h4 : ¬ N.lt (y (i * sx + a) (j * sy + c) k) (y (u i j k) (v i j k) k) = true := by simpa [Pooling.better] using h4
          rw [F.lt _ _ (hy _ (by omega) _ (by omega) k hk).1 (hy _ hu _ hv k hk).1, not_lt] at h4
          exact h4)
        simpa only [← eu, ← ev] using this

end
end Cnn
