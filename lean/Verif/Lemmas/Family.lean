import Verif.Lemmas.MapRun
import Mathlib.Order.Filter.Ultrafilter.Defs
import Mathlib.Topology.Algebra.Order.Field
/-!
# The limit of arithmetics of growing precision

Sequences of numbers, one in each arithmetic, that have a limit. Equal limits are told apart by an ultrafilter.
-/
set_option linter.unusedSectionVars false
namespace Cnn
open Filter Topology

/-- Arithmetics that get sharper along an ultrafilter. -/
structure Family where
  arith : ℕ → Arith
  δ : ℕ → ℝ
  U : Ultrafilter ℕ
  sharp : ∀ k, (arith k).Sharp (δ k)
  pos : ∀ k, 0 < δ k
  lim : Tendsto δ U (𝓝 0)
  draw : ℕ → ℕ → ℝ
  draws : ∀ k i n, (arith k).Near (δ k) ((arith k).env.draws i n) (draw i n)

namespace Family
variable (F : Family)

/-- The numbers converge. -/
def Conv (a : ∀ k, (F.arith k).carrier) (x : ℝ) : Prop :=
  (∀ᶠ k in F.U, (F.arith k).float.Fin (a k)) ∧ Tendsto (fun k => (F.arith k).float.val (a k)) F.U (𝓝 x)

variable {F}

theorem Conv.unique {a : ∀ k, (F.arith k).carrier} {x y : ℝ} (h : F.Conv a x) (h' : F.Conv a y) : x = y := tendsto_nhds_unique h.2 h'.2

theorem large (x : ℝ) : ∀ᶠ k in F.U, x ≤ 1 / F.δ k := by
  have h : ∀ᶠ k in F.U, F.δ k < 1 / (|x| + 1) := F.lim.eventually_lt_const (by positivity)
  filter_upwards [h] with k hk
  rw [le_div_iff₀ (F.pos k)]
  rw [lt_div_iff₀ (by positivity)] at hk
  nlinarith [le_abs_self x, F.pos k, abs_nonneg x]

/-- What a rounded operation gives converges. -/
theorem conv_of {a : ∀ k, (F.arith k).carrier} {g : ℕ → ℝ} {x : ℝ} (hg : Tendsto g F.U (𝓝 x))
    (h : ∀ᶠ k in F.U, |g k| ≤ 1 / F.δ k → (F.arith k).float.Fin (a k) ∧ |(F.arith k).float.val (a k) - g k| ≤ F.δ k * (1 + |g k|)) :
    F.Conv a x := by
  have hb : ∀ᶠ k in F.U, |g k| ≤ |x| + 1 := by
    filter_upwards [hg.abs.eventually_lt_const (show |x| < |x| + 1 by linarith)] with k hk using hk.le
  have h' : ∀ᶠ k in F.U, (F.arith k).float.Fin (a k) ∧ |(F.arith k).float.val (a k) - g k| ≤ F.δ k * (1 + |g k|) := by
    filter_upwards [h, hb, large (|x| + 1)] with k h1 h2 h3 using h1 (h2.trans h3)
  refine ⟨h'.mono fun k hk => hk.1, ?_⟩
  have he : Tendsto (fun k => F.δ k * (1 + |g k|)) F.U (𝓝 0) := by
    have := F.lim.mul (tendsto_const_nhds.add hg.abs : Tendsto (fun k => 1 + |g k|) F.U (𝓝 (1 + |x|)))
    simpa using this
  have hd : Tendsto (fun k => (F.arith k).float.val (a k) - g k) F.U (𝓝 0) :=
    squeeze_zero_norm' (by filter_upwards [h'] with k hk using by simpa using hk.2) he
  simpa using hd.add hg

theorem conv_zero : F.Conv (fun _ => 0) 0 :=
  ⟨.of_forall fun k => (F.arith k).float.zero.1, by simp only [fun k => (F.arith k).float.zero.2]; exact tendsto_const_nhds⟩

theorem conv_one : F.Conv (fun _ => 1) 1 :=
  ⟨.of_forall fun k => (F.arith k).float.one.1, by simp only [fun k => (F.arith k).float.one.2]; exact tendsto_const_nhds⟩

theorem Conv.neg {a : ∀ k, (F.arith k).carrier} {x : ℝ} (h : F.Conv a x) : F.Conv (fun k => -a k) (-x) :=
  ⟨h.1.mono fun k hk => ((F.arith k).float.neg _ hk).1,
    h.2.neg.congr' (by filter_upwards [h.1] with k hk using ((F.arith k).float.neg _ hk).2.symm)⟩

theorem mul_le {δ u y : ℝ} (hδ : 0 < δ) (h : u ≤ δ) : u * |y| ≤ δ * (1 + |y|) := by nlinarith [abs_nonneg y]

theorem mul_add_le {δ u η y : ℝ} (h : u ≤ δ) (h' : η ≤ δ) : u * |y| + η ≤ δ * (1 + |y|) := by nlinarith [abs_nonneg y]

theorem Conv.add {a b : ∀ k, (F.arith k).carrier} {x y : ℝ} (h : F.Conv a x) (h' : F.Conv b y) : F.Conv (fun k => a k + b k) (x + y) := by
  refine conv_of (h.2.add h'.2) ?_
  filter_upwards [h.1, h'.1] with k h1 h2 hk
  obtain ⟨h3, h4⟩ := (F.arith k).float.add _ _ h1 h2 (hk.trans (F.sharp k).Ω)
  exact ⟨h3, h4.trans (mul_le (F.pos k) (F.sharp k).u)⟩

theorem Conv.sub {a b : ∀ k, (F.arith k).carrier} {x y : ℝ} (h : F.Conv a x) (h' : F.Conv b y) : F.Conv (fun k => a k - b k) (x - y) := by
  refine conv_of (h.2.sub h'.2) ?_
  filter_upwards [h.1, h'.1] with k h1 h2 hk
  obtain ⟨h3, h4⟩ := (F.arith k).float.sub _ _ h1 h2 (hk.trans (F.sharp k).Ω)
  exact ⟨h3, h4.trans (mul_le (F.pos k) (F.sharp k).u)⟩

theorem Conv.mul {a b : ∀ k, (F.arith k).carrier} {x y : ℝ} (h : F.Conv a x) (h' : F.Conv b y) : F.Conv (fun k => a k * b k) (x * y) := by
  refine conv_of (h.2.mul h'.2) ?_
  filter_upwards [h.1, h'.1] with k h1 h2 hk
  obtain ⟨h3, h4⟩ := (F.arith k).float.mul _ _ h1 h2 (hk.trans (F.sharp k).Ω)
  exact ⟨h3, h4.trans (mul_add_le (F.sharp k).u (F.sharp k).η)⟩

theorem Conv.div {a b : ∀ k, (F.arith k).carrier} {x y : ℝ} (h : F.Conv a x) (h' : F.Conv b y) (hy : y ≠ 0) :
    F.Conv (fun k => a k / b k) (x / y) := by
  refine conv_of (h.2.div h'.2 hy) ?_
  filter_upwards [h.1, h'.1, h'.2.eventually_ne hy] with k h1 h2 h0 hk
  obtain ⟨h3, h4⟩ := (F.arith k).float.div _ _ h1 h2 h0 (hk.trans (F.sharp k).Ω)
  exact ⟨h3, h4.trans (mul_add_le (F.sharp k).u (F.sharp k).η)⟩

theorem Conv.exp {a : ∀ k, (F.arith k).carrier} {x : ℝ} (h : F.Conv a x) : F.Conv (fun k => (F.arith k).env.num.exp (a k)) (Real.exp x) := by
  refine conv_of ((Real.continuous_exp.tendsto x).comp h.2) ?_
  filter_upwards [h.1] with k h1 hk
  simp only [Function.comp, Real.abs_exp] at hk ⊢
  obtain ⟨h3, h4⟩ := (F.arith k).float.exp _ h1 (hk.trans (F.sharp k).Ω)
  refine ⟨h3, h4.trans ?_⟩
  have := mul_add_le (y := Real.exp ((F.arith k).float.val (a k))) (F.sharp k).v (F.sharp k).η
  rwa [Real.abs_exp] at this

theorem Conv.tanh {a : ∀ k, (F.arith k).carrier} {x : ℝ} (h : F.Conv a x) : F.Conv (fun k => (F.arith k).env.num.tanh (a k)) (Real.tanh x) := by
  have ct : Continuous Real.tanh := by
    have : Real.tanh = fun x => Real.sinh x / Real.cosh x := funext Real.tanh_eq_sinh_div_cosh
    rw [this]
    exact Real.continuous_sinh.div Real.continuous_cosh fun x => (Real.cosh_pos x).ne'
  refine conv_of ((ct.tendsto x).comp h.2) ?_
  filter_upwards [h.1] with k h1 _
  obtain ⟨h3, h4⟩ := (F.arith k).float.tanh _ h1
  exact ⟨h3, h4.trans (mul_add_le (F.sharp k).v (F.sharp k).η)⟩

theorem Conv.sqrt {a : ∀ k, (F.arith k).carrier} {x : ℝ} (h : F.Conv a x) (hx : 0 < x) :
    F.Conv (fun k => (F.arith k).env.num.sqrt (a k)) (Real.sqrt x) := by
  refine conv_of ((Real.continuous_sqrt.tendsto x).comp h.2) ?_
  filter_upwards [h.1, h.2.eventually_const_lt hx] with k h1 h0 _
  obtain ⟨h3, h4⟩ := (F.sharp k).sqrt _ h1 h0
  refine ⟨h3, h4.trans ?_⟩
  simp only [Function.comp, abs_of_nonneg (Real.sqrt_nonneg _)]
  exact le_rfl

theorem Conv.toFloat {a : ∀ k, (F.arith k).carrier} {x : ℝ} (h : F.Conv a x) : F.Conv (fun k => (F.arith k).env.toFloat (a k)) x := by
  refine conv_of h.2 ?_
  filter_upwards [h.1] with k h1 hk
  exact (F.sharp k).toFloat _ h1 hk

theorem conv_ofNat (n : Nat) : F.Conv (fun k => (F.arith k).env.num.ofNat n) n := by
  refine conv_of tendsto_const_nhds (.of_forall fun k hk => ?_)
  rw [Nat.abs_cast] at hk ⊢
  exact (F.sharp k).ofNat n hk

theorem conv_slopeF : F.Conv (fun k => (F.arith k).env.num.slopeF) (13421773 / 2 ^ 27) :=
  ⟨.of_forall fun k => (F.arith k).float.slope.1, by simp only [fun k => (F.arith k).float.slope.2]; exact tendsto_const_nhds⟩

theorem conv_near {a : ∀ k, (F.arith k).carrier} {x : ℝ} (h : ∀ k, (F.arith k).Near (F.δ k) (a k) x) : F.Conv a x := by
  refine conv_of tendsto_const_nhds (.of_forall fun k _ => ⟨(h k).1, (h k).2.trans ?_⟩)
  nlinarith [abs_nonneg x, F.pos k]

theorem conv_slopeD : F.Conv (fun k => (F.arith k).env.num.slopeD) (3602879701896397 / 2 ^ 55) := conv_near fun k => (F.sharp k).slope

variable (F)

/-- The convergent sequences. -/
def Lim : Type := {a : ∀ k, (F.arith k).carrier // ∃ x, F.Conv a x}

variable {F}

namespace Lim

noncomputable def val (a : F.Lim) : ℝ := a.2.choose

theorem conv (a : F.Lim) : F.Conv a.1 a.val := a.2.choose_spec

def mk {a : ∀ k, (F.arith k).carrier} {x : ℝ} (h : F.Conv a x) : F.Lim := ⟨a, x, h⟩

theorem val_mk {a : ∀ k, (F.arith k).carrier} {x : ℝ} (h : F.Conv a x) : (mk h).val = x := (mk h).conv.unique h

/-- The number of arithmetic `k`. -/
def at' (k : Nat) (a : F.Lim) : (F.arith k).carrier := a.1 k

noncomputable instance : Zero F.Lim := ⟨mk conv_zero⟩
noncomputable instance : One F.Lim := ⟨mk conv_one⟩
noncomputable instance : Neg F.Lim := ⟨fun a => mk a.conv.neg⟩
noncomputable instance : Add F.Lim := ⟨fun a b => mk (a.conv.add b.conv)⟩
noncomputable instance : Sub F.Lim := ⟨fun a b => mk (a.conv.sub b.conv)⟩
noncomputable instance : Mul F.Lim := ⟨fun a b => mk (a.conv.mul b.conv)⟩
open Classical in
noncomputable instance : Div F.Lim := ⟨fun a b => if h : b.val ≠ 0 then mk (a.conv.div b.conv h) else 0⟩

open Classical in
noncomputable def num (F : Family) : Num F.Lim where
  exp a := mk a.conv.exp
  tanh a := mk a.conv.tanh
  sqrt a := if h : 0 < a.val then mk (a.conv.sqrt h) else 0
  log2 _ := 0
  ofNat n := mk (conv_ofNat n)
  lt a b := decide (∀ᶠ k in F.U, (F.arith k).env.num.lt (a.1 k) (b.1 k) = true)
  slopeF := mk conv_slopeF
  slopeD := mk conv_slopeD
  eps := 0

noncomputable def env (F : Family) : Env F.Lim where
  num := num F
  draws i n := mk (conv_near fun k => F.draws k i n)
  toFloat a := mk a.conv.toFloat
  order := .dimsFirst

open Classical in
theorem lt_iff (a b : F.Lim) : (env F).num.lt a b = true ↔ ∀ᶠ k in F.U, (F.arith k).env.num.lt (a.1 k) (b.1 k) = true := decide_eq_true_iff

theorem not_lt_iff (a b : F.Lim) : (env F).num.lt a b = false ↔ ∀ᶠ k in F.U, (F.arith k).env.num.lt (a.1 k) (b.1 k) = false := by
  rw [← Bool.not_eq_true, lt_iff, ← Ultrafilter.eventually_not]
  simp only [Bool.not_eq_true]

theorem lt_val (k : Nat) {a b : (F.arith k).carrier} (ha : (F.arith k).float.Fin a) (hb : (F.arith k).float.Fin b) :
    (F.arith k).env.num.lt a b = true ↔ (F.arith k).float.val a < (F.arith k).float.val b := (F.arith k).float.lt a b ha hb

theorem not_lt_val (k : Nat) {a b : (F.arith k).carrier} (ha : (F.arith k).float.Fin a) (hb : (F.arith k).float.Fin b) :
    (F.arith k).env.num.lt a b = false ↔ (F.arith k).float.val b ≤ (F.arith k).float.val a := by
  rw [← Bool.not_eq_true, lt_val k ha hb, not_lt]

theorem ideal (F : Family) : Ideal (env F) (val (F := F)) where
  zero := val_mk conv_zero
  one := val_mk conv_one
  neg a := val_mk a.conv.neg
  add a b := val_mk (a.conv.add b.conv)
  sub a b := val_mk (a.conv.sub b.conv)
  mul a b := val_mk (a.conv.mul b.conv)
  div a b h := by
    show val (dite _ _ _) = _
    rw [dif_pos h]
    exact val_mk (a.conv.div b.conv h)
  ofNat n := val_mk (conv_ofNat n)
  slopeF := val_mk conv_slopeF
  slopeD := val_mk conv_slopeD
  exp a := val_mk a.conv.exp
  tanh a := val_mk a.conv.tanh
  sqrt a h := by
    show val (dite _ _ _) = _
    rw [dif_pos h]
    exact val_mk (a.conv.sqrt h)
  toFloat a := val_mk a.conv.toFloat
  less a b h := by
    rw [lt_iff]
    filter_upwards [a.conv.1, b.conv.1, a.conv.2.eventually_lt b.conv.2 h] with k h1 h2 h3
    exact (lt_val k h1 h2).2 h3
  notLess a b h := by
    rw [not_lt_iff]
    filter_upwards [a.conv.1, b.conv.1, b.conv.2.eventually_lt a.conv.2 h] with k h1 h2 h3
    exact (not_lt_val k h1 h2).2 h3.le
  irrefl a := by
    rw [not_lt_iff]
    filter_upwards [a.conv.1] with k h1
    exact (not_lt_val k h1 h1).2 le_rfl
  trans a b c h h' := by
    rw [lt_iff] at h h' ⊢
    filter_upwards [a.conv.1, b.conv.1, c.conv.1, h, h'] with k h1 h2 h3 h4 h5
    exact (lt_val k h1 h3).2 (((lt_val k h1 h2).1 h4).trans ((lt_val k h2 h3).1 h5))
  weak a b c h h' := by
    rw [not_lt_iff] at h
    rw [lt_iff] at h' ⊢
    filter_upwards [a.conv.1, b.conv.1, c.conv.1, h, h'] with k h1 h2 h3 h4 h5
    exact (lt_val k h2 h3).2 (((not_lt_val k h1 h2).1 h4).trans_lt ((lt_val k h1 h3).1 h5))
  float0 a h := by
    rw [not_lt_iff] at h ⊢
    filter_upwards [a.conv.1, a.conv.toFloat.1, h] with k h1 h2 h3
    have h0 := (F.arith k).float.zero
    refine (not_lt_val k h0.1 h2).2 ?_
    have := (not_lt_val k h0.1 h1).1 h3
    show (F.arith k).float.val _ ≤ (F.arith k).float.val 0
    rw [h0.2]
    exact (F.sharp k).float0 _ h1 (this.trans h0.2.le) h2

theorem hom (k : Nat) : Hom (env F) (val (F := F)) (F.arith k).env (at' k) where
  ideal := ideal F
  zero := rfl
  add _ _ := rfl
  mul _ _ := rfl
  one := rfl
  neg _ := rfl
  sub _ _ := rfl
  div a b h := by
    show at' k (dite _ _ _) = _
    rw [dif_pos h]; rfl
  exp _ := rfl
  tanh _ := rfl
  sqrt a h := by
    show at' k (dite _ _ _) = _
    rw [dif_pos h]; rfl
  ofNat _ := rfl
  slopeF := rfl
  slopeD := rfl
  toFloat _ := rfl
  draws _ _ := rfl
  order := (F.sharp k).order

theorem alike (a b : F.Lim) : ∀ᶠ k in F.U, Alike (env F) (F.arith k).env (at' k) a b := by
  unfold Alike
  cases h : (env F).num.lt a b with
  | true => exact (lt_iff a b).1 h
  | false => exact (not_lt_iff a b).1 h

end Lim
end Family
end Cnn
