import Verif.Spec.Limit
import Verif.Lemmas.Double
/-!
# Arithmetics of given precision (C87)

binary64, and numbers with `k` binary digits after the point.
-/
namespace Cnn

theorem roundEven_nonpos {y : ℝ} (h : y ≤ 0) : roundEven y ≤ 0 := by
  have hn := roundEven_near y
  have : (roundEven y : ℝ) < 1 := by
    rw [abs_le] at hn
    linarith
  have : roundEven y < 1 := by exact_mod_cast this
  omega

namespace Double

/-- The program in binary64, with the random numbers `d`. -/
noncomputable def machine (d : Nat → Nat → Double) : Arith where
  carrier := Double
  zero := inferInstance
  one := inferInstance
  add := inferInstance
  sub := inferInstance
  mul := inferInstance
  div := inferInstance
  neg := inferInstance
  env := ⟨arith, d, toFloat, .dimsFirst⟩
  prec := precision
  float := floating

/-- The precision is that of `float`, to which the records are rounded. -/
theorem machine_sharp (d : Nat → Nat → Double) : (machine d).Sharp (1 / 2 ^ 23) where
  u := by
    show (2 : ℝ) ^ (-53 : ℤ) ≤ _
    exact (zpow_le_zpow_right₀ (by norm_num) (show (-53 : ℤ) ≤ -23 by norm_num)).trans (by norm_num)
  v := by
    show (2 : ℝ) ^ (-53 : ℤ) ≤ _
    exact (zpow_le_zpow_right₀ (by norm_num) (show (-53 : ℤ) ≤ -23 by norm_num)).trans (by norm_num)
  η := by
    show (2 : ℝ) ^ (-1075 : ℤ) ≤ _
    exact (zpow_le_zpow_right₀ (by norm_num) (show (-1075 : ℤ) ≤ -23 by norm_num)).trans (by norm_num)
  Ω := by
    show _ ≤ (2 : ℝ) ^ (1023 : ℤ)
    refine le_trans ?_ (zpow_le_zpow_right₀ (by norm_num) (show (23 : ℤ) ≤ 1023 by norm_num))
    norm_num
  ofNat n hn := by
    have hn' : n ≤ 2 ^ 23 := by
      have e' : (1 : ℝ) / (1 / 2 ^ 23) = ((2 ^ 23 : ℕ) : ℝ) := by norm_num
      rw [e'] at hn
      exact_mod_cast hn
    obtain ⟨h1, h2⟩ := floating.ofNat n (by omega)
    refine ⟨h1, ?_⟩
    show |floating.val (arith.ofNat n) - n| ≤ _
    rw [h2, sub_self, abs_zero]
    positivity
  slope := by
    refine ⟨⟨3602879701896397 / 2 ^ 55, rfl, ?_⟩, ?_⟩
    · have := has_of (m := 3602879701896397) (e := -55) (by norm_num) (by norm_num) (by norm_num)
      have e : ((3602879701896397 : ℤ) : ℝ) * 2 ^ (-55 : ℤ) = 3602879701896397 / 2 ^ 55 := by
        rw [zpow_neg]; push_cast; exact (div_eq_mul_inv _ _).symm
      rwa [e] at this
    · show |(3602879701896397 / 2 ^ 55 : ℝ) - _| ≤ _
      rw [sub_self, abs_zero]
      positivity
  sqrt := by
    rintro _ ⟨x, rfl, hx⟩ (h : 0 < x)
    have e : arith.sqrt (num x) = of (Real.sqrt x) := if_neg (by linarith)
    have hs : |Real.sqrt x| ≤ 2 ^ (1023 : ℤ) := by
      rw [abs_of_nonneg (Real.sqrt_nonneg x), Real.sqrt_le_left (two_zpow_pos _).le]
      have h1 := hx.2
      rw [abs_of_pos h] at h1
      refine h1.le.trans ?_
      rw [← zpow_natCast, ← zpow_mul]
      exact zpow_le_zpow_right₀ (by norm_num) (by decide)
    show Fin (arith.sqrt (num x)) ∧ |val (arith.sqrt (num x)) - Real.sqrt x| ≤ _ * (1 + Real.sqrt x)
    rw [e]
    refine ⟨of_fin hs, (of_near hs).trans ?_⟩
    have h1 : (2 : ℝ) ^ (-53 : ℤ) ≤ 1 / 2 ^ 23 := (zpow_le_zpow_right₀ (by norm_num) (show (-53 : ℤ) ≤ -23 by norm_num)).trans (by norm_num)
    have h2 : (2 : ℝ) ^ (-1075 : ℤ) ≤ 1 / 2 ^ 23 := (zpow_le_zpow_right₀ (by norm_num) (show (-1075 : ℤ) ≤ -23 by norm_num)).trans (by norm_num)
    rw [abs_of_nonneg (Real.sqrt_nonneg x)]
    have := mul_le_mul_of_nonneg_right h1 (Real.sqrt_nonneg x)
    linarith
  toFloat := by
    rintro _ ⟨x, rfl, hx⟩ (h : |x| ≤ _)
    have hr := Format.float.round_rel x
    have h1 := abs_add_le (Format.float.round x - x) x
    rw [sub_add_cancel] at h1
    have h2 : (2 : ℝ) ^ (-Format.float.bits) ≤ 1 / 2 ^ 23 :=
      (zpow_le_zpow_right₀ (by norm_num) (show -Format.float.bits ≤ -23 by decide)).trans (by norm_num)
    have h3 : (2 : ℝ) ^ (Format.float.low - 1) ≤ 1 / 2 ^ 23 :=
      (zpow_le_zpow_right₀ (by norm_num) (show Format.float.low - 1 ≤ -23 by decide)).trans (by norm_num)
    have h4 := mul_le_mul_of_nonneg_right h2 (abs_nonneg x)
    have h5 : |Format.float.round x - x| ≤ 1 / 2 ^ 23 * (1 + |x|) := by linarith
    have h9 : |Format.float.round x| ≤ 2 ^ (25 : ℤ) := by
      have e : (2 : ℝ) ^ (25 : ℤ) = 2 ^ 25 := by norm_cast
      have e' : (1 : ℝ) / (1 / 2 ^ 23) = 2 ^ 23 := by norm_num
      rw [e'] at h
      rw [e]
      nlinarith
    have hlt : |Format.float.round x| < 2 ^ (128 : ℤ) := lt_of_le_of_lt h9 (zpow_lt_zpow_right₀ (by norm_num) (by norm_num))
    have e : toFloat (num x) = num (Format.float.round x) := if_pos hlt
    obtain ⟨m, k, g1, g2, g3⟩ := Format.float.round_has (by decide) x
    show Fin (toFloat (num x)) ∧ |val (toFloat (num x)) - x| ≤ _
    rw [e]
    refine ⟨⟨_, rfl, ⟨m, k, g1.trans_le (zpow_le_zpow_right₀ (by norm_num) (by decide)), le_trans (by decide) g2, g3⟩, ?_⟩, h5⟩
    exact hlt.trans_le (zpow_le_zpow_right₀ (by norm_num) (by decide))
  float0 := by
    rintro _ ⟨x, rfl, hx⟩ (h : x ≤ 0) (hf : Fin (toFloat (num x)))
    show val (toFloat (num x)) ≤ 0
    by_cases hlt : |Format.float.round x| < 2 ^ Format.float.high
    · rw [show toFloat (num x) = num (Format.float.round x) from if_pos hlt]
      show Format.float.round x ≤ 0
      unfold Format.round
      refine mul_nonpos_of_nonpos_of_nonneg ?_ (two_zpow_pos _).le
      exact_mod_cast roundEven_nonpos (div_nonpos_of_nonpos_of_nonneg h (two_zpow_pos _).le)
    · rw [show toFloat (num x) = inf (decide (x < 0)) from if_neg hlt] at hf
      obtain ⟨y, hy, _⟩ := hf
      cases hy
  order := rfl

end Double

/-! ## Fixed point -/

/-- Multiples of `1 / 2 ^ k` (real numbers, of which only the multiples are used). -/
structure Fixed (k : Nat) where
  real : ℝ

namespace Fixed
variable {k : Nat}

/-- The nearest multiple. -/
noncomputable def of (k : Nat) (x : ℝ) : Fixed k := ⟨roundEven (x * 2 ^ k) / 2 ^ k⟩

noncomputable instance : Zero (Fixed k) := ⟨⟨0⟩⟩
noncomputable instance : One (Fixed k) := ⟨⟨1⟩⟩
noncomputable instance : Neg (Fixed k) := ⟨fun a => ⟨-a.real⟩⟩
noncomputable instance : Add (Fixed k) := ⟨fun a b => ⟨a.real + b.real⟩⟩
noncomputable instance : Sub (Fixed k) := ⟨fun a b => ⟨a.real - b.real⟩⟩
noncomputable instance : Mul (Fixed k) := ⟨fun a b => of k (a.real * b.real)⟩
noncomputable instance : Div (Fixed k) := ⟨fun a b => of k (a.real / b.real)⟩

noncomputable def arith (k : Nat) : Num (Fixed k) where
  exp a := of k (Real.exp a.real)
  tanh a := of k (Real.tanh a.real)
  sqrt a := of k (Real.sqrt a.real)
  log2 a := of k (Real.logb 2 a.real)
  ofNat n := ⟨n⟩
  lt a b := decide (a.real < b.real)
  slopeF := ⟨13421773 / 2 ^ 27⟩
  slopeD := of k (3602879701896397 / 2 ^ 55)
  eps := of k (10995116 / 2 ^ 40)

noncomputable def precision (k : Nat) : Precision := ⟨0, 0, 1 / 2 ^ k, 2 ^ k⟩

def Fin (a : Fixed k) : Prop := ∃ n : ℤ, a.real = n / 2 ^ k

theorem of_fin (x : ℝ) : (of k x).Fin := ⟨_, rfl⟩

theorem of_near (x : ℝ) : |(of k x).real - x| ≤ 1 / 2 ^ k := by
  have h := roundEven_near (x * 2 ^ k)
  have hp : (0 : ℝ) < 2 ^ k := by positivity
  have e : (of k x).real - x = (roundEven (x * 2 ^ k) - x * 2 ^ k) / 2 ^ k := by
    show (roundEven (x * 2 ^ k) : ℝ) / 2 ^ k - x = _
    field_simp
  rw [e, abs_div, abs_of_pos hp]
  exact div_le_div_of_nonneg_right (h.trans (by norm_num)) hp.le

noncomputable def floating (hk : 27 ≤ k) : Floating (arith k) (precision k) where
  Fin := Fin
  val := real
  zero := ⟨⟨0, by show (0 : ℝ) = _; simp⟩, rfl⟩
  one := ⟨⟨2 ^ k, by show (1 : ℝ) = _; field_simp; push_cast; rfl⟩, rfl⟩
  neg := by
    rintro a ⟨n, h⟩
    refine ⟨⟨-n, ?_⟩, rfl⟩
    show -a.real = _
    rw [h]; push_cast; ring
  add := by
    rintro a b ⟨n, h⟩ ⟨m, h'⟩ _
    refine ⟨⟨n + m, ?_⟩, ?_⟩
    · show a.real + b.real = _
      rw [h, h']; push_cast; ring
    · show |a.real + b.real - (a.real + b.real)| ≤ 0 * _
      simp
  sub := by
    rintro a b ⟨n, h⟩ ⟨m, h'⟩ _
    refine ⟨⟨n - m, ?_⟩, ?_⟩
    · show a.real - b.real = _
      rw [h, h']; push_cast; ring
    · show |a.real - b.real - (a.real - b.real)| ≤ 0 * _
      simp
  mul a b _ _ _ := ⟨of_fin _, (of_near _).trans (by simp [precision])⟩
  div a b _ _ _ _ := ⟨of_fin _, (of_near _).trans (by simp [precision])⟩
  lt a b _ _ := decide_eq_true_iff
  ofNat n _ := by
    refine ⟨⟨n * 2 ^ k, ?_⟩, rfl⟩
    show (n : ℝ) = _
    push_cast
    field_simp
  slope := by
    refine ⟨⟨13421773 * 2 ^ (k - 27), ?_⟩, rfl⟩
    obtain ⟨j, rfl⟩ := Nat.exists_eq_add_of_le hk
    show (13421773 / 2 ^ 27 : ℝ) = _
    rw [Nat.add_sub_cancel_left]
    push_cast
    rw [pow_add]
    field_simp
  exp a _ _ := ⟨of_fin _, (of_near _).trans (by simp [precision])⟩
  tanh a _ := ⟨of_fin _, (of_near _).trans (by simp [precision])⟩

/-- The program in fixed-point arithmetic. -/
noncomputable def machine (hk : 27 ≤ k) (d : Nat → Nat → Fixed k) : Arith where
  carrier := Fixed k
  zero := inferInstance
  one := inferInstance
  add := inferInstance
  sub := inferInstance
  mul := inferInstance
  div := inferInstance
  neg := inferInstance
  env := ⟨arith k, d, id, .dimsFirst⟩
  prec := precision k
  float := floating hk

theorem machine_sharp (hk : 27 ≤ k) (d : Nat → Nat → Fixed k) : (machine hk d).Sharp (1 / 2 ^ k) where
  u := by show (0 : ℝ) ≤ _; positivity
  v := by show (0 : ℝ) ≤ _; positivity
  η := le_refl _
  Ω := by show _ ≤ (2 : ℝ) ^ k; simp
  ofNat n hn := by
    refine ⟨⟨n * 2 ^ k, ?_⟩, ?_⟩
    · show (n : ℝ) = _
      push_cast
      field_simp
    · show |(n : ℝ) - n| ≤ _
      rw [sub_self, abs_zero]
      positivity
  slope := ⟨of_fin _, of_near _⟩
  sqrt a _ _ := by
    refine ⟨of_fin _, (of_near _).trans ?_⟩
    have := mul_nonneg (show (0 : ℝ) ≤ 1 / 2 ^ k by positivity) (Real.sqrt_nonneg a.real)
    show _ ≤ 1 / 2 ^ k * (1 + Real.sqrt a.real)
    linarith
  toFloat a h _ := by
    refine ⟨h, ?_⟩
    show |a.real - a.real| ≤ _
    rw [sub_self, abs_zero]
    positivity
  float0 a _ h _ := h
  order := rfl

end Fixed

/-! ## Less precision -/

theorem Arith.Sharp.mono {A : Arith} {δ δ' : ℝ} (h0 : 0 < δ) (h : A.Sharp δ) (hd : δ ≤ δ') : A.Sharp δ' := by
  have h1 : 1 / δ' ≤ 1 / δ := one_div_le_one_div_of_le h0 hd
  refine ⟨h.u.trans hd, h.v.trans hd, h.η.trans hd, h1.trans h.Ω, fun n hn => ?_, ⟨h.slope.1, h.slope.2.trans hd⟩, fun a ha hp => ?_,
    fun a ha hp => ?_, h.float0, h.order⟩
  · obtain ⟨k1, k2⟩ := h.ofNat n (hn.trans h1)
    exact ⟨k1, k2.trans (mul_le_mul_of_nonneg_right hd (by positivity))⟩
  · obtain ⟨k1, k2⟩ := h.sqrt a ha hp
    exact ⟨k1, k2.trans (mul_le_mul_of_nonneg_right hd (by positivity))⟩
  · obtain ⟨k1, k2⟩ := h.toFloat a ha (hp.trans h1)
    exact ⟨k1, k2.trans (mul_le_mul_of_nonneg_right hd (by positivity))⟩

/-! ## Objects with rounded numbers -/

theorem list_rel_map {γ δ : Type} {S : γ → δ → Prop} {ψ : δ → γ} (h : ∀ x, S (ψ x) x) (l : List δ) : List.Forall₂ S (l.map ψ) l := by
  induction l with
  | nil => exact .nil
  | cons a l ih => exact .cons (h a) ih

section
variable {α β : Type} {R : α → β → Prop} {φ : β → α} (h : ∀ x, R (φ x) x)
include h

theorem Matrix.rel_map (M : Matrix β) : (M.map φ).Rel R M := ⟨rfl, list_rel_map h _⟩

theorem Body.rel_map (b : Body β) : (b.map φ).Rel R b := by
  cases b with
  | kernel K => exact .kernel ⟨rfl, rfl, rfl, Matrix.rel_map h _, Matrix.rel_map h _, list_rel_map (Matrix.rel_map h) _, list_rel_map (Matrix.rel_map h) _⟩
  | pooling P => exact .pooling P
  | connected L => exact .connected ⟨Matrix.rel_map h _, Matrix.rel_map h _, rfl, rfl, list_rel_map (Matrix.rel_map h) _, list_rel_map (Matrix.rel_map h) _⟩
  | activation A => exact .activation A
  | softmax S => exact .softmax S

theorem Model.rel_map (M : Model β) : (M.map φ).Rel R M :=
  ⟨list_rel_map (fun l => ⟨rfl, Body.rel_map h l.body⟩) _, rfl, rfl, rfl, rfl, rfl, rfl⟩

theorem Hyper.rel_map (p : Hyper β) : (p.map φ).Rel R p := ⟨h _, rfl, rfl, rfl⟩

theorem epochs_rel_map (e : List (List (List Nat) × List (Sample β))) :
    List.Forall₂ (EpochRel R) (e.map fun e => (e.1, e.2.map (Sample.map φ))) e :=
  list_rel_map (fun _ => ⟨rfl, list_rel_map (fun _ => ⟨Matrix.rel_map h _, rfl⟩) _⟩) _

end
end Cnn
