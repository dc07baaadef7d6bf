import Verif.Model.Display
import Verif.Props.Reductions
import Verif.Lemmas.Kernel
import Verif.Lemmas.Stream
import Mathlib.Algebra.Order.Floor.Ring
import Mathlib.Tactic.Linarith
import Mathlib.Tactic.Positivity
/-!
# C63, C64: printed images and the progress bar
-/
namespace Cnn

/-- What is used of a rounding to floating point: it keeps the order, 0 and 1. -/
structure Rounding (r : ℚ → ℚ) : Prop where
  mono : ∀ a b, a ≤ b → r a ≤ r b
  zero : r 0 = 0
  one : r 1 = 1

theorem Rounding.id : Rounding (fun q => q) := ⟨fun _ _ h => h, rfl, rfl⟩

theorem Rounding.nonneg {r : ℚ → ℚ} (h : Rounding r) {q : ℚ} (hq : 0 ≤ q) : 0 ≤ r q := by
  rw [← h.zero]; exact h.mono _ _ hq

theorem Rounding.le_one {r : ℚ → ℚ} (h : Rounding r) {q : ℚ} (hq : q ≤ 1) : r q ≤ 1 := by
  rw [← h.one]; exact h.mono _ _ hq

theorem toUnsigned_ok {b : Nat} {q : ℚ} (h0 : 0 ≤ q) (h1 : q < b) :
    ∃ c, toUnsigned b q = .ok c ∧ c < b ∧ (c : Int) = q.floor := by
  have hf : 0 ≤ q.floor := Int.floor_nonneg.mpr h0
  refine ⟨q.floor.toNat, ?_, ?_, Int.toNat_of_nonneg hf⟩
  · unfold toUnsigned; rw [if_pos ⟨by linarith, h1⟩]
  · have : q.floor < (b : Int) := Int.floor_lt.mpr (by exact_mod_cast h1)
    omega

namespace Image
variable {r32 r64 : ℚ → ℚ} {X Y Z : Nat}

/-- The number that is truncated to a code. -/
def shade (r32 r64 : ℚ → ℚ) (max min val : ℚ) : ℚ :=
  Min.min (r64 (r64 (r32 (max * r32 (1 - r32 (r32 (max - val) / r32 (max - min)))) / max) * 255)) 255

theorem bwCode_spec (h32 : Rounding r32) (h64 : Rounding r64) {max min val : ℚ} (hmax : 0 < max) (h1 : min ≤ val)
    (h2 : val ≤ max) (hr : r32 (max - min) ≠ 0) :
    ∃ c, bwCode r32 r64 max min val = .ok c ∧ c < 256 ∧ (c : Int) = (shade r32 r64 max min val).floor := by
  have hd0 : 0 ≤ r32 (max - val) := h32.nonneg (by linarith)
  have hdr : r32 (max - val) ≤ r32 (max - min) := h32.mono _ _ (by linarith)
  have hrp : 0 < r32 (max - min) := lt_of_le_of_ne (hd0.trans hdr) (Ne.symm hr)
  have hq : r32 (max - val) / r32 (max - min) ≤ 1 := (div_le_one hrp).mpr hdr
  have h3 : 0 ≤ r32 (1 - r32 (r32 (max - val) / r32 (max - min))) := h32.nonneg (by linarith [h32.le_one hq])
  have h4 : 0 ≤ r32 (max * r32 (1 - r32 (r32 (max - val) / r32 (max - min)))) := h32.nonneg (by positivity)
  have h5 : 0 ≤ r64 (r32 (max * r32 (1 - r32 (r32 (max - val) / r32 (max - min)))) / max) := h64.nonneg (by positivity)
  have h6 : 0 ≤ r64 (r64 (r32 (max * r32 (1 - r32 (r32 (max - val) / r32 (max - min)))) / max) * 255) := h64.nonneg (by positivity)
  have h7 : 0 ≤ shade r32 r64 max min val := le_min h6 (by norm_num)
  have h8 : shade r32 r64 max min val < (256 : Nat) := lt_of_le_of_lt (min_le_right _ _) (by norm_num)
  obtain ⟨c, e, hc, hf⟩ := toUnsigned_ok h7 h8
  refine ⟨c, ?_, hc, hf⟩
  unfold bwCode
  simp only [if_neg hr]
  exact e

theorem shade_mono (h32 : Rounding r32) (h64 : Rounding r64) {max min v w : ℚ} (hmax : 0 < max) (h1 : min ≤ v)
    (hvw : v ≤ w) (h2 : w ≤ max) : shade r32 r64 max min v ≤ shade r32 r64 max min w := by
  have hd : r32 (max - w) ≤ r32 (max - v) := h32.mono _ _ (by linarith)
  have hr : 0 ≤ r32 (max - min) := h32.nonneg (by linarith)
  have a1 : r32 (max - w) / r32 (max - min) ≤ r32 (max - v) / r32 (max - min) := div_le_div_of_nonneg_right hd hr
  have a2 := h32.mono _ _ a1
  have a3 := h32.mono _ _ (sub_le_sub_left a2 1)
  have a4 := h32.mono _ _ (mul_le_mul_of_nonneg_left a3 hmax.le)
  have a5 := h64.mono _ _ (div_le_div_of_nonneg_right a4 hmax.le)
  have a6 := h64.mono _ _ (mul_le_mul_of_nonneg_right a5 (by norm_num : (0 : ℚ) ≤ 255))
  exact min_le_min_right _ a6

theorem mapM_shows {β : Type} (n : Nat) (g : Nat → Res β) (c : Nat → β) (h : ∀ i < n, g i = .ok (c i)) :
    (List.range n).mapM g = .ok ((List.range n).map c) := by
  have key : ∀ l : List Nat, (∀ i ∈ l, g i = .ok (c i)) → l.mapM g = .ok (l.map c) := by
    intro l
    induction l with
    | nil => intro _; rfl
    | cons a l ih =>
      intro h
      rw [List.mapM_cons, h a (by simp), Res.bind_ok, ih (fun i hi => h i (List.mem_cons_of_mem _ hi))]
      rfl
  exact key _ (fun i hi => h i (List.mem_range.mp hi))

/-- The matrix printed: a row of codes for every row of the first layer. -/
def rowsOf (X Y : Nat) (code : Nat → Nat → List Nat) : List (List (List Nat)) :=
  (List.range X).map fun x => (List.range Y).map fun y => code x y

/-- `max_val`. -/
theorem maxVal_spec {M : Matrix ℚ} {f : Nat → Nat → Nat → ℚ} (hM : M.Shows X Y Z f) :
    ∃ m, maxVal M = .ok m ∧ 1 ≤ m ∧ (∀ i < X, ∀ j < Y, ∀ k < Z, f i j k ≤ m) ∧
      (m = 1 ∨ ∃ i j k, i < X ∧ j < Y ∧ k < Z ∧ f i j k = m) := by
  obtain ⟨i, j, k, hi, hj, hk, e, _, _, h, _⟩ := C20_max M.expr f hM.expr
  refine ⟨if f i j k < 1 then 1 else f i j k, by unfold maxVal; rw [e]; rfl, ?_, ?_, ?_⟩
  · split
    · exact le_refl _
    · linarith
  · intro a ha b hb c hc
    have := h a ha b hb c hc
    split
    · linarith
    · exact this
  · split
    · exact .inl rfl
    · exact .inr ⟨i, j, k, hi, hj, hk, rfl⟩

/-- C63 as stated: entries between 0 and the maximum that `printImage` uses. -/
def C63_claim : Prop :=
  ∀ (r32 r64 : ℚ → ℚ) (X Y Z : Nat) (M : Matrix ℚ) (f : Nat → Nat → Nat → ℚ), Rounding r32 → Rounding r64 →
    M.Shows X Y Z f → (∀ i < X, ∀ j < Y, ∀ k < Z, 0 ≤ f i j k) →
    ∃ code : Nat → Nat → List Nat, print r32 r64 M = .ok (rowsOf X Y code) ∧
      ∀ i < X, ∀ j < Y, ∀ l : Nat, ∀ c, (code i j)[l]? = some c → c ≤ 255 ∧
        ∀ i' < X, ∀ j' < Y, ∀ c', (code i' j')[l]? = some c' → f i j l ≤ f i' j' l → c ≤ c'

/-- C63 for black-and-white images (any depth other than 3; the first layer is printed), also with negative entries, if the
smallest entry differs from the maximum. Missing: the images excluded by that condition, see `C63_constant`. -/
theorem C63_bw_partial (r32 r64 : ℚ → ℚ) (M : Matrix ℚ) (f : Nat → Nat → Nat → ℚ) (h32 : Rounding r32) (h64 : Rounding r64)
    (hM : M.Shows X Y Z f) (hZ : Z ≠ 3) (m : ℚ) (hm : maxVal M = .ok m)
    (hne : ∃ i j k, i < X ∧ j < Y ∧ k < Z ∧ r32 (m - f i j k) ≠ 0) :
    ∃ code : Nat → Nat → Nat, print r32 r64 M = .ok (rowsOf X Y fun x y => [code x y]) ∧
      ∀ i < X, ∀ j < Y, code i j ≤ 255 ∧ ∀ i' < X, ∀ j' < Y, f i j 0 ≤ f i' j' 0 → code i j ≤ code i' j' := by
  obtain ⟨m', e, h1, hle, _⟩ := maxVal_spec hM
  obtain rfl : m = m' := by rw [hm] at e; exact Res.ok.inj e
  obtain ⟨a, b, c, ha, hb, hc, emin, _, _, hmin, _⟩ := C20_min M.expr f hM.expr
  have g := hM.good
  have hr : r32 (m - f a b c) ≠ 0 := by
    obtain ⟨i, j, k, hi, hj, hk, hn⟩ := hne
    intro h0
    refine hn (le_antisymm ?_ (h32.nonneg (by linarith [hle i hi j hj k hk])))
    rw [← h0]
    exact h32.mono _ _ (by linarith [hmin i hi j hj k hk])
  have key : ∀ x < X, ∀ y < Y, bwCode r32 r64 m (f a b c) (f x y 0) = .ok (shade r32 r64 m (f a b c) (f x y 0)).floor.toNat ∧
      (shade r32 r64 m (f a b c) (f x y 0)).floor.toNat < 256 := by
    intro x hx y hy
    obtain ⟨k, ek, hk, hf⟩ := bwCode_spec h32 h64 (by linarith) (hmin x hx y hy 0 g.z) (hle x hx y hy 0 g.z) hr
    rw [← hf]; exact ⟨ek, hk⟩
  refine ⟨fun x y => (shade r32 r64 m (f a b c) (f x y 0)).floor.toNat, ?_, ?_⟩
  · unfold print
    have hz : ¬ M.dim.z = 3 := by rw [hM.dim]; show ¬ ((Z : Int) = 3); omega
    rw [hm, Res.bind_ok, if_neg hz]
    have : printBW r32 r64 M m = .ok ((List.range X).map fun x => (List.range Y).map fun y =>
        (shade r32 r64 m (f a b c) (f x y 0)).floor.toNat) := by
      unfold printBW
      rw [emin, Res.bind_ok]
      simp only [hM.dim, Int.toNat_natCast]
      refine mapM_shows _ _ _ ?_
      intro x hx
      refine mapM_shows _ _ _ ?_
      intro y hy
      have er : M.read ⟨(x : Int), (y : Int), 0⟩ = .ok (f x y 0) := hM.entry x hx y hy 0 g.z
      rw [er, Res.bind_ok]
      exact (key x hx y hy).1
    rw [this, Res.bind_ok]
    simp [rowsOf]
  · intro i hi j hj
    refine ⟨by have := (key i hi j hj).2; simp only; omega, ?_⟩
    intro i' hi' j' hj' hff
    exact Int.toNat_le_toNat (Int.floor_le_floor (shade_mono h32 h64 (by linarith) (hmin i hi j hj 0 g.z) hff (hle i' hi' j' hj' 0 g.z)))

/-- C63 for colour images (three layers) without negative entries. -/
theorem C63_colour (r32 r64 : ℚ → ℚ) (M : Matrix ℚ) (f : Nat → Nat → Nat → ℚ) (h64 : Rounding r64)
    (hM : M.Shows X Y 3 f) (h0 : ∀ i < X, ∀ j < Y, ∀ k < 3, 0 ≤ f i j k) :
    ∃ code : Nat → Nat → Nat → Nat, print r32 r64 M = .ok (rowsOf X Y fun x y => [code x y 0, code x y 1, code x y 2]) ∧
      ∀ i < X, ∀ j < Y, ∀ k < 3, code i j k ≤ 255 ∧
        ∀ i' < X, ∀ j' < Y, ∀ k' < 3, f i j k ≤ f i' j' k' → code i j k ≤ code i' j' k' := by
  obtain ⟨m, e, h1, hle, _⟩ := maxVal_spec hM
  have key : ∀ x < X, ∀ y < Y, ∀ k < 3, colourCode r64 m (f x y k) = .ok (Min.min (r64 (r64 (f x y k / m) * 255)) 255).floor.toNat ∧
      (Min.min (r64 (r64 (f x y k / m) * 255)) 255).floor.toNat < 256 := by
    intro x hx y hy k hk
    have hv := h0 x hx y hy k hk
    have a1 : 0 ≤ r64 (f x y k / m) := h64.nonneg (by positivity)
    have a2 : 0 ≤ r64 (r64 (f x y k / m) * 255) := h64.nonneg (by positivity)
    obtain ⟨c, ec, hc, hf⟩ := toUnsigned_ok (b := 256) (le_min a2 (by norm_num : (0 : ℚ) ≤ 255))
      (lt_of_le_of_lt (min_le_right _ _) (by norm_num))
    rw [← hf]
    exact ⟨ec, hc⟩
  refine ⟨fun x y k => (Min.min (r64 (r64 (f x y k / m) * 255)) 255).floor.toNat, ?_, ?_⟩
  · unfold print
    have hz : M.dim.z = 3 := by rw [hM.dim]; rfl
    rw [e, Res.bind_ok, if_pos hz]
    unfold printColour
    simp only [hM.dim, Int.toNat_natCast]
    refine mapM_shows _ _ _ ?_
    intro x hx
    refine mapM_shows _ _ _ ?_
    intro y hy
    have : (List.range 3).mapM (fun (z : Nat) => do
        let v ← M.read ⟨(x : Int), (y : Int), (z : Int)⟩
        colourCode r64 m v) = .ok ((List.range 3).map fun k => (Min.min (r64 (r64 (f x y k / m) * 255)) 255).floor.toNat) := by
      refine mapM_shows _ _ _ ?_
      intro z hz
      have er : M.read ⟨(x : Int), (y : Int), (z : Int)⟩ = .ok (f x y z) := hM.entry x hx y hy z hz
      rw [er, Res.bind_ok]
      exact (key x hx y hy z hz).1
    rw [this]
    rfl
  · intro i hi j hj k hk
    refine ⟨by have := (key i hi j hj k hk).2; simp only; omega, ?_⟩
    intro i' hi' j' hj' k' hk' hff
    have a1 := h64.mono _ _ (div_le_div_of_nonneg_right hff (by linarith : (0 : ℚ) ≤ m))
    have a2 := h64.mono _ _ (mul_le_mul_of_nonneg_right a1 (by norm_num : (0 : ℚ) ≤ 255))
    exact Int.toNat_le_toNat (Int.floor_le_floor (min_le_min_right _ a2))

/-- C63 is violated by every constant image of a value of at least 1 (an all-white image): the code divides 0 by 0 and
converts the resulting NaN to `unsigned char`. -/
theorem C63_constant (r32 r64 : ℚ → ℚ) (M : Matrix ℚ) (v : ℚ) (h32 : Rounding r32) (hv : 1 ≤ v)
    (hM : M.Shows X Y Z (fun _ _ _ => v)) (hZ : Z ≠ 3) : print r32 r64 M = .ub := by
  obtain ⟨i, j, k, hi, hj, hk, e, _⟩ := C20_max M.expr _ hM.expr
  obtain ⟨a, b, c, ha, hb, hc, emin, _⟩ := C20_min M.expr _ hM.expr
  have g := hM.good
  have hm : maxVal M = .ok v := by
    unfold maxVal; rw [e, Res.bind_ok, if_neg (by linarith)]
  unfold print
  have hz : ¬ M.dim.z = 3 := by rw [hM.dim]; show ¬ ((Z : Int) = 3); omega
  rw [hm, Res.bind_ok, if_neg hz]
  have : printBW r32 r64 M v = .ub := by
    unfold printBW
    rw [emin, Res.bind_ok]
    simp only [hM.dim, Int.toNat_natCast]
    obtain ⟨X', rfl⟩ : ∃ X', X = X' + 1 := ⟨X - 1, by have := g.x; omega⟩
    obtain ⟨Y', rfl⟩ : ∃ Y', Y = Y' + 1 := ⟨Y - 1, by have := g.y; omega⟩
    have er : M.read ⟨((0 : Nat) : Int), ((0 : Nat) : Int), 0⟩ = .ok v := hM.entry 0 g.x 0 g.y 0 g.z
    have hX : List.range (X' + 1) = 0 :: (List.range X').map Nat.succ := List.range_succ_eq_map
    have hY : List.range (Y' + 1) = 0 :: (List.range Y').map Nat.succ := List.range_succ_eq_map
    rw [hX, List.mapM_cons, hY, List.mapM_cons, er, Res.bind_ok]
    have : bwCode r32 r64 v v v = .ub := by unfold bwCode; simp [h32.zero]
    rw [this]
    rfl
  rw [this]
  rfl

theorem C63_violated : ¬ C63_claim := by
  intro h
  have hM : (⟨dimN 1 1 1, [1]⟩ : Matrix ℚ).Shows 1 1 1 (fun _ _ _ => 1) := ⟨⟨by decide, by decide, by decide, by decide⟩, rfl, rfl, by
    intro i hi j hj k hk
    obtain rfl : i = 0 := by omega
    obtain rfl : j = 0 := by omega
    obtain rfl : k = 0 := by omega
    rfl⟩
  obtain ⟨code, e, _⟩ := h (fun q => q) (fun q => q) 1 1 1 _ _ Rounding.id Rounding.id hM (by intros; norm_num)
  rw [C63_constant _ _ _ _ Rounding.id (le_refl 1) hM (by decide)] at e
  exact absurd e (by simp)

/-- Non-vacuity: a 2×2 image with entries like those of the MNIST reader. -/
example : print (fun q => q) (fun q => q) ⟨dimN 2 2 1, [-1/2, 0, 1/4, 1/2]⟩ = .ok [[[0], [127]], [[85], [170]]] := by
  decide +kernel

example : maxVal ⟨dimN 2 2 1, [-1/2, 0, 1/4, 1/2]⟩ = .ok 1 := by decide +kernel

example : print (fun q => q) (fun q => q) ⟨dimN 1 1 3, [1/2, 0, 2]⟩ = .ok [[[63, 0, 255]]] := by decide +kernel

end Image

/-! ### C64 -/

/-- C64 as stated. -/
def C64_claim : Prop :=
  ∀ (r32 r64 : ℚ → ℚ) (total : ℚ) (width : Nat), Rounding r32 → Rounding r64 → 0 < total → width < 16777216 →
    r32 width = width →
    ∀ v w, 0 ≤ v → v ≤ w → w ≤ total → ∃ bv bw pv pw, loadingBar r32 r64 v total width = .ok (bv, pv) ∧
      loadingBar r32 r64 w total width = .ok (bw, pw) ∧ bv.length = bw.length ∧ bv.count '=' ≤ bw.count '='

theorem barFilled_spec {r32 : ℚ → ℚ} (h32 : Rounding r32) {val total : ℚ} {width : Nat} (ht : 0 < total)
    (hw : width < 16777216) (hr : r32 width = width) (h0 : 0 ≤ val) (h1 : val ≤ total) :
    ∃ f, barFilled r32 val total width = .ok f ∧ f ≤ width ∧ (f : Int) = (r32 (r32 (val / total) * width)).floor := by
  have a1 : 0 ≤ r32 (val / total) := h32.nonneg (by positivity)
  have a2 : r32 (val / total) ≤ 1 := h32.le_one ((div_le_one ht).mpr h1)
  have a3 : 0 ≤ r32 (r32 (val / total) * width) := h32.nonneg (by positivity)
  have a4 : r32 (r32 (val / total) * width) ≤ width := by
    calc _ ≤ r32 width := h32.mono _ _ (by nlinarith [(Nat.cast_nonneg width : (0 : ℚ) ≤ width)])
      _ = width := hr
  have hw' : (width : ℚ) < (18446744073709551616 : Nat) := by
    have : width < 18446744073709551616 := by omega
    exact_mod_cast this
  obtain ⟨c, e, _, hf⟩ := toUnsigned_ok a3 (lt_of_le_of_lt a4 hw')
  refine ⟨c, ?_, ?_, hf⟩
  · unfold barFilled; rw [if_neg ht.ne', hr]; exact e
  · have : (r32 (r32 (val / total) * width)).floor ≤ (width : Int) := by
      have : ⌊r32 (r32 (val / total) * width)⌋ < (width : Int) + 1 := by
        refine Int.floor_lt.mpr ?_
        push_cast; linarith
      exact Int.lt_add_one_iff.mp this
    omega

theorem count_replicate_eq (n : Nat) (c : Char) (h : c ≠ '=') : (List.replicate n c).count '=' = 0 := by
  simp [List.count_replicate, h]

theorem barText_spec {f width : Nat} (hf : f ≤ width) (hw : width < 16777216) :
    (barText f width).length = (if f = width then width + 2 else width + 1) ∧ (barText f width).count '=' = f := by
  have e1 : wrap32 ((f : Int) + 1) = ((f + 1 : Nat) : Int) := by
    have := wrap32_nat (n := f + 1) (by omega)
    push_cast at this ⊢; exact this
  have e2 : wrap32 (u64 ((width : Int) - f)) = ((width - f : Nat) : Int) := by
    have : u64 ((width : Int) - f) = width - f := by unfold u64; omega
    rw [this]; exact wrap32_nat (by omega)
  have e3 : barText f width = '[' :: List.replicate f '=' ++ (List.replicate (width - f - 1) ' ' ++ [']']) := by
    unfold barText
    rw [e1, e2]
    simp [padRight, padLeft]
  rw [e3]
  constructor
  · simp only [List.length_append, List.length_cons, List.length_replicate, List.length_nil]
    split <;> omega
  · simp [List.count_append, List.count_replicate]

theorem barPercent_spec {r64 : ℚ → ℚ} (h64 : Rounding r64) {val total : ℚ} (ht : 0 < total)
    (h0 : 0 ≤ val) (hfin : r64 (r64 (r64 (100 * val) / total) + 1) < 2147483648) :
    ∃ p, barPercent r64 val total = .ok p := by
  have a1 : 0 ≤ r64 (100 * val) := h64.nonneg (by positivity)
  have a2 : 0 ≤ r64 (r64 (100 * val) / total) := h64.nonneg (by positivity)
  have a3 : 0 ≤ r64 (r64 (r64 (100 * val) / total) + 1) := h64.nonneg (by positivity)
  unfold barPercent
  rw [if_neg ht.ne']
  exact ⟨_, by rw [if_pos ⟨by linarith, hfin⟩]⟩

/-- C64, the part that holds: as `val` grows the filled part never shrinks, and the bar has `width + 1` columns except that
it has `width + 2` once it is completely filled. (The condition on `r64` says that the percentage fits an `int`.) Missing:
equal width for a completely filled bar. -/
theorem C64_bar_partial (r32 r64 : ℚ → ℚ) (total : ℚ) (width : Nat) (h32 : Rounding r32) (h64 : Rounding r64) (ht : 0 < total)
    (hw : width < 16777216) (hr : r32 width = width) (v w : ℚ) (h0 : 0 ≤ v) (hvw : v ≤ w) (h1 : w ≤ total)
    (hfin : r64 (r64 (r64 (100 * w) / total) + 1) < 2147483648) :
    ∃ bv bw pv pw, loadingBar r32 r64 v total width = .ok (bv, pv) ∧ loadingBar r32 r64 w total width = .ok (bw, pw) ∧
      bv.count '=' ≤ bw.count '=' ∧ bw.count '=' ≤ width ∧
      bv.length = (if bv.count '=' = width then width + 2 else width + 1) ∧
      bw.length = (if bw.count '=' = width then width + 2 else width + 1) := by
  obtain ⟨f, e1, l1, f1⟩ := barFilled_spec h32 ht hw hr h0 (hvw.trans h1)
  obtain ⟨g, e2, l2, f2⟩ := barFilled_spec h32 ht hw hr (h0.trans hvw) h1
  have b1 := h64.mono _ _ (mul_le_mul_of_nonneg_left hvw (by norm_num : (0 : ℚ) ≤ 100))
  have b2 := h64.mono _ _ (div_le_div_of_nonneg_right b1 ht.le)
  have b3 := h64.mono _ _ (add_le_add_left b2 1)
  obtain ⟨p, ep⟩ := barPercent_spec h64 ht h0 (lt_of_le_of_lt b3 hfin)
  obtain ⟨q, eq⟩ := barPercent_spec h64 ht (h0.trans hvw) hfin
  obtain ⟨t1, t2⟩ := barText_spec l1 hw
  obtain ⟨t3, t4⟩ := barText_spec l2 hw
  refine ⟨barText f width, barText g width, _, _, by unfold loadingBar; rw [e1, ep]; rfl,
    by unfold loadingBar; rw [e2, eq]; rfl, ?_, ?_, ?_, ?_⟩
  · rw [t2, t4]
    have a1 := h32.mono _ _ (div_le_div_of_nonneg_right hvw ht.le)
    have a2 := h32.mono _ _ (mul_le_mul_of_nonneg_right a1 (Nat.cast_nonneg width : (0 : ℚ) ≤ width))
    have := Int.floor_le_floor a2
    have hh : (f : Int) ≤ (g : Int) := by rw [f1, f2]; exact this
    exact_mod_cast hh
  · rw [t4]; exact l2
  · rw [t2]; exact t1
  · rw [t4]; exact t3

/-- In exact arithmetic the bar is completely filled only at the end, so up to there the width is constant. -/
theorem C64_constant_partial (total : ℚ) (width : Nat) (hw : width < 16777216) (v : ℚ) (h0 : 0 ≤ v) (h1 : v < total) (hpos : 0 < width) :
    ∃ b p, loadingBar (fun q => q) (fun q => q) v total width = .ok (b, p) ∧ b.length = width + 1 := by
  have ht : 0 < total := by linarith
  obtain ⟨f, e1, l1, f1⟩ := barFilled_spec Rounding.id ht hw rfl h0 h1.le
  obtain ⟨p, ep⟩ := barPercent_spec Rounding.id ht h0 (by
    show 100 * v / total + 1 < 2147483648
    have : 100 * v / total ≤ 100 := by rw [div_le_iff₀ ht]; nlinarith
    linarith)
  obtain ⟨t1, _⟩ := barText_spec l1 hw
  refine ⟨barText f width, _, by unfold loadingBar; rw [e1, ep]; rfl, ?_⟩
  rw [t1, if_neg]
  rintro rfl
  have hlt : (v / total * f).floor < (f : Int) := by
    show ⌊v / total * f⌋ < (f : Int)
    refine Int.floor_lt.mpr ?_
    push_cast
    have h2 : v / total < 1 := (div_lt_one ht).mpr h1
    have h3 : (0 : ℚ) < f := by exact_mod_cast hpos
    calc v / total * f < 1 * f := mul_lt_mul_of_pos_right h2 h3
      _ = f := one_mul _
  omega

/-- C64 is violated by every bar: at `val = total` it is one column wider than at `val = 0`. -/
theorem C64_wider (r32 r64 : ℚ → ℚ) (total : ℚ) (width : Nat) (h32 : Rounding r32) (h64 : Rounding r64) (ht : 0 < total)
    (hw : width < 16777216) (hpos : 0 < width) (hr : r32 width = width)
    (hfin : r64 (r64 (r64 (100 * total) / total) + 1) < 2147483648) :
    ∃ b₀ b₁ p₀ p₁, loadingBar r32 r64 0 total width = .ok (b₀, p₀) ∧ loadingBar r32 r64 total total width = .ok (b₁, p₁) ∧
      b₀.length = width + 1 ∧ b₁.length = width + 2 := by
  obtain ⟨f, e1, l1, f1⟩ := barFilled_spec h32 ht hw hr (le_refl 0) ht.le
  obtain ⟨g, e2, l2, f2⟩ := barFilled_spec h32 ht hw hr ht.le (le_refl total)
  obtain ⟨t1, t2⟩ := barText_spec l1 hw
  obtain ⟨t3, t4⟩ := barText_spec l2 hw
  obtain ⟨p, ep⟩ := barPercent_spec h64 ht (le_refl 0) (by simp [h64.zero, h64.one])
  obtain ⟨q, eq⟩ := barPercent_spec h64 ht ht.le hfin
  have hf : f = 0 := by
    have : (f : Int) = 0 := by rw [f1]; simp [h32.zero]; rfl
    omega
  have hg : g = width := by
    have : (g : Int) = width := by
      rw [f2, div_self ht.ne', h32.one, one_mul, hr]
      exact Int.floor_natCast (R := ℚ) width
    omega
  refine ⟨barText f width, barText g width, _, _, by unfold loadingBar; rw [e1, ep]; rfl,
    by unfold loadingBar; rw [e2, eq]; rfl, ?_, ?_⟩
  · rw [t1, if_neg (by omega)]
  · rw [t3, if_pos hg]

theorem C64_violated : ¬ C64_claim := by
  intro h
  obtain ⟨bv, bw, pv, pw, e1, e2, hl, _⟩ := h (fun q => q) (fun q => q) 1 50 Rounding.id Rounding.id (by norm_num) (by decide) rfl
    0 1 (le_refl 0) (by norm_num) (le_refl 1)
  obtain ⟨b₀, b₁, p₀, p₁, d1, d2, l0, l1⟩ := C64_wider (fun q => q) (fun q => q) 1 50 Rounding.id Rounding.id (by norm_num) (by decide)
    (by decide) rfl (by norm_num)
  rw [e1] at d1
  rw [e2] at d2
  simp only [Res.ok.injEq, Prod.mk.injEq] at d1 d2
  rw [d1.1, d2.1] at hl
  omega

/-- C64, the text behind the bar: in exact arithmetic always five columns, a space, the percentage (rounded down, plus one) in
three columns to the right, and `%`. With the bar before it, this keeps the line at `width + 6` columns before the end. -/
theorem C64_percent_partial (total : ℚ) (width : Nat) (hw : width < 16777216) (v : ℚ) (ht : 0 < total) (h0 : 0 ≤ v) (h1 : v ≤ total) :
    ∃ b p k ds, loadingBar (fun q => q) (fun q => q) v total width = .ok (b, p) ∧ p.length = 5 ∧
      p = ' ' :: List.replicate k ' ' ++ ds ++ ['%'] ∧ (∀ c ∈ ds, c.isDigit = true) ∧
      ((ds.foldl (fun n c => 10 * n + (c.toNat - '0'.toNat)) 0 : Nat) : Int) = ⌊100 * v / total⌋ + 1 := by
  obtain ⟨f, e1, _, _⟩ := barFilled_spec Rounding.id ht hw rfl h0 h1
  have a1 : 0 ≤ 100 * v / total := by positivity
  have a2 : 100 * v / total ≤ 100 := by rw [div_le_iff₀ ht]; nlinarith
  have ep : barPercent (fun q => q) v total = .ok (⌊100 * v / total⌋ + 1) := by
    unfold barPercent
    rw [if_neg ht.ne']
    simp only
    rw [if_pos ⟨by linarith, by linarith⟩, if_pos (by linarith)]
    exact congrArg Res.ok (show ⌊100 * v / total + 1⌋ = _ from Int.floor_add_one _)
  obtain ⟨n, hn⟩ : ∃ n : Nat, (n : Int) = ⌊100 * v / total⌋ + 1 := ⟨(⌊100 * v / total⌋ + 1).toNat, Int.toNat_of_nonneg (by
    have := Int.floor_nonneg.2 a1
    omega)⟩
  have hle : n ≤ 101 := by
    have : ⌊100 * v / total⌋ < 101 := Int.floor_lt.2 (by push_cast; linarith)
    omega
  have ht' : intText (n : Int) = natText n := by
    unfold intText
    rw [if_neg (by omega)]; rfl
  have hl := IStream.natText_length (n := n) (k := 3) (by omega) (by omega)
  refine ⟨barText f width, _, 3 - (natText n).length, natText n, by unfold loadingBar; rw [e1, ep]; rfl, ?_, ?_, IStream.natText_isDigit n, ?_⟩
  · rw [← hn, ht']
    simp [padLeft]
    omega
  · rw [← hn, ht']
    simp [padLeft]
  · rw [← hn]
    exact congrArg Nat.cast (IStream.numeral_natText n)

/-- The bar at 3 of 4 with ten columns. -/
example : loadingBar (fun q => q) (fun q => q) 3 4 10 = .ok ("[=======  ]".toList, "  76%".toList) := by decide +kernel

end Cnn
