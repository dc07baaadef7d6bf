import Verif.Model.DimN
import Verif.Spec.Radix
import Mathlib.Data.Int.ModEq
import Mathlib.Tactic.Ring
import Mathlib.Tactic.Linarith

namespace Cnn

/-! ### The numbering of a box -/

theorem InBox.length {ds is : List Int} (h : InBox ds is) : ds.length = is.length :=
  List.Forall₂.length_eq h

theorem radix_nonneg {ds is : List Int} (h : InBox ds is) : 0 ≤ radix ds is := by
  induction h with
  | nil => simp [radix]
  | cons hd _ ih => exact Int.add_nonneg hd.1 (Int.mul_nonneg (by omega) ih)

theorem radix_lt {ds is : List Int} (h : InBox ds is) : radix ds is < ds.prod := by
  induction h with
  | nil => simp [radix]
  | @cons d i ds is hd ht ih =>
    have h0 : (0 : Int) < d := by omega
    have h1 : d * (radix ds is + 1) ≤ d * ds.prod := Int.mul_le_mul_of_nonneg_left (by omega) (by omega)
    simp only [radix, List.prod_cons]
    nlinarith [hd.2]

theorem radix_inj {ds is js : List Int} (h : InBox ds is) (h' : InBox ds js)
    (e : radix ds is = radix ds js) : is = js := by
  induction h generalizing js with
  | nil => cases h'; rfl
  | @cons d i ds is hd ht ih =>
    cases h' with
    | @cons _ j _ js hd' ht' =>
      simp only [radix] at e
      have a : (i + d * radix ds is) % d = i := by
        rw [Int.add_mul_emod_self_left]; exact Int.emod_eq_of_lt hd.1 hd.2
      have b : (j + d * radix ds js) % d = j := by
        rw [Int.add_mul_emod_self_left]; exact Int.emod_eq_of_lt hd'.1 hd'.2
      have ij : i = j := by rw [← a, ← b, e]
      subst ij
      have : d * radix ds is = d * radix ds js := by omega
      have := Int.eq_of_mul_eq_mul_left (by omega : d ≠ 0) this
      rw [ih ht' this]

theorem radix_surj {ds : List Int} (pos : ∀ d ∈ ds, 0 < d) {k : Int} (h0 : 0 ≤ k) (h1 : k < ds.prod) :
    ∃ is, InBox ds is ∧ radix ds is = k := by
  induction ds generalizing k with
  | nil => exact ⟨[], .nil, by simp at h1; simp [radix]; omega⟩
  | cons d ds ih =>
    have hd : 0 < d := pos d (by simp)
    obtain ⟨is, hi, er⟩ := ih (fun x hx => pos x (by simp [hx])) (k := k / d)
      (Int.ediv_nonneg h0 hd.le) (by
        rw [List.prod_cons] at h1
        exact Int.ediv_lt_of_lt_mul hd (by rw [mul_comm]; exact h1))
    exact ⟨(k % d) :: is, .cons ⟨Int.emod_nonneg _ hd.ne', Int.emod_lt_of_pos _ hd⟩ hi, by
      simp only [radix, er]; exact Int.emod_add_mul_ediv k d⟩

/-! ### The loops on determinate components -/

namespace DimN

@[simp] theorem use_some (v : Int) : use (some v) = .ok v := rfl
@[simp] theorem use_none : use none = .ub := rfl

theorem toInt_of {n : Int} (h : I32 n) : toInt n = n := by
  unfold I32 at h; unfold toInt; omega

theorem sameLoop_some (as bs : List Int) (h : as.length = bs.length) :
    sameLoop (as.map some) (bs.map some) = .ok (decide (as = bs)) := by
  induction as generalizing bs with
  | nil => cases bs <;> simp_all [sameLoop]
  | cons a as ih =>
    cases bs with
    | nil => simp at h
    | cons b bs =>
      have h' : as.length = bs.length := by simpa using h
      simp only [List.map_cons, sameLoop, use_some, Res.bind_ok, ih bs h']
      by_cases e : a = b <;> simp [e]

theorem zipLoop_ok (op : Int → Int → Int) (as bs : List Int) (h : ∀ v ∈ List.zipWith op as bs, I32 v) :
    zipLoop op (as.map some) (bs.map some) = .ok (List.zipWith op as bs) := by
  induction as generalizing bs with
  | nil => rfl
  | cons a as ih =>
    cases bs with
    | nil => rfl
    | cons b bs =>
      have h1 : I32 (op a b) := h _ (by simp)
      have h2 := ih bs fun v hv => h v (by simp [hv])
      simp [zipLoop, chk, h1, h2]

theorem zipLoop_ub (op : Int → Int → Int) (as bs : List Int) (h : ∃ v ∈ List.zipWith op as bs, ¬ I32 v) :
    zipLoop op (as.map some) (bs.map some) = .ub := by
  induction as generalizing bs with
  | nil => simp at h
  | cons a as ih =>
    cases bs with
    | nil => simp at h
    | cons b bs =>
      by_cases h1 : I32 (op a b)
      · have h2 := ih bs (by
          obtain ⟨v, hv, hn⟩ := h
          rw [List.zipWith_cons_cons, List.mem_cons] at hv
          rcases hv with rfl | hv
          · exact absurd h1 hn
          · exact ⟨v, hv, hn⟩)
        simp only [List.map_cons, zipLoop, use_some, Res.bind_ok, chk, h1, if_true, h2]; rfl
      · simp only [List.map_cons, zipLoop, use_some, Res.bind_ok, chk, h1, if_false]; rfl

theorem u64_cast (n : Int) : (u64 n : Int) = n % 18446744073709551616 := by
  unfold u64; omega

theorem sizeLoop_some (ds : List Int) (out : Nat) (h : out < 18446744073709551616) :
    sizeLoop (ds.map some) out = .ok (u64 (out * ds.prod)) := by
  induction ds generalizing out with
  | nil => simp [sizeLoop, u64]; omega
  | cons d ds ih =>
    simp only [List.map_cons, sizeLoop, use_some, Res.bind_ok]
    rw [ih _ (Nat.mod_lt _ (by decide))]
    congr 1
    unfold u64
    congr 1
    push_cast
    rw [Int.toNat_of_nonneg (Int.emod_nonneg _ (by decide)), List.prod_cons]
    have e1 : d % 18446744073709551616 ≡ d [ZMOD 18446744073709551616] := Int.mod_modEq _ _
    have := ((Int.mod_modEq ((out : Int) * (d % 18446744073709551616)) 18446744073709551616).trans
      (e1.mul_left _)).mul_right ds.prod
    rw [mul_assoc] at this
    exact this

theorem sizeLoop_ub (l : List (Option Int)) (out : Nat) (h : none ∈ l) : sizeLoop l out = .ub := by
  induction l generalizing out with
  | nil => simp at h
  | cons a l ih =>
    cases a with
    | none => rfl
    | some v => simp only [sizeLoop, use_some, Res.bind_ok]; exact ih _ (by simpa using h)

theorem flatLoop_some (ds is : List Int) (out prod : Nat) (h : out < 18446744073709551616) :
    flatLoop (ds.map some) (is.map some) out prod = .ok (u64 (out + prod * radix ds is)) := by
  induction ds generalizing is out prod with
  | nil => simp [flatLoop, u64, radix]; omega
  | cons d ds ih =>
    cases is with
    | nil => simp [flatLoop, u64, radix]; omega
    | cons i is =>
      simp only [List.map_cons, flatLoop, use_some, Res.bind_ok]
      rw [ih _ _ _ (Nat.mod_lt _ (by decide))]
      congr 1
      unfold u64
      congr 1
      push_cast
      rw [Int.toNat_of_nonneg (Int.emod_nonneg _ (by decide)),
        Int.toNat_of_nonneg (Int.emod_nonneg _ (by decide))]
      have e1 : i % 18446744073709551616 ≡ i [ZMOD 18446744073709551616] := Int.mod_modEq _ _
      have e2 : d % 18446744073709551616 ≡ d [ZMOD 18446744073709551616] := Int.mod_modEq _ _
      have e3 := ((Int.mod_modEq (i % 18446744073709551616 * (prod : Int)) 18446744073709551616).trans
        (e1.mul_right _)).add_left (out : Int)
      have e4 := (Int.mod_modEq ((prod : Int) * (d % 18446744073709551616)) 18446744073709551616).trans
        (e2.mul_left _)
      have := ((Int.mod_modEq _ _).trans e3).add (e4.mul_right (radix ds is))
      refine this.trans ?_
      rw [show (out : Int) + i * prod + prod * d * radix ds is
        = out + prod * radix (d :: ds) (i :: is) by simp only [radix]; ring]

theorem textLoop_some (ds : List Int) (h : ds ≠ []) :
    textLoop (ds.map some) = .ok (String.intercalate ", " (ds.map toString) ++ ")") := by
  induction ds with
  | nil => exact absurd rfl h
  | cons a as ih =>
    cases as with
    | nil => simp [textLoop]
    | cons b bs =>
      have e : textLoop ((a :: b :: bs).map some)
          = (use (some a) >>= fun x => textLoop ((b :: bs).map some) >>= fun rest =>
              .ok (toString x ++ (", " ++ rest))) := rfl
      rw [e, ih (by simp)]
      simp [String.append_assoc]

/-- What `++` does to an index tuple. -/
def bump : List Int → List Int → List Int
  | [_], [i] => [i + 1]
  | d :: ds, i :: is => if i + 1 < d then (i + 1) :: is else 0 :: bump ds is
  | _, is => is

theorem nextLoop_some {ds is : List Int} (h : InBox ds is) (hd : ∀ d ∈ ds, I32 d) :
    nextLoop (ds.map some) (is.map some) = .ok ((bump ds is).map some) := by
  induction h with
  | nil => rfl
  | @cons d i ds is hi ht ih =>
    have hd0 : I32 d := hd d (by simp)
    have hx : I32 (i + 1) := by unfold I32 at *; omega
    have ih := ih fun d hd' => hd d (by simp [hd'])
    simp only [List.map_cons, nextLoop, use_some, Res.bind_ok, chk, hx, if_true, List.map_eq_nil_iff]
    cases ht with
    | nil => simp [bump]
    | @cons d' i' ds is _ _ =>
      by_cases hl : i + 1 < d
      · simp [bump, hl]
      · simp only [bump, hl, false_or, if_false, ih, Res.bind_ok]
        simp

theorem bump_length (ds is : List Int) (h : ds.length = is.length) : (bump ds is).length = is.length := by
  induction ds generalizing is with
  | nil => rfl
  | cons d ds ih =>
    cases is with
    | nil => simp at h
    | cons i is =>
      have h' : ds.length = is.length := by simpa using h
      unfold bump
      split
      · simp_all
      · next heq heq' => cases heq; cases heq'; split <;> simp [ih is h']
      · rfl

theorem radix_bump {ds is : List Int} (h : InBox ds is) (ne : ds ≠ []) :
    radix ds (bump ds is) = radix ds is + 1 := by
  induction h with
  | nil => exact absurd rfl ne
  | @cons d i ds is hi ht ih =>
    cases ht with
    | nil => simp [bump, radix]
    | @cons d' i' ds is h' ht' =>
      simp only [bump]
      by_cases hl : i + 1 < d
      · simp only [hl, if_true, radix]; ring
      · have := ih (by simp)
        have hd : i + 1 = d := by omega
        simp only [hl, if_false]
        have e1 : radix (d :: d' :: ds) (0 :: bump (d' :: ds) (i' :: is))
            = 0 + d * radix (d' :: ds) (bump (d' :: ds) (i' :: is)) := rfl
        have e2 : radix (d :: d' :: ds) (i :: i' :: is) = i + d * radix (d' :: ds) (i' :: is) := rfl
        rw [e1, e2, this, ← hd]; ring

theorem bump_inBox {ds is : List Int} (h : InBox ds is) (hl : radix ds is + 1 < ds.prod) :
    InBox ds (bump ds is) := by
  induction h with
  | nil => simp [radix] at hl
  | @cons d i ds is hi ht ih =>
    cases ht with
    | nil =>
      simp [radix] at hl
      exact .cons ⟨by omega, by omega⟩ .nil
    | @cons d' i' ds is h' ht' =>
      simp only [bump]
      by_cases hd : i + 1 < d
      · simp only [hd, if_true]; exact .cons ⟨by omega, hd⟩ (.cons h' ht')
      · simp only [hd, if_false]
        refine .cons ⟨le_refl _, by omega⟩ (ih ?_)
        have e : i + 1 = d := by omega
        rw [radix, List.prod_cons] at hl
        have hp : d * (radix (d' :: ds) (i' :: is) + 1) < d * (d' :: ds).prod := by
          rw [mul_add, mul_one]; omega
        exact lt_of_mul_lt_mul_left hp (by omega)

/-- The index past the end: zeros, and the last extent in the last place. -/
theorem bump_last {ds is : List Int} (h : InBox ds is) (hl : radix ds is + 1 = ds.prod) (ne : ds ≠ []) :
    bump ds is = List.replicate (ds.length - 1) 0 ++ [ds.getLast ne] := by
  induction h with
  | nil => exact absurd rfl ne
  | @cons d i ds is hi ht ih =>
    cases ht with
    | nil => simp [radix] at hl; simp [bump]; omega
    | @cons d' i' ds is h' ht' =>
      have hb : InBox (d' :: ds) (i' :: is) := .cons h' ht'
      have lt := radix_lt hb
      rw [radix, List.prod_cons] at hl
      have hd : ¬ i + 1 < d := by
        intro hd
        have : d * (radix (d' :: ds) (i' :: is) + 1) ≤ d * (d' :: ds).prod :=
          Int.mul_le_mul_of_nonneg_left (by omega) (by omega)
        rw [mul_add, mul_one] at this
        omega
      have e : i + 1 = d := by omega
      have hp : d * (radix (d' :: ds) (i' :: is) + 1) = d * (d' :: ds).prod := by
        rw [mul_add, mul_one]; omega
      have := Int.eq_of_mul_eq_mul_left (by omega : d ≠ 0) hp
      simp only [bump, hd, if_false]
      rw [ih this (by simp)]
      simp [List.replicate_succ]

end DimN

end Cnn
