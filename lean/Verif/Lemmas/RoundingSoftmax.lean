import Verif.Lemmas.RoundingLayer
import Verif.Lemmas.Softmax
/-! Softmax in rounded arithmetic (C84). -/
namespace Cnn
open Finset

/-! ### The exact function -/

/-- Softmax of numbers that are off by at most `ε`. -/
theorem softmax_near {n : Nat} {v w : Nat → ℝ} {ε : ℝ} (h : ∀ i < n, |v i - w i| ≤ ε) {i : Nat} (hi : i < n) :
    |softmax n v i - softmax n w i| ≤ softmax n w i * (Real.exp (2 * ε) - 1) := by
  have hε : 0 ≤ ε := (abs_nonneg _).trans (h i hi)
  have up : ∀ j < n, Real.exp (v j) ≤ Real.exp ε * Real.exp (w j) := fun j hj => by
    rw [← Real.exp_add]
    exact Real.exp_le_exp.2 (by linarith [(abs_sub_le_iff.1 (h j hj)).1])
  have lo : ∀ j < n, Real.exp (w j) ≤ Real.exp ε * Real.exp (v j) := fun j hj => by
    rw [← Real.exp_add]
    exact Real.exp_le_exp.2 (by linarith [(abs_sub_le_iff.1 (h j hj)).2])
  have pos : ∀ v : Nat → ℝ, 0 < ∑ j ∈ range n, Real.exp (v j) := fun v =>
    sum_pos (fun j _ => Real.exp_pos _) ⟨i, mem_range.2 hi⟩
  have hV : ∑ j ∈ range n, Real.exp (v j) ≤ Real.exp ε * ∑ j ∈ range n, Real.exp (w j) := by
    rw [mul_sum]; exact sum_le_sum fun j hj => up j (mem_range.1 hj)
  have hW : ∑ j ∈ range n, Real.exp (w j) ≤ Real.exp ε * ∑ j ∈ range n, Real.exp (v j) := by
    rw [mul_sum]; exact sum_le_sum fun j hj => lo j (mem_range.1 hj)
  have he : Real.exp (2 * ε) = Real.exp ε * Real.exp ε := by rw [← Real.exp_add]; ring_nf
  have hs : ∀ v : Nat → ℝ, 0 < softmax n v i := fun v => div_pos (Real.exp_pos _) (pos v)
  have key : ∀ v w : Nat → ℝ, Real.exp (v i) ≤ Real.exp ε * Real.exp (w i) →
      ∑ j ∈ range n, Real.exp (w j) ≤ Real.exp ε * ∑ j ∈ range n, Real.exp (v j) → softmax n v i ≤ Real.exp (2 * ε) * softmax n w i := by
    intro v w h1 h2
    unfold softmax
    rw [← mul_div_assoc, div_le_div_iff₀ (pos v) (pos w), he]
    calc Real.exp (v i) * ∑ j ∈ range n, Real.exp (w j) ≤ (Real.exp ε * Real.exp (w i)) * (Real.exp ε * ∑ j ∈ range n, Real.exp (v j)) :=
          mul_le_mul h1 h2 (pos w).le (by positivity)
      _ = _ := by ring
  have k1 := key v w (up i hi) hW
  have k2 := key w v (lo i hi) hV
  have h1 : 1 ≤ Real.exp (2 * ε) := Real.one_le_exp (by linarith)
  rw [abs_sub_le_iff]
  constructor
  · linarith
  · have := hs v
    have := hs w
    -- `w - v ≤ w (X - 1)`, from `w ≤ X v` and `X ≥ 1`
    have : (2 - Real.exp (2 * ε)) * softmax n w i ≤ softmax n v i := by
      by_cases hX : Real.exp (2 * ε) ≤ 2
      · nlinarith [mul_le_mul_of_nonneg_left k2 (sub_nonneg.2 hX), mul_nonneg (sub_nonneg.2 h1) (hs v).le]
      · nlinarith
    linarith

/-- `t * exp (-t) ≤ 1`. -/
theorem mul_exp_neg_le (t : ℝ) : t * Real.exp (-t) ≤ 1 := by
  have h := Real.add_one_le_exp t
  have hp := Real.exp_pos t
  rw [Real.exp_neg, ← div_eq_mul_inv, div_le_one hp]
  linarith

section
variable {α : Type} [Zero α] [One α] [Add α] [Sub α] [Mul α] [Div α] [Neg α] {N : Num α} {p : Precision} {F : Floating N p}

namespace Floating

/-- One exponential: `d` is not positive, `o` is `d` rounded. -/
theorem exp_near (hp : p.Ok) {o : α} {d : ℝ} (ho : F.Fin o) (hd : d ≤ 0) (h : |F.val o - d| ≤ p.u * |d|) :
    F.Fin (N.exp o) ∧ |F.val (N.exp o) - Real.exp d| ≤ p.expErr := by
  obtain ⟨u0, v0, η0, u1, v1, η1, hΩ⟩ := hp
  rw [abs_of_nonpos hd] at h
  obtain ⟨l1, l2⟩ := abs_sub_le_iff.1 h
  have hneg : F.val o ≤ (1 - p.u) * d := by linarith
  have hneg' : F.val o ≤ 0 := by nlinarith
  have hone : Real.exp (F.val o) ≤ 1 := Real.exp_le_one_iff.2 hneg'
  obtain ⟨e1, e2⟩ := F.exp o ho (by linarith)
  refine ⟨e1, ?_⟩
  have hmid : |Real.exp (F.val o) - Real.exp d| ≤ 2 * p.u := by
    have hm : Real.exp (F.val o) ≤ Real.exp ((1 - p.u) * d) := Real.exp_le_exp.2 hneg
    have hm' : Real.exp d ≤ Real.exp ((1 - p.u) * d) := Real.exp_le_exp.2 (by nlinarith)
    have hpos := Real.exp_pos ((1 - p.u) * d)
    -- the slope of `exp` between the two
    have hlip : ∀ a b : ℝ, Real.exp a - Real.exp b ≤ (a - b) * Real.exp a := by
      intro a b
      have := Real.add_one_le_exp (b - a)
      rw [Real.exp_sub, le_div_iff₀ (Real.exp_pos a)] at this
      linarith
    have q : (-d) * Real.exp ((1 - p.u) * d) ≤ 2 := by
      have := mul_exp_neg_le ((1 - p.u) * -d)
      have e : -((1 - p.u) * -d) = (1 - p.u) * d := by ring
      rw [e] at this
      nlinarith [mul_nonneg (neg_nonneg.2 hd) hpos.le]
    have hq := mul_le_mul_of_nonneg_left q u0
    rw [abs_sub_le_iff]
    constructor
    · have h1 := hlip (F.val o) d
      have h2 : (F.val o - d) * Real.exp (F.val o) ≤ (p.u * -d) * Real.exp ((1 - p.u) * d) :=
        mul_le_mul l1 hm (Real.exp_pos _).le (by nlinarith)
      linarith
    · have h1 := hlip d (F.val o)
      have h2 : (d - F.val o) * Real.exp d ≤ (p.u * -d) * Real.exp ((1 - p.u) * d) :=
        mul_le_mul l2 hm' (Real.exp_pos _).le (by nlinarith)
      linarith
  have hv : p.v * Real.exp (F.val o) ≤ p.v * 1 := mul_le_mul_of_nonneg_left hone v0
  have := abs_sub_le (F.val (N.exp o)) (Real.exp (F.val o)) (Real.exp d)
  unfold Precision.expErr
  linarith

theorem expErr_nonneg (hp : p.Ok) : 0 ≤ p.expErr := by
  have := hp.u0; have := hp.v0; have := hp.η0
  unfold Precision.expErr; linarith

theorem expErr_le (hp : p.Ok) : p.expErr ≤ 1 / 4 := by
  have := hp.u1; have := hp.v1; have := hp.η1
  unfold Precision.expErr; linarith

/-- Softmax of `n` finite numbers, computed from the differences to the largest one. -/
theorem softmax_close (hp : p.Ok) {n q : Nat} {v : Nat → α} (hq : q < n) (hv : ∀ i < n, F.Fin (v i)) (hmax : ∀ i < n, F.val (v i) ≤ F.val (v q))
    (hr : ∀ i < n, 2 * |F.val (v i)| ≤ p.Ω) (hn : (n : ℝ) + 1 ≤ p.Ω) (hs : p.sumErr n ≤ 1 / 2) {i : Nat} (hi : i < n) :
    F.Fin (N.exp (v i - v q) / sumTo n (fun j => N.exp (v j - v q))) ∧
      |F.val (N.exp (v i - v q) / sumTo n (fun j => N.exp (v j - v q))) - softmax n (fun j => F.val (v j)) i| ≤ p.softmaxErr n := by
  have hE : ∀ j < n, F.Fin (N.exp (v j - v q)) ∧ |F.val (N.exp (v j - v q)) - Real.exp (F.val (v j) - F.val (v q))| ≤ p.expErr := by
    intro j hj
    have hd : F.val (v j) - F.val (v q) ≤ 0 := by linarith [hmax j hj]
    have h1 : |F.val (v j) - F.val (v q)| ≤ p.Ω := (abs_sub _ _).trans (by linarith [hr j hj, hr q hq])
    obtain ⟨s1, s2⟩ := F.sub (v j) (v q) (hv j hj) (hv q hq) h1
    exact exp_near hp s1 hd s2
  have hh1 : ∀ j < n, Real.exp (F.val (v j) - F.val (v q)) ≤ 1 := fun j hj => Real.exp_le_one_iff.2 (by linarith [hmax j hj])
  set h : Nat → ℝ := fun j => Real.exp (F.val (v j) - F.val (v q)) with hh
  set E : Nat → α := fun j => N.exp (v j - v q) with hEdef
  have x0 := expErr_nonneg hp
  have x1 := expErr_le hp
  have hEabs : ∀ j < n, |F.val (E j)| ≤ 1 + p.expErr := fun j hj => by
    have := abs_le_of_near (hE j hj).2
    rw [abs_of_pos (Real.exp_pos _)] at this
    linarith [hh1 j hj]
  -- the sum
  have hsum := Close.sumTo (F := F) hp (k := 0) n (T := fun _ => 1 + p.expErr) (G := fun _ => 0) (z := fun j => F.val (E j)) (t := E)
    (fun j hj => (Close.exact (hE j hj).1 rfl).mono hp le_rfl (hEabs j hj) le_rfl) (by
      simp only [sum_const, card_range, nsmul_eq_mul, mul_zero, add_zero, zero_add]
      have : (1 + p.u) ^ n * ((n : ℝ) * (1 + p.expErr)) = p.sumErr n + n := by unfold Precision.sumErr; ring
      rw [this]; linarith)
  simp only [sum_const, card_range, nsmul_eq_mul, mul_zero, zero_add] at hsum
  have hS := hsum.err
  simp only [mul_zero, add_zero] at hS
  have hSE : |∑ j ∈ range n, F.val (E j) - ∑ j ∈ range n, h j| ≤ n * p.expErr := by
    rw [← sum_sub_distrib]
    refine (abs_sum_le_sum_abs _ _).trans ((sum_le_sum fun j hj => (hE j (mem_range.1 hj)).2).trans ?_)
    simp
  set S := F.val (sumTo n E) with hSdef
  set H := ∑ j ∈ range n, h j with hH
  have hSH : |S - H| ≤ p.sumErr n := by
    have := abs_sub_le S (∑ j ∈ range n, F.val (E j)) H
    unfold Precision.sumErr
    linarith
  have hH1 : 1 ≤ H := by
    have h1 : h q ≤ H := single_le_sum (f := h) (fun j _ => (Real.exp_pos _).le) (mem_range.2 hq)
    simpa [hh] using h1
  have hS1 : 1 / 2 ≤ S := by linarith [(abs_sub_le_iff.1 hSH).2]
  have hS0 : 0 < S := by linarith
  -- the quotient
  have hsoft : softmax n (fun j => F.val (v j)) i = h i / H := by
    rw [← softmax_shift n (fun j => F.val (v j)) (F.val (v q)) i]
    rfl
  have hi0 : 0 < h i := Real.exp_pos _
  have hiH : h i / H ≤ 1 := by
    rw [div_le_one (by linarith)]
    exact single_le_sum (f := h) (fun j _ => (Real.exp_pos _).le) (mem_range.2 hi)
  have hquot : |F.val (E i) / S - h i / H| ≤ 2 * (p.expErr + p.sumErr n) := by
    have e : F.val (E i) / S - h i / H = (F.val (E i) - h i) / S + h i / H * ((H - S) / S) := by
      field_simp
      ring
    have q1 : |(F.val (E i) - h i) / S| ≤ 2 * p.expErr := by
      rw [abs_div, abs_of_pos hS0, div_le_iff₀ hS0]
      nlinarith [(hE i hi).2]
    have q2 : |(H - S) / S| ≤ 2 * p.sumErr n := by
      rw [abs_div, abs_of_pos hS0, div_le_iff₀ hS0, abs_sub_comm]
      nlinarith [abs_nonneg (S - H)]
    have q3 : |h i / H * ((H - S) / S)| ≤ 1 * (2 * p.sumErr n) := by
      rw [abs_mul, abs_of_pos (div_pos hi0 (by linarith))]
      exact mul_le_mul hiH q2 (abs_nonneg _) zero_le_one
    rw [e]
    exact (abs_add_le _ _).trans (by linarith)
  have hbig : |F.val (E i) / S| ≤ p.Ω := by
    rw [abs_div, abs_of_pos hS0, div_le_iff₀ hS0]
    have := hEabs i hi
    nlinarith [hp.Ω1]
  obtain ⟨r1, r2⟩ := F.div (E i) (sumTo n E) (hE i hi).1 hsum.fin (by rw [← hSdef]; exact hS0.ne') hbig
  refine ⟨r1, ?_⟩
  rw [← hSdef] at r2
  rw [hsoft]
  have habs : |F.val (E i) / S| ≤ 1 + 2 * (p.expErr + p.sumErr n) := by
    have := abs_le_of_near hquot
    rw [abs_of_pos (div_pos hi0 (by linarith))] at this
    linarith
  have hu := mul_le_mul_of_nonneg_left habs hp.u0
  have := abs_sub_le (F.val (E i / sumTo n E)) (F.val (E i) / S) (h i / H)
  unfold Precision.softmaxErr
  linarith

end Floating

omit [One α] [Mul α] [Neg α] in
/-- What the softmax layer computes from a vector, in any arithmetic: the entry subtracted is one that nothing exceeds if the
entries can be compared. -/
theorem softMax_ordered (N : Num α) {M : Matrix α} {n : Nat} {v : Nat → α} (hM : M.IsVec n v) {S : α → Prop} (hw : MExpr.WeakOn N.lt S)
    (hS : ∀ i < n, S (v i)) : ∃ P q, q < n ∧ Softmax.softMax N M = .ok P ∧ P.dim = M.dim ∧
      P.IsVec n (fun i => N.exp (v i - v q) / sumTo n (fun j => N.exp (v j - v q))) ∧ ∀ i < n, N.lt (v q) (v i) = false := by
  have key : ∀ {X Y Z : Nat} {x : Nat → Nat → Nat → α}, M.Shows X Y Z x → (∀ i < X, ∀ j < Y, ∀ k < Z, S (x i j k)) →
      ∃ P q, q < X * Y * Z ∧ Softmax.softMax N M = .ok P ∧ P.Shows X Y Z (fun i j k => N.exp (x i j k - x (q % X) (q / X % Y) (q / X / Y)) /
        sumTo (X * Y * Z) (fun m => N.exp (x (m % X) (m / X % Y) (m / X / Y) - x (q % X) (q / X % Y) (q / X / Y)))) ∧
        ∀ m < X * Y * Z, N.lt (x (q % X) (q / X % Y) (q / X / Y)) (x (m % X) (m / X % Y) (m / X / Y)) = false := by
    intro X Y Z x hM hS
    obtain ⟨q, hq, eb, h1, _⟩ := MExpr.bestElem_spec N.lt hw hM.expr hS
    have ed := hM.expr.deref_flat hq
    have emax : MExpr.max N.lt M.expr = .ok (x (q % X) (q / X % Y) (q / X / Y)) := by
      simp only [MExpr.max]
      rw [show MExpr.bestElem (fun a b => N.lt a b) M.expr = _ from eb]
      simp only [Res.bind_ok, ed]
    generalize hm : x (q % X) (q / X % Y) (q / X / Y) = m at *
    have s1 := MExpr.un_shows N.exp (MExpr.scal_shows (· - m) hM.expr)
    obtain ⟨E, e2, s2⟩ := Matrix.ofExpr_shows s1 (id : α → α)
    have e3 := MExpr.sum_eq_sumTo s2.expr
    obtain ⟨P, e4, s4⟩ := Matrix.ofExpr_shows (MExpr.scal_shows
      (· / sumTo (X * Y * Z) (fun k => id (N.exp (x (k % X) (k / X % Y) (k / X / Y) - m)))) s2.expr) (id : α → α)
    refine ⟨P, q, hq, ?_, by rw [hm]; exact s4, by rw [hm]; exact h1⟩
    simp only [Softmax.softMax, emax, Res.bind_ok, e2, e3]
    exact e4
  rcases hM with hM | hM
  · obtain ⟨P, q, hq, e, s, h⟩ := key hM (fun i _ j hj k _ => hS j hj)
    have g := hM.good
    have hn : 1 * n * 1 = n := by omega
    rw [hn] at hq h
    have hmod : ∀ m < n, m / 1 % n = m := fun m hm => by rw [Nat.div_one, Nat.mod_eq_of_lt hm]
    rw [hmod q hq] at h
    refine ⟨P, q, hq, e, s.dim.trans hM.dim.symm, Or.inl (s.congr ?_), fun i hi => by have := h i hi; rwa [hmod i hi] at this⟩
    intro i hi j hj k hk
    rw [hn, hmod q hq]
    congr 1
    exact sumTo_congr fun m hm => by rw [hmod m hm]
  · obtain ⟨P, q, hq, e, s, h⟩ := key hM (fun i hi j _ k _ => hS i hi)
    have g := hM.good
    have hn : n * 1 * 1 = n := by omega
    rw [hn] at hq h
    rw [Nat.mod_eq_of_lt hq] at h
    refine ⟨P, q, hq, e, s.dim.trans hM.dim.symm, Or.inr (s.congr ?_), fun i hi => by have := h i hi; rwa [Nat.mod_eq_of_lt hi] at this⟩
    intro i hi j hj k hk
    rw [hn, Nat.mod_eq_of_lt hq]
    congr 1
    exact sumTo_congr fun m hm => by rw [Nat.mod_eq_of_lt hm]

/-- The softmax layer in rounded arithmetic. -/
theorem softmax_layer_near (hp : p.Ok) {S : Softmax} {M : Matrix α} {n : Nat} {v : Nat → α} {x : Nat → ℝ} {ε : ℝ} (hM : M.IsVec n v) (hc : S.count = n)
    (hv : ∀ i < n, F.Fin (v i) ∧ |F.val (v i) - x i| ≤ ε) (hr : ∀ i < n, 2 * (|x i| + ε) ≤ p.Ω) (hn : (n : ℝ) + 1 ≤ p.Ω)
    (hs : p.sumErr n ≤ 1 / 2) :
    ∃ P, ∃ f : Nat → α, S.forward N M = .ok P ∧ P.dim = M.dim ∧ P.IsVec n f ∧ ∀ i < n, F.Fin (f i) ∧
      |F.val (f i) - softmax n x i| ≤ softmax n x i * (Real.exp (2 * ε) - 1) + p.softmaxErr n ∧ |F.val (f i)| ≤ 1 + p.softmaxErr n := by
  obtain ⟨P, q, hq, e, d, s, hmax⟩ := softMax_ordered N hM (Floating.weakOn_lt (F := F)) fun i hi => (hv i hi).1
  obtain ⟨_, _, hsz, hrow, _⟩ := hM.facts
  refine ⟨P, _, ?_, d, s, ?_⟩
  · unfold Softmax.forward Softmax.checkSize
    rw [if_pos hrow, hsz]
    simp [hc, e]
  · intro i hi
    obtain ⟨h1, h2⟩ := Floating.softmax_close (F := F) hp hq (fun i hi => (hv i hi).1) (fun i hi => by
      have h : ¬ N.lt (v q) (v i) = true := by rw [hmax i hi]; simp
      rwa [F.lt _ _ (hv q hq).1 (hv i hi).1, not_lt] at h) (fun i hi => by
      have := abs_le_of_near (hv i hi).2
      linarith [hr i hi]) hn hs hi
    refine ⟨h1, ?_, ?_⟩
    · have h3 := softmax_near (n := n) (v := fun j => F.val (v j)) (w := x) (fun j hj => (hv j hj).2) hi
      exact (abs_sub_le _ _ _).trans (by linarith)
    · have h3 := abs_le_of_near h2
      have h4 : |softmax n (fun j => F.val (v j)) i| ≤ 1 := by
        have hpos : 0 < ∑ j ∈ range n, Real.exp (F.val (v j)) := sum_pos (fun j _ => Real.exp_pos _) ⟨i, mem_range.2 hi⟩
        rw [softmax, abs_of_pos (div_pos (Real.exp_pos _) hpos), div_le_one hpos]
        exact single_le_sum (f := fun j => Real.exp (F.val (v j))) (fun j _ => (Real.exp_pos _).le) (mem_range.2 hi)
      linarith

end
end Cnn
