import Verif.Spec.GradRounding
import Verif.Props.Rounding
/-! The bounds of C98 are zero if nothing is rounded. -/
namespace Cnn
open Finset

theorem grown_exact (Ω M m : ℝ) (k n : Nat) : (⟨0, 0, 0, Ω⟩ : Precision).grown k n M m = M - m := by simp [Precision.grown]

theorem slopeErr_exact {Ω x : ℝ} {f : ActFn} (h : f = .leaky → x ≠ 0) : (⟨0, 0, 0, Ω⟩ : Precision).slopeErr x 0 0 f = 0 := by
  cases f with
  | relu =>
    simp only [Precision.slopeErr, neg_zero]
    rw [if_pos (le_or_gt x 0)]
  | leaky =>
    simp only [Precision.slopeErr]
    rw [if_pos]
    have hx := h rfl
    refine abs_pos.2 ?_
    rcases lt_or_gt_of_ne hx with h0 | h0
    · have : actSpec .leaky x = 13421773 / 2 ^ 27 * x := if_neg (not_le.2 h0)
      rw [this]
      exact mul_ne_zero (by norm_num) hx
    · have : actSpec .leaky x = x := if_pos h0.le
      rw [this]
      exact hx
  | linear => rfl
  | sigmoid => simp [Precision.slopeErr, grown_exact]
  | tangent => simp [Precision.slopeErr, grown_exact]

theorem gather_congr {s : Shape} {px py sx sy : Nat} {P Q : Nat → Nat → Nat → Nat → Nat → Prop} {g h : Tensor} {i j k : Nat}
    (hPQ : ∀ a < windows s.X px sx, ∀ c < windows s.Y py sy, (P a c i j k ↔ Q a c i j k) ∧ (Q a c i j k → g a c k = h a c k)) :
    NetLayer.gather s px py sx sy P g i j k = NetLayer.gather s px py sx sy Q h i j k := by
  classical
  unfold NetLayer.gather
  refine sum_congr rfl fun a ha => sum_congr rfl fun c hc => ?_
  obtain ⟨h1, h2⟩ := hPQ a (mem_range.1 ha) c (mem_range.1 hc)
  by_cases hq : Q a c i j k
  · rw [if_pos hq, if_pos (h1.2 hq), h2 hq]
  · rw [if_neg hq, if_neg (mt h1.1 hq)]

/-- The gradient with respect to the input. -/
theorem pullErr_exact {Ω Ω' : ℝ} {s : Shape} {x e g d : Tensor} {l : NetLayer} (he : e = fun _ _ _ => 0) (hc : l.Clear s x)
    (hl : l.err ⟨0, 0, 0, Ω⟩ s x e = fun _ _ _ => 0) (hd : ∀ i < (l.out s).X, ∀ j < (l.out s).Y, ∀ k < (l.out s).Z, d i j k = 0) :
    ∀ i < s.X, ∀ j < s.Y, ∀ k < s.Z, l.pullErr ⟨0, 0, 0, Ω⟩ ⟨0, 0, Ω'⟩ s x e g d i j k = 0 := by
  intro i hi j hj k hk
  have hg : ∀ i < (l.out s).X, ∀ j < (l.out s).Y, ∀ k < (l.out s).Z, NetLayer.upto g d i j k = NetLayer.mags g i j k := by
    intro i hi j hj k hk
    simp [NetLayer.upto, NetLayer.mags, hd i hi j hj k hk]
  unfold NetLayer.pullErr
  rw [grown_exact, sub_eq_zero, hl]
  have hr : NetLayer.recErr ⟨0, 0, Ω'⟩ (l.eval s x) (fun _ _ _ => 0) = fun _ _ _ => 0 := by
    funext i j k
    simp [NetLayer.recErr, Conversion.err]
  rw [hr, he]
  match l, hc, hg with
  | .conv A B C F w β, _, hg =>
    simp only [NetLayer.pullLarge, NetLayer.pullSmall, NetLayer.pull]
    refine sum_congr rfl fun f hf' => sum_congr rfl fun a ha => sum_congr rfl fun b hb => ?_
    rw [hg a (mem_range.1 ha) b (mem_range.1 hb) f (mem_range.1 hf')]
  | .full n w β, _, hg =>
    simp only [NetLayer.pullLarge, NetLayer.pullSmall, NetLayer.pull]
    refine sum_congr rfl fun i hi => ?_
    rw [hg i (mem_range.1 hi) 0 one_pos 0 one_pos]
  | .pool .avg px py sx sy, _, hg =>
    simp only [NetLayer.pullLarge, NetLayer.pullSmall, NetLayer.pull]
    refine gather_congr fun a ha c hc => ⟨Iff.rfl, fun _ => ?_⟩
    rw [hg a ha c hc k hk]
  | .pool .max px py sx sy, hcl, hg =>
    simp only [NetLayer.pullLarge, NetLayer.pullSmall]
    refine gather_congr fun a ha c hc => ⟨?_, fun _ => hg a ha c hc k hk⟩
    simp only [sub_zero, add_zero]
    obtain ⟨i0, j0, h1, h2⟩ := hcl a ha c hc k hk
    constructor
    · rintro ⟨k1, k2⟩
      have : i = i0 ∧ j = j0 := by
        by_contra hne
        exact k2 i0 j0 h1 (fun h => hne ⟨h.1.symm, h.2.symm⟩) (h2 i j k1 hne)
      obtain ⟨rfl, rfl⟩ := this
      exact ⟨h1, h2⟩
    · rintro ⟨k1, k2⟩
      exact ⟨k1, fun i' j' a b => (k2 i' j' a b).not_gt⟩
  | .pool .min px py sx sy, hcl, hg =>
    simp only [NetLayer.pullLarge, NetLayer.pullSmall]
    refine gather_congr fun a ha c hc => ⟨?_, fun _ => hg a ha c hc k hk⟩
    simp only [sub_zero, add_zero]
    obtain ⟨i0, j0, h1, h2⟩ := hcl a ha c hc k hk
    constructor
    · rintro ⟨k1, k2⟩
      have : i = i0 ∧ j = j0 := by
        by_contra hne
        exact k2 i0 j0 h1 (fun h => hne ⟨h.1.symm, h.2.symm⟩) (h2 i j k1 hne)
      obtain ⟨rfl, rfl⟩ := this
      exact ⟨h1, h2⟩
    · rintro ⟨k1, k2⟩
      exact ⟨k1, fun i' j' a b => (k2 i' j' a b).not_gt⟩
  | .act f, hcl, hg =>
    simp only [NetLayer.pullLarge, NetLayer.pullSmall]
    rw [hg i hi j hj k hk, slopeErr_exact, add_zero]
    rintro rfl
    exact hcl i hi j hj k hk
  | .gate .., _, _ => rfl

theorem paramErr_exact {Ω Ω' : ℝ} {s : Shape} {x e g d : Tensor} {l : NetLayer} (he : e = fun _ _ _ => 0)
    (hd : ∀ i < (l.out s).X, ∀ j < (l.out s).Y, ∀ k < (l.out s).Z, d i j k = 0) :
    (∀ a < (l.weightShape s).X, ∀ b < (l.weightShape s).Y, ∀ c < (l.weightShape s).Z, l.weightErr ⟨0, 0, 0, Ω⟩ ⟨0, 0, Ω'⟩ s x e g d a b c = 0) ∧
    ∀ f < l.biasCount, l.biasErr ⟨0, 0, 0, Ω⟩ s g d f = 0 := by
  have hg : ∀ i < (l.out s).X, ∀ j < (l.out s).Y, ∀ k < (l.out s).Z, NetLayer.upto g d i j k = NetLayer.mags g i j k := by
    intro i hi j hj k hk
    simp [NetLayer.upto, NetLayer.mags, hd i hi j hj k hk]
  have hx : NetLayer.upto x (NetLayer.recErr ⟨0, 0, Ω'⟩ x e) = NetLayer.mags x := by
    funext i j k
    simp [NetLayer.upto, NetLayer.mags, NetLayer.recErr, Conversion.err, he]
  constructor
  · intro a ha b hb c hc
    unfold NetLayer.weightErr
    rw [grown_exact, sub_eq_zero, hx]
    match l, ha, hb, hc, hg with
    | .conv A B C F w β, ha, hb, hc, hg =>
      simp only [NetLayer.weightGrad]
      refine sum_congr rfl fun i hi => sum_congr rfl fun j hj => ?_
      rw [hg i (mem_range.1 hi) j (mem_range.1 hj) (c / C) ((Nat.div_lt_iff_lt_mul (by
        rcases Nat.eq_zero_or_pos C with h | h
        · subst h; simp [NetLayer.weightShape] at hc
        · exact h)).2 (by rw [Nat.mul_comm]; exact hc))]
    | .full n w β, ha, hb, hc, hg =>
      show NetLayer.upto g d a 0 0 * _ = NetLayer.mags g a 0 0 * _
      rw [hg a ha 0 one_pos 0 one_pos]
    | .pool .., _, _, _, _ => rfl
    | .act .., _, _, _, _ => rfl
    | .gate .., _, _, _, _ => rfl
  · intro f hf
    unfold NetLayer.biasErr
    rw [grown_exact, sub_eq_zero]
    match l, hf, hg with
    | .conv A B C F w β, hf, hg =>
      simp only [NetLayer.biasGrad]
      refine sum_congr rfl fun i hi => sum_congr rfl fun j hj => ?_
      rw [hg i (mem_range.1 hi) j (mem_range.1 hj) f hf]
    | .full n w β, hf, hg => exact hg f hf 0 one_pos 0 one_pos
    | .pool .., _, _ => rfl
    | .act .., _, _ => rfl
    | .gate .., _, _ => rfl

theorem net_exact {Ω Ω' : ℝ} {n t : Nat} {ls : List NetLayer} {s : Shape} {x : Tensor} (hc : NetClear ls s x) :
    (∀ i < s.X, ∀ j < s.Y, ∀ k < s.Z, netGradErr ⟨0, 0, 0, Ω⟩ ⟨0, 0, Ω'⟩ n t 0 ls s x (fun _ _ _ => 0) i j k = 0) ∧
    ∀ i l, ls[i]? = some l →
      (∀ a < (l.weightShape (netOut (ls.take i) s)).X, ∀ b < (l.weightShape (netOut (ls.take i) s)).Y, ∀ c < (l.weightShape (netOut (ls.take i) s)).Z,
        netWeightErr ⟨0, 0, 0, Ω⟩ ⟨0, 0, Ω'⟩ n t 0 i ls s x (fun _ _ _ => 0) a b c = 0) ∧
      ∀ f < l.biasCount, netBiasErr ⟨0, 0, 0, Ω⟩ ⟨0, 0, Ω'⟩ n t 0 i ls s x (fun _ _ _ => 0) f = 0 := by
  induction ls generalizing s x with
  | nil =>
    refine ⟨fun i _ j _ k _ => ?_, by simp⟩
    have h : ∀ v i, probErr ⟨0, 0, 0, Ω⟩ ⟨0, 0, Ω'⟩ n 0 v i = 0 := by
      intro v i
      simp [probErr, Conversion.err, Precision.softmaxErr, Precision.sumErr, Precision.expErr]
    simp [netGradErr, lossErr, h, grown_exact]
  | cons l ls ih =>
    have hl : l.err ⟨0, 0, 0, Ω⟩ s x (fun _ _ _ => 0) = fun _ _ _ => 0 := by
      have := (C84_exact Ω [l] s x n).1
      simpa [netErr] using this
    obtain ⟨k1, k2⟩ := ih hc.2
    rw [← hl] at k1 k2
    refine ⟨pullErr_exact rfl hc.1 hl k1, ?_⟩
    intro i l' h
    cases i with
    | zero =>
      obtain rfl : l = l' := by simpa using h
      exact paramErr_exact rfl k1
    | succ i => exact k2 i l' (by simpa using h)

end Cnn
