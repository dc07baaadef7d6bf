import Verif.Lemmas.GradEntry
import Verif.Lemmas.NetPass
/-! The formulas of C98 are the gradients of the loss. -/
namespace Cnn
open Finset

theorem gather_total {s : Shape} {px py sx sy : Nat} {P : Nat → Nat → Nat → Nat → Nat → Prop} {T : Nat → Nat → Nat → Nat → Nat → Nat → Prop}
    [∀ a c l i j k, Decidable (T a c l i j k)] {g : Tensor} {i j k : Nat} (hk : k < s.Z)
    (h : ∀ a c l, T a c l i j k ↔ l = k ∧ P a c i j k) :
    NetLayer.gather s px py sx sy P g i j k =
      total (windows s.X px sx) (windows s.Y py sy) s.Z (fun a c l => if T a c l i j k then g a c l else 0) := by
  classical
  unfold NetLayer.gather total
  refine sum_congr rfl fun a _ => sum_congr rfl fun c _ => ?_
  rw [sum_eq_single k (fun l _ hl => if_neg fun h' => hl ((h a c l).1 h').1) (fun hk' => absurd (mem_range.2 hk) hk')]
  by_cases hP : P a c i j k
  · rw [if_pos hP, if_pos ((h a c k).2 ⟨rfl, hP⟩)]
  · rw [if_neg hP, if_neg fun h' => hP ((h a c k).1 h').2]

theorem LayerAdj.congr {l : NetLayer} {s : Shape} {x g d d' : Tensor} (h : LayerAdj l s x g d)
    (he : ∀ i < s.X, ∀ j < s.Y, ∀ k < s.Z, d' i j k = d i j k) : LayerAdj l s x g d' := by
  intro θ γ γ' hγ
  obtain ⟨δ', hc, e⟩ := h θ γ γ' hγ
  exact ⟨δ', hc, e.trans (total_congr fun i hi j hj k hk => by rw [he i hi j hj k hk])⟩

/-- The choice in a window of a MAX or MIN layer. -/
theorem chosen_best {le : ℝ → ℝ → Prop} {px py sx sy : Nat} {s : Shape} {x : Tensor} {l' : NetLayer} (g : Tensor)
    (hf : PoolFits s.X s.Y px py sx sy) (ho : l'.out s = ⟨windows s.X px sx, windows s.Y py sy, s.Z⟩)
    (hex : ∀ i j k, NetLayer.chosen le px py sx sy x i j k % px < px ∧ NetLayer.chosen le px py sx sy x i j k / px < py)
    (hloc : ∀ θ γ γ', Curve s x γ γ' θ → ∀ i < windows s.X px sx, ∀ j < windows s.Y py sy, ∀ k < s.Z,
      (fun τ => l'.eval s (γ τ) i j k) =ᶠ[nhds θ] fun τ =>
        γ τ (i * sx + NetLayer.chosen le px py sx sy x i j k % px) (j * sy + NetLayer.chosen le px py sx sy x i j k / px) k) :
    LayerAdj l' s x g (NetLayer.gather s px py sx sy (fun a c i j k => i = a * sx + NetLayer.chosen le px py sx sy x a c k % px ∧
      j = c * sy + NetLayer.chosen le px py sx sy x a c k / px) g) := by
  refine (select_adj x g (fun i j k => i * sx + NetLayer.chosen le px py sx sy x i j k % px)
    (fun i j k => j * sy + NetLayer.chosen le px py sx sy x i j k / px) ho ?_ hloc).congr ?_
  · intro i hi j hj k hk
    have := windows_inside hf.x hi
    have := windows_inside hf.y hj
    obtain ⟨h1, h2⟩ := hex i j k
    exact ⟨by omega, lt_of_lt_of_le (Nat.add_lt_add_left h2 _) (by omega)⟩
  · intro i hi j hj k hk
    refine gather_total (T := fun p q l i j k => p * sx + NetLayer.chosen le px py sx sy x p q l % px = i ∧
      q * sy + NetLayer.chosen le px py sx sy x p q l / px = j ∧ l = k) hk ?_
    intro a c l
    constructor
    · rintro ⟨h1, h2, rfl⟩
      exact ⟨rfl, h1.symm, h2.symm⟩
    · rintro ⟨rfl, h1, h2⟩
      exact ⟨h1.symm, h2.symm, rfl⟩

theorem pull_adj {l l' : NetLayer} {s : Shape} {x : Tensor} (g : Tensor) (hs : l.Stands s x l') (hf : l.Fits s) (ht : l.Trains false s)
    (hX : 0 < s.X) (hY : 0 < s.Y) (hg : ∀ X Y U V S D, l ≠ .gate X Y U V S D) : LayerAdj l' s x g (l.pull s x g) := by
  cases l with
  | conv A B C F w β =>
    obtain rfl := hs.eq (by simp [NetLayer.params])
    obtain ⟨hz, hfit⟩ := hf
    simp only [NetLayer.Trains, Bool.false_eq_true, false_or] at ht
    have hx := hfit.x
    have hy := hfit.y
    have := conv_adj (A := A) (B := B) (C := C) (F := F) (w := w) (β := β) (s := s) x g (S := s.X - A + 1) (by omega) (by omega) hz (by omega)
    have e : s.Y - B + 1 = s.X - A + 1 := by omega
    simpa only [NetLayer.pull, e] using this
  | full n w β =>
    obtain rfl := hs.eq (by simp [NetLayer.params])
    exact full_adj x g hX hY
  | act f =>
    rcases hs with ⟨rfl, hsm⟩ | rfl
    · refine act_adj x g (fun i j k => actSlope f (actSpec f (x i j k))) ?_
      intro i hi j hj k hk
      rcases hsm with rfl | ⟨rfl, hsm⟩
      · exact hasDerivAt_id _
      · refine (relu_deriv (hsm i hi j hj k hk)).congr_deriv ?_
        have e : actSpec .relu (x i j k) = max (x i j k) 0 := rfl
        simp only [actSlope]
        by_cases h : 0 < x i j k
        · rw [if_pos h, if_pos (by rw [e]; exact lt_of_lt_of_le h (le_max_left _ _))]
        · rw [if_neg h, if_neg (by rw [e, max_eq_right (not_lt.mp h)]; exact lt_irrefl _)]
    · exact gate_adj f x g
  | gate X Y U V S D => exact absurd rfl (hg X Y U V S D)
  | pool t px py sx sy =>
    have hf : PoolFits s.X s.Y px py sx sy := hf
    have hmax : ∀ i j k, _ := fun i j k => NetLayer.chosen_mem (le := (· ≤ ·)) sx sy x i j k hf.px0
      (exists_max_image (range (px * py)) _ ⟨0, mem_range.2 (Nat.mul_pos hf.px0 hf.py0)⟩)
    have hmin : ∀ i j k, _ := fun i j k => NetLayer.chosen_mem (le := (· ≥ ·)) sx sy x i j k hf.px0
      (exists_min_image (range (px * py)) (fun m => x (i * sx + m % px) (j * sy + m / px) k) ⟨0, mem_range.2 (Nat.mul_pos hf.px0 hf.py0)⟩)
    cases t with
    | avg =>
      obtain rfl : l' = .pool .avg px py sx sy := by
        rcases hs with ⟨h, _⟩ | h
        · exact h
        · exact h
      refine (avg_adj x g hf).congr ?_
      intro i hi j hj k hk
      refine gather_total (P := fun a c i j _ => NetLayer.Inside px py sx sy a c i j) (g := fun i j k => g i j k / ((px : ℝ) * (py : ℝ)))
        (T := fun p q l i j k => inBox (p * sx) (q * sy) l px py 1 i j k) hk ?_
      intro a c l
      rw [Floating.inBox_iff, and_comm]
    | max =>
      have hex := fun i j k => (⟨(hmax i j k).1, (hmax i j k).2.1⟩ : _ ∧ _)
      refine chosen_best g hf hs.out hex ?_
      intro θ γ γ' hγ i hi j hj k hk
      rcases hs with ⟨rfl, hsm⟩ | rfl
      · obtain ⟨p, hp, q, hq, h⟩ := hsm i hi j hj k hk
        obtain ⟨h1, h2, h3⟩ := hmax i j k
        have hpq : NetLayer.chosen (· ≤ ·) px py sx sy x i j k % px = p ∧ NetLayer.chosen (· ≤ ·) px py sx sy x i j k / px = q := by
          by_contra hne
          exact absurd (h3 p hp q hq) (not_le.2 (h _ h1 _ h2 hne))
        rw [hpq.1, hpq.2]
        exact max_local hf hγ hi hj hk hp hq h
      · simp only [NetLayer.surrogate, NetLayer.selects, NetLayer.eval, one_mul, add_zero]
        exact Filter.EventuallyEq.rfl
    | min =>
      have hex := fun i j k => (⟨(hmin i j k).1, (hmin i j k).2.1⟩ : _ ∧ _)
      refine chosen_best g hf hs.out hex ?_
      intro θ γ γ' hγ i hi j hj k hk
      rcases hs with ⟨rfl, hsm⟩ | rfl
      · obtain ⟨p, hp, q, hq, h⟩ := hsm i hi j hj k hk
        obtain ⟨h1, h2, h3⟩ := hmin i j k
        have hpq : NetLayer.chosen (· ≥ ·) px py sx sy x i j k % px = p ∧ NetLayer.chosen (· ≥ ·) px py sx sy x i j k / px = q := by
          by_contra hne
          exact absurd (h3 p hp q hq) (not_le.2 (h _ h1 _ h2 hne))
        rw [hpq.1, hpq.2]
        exact min_local hf hγ hi hj hk hp hq h
      · simp only [NetLayer.surrogate, NetLayer.selects, NetLayer.eval, one_mul, add_zero]
        exact Filter.EventuallyEq.rfl

theorem param_adj {l : NetLayer} {s : Shape} (x g : Tensor) (hl : l.params ≠ none) (hC : ∀ A B C F w β, l = .conv A B C F w β → 0 < C) :
    ParamAdj l s x g (l.weightGrad s x g) (l.biasGrad s g) := by
  cases l with
  | conv A B C F w β => exact conv_param x g (hC _ _ _ _ _ _ rfl)
  | full n w β => exact full_param x g
  | _ => exact absurd rfl hl

/-- No layer of the network is a `gate`, which no layer object computes. -/
def NetPlain (ls : List NetLayer) : Prop := ∀ l ∈ ls, ∀ X Y U V S D, l ≠ .gate X Y U V S D

/-- All shapes are proper. -/
def NetShapes (s : Shape) (ls : List NetLayer) : Prop := ∀ i ≤ ls.length, Good (netOut (ls.take i) s).X (netOut (ls.take i) s).Y (netOut (ls.take i) s).Z

theorem NetShapes.tail {s : Shape} {l : NetLayer} {ls : List NetLayer} (h : NetShapes s (l :: ls)) : NetShapes (l.out s) ls := fun i hi => by
  have := h (i + 1) (by simpa using hi)
  simpa [netOut] using this

theorem net_true {ls ls' : List NetLayer} {s : Shape} {x : Tensor} {n t : Nat} (ht : t < n) (first : Bool) (hs : NetStands ls s x ls')
    (hf : NetFits ls s) (htr : NetTrains first ls s) (hg : NetPlain ls) (hsh : NetShapes s ls)
    (hout : netOut ls s = ⟨n, 1, 1⟩ ∨ netOut ls s = ⟨1, n, 1⟩) :
    (first = false → IsGrad ls' s n t x (netGrad n t ls s x)) ∧
    ∀ i l, ls[i]? = some l → l.params ≠ none → NetParamGrad ls' i s n t x (netWeightGrad n t i ls s x) (netBiasGrad n t i ls s x) := by
  induction ls generalizing ls' s x first with
  | nil =>
    obtain rfl : ls' = [] := hs
    refine ⟨fun _ => ?_, by simp⟩
    have hgood := hsh 0 le_rfl
    simp only [List.take_zero, netOut] at hgood hout
    refine IsGrad.nil ht (by rcases hout with h | h <;> rw [h] <;> simp) hgood.x hgood.y _ _ ?_
    intro i hi
    rcases hout with h | h <;> rw [h] <;> simp [flatOf, netGrad, lossGrad, Nat.mod_eq_of_lt hi, Nat.mod_one]
  | cons l ls ih =>
    obtain ⟨m, r, rfl, hs1, hs2⟩ := hs
    obtain ⟨hf1, hf2⟩ := hf
    obtain ⟨ht1, ht2⟩ := htr
    have ho := hs1.out
    have he := hs1.eval hf1
    obtain ⟨k1, k2⟩ := ih false hs2 hf2 ht2 (fun l h => hg l (List.mem_cons_of_mem _ h)) hsh.tail hout
    have hd := k1 rfl
    rw [← ho, ← he] at hd
    have hgood := hsh 0 (by simp)
    simp only [List.take_zero, netOut] at hgood
    refine ⟨?_, ?_⟩
    · rintro rfl
      have := hd.cons (pull_adj _ hs1 hf1 ht1 hgood.x hgood.y (hg l (by simp)))
      rw [ho, he] at this
      exact this
    · intro i l' hl' hp
      cases i with
      | zero =>
        obtain rfl : l = l' := by simpa using hl'
        intro l2 w β hl2 hp2 θ W W' C C' hW hC hC'
        obtain rfl : m = l2 := by simpa using hl2
        obtain rfl := hs1.eq hp
        have := IsParamGrad.of hd (param_adj x _ hp (by
          rintro A B C F w β rfl
          obtain ⟨hz, _⟩ := hf1
          rw [← hz]; exact hgood.z)) w β hp2 θ W W' C C' hW hC hC'
        exact this
      | succ i =>
        have q4 := k2 i l' (by simpa using hl') hp
        intro l2 w β hl2 hp2 θ W W' C C' hW hC hC'
        have e1 : ∀ τ, netLoss ((m :: r).set (i + 1) (l2.withParams (W τ) (C τ))) s n t x = netLoss (r.set i (l2.withParams (W τ) (C τ))) (l.out s) n t (l.eval s x) := by
          intro τ
          rw [← ho, ← he]
          rfl
        have e2 : netOut ((m :: r).take (i + 1)) s = netOut (r.take i) (l.out s) := by
          rw [← ho]
          rfl
        simp only [e1, e2]
        rw [e2] at hW
        exact q4 l2 w β (by simpa using hl2) hp2 θ W W' C C' hW hC hC'

end Cnn
