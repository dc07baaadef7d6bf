import Verif.Lemmas.Pooling
import Verif.Lemmas.Kernel
import Verif.Spec.GradRounding
/-! Entries of gradients as sums in the order of the program, without any law of arithmetic (C98). -/
namespace Cnn

section
variable {α : Type} [Zero α] [Add α]

theorem pickTo_zero (c : Nat → Bool) (t : Nat → α) : pickTo 0 c t = 0 := rfl

theorem pickTo_succ (n : Nat) (c : Nat → Bool) (t : Nat → α) : pickTo (n + 1) c t = if c n then pickTo n c t + t n else pickTo n c t := by
  unfold pickTo
  rw [List.range_succ, List.foldl_append]
  rfl

end

namespace Pooling
variable {α : Type} [Zero α] [Add α] [Div α] {X Y Z px py sx sy : Nat}

/-- MIN and MAX. -/
theorem backward_select_ordered (N : Num α) (P : Pooling) (M Q G : Matrix α) (b : Nat)
    (ind : Matrix Dim3) {W H : Nat} (hM : M.dim = dimN X Y Z) (g : Good X Y Z) (ht : P.type ≠ .avg)
    (hi : P.indices[b]? = some ind) (u v w : Nat → Nat → Nat → Nat)
    (hind : ind.Shows W H Z (fun i j k => dimN (u i j k) (v i j k) (w i j k)))
    (hin : ∀ i < W, ∀ j < H, ∀ k < Z, u i j k < X ∧ v i j k < Y ∧ w i j k < Z) (d : Nat → Nat → Nat → α)
    (hG : G.Shows W H Z d) :
    ∃ D, P.backward N M Q G b = .ok D ∧ D.Shows X Y Z (fun i j k => pickTo (W * H * Z)
      (fun m => decide (u (m % W) (m / W % H) (m / W / H) = i ∧ v (m % W) (m / W % H) (m / W / H) = j ∧ w (m % W) (m / W % H) (m / W / H) = k))
      (fun m => d (m % W) (m / W % H) (m / W / H))) := by
  have go := hind.good
  obtain ⟨D0, e0, s0⟩ := Matrix.ofDim_shows g (0 : α)
  obtain ⟨D, el, sD⟩ := forRange_inv (σ := Matrix α) go.x go.y (Z := Z)
    (fun n D => D.Shows X Y Z (fun i j k => pickTo n
      (fun m => decide (u (m % W) (m / W % H) (m / W / H) = i ∧ v (m % W) (m / W % H) (m / W / H) = j ∧ w (m % W) (m / W % H) (m / W / H) = k))
      (fun m => d (m % W) (m / W % H) (m / W / H))))
    (fun (D : Matrix α) it => do
      let p ← ind.flat it.scalar
      let g ← G.read it.idx
      let a ← D.read p
      D.write p (a + g)) D0 (s0.congr (by intros; rfl)) (by
      intro p hp q hq l hl D hD
      obtain ⟨h1, h2, h3⟩ := hin p hp q hq l hl
      have hfl : ind.flat (fl W H p q l) = _ := hind.flat_fl hp hq hl
      have hrd := hD.entry _ h1 _ h2 _ h3
      obtain ⟨D', e', s'⟩ := hD.write h1 h2 h3 (pickTo (fl W H p q l)
        (fun m => decide (u (m % W) (m / W % H) (m / W / H) = u p q l ∧ v (m % W) (m / W % H) (m / W / H) = v p q l ∧ w (m % W) (m / W % H) (m / W / H) = w p q l))
        (fun m => d (m % W) (m / W % H) (m / W / H)) + d p q l)
      refine ⟨D', ?_, s'.congr ?_⟩
      · simp only [hfl, Res.bind_ok, hG.entry p hp q hq l hl, hrd]
        exact e'
      · intro i _ j _ k _
        rw [pickTo_succ, fl_mod hp, fl_div_mod hp hq, fl_div_div hp hq]
        by_cases c : i = u p q l ∧ j = v p q l ∧ k = w p q l
        · obtain ⟨rfl, rfl, rfl⟩ := c
          simp
        · have c' : ¬ (u p q l = i ∧ v p q l = j ∧ w p q l = k) := fun h => c ⟨h.1.symm, h.2.1.symm, h.2.2.symm⟩
          simp only [c, c', if_false, decide_false, Bool.false_eq_true])
  refine ⟨D, ?_, sD⟩
  unfold backward getdLdX
  rw [hM, e0, Res.bind_ok, hi, Res.ofOption_some, Res.bind_ok]
  cases htt : P.type with
  | avg => exact absurd htt ht
  | min => simp only [hind.dim]; exact el
  | max => simp only [hind.dim]; exact el

/-- AVG. -/
theorem backward_avg_ordered (N : Num α) (P : Pooling) (M Q G : Matrix α) (b : Nat)
    (hM : M.dim = dimN X Y Z) (g : Good X Y Z) (hd : P.dim = ⟨px, py⟩) (hs : P.stride = ⟨sx, sy⟩)
    (hf : PoolFits X Y px py sx sy) (hb : b < P.indices.length) (ht : P.type = .avg) (d : Nat → Nat → Nat → α)
    (hG : G.Shows (windows X px sx) (windows Y py sy) Z d) :
    ∃ D, P.backward N M Q G b = .ok D ∧ D.Shows X Y Z (fun i j k => pickTo (windows X px sx * windows Y py sy * Z)
      (fun m => decide (inBox (m % windows X px sx * sx) (m / windows X px sx % windows Y py sy * sy) (m / windows X px sx / windows Y py sy) px py 1 i j k))
      (fun m => d (m % windows X px sx) (m / windows X px sx % windows Y py sy) (m / windows X px sx / windows Y py sy) / N.ofNat (px * py))) := by
  have go := good_out g hf
  have hxy : px * py < 2147483648 := lt_of_le_of_lt (Nat.mul_le_mul hf.x hf.y) g.bounds.1
  obtain ⟨D0, e0, s0⟩ := Matrix.ofDim_shows g (0 : α)
  obtain ⟨D, el, sD⟩ := forRange_inv (σ := Matrix α) go.x go.y (Z := Z)
    (fun n D => D.Shows X Y Z (fun i j k => pickTo n
      (fun m => decide (inBox (m % windows X px sx * sx) (m / windows X px sx % windows Y py sy * sy) (m / windows X px sx / windows Y py sy) px py 1 i j k))
      (fun m => d (m % windows X px sx) (m / windows X px sx % windows Y py sy) (m / windows X px sx / windows Y py sy) / N.ofNat (px * py))))
    (fun (D : Matrix α) it => do
      let inIdx ← P.corner it.idx
      let v ← View.create D.dim inIdx P.window
      let g ← G.flat it.scalar
      v.opScalar (· + ·) D (fun _ => .ok (g / N.ofNat (u64 (P.dim.x * P.dim.y))))) D0 (s0.congr (by intros; rfl)) (by
      intro p hp q hq l hl D hD
      have hb := box (Z := Z) hf hp hq hl
      obtain ⟨D', e', s'⟩ := View.opScalar_shows (· + ·) hD hb hf.px0 hf.py0 (d p q l / N.ofNat (px * py))
      refine ⟨D', ?_, s'.congr ?_⟩
      · rw [hD.dim]
        simp only [corner_eq g hf hs hp hq, Res.bind_ok]
        rw [show P.window = dimN px py 1 by simp [window, hd], View.create_ok g hb, Res.bind_ok]
        simp only [hG.flat_fl hp hq hl, Res.bind_ok]
        rw [hd, show ((px : Int) * (py : Int)) = ((px * py : Nat) : Int) by push_cast; rfl, u64_nat (by omega)]
        exact e'
      · intro i _ j _ k _
        rw [pickTo_succ, fl_mod hp, fl_div_mod hp hq, fl_div_div hp hq]
        by_cases c : inBox (p * sx) (q * sy) l px py 1 i j k
        · simp only [c, if_true, decide_true]
        · simp only [c, if_false, decide_false, Bool.false_eq_true])
  refine ⟨D, ?_, sD⟩
  unfold backward getdLdX
  rw [hM, e0, Res.bind_ok, List.getElem?_eq_getElem hb, Res.ofOption_some, Res.bind_ok]
  simp only [ht, hG.dim]
  exact el

end Pooling

namespace Kernel

/-- The bias gradient. -/
theorem getdLdB_ordered {α : Type} [Zero α] [Add α] {A B C F : Nat} {K : Kernel α} {w : Nat → Nat → Nat → α}
    {β : Nat → α} (hK : K.Is A B C F 1 w β) {W H : Nat} {G : Matrix α} {g : Nat → Nat → Nat → α} (hG : G.Shows W H F g) :
    ∃ D, K.getdLdB G = .ok D ∧ D.Shows F 1 1 (fun f _ _ => sumTo (W * H) (fun m => g (m % W) (m / W % H) f)) := by
  obtain ⟨D0, e0, s0⟩ := Matrix.ofDim_shows hK.biases.good (0 : α)
  obtain ⟨D, e1, s1⟩ := foldlM_range_inv (fun n (M' : Matrix α) => n ≤ F → M'.Shows F 1 1
      (fun f _ _ => if f < n then sumTo (W * H) (fun m => g (m % W) (m / W % H) f) else 0)) F
    (fun (dLdB : Matrix α) (f : Nat) => do
      let v ← View.slice G.dim f
      let s ← (v.expr G).sum
      dLdB.setFlat f s) D0 (fun _ => s0.congr (by simp)) (by
      intro f hf M' hM'
      have hM' := hM' (by omega)
      obtain ⟨eg, sg⟩ := slice_shows hG hf
      obtain ⟨M2, e2, s2⟩ := hM'.setFlat (n := f) (by omega) (sumTo (W * H * 1) (fun m => g (m % W) (m / W % H) f))
      refine ⟨M2, ?_, fun _ => s2.congr ?_⟩
      · rw [eg, Res.bind_ok, MExpr.sum_eq_sumTo sg, Res.bind_ok]; exact e2
      · intro i hi j hj k hk
        obtain rfl : j = 0 := by omega
        obtain rfl : k = 0 := by omega
        have : fl F 1 i 0 0 = i := by unfold fl; omega
        rw [this]
        by_cases h : i = f
        · subst h
          rw [if_pos (by omega), if_pos (by omega), Nat.mul_one]
        · rw [if_neg h]
          by_cases h' : i < f
          · rw [if_pos h', if_pos (by omega)]
          · rw [if_neg h', if_neg (by omega)])
  refine ⟨D, ?_, (s1 (le_refl _)).congr ?_⟩
  · unfold getdLdB
    rw [hK.biases.dim, e0, Res.bind_ok, hK.num]
    exact e1
  · intro f hf _ _ _ _
    rw [if_pos hf]

end Kernel
end Cnn
