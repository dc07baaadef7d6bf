import Verif.Spec.Connected
import Verif.Lemmas.Params
/-! Helper lemmas: the fully connected layer. -/
namespace Cnn
variable {α : Type} {X Y Z n m : Nat}

/-- `M.reshape(M.size(), 1, 1)`. -/
theorem Matrix.reshape_column {M : Matrix α} {x : Nat → Nat → Nat → α} (hM : M.Shows X Y Z x) :
    ∃ v, M.reshape ⟨wrap32 ((X * Y * Z : Nat) : Int), 1, 1⟩ = .ok v ∧ v.Shows (X * Y * Z) 1 1 (fun k _ _ => flatOf X Y x k) := by
  have g := hM.good
  have b := g.bounds
  have hs := g.small
  refine ⟨⟨dimN (X * Y * Z) 1 1, M.vals⟩, ?_, ?_⟩
  · unfold Matrix.reshape
    rw [wrap32_nat hs]
    have : (⟨((X * Y * Z : Nat) : Int), 1, 1⟩ : Dim3) = dimN (X * Y * Z) 1 1 := rfl
    rw [this, hM.dim, volume_dimN (by omega) (by omega), volume_dimN b.1 hs, Res.bind_ok, Res.bind_ok, if_neg (by simp)]
  · refine Matrix.Shows.of_flat ⟨?_, by omega, by omega, by omega⟩ rfl (by simp [hM.length]) ?_
    · exact Nat.mul_pos (Nat.mul_pos g.x g.y) g.z
    · intro k hk
      simp only [Nat.mul_one] at hk
      have e := hM.flat_lt hk
      have h1 : k % (X * Y * Z) = k := Nat.mod_eq_of_lt hk
      rw [h1]
      exact e

namespace Connected
variable [Zero α] [Add α] [Mul α]

omit [Zero α] [Add α] [Mul α] in
theorem expected_eq {L : Connected α} {β : Nat → Nat → Nat → α} {M : Matrix α} {x : Nat → Nat → Nat → α}
    (hL : L.biases.Shows n 1 1 β) (hM : M.Shows X Y Z x) : L.expected M = .ok (dimN n (X * Y * Z) 1) := by
  have hn := hL.good.bounds.2.1
  have hs := hM.good.small
  unfold expected
  rw [hL.dim, MExpr.sizeD_dimN hL.good, hM.dim, MExpr.sizeD_dimN hM.good]
  simp only [Res.bind_ok, Nat.mul_one]
  rw [wrap32_nat hn, wrap32_nat hs]
  rfl

theorem compute_shows {L : Connected α} {w : Nat → Nat → α} {β : Nat → α} {M : Matrix α} {x : Nat → Nat → Nat → α}
    (hL : L.Is n (X * Y * Z) w β) (hM : M.Shows X Y Z x) :
    ∃ out, L.compute M = .ok out ∧ out.Shows n 1 1 (fun i _ _ => affine w β (X * Y * Z) (flatOf X Y x) i) := by
  obtain ⟨v, e1, s1⟩ := Matrix.reshape_column hM
  obtain ⟨P, e2, s2⟩ := MExpr.matMul_shows hL.weights.expr s1.expr hL.biases.good
  obtain ⟨E, e3, s3⟩ := MExpr.bin_shows (· + ·) s2 hL.biases.expr
  obtain ⟨out, e4, s4⟩ := Matrix.ofExpr_shows s3 id
  refine ⟨out, ?_, s4⟩
  unfold compute
  rw [hM.dim, MExpr.sizeD_dimN hM.good, Res.bind_ok, e1, Res.bind_ok, e2, Res.bind_ok, e3, Res.bind_ok, e4]

/-- First input of a new layer. -/
theorem first_shows [Div α] (N : Num α) (draws : Nat → α) {L : Connected α} {β : Nat → α} {M : Matrix α}
    {x : Nat → Nat → Nat → α} (hi : L.initialized = false) (hL : L.biases.Shows n 1 1 (fun i _ _ => β i))
    (hM : M.Shows X Y Z x) (g : Good n (X * Y * Z) 1) :
    ∃ L' : Connected α, L.checkSize N draws M = (.ok true, L') ∧ L'.inputDim = dimN X Y Z ∧
      L'.wGrads = L.wGrads ∧ L'.bGrads = L.bGrads ∧
      L'.Is n (X * Y * Z) (fun i k => draws (i + n * k) / normOf N (n * (X * Y * Z)) draws)
        (fun i => draws (n * (X * Y * Z) + i) / normOf N n (fun r => draws (n * (X * Y * Z) + r))) := by
  obtain ⟨W, e1, s1⟩ := Matrix.ofDim_shows g (0 : α)
  obtain ⟨W', B', e2, s2, s3⟩ := initParams_shows N draws s1 hL
  refine ⟨{ L with initialized := true, inputDim := M.dim, weights := W', biases := B' }, ?_, hM.dim, rfl, rfl, ?_, ?_, rfl⟩
  · unfold checkSize
    rw [expected_eq hL hM]
    simp only [hi]
    have : L.initWeights N draws (dimN n (X * Y * Z) 1) = .ok (W', B') := by
      unfold initWeights; rw [e1, Res.bind_ok, e2]
    rw [this]
    rfl
  · refine s2.congr ?_
    intro i _ j _ k hk
    obtain rfl : k = 0 := by omega
    have : fl n (X * Y * Z) i j 0 = i + n * j := by unfold fl; simp [Nat.mul_comm]
    rw [this, Nat.mul_one]
  · refine s3.congr ?_
    intro i _ j _ k hk
    rw [Nat.mul_one]

/-- Any later input. -/
theorem later_check [Div α] (N : Num α) (draws : Nat → α) {L : Connected α} {w : Nat → Nat → α} {β : Nat → α} {M : Matrix α}
    {x : Nat → Nat → Nat → α} (hL : L.Is n m w β) (hM : M.Shows X Y Z x) :
    L.checkSize N draws M = (.ok (decide (X * Y * Z = m)), L) := by
  unfold checkSize
  rw [expected_eq hL.biases hM]
  simp only [hL.initialized, if_true, hL.weights.dim]
  congr 2
  rw [decide_eq_decide, dimN_inj]
  constructor
  · rintro ⟨_, h, _⟩; exact h.symm
  · intro h; exact ⟨rfl, h.symm, rfl⟩

/-- The gradient of the weights. -/
theorem getdLdW_shows {M G : Matrix α} {x : Nat → Nat → Nat → α} {g : Nat → α} (hM : M.Shows X Y Z x)
    (hG : G.Shows n 1 1 (fun i _ _ => g i)) (good : Good n (X * Y * Z) 1) :
    ∃ D, getdLdW .dimsFirst M G = .ok D ∧
      D.Shows n (X * Y * Z) 1 (fun i k _ => sumTo 1 (fun _ => g i * flatOf X Y x k)) := by
  obtain ⟨v, e1, s1⟩ := Matrix.reshape_column hM
  obtain ⟨P, e2, s2⟩ := MExpr.matMulP_shows .kept ArgOrder.dimsFirst.pass (by decide) (by decide) hG.expr
    (MExpr.transpose_shows s1.expr) good
  obtain ⟨out, e4, s4⟩ := Matrix.ofExpr_shows s2 id
  refine ⟨out, ?_, s4⟩
  unfold getdLdW
  rw [hM.dim, MExpr.sizeD_dimN hM.good, Res.bind_ok, e1, Res.bind_ok, e2, Res.bind_ok, e4]

/-- The gradient of the input, in the shape stored in the layer. -/
theorem getdLdX_shows {L : Connected α} {w : Nat → Nat → α} {β : Nat → α} {G : Matrix α} {g : Nat → α}
    (hL : L.Is n (X * Y * Z) w β) (hd : L.inputDim = dimN X Y Z) (hX : 0 < X) (hY : 0 < Y)
    (hG : G.Shows n 1 1 (fun i _ _ => g i)) :
    ∃ D, L.getdLdX .dimsFirst G = .ok D ∧ D.Shows X Y Z (fun a b c => sumTo n (fun i => w i (fl X Y a b c) * g i)) := by
  have bw := hL.weights.good.bounds
  have hpos : 0 < X * Y * Z := hL.weights.good.y
  have hZ : 0 < Z := Nat.pos_of_ne_zero (by rintro rfl; simp at hpos)
  have hXY : X * Y < 2147483648 := lt_of_le_of_lt (Nat.le_mul_of_pos_right _ hZ) bw.2.2.1
  have g1 : Good (X * Y * Z) 1 1 := ⟨hpos, by decide, by decide, by omega⟩
  have g2 : Good X Y Z := ⟨hX, hY, hZ, by omega⟩
  obtain ⟨P, e2, s2⟩ := MExpr.matMulP_shows ArgOrder.dimsFirst.pass .kept (by decide) (by decide)
    (MExpr.transpose_shows hL.weights.expr) hG.expr g1
  obtain ⟨D, e4, s4⟩ := Matrix.ofExpr_shows s2 id
  refine ⟨⟨dimN X Y Z, D.vals⟩, ?_, Matrix.Shows.of_flat g2 rfl (by simp [s4.length]) ?_⟩
  · unfold getdLdX
    rw [e2, Res.bind_ok, e4, Res.bind_ok]
    unfold Matrix.reshape
    rw [hd, volume_dimN hXY (by omega), Res.bind_ok, s4.dim, volume_dimN (by omega) (by omega), Res.bind_ok, if_neg (by simp)]
  · intro k hk
    have e := s4.flat_lt (n := k) (by omega)
    have h1 : k % (X * Y * Z) = k := Nat.mod_eq_of_lt hk
    rw [h1] at e
    rw [fl_unflat]
    exact e

/-- Without a stored shape the gradient of the input cannot be formed. -/
theorem getdLdX_lost {L : Connected α} {w : Nat → Nat → α} {β : Nat → α} {G : Matrix α} {g : Nat → α}
    (hL : L.Is n m w β) (hd : L.inputDim = dimN 0 0 0) (hG : G.Shows n 1 1 (fun i _ _ => g i)) :
    L.getdLdX .dimsFirst G = .throw .matrixTransform := by
  have bw := hL.weights.good.bounds
  have hpos : 0 < m := hL.weights.good.y
  have g1 : Good m 1 1 := ⟨hpos, by decide, by decide, by omega⟩
  obtain ⟨P, e2, s2⟩ := MExpr.matMulP_shows ArgOrder.dimsFirst.pass .kept (by decide) (by decide)
    (MExpr.transpose_shows hL.weights.expr) hG.expr g1
  obtain ⟨D, e4, s4⟩ := Matrix.ofExpr_shows s2 id
  unfold getdLdX
  rw [e2, Res.bind_ok, e4, Res.bind_ok]
  unfold Matrix.reshape
  rw [hd, volume_dimN (by decide) (by decide), Res.bind_ok, s4.dim, volume_dimN (by omega) (by omega), Res.bind_ok,
    if_pos (by simp; omega)]

end Connected

/-- A range-for whose first step is undefined. -/
theorem forRange_ub {σ : Type} (d : Dim3) (hz : 0 < d.z) (body : σ → Iter → Res σ) (s : σ)
    (h : body s (Iter.beg d) = .ub) : forRange d body s = .ub := by
  have hfuel : 0 < Iter.fuel d := by
    unfold Iter.fuel
    exact Nat.mul_pos (Nat.mul_pos (by omega) (by omega)) (by omega)
  rw [forRange_eq_fold d (by omega)]
  refine foldlM_range_fail (fun _ t => t = s) _ 0 hfuel _ s _ (fun f => rfl) rfl (by omega) ?_
  rintro t rfl
  rw [iterAt_zero]; exact h

/-- Storing a product whose temporary right operand was moved too early writes outside the empty storage. -/
theorem Matrix.store_moved_ub [Zero α] [Add α] [Mul α] {K : Nat} {A B : MExpr α} {f g : Nat → Nat → Nat → α}
    (hA : A.Shows X K Z f) (hB : B.Shows K Y Z g) :
    (MExpr.matMulP .kept .movedEarly A B >>= fun E => Matrix.ofExpr id E) = .ub := by
  have c : ¬ ((A.dim.z ≠ B.dim.z || A.dim.y ≠ B.dim.x) = true) := by simp [hA.dim, hB.dim]
  rw [MExpr.matMulP, if_neg c, Res.bind_ok]
  have hd : (⟨(MExpr.Pass.kept.dim A.dim).x, (MExpr.Pass.movedEarly.dim B.dim).y, (MExpr.Pass.kept.dim A.dim).z⟩ : Dim3)
      = dimN X 0 Z := by
    simp [MExpr.Pass.dim, Dim3.move, hA.dim]; rfl
  rw [hd]
  have hz := hA.good.z
  unfold Matrix.ofExpr
  simp only
  rw [vecSize_dimN (by simp) (by simp), Res.bind_ok]
  refine forRange_ub _ (by simpa using hz) _ _ ?_
  have e := MExpr.mulEntry_eq hA hB hA.good.x hB.good.y hA.good.z
  have hb : (Iter.beg (dimN X 0 Z)).idx = dimN 0 0 0 := rfl
  simp only [hb, e, Res.bind_ok]
  simp [Matrix.setFlat]

end Cnn
