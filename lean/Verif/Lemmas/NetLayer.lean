import Verif.Lemmas.Surrogate
import Verif.Props.Kernel
import Verif.Props.Connected
import Verif.Props.Pooling
import Verif.Props.Activations
/-! Each kind of layer computes its function and, backwards, its derivative. -/
namespace Cnn
open Finset

/-- The back-propagation of a layer object, after it has processed the input `x`. -/
def Body.Backs (b : Nat) (first : Bool) (s : Shape) (l : NetLayer) (x : Tensor) (body : Body ℝ) : Prop :=
  l.Trains first s → ∀ l', l.Stands s x l' → ∀ (G X Z : Matrix ℝ) (g : Tensor), G.Shows (l.out s).X (l.out s).Y (l.out s).Z g →
    X.Shows s.X s.Y s.Z x → Z.Shows (l.out s).X (l.out s).Y (l.out s).Z (l.eval s x) →
    ∃ D body', body.backward Num.real .dimsFirst X Z G b first = .ok (D, body') ∧
      (first = false → ∃ d, D.Shows s.X s.Y s.Z d ∧ LayerAdj l' s x g d) ∧
      (l.params ≠ none → ∃ DW DB dw, ∃ db : Nat → ℝ, body'.stored b = some (DW, DB) ∧
        DW.Shows (l.weightShape s).X (l.weightShape s).Y (l.weightShape s).Z dw ∧
        DB.Shows l.biasCount 1 1 (fun f _ _ => db f) ∧ ParamAdj l' s x g dw db)

theorem real_ofNat (n : Nat) : Num.real.ofNat n = (n : ℝ) := rfl

theorem conv_pass {K : Kernel ℝ} {A B C F : Nat} {w : Tensor} {β : Nat → ℝ} {b : Nat} {first : Bool} {s : Shape} {X : Matrix ℝ}
    {x : Tensor} (draws : Nat → ℝ) (hd : (Body.kernel K).Denotes b first s (.conv A B C F w β)) (hf : (NetLayer.conv A B C F w β).Fits s)
    (hX : X.Shows s.X s.Y s.Z x) :
    ∃ out body, (Body.kernel K).forward Num.real draws X b = .ok (out, body) ∧
      out.Shows (s.X - A + 1) (s.Y - B + 1) F ((NetLayer.conv A B C F w β).eval s x) ∧
      body.Backs b first s (.conv A B C F w β) x := by
  obtain ⟨hK, hw, hb⟩ := hd
  obtain ⟨hz, hfit⟩ := hf
  rw [hz] at hX
  obtain ⟨out, e, so⟩ := C33_formula K w x β X hK hX hfit
  refine ⟨out, .kernel K, by simp only [Body.forward, e, Res.bind_ok], so, ?_⟩
  intro htr l' hst G X' Z' g hG hX' hZ'
  obtain rfl := hst.eq (by simp [NetLayer.params])
  simp only [NetLayer.out] at hG
  rw [hz] at hX'
  obtain ⟨DW, eW, sW⟩ := Kernel.getdLdW_shows hK hX' hfit hG
  obtain ⟨DB, eB, sB⟩ := Kernel.getdLdB_shows hK hG
  have hx := hfit.x
  have hy := hfit.y
  have hC := (Kernel.sizes hK).2.2.1
  simp only [sumTo2_eq] at sW
  have hst : (Body.kernel { K with wGrads := K.wGrads.set b DW, bGrads := K.bGrads.set b DB }).stored b = some (DW, DB) := by
    simp [Body.stored, hw, hb]
  cases first with
  | true =>
    refine ⟨Matrix.empty, .kernel { K with wGrads := K.wGrads.set b DW, bGrads := K.bGrads.set b DB }, ?_, by simp, ?_⟩
    · simp only [Body.backward]
      unfold Kernel.backward
      rw [eW, Res.bind_ok, setSlot, if_pos hw, Res.bind_ok, eB, Res.bind_ok, setSlot, if_pos hb]
      rfl
    · exact fun _ => ⟨DW, DB, _, _, hst, sW, sB, conv_param x g hC⟩
  | false =>
    simp only [NetLayer.Trains, Bool.false_eq_true, false_or] at htr
    obtain ⟨hsq, hpad⟩ := htr
    have hG' : G.Shows (s.X - A + 1) (s.X - A + 1) F g := by rw [hsq] at hG ⊢; exact hG
    obtain ⟨D, eD, sD⟩ := Kernel.getdLdX_shows hK hX' (S := s.X - A + 1) (by omega) (by omega) (by omega) hG'
      (by rw [← hsq] at hpad; simpa using hpad)
    simp only [sumTo_eq, Kernel.gradTerm_eq] at sD
    refine ⟨D, .kernel { K with wGrads := K.wGrads.set b DW, bGrads := K.bGrads.set b DB }, ?_, ?_, ?_⟩
    · simp only [Body.backward]
      unfold Kernel.backward
      rw [eW, Res.bind_ok, setSlot, if_pos hw, Res.bind_ok, eB, Res.bind_ok, setSlot, if_pos hb]
      simp only [Res.bind_ok, Bool.false_eq_true, if_false]
      rw [eD]; rfl
    · intro _
      refine ⟨_, by rw [hz]; exact sD, conv_adj x g (by omega) (by omega) hz (by omega)⟩
    · exact fun _ => ⟨DW, DB, _, _, hst, sW, sB, conv_param x g hC⟩

theorem full_pass {L : Connected ℝ} {n : Nat} {w : Tensor} {β : Nat → ℝ} {b : Nat} {first : Bool} {s : Shape} {X : Matrix ℝ}
    {x : Tensor} (draws : Nat → ℝ) (hd : (Body.connected L).Denotes b first s (.full n w β)) (hX : X.Shows s.X s.Y s.Z x) :
    ∃ out body, (Body.connected L).forward Num.real draws X b = .ok (out, body) ∧
      out.Shows n 1 1 ((NetLayer.full n w β).eval s x) ∧ body.Backs b first s (.full n w β) x := by
  obtain ⟨hL, hw, hb, hid⟩ := hd
  have h := C37_forward Num.real draws L _ β X x hL hX
  rw [if_pos rfl] at h
  obtain ⟨out, e, so⟩ := h
  refine ⟨out, .connected L, by simp only [Body.forward, e, Res.bind_ok], so.congr ?_, ?_⟩
  · intro i _ j _ k _
    simp only [sumTo_eq, NetLayer.eval, flatOf]
    rw [add_comm]
  · intro htr l' hst G X' Z' g hG hX' hZ'
    obtain rfl := hst.eq (by simp [NetLayer.params])
    simp only [NetLayer.out] at hG
    have hG1 : G.Shows n 1 1 (fun i _ _ => g i 0 0) := hG.congr (by
      intro i _ j hj k hk
      obtain rfl : j = 0 := by omega
      obtain rfl : k = 0 := by omega
      rfl)
    obtain ⟨DW, eW, sW⟩ := Connected.getdLdW_shows hX' hG1 hL.weights.good
    simp only [sumTo_eq, sum_range_one] at sW
    have hst : (Body.connected { L with wGrads := L.wGrads.set b DW, bGrads := L.bGrads.set b G }).stored b = some (DW, G) := by
      simp [Body.stored, hw, hb]
    cases first with
    | true =>
      refine ⟨Matrix.empty, .connected { L with wGrads := L.wGrads.set b DW, bGrads := L.bGrads.set b G }, ?_, by simp, ?_⟩
      · simp only [Body.backward]
        unfold Connected.backward
        rw [eW, Res.bind_ok, setSlot, if_pos hw, Res.bind_ok, setSlot, if_pos hb, Res.bind_ok]
        rfl
      · exact fun _ => ⟨DW, G, _, _, hst, sW, hG1, full_param x g⟩
    | false =>
      have hid : L.inputDim = dimN s.X s.Y s.Z := by simpa using hid
      obtain ⟨D, eD, sD⟩ := Connected.getdLdX_shows hL hid hX.good.x hX.good.y hG1
      simp only [sumTo_eq] at sD
      refine ⟨D, .connected { L with wGrads := L.wGrads.set b DW, bGrads := L.bGrads.set b G }, ?_, ?_, ?_⟩
      · simp only [Body.backward]
        unfold Connected.backward
        rw [eW, Res.bind_ok, setSlot, if_pos hw, Res.bind_ok, setSlot, if_pos hb, Res.bind_ok]
        simp only [Bool.false_eq_true, if_false]
        rw [eD]; rfl
      · exact fun _ => ⟨_, sD, full_adj x g hX.good.x hX.good.y⟩
      · exact fun _ => ⟨DW, G, _, _, hst, sW, hG1, full_param x g⟩

theorem pool_pass {P : Pooling} {t : PoolType} {px py sx sy : Nat} {b : Nat} {first : Bool} {s : Shape} {X : Matrix ℝ}
    {x : Tensor} (draws : Nat → ℝ) (hd : (Body.pooling P).Denotes b first s (.pool t px py sx sy))
    (hf : (NetLayer.pool t px py sx sy).Fits s) (hX : X.Shows s.X s.Y s.Z x) :
    ∃ out body, (Body.pooling P).forward Num.real draws X b = .ok (out, body) ∧
      out.Shows (windows s.X px sx) (windows s.Y py sy) s.Z ((NetLayer.pool t px py sx sy).eval s x) ∧
      body.Backs b first s (.pool t px py sx sy) x := by
  obtain ⟨ht, hdim, hstr, hb⟩ := hd
  have hf : PoolFits s.X s.Y px py sx sy := hf
  by_cases hav : t = .avg
  · subst hav
    obtain ⟨out, ind, e, so⟩ := Pooling.forward_avg Num.real P X x b hX hdim hstr hf hb ht
    refine ⟨out, .pooling { P with indices := P.indices.set b ind }, by simp only [Body.forward, e, Res.bind_ok], so.congr ?_, ?_⟩
    · intro i _ j _ k _
      simp only [NetLayer.eval, real_ofNat, Nat.cast_mul]
    · intro _ l' hst G X' Z' g hG hX' hZ'
      obtain rfl : l' = .pool .avg px py sx sy := by
        rcases hst with ⟨h, _⟩ | h
        · exact h
        · exact h
      simp only [NetLayer.out] at hG
      obtain ⟨D, eD, sD⟩ := Pooling.backward_avg Num.real { P with indices := P.indices.set b ind } X' Z' G b hX'.dim hX'.good
        hdim hstr hf (by simpa using hb) ht g hG
      simp only [real_ofNat, Nat.cast_mul] at sD
      exact ⟨D, .pooling { P with indices := P.indices.set b ind }, by simp only [Body.backward, eD, Res.bind_ok], fun _ => ⟨_, sD, avg_adj x g hf⟩,
        fun h => absurd rfl h⟩
  · obtain ⟨out, ind, u, v, e, so, si, hsel⟩ := Pooling.forward_select Num.real P X x b hX hdim hstr hf hb (by rw [ht]; exact hav)
    have hw : MExpr.WeakOrd (Pooling.better Num.real P.type) := by
      rw [ht]
      cases t with
      | max =>
        have : Pooling.better Num.real .max = fun a b : ℝ => decide (a < b) := by funext a b; simp [Pooling.better, Num.real]
        rw [this]; exact MExpr.weakOrd_lt
      | min =>
        have : Pooling.better Num.real .min = fun a b : ℝ => decide (b < a) := by funext a b; simp [Pooling.better, Num.real]
        rw [this]; exact MExpr.weakOrd_gt
      | avg => exact absurd rfl hav
    refine ⟨out, .pooling { P with indices := P.indices.set b ind }, by simp only [Body.forward, e, Res.bind_ok], so.congr ?_, ?_⟩
    · intro i hi j hj k hk
      obtain ⟨h1, h2, h3, _⟩ := hsel i hi j hj k hk
      have h3 := h3 (hw.ordered _ _ _ _)
      have eu : u i j k = i * sx + (u i j k - i * sx) := by omega
      have ev : v i j k = j * sy + (v i j k - j * sy) := by omega
      rw [ht] at h3
      cases t with
      | max =>
        simp only [NetLayer.eval]
        rw [eu, ev]
        refine (window_greatest (by omega) (by omega) fun a ha c hc => ?_).symm
        rw [← eu, ← ev]
        simpa [Pooling.better, Num.real] using h3 a ha c hc
      | min =>
        simp only [NetLayer.eval]
        rw [eu, ev]
        refine (window_least (by omega) (by omega) fun a ha c hc => ?_).symm
        rw [← eu, ← ev]
        simpa [Pooling.better, Num.real] using h3 a ha c hc
      | avg => exact absurd rfl hav
    · intro _ l' hst G X' Z' g hG hX' hZ'
      simp only [NetLayer.out] at hG
      have hin : ∀ i < windows s.X px sx, ∀ j < windows s.Y py sy, ∀ k < s.Z, u i j k < s.X ∧ v i j k < s.Y := by
        intro i hi j hj k hk
        obtain ⟨h1, h2, _⟩ := hsel i hi j hj k hk
        have hx := windows_inside hf.x hi
        have hy := windows_inside hf.y hj
        omega
      obtain ⟨D, eD, sD⟩ := Pooling.backward_select Num.real { P with indices := P.indices.set b ind } X' Z' G b ind hX'.dim hX'.good
        (by show P.type ≠ _; rw [ht]; exact hav) (by simp [hb]) u v (fun _ _ k => k) si
        (fun i hi j hj k hk => ⟨(hin i hi j hj k hk).1, (hin i hi j hj k hk).2, hk⟩) g hG
      refine ⟨D, .pooling { P with indices := P.indices.set b ind }, by simp only [Body.backward, eD, Res.bind_ok], fun _ => ⟨_, sD, select_adj x g u v hst.out hin ?_⟩,
        fun h => absurd rfl h⟩
      intro θ γ γ' hγ i hi j hj k hk
      obtain ⟨h1, h2, h3, h4⟩ := hsel i hi j hj k hk
      have h3 := h3 (hw.ordered _ _ _ _)
      have h4 := h4 (hw.ordered _ _ _ _)
      rw [ht] at h3 h4
      have eu : u i j k = i * sx + (u i j k - i * sx) := by omega
      have ev : v i j k = j * sy + (v i j k - j * sy) := by omega
      rcases hst with ⟨rfl, hsm⟩ | rfl
      swap
      · cases t with
        | max =>
          obtain ⟨c1, c2⟩ := NetLayer.chosen_eq (le := (· ≤ ·)) (px := px) (py := py) (sx := sx) (sy := sy) (x := x) (i := i) (j := j) (k := k)
            (p := u i j k - i * sx) (q := v i j k - j * sy) (by omega) (by omega) (by
              intro a ha c hc
              rw [← eu, ← ev]
              simpa [Pooling.better, Num.real] using h3 a ha c hc) (by
              intro a ha c hc hlt
              rw [← eu, ← ev]
              simpa [Pooling.better, Num.real] using h4 a ha c hc hlt)
          simp only [NetLayer.surrogate, NetLayer.selects, NetLayer.eval, c1, c2, ← eu, ← ev, one_mul, add_zero]
          exact Filter.EventuallyEq.rfl
        | min =>
          obtain ⟨c1, c2⟩ := NetLayer.chosen_eq (le := (· ≥ ·)) (px := px) (py := py) (sx := sx) (sy := sy) (x := x) (i := i) (j := j) (k := k)
            (p := u i j k - i * sx) (q := v i j k - j * sy) (by omega) (by omega) (by
              intro a ha c hc
              rw [← eu, ← ev]
              simpa [Pooling.better, Num.real] using h3 a ha c hc) (by
              intro a ha c hc hlt
              rw [← eu, ← ev]
              simpa [Pooling.better, Num.real] using h4 a ha c hc hlt)
          simp only [NetLayer.surrogate, NetLayer.selects, NetLayer.eval, c1, c2, ← eu, ← ev, one_mul, add_zero]
          exact Filter.EventuallyEq.rfl
        | avg => exact absurd rfl hav
      cases t with
      | max =>
        obtain ⟨p, hp, q, hq, h⟩ := hsm i hi j hj k hk
        have hpq : u i j k = i * sx + p ∧ v i j k = j * sy + q := by
          by_contra hne
          have a := h (u i j k - i * sx) (by omega) (v i j k - j * sy) (by omega) (by omega)
          rw [Nat.add_sub_cancel' h1.1, Nat.add_sub_cancel' h2.1] at a
          have b := h3 p hp q hq
          simp only [Pooling.better, Num.real, decide_eq_false_iff_not, not_lt] at b
          linarith
        rw [hpq.1, hpq.2]
        exact max_local hf hγ hi hj hk hp hq h
      | min =>
        obtain ⟨p, hp, q, hq, h⟩ := hsm i hi j hj k hk
        have hpq : u i j k = i * sx + p ∧ v i j k = j * sy + q := by
          by_contra hne
          have a := h (u i j k - i * sx) (by omega) (v i j k - j * sy) (by omega) (by omega)
          rw [Nat.add_sub_cancel' h1.1, Nat.add_sub_cancel' h2.1] at a
          have b := h3 p hp q hq
          simp only [Pooling.better, Num.real, decide_eq_false_iff_not, not_lt] at b
          linarith
        rw [hpq.1, hpq.2]
        exact min_local hf hγ hi hj hk hp hq h
      | avg => exact absurd rfl hav

/-- A straight line in place of the activation. -/
theorem gate_adj (f : ActFn) {s : Shape} (x g : Tensor) :
    LayerAdj ((NetLayer.act f).surrogate s x) s x g (fun i j k => g i j k * actSlope f (actSpec f (x i j k))) := by
  intro θ γ γ' hγ
  refine ⟨fun i j k => actSlope f (actSpec f (x i j k)) * γ' i j k, ⟨by simp only [hγ.start], ?_⟩, ?_⟩
  · intro i hi j hj k hk
    exact ((hγ.deriv i hi j hj k hk).const_mul _).add_const _
  · exact total_congr fun i _ j _ k _ => by ring

theorem act_pass {A : Activation} {f : ActFn} {b : Nat} {first : Bool} {s : Shape} {X : Matrix ℝ} {x : Tensor}
    (draws : Nat → ℝ) (hd : (Body.activation A : Body ℝ).Denotes b first s (.act f)) (hX : X.Shows s.X s.Y s.Z x) :
    ∃ out body, (Body.activation A).forward Num.real draws X b = .ok (out, body) ∧
      out.Shows s.X s.Y s.Z ((NetLayer.act f).eval s x) ∧ body.Backs b first s (.act f) x := by
  obtain rfl : A = Activation.new f := hd
  obtain ⟨out, e, so⟩ := C23_forward f X x hX
  refine ⟨out, .activation (Activation.new f), by simp only [Body.forward, e, Res.bind_ok], so, ?_⟩
  intro htr l' hst G X' Z' g hG hX' hZ'
  simp only [NetLayer.out] at hG hZ'
  simp only [NetLayer.eval] at hZ'
  obtain ⟨H, e1, s1⟩ := Matrix.ofExpr_shows (MExpr.un_shows (f.grad Num.real) hZ'.expr) id
  obtain ⟨E, e2, s2⟩ := MExpr.bin_shows (· * ·) hG.expr s1.expr
  obtain ⟨D, e3, s3⟩ := Matrix.ofExpr_shows s2 id
  refine ⟨D, .activation (Activation.new f), ?_, ?_, fun h => absurd rfl h⟩
  · simp [Body.backward, Activation.backward, Activation.gradient, Activation.new, e1, e2, e3]
  · intro _
    rcases hst with ⟨rfl, hsm⟩ | rfl
    swap
    · refine ⟨_, s3, ?_⟩
      simp only [grad_slope]
      exact gate_adj f x g
    refine ⟨_, s3, act_adj x g (fun i j k => f.grad Num.real (actSpec f (x i j k))) ?_⟩
    intro i hi j hj k hk
    rcases hsm with rfl | ⟨rfl, hsm⟩
    · exact hasDerivAt_id _
    · refine (relu_deriv (hsm i hi j hj k hk)).congr_deriv ?_
      simp only [ActFn.grad, actSpec, real_lt, decide_eq_true_eq]
      by_cases h : 0 < x i j k
      · rw [if_pos h, if_pos (lt_of_lt_of_le h (le_max_left _ _))]
      · rw [if_neg h, if_neg (by rw [max_eq_right (not_lt.mp h)]; exact lt_irrefl _)]

/-- Every layer computes its function and can go back. -/
theorem layer_pass {body : Body ℝ} {l : NetLayer} {b : Nat} {first : Bool} {s : Shape} {X : Matrix ℝ} {x : Tensor}
    (draws : Nat → ℝ) (hd : body.Denotes b first s l) (hf : l.Fits s) (hX : X.Shows s.X s.Y s.Z x) :
    ∃ out body', body.forward Num.real draws X b = .ok (out, body') ∧
      out.Shows (l.out s).X (l.out s).Y (l.out s).Z (l.eval s x) ∧ body'.Backs b first s l x := by
  match body, l, hd, hf with
  | .kernel _, .conv .., hd, hf => exact conv_pass draws hd hf hX
  | .pooling _, .pool .., hd, hf => exact pool_pass draws hd hf hX
  | .connected _, .full .., hd, _ => exact full_pass draws hd hX
  | .activation _, .act _, hd, _ => exact act_pass draws hd hX

end Cnn
