import Verif.Lemmas.RoundingModel
import Verif.Lemmas.NetPass
import Verif.Spec.Slots
import Verif.Props.Network
import Verif.Props.Connected
/-! Helper lemma: the gradients of a fully connected layer followed by softmax, in any arithmetic (C101). -/
namespace Cnn
open Model

theorem Matrix.IsVec.column {α : Type} {M : Matrix α} {n : Nat} {v : Nat → α} (h : M.IsVec n v) (hd : M.dim = dimN n 1 1) :
    M.Shows n 1 1 (fun i _ _ => v i) := by
  have h := shape_of_isVec (s := ⟨n, 1, 1⟩) (Or.inl rfl) hd h
  refine h.congr ?_
  intro i _ j hj k _
  obtain rfl : j = 0 := by simpa using hj
  rfl

variable {α : Type} [Zero α] [One α] [Add α] [Sub α] [Mul α] [Div α] [Neg α]

theorem ownGrads_of {E : Env α} {M m : Model α} {x : Sample α} (h : alone E M x = .ok m) (i : Nat) : ownGrads E M x i = m.stored i 0 := by
  unfold ownGrads
  rw [h]

/-- The gradients that a sample gives on its own: nothing but the operations of the arithmetic in their order. -/
theorem full_alone {E : Env α} (hE : E.order = .dimsFirst) {M : Model α} {L : Connected α} {S : Softmax} {nm nm' : List Char}
    (hlay : M.layers = [⟨nm, .connected L⟩, ⟨nm', .softmax S⟩]) {n X Y Z : Nat} {w : Nat → Nat → α} {β : Nat → α} (hL : L.Is n (X * Y * Z) w β)
    (hcount : S.count = n) (hlab : M.labels.length = n) {D : Matrix α} {x : Nat → Nat → Nat → α} (hD : D.Shows X Y Z x) {label : List Char}
    (hlabel : label ∈ M.labels) {P : α → Prop} (hw : MExpr.WeakOn E.num.lt P)
    (hP : ∀ i < n, P (sumTo (X * Y * Z) (fun k => w i k * x (k % X) (k / X % Y) (k / X / Y)) + β i)) :
    ∃ m q t DW DB, ∃ p : Nat → α, q < n ∧ t < n ∧ M.labels[t]? = some label ∧
      p = (fun i => E.num.exp ((sumTo (X * Y * Z) (fun k => w i k * x (k % X) (k / X % Y) (k / X / Y)) + β i) -
            (sumTo (X * Y * Z) (fun k => w q k * x (k % X) (k / X % Y) (k / X / Y)) + β q)) /
          sumTo n (fun j => E.num.exp ((sumTo (X * Y * Z) (fun k => w j k * x (k % X) (k / X % Y) (k / X / Y)) + β j) -
            (sumTo (X * Y * Z) (fun k => w q k * x (k % X) (k / X % Y) (k / X / Y)) + β q)))) ∧
      alone E M ⟨D, label⟩ = .ok m ∧ m.stored 0 0 = some (DW, DB) ∧
      DW.Shows n (X * Y * Z) 1 (fun i k _ => sumTo 1 (fun _ =>
        (if i = t then E.toFloat (p t) - 1 else E.toFloat (p i)) * flatOf X Y (fun a b c => E.toFloat (x a b c)) k)) ∧
      DB.Shows n 1 1 (fun i _ _ => if i = t then E.toFloat (p t) - 1 else E.toFloat (p i)) := by
  have hL1 : (L.setBatchSize 1).Is n (X * Y * Z) w β := ⟨hL.weights, hL.biases, hL.initialized⟩
  set L1 := L.setBatchSize 1 with hL1d
  have hlay1 : (M.setBatchSize 1).layers = [⟨nm, .connected L1⟩, ⟨nm', .softmax S⟩] := by
    simp [Model.setBatchSize, hlay, Body.setBatchSize, hL1d]
  set M1 := M.setBatchSize 1 with hM1d
  have hlab1 : M1.labels = M.labels := rfl
  obtain ⟨X1, e1, s1⟩ := Matrix.ofExpr_shows hD.expr (id : α → α)
  have h := C37_forward E.num (E.draws 0) L1 _ _ X1 _ hL1 s1
  rw [if_pos rfl] at h
  obtain ⟨out, eo, so⟩ := h
  have hvec : out.IsVec n (fun i => sumTo (X * Y * Z) (fun k => w i k * x (k % X) (k / X % Y) (k / X / Y)) + β i) := Or.inr so
  obtain ⟨Q, q, hq, eP, dP, sP, _⟩ := softMax_ordered E.num hvec hw hP
  obtain ⟨p, hpd⟩ : ∃ p : Nat → α, p = (fun i => E.num.exp ((sumTo (X * Y * Z) (fun k => w i k * x (k % X) (k / X % Y) (k / X / Y)) + β i) -
            (sumTo (X * Y * Z) (fun k => w q k * x (k % X) (k / X % Y) (k / X / Y)) + β q)) /
          sumTo n (fun j => E.num.exp ((sumTo (X * Y * Z) (fun k => w j k * x (k % X) (k / X % Y) (k / X / Y)) + β j) -
            (sumTo (X * Y * Z) (fun k => w q k * x (k % X) (k / X % Y) (k / X / Y)) + β q)))) := ⟨_, rfl⟩
  rw [← hpd] at sP
  have hQ : Q.Shows n 1 1 (fun i _ _ => p i) := sP.column (dP.trans so.dim)
  have hSm : S.forward E.num out = .ok Q := by
    obtain ⟨_, _, hsz, hrow, _⟩ := hvec.facts
    unfold Softmax.forward Softmax.checkSize
    rw [if_pos hrow, hsz]
    simp [hcount, eP]
  have hpass : Pass E M1 0 D (fun i => if i = 0 then X1 else if i = 1 then out else Q) (fun i => if i = 0 then .connected L1 else .softmax S) := by
    refine ⟨by simpa using e1, ?_⟩
    intro i l hl
    rw [hlay1] at hl
    have hi : i < 2 := (List.getElem?_eq_some_iff.1 hl).1
    obtain rfl | rfl : i = 0 ∨ i = 1 := by omega
    · obtain rfl := Option.some.inj hl
      simp [Body.forward, eo]
    · obtain rfl := Option.some.inj hl
      simp [Body.forward, hSm]
  have hlen : M1.layers.length = 2 := by rw [hlay1]; rfl
  obtain ⟨r, hr⟩ := C57_returns E M1 D 0 _ _ hpass (by
    intro i hi
    by_cases h0 : i = 0
    · simp only [h0, if_true]; exact ⟨_, _, _, _, s1⟩
    · by_cases h1 : i = 1
      · simp only [h1]; exact ⟨_, _, _, _, so⟩
      · simp only [h0, h1, if_false]; exact ⟨_, _, _, _, hQ⟩) n 1 1 _ (by rw [hlen]; simpa using hQ) (by rw [hlab1, hlab]; simp)
  obtain ⟨outs, bodies, hp2, _, hrl, hrec, _⟩ := C57_consistent E M1 _ D 0 r hr
  obtain ⟨R0, r0, hR0⟩ := hrec 0 (by omega)
  obtain ⟨R1, r1, hR1⟩ := hrec 1 (by omega)
  obtain ⟨R2, r2, hR2⟩ := hrec 2 (by omega)
  have hR0 := hR0 _ _ _ _ (by rw [← hpass.unique hp2 0 (by omega)]; exact s1)
  have hR1 := hR1 _ _ _ _ (by rw [← hpass.unique hp2 1 (by omega)]; exact so)
  have hR2 := hR2 _ _ _ _ (by rw [← hpass.unique hp2 2 (by omega)]; exact hQ)
  obtain ⟨Z0, z0, hZ0⟩ := Matrix.ofExpr_shows hR0.expr (id : α → α)
  obtain ⟨Z1, z1, hZ1⟩ := Matrix.ofExpr_shows hR1.expr (id : α → α)
  obtain ⟨Z2, z2, hZ2⟩ := Matrix.ofExpr_shows hR2.expr (id : α → α)
  set M₁ := M1.withBodies (fun i => if i = 0 then .connected L1 else .softmax S) with hM₁
  have hlay2 : M₁.layers = [⟨nm, .connected L1⟩, ⟨nm', .softmax S⟩] := by
    simp [hM₁, withBodies, hlay1]
  have hgl : r.inputs.getLast? = some R2 := by rw [List.getLast?_eq_getElem?, hrl, hlen]; exact r2
  obtain ⟨t, ht, ht1, _, hbeg⟩ := C58_known_partial E M₁ r label R2 hgl _ _ _ _ hR2 (by rw [mul_one, mul_one]; exact hlab.symm) hlabel ⟨nm', .softmax S⟩ S
    (by rw [hlay2]; rfl) rfl (by rw [hcount]; exact hlab.symm)
  have htn : t < n := by rw [← hlab]; exact ht
  have hZv : Z2.IsVec n (fun i => E.toFloat (p i)) := Or.inr hZ2
  obtain ⟨G, eG, dG, sG⟩ := hZv.setFlat htn (E.toFloat (p t) - 1)
  have hG : G.Shows n 1 1 (fun i _ _ => if i = t then E.toFloat (p t) - 1 else E.toFloat (p i)) := by
    refine (sG.column (dG.trans hZ2.dim)).congr ?_
    intro i _ _ _ _ _
    by_cases h : i = t
    · subst h; simp
    · simp [h]
  obtain ⟨DW, eW, sW⟩ := Connected.getdLdW_shows (g := fun i => if i = t then E.toFloat (p t) - 1 else E.toFloat (p i)) hZ0 hG hL.weights.good
  have hwg : 0 < L1.wGrads.length := by simp [hL1d, Connected.setBatchSize, emptyGrads]
  have hbg : 0 < L1.bGrads.length := by simp [hL1d, Connected.setBatchSize, emptyGrads]
  set M₂ := M₁.setBody (M₁.layers.length - 1) (.softmax ⟨S.count, t, true⟩) with hM₂
  have hlay3 : M₂.layers = [⟨nm, .connected L1⟩, ⟨nm', .softmax ⟨S.count, t, true⟩⟩] := by
    simp [hM₂, setBody, hlay2]
  obtain ⟨rr, hrr, hri⟩ : ∃ rr, M₁.backwardBegin E r label = .ok (rr, M₂) ∧ rr.inputs = r.inputs := ⟨_, hbeg, rfl⟩
  have hfold := backward_fold (E := E) (M := M₂) (b := 0) (r := rr) (recs := fun i => if i = 0 then Z0 else if i = 1 then Z1 else Z2)
    (Ds := fun i => if i = 1 then G else Matrix.empty)
    (bodies := fun i => if i = 0 then .connected { L1 with wGrads := L1.wGrads.set 0 DW, bGrads := L1.bGrads.set 0 G } else .softmax ⟨S.count, t, true⟩)
    (by
      intro i hi
      have hi : i ≤ 2 := by simpa [hlay3] using hi
      rw [hri]
      obtain rfl | rfl | rfl : i = 0 ∨ i = 1 ∨ i = 2 := by omega
      · exact ⟨R0, r0, z0⟩
      · exact ⟨R1, r1, z1⟩
      · exact ⟨R2, r2, z2⟩) 2 (by simp [hlay3]) (by
      intro i l hi hl
      rw [hlay3] at hl
      rw [hE]
      obtain rfl | rfl : i = 0 ∨ i = 1 := by omega
      · obtain rfl := Option.some.inj hl
        simp only [Body.backward]
        unfold Connected.backward
        simp [eW, setSlot, hwg, hbg]
      · obtain rfl := Option.some.inj hl
        simp [Body.backward, Softmax.backward, Softmax.getdLdX, hZv.flat htn, eG]) M₂ (fun _ _ => rfl)
  refine ⟨M₂.upTo (fun i => if i = 0 then .connected { L1 with wGrads := L1.wGrads.set 0 DW, bGrads := L1.bGrads.set 0 G } else .softmax ⟨S.count, t, true⟩) 2, q, t, DW, G, p, hq, htn, ht1, hpd, ?_, ?_, sW, hG⟩
  · unfold alone
    rw [← hM1d, hr, Res.bind_ok]
    unfold backwardsPropagation
    dsimp only
    rw [hrr, Res.bind_ok, show M₁.layers.length = 2 by rw [hlay2]; rfl]
    have : (List.range 2).reverse.foldlM (backwardStep E rr 0) (Matrix.empty, M₂) = _ := hfold
    rw [this]
    rfl
  · simp only [Model.stored, upTo, hlay3]
    simp [Body.stored, hwg, hbg]

end Cnn
