import Verif.Lemmas.SlotSame
/-! Helper lemmas: what a batch stores for a sample is what the sample gives in a batch of one (C53, C54). -/
set_option linter.unusedSectionVars false
namespace Cnn
variable {α : Type}

theorem Body.Prepared.ready {n : Nat} {B : Body α} (h : B.Prepared n) : B.Ready := by
  cases B with
  | connected L => exact h.1
  | _ => trivial

theorem Model.Prepared.ready {n : Nat} {M : Model α} (h : M.Prepared n) : M.Ready := fun l hl => (h l hl).ready

theorem Body.Prepared.of_bare {n : Nat} {B C : Body α} (h : B.Prepared n) (hb : C.bare = B.bare) : C.Prepared n := by
  cases B with
  | kernel K =>
    cases C with
    | kernel K' =>
      simp only [bare, Body.kernel.injEq, Kernel.mk.injEq, emptyGrads] at hb
      obtain ⟨h1, h2, h3⟩ := h
      obtain ⟨_, _, _, e1, e2, e3, e4⟩ := hb
      have e3 := congrArg List.length e3
      have e4 := congrArg List.length e4
      simp only [List.length_replicate] at e3 e4
      exact ⟨e3.trans h1, e4.trans h2, by rw [e1, e2]; exact h3⟩
    | _ => exact absurd hb (by simp [bare])
  | pooling P =>
    cases C with
    | pooling P' =>
      simp only [bare, Body.pooling.injEq, Pooling.mk.injEq] at hb
      obtain ⟨h1, h2, h3⟩ := h
      obtain ⟨_, e1, _, e3⟩ := hb
      have e3 := congrArg List.length e3
      simp only [List.length_replicate] at e3
      exact ⟨e3.trans h1, by rw [e1]; exact h2, by rw [e1]; exact h3⟩
    | _ => exact absurd hb (by simp [bare])
  | connected L =>
    cases C with
    | connected L' =>
      simp only [bare, Body.connected.injEq, Connected.mk.injEq, emptyGrads] at hb
      obtain ⟨h0, h1, h2, h3⟩ := h
      obtain ⟨e1, e2, _, e0, e3, e4⟩ := hb
      have e3 := congrArg List.length e3
      have e4 := congrArg List.length e4
      simp only [List.length_replicate] at e3 e4
      exact ⟨e0.trans h0, e3.trans h1, e4.trans h2, by rw [e1, e2]; exact h3⟩
    | _ => exact absurd hb (by simp [bare])
  | activation A => cases C <;> trivial
  | softmax A => cases C <;> trivial

theorem Model.Prepared.of_bare {n : Nat} {M M' : Model α} (hM : M.Prepared n) (h : M'.bare = M.bare) : M'.Prepared n := by
  intro l hl
  obtain ⟨i, hi⟩ := List.mem_iff_getElem?.1 hl
  have := bare_get h i
  rw [hi] at this
  cases hm : M.layers[i]? with
  | none => rw [hm] at this; simp at this
  | some k =>
    rw [hm] at this
    simp only [Option.map_some, Option.some.injEq] at this
    exact (hM k (List.mem_of_getElem? hm)).of_bare this

theorem Body.Same.symm {tr gr : Prop} {B C : Body α} (h : Body.Same tr gr B C) : Body.Same tr gr C B := by
  cases h with
  | softmax S => exact .softmax _
  | activation A => exact .activation _
  | kernel K w b h1 h2 h3 h4 h =>
    exact .kernel { K with wGrads := w, bGrads := b } K.wGrads K.bGrads h3 h4 h1 h2 (fun a => ⟨(h a).1.symm, (h a).2.symm⟩)
  | connected L w b h0 h1 h2 h3 h4 h =>
    exact .connected { L with wGrads := w, bGrads := b } L.wGrads L.bGrads h0 h3 h4 h1 h2 (fun a => ⟨(h a).1.symm, (h a).2.symm⟩)
  | pooling P i h1 h2 h3 h4 h =>
    exact .pooling { P with indices := i } P.indices h2 h1 h3 h4 (fun a b => (h a b).symm)

theorem Model.Same.symm {tr gr : Nat → Prop} {m m' : Model α} (h : Model.Same tr gr m m') : Model.Same tr gr m' m :=
  ⟨h.labels.symm, h.length.symm, fun i l l' a b => (h.layer i l' l b a).symm⟩

/-- A slot of a prepared model looks like the slot of a batch of one. -/
theorem Body.Prepared.same {n b : Nat} {B : Body α} (h : B.Prepared n) (hb : b < n) :
    Body.Same False False (B.see b) (B.setBatchSize 1) := by
  have opt : ∀ {β : Type} (l : List β), l.length = n → (l[b]?.toList).length = 1 := by
    intro β l hl
    rw [List.getElem?_eq_getElem (by omega)]; rfl
  cases B with
  | kernel K =>
    exact .kernel { K with wGrads := K.wGrads[b]?.toList, bGrads := K.bGrads[b]?.toList } (emptyGrads 1) (emptyGrads 1) (opt _ h.1)
      (opt _ h.2.1) (by simp [emptyGrads]) (by simp [emptyGrads]) (fun a => a.elim)
  | pooling P =>
    exact .pooling { P with indices := P.indices[b]?.toList } (P.setBatchSize 1).indices (opt _ h.1) (by
        simp only [Pooling.setBatchSize]; exact Pooling.vecResize_length _ _ _)
      h.2.1 h.2.2 (fun a => a.elim)
  | connected L =>
    exact .connected { L with wGrads := L.wGrads[b]?.toList, bGrads := L.bGrads[b]?.toList } (emptyGrads 1) (emptyGrads 1) h.1
      (opt _ h.2.1) (opt _ h.2.2.1) (by simp [emptyGrads]) (by simp [emptyGrads]) (fun a => a.elim)
  | activation A => exact .activation _
  | softmax S => exact .softmax _

theorem Model.Prepared.same {n b : Nat} {M : Model α} (h : M.Prepared n) (hb : b < n) :
    Model.Same (fun _ => False) (fun _ => False) (M.norm b) ((M.setBatchSize 1).tell 0) := by
  have : Model.Same (fun _ => False) (fun _ => False) (M.see b) (M.setBatchSize 1) := by
    refine ⟨rfl, by simp [Model.setBatchSize], ?_⟩
    intro i l l' e1 e2
    rw [see_get] at e1
    simp only [Model.setBatchSize, List.getElem?_map] at e2
    cases hm : M.layers[i]? with
    | none => rw [hm] at e1; simp at e1
    | some k =>
      rw [hm] at e1 e2
      simp only [Option.map_some, Option.some.injEq] at e1 e2
      subst e1; subst e2
      exact (h k (List.mem_of_getElem? hm)).same hb
  exact this.tell 0

theorem Model.Prepared.setBatchSize_ready {n : Nat} {M : Model α} (h : M.Prepared n) (k : Nat) : (M.setBatchSize k).Ready := by
  intro l hl
  simp only [Model.setBatchSize, List.mem_map] at hl
  obtain ⟨y, hy, rfl⟩ := hl
  have := h y hy
  cases hb : y.body with
  | connected L => rw [hb] at this; exact this.1
  | _ => trivial

theorem Body.see_stored (b : Nat) (B : Body α) : (B.see b).stored 0 = B.stored b := by
  cases B with
  | kernel K => simp only [see, stored]; cases K.wGrads[b]? <;> cases K.bGrads[b]? <;> simp
  | connected L => simp only [see, stored]; cases L.wGrads[b]? <;> cases L.bGrads[b]? <;> simp
  | _ => rfl

theorem Body.tell_stored (b l : Nat) (B : Body α) : (B.tell l).stored b = B.stored b := by cases B <;> rfl

theorem Body.Same.stored {tr : Prop} {B C : Body α} (h : Body.Same tr True B C) : B.stored 0 = C.stored 0 := by
  cases h with
  | kernel K w b h1 h2 h3 h4 h => rw [(h trivial).1, (h trivial).2]
  | connected L w b h0 h1 h2 h3 h4 h => rw [(h trivial).1, (h trivial).2]
  | _ => rfl

theorem Model.tell_stored (M : Model α) (i b l : Nat) : (M.tell l).stored i b = M.stored i b := by
  unfold Model.stored
  by_cases h : i + 1 = M.layers.length
  · rw [tell_get_last _ _ _ h]
    cases M.layers[i]? with
    | none => rfl
    | some y => simp [Body.tell_stored]
  · rw [tell_get_ne _ _ _ h]

theorem Model.see_stored (M : Model α) (i b : Nat) : (M.see b).stored i 0 = M.stored i b := by
  unfold Model.stored
  rw [see_get]
  cases M.layers[i]? with
  | none => rfl
  | some y => simp [Body.see_stored]

theorem Model.norm_stored (M : Model α) (i b : Nat) : (M.norm b).stored i 0 = M.stored i b := by
  rw [norm, tell_stored, see_stored]

theorem Model.Same.stored {tr : Nat → Prop} {m m' : Model α} (h : Model.Same tr (fun _ => True) m m') (i : Nat) :
    m.stored i 0 = m'.stored i 0 := by
  unfold Model.stored
  cases hm : m.layers[i]? with
  | none =>
    rw [List.getElem?_eq_none_iff] at hm
    rw [show m'.layers[i]? = none from List.getElem?_eq_none (by rw [h.length]; exact hm)]
  | some l =>
    obtain ⟨l', e1, e2⟩ := h.get hm
    rw [e1]
    exact e2.stored

/-- A prepared layer with parameters has something in each slot. -/
theorem Model.Prepared.stored {n : Nat} {M : Model α} (h : M.Prepared n) {i b : Nat} (hb : b < n) {p : Matrix α × Matrix α}
    (hp : M.params i = some p) : ∃ g, M.stored i b = some g := by
  unfold Model.params at hp
  unfold Model.stored
  cases hm : M.layers[i]? with
  | none => rw [hm] at hp; simp at hp
  | some l =>
    rw [hm] at hp
    have hl := h l (List.mem_of_getElem? hm)
    simp only [Option.bind_some] at hp ⊢
    cases hb' : l.body with
    | kernel K =>
      rw [hb'] at hl
      obtain ⟨h1, h2, _⟩ := hl
      simp only [Body.stored, List.getElem?_eq_getElem (show b < K.wGrads.length by omega),
        List.getElem?_eq_getElem (show b < K.bGrads.length by omega)]
      exact ⟨_, rfl⟩
    | connected L =>
      rw [hb'] at hl
      obtain ⟨_, h1, h2, _⟩ := hl
      simp only [Body.stored, List.getElem?_eq_getElem (show b < L.wGrads.length by omega),
        List.getElem?_eq_getElem (show b < L.bGrads.length by omega)]
      exact ⟨_, rfl⟩
    | _ => rw [hb'] at hp; simp [Body.params] at hp

namespace Train
open Model
variable [Zero α] [One α] [Add α] [Sub α] [Mul α] [Div α] [Neg α]

theorem _root_.Cnn.Model.backwardBegin_of {E : Env α} {M : Model α} {r r' : Results α} {lab : List Char} {n : Nat}
    (h1 : M.assignLoss E r lab = .ok r') (h2 : M.Outputs n) (h3 : M.labelIndex lab < n) :
    M.backwardBegin E r lab = .ok (r', M.tell (M.labelIndex lab)) := by
  obtain ⟨y, S, e1, e2, e3⟩ := h2
  have : M.backwardBegin E r lab = .ok (r', M.setBody (M.layers.length - 1) (.softmax { S with trueLabel := M.labelIndex lab, knows := true })) := by
    unfold backwardBegin
    rw [h1, Res.bind_ok, e1, Res.ofOption_some, Res.bind_ok, e2]
    simp only [Softmax.assignTrueLabel, if_neg (show ¬ M.labelIndex lab ≥ S.count by omega), Res.bind_ok]
  rw [this]
  exact congrArg (fun m => Res.ok (r', m)) (backwardBegin_inv this).2.1

theorem soloF_tell (E : Env α) (m : Model α) (x : Sample α) (l n : Nat) :
    soloF E (m.tell l) x n = (fun r => (r.1, r.2.tell l)) <$> soloF E m x n := by
  induction n with
  | zero =>
    unfold soloF
    cases forwardBegin E x.data <;> rfl
  | succ n ih =>
    rw [soloF_succ, soloF_succ, ih]
    cases soloF E m x n with
    | throw | ub | abort => rfl
    | ok s =>
      simp only [Res.map_ok, Res.bind_ok]
      rw [forwardStep_tell]

theorem soloF_bare {E : Env α} {m : Model α} {x : Sample α} {n : Nat} {r : (Matrix α × List (Matrix α)) × Model α} (hm : m.Ready)
    (h : soloF E m x n = .ok r) : r.2.bare = m.bare := by
  induction n generalizing r with
  | zero =>
    unfold soloF at h
    obtain ⟨s, e, h⟩ := Res.bind_eq_ok h
    obtain rfl := Res.ok.inj h
    rfl
  | succ n ih =>
    rw [soloF_succ] at h
    obtain ⟨s, e, h⟩ := Res.bind_eq_ok h
    have hs := ih e
    rw [(forwardStep_frame (hm.of_bare hs) h).1, hs]

theorem _root_.Cnn.Model.Outputs.untell {M : Model α} {n l : Nat} (h : (M.tell l).Outputs n) : M.Outputs n :=
  h.of_bare (bare_tell M l).symm

theorem _root_.Cnn.Model.Outputs.tell {M : Model α} {n : Nat} (h : M.Outputs n) (l : Nat) : (M.tell l).Outputs n :=
  h.of_bare (bare_tell M l)

theorem Solo.alone {E : Env α} {M m' : Model α} {x : Sample α} (hr : (M.setBatchSize 1).Ready)
    (h : Solo E ((M.setBatchSize 1).tell 0) x (M.labelIndex x.label) m') : alone E M x = .ok m' := by
  obtain ⟨s, m, r0, r, d, n, h1, h2, h3, h4, h5, h6⟩ := h
  have hlen : (M.setBatchSize 1).layers.length = M.layers.length := by simp [Model.setBatchSize]
  rw [soloF_tell] at h1
  obtain ⟨⟨s1, m1⟩, e1, e2⟩ := map_eq_ok h1
  obtain ⟨rfl, rfl⟩ := Prod.mk.inj e2
  simp only [tell_length] at e1 h6
  have hb : m1.bare = (M.setBatchSize 1).bare := soloF_bare hr e1
  have hl := bare_labels hb
  have hf : (M.setBatchSize 1).forwardPropagation E x.data 0 = .ok (r0, m1) := by
    unfold soloF at e1
    obtain ⟨s', e3, e1⟩ := Res.bind_eq_ok e1
    unfold forwardPropagation
    rw [e3, Res.bind_ok, e1, Res.bind_ok, forwardEnd_congr E (M' := (M.setBatchSize 1).tell 0) hl, h2, Res.bind_ok]
  have ho : m1.Outputs n := h4.untell.of_bare hb
  have hi : m1.labelIndex x.label = M.labelIndex x.label := by rw [labelIndex, hl]; rfl
  have hbb : m1.backwardBegin E r0 x.label = .ok (r, m1.tell (M.labelIndex x.label)) := by
    rw [backwardBegin_of (r' := r) (n := n) _ ho (by rw [hi]; exact h5), hi]
    rw [← h3]; exact assignLoss_congr E hl _ _
  unfold Cnn.alone
  rw [hf, Res.bind_ok]
  unfold backwardsPropagation
  simp only
  rw [hbb, Res.bind_ok, bare_len hb]
  rw [tell_tell] at h6
  unfold soloB at h6
  rw [Nat.sub_zero, ← List.range_eq_range'] at h6
  simp only [h6, Res.bind_ok]

theorem alone_solo {E : Env α} {M m' : Model α} {x : Sample α} (hr : (M.setBatchSize 1).Ready)
    (h : alone E M x = .ok m') : Solo E ((M.setBatchSize 1).tell 0) x (M.labelIndex x.label) m' := by
  unfold Cnn.alone at h
  obtain ⟨⟨r0, m1⟩, hf, h⟩ := Res.bind_eq_ok h
  obtain ⟨⟨r, m2⟩, hb, h⟩ := Res.bind_eq_ok h
  obtain rfl := Res.ok.inj h
  unfold forwardPropagation at hf
  obtain ⟨s, e1, hf⟩ := Res.bind_eq_ok hf
  obtain ⟨⟨s1, m⟩, e2, hf⟩ := Res.bind_eq_ok hf
  obtain ⟨r0', e3, hf⟩ := Res.bind_eq_ok hf
  obtain ⟨rfl, rfl⟩ := Prod.mk.inj (Res.ok.inj hf)
  have hF : soloF E (M.setBatchSize 1) x (M.setBatchSize 1).layers.length = .ok (s1, m) := by
    unfold soloF
    rw [e1, Res.bind_ok, e2]
  have hbr : m.bare = (M.setBatchSize 1).bare := soloF_bare hr hF
  have hl := bare_labels hbr
  unfold backwardsPropagation at hb
  obtain ⟨q, f1, hb⟩ := Res.bind_eq_ok hb
  obtain ⟨⟨d, m3⟩, f2, hb⟩ := Res.bind_eq_ok hb
  obtain ⟨rfl, rfl⟩ := Prod.mk.inj (Res.ok.inj hb)
  obtain ⟨g1, g2, g3, y, S, g4, g5, g6⟩ := backwardBegin_inv f1
  have hi : m.labelIndex x.label = M.labelIndex x.label := by rw [labelIndex, hl]; rfl
  have ho : m.Outputs S.count := ⟨y, S, g4, g5, rfl⟩
  refine ⟨s1, m.tell 0, r0', q.1, d, S.count, ?_, ?_, ?_, ?_, ?_, ?_⟩
  · rw [soloF_tell, tell_length, hF]; rfl
  · rw [← e3]; exact forwardEnd_congr E hl.symm _ _
  · rw [← g1]; exact assignLoss_congr E hl.symm _ _
  · exact (ho.of_bare hbr.symm).tell 0
  · rw [hi] at g6; exact g6
  · rw [tell_tell, tell_length]
    unfold soloB
    rw [Nat.sub_zero, ← List.range_eq_range', ← bare_len hbr, ← hi, ← g2, f2]

/-- What the batch stores for a sample whose gradient used the right label. -/
theorem Solo.ownGrads {E : Env α} {M0 M : Model α} {x : Sample α} {n slot : Nat} (hM : M0.Prepared n) (hs : slot < n)
    (h : Solo E (M0.norm slot) x (M0.labelIndex x.label) ((M.norm slot).tell (M0.labelIndex x.label))) (i : Nat) :
    ownGrads E M0 x i = M.stored i slot := by
  obtain ⟨m2, e1, e2⟩ := h.same (hM.same hs)
  have e3 := e1.alone (hM.setBatchSize_ready 1)
  unfold Cnn.ownGrads
  rw [e3]
  have := e2.stored i
  simp only
  rw [← this, Model.tell_stored, Model.norm_stored]

end Train
end Cnn
