import Verif.Lemmas.MapNumbers
import Verif.Lemmas.SmallBatch
import Verif.Lemmas.ShapeRun
import Verif.Spec.Make
import Mathlib.Data.List.Forall2
/-! Helper lemmas: what training leaves as it is (C112). -/
set_option linter.unusedSectionVars false
namespace Cnn
variable {α : Type}

theorem Matrix.SameSize.refl (A : Matrix α) : A.SameSize A := ⟨rfl, rfl⟩
theorem Matrix.SameSize.trans {A B C : Matrix α} (h : A.SameSize B) (h' : B.SameSize C) : A.SameSize C := ⟨h'.1.trans h.1, h'.2.trans h.2⟩

theorem Matrix.setFlat_size {A A' : Matrix α} {n : Nat} {v : α} (h : A.setFlat n v = .ok A') : A.SameSize A' := by
  unfold Matrix.setFlat at h
  split at h
  · obtain rfl := Res.ok.inj h
    exact ⟨rfl, List.length_set⟩
  · cases h

theorem forRange_size {d : Dim3} {body : Matrix α → Iter → Res (Matrix α)} (hb : ∀ A it A', body A it = .ok A' → A.SameSize A') {A A' : Matrix α}
    (h : forRange d body A = .ok A') : A.SameSize A' :=
  forRange_keep (P := fun B => A.SameSize B) (fun s it s' hs he => hs.trans (hb s it s' he)) (Matrix.SameSize.refl A) h

theorem Matrix.opAssign_size {β : Type} {op : α → β → α} {A A' : Matrix α} {d : Dim3} {get : Matrix α → Dim3 → Res β} (h : A.opAssign op d get = .ok A') :
    A.SameSize A' := by
  obtain ⟨_, _, h⟩ := Res.bind_eq_ok h
  refine forRange_size (fun B it B' hb => ?_) h
  obtain ⟨_, _, hb⟩ := Res.bind_eq_ok hb
  obtain ⟨_, _, hb⟩ := Res.bind_eq_ok hb
  exact Matrix.setFlat_size hb

theorem Matrix.opScalar_size {β : Type} {op : α → β → α} {A A' : Matrix α} {s : Matrix α → Res β} (h : A.opScalar op s = .ok A') : A.SameSize A' := by
  refine forRange_size (fun B it B' hb => ?_) h
  obtain ⟨_, _, hb⟩ := Res.bind_eq_ok hb
  obtain ⟨_, _, hb⟩ := Res.bind_eq_ok hb
  exact Matrix.setFlat_size hb

theorem Body.SameMake.refl (B : Body α) : B.SameMake B := by
  cases B with
  | kernel K => exact ⟨rfl, rfl, rfl, .refl _, .refl _⟩
  | pooling P => exact ⟨rfl, rfl, rfl⟩
  | connected L => exact ⟨.refl _, fun h => ⟨h, rfl, .refl _⟩⟩
  | activation A => exact rfl
  | softmax S => exact ⟨rfl, id⟩

theorem Body.SameMake.trans {A B C : Body α} (h : A.SameMake B) (h' : B.SameMake C) : A.SameMake C := by
  cases A <;> cases B <;> first | exact h.elim | skip
  all_goals cases C <;> first | exact h'.elim | skip
  · exact ⟨h'.1.trans h.1, h'.2.1.trans h.2.1, h'.2.2.1.trans h.2.2.1, h.2.2.2.1.trans h'.2.2.2.1, h.2.2.2.2.trans h'.2.2.2.2⟩
  · exact ⟨h'.1.trans h.1, h'.2.1.trans h.2.1, h'.2.2.trans h.2.2⟩
  · refine ⟨h.1.trans h'.1, fun hi => ?_⟩
    obtain ⟨a1, a2, a3⟩ := h.2 hi
    obtain ⟨b1, b2, b3⟩ := h'.2 a1
    exact ⟨b1, b2.trans a2, a3.trans b3⟩
  · exact Eq.trans h' h
  · exact ⟨h'.1.trans h.1, fun k => h'.2 (h.2 k)⟩

theorem Model.SameMake.refl (M : Model α) : M.SameMake M :=
  ⟨⟨rfl, rfl, rfl, rfl, rfl, rfl⟩, List.forall₂_same.2 fun l _ => ⟨rfl, .refl _⟩⟩

theorem Model.SameMake.trans {M N K : Model α} (h : M.SameMake N) (h' : N.SameMake K) : M.SameMake K := by
  obtain ⟨⟨a1, a2, a3, a4, a5, a6⟩, a⟩ := h
  obtain ⟨⟨b1, b2, b3, b4, b5, b6⟩, b⟩ := h'
  refine ⟨⟨b1.trans a1, b2.trans a2, b3.trans a3, b4.trans a4, b5.trans a5, b6.trans a6⟩, ?_⟩
  obtain ⟨la, ga⟩ := List.forall₂_iff_get.1 a
  obtain ⟨lb, gb⟩ := List.forall₂_iff_get.1 b
  refine List.forall₂_iff_get.2 ⟨la.trans lb, fun i h1 h2 => ?_⟩
  have u := ga i h1 (la ▸ h1)
  have v := gb i (la ▸ h1) h2
  exact ⟨v.1.trans u.1, u.2.trans v.2⟩

theorem Model.SameMake.setBody {M : Model α} {i : Nat} {l : Layer α} {B : Body α} (hl : M.layers[i]? = some l) (h : l.body.SameMake B) :
    M.SameMake (M.setBody i B) := by
  refine ⟨⟨rfl, rfl, rfl, rfl, rfl, rfl⟩, List.forall₂_iff_get.2 ⟨(Model.setBody_length M i B).symm, fun j h1 h2 => ?_⟩⟩
  simp only [List.get_eq_getElem, Model.setBody, List.getElem_modify]
  split
  · rename_i e
    subst e
    obtain ⟨_, hl⟩ := List.getElem?_eq_some_iff.1 hl
    exact ⟨rfl, by rw [hl]; exact h⟩
  · exact ⟨rfl, .refl _⟩

theorem Body.SameMake.setBatchSize (B : Body α) (n : Nat) : B.SameMake (B.setBatchSize n) := by
  cases B with
  | kernel K => exact ⟨rfl, rfl, rfl, .refl _, .refl _⟩
  | pooling P => exact ⟨rfl, rfl, rfl⟩
  | connected L => exact ⟨.refl _, fun h => ⟨h, rfl, .refl _⟩⟩
  | activation A => exact rfl
  | softmax S => exact ⟨rfl, id⟩

theorem Model.SameMake.setBatchSize (M : Model α) (n : Nat) : M.SameMake (M.setBatchSize n) := by
  refine ⟨⟨rfl, rfl, rfl, rfl, rfl, rfl⟩, List.forall₂_map_right_iff.2 (List.forall₂_same.2 fun l _ => ⟨rfl, .setBatchSize _ n⟩)⟩

section
variable [Zero α] [One α] [Add α] [Sub α] [Mul α] [Div α] [Neg α]

theorem applyGrads_size {N : Num α} {lr : α} {W B : Matrix α} {wG bG : List (Matrix α)} {r : Matrix α × Matrix α} (h : applyGrads N lr W B wG bG = .ok r) :
    W.SameSize r.1 ∧ B.SameSize r.2 := by
  obtain ⟨_, _, h⟩ := Res.bind_eq_ok h
  obtain ⟨_, _, h⟩ := Res.bind_eq_ok h
  obtain ⟨_, _, h⟩ := Res.bind_eq_ok h
  obtain ⟨_, _, h⟩ := Res.bind_eq_ok h
  obtain ⟨_, _, h⟩ := Res.bind_eq_ok h
  obtain ⟨_, h1, h⟩ := Res.bind_eq_ok h
  obtain ⟨_, h2, h⟩ := Res.bind_eq_ok h
  obtain rfl := Res.ok.inj h
  exact ⟨Matrix.opAssign_size h1, Matrix.opAssign_size h2⟩

theorem initParams_size {N : Num α} {dr : Nat → α} {W B : Matrix α} {r : Matrix α × Matrix α} (h : initParams N dr W B = .ok r) : B.SameSize r.2 := by
  obtain ⟨_, _, h⟩ := Res.bind_eq_ok h
  obtain ⟨_, h1, h⟩ := Res.bind_eq_ok h
  obtain ⟨_, _, h⟩ := Res.bind_eq_ok h
  obtain ⟨_, h2, h⟩ := Res.bind_eq_ok h
  obtain rfl := Res.ok.inj h
  obtain ⟨_, _, h2⟩ := Res.bind_eq_ok h2
  exact (forRange_size (fun _ _ _ hb => Matrix.setFlat_size hb) h1).trans (Matrix.opScalar_size h2)

theorem Connected.checkSize_make (N : Num α) (dr : Nat → α) (L : Connected α) (X : Matrix α) :
    (Body.connected L).SameMake (.connected (L.checkSize N dr X).2) := by
  unfold Connected.checkSize
  cases L.expected X with
  | ok e =>
    dsimp only
    split
    · exact .refl _
    · rename_i hi
      cases hw : L.initWeights N dr e with
      | ok r =>
        obtain ⟨_, _, hw⟩ := Res.bind_eq_ok hw
        exact ⟨initParams_size hw, fun h => absurd h hi⟩
      | _ => exact ⟨.refl _, fun h => absurd h hi⟩
  | _ => exact .refl _

theorem Body.forward_make {N : Num α} {dr : Nat → α} {X : Matrix α} {b : Nat} {B : Body α} {r : Matrix α × Body α} (h : B.forward N dr X b = .ok r) :
    B.SameMake r.2 := by
  cases B with
  | kernel K =>
    obtain ⟨_, _, h⟩ := Res.bind_eq_ok h
    obtain rfl := Res.ok.inj h
    exact .refl _
  | pooling P =>
    obtain ⟨q, e, h⟩ := Res.bind_eq_ok h
    obtain rfl := Res.ok.inj h
    obtain ⟨_, _, e⟩ := Res.bind_eq_ok e
    obtain ⟨_, _, e⟩ := Res.bind_eq_ok e
    obtain ⟨_, _, e⟩ := Res.bind_eq_ok e
    obtain ⟨_, _, e⟩ := Res.bind_eq_ok e
    obtain ⟨_, _, e⟩ := Res.bind_eq_ok e
    obtain rfl := Res.ok.inj e
    exact ⟨rfl, rfl, rfl⟩
  | connected L =>
    obtain ⟨_, _, h⟩ := Res.bind_eq_ok h
    obtain rfl := Res.ok.inj h
    exact Connected.checkSize_make N dr L X
  | activation A =>
    obtain ⟨_, _, h⟩ := Res.bind_eq_ok h
    obtain rfl := Res.ok.inj h
    exact .refl _
  | softmax S =>
    obtain ⟨_, _, h⟩ := Res.bind_eq_ok h
    obtain rfl := Res.ok.inj h
    exact .refl _

theorem Body.backward_make {N : Num α} {o : ArgOrder} {X Z D : Matrix α} {b : Nat} {last : Bool} {B : Body α} {r : Matrix α × Body α}
    (h : B.backward N o X Z D b last = .ok r) : B.SameMake r.2 := by
  cases B with
  | kernel K =>
    obtain ⟨q, e, h⟩ := Res.bind_eq_ok h
    obtain rfl := Res.ok.inj h
    obtain ⟨_, _, e⟩ := Res.bind_eq_ok e
    obtain ⟨_, _, e⟩ := Res.bind_eq_ok e
    obtain ⟨_, _, e⟩ := Res.bind_eq_ok e
    obtain ⟨_, _, e⟩ := Res.bind_eq_ok e
    dsimp only at e
    split at e <;>
    · obtain ⟨_, _, e⟩ := Res.bind_eq_ok e
      obtain rfl := Res.ok.inj e
      exact ⟨rfl, rfl, rfl, .refl _, .refl _⟩
  | pooling P =>
    obtain ⟨_, _, h⟩ := Res.bind_eq_ok h
    obtain rfl := Res.ok.inj h
    exact .refl _
  | connected L =>
    obtain ⟨q, e, h⟩ := Res.bind_eq_ok h
    obtain rfl := Res.ok.inj h
    obtain ⟨_, _, e⟩ := Res.bind_eq_ok e
    obtain ⟨_, _, e⟩ := Res.bind_eq_ok e
    obtain ⟨_, _, e⟩ := Res.bind_eq_ok e
    dsimp only at e
    split at e <;>
    · obtain ⟨_, _, e⟩ := Res.bind_eq_ok e
      obtain rfl := Res.ok.inj e
      exact ⟨.refl _, fun h => ⟨h, rfl, .refl _⟩⟩
  | activation A =>
    obtain ⟨_, _, h⟩ := Res.bind_eq_ok h
    obtain rfl := Res.ok.inj h
    exact .refl _
  | softmax S =>
    obtain ⟨_, _, h⟩ := Res.bind_eq_ok h
    obtain rfl := Res.ok.inj h
    exact .refl _

theorem Body.applyBatch_make {N : Num α} {lr : α} {B B' : Body α} (h : B.applyBatch N lr = .ok B') : B.SameMake B' := by
  cases B with
  | kernel K =>
    obtain ⟨q, e, h⟩ := Res.bind_eq_ok h
    obtain rfl := Res.ok.inj h
    obtain ⟨r, e0, h⟩ := Res.bind_eq_ok e
    obtain rfl := Res.ok.inj h
    exact ⟨rfl, rfl, rfl, applyGrads_size e0⟩
  | connected L =>
    obtain ⟨q, e, h⟩ := Res.bind_eq_ok h
    obtain rfl := Res.ok.inj h
    obtain ⟨r, e0, h⟩ := Res.bind_eq_ok e
    obtain rfl := Res.ok.inj h
    exact ⟨(applyGrads_size e0).2, fun h => ⟨h, rfl, (applyGrads_size e0).1⟩⟩
  | _ =>
    obtain rfl := Res.ok.inj h
    exact .refl _

namespace Model

theorem forwardStep_make {E : Env α} {b : Nat} {s r : (Matrix α × List (Matrix α)) × Model α} {i : Nat} (h : forwardStep E b s i = .ok r) : s.2.SameMake r.2 := by
  obtain ⟨q, e, h⟩ := Res.bind_eq_ok h
  obtain ⟨_, _, h⟩ := Res.bind_eq_ok h
  obtain rfl := Res.ok.inj h
  obtain ⟨l, hl, e⟩ := Res.bind_eq_ok e
  obtain ⟨_, e1, e⟩ := Res.bind_eq_ok e
  obtain rfl := Res.ok.inj e
  refine SameMake.setBody (l := l) ?_ (Body.forward_make e1)
  cases hx : s.2.layers[i]? with
  | none => rw [hx] at hl; cases hl
  | some l' => rw [hx] at hl; rw [Res.ok.inj hl]

theorem backwardBegin_make {E : Env α} {M : Model α} {r : Results α} {label : List Char} {q : Results α × Model α} (h : M.backwardBegin E r label = .ok q) :
    M.SameMake q.2 := by
  obtain ⟨_, _, h⟩ := Res.bind_eq_ok h
  obtain ⟨l, hl, h⟩ := Res.bind_eq_ok h
  cases hb : l.body with
  | softmax S =>
    rw [hb] at h
    obtain ⟨_, e, h⟩ := Res.bind_eq_ok h
    obtain rfl := Res.ok.inj h
    refine SameMake.setBody (l := l) ?_ ?_
    · rw [← List.getLast?_eq_getElem?]
      cases hx : M.layers.getLast? with
      | none => rw [hx] at hl; cases hl
      | some l' => rw [hx] at hl; rw [Res.ok.inj hl]
    · rw [hb]
      unfold Softmax.assignTrueLabel
      split
      · exact .refl _
      · exact ⟨rfl, fun _ => rfl⟩
  | _ => rw [hb] at h; cases h

theorem backwardStep_make {E : Env α} {r : Results α} {b : Nat} {s q : Matrix α × Model α} {i : Nat} (h : backwardStep E r b s i = .ok q) : s.2.SameMake q.2 := by
  obtain ⟨_, _, h⟩ := Res.bind_eq_ok h
  obtain ⟨_, _, h⟩ := Res.bind_eq_ok h
  obtain ⟨l, hl, h⟩ := Res.bind_eq_ok h
  obtain ⟨_, _, h⟩ := Res.bind_eq_ok h
  obtain ⟨_, _, h⟩ := Res.bind_eq_ok h
  obtain ⟨_, e, h⟩ := Res.bind_eq_ok h
  obtain rfl := Res.ok.inj h
  refine SameMake.setBody (l := l) ?_ (Body.backward_make e)
  cases hx : s.2.layers[i]? with
  | none => rw [hx] at hl; cases hl
  | some l' => rw [hx] at hl; rw [Res.ok.inj hl]

theorem applyBatch_make {N : Num α} {lr : α} {M M' : Model α} (h : M.applyBatch N lr = .ok M') : M.SameMake M' := by
  obtain ⟨ls, e, h⟩ := Res.bind_eq_ok h
  obtain rfl := Res.ok.inj h
  refine ⟨⟨rfl, rfl, rfl, rfl, rfl, rfl⟩, ?_⟩
  obtain ⟨e1, e2⟩ := mapM_get e
  refine List.forall₂_iff_get.2 ⟨e1.symm, fun i h1 h2 => ?_⟩
  obtain ⟨y, hy, hy'⟩ := e2 i M.layers[i] (List.getElem?_eq_getElem h1)
  obtain ⟨B, hB, hy⟩ := Res.bind_eq_ok hy
  obtain rfl := Res.ok.inj hy
  obtain ⟨_, hy'⟩ := List.getElem?_eq_some_iff.1 hy'
  simp only [List.get_eq_getElem, hy']
  exact ⟨trivial, Body.applyBatch_make hB⟩

end Model

namespace Train
open Model
variable {E : Env α} {p : Hyper α}

theorem step_make {t cutoff : Nat} {sh : Shared α} {c : Pc α} {r : Pc α × Shared α × List (Event α)} (h : c.step E t cutoff sh = .ok r) :
    sh.model.SameMake r.2.1.model := by
  cases c with
  | fetch slot =>
    simp only [Pc.step] at h
    split at h
    · split at h
      · obtain rfl := Res.ok.inj h
        exact .refl _
      · obtain ⟨_, _, h⟩ := Res.bind_eq_ok h
        obtain rfl := Res.ok.inj h
        exact .refl _
    · obtain rfl := Res.ok.inj h
      exact .refl _
  | forward slot x i s =>
    simp only [Pc.step] at h
    split at h
    · obtain ⟨_, e, h⟩ := Res.bind_eq_ok h
      obtain rfl := Res.ok.inj h
      exact forwardStep_make e
    · obtain ⟨_, _, h⟩ := Res.bind_eq_ok h
      obtain rfl := Res.ok.inj h
      exact .refl _
  | label slot x q =>
    obtain ⟨_, e, h⟩ := Res.bind_eq_ok h
    obtain rfl := Res.ok.inj h
    exact backwardBegin_make e
  | backward slot x q n D =>
    cases n with
    | zero =>
      obtain rfl := Res.ok.inj h
      exact .refl _
    | succ i =>
      obtain ⟨_, e, h⟩ := Res.bind_eq_ok h
      obtain rfl := Res.ok.inj h
      exact backwardStep_make e
  | done slot =>
    obtain rfl := Res.ok.inj h
    exact .refl _

theorem run_make (sched : List Nat) : ∀ {s : Batch α} {r : Batch α × List (Event α)}, s.run E sched = .ok r → s.shared.model.SameMake r.1.shared.model := by
  induction sched with
  | nil =>
    intro s r h
    obtain rfl := Res.ok.inj h
    exact .refl _
  | cons t ts ih =>
    intro s r h
    obtain ⟨q, e, h⟩ := Res.bind_eq_ok h
    obtain ⟨q', e', h⟩ := Res.bind_eq_ok h
    obtain rfl := Res.ok.inj h
    refine SameMake.trans ?_ (ih (r := q') e')
    unfold Batch.step at e
    split at e
    · obtain rfl := Res.ok.inj e
      exact .refl _
    · rename_i w hw
      obtain ⟨u, hu, e⟩ := Res.bind_eq_ok e
      obtain rfl := Res.ok.inj e
      cases hs : w.2.step E t w.1 s.shared with
      | ok v =>
        rw [hs] at hu
        obtain rfl := Res.ok.inj hu
        exact step_make hs
      | _ => rw [hs] at hu; cases hu

theorem startBatch_shared {b t : Int} {sh : Shared α} {s : Batch α} (h : startBatch b t sh = .ok s) : s.shared = sh := by
  obtain ⟨_, _, h⟩ := Res.bind_eq_ok h
  obtain ⟨_, _, h⟩ := Res.bind_eq_ok h
  obtain rfl := Res.ok.inj h
  rfl

theorem runBatch_make {sched : List Nat} {sh : Shared α} {q : Shared α × List (Event α)} (h : runBatch E p sched sh = .ok (some q)) :
    sh.model.SameMake q.1.model := by
  obtain ⟨s, e1, h⟩ := Res.bind_eq_ok h
  obtain ⟨r, e2, h⟩ := Res.bind_eq_ok h
  split at h
  · obtain ⟨M, e3, h⟩ := Res.bind_eq_ok h
    obtain rfl := Option.some.inj (Res.ok.inj h)
    have := run_make sched e2
    rw [startBatch_shared e1] at this
    exact this.trans (applyBatch_make e3)
  · exact absurd (Res.ok.inj h) (by simp)

theorem runBatches_make (scheds : List (List Nat)) : ∀ {sh : Shared α} {q : Shared α × List (Event α)}, runBatches E p scheds sh = .ok (some q) →
    sh.model.SameMake q.1.model := by
  induction scheds with
  | nil =>
    intro sh q h
    obtain rfl := Option.some.inj (Res.ok.inj h)
    exact .refl _
  | cons c cs ih =>
    intro sh q h
    unfold runBatches at h
    obtain ⟨o, e1, h⟩ := Res.bind_eq_ok h
    cases o with
    | none => exact absurd (Res.ok.inj h) (by simp)
    | some r =>
      dsimp only at h
      obtain ⟨o', e2, h⟩ := Res.bind_eq_ok h
      cases o' with
      | none => exact absurd (Res.ok.inj h) (by simp)
      | some q1 =>
        obtain rfl := Option.some.inj (Res.ok.inj h)
        exact (runBatch_make e1).trans (ih (q := q1) e2)

theorem epochs_make {size : Nat} (epochs : List (List (List Nat) × List (Sample α))) : ∀ {M M' : Model α},
    epochs.foldlM (epochStep E p size) (some M) = .ok (some M') → M.SameMake M' := by
  induction epochs with
  | nil =>
    intro M M' h
    obtain rfl := Option.some.inj (Res.ok.inj h)
    exact .refl _
  | cons ep es ih =>
    intro M M' h
    rw [List.foldlM_cons] at h
    obtain ⟨o, e1, h⟩ := Res.bind_eq_ok h
    unfold epochStep at e1
    dsimp only at e1
    obtain ⟨r, e2, e1⟩ := Res.bind_eq_ok e1
    obtain rfl := Res.ok.inj e1
    cases r with
    | none =>
      rw [Option.map_none, train_none] at h
      exact absurd (Res.ok.inj h) (by simp)
    | some r =>
      unfold runEpoch at e2
      split at e2
      · exact absurd e2 (by simp)
      · obtain ⟨_, _, e2⟩ := Res.bind_eq_ok e2
        split at e2
        · exact absurd e2 (by simp)
        · obtain ⟨n, _, e2⟩ := Res.bind_eq_ok e2
          split at e2
          · exact (runBatches_make ep.1 (sh := ⟨M, ep.2, 0⟩) e2).trans (ih h)
          · exact absurd (Res.ok.inj e2) (by simp)

end Train
end
end Cnn
