import Verif.Model.Overlap
import Verif.Lemmas.FreshRun
/-! Helper lemmas: a layer call that overlaps others comes out as if it were a single step (C76). -/
set_option linter.unusedSectionVars false
namespace Cnn

variable {α : Type}

theorem slots_ext {β : Type} {l m : List β} (h : ∀ c : Nat, l[c]?.toList = m[c]?.toList) : l = m := by
  apply List.ext_getElem?
  intro c
  have := h c
  cases h1 : l[c]? <;> cases h2 : m[c]? <;> rw [h1, h2] at this <;> simp_all

theorem copySlot_length {β : Type} (b : Nat) (l m : List β) : (copySlot b l m).length = m.length := by
  unfold copySlot
  cases l[b]? <;> simp

theorem copySlot_ne {β : Type} {b c : Nat} (h : c ≠ b) (l m : List β) : (copySlot b l m)[c]? = m[c]? := by
  unfold copySlot
  cases l[b]? with
  | none => rfl
  | some a => exact List.getElem?_set_ne (Ne.symm h)

theorem copySlot_self {β : Type} {b : Nat} {l m : List β} (h : l.length = m.length) : (copySlot b l m)[b]? = l[b]? := by
  unfold copySlot
  by_cases hb : b < l.length
  · rw [List.getElem?_eq_getElem hb]
    exact List.getElem?_set_self (h ▸ hb)
  · rw [List.getElem?_eq_none (show l.length ≤ b by omega)]
    exact List.getElem?_eq_none (show m.length ≤ b by omega)

namespace Body

/-- Not an output layer. -/
def Inner : Body α → Prop
  | .softmax _ => False
  | _ => True

/-- Two layers that look the same to each slot are the same. -/
theorem eq_of_see {B C : Body α} (h : ∀ c, B.see c = C.see c) : B = C := by
  cases B with
  | kernel K =>
    cases C with
    | kernel K' =>
      have h' := fun c => Body.kernel.inj (h c)
      have h1 : K.wGrads = K'.wGrads := slots_ext fun c => congrArg Kernel.wGrads (h' c)
      have h2 : K.bGrads = K'.bGrads := slots_ext fun c => congrArg Kernel.bGrads (h' c)
      obtain ⟨⟩ := K; obtain ⟨⟩ := K'
      have h0 := h' 0
      simp only [Kernel.mk.injEq] at h0 h1 h2 ⊢
      simp only [h0, h1, h2]
    | _ => exact absurd (h 0) (by simp [see])
  | pooling K =>
    cases C with
    | pooling K' =>
      have h' := fun c => Body.pooling.inj (h c)
      have h1 : K.indices = K'.indices := slots_ext fun c => congrArg Pooling.indices (h' c)
      obtain ⟨⟩ := K; obtain ⟨⟩ := K'
      have h0 := h' 0
      simp only [Pooling.mk.injEq] at h0 h1 ⊢
      simp only [h0, h1]
    | _ => exact absurd (h 0) (by simp [see])
  | connected K =>
    cases C with
    | connected K' =>
      have h' := fun c => Body.connected.inj (h c)
      have h1 : K.wGrads = K'.wGrads := slots_ext fun c => congrArg Connected.wGrads (h' c)
      have h2 : K.bGrads = K'.bGrads := slots_ext fun c => congrArg Connected.bGrads (h' c)
      obtain ⟨⟩ := K; obtain ⟨⟩ := K'
      have h0 := h' 0
      simp only [Connected.mk.injEq] at h0 h1 h2 ⊢
      simp only [h0, h1, h2]
    | _ => exact absurd (h 0) (by simp [see])
  | activation K =>
    cases C with
    | activation => exact h 0
    | _ => exact absurd (h 0) (by simp [see])
  | softmax K =>
    cases C with
    | softmax => exact h 0
    | _ => exact absurd (h 0) (by simp [see])

theorem putSlot_bare (b : Nat) (S D : Body α) : (S.putSlot b D).bare = D.bare := by
  cases D <;> cases S <;> simp [putSlot, bare, copySlot_length]

theorem putSlot_see_ne {b c : Nat} (h : c ≠ b) (S D : Body α) : (S.putSlot b D).see c = D.see c := by
  cases D <;> cases S <;> simp [putSlot, see, copySlot_ne h]

theorem putSlot_see {b : Nat} {S D : Body α} (h : S.bare = D.bare) (hD : D.Inner) : (S.putSlot b D).see b = S.see b := by
  cases D with
  | kernel K =>
    cases S with
    | kernel K' =>
      obtain ⟨⟩ := K; obtain ⟨⟩ := K'
      simp only [bare, Body.kernel.injEq, Kernel.mk.injEq, emptyGrads] at h
      obtain ⟨rfl, rfl, rfl, rfl, rfl, h1, h2⟩ := h
      have h1 := congrArg List.length h1
      have h2 := congrArg List.length h2
      simp only [List.length_replicate] at h1 h2
      simp only [putSlot, see, copySlot_self h1, copySlot_self h2]
    | _ => exact absurd h (by simp [bare])
  | pooling K =>
    cases S with
    | pooling K' =>
      obtain ⟨⟩ := K; obtain ⟨⟩ := K'
      simp only [bare, Body.pooling.injEq, Pooling.mk.injEq] at h
      obtain ⟨rfl, rfl, rfl, h1⟩ := h
      have h1 := congrArg List.length h1
      simp only [List.length_replicate] at h1
      simp only [putSlot, see, copySlot_self h1]
    | _ => exact absurd h (by simp [bare])
  | connected K =>
    cases S with
    | connected K' =>
      obtain ⟨⟩ := K; obtain ⟨⟩ := K'
      simp only [bare, Body.connected.injEq, Connected.mk.injEq, emptyGrads] at h
      obtain ⟨rfl, rfl, rfl, rfl, h1, h2⟩ := h
      have h1 := congrArg List.length h1
      have h2 := congrArg List.length h2
      simp only [List.length_replicate] at h1 h2
      simp only [putSlot, see, copySlot_self h1, copySlot_self h2]
    | _ => exact absurd h (by simp [bare])
  | activation K =>
    cases S with
    | activation => simpa [putSlot, see, bare] using h.symm
    | _ => exact absurd h (by simp [bare])
  | softmax K => exact absurd hD id

theorem Inner.of_bare {B C : Body α} (h : B.Inner) (hb : C.bare = B.bare) : C.Inner := by
  cases C <;> cases B <;> simp_all [bare, Inner]

theorem Inner.of_see {B C : Body α} {c : Nat} (h : B.Inner) (hb : C.see c = B.see c) : C.Inner := by
  cases C <;> cases B <;> simp_all [see, Inner]

theorem eq_of_softmax {B : Body α} {S : Softmax} {c : Nat} (h : B.see c = (Body.softmax S : Body α).see c) : B = .softmax S := by
  cases B <;> simp_all [see]

end Body

namespace Overlap
open Train

section
variable [Zero α] [One α] [Add α] [Sub α] [Mul α] [Div α] [Neg α]

/-- What the call of a layer does. -/
def call (E : Env α) (B : Body α) : Pc α → Res (Pc α × Body α)
  | .forward slot x i s => do
    let r ← B.forward E.num (E.draws i) s.1 slot
    let R ← Model.record E r.1
    .ok (.forward slot x (i + 1) (r.1, s.2 ++ [R]), r.2)
  | .backward slot x r (i + 1) d => do
    let X ← Model.recordAt r i
    let Z ← Model.recordAt r (i + 1)
    let X ← Matrix.ofExpr id X.expr
    let Z ← Matrix.ofExpr id Z.expr
    let q ← B.backward E.num E.order X Z d slot (i = 0)
    .ok (.backward slot x r i q.1, q.2)
  | p => .ok (p, B)

/-- What the call of a layer lets an observer see. -/
def callEvents (M : Model α) (t : Nat) : Pc α → List (Event α)
  | .backward slot x _ (i + 1) _ => gradEvent M t slot x i
  | _ => []

theorem step_call (E : Env α) (t cutoff : Nat) (sh : Shared α) {p : Pc α} {i b : Nat} {B : Body α} (hp : place p = some (i, b))
    (hB : sh.model.bodyAt i = some B) : p.step E t cutoff sh =
      (call E B p >>= fun q => .ok (q.1, { sh with model := sh.model.setBody i q.2 }, callEvents sh.model t p)) := by
  unfold Model.bodyAt at hB
  obtain ⟨l, hl, rfl⟩ := Option.map_eq_some_iff.1 hB
  have hlt : i < sh.model.layers.length := (List.getElem?_eq_some_iff.1 hl).1
  cases p with
  | forward slot x j s =>
    obtain ⟨rfl, rfl⟩ := Prod.mk.inj (Option.some.inj hp)
    have e : Pc.step E t cutoff sh (.forward slot x j s) = if j < sh.model.layers.length then
        (Model.forwardStep E slot (s, sh.model) j >>= fun r => .ok (.forward slot x (j + 1) r.1, { sh with model := r.2 }, []))
      else (Model.forwardEnd E sh.model s.1 s.2 >>= fun r => .ok (.label slot x r, sh, [])) := rfl
    rw [e, if_pos hlt]
    unfold Model.forwardStep Model.forwardLayer call
    simp only [hl, Res.ofOption_some, Res.bind_ok]
    cases l.body.forward E.num (E.draws j) s.1 slot with
    | throw | ub | abort => rfl
    | ok r =>
      simp only [Res.bind_ok]
      cases Model.record E r.1 <;> rfl
  | backward slot x r n d =>
    cases n with
    | zero => exact absurd hp (by simp [place])
    | succ j =>
      obtain ⟨rfl, rfl⟩ := Prod.mk.inj (Option.some.inj hp)
      have e : Pc.step E t cutoff sh (.backward slot x r (j + 1) d) = (Model.backwardStep E r slot (d, sh.model) j >>= fun q =>
          .ok (.backward slot x r j q.1, { sh with model := q.2 }, gradEvent sh.model t slot x j)) := rfl
      rw [e]
      unfold Model.backwardStep call
      simp only [hl, Res.ofOption_some, Res.bind_ok]
      cases Model.recordAt r j with
      | throw | ub | abort => rfl
      | ok X =>
        simp only [Res.bind_ok]
        cases Model.recordAt r (j + 1) with
        | throw | ub | abort => rfl
        | ok Z =>
          simp only [Res.bind_ok]
          cases Matrix.ofExpr id X.expr with
          | throw | ub | abort => rfl
          | ok X' =>
            simp only [Res.bind_ok]
            cases Matrix.ofExpr id Z.expr with
            | throw | ub | abort => rfl
            | ok Z' =>
              simp only [Res.bind_ok]
              cases l.body.backward E.num E.order X' Z' d slot (j = 0) <;> rfl
  | _ => exact absurd hp (by simp [place])

theorem map_bind_congr {β γ δ : Type} (f : γ → δ) (m : Res β) {k k' : β → Res γ} (h : ∀ a, f <$> k a = f <$> k' a) :
    f <$> (m >>= k) = f <$> (m >>= k') := by
  cases m with
  | ok a => exact h a
  | throw | ub | abort => rfl

theorem map_bind_see {b : Nat} {β : Type} {m m' : Res (Matrix α × Body α)} {k : Matrix α → Res β}
    (h : (fun r : Matrix α × Body α => (r.1, r.2.see b)) <$> m = (fun r => (r.1, r.2.see b)) <$> m') :
    (fun q : β × Body α => (q.1, q.2.see b)) <$> (m >>= fun r => k r.1 >>= fun a => .ok (a, r.2)) =
      (fun q => (q.1, q.2.see b)) <$> (m' >>= fun r => k r.1 >>= fun a => .ok (a, r.2)) := by
  cases m <;> cases m'
  case ok.ok r r' =>
    obtain ⟨h2, h3⟩ := Prod.mk.inj (Res.ok.inj h)
    simp only [Res.bind_ok, h2]
    cases k r'.1 with
    | throw | ub | abort => rfl
    | ok a => simp only [Res.bind_ok, Res.map_ok, h3]
  all_goals first | (cases h; rfl) | exact absurd h (by intro h; cases h)

theorem call_see (E : Env α) {p : Pc α} {i b : Nat} (hp : place p = some (i, b)) {B C : Body α} (h : B.see b = C.see b) :
    (fun q : Pc α × Body α => (q.1, q.2.see b)) <$> call E B p = (fun q => (q.1, q.2.see b)) <$> call E C p := by
  cases p with
  | forward slot x j s =>
    obtain ⟨rfl, rfl⟩ := Prod.mk.inj (Option.some.inj hp)
    have h1 := Body.forward_see E.num (E.draws j) s.1 slot B
    rw [h, Body.forward_see] at h1
    have h2 := map_bind_see (k := fun r => Model.record E r >>= fun R => Res.ok (Pc.forward slot x (j + 1) (r, s.2 ++ [R]))) h1.symm
    simp only [bind_assoc, Res.bind_ok] at h2
    exact h2
  | backward slot x r n d =>
    cases n with
    | zero => exact absurd hp (by simp [place])
    | succ j =>
      obtain ⟨rfl, rfl⟩ := Prod.mk.inj (Option.some.inj hp)
      refine map_bind_congr _ _ fun X => map_bind_congr _ _ fun Z => map_bind_congr _ _ fun X' => map_bind_congr _ _ fun Z' => ?_
      have h1 := Body.backward_see E.num E.order X' Z' d slot (j = 0) B
      rw [h, Body.backward_see] at h1
      exact map_bind_see (k := fun e => Res.ok (Pc.backward slot x r j e)) h1.symm
  | _ => exact absurd hp (by simp [place])

theorem call_frame {E : Env α} {p : Pc α} {i b : Nat} (hp : place p = some (i, b)) {B : Body α} {q : Pc α × Body α} (hB : B.Ready)
    (h : call E B p = .ok q) : q.2.bare = B.bare ∧ ∀ c ≠ b, q.2.see c = B.see c := by
  cases p with
  | forward slot x j s =>
    obtain ⟨rfl, rfl⟩ := Prod.mk.inj (Option.some.inj hp)
    unfold call at h
    obtain ⟨r, e, h⟩ := Res.bind_eq_ok h
    obtain ⟨R, _, h⟩ := Res.bind_eq_ok h
    obtain rfl := Res.ok.inj h
    exact Body.forward_frame hB e
  | backward slot x r n d =>
    cases n with
    | zero => exact absurd hp (by simp [place])
    | succ j =>
      obtain ⟨rfl, rfl⟩ := Prod.mk.inj (Option.some.inj hp)
      unfold call at h
      obtain ⟨_, _, h⟩ := Res.bind_eq_ok h
      obtain ⟨_, _, h⟩ := Res.bind_eq_ok h
      obtain ⟨_, _, h⟩ := Res.bind_eq_ok h
      obtain ⟨_, _, h⟩ := Res.bind_eq_ok h
      obtain ⟨r, e, h⟩ := Res.bind_eq_ok h
      obtain rfl := Res.ok.inj h
      exact Body.backward_frame e
  | _ => exact absurd hp (by simp [place])

end
end Overlap
end Cnn
