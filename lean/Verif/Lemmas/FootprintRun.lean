import Verif.Lemmas.FootprintStep
import Verif.Lemmas.Progress
/-! Helper lemmas for C95: steps that do not conflict commute; which steps conflict. -/
set_option linter.unusedSectionVars false
namespace Cnn
variable {α : Type}

theorem copySlot_comm {β : Type} {b c : Nat} (h : b ≠ c) (l l' d : List β) : copySlot b l (copySlot c l' d) = copySlot c l' (copySlot b l d) := by
  unfold copySlot
  cases l[b]? with
  | none => rfl
  | some a =>
    cases l'[c]? with
    | none => rfl
    | some a' => simp only; rw [List.set_comm _ _ (Ne.symm h)]

namespace Body

theorem copy_comm {p q : Part} (h : p ≠ q) (A B D : Body α) : A.copy p (B.copy q D) = B.copy q (A.copy p D) := by
  cases p with
  | params =>
    cases q with
    | params => exact absurd rfl h
    | slot c => cases D <;> cases A <;> cases B <;> rfl
    | label => cases D <;> cases A <;> cases B <;> rfl
  | slot b =>
    cases q with
    | params => cases D <;> cases A <;> cases B <;> rfl
    | slot c =>
      have hc : b ≠ c := fun e => h (by rw [e])
      cases D <;> cases A <;> cases B <;> simp only [copy, putSlot, copySlot_comm hc]
    | label => cases D <;> cases A <;> cases B <;> rfl
  | label =>
    cases q with
    | params => cases D <;> cases A <;> cases B <;> rfl
    | slot c => cases D <;> cases A <;> cases B <;> rfl
    | label => exact absurd rfl h

theorem forwardReads_copy (b : Nat) (p : Part) (S B : Body α) : (S.copy p B).forwardReads b = B.forwardReads b := by
  cases p <;> cases B <;> cases S <;> rfl

theorem forwardWrites_copy (b : Nat) {p : Part} (h : p ≠ .params) (S B : Body α) : (S.copy p B).forwardWrites b = B.forwardWrites b := by
  cases p with
  | params => exact absurd rfl h
  | slot c => cases B <;> cases S <;> rfl
  | label => cases B <;> cases S <;> rfl

theorem backwardReads_copy (b : Nat) (p : Part) (S B : Body α) : (S.copy p B).backwardReads b = B.backwardReads b := by
  cases p <;> cases B <;> cases S <;> rfl

theorem backwardWrites_copy (b : Nat) (p : Part) (S B : Body α) : (S.copy p B).backwardWrites b = B.backwardWrites b := by
  cases p <;> cases B <;> cases S <;> rfl

theorem params_forwardReads (b : Nat) (B : Body α) : Part.params ∈ B.forwardReads b := by
  cases B <;> simp [forwardReads]

end Body

namespace Train

theorem Shared.copy_comm {l m : Loc} (h : l ≠ m) (a b d : Shared α) : a.copy (b.copy d m) l = b.copy (a.copy d l) m := by
  cases l with
  | source => cases m with
    | source => exact absurd rfl h
    | hits => rfl
    | layer i p => unfold Shared.copy; simp only; cases b.model.layers[i]? <;> rfl
  | hits => cases m with
    | hits => exact absurd rfl h
    | source => rfl
    | layer i p => unfold Shared.copy; simp only; cases b.model.layers[i]? <;> rfl
  | layer j q => cases m with
    | source => unfold Shared.copy; simp only; cases a.model.layers[j]? <;> rfl
    | hits => unfold Shared.copy; simp only; cases a.model.layers[j]? <;> rfl
    | layer i p =>
      unfold Shared.copy
      simp only
      cases ha : a.model.layers[j]? with
      | none => rfl
      | some k =>
        cases hb : b.model.layers[i]? with
        | none => rfl
        | some n =>
          simp only
          congr 2
          apply List.ext_getElem?
          intro x
          simp only [List.getElem?_modify]
          cases d.model.layers[x]? with
          | none => rfl
          | some y =>
            by_cases hi : i = x
            · by_cases hj : j = x
              · subst hi
                subst hj
                have hq : q ≠ p := fun e => h (by rw [e])
                simp [Body.copy_comm hq]
              · simp [hi, hj]
            · by_cases hj : j = x <;> simp [hi, hj]

theorem Shared.copy_copies {l : Loc} {ls : List Loc} (h : l ∉ ls) (a b d : Shared α) : a.copy (b.copies ls d) l = b.copies ls (a.copy d l) := by
  induction ls with
  | nil => rfl
  | cons m ms ih =>
    simp only [List.mem_cons, not_or] at h
    show a.copy (b.copy (b.copies ms d) m) l = b.copy (b.copies ms (a.copy d l)) m
    rw [Shared.copy_comm h.1, ih h.2]

theorem Shared.copies_comm {ls ms : List Loc} (h : ∀ l ∈ ls, l ∉ ms) (a b d : Shared α) : a.copies ls (b.copies ms d) = b.copies ms (a.copies ls d) := by
  induction ls with
  | nil => rfl
  | cons l ls ih =>
    show a.copy (a.copies ls (b.copies ms d)) l = b.copies ms (a.copy (a.copies ls d) l)
    rw [ih fun x hx => h x (List.mem_cons_of_mem _ hx), Shared.copy_copies (h l List.mem_cons_self)]

/-- Copying a location that a step does not access does not change what the step accesses. -/
theorem touches_copy (sl sh : Shared α) {c : Nat} {p : Pc α} {l : Loc} (hr : l ∉ p.reads c sh.model) :
    p.reads c (sl.copy sh l).model = p.reads c sh.model ∧ p.writes c (sl.copy sh l).model = p.writes c sh.model := by
  cases p with
  | forward slot x i s =>
    simp only [Pc.reads, Pc.writes, Shared.copy_get] at hr ⊢
    cases hk : sh.model.layers[i]? with
    | none => exact ⟨rfl, rfl⟩
    | some k =>
      rw [hk] at hr
      simp only [Option.map_some]
      rw [Shared.at_body]
      by_cases hl : ∀ q, l ≠ .layer i q
      · rw [Shared.at_id sl hl]
        exact ⟨rfl, rfl⟩
      · simp only [not_forall, not_not] at hl
        obtain ⟨q, rfl⟩ := hl
        simp only [List.mem_map, Loc.layer.injEq, true_and, exists_eq_right] at hr
        have hq : q ≠ .params := fun e => hr (e ▸ Body.params_forwardReads slot k.body)
        rcases Shared.at_layer sl i q with h | ⟨S, h⟩
        · rw [h]
          exact ⟨rfl, rfl⟩
        · rw [h, Body.forwardReads_copy, Body.forwardWrites_copy _ hq]
          exact ⟨rfl, rfl⟩
  | backward slot x r n d =>
    cases n with
    | zero => exact ⟨rfl, rfl⟩
    | succ i =>
      simp only [Pc.reads, Pc.writes, Shared.copy_get] at hr ⊢
      cases hk : sh.model.layers[i]? with
      | none => exact ⟨rfl, rfl⟩
      | some k =>
        simp only [Option.map_some]
        rw [Shared.at_body]
        by_cases hl : ∀ q, l ≠ .layer i q
        · rw [Shared.at_id sl hl]
          exact ⟨rfl, rfl⟩
        · simp only [not_forall, not_not] at hl
          obtain ⟨q, rfl⟩ := hl
          rcases Shared.at_layer sl i q with h | ⟨S, h⟩
          · rw [h]
            exact ⟨rfl, rfl⟩
          · rw [h, Body.backwardReads_copy, Body.backwardWrites_copy]
            exact ⟨rfl, rfl⟩
  | label slot x r => simp only [Pc.reads, Pc.writes, Shared.copy_model_length]; exact ⟨trivial, trivial⟩
  | fetch slot => exact ⟨rfl, rfl⟩
  | done slot => exact ⟨rfl, rfl⟩

theorem touches_copies (sl sh : Shared α) {c : Nat} {p : Pc α} : ∀ {ls : List Loc}, (∀ l ∈ ls, l ∉ p.reads c sh.model) →
    p.reads c (sl.copies ls sh).model = p.reads c sh.model ∧ p.writes c (sl.copies ls sh).model = p.writes c sh.model
  | [], _ => ⟨rfl, rfl⟩
  | l :: ls, h => by
    have ih := touches_copies sl sh (c := c) (p := p) (ls := ls) fun x hx => h x (List.mem_cons_of_mem _ hx)
    have := touches_copy sl (sl.copies ls sh) (c := c) (p := p) (l := l) (by rw [ih.1]; exact h l List.mem_cons_self)
    exact ⟨this.1.trans ih.1, this.2.trans ih.2⟩

section
variable [Zero α] [One α] [Add α] [Sub α] [Mul α] [Div α] [Neg α]

theorem step_copies (E : Env α) (t c : Nat) (sl sh : Shared α) (p : Pc α) : ∀ {ls : List Loc}, (∀ l ∈ ls, l ∉ p.reads c sh.model) →
    (∀ l ∈ ls, l ∉ p.writes c sh.model) →
    p.step E t c (sl.copies ls sh) = (fun r => (r.1, sl.copies ls r.2.1, r.2.2)) <$> p.step E t c sh
  | [], _, _ => by
    show p.step E t c sh = _
    cases p.step E t c sh <;> rfl
  | l :: ls, hr, hw => by
    have ih := step_copies E t c sl sh p (ls := ls) (fun x hx => hr x (List.mem_cons_of_mem _ hx)) (fun x hx => hw x (List.mem_cons_of_mem _ hx))
    have ht := touches_copies sl sh (c := c) (p := p) (ls := ls) fun x hx => hr x (List.mem_cons_of_mem _ hx)
    have := step_copy E t c sl (sl.copies ls sh) p (l := l) (by rw [ht.1]; exact hr l List.mem_cons_self) (by rw [ht.2]; exact hw l List.mem_cons_self)
    show p.step E t c (sl.copy (sl.copies ls sh) l) = _
    rw [this, ih]
    cases p.step E t c sh <;> rfl

/-- Steps that do not conflict commute. -/
theorem step_comm {E : Env α} {t u : Nat} {v w : Nat × Pc α} {sh : Shared α} (hc : ∀ l, ¬ Conflict sh.model v w l)
    {a b : Pc α × Shared α × List (Event α)} (ha : v.2.step E t v.1 sh = .ok a) (hb : w.2.step E u w.1 sh = .ok b) :
    ∃ sh', w.2.step E u w.1 a.2.1 = .ok (b.1, sh', b.2.2) ∧ v.2.step E t v.1 b.2.1 = .ok (a.1, sh', a.2.2) := by
  have h1 : ∀ l ∈ v.2.writes v.1 sh.model, l ∉ w.2.reads w.1 sh.model ∧ l ∉ w.2.writes w.1 sh.model := fun l hl =>
    ⟨fun h => hc l (Or.inl ⟨hl, Or.inl h⟩), fun h => hc l (Or.inl ⟨hl, Or.inr h⟩)⟩
  have h2 : ∀ l ∈ w.2.writes w.1 sh.model, l ∉ v.2.reads v.1 sh.model ∧ l ∉ v.2.writes v.1 sh.model := fun l hl =>
    ⟨fun h => hc l (Or.inr ⟨hl, Or.inl h⟩), fun h => hc l (Or.inr ⟨hl, Or.inr h⟩)⟩
  have ea := step_writes ha
  have eb := step_writes hb
  have e1 : w.2.step E u w.1 a.2.1 = .ok (b.1, a.2.1.copies (v.2.writes v.1 sh.model) b.2.1, b.2.2) := by
    conv_lhs => rw [ea]
    rw [step_copies E u w.1 a.2.1 sh w.2 (fun l hl => (h1 l hl).1) (fun l hl => (h1 l hl).2), hb]
    rfl
  have e2 : v.2.step E t v.1 b.2.1 = .ok (a.1, b.2.1.copies (w.2.writes w.1 sh.model) a.2.1, a.2.2) := by
    conv_lhs => rw [eb]
    rw [step_copies E t v.1 b.2.1 sh v.2 (fun l hl => (h2 l hl).1) (fun l hl => (h2 l hl).2), ha]
    rfl
  refine ⟨_, e1, e2.trans ?_⟩
  have : a.2.1.copies (v.2.writes v.1 sh.model) b.2.1 = b.2.1.copies (w.2.writes w.1 sh.model) a.2.1 := by
    calc a.2.1.copies (v.2.writes v.1 sh.model) b.2.1
        = a.2.1.copies (v.2.writes v.1 sh.model) (b.2.1.copies (w.2.writes w.1 sh.model) sh) := congrArg _ eb
      _ = b.2.1.copies (w.2.writes w.1 sh.model) (a.2.1.copies (v.2.writes v.1 sh.model) sh) := Shared.copies_comm (fun l hl => (h1 l hl).2) _ _ _
      _ = b.2.1.copies (w.2.writes w.1 sh.model) a.2.1 := congrArg _ ea.symm
  rw [this]

end
end Train
end Cnn
