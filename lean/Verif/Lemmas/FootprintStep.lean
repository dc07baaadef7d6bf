import Verif.Lemmas.Footprint
/-! Helper lemmas for C95: what a step of a thread reads and writes; steps that do not conflict commute. -/
set_option linter.unusedSectionVars false
namespace Cnn
variable {α : Type}

namespace Train

theorem Shared.copy_model_length (sl sh : Shared α) (l : Loc) : (sl.copy sh l).model.layers.length = sh.model.layers.length := by
  cases l with
  | layer i p =>
    unfold Shared.copy
    simp only
    split <;> simp
  | _ => rfl

theorem Shared.copy_labels (sl sh : Shared α) (l : Loc) : (sl.copy sh l).model.labels = sh.model.labels := by
  cases l with
  | layer i p =>
    unfold Shared.copy
    simp only
    split <;> rfl
  | _ => rfl

/-- The contents of a layer after copying. -/
def Shared.at (sl : Shared α) (l : Loc) (i : Nat) (k : Layer α) : Layer α :=
  match l with
  | .layer j p => if j = i then (match sl.model.layers[j]? with | some m => { k with body := m.body.copy p k.body } | none => k) else k
  | _ => k

theorem Shared.copy_get (sl sh : Shared α) (l : Loc) (i : Nat) :
    (sl.copy sh l).model.layers[i]? = sh.model.layers[i]?.map (sl.at l i) := by
  have ident : ∀ o : Option (Layer α), o = o.map (fun k => k) := fun o => by cases o <;> rfl
  cases l with
  | layer j p =>
    unfold Shared.copy Shared.at
    simp only
    cases hj : sl.model.layers[j]? with
    | none =>
      simp only
      by_cases h : j = i
      · simp only [if_pos h]; exact ident _
      · simp only [if_neg h]; exact ident _
    | some m =>
      simp only
      rw [List.getElem?_modify]
      by_cases h : j = i
      · simp only [if_pos h]
        cases sh.model.layers[i]? <;> rfl
      · simp only [if_neg h]
        cases sh.model.layers[i]? <;> rfl
  | source => exact ident _
  | hits => exact ident _

/-- Copying after setting a layer. -/
theorem Shared.copy_setBody (sl sh : Shared α) (l : Loc) (i : Nat) (B : Body α) :
    ({ sl.copy sh l with model := (sl.copy sh l).model.setBody i (sl.at l i ⟨[], B⟩).body } : Shared α) =
      sl.copy { sh with model := sh.model.setBody i B } l := by
  cases l with
  | layer j p =>
    unfold Shared.copy Shared.at
    simp only
    cases hj : sl.model.layers[j]? with
    | none => simp
    | some m =>
      simp only [Model.setBody, Shared.mk.injEq, and_true]
      congr 1
      by_cases h : j = i
      · subst h
        simp only [if_true]
        apply List.ext_getElem?
        intro k
        simp only [List.getElem?_modify]
        by_cases hk : j = k
        · subst hk
          cases sh.model.layers[j]? <;> simp
        · cases sh.model.layers[k]? <;> simp [hk]
      · simp only [if_neg h]
        apply List.ext_getElem?
        intro k
        simp only [List.getElem?_modify]
        by_cases hk : j = k
        · subst hk
          cases sh.model.layers[j]? <;> simp [Ne.symm h]
        · cases sh.model.layers[k]? <;> simp [hk]
  | source => rfl
  | hits => rfl

theorem Shared.at_body (sl : Shared α) (l : Loc) (i : Nat) (k : Layer α) : (sl.at l i k).body = (sl.at l i ⟨[], k.body⟩).body := by
  unfold Shared.at
  split
  · split
    · split <;> rfl
    · rfl
  · rfl

theorem Shared.copy_bodyAt (sl sh : Shared α) (l : Loc) {i : Nat} {B : Body α} (h : sh.model.bodyAt i = some B) :
    (sl.copy sh l).model.bodyAt i = some (sl.at l i ⟨[], B⟩).body := by
  unfold Model.bodyAt at h ⊢
  obtain ⟨k, hk, rfl⟩ := Option.map_eq_some_iff.1 h
  rw [Shared.copy_get, hk]
  simp only [Option.map_some]
  rw [Shared.at_body]

theorem Shared.at_id (sl : Shared α) {l : Loc} {i : Nat} (h : ∀ q, l ≠ .layer i q) (B : Body α) : (sl.at l i ⟨[], B⟩).body = B := by
  unfold Shared.at
  split
  · rename_i j q
    rw [if_neg]
    rintro rfl
    exact h q rfl
  · rfl

theorem Shared.at_layer (sl : Shared α) (i : Nat) (q : Part) : (∀ B, (sl.at (.layer i q) i ⟨[], B⟩).body = B) ∨
    ∃ S : Body α, ∀ B, (sl.at (.layer i q) i ⟨[], B⟩).body = S.copy q B := by
  unfold Shared.at
  simp only [if_true]
  cases sl.model.layers[i]? with
  | none => exact Or.inl fun B => rfl
  | some m => exact Or.inr ⟨m.body, fun B => rfl⟩

section
variable [Zero α] [One α] [Add α] [Sub α] [Mul α] [Div α] [Neg α]

theorem map_id' {β γ : Type} {x : Res (β × γ)} {f : γ → γ} (h : ∀ c, f c = c) : (fun r : β × γ => (r.1, f r.2)) <$> x = x := by
  cases x with
  | ok a => simp only [Res.map_ok, h]
  | throw | ub | abort => rfl

/-- A call of a layer does not depend on locations it does not access, and leaves them as they are. -/
theorem call_at (E : Env α) (sl sh : Shared α) {c : Nat} {p : Pc α} {i b : Nat} (hp : Overlap.place p = some (i, b)) {l : Loc} {B : Body α}
    (hB : sh.model.bodyAt i = some B) (hr : l ∉ p.reads c sh.model) (hw : l ∉ p.writes c sh.model) :
    Overlap.call E (sl.at l i ⟨[], B⟩).body p = (fun q => (q.1, (sl.at l i ⟨[], q.2⟩).body)) <$> Overlap.call E B p := by
  unfold Model.bodyAt at hB
  obtain ⟨k, hk, rfl⟩ := Option.map_eq_some_iff.1 hB
  by_cases hl : ∀ q, l ≠ .layer i q
  · rw [Shared.at_id sl hl, map_id' (fun B => Shared.at_id sl hl B)]
  · simp only [not_forall, not_not] at hl
    obtain ⟨q, rfl⟩ := hl
    rcases Shared.at_layer sl i q with h | ⟨S, h⟩
    · rw [h, map_id' h]
    · rw [h]
      simp only [h]
      cases p with
      | forward slot x j s =>
        obtain ⟨rfl, rfl⟩ := Prod.mk.inj (Option.some.inj hp)
        simp only [Pc.reads, Pc.writes, hk, List.mem_map, Loc.layer.injEq, true_and, exists_eq_right] at hr hw
        simp only [Overlap.call]
        rw [Body.forward_copy _ _ _ _ _ _ hr hw]
        cases k.body.forward E.num (E.draws j) s.1 slot with
        | throw | ub | abort => rfl
        | ok r =>
          simp only [Res.map_ok, Res.bind_ok]
          cases Model.record E r.1 <;> rfl
      | backward slot x r n d =>
        cases n with
        | zero => exact absurd hp (by simp [Overlap.place])
        | succ j =>
          obtain ⟨rfl, rfl⟩ := Prod.mk.inj (Option.some.inj hp)
          simp only [Pc.reads, Pc.writes, hk, List.mem_map, Loc.layer.injEq, true_and, exists_eq_right] at hr hw
          simp only [Overlap.call]
          cases Model.recordAt r j with
          | throw | ub | abort => rfl
          | ok X =>
            simp only [Res.bind_ok]
            cases Model.recordAt r (j + 1) with
            | throw | ub | abort => rfl
            | ok Z =>
              simp only [Res.bind_ok]
              cases Matrix.ofExpr id X.expr with
              | throw | ub | abort => rfl
              | ok X' =>
                simp only [Res.bind_ok]
                cases Matrix.ofExpr id Z.expr with
                | throw | ub | abort => rfl
                | ok Z' =>
                  simp only [Res.bind_ok]
                  rw [Body.backward_copy _ _ _ _ _ _ _ _ _ hr hw]
                  cases k.body.backward E.num E.order X' Z' d slot (j = 0) <;> rfl
      | _ => exact absurd hp (by simp [Overlap.place])

theorem copy_softmax (q : Part) (S : Body α) (Q : Softmax) (h : q ≠ .label) : ∃ k, S.copy q (.softmax Q) = .softmax { Q with count := k } := by
  cases q with
  | label => exact absurd rfl h
  | slot c => exact ⟨Q.count, by cases S <;> rfl⟩
  | params =>
    cases S with
    | softmax Q' => exact ⟨Q'.count, rfl⟩
    | _ => exact ⟨Q.count, rfl⟩

theorem outLabel_copy (q : Part) (S B : Body α) (h : q ≠ .label ∨ outLabel B = none) : outLabel (S.copy q B) = outLabel B := by
  cases B with
  | softmax Q =>
    rcases h with h | h
    · obtain ⟨k, e⟩ := copy_softmax q S Q h
      rw [e]
      rfl
    · exact absurd h (by simp [outLabel])
  | _ => cases q <;> cases S <;> rfl

/-- The label used by a back-propagation of the last layer. -/
theorem callEvents_copy (sl sh : Shared α) (t : Nat) {c : Nat} {p : Pc α} {i b : Nat} (hp : Overlap.place p = some (i, b)) {l : Loc}
    (hr : l ∉ p.reads c sh.model) : Overlap.callEvents (sl.copy sh l).model t p = Overlap.callEvents sh.model t p := by
  cases p with
  | backward slot x r n d =>
    cases n with
    | zero => rfl
    | succ j =>
      obtain ⟨rfl, rfl⟩ := Prod.mk.inj (Option.some.inj hp)
      simp only [Overlap.callEvents, gradEvent, Shared.copy_model_length]
      by_cases hj : j + 1 = sh.model.layers.length
      · rw [if_pos hj, if_pos hj]
        have e : storedLabel (sl.copy sh l).model = storedLabel sh.model := by
          rw [storedLabel_eq, storedLabel_eq, List.getLast?_eq_getElem?, List.getLast?_eq_getElem?, Shared.copy_model_length,
            show sh.model.layers.length - 1 = j by omega, Shared.copy_get]
          cases hk : sh.model.layers[j]? with
          | none => rfl
          | some k =>
            simp only [Option.map_some, Option.bind_some]
            rw [Shared.at_body]
            by_cases hl : ∀ q, l ≠ .layer j q
            · rw [Shared.at_id sl hl]
            · simp only [not_forall, not_not] at hl
              obtain ⟨q, rfl⟩ := hl
              simp only [Pc.reads, hk, List.mem_map, Loc.layer.injEq, true_and, exists_eq_right] at hr
              rcases Shared.at_layer sl j q with h | ⟨S, h⟩
              · rw [h]
              · rw [h]
                refine outLabel_copy q S k.body ?_
                cases hb : k.body with
                | softmax Q =>
                  left
                  rintro rfl
                  rw [hb] at hr
                  simp [Body.backwardReads] at hr
                | _ => right; rfl
        rw [e]
      · rw [if_neg hj, if_neg hj]
  | _ => rfl

theorem step_copy_call (E : Env α) (t c : Nat) (sl sh : Shared α) {p : Pc α} {i b : Nat} (hp : Overlap.place p = some (i, b)) {l : Loc} {B : Body α}
    (hB : sh.model.bodyAt i = some B) (hr : l ∉ p.reads c sh.model) (hw : l ∉ p.writes c sh.model) :
    p.step E t c (sl.copy sh l) = (fun r => (r.1, sl.copy r.2.1 l, r.2.2)) <$> p.step E t c sh := by
  rw [Overlap.step_call E t c sh hp hB, Overlap.step_call E t c _ hp (Shared.copy_bodyAt sl sh l hB), call_at E sl sh hp hB hr hw,
    callEvents_copy sl sh t hp hr]
  cases Overlap.call E B p with
  | throw | ub | abort => rfl
  | ok q =>
    simp only [Res.map_ok, Res.bind_ok]
    rw [Shared.copy_setBody]

/-- A step does not depend on locations it does not access, and leaves them as they are. -/
theorem step_copy (E : Env α) (t c : Nat) (sl sh : Shared α) (p : Pc α) {l : Loc} (hr : l ∉ p.reads c sh.model) (hw : l ∉ p.writes c sh.model) :
    p.step E t c (sl.copy sh l) = (fun r => (r.1, sl.copy r.2.1 l, r.2.2)) <$> p.step E t c sh := by
  match p with
  | .fetch slot =>
    simp only [Pc.step]
    by_cases hc : slot < c
    · rw [if_pos hc, if_pos hc]
      simp only [Pc.reads, if_pos hc, List.mem_singleton] at hr
      have hs : (sl.copy sh l).source = sh.source := by
        cases l with
        | layer i q => unfold Shared.copy; simp only; split <;> rfl
        | source => exact absurd rfl hr
        | hits => rfl
      rw [hs]
      cases hsrc : sh.source with
      | nil => rfl
      | cons x rest =>
        simp only
        cases Model.forwardBegin E x.data with
        | throw | ub | abort => rfl
        | ok s =>
          simp only [Res.bind_ok, Res.map_ok]
          cases l with
          | layer i q =>
            unfold Shared.copy
            simp only
            cases sl.model.layers[i]? <;> rfl
          | source => exact absurd rfl hr
          | hits => rfl
    · rw [if_neg hc, if_neg hc]
      rfl
  | .forward slot x i s =>
    by_cases hi : i < sh.model.layers.length
    · exact step_copy_call E t c sl sh (i := i) (b := slot) rfl (by rw [Model.bodyAt, List.getElem?_eq_getElem hi]; rfl) hr hw
    · have e : ∀ sh' : Shared α, ¬ i < sh'.model.layers.length → Pc.step E t c sh' (.forward slot x i s) =
        (Model.forwardEnd E sh'.model s.1 s.2 >>= fun r => .ok (.label slot x r, sh', [])) := fun sh' h => by
          show (if i < sh'.model.layers.length then _ else _) = _
          rw [if_neg h]
      rw [e _ hi, e _ (by rw [Shared.copy_model_length]; exact hi), Model.forwardEnd_congr E (Shared.copy_labels sl sh l)]
      cases Model.forwardEnd E sh.model s.1 s.2 <;> rfl
  | .label slot x r =>
    simp only [Pc.reads, List.mem_singleton, Pc.writes] at hr hw
    have hstep : ∀ sh' : Shared α, Pc.step E t c sh' (.label slot x r) = (sh'.model.backwardBegin E r x.label >>= fun q =>
      .ok (.backward slot x q.1 sh'.model.layers.length Matrix.empty, { sh' with model := q.2 }, [.label t slot x])) := fun _ => rfl
    rw [hstep, hstep]
    unfold Model.backwardBegin
    have e1 : Model.assignLoss E (sl.copy sh l).model r x.label = Model.assignLoss E sh.model r x.label := by
      unfold Model.assignLoss Model.labelIndex
      rw [Shared.copy_labels]
    have e2 : Model.labelIndex (sl.copy sh l).model x.label = Model.labelIndex sh.model x.label := by
      unfold Model.labelIndex
      rw [Shared.copy_labels]
    rw [e1, e2]
    cases Model.assignLoss E sh.model r x.label with
    | throw | ub | abort => rfl
    | ok r' =>
      simp only [Res.bind_ok]
      rw [List.getLast?_eq_getElem?, List.getLast?_eq_getElem?, Shared.copy_model_length, Shared.copy_get]
      have hat : ∀ (q : Part) (Q : Softmax), l = .layer (sh.model.layers.length - 1) q →
          (sl.at l (sh.model.layers.length - 1) ⟨[], .softmax Q⟩).body = (.softmax Q : Body α) := by
        rintro q Q rfl
        rcases Shared.at_layer sl (sh.model.layers.length - 1) q with h | ⟨S, h⟩
        · rw [h]
        · rw [h]
          cases q with
          | params => exact absurd rfl hr
          | label => exact absurd rfl hw
          | slot b => cases S <;> rfl
      have hat' : ∀ Q : Softmax, (sl.at l (sh.model.layers.length - 1) ⟨[], .softmax Q⟩).body = (.softmax Q : Body α) := by
        intro Q
        by_cases hl : ∀ q, l ≠ .layer (sh.model.layers.length - 1) q
        · rw [Shared.at_id sl hl]
        · simp only [not_forall, not_not] at hl
          obtain ⟨q, h⟩ := hl
          exact hat q Q h
      have hcls : ∀ B : Body α, (∀ Q, B ≠ .softmax Q) → ∀ Q, (sl.at l (sh.model.layers.length - 1) ⟨[], B⟩).body ≠ .softmax Q := by
        intro B hB Q
        by_cases hl : ∀ q, l ≠ .layer (sh.model.layers.length - 1) q
        · rw [Shared.at_id sl hl]
          exact hB Q
        · simp only [not_forall, not_not] at hl
          obtain ⟨q, rfl⟩ := hl
          rcases Shared.at_layer sl (sh.model.layers.length - 1) q with h | ⟨S, h⟩
          · rw [h]
            exact hB Q
          · rw [h]
            cases B with
            | softmax Q' => exact absurd rfl (hB Q')
            | _ => cases q <;> cases S <;> simp [Body.copy, Body.putSlot]
      cases hk : sh.model.layers[sh.model.layers.length - 1]? with
      | none => rfl
      | some k =>
        simp only [Option.map_some, Res.ofOption_some, Res.bind_ok]
        rw [Shared.at_body]
        cases hb : k.body with
        | softmax Q =>
          rw [hat']
          simp only
          cases h1 : (Q.assignTrueLabel (sh.model.labelIndex x.label)).1 with
          | throw | ub | abort => rfl
          | ok u =>
            simp only [Res.bind_ok, Res.map_ok]
            have := Shared.copy_setBody sl sh l (sh.model.layers.length - 1) (.softmax (Q.assignTrueLabel (sh.model.labelIndex x.label)).2)
            rw [hat'] at this
            rw [this]
        | _ =>
          split
          · rename_i Q hQ
            exact absurd hQ (hcls _ (by simp) Q)
          · rfl
  | .backward slot x r (i + 1) d =>
    cases hi : sh.model.layers[i]? with
    | some k => exact step_copy_call E t c sl sh (i := i) (b := slot) rfl (by rw [Model.bodyAt, hi]; rfl) hr hw
    | none =>
      have e : ∀ sh' : Shared α, sh'.model.layers[i]? = none → Pc.step E t c sh' (.backward slot x r (i + 1) d) =
        (Model.recordAt r i >>= fun _ => Model.recordAt r (i + 1) >>= fun _ => Res.ub) := fun sh' h => by
          show (Model.backwardStep E r slot (d, sh'.model) i >>= fun q => _) = _
          unfold Model.backwardStep
          simp only [h]
          cases Model.recordAt r i with
          | throw | ub | abort => rfl
          | ok X =>
            simp only [Res.bind_ok]
            cases Model.recordAt r (i + 1) <;> rfl
      rw [e sh hi, e _ (by rw [Shared.copy_get, hi]; rfl)]
      cases Model.recordAt r i with
      | throw | ub | abort => rfl
      | ok X =>
        simp only [Res.bind_ok]
        cases Model.recordAt r (i + 1) <;> rfl
  | .backward slot x r 0 d =>
    simp only [Pc.reads, List.mem_singleton] at hr
    have hh : (sl.copy sh l).hits = sh.hits := by
      cases l with
      | layer i q => unfold Shared.copy; simp only; split <;> rfl
      | source => rfl
      | hits => exact absurd rfl hr
    simp only [Pc.step, hh, Res.map_ok]
    cases l with
    | layer i q =>
      unfold Shared.copy
      simp only
      cases sl.model.layers[i]? <;> rfl
    | source => rfl
    | hits => exact absurd rfl hr
  | .done slot => rfl

/-- Copying the written parts of a layer. -/
theorem copies_layer {sl sh : Shared α} {i : Nat} {B B' : Body α} {m : Layer α} (hB : sh.model.bodyAt i = some B) (hm : sl.model.layers[i]? = some m)
    (hb : m.body = B') (ws : List Part) : sl.copies (ws.map (.layer i)) sh =
      { sh with model := sh.model.setBody i (ws.foldr (fun p d => B'.copy p d) B) } := by
  unfold Model.bodyAt at hB
  obtain ⟨k, hk, rfl⟩ := Option.map_eq_some_iff.1 hB
  induction ws with
  | nil =>
    simp only [Shared.copies, List.map_nil, List.foldr_nil, Model.setBody]
    have : sh.model.layers.modify i (fun l => { l with body := k.body }) = sh.model.layers := by
      apply List.ext_getElem?
      intro j
      rw [List.getElem?_modify]
      by_cases hj : i = j
      · subst hj
        rw [hk]
        simp
      · cases sh.model.layers[j]? <;> simp [hj]
    rw [this]
  | cons p ws ih =>
    have e : sl.copies ((p :: ws).map (.layer i)) sh = sl.copy (sl.copies (ws.map (.layer i)) sh) (.layer i p) := rfl
    rw [e, ih]
    unfold Shared.copy
    simp only [hm, hb, List.foldr_cons, Model.setBody]
    congr 2
    apply List.ext_getElem?
    intro j
    simp only [List.getElem?_modify]
    by_cases hj : i = j
    · subst hj
      rw [hk]
      simp
    · cases sh.model.layers[j]? <;> simp [hj]

theorem call_writes {E : Env α} {c : Nat} {sh : Shared α} {p : Pc α} {i b : Nat} (hp : Overlap.place p = some (i, b)) {B : Body α}
    (hB : sh.model.bodyAt i = some B) {q : Pc α × Body α} (h : Overlap.call E B p = .ok q) :
    ∃ ws : List Part, p.writes c sh.model = ws.map (.layer i) ∧ q.2 = ws.foldr (fun p d => q.2.copy p d) B := by
  unfold Model.bodyAt at hB
  obtain ⟨k, hk, rfl⟩ := Option.map_eq_some_iff.1 hB
  cases p with
  | forward slot x j s =>
    obtain ⟨rfl, rfl⟩ := Prod.mk.inj (Option.some.inj hp)
    refine ⟨k.body.forwardWrites slot, by simp only [Pc.writes, hk], ?_⟩
    unfold Overlap.call at h
    obtain ⟨r, e, h⟩ := Res.bind_eq_ok h
    obtain ⟨R, _, h⟩ := Res.bind_eq_ok h
    obtain rfl := Res.ok.inj h
    exact Body.forward_writes e
  | backward slot x r n d =>
    cases n with
    | zero => exact absurd hp (by simp [Overlap.place])
    | succ j =>
      obtain ⟨rfl, rfl⟩ := Prod.mk.inj (Option.some.inj hp)
      refine ⟨k.body.backwardWrites slot, by simp only [Pc.writes, hk], ?_⟩
      unfold Overlap.call at h
      obtain ⟨_, _, h⟩ := Res.bind_eq_ok h
      obtain ⟨_, _, h⟩ := Res.bind_eq_ok h
      obtain ⟨_, _, h⟩ := Res.bind_eq_ok h
      obtain ⟨_, _, h⟩ := Res.bind_eq_ok h
      obtain ⟨r, e, h⟩ := Res.bind_eq_ok h
      obtain rfl := Res.ok.inj h
      exact Body.backward_writes e
  | _ => exact absurd hp (by simp [Overlap.place])

theorem setBody_get {M : Model α} {i : Nat} {k : Layer α} (h : M.layers[i]? = some k) (B : Body α) :
    (M.setBody i B).layers[i]? = some { k with body := B } := by
  simp [Model.setBody, h]

/-- A step changes only what it writes. -/
theorem step_writes {E : Env α} {t c : Nat} {sh : Shared α} {p : Pc α} {r : Pc α × Shared α × List (Event α)} (h : p.step E t c sh = .ok r) :
    r.2.1 = r.2.1.copies (p.writes c sh.model) sh := by
  have hcall : ∀ {i b : Nat} {k : Layer α}, Overlap.place p = some (i, b) → sh.model.layers[i]? = some k → r.2.1 = r.2.1.copies (p.writes c sh.model) sh := by
    intro i b k hp hk
    have hB : sh.model.bodyAt i = some k.body := by rw [Model.bodyAt, hk]; rfl
    rw [Overlap.step_call E t c sh hp hB] at h
    obtain ⟨q, hq, h⟩ := Res.bind_eq_ok h
    obtain rfl := Res.ok.inj h
    obtain ⟨ws, e1, e2⟩ := call_writes (c := c) hp hB hq
    rw [e1, copies_layer hB (setBody_get hk q.2) rfl, ← e2]
  match p with
  | .fetch slot =>
    simp only [Pc.step] at h
    simp only [Pc.writes]
    by_cases hc : slot < c
    · rw [if_pos hc] at h ⊢
      cases hsrc : sh.source with
      | nil =>
        rw [hsrc] at h
        obtain rfl := Res.ok.inj h
        rfl
      | cons x rest =>
        rw [hsrc] at h
        obtain ⟨s, hs, h⟩ := Res.bind_eq_ok h
        obtain rfl := Res.ok.inj h
        rfl
    · rw [if_neg hc] at h ⊢
      obtain rfl := Res.ok.inj h
      rfl
  | .forward slot x i s =>
    by_cases hi : i < sh.model.layers.length
    · exact hcall (i := i) (b := slot) rfl (List.getElem?_eq_getElem hi)
    · simp only [Pc.step, if_neg hi] at h
      obtain ⟨s, hs, h⟩ := Res.bind_eq_ok h
      obtain rfl := Res.ok.inj h
      simp only [Pc.writes, List.getElem?_eq_none (by omega : sh.model.layers.length ≤ i)]
      rfl
  | .label slot x r' =>
    simp only [Pc.step] at h
    obtain ⟨q, hq, h⟩ := Res.bind_eq_ok h
    obtain rfl := Res.ok.inj h
    unfold Model.backwardBegin at hq
    obtain ⟨r1, _, hq⟩ := Res.bind_eq_ok hq
    obtain ⟨k, hk, hq⟩ := Res.bind_eq_ok hq
    have hk := ofOption_eq hk
    rw [List.getLast?_eq_getElem?] at hk
    cases hb : k.body with
    | softmax Q =>
      rw [hb] at hq
      simp only at hq
      obtain ⟨u, hu, hq⟩ := Res.bind_eq_ok hq
      obtain rfl := Res.ok.inj hq
      have hB : sh.model.bodyAt (sh.model.layers.length - 1) = some (.softmax Q) := by rw [Model.bodyAt, hk, ← hb]; rfl
      have := copies_layer (sl := { sh with model := sh.model.setBody (sh.model.layers.length - 1) (.softmax (Q.assignTrueLabel (sh.model.labelIndex x.label)).2) })
        hB (setBody_get hk _) rfl [.label]
      simp only [Pc.writes]
      rw [show [Loc.layer (sh.model.layers.length - 1) .label] = [Part.label].map (.layer (sh.model.layers.length - 1)) from rfl, this]
      have e : Softmax.assignTrueLabel Q (sh.model.labelIndex x.label) = (.ok (), { Q with trueLabel := sh.model.labelIndex x.label, knows := true }) := by
        unfold Softmax.assignTrueLabel at hu ⊢
        split
        · rename_i hge
          rw [if_pos hge] at hu
          exact absurd hu (by simp)
        · rfl
      rw [e]
      rfl
    | _ => rw [hb] at hq; exact absurd hq (by simp)
  | .backward slot x r' (i + 1) d =>
    cases hi : sh.model.layers[i]? with
    | some k => exact hcall (i := i) (b := slot) rfl hi
    | none =>
      simp only [Pc.step] at h
      obtain ⟨q, hq, h⟩ := Res.bind_eq_ok h
      unfold Model.backwardStep at hq
      obtain ⟨_, _, hq⟩ := Res.bind_eq_ok hq
      obtain ⟨_, _, hq⟩ := Res.bind_eq_ok hq
      simp only [hi] at hq
      exact absurd hq (by simp [Res.ofOption])
  | .backward slot x r' 0 d =>
    simp only [Pc.step] at h
    obtain rfl := Res.ok.inj h
    rfl
  | .done slot =>
    simp only [Pc.step] at h
    obtain rfl := Res.ok.inj h
    rfl

end
end Train
end Cnn
