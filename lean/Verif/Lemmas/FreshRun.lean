import Verif.Lemmas.BatchAny
/-! Helper lemmas: a batch on a model with unused layers runs like a batch on the model with the layers made ready (C67, C68). -/
set_option linter.unusedSectionVars false
namespace Cnn

namespace Model
variable {α : Type}

/-- The model without the states of its layers. -/
def outline (M : Model α) : List (List Char) × Model α := (M.layers.map (·.name), { M with layers := [] })

/-- The state of layer `i`. -/
def bodyAt (M : Model α) (i : Nat) : Option (Body α) := M.layers[i]?.map (·.body)

theorem outline_length {M M' : Model α} (h : M.outline = M'.outline) : M.layers.length = M'.layers.length := by
  have := congrArg (fun p => p.1.length) h
  simpa [outline] using this

theorem eq_of_outline {M M' : Model α} (h : M.outline = M'.outline) (hb : ∀ i < M.layers.length, M.bodyAt i = M'.bodyAt i) : M = M' := by
  have hl := outline_length h
  have h1 : M.layers.map (·.name) = M'.layers.map (·.name) := congrArg Prod.fst h
  have h2 : ({ M with layers := [] } : Model α) = { M' with layers := [] } := congrArg Prod.snd h
  have h3 : M.layers = M'.layers := by
    refine List.ext_getElem? fun i => ?_
    rcases Nat.lt_or_ge i M.layers.length with hi | hi
    · have e1 := congrArg (·[i]?) h1
      have e2 := hb i hi
      have hi' : i < M'.layers.length := hl ▸ hi
      simp only [List.getElem?_map, bodyAt, List.getElem?_eq_getElem hi, List.getElem?_eq_getElem hi', Option.map_some,
        Option.some.injEq] at e1 e2 ⊢
      generalize M.layers[i] = a at *
      generalize M'.layers[i] = b at *
      cases a; cases b
      simp only at e1 e2
      rw [e1, e2]
    · rw [List.getElem?_eq_none hi, List.getElem?_eq_none (hl ▸ hi)]
  obtain ⟨a1, a2, a3, a4, a5, a6, a7⟩ := M
  obtain ⟨b1, b2, b3, b4, b5, b6, b7⟩ := M'
  simp only at h3
  simp only [Model.mk.injEq, true_and] at h2
  simp only [h3, h2]

theorem setBody_outline (M : Model α) (i : Nat) (b : Body α) : (M.setBody i b).outline = M.outline := by
  have : (M.layers.modify i fun l => { l with body := b }).map (·.name) = M.layers.map (·.name) := by
    refine List.ext_getElem? fun j => ?_
    simp only [List.getElem?_map, List.getElem?_modify]
    split <;> cases M.layers[j]? <;> rfl
  unfold outline setBody
  simp only [this]

theorem setBody_bodyAt (M : Model α) (i j : Nat) (b : Body α) :
    (M.setBody i b).bodyAt j = if i = j then (M.bodyAt j).map fun _ => b else M.bodyAt j := by
  unfold bodyAt setBody
  simp only [List.getElem?_modify]
  split <;> cases M.layers[j]? <;> rfl

end Model

namespace Train
open Model
variable {α : Type} [Zero α] [One α] [Add α] [Sub α] [Mul α] [Div α] [Neg α]

/-- Each layer is the same in both models, or in both it is as at the beginning. -/
structure MSim (M0 M0' M M' : Model α) : Prop where
  outline : M.outline = M'.outline
  bodies : ∀ j, M.bodyAt j = M'.bodyAt j ∨ (M.bodyAt j = M0.bodyAt j ∧ M'.bodyAt j = M0'.bodyAt j)

/-- How many layers the thread's sample has gone through. -/
def Pc.passed (L : Nat) : Pc α → Nat
  | .fetch _ => 0
  | .done _ => 0
  | .forward _ _ i _ => i
  | .label _ _ _ => L
  | .backward _ _ _ _ _ => L

theorem MSim.refl (M0 M0' M : Model α) : MSim M0 M0' M M := ⟨rfl, fun _ => Or.inl rfl⟩

theorem MSim.setBody {M0 M0' M M' : Model α} (h : MSim M0 M0' M M') (i : Nat) (b : Body α) :
    MSim M0 M0' (M.setBody i b) (M'.setBody i b) ∧
    ∀ j, (j = i ∨ M.bodyAt j = M'.bodyAt j) → (M.setBody i b).bodyAt j = (M'.setBody i b).bodyAt j := by
  have hl := outline_length h.outline
  have at_i : (M.setBody i b).bodyAt i = (M'.setBody i b).bodyAt i := by
    rw [setBody_bodyAt, setBody_bodyAt, if_pos rfl, if_pos rfl]
    unfold bodyAt
    rcases Nat.lt_or_ge i M.layers.length with hi | hi
    · rw [List.getElem?_eq_getElem hi, List.getElem?_eq_getElem (hl ▸ hi)]; rfl
    · rw [List.getElem?_eq_none hi, List.getElem?_eq_none (hl ▸ hi)]
  have at_j : ∀ j, j ≠ i → (M.setBody i b).bodyAt j = M.bodyAt j ∧ (M'.setBody i b).bodyAt j = M'.bodyAt j := by
    intro j hj
    rw [setBody_bodyAt, setBody_bodyAt, if_neg (Ne.symm hj), if_neg (Ne.symm hj)]
    exact ⟨rfl, rfl⟩
  refine ⟨⟨?_, ?_⟩, ?_⟩
  · rw [setBody_outline, setBody_outline]; exact h.outline
  · intro j
    by_cases hj : j = i
    · subst hj; exact Or.inl at_i
    · rw [(at_j j hj).1, (at_j j hj).2]; exact h.bodies j
  · intro j hj
    by_cases hji : j = i
    · subst hji; exact at_i
    · rw [(at_j j hji).1, (at_j j hji).2]
      exact hj.resolve_left hji

/-- A step of a thread in both runs. -/
theorem Pc.step_sim {E : Env α} {M0 M0' M : Model α} {sh' : Shared α} {t c L : Nat} {p : Pc α} (hL : sh'.model.layers.length = L) (h : MSim M0 M0' M sh'.model)
    (hpass : ∀ j < p.passed L, M.bodyAt j = sh'.model.bodyAt j)
    (hin : ∀ slot x i st, p = .forward slot x i st → i < L → ∀ b b', M0.bodyAt i = some b → M0'.bodyAt i = some b' →
      b.forward E.num (E.draws i) st.1 slot = b'.forward E.num (E.draws i) st.1 slot)
    {r : Pc α × Shared α × List (Event α)} (hr : p.step E t c sh' = .ok r) :
    ∃ M1, p.step E t c { sh' with model := M } = .ok (r.1, { r.2.1 with model := M1 }, r.2.2) ∧ MSim M0 M0' M1 r.2.1.model ∧
      ∀ j, (j < r.1.passed L ∨ M.bodyAt j = sh'.model.bodyAt j) → M1.bodyAt j = r.2.1.model.bodyAt j := by
  have hl := outline_length h.outline
  have hfull : M = sh'.model → ∃ M1, p.step E t c { sh' with model := M } = .ok (r.1, { r.2.1 with model := M1 }, r.2.2) ∧
      MSim M0 M0' M1 r.2.1.model ∧
      ∀ j, (j < r.1.passed L ∨ M.bodyAt j = sh'.model.bodyAt j) → M1.bodyAt j = r.2.1.model.bodyAt j := by
    intro he
    refine ⟨r.2.1.model, ?_, MSim.refl _ _ _, fun _ _ => rfl⟩
    rw [he]; exact hr
  cases p with
  | fetch slot =>
    simp only [Pc.step] at hr ⊢
    by_cases hc : slot < c
    · rw [if_pos hc] at hr
      simp only [hc, if_true]
      cases hsrc : sh'.source with
      | nil =>
        rw [hsrc] at hr
        obtain rfl := Res.ok.inj hr
        exact ⟨M, by simp only [hsrc], h, fun j hj => hj.resolve_left (by simp [Pc.passed])⟩
      | cons x rest =>
        rw [hsrc] at hr
        obtain ⟨a, ha, hr⟩ := Res.bind_eq_ok hr
        obtain rfl := Res.ok.inj hr
        exact ⟨M, by simp only [ha, Res.bind_ok], h, fun j hj => hj.resolve_left (by simp [Pc.passed])⟩
    · rw [if_neg hc] at hr
      simp only [hc, if_false]
      obtain rfl := Res.ok.inj hr
      exact ⟨M, rfl, h, fun j hj => hj.resolve_left (by simp [Pc.passed])⟩
  | done slot =>
    obtain rfl := Res.ok.inj hr
    exact ⟨M, rfl, h, fun j hj => hj.resolve_left (by simp [Pc.passed])⟩
  | label slot x r' => exact hfull (eq_of_outline h.outline fun j hj => hpass j (by simp only [Pc.passed]; omega))
  | backward slot x r' k d => exact hfull (eq_of_outline h.outline fun j hj => hpass j (by simp only [Pc.passed]; omega))
  | forward slot x i st =>
    by_cases hi : i < M.layers.length
    · simp only [Pc.step] at hr ⊢
      rw [if_pos (hl ▸ hi)] at hr
      rw [if_pos hi]
      obtain ⟨a, ha, hr⟩ := Res.bind_eq_ok hr
      obtain rfl := Res.ok.inj hr
      unfold forwardStep forwardLayer at ha ⊢
      simp only at ha ⊢
      obtain ⟨u, hu, ha⟩ := Res.bind_eq_ok ha
      obtain ⟨l', hl', hu⟩ := Res.bind_eq_ok hu
      obtain ⟨v, hv, hu⟩ := Res.bind_eq_ok hu
      obtain rfl := Res.ok.inj hu
      obtain ⟨R, hR, ha⟩ := Res.bind_eq_ok ha
      obtain rfl := Res.ok.inj ha
      have hg' : sh'.model.layers[i]? = some l' := by
        cases hx : sh'.model.layers[i]? with
        | none => rw [hx] at hl'; exact absurd hl' (by simp [Res.ofOption])
        | some y => rw [hx] at hl'; rw [Res.ok.inj hl']
      have hb' : sh'.model.bodyAt i = some l'.body := by simp [bodyAt, hg']
      have hg : M.layers[i]? = some (M.layers[i]) := List.getElem?_eq_getElem hi
      have hb : M.bodyAt i = some M.layers[i].body := by simp [bodyAt, hg]
      have hf : M.layers[i].body.forward E.num (E.draws i) st.1 slot = .ok v := by
        rcases h.bodies i with e | ⟨e1, e2⟩
        · rw [hb, hb'] at e
          rw [Option.some.inj e]; exact hv
        · rw [hin slot x i st rfl (by omega) _ _ (e1.symm.trans hb) (e2.symm.trans hb')]; exact hv
      obtain ⟨m1, m2⟩ := h.setBody i v.2
      refine ⟨M.setBody i v.2, ?_, m1, ?_⟩
      · simp only [hg, Res.ofOption, Res.bind_ok, hf, hR]
      · intro j hj
        refine m2 j ?_
        rcases hj with hj | hj
        · rcases Nat.lt_succ_iff_lt_or_eq.1 hj with hj | hj
          · exact Or.inr (hpass j hj)
          · exact Or.inl hj
        · exact Or.inr hj
    · exact hfull (eq_of_outline h.outline fun j hj => hpass j (by simp only [Pc.passed]; omega))

/-- The layers of two models propagate the data of the batch in the same way. -/
def SameStart (E : Env α) (M0 M0' : Model α) (B : Nat) (src : List (Sample α)) : Prop :=
  ∀ slot < B, ∀ x ∈ src, ∀ i st m, soloF E (M0'.norm slot) x i = .ok (st, m) → ∀ b b', M0.bodyAt i = some b → M0'.bodyAt i = some b' →
    b.forward E.num (E.draws i) st.1 slot = b'.forward E.num (E.draws i) st.1 slot

/-- Two runs of a batch, on two models. -/
structure Sim (M0 M0' : Model α) (s s' : Batch α) (evs : List (Event α)) : Prop where
  shared : s.shared = { s'.shared with model := s.shared.model }
  workers : s.workers = s'.workers
  model : MSim M0 M0' s.shared.model s'.shared.model
  passed : ∀ (t : Nat) (w : Nat × Pc α), s'.workers[t]? = some w → ∀ j < w.2.passed M0'.layers.length, s.shared.model.bodyAt j = s'.shared.model.bodyAt j
  same : fetches evs = [] ∨ (∃ (t : Nat) (w : Nat × Pc α) (x : Sample α), s'.workers[t]? = some w ∧ w.2.busy = some x) ∨ s.shared.model = s'.shared.model

/-- A thread that takes a sample or goes on with it stays at work or has taken it through all layers. -/
theorem Pc.step_busy {E : Env α} {t c : Nat} {p : Pc α} {sh : Shared α} {r : Pc α × Shared α × List (Event α)} (L : Nat)
    (hr : p.step E t c sh = .ok r) : (p.busy = none ∧ fetches r.2.2 = []) ∨ (∃ x, r.1.busy = some x) ∨ ∀ j < L, j < p.passed L := by
  cases p with
  | fetch slot =>
    simp only [Pc.step] at hr
    by_cases hc : slot < c
    · rw [if_pos hc] at hr
      cases hsrc : sh.source with
      | nil =>
        rw [hsrc] at hr
        obtain rfl := Res.ok.inj hr
        exact Or.inl ⟨rfl, rfl⟩
      | cons x rest =>
        rw [hsrc] at hr
        obtain ⟨a, _, hr⟩ := Res.bind_eq_ok hr
        obtain rfl := Res.ok.inj hr
        exact Or.inr (Or.inl ⟨x, rfl⟩)
    · rw [if_neg hc] at hr
      obtain rfl := Res.ok.inj hr
      exact Or.inl ⟨rfl, rfl⟩
  | done slot =>
    obtain rfl := Res.ok.inj hr
    exact Or.inl ⟨rfl, rfl⟩
  | forward slot x i st =>
    simp only [Pc.step] at hr
    split at hr
    · obtain ⟨a, _, hr⟩ := Res.bind_eq_ok hr
      obtain rfl := Res.ok.inj hr
      exact Or.inr (Or.inl ⟨x, rfl⟩)
    · obtain ⟨a, _, hr⟩ := Res.bind_eq_ok hr
      obtain rfl := Res.ok.inj hr
      exact Or.inr (Or.inl ⟨x, rfl⟩)
  | label slot x r' => exact Or.inr (Or.inr fun j hj => hj)
  | backward slot x r' k d => exact Or.inr (Or.inr fun j hj => hj)

theorem Sim.step {E : Env α} {M0 M0' : Model α} {T B w : Nat} {src0 : List (Sample α)} {s s' : Batch α} {evs : List (Event α)}
    (hS : SameStart E M0 M0' B (src0.take B)) (h : Sim M0 M0' s s' evs) (hG : GInv E M0' s' evs) (hB : BInv T B w src0 s' evs)
    {t : Nat} {r' : Batch α × List (Event α)} (hr : s'.step E t = .ok r') :
    ∃ r, s.step E t = .ok (r, r'.2) ∧ Sim M0 M0' r r'.1 (evs ++ r'.2) := by
  have hlen := bare_len hG.bare
  unfold Batch.step at hr ⊢
  rw [h.workers]
  cases hw : s'.workers[t]? with
  | none =>
    rw [hw] at hr
    obtain rfl := Res.ok.inj hr
    exact ⟨s, rfl, by simpa using h⟩
  | some v =>
    obtain ⟨c, p⟩ := v
    rw [hw] at hr
    simp only at hr ⊢
    obtain ⟨a, ha, hr⟩ := Res.bind_eq_ok hr
    obtain rfl := Res.ok.inj hr
    have ha : p.step E t c s'.shared = .ok a := by
      cases hx : p.step E t c s'.shared <;> rw [hx] at ha <;> simp_all [terminate]
    have hT := hB.thread t _ hw
    have hW : Work E M0' s'.shared.model evs t p := hG.work t _ hw
    obtain ⟨M1, e, m1, m2⟩ := Pc.step_sim (L := M0'.layers.length) hlen h.model (h.passed t _ hw) (by
      intro slot x i st hp hi b b' hb hb'
      subst hp
      obtain ⟨_, hf⟩ := hW
      have hm := (hT.busy x rfl x).2 rfl
      exact hS slot (by have := (hB.range hm).2.2; simp only [Pc.slot] at this; omega) x (hB.mem_take _ hm) i st _ hf b b' hb hb') ha
    have hlt : t < s'.workers.length := (List.getElem?_eq_some_iff.1 hw).1
    refine ⟨⟨{ a.2.1 with model := M1 }, s'.workers.set t (c, a.1)⟩, ?_, rfl, rfl, m1, ?_, ?_⟩
    · rw [h.shared, e]; rfl
    · intro u v hv j hj
      dsimp only at hv
      refine m2 j ?_
      by_cases hu : t = u
      · subst hu
        rw [List.getElem?_set_self hlt] at hv
        obtain rfl := Option.some.inj hv
        exact Or.inl hj
      · rw [List.getElem?_set_ne hu] at hv
        exact Or.inr (h.passed u v hv j hj)
    · rw [fetches_append]
      have heq : (∀ j < M0'.layers.length, s.shared.model.bodyAt j = s'.shared.model.bodyAt j) → M1 = a.2.1.model := by
        intro hj
        refine eq_of_outline m1.outline fun j hlt => m2 j (Or.inr ?_)
        by_cases hjl : j < M0'.layers.length
        · exact hj j hjl
        · have l1 := outline_length h.model.outline
          unfold bodyAt
          rw [List.getElem?_eq_none (by omega), List.getElem?_eq_none (by omega)]
      rcases Pc.step_busy M0'.layers.length ha with ⟨b1, b2⟩ | ⟨x, hx⟩ | hall
      · rcases h.same with h1 | ⟨u, v, x, h1, h2⟩ | h1
        · exact Or.inl (by rw [h1, b2]; rfl)
        · refine Or.inr (Or.inl ⟨u, v, x, ?_, h2⟩)
          have hu : t ≠ u := by
            rintro rfl
            rw [hw] at h1
            obtain rfl := Option.some.inj h1
            simp only at h2
            rw [b1] at h2
            exact absurd h2 (by simp)
          rw [List.getElem?_set_ne hu]; exact h1
        · exact Or.inr (Or.inr (heq fun j _ => by rw [h1]))
      · exact Or.inr (Or.inl ⟨t, (c, a.1), x, List.getElem?_set_self hlt, hx⟩)
      · exact Or.inr (Or.inr (heq fun j hj => h.passed t _ hw j (hall j hj)))

theorem Sim.run {E : Env α} {M0 M0' : Model α} {T B w : Nat} {src0 : List (Sample α)} (hM0 : M0'.Ready)
    (hS : SameStart E M0 M0' B (src0.take B)) (sched : List Nat) : ∀ {s s' : Batch α} {evs : List (Event α)}, Sim M0 M0' s s' evs →
    GInv E M0' s' evs → BInv T B w src0 s' evs → ∀ {r' : Batch α × List (Event α)}, s'.run E sched = .ok r' →
      ∃ r, s.run E sched = .ok (r, r'.2) ∧ Sim M0 M0' r r'.1 (evs ++ r'.2) := by
  induction sched with
  | nil =>
    intro s s' evs h _ _ r' hr
    obtain rfl := Res.ok.inj hr
    exact ⟨s, rfl, by simpa using h⟩
  | cons t ts ih =>
    intro s s' evs h hG hB r' hr
    rw [Batch.run] at hr
    obtain ⟨a, ha, hr⟩ := Res.bind_eq_ok hr
    obtain ⟨b, hb, hr⟩ := Res.bind_eq_ok hr
    obtain rfl := Res.ok.inj hr
    obtain ⟨a1, e1, h1⟩ := h.step hS hG hB ha
    obtain ⟨b1, e2, h2⟩ := ih h1 (hG.step hM0 hB ha) (hB.step ha) hb
    refine ⟨b1, ?_, by rw [← List.append_assoc]; exact h2⟩
    rw [Batch.run, e1, Res.bind_ok, e2, Res.bind_ok]

theorem over_not_busy {s : Batch α} (ho : s.over = true) {t : Nat} {w : Nat × Pc α} {x : Sample α} (hw : s.workers[t]? = some w)
    (hx : w.2.busy = some x) : False := by
  have := List.all_eq_true.1 ho w (List.mem_of_getElem? hw)
  obtain ⟨c, p⟩ := w
  cases p <;> simp [Pc.busy] at this hx

/-- A batch on the model with unused layers and on the model with the layers made ready: under every schedule the result is
the same. -/
theorem runBatch_sim {E : Env α} {p : Hyper α} {B T : Nat} (hp : p.batch = B) (hq : p.threads = T) (hB : B < 2 ^ 24)
    (hT0 : 0 < T) (hT : T < 2147483648) {sh : Shared α} (hM : sh.model.Prepared B)
    (hal : ∀ x ∈ sh.source.take B, ∀ y ∈ sh.source.take B, ∃ m, alone E sh.model ⟨x.data, y.label⟩ = .ok m) (h0 : 0 < B)
    (hsrc : sh.source ≠ []) {M : Model α} (hout : M.outline = sh.model.outline) (hS : SameStart E M sh.model B (sh.source.take B))
    (sched : List Nat) : runBatch E p sched { sh with model := M } = runBatch E p sched sh := by
  have hst := startBatch_eq B T hB hT0 hT sh
  have hst' := startBatch_eq B T hB hT0 hT { sh with model := M }
  obtain ⟨i1, i2, i3⟩ := batch_init (E := E) (B := B) (T := T) (w := share B T) sh
  obtain ⟨r, hr⟩ := run_ok (Runs.of_alone hM hal) hM.ready sched i2 i1 i3
  have h1 : Sim M sh.model (⟨{ sh with model := M }, (List.range T).map (fun t => (min ((t + 1) * share B T) B, Pc.fetch (t * share B T)))⟩ : Batch α)
      ⟨sh, (List.range T).map (fun t => (min ((t + 1) * share B T) B, Pc.fetch (t * share B T)))⟩ [] := by
    refine ⟨rfl, rfl, ⟨hout, fun j => Or.inr ⟨rfl, rfl⟩⟩, ?_, Or.inl rfl⟩
    intro t w hw j hj
    simp only [List.getElem?_map, Option.map_eq_some_iff] at hw
    obtain ⟨a, _, rfl⟩ := hw
    simp [Pc.passed] at hj
  obtain ⟨q, e, h2⟩ := h1.run hM.ready hS sched i2 i1 hr
  have hov : q.over = r.1.over := by unfold Batch.over; rw [h2.workers]
  unfold runBatch
  rw [hp, hq, hst, hst', Res.bind_ok, Res.bind_ok, hr, e, Res.bind_ok, Res.bind_ok]
  simp only [hov]
  by_cases ho : r.1.over = true
  · have hcount := (run_end hB hM.ready hst hr ho).2.2.2.2.1
    have hm : q.shared.model = r.1.shared.model := by
      rcases h2.same with h3 | ⟨t, w, x, h3, h4⟩ | h3
      · rw [List.nil_append] at h3
        rw [h3] at hcount
        have : sh.source.length ≠ 0 := fun h => hsrc (List.eq_nil_of_length_eq_zero h)
        simp only [List.length_nil] at hcount
        omega
      · exact (over_not_busy ho h3 h4).elim
      · exact h3
    have hsh : q.shared = r.1.shared := by rw [h2.shared, hm]
    simp only [ho, if_true, hsh]
  · rw [if_neg ho, if_neg ho]

end Train
end Cnn
