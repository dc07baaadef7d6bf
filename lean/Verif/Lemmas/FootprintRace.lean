import Verif.Lemmas.FootprintRun
import Verif.Lemmas.BatchAny
/-! Helper lemmas for C95: which steps race, and that the race on the label is reached. -/
set_option linter.unusedSectionVars false
namespace Cnn
variable {α : Type}
namespace Train

theorem forward_layer {M : Model α} {c slot i j : Nat} {x : Sample α} {s : Matrix α × List (Matrix α)} {q : Part}
    (h : Loc.layer j q ∈ (Pc.forward slot x i s).reads c M ∨ Loc.layer j q ∈ (Pc.forward slot x i s).writes c M) :
    j = i ∧ ∃ k, M.layers[i]? = some k ∧ (q ∈ k.body.forwardReads slot ∨ q ∈ k.body.forwardWrites slot) := by
  simp only [Pc.reads, Pc.writes] at h
  cases hk : M.layers[i]? with
  | none => rw [hk] at h; simp at h
  | some k =>
    rw [hk] at h
    simp only [List.mem_map, Loc.layer.injEq] at h
    rcases h with ⟨q', h1, rfl, rfl⟩ | ⟨q', h1, rfl, rfl⟩
    · exact ⟨rfl, k, rfl, Or.inl h1⟩
    · exact ⟨rfl, k, rfl, Or.inr h1⟩

theorem backward_layer {M : Model α} {c slot i j : Nat} {x : Sample α} {r : Results α} {d : Matrix α} {q : Part}
    (h : Loc.layer j q ∈ (Pc.backward slot x r (i + 1) d).reads c M ∨ Loc.layer j q ∈ (Pc.backward slot x r (i + 1) d).writes c M) :
    j = i ∧ ∃ k, M.layers[i]? = some k ∧ (q ∈ k.body.backwardReads slot ∨ q ∈ k.body.backwardWrites slot) := by
  simp only [Pc.reads, Pc.writes] at h
  cases hk : M.layers[i]? with
  | none => rw [hk] at h; simp at h
  | some k =>
    rw [hk] at h
    simp only [List.mem_map, Loc.layer.injEq] at h
    rcases h with ⟨q', h1, rfl, rfl⟩ | ⟨q', h1, rfl, rfl⟩
    · exact ⟨rfl, k, rfl, Or.inl h1⟩
    · exact ⟨rfl, k, rfl, Or.inr h1⟩

/-- Only the slot a thread works on is accessed by it. -/
theorem touches_slot {M : Model α} {w : Nat × Pc α} {i b : Nat} (h : Touches M w (.layer i (.slot b))) : w.2.slot = b ∧ ∃ x, w.2.busy = some x := by
  obtain ⟨c, p⟩ := w
  unfold Touches at h
  simp only at h ⊢
  match p with
  | .fetch slot => simp only [Pc.reads, Pc.writes] at h; split at h <;> simp at h
  | .forward slot x j s =>
    obtain ⟨_, k, _, h⟩ := forward_layer h
    refine ⟨?_, x, rfl⟩
    cases hb : k.body with
    | connected L =>
      rw [hb] at h
      simp only [Body.forwardReads, Body.forwardWrites] at h
      split at h <;> simp at h
    | _ => rw [hb] at h; simp [Body.forwardReads, Body.forwardWrites] at h; try exact h.symm
  | .label slot x r => simp [Pc.reads, Pc.writes] at h
  | .backward slot x r 0 d => simp [Pc.reads, Pc.writes] at h
  | .backward slot x r (j + 1) d =>
    obtain ⟨_, k, _, h⟩ := backward_layer h
    refine ⟨?_, x, rfl⟩
    cases hb : k.body with
    | _ => rw [hb] at h; simp [Body.backwardReads, Body.backwardWrites] at h; try exact h.symm
  | .done slot => simp [Pc.reads, Pc.writes] at h

theorem touches_label {M : Model α} {w : Nat × Pc α} {i : Nat} (h : Touches M w (.layer i .label)) :
    (w.2.Tells ∧ i = M.layers.length - 1) ∨ w.2.Asks (i + 1) := by
  obtain ⟨c, p⟩ := w
  unfold Touches at h
  simp only at h ⊢
  match p with
  | .fetch slot => simp only [Pc.reads, Pc.writes] at h; split at h <;> simp at h
  | .forward slot x j s =>
    obtain ⟨_, k, _, h⟩ := forward_layer h
    cases hb : k.body with
    | connected L =>
      rw [hb] at h
      simp only [Body.forwardReads, Body.forwardWrites] at h
      split at h <;> simp at h
    | _ => rw [hb] at h; simp [Body.forwardReads, Body.forwardWrites] at h
  | .label slot x r =>
    simp [Pc.reads, Pc.writes] at h
    exact Or.inl ⟨trivial, h⟩
  | .backward slot x r 0 d => simp [Pc.reads, Pc.writes] at h
  | .backward slot x r (j + 1) d =>
    obtain ⟨rfl, _⟩ := backward_layer h
    exact Or.inr ⟨rfl, by omega⟩
  | .done slot => simp [Pc.reads, Pc.writes] at h

theorem writes_label {M : Model α} {w : Nat × Pc α} {i : Nat} (h : .layer i .label ∈ w.2.writes w.1 M) : w.2.Tells ∧ i = M.layers.length - 1 := by
  obtain ⟨c, p⟩ := w
  simp only at h ⊢
  match p with
  | .fetch slot => simp only [Pc.writes] at h; split at h <;> simp at h
  | .forward slot x j s =>
    simp only [Pc.writes] at h
    split at h
    · rename_i k _
      simp only [List.mem_map, Loc.layer.injEq] at h
      obtain ⟨q, h, _, rfl⟩ := h
      cases hb : k.body with
      | connected L =>
        rw [hb] at h
        simp only [Body.forwardWrites] at h
        split at h <;> simp at h
      | _ => rw [hb] at h; simp [Body.forwardWrites] at h
    · simp at h
  | .label slot x r =>
    simp [Pc.writes] at h
    exact ⟨trivial, h⟩
  | .backward slot x r 0 d => simp [Pc.writes] at h
  | .backward slot x r (j + 1) d =>
    simp only [Pc.writes] at h
    split at h
    · rename_i k _
      simp only [List.mem_map, Loc.layer.injEq] at h
      obtain ⟨q, h, _, rfl⟩ := h
      cases hb : k.body <;> (rw [hb] at h; simp [Body.backwardWrites] at h)
    · simp at h
  | .done slot => simp [Pc.writes] at h

theorem writes_params {M : Model α} {w : Nat × Pc α} {i : Nat} (h : .layer i .params ∈ w.2.writes w.1 M) :
    ∃ l L, M.layers[i]? = some l ∧ l.body = .connected L ∧ L.initialized = false := by
  obtain ⟨c, p⟩ := w
  simp only at h ⊢
  match p with
  | .fetch slot => simp only [Pc.writes] at h; split at h <;> simp at h
  | .forward slot x j s =>
    simp only [Pc.writes] at h
    split at h
    · rename_i k hk
      simp only [List.mem_map, Loc.layer.injEq] at h
      obtain ⟨q, h, rfl, rfl⟩ := h
      cases hb : k.body with
      | connected L =>
        rw [hb] at h
        simp only [Body.forwardWrites] at h
        refine ⟨k, L, hk, hb, ?_⟩
        cases hi : L.initialized with
        | false => rfl
        | true => simp [hi] at h
      | _ => rw [hb] at h; simp [Body.forwardWrites] at h
    · simp at h
  | .label slot x r => simp [Pc.writes] at h
  | .backward slot x r 0 d => simp [Pc.writes] at h
  | .backward slot x r (j + 1) d =>
    simp only [Pc.writes] at h
    split at h
    · rename_i k _
      simp only [List.mem_map, Loc.layer.injEq] at h
      obtain ⟨q, h, _, rfl⟩ := h
      cases hb : k.body <;> (rw [hb] at h; simp [Body.backwardWrites] at h)
    · simp at h
  | .done slot => simp [Pc.writes] at h

/-- Races in a state in which no two threads work on the same slot. -/
theorem races_only {s : Batch α} (hx : ∀ t u b, s.workingOn t = some b → s.workingOn u = some b → t = u) {t u : Nat} {l : Loc} (h : s.Races t u l) :
    (l = .layer (s.shared.model.layers.length - 1) .label ∧ ∃ v w, s.workers[t]? = some v ∧ s.workers[u]? = some w ∧
      ((v.2.Tells ∧ w.2.Tells) ∨ (v.2.Tells ∧ w.2.Asks (s.shared.model.layers.length - 1 + 1)) ∨ (v.2.Asks (s.shared.model.layers.length - 1 + 1) ∧ w.2.Tells))) ∨
    ∃ i k L, l = .layer i .params ∧ s.shared.model.layers[i]? = some k ∧ k.body = .connected L ∧ L.initialized = false := by
  obtain ⟨htu, hg, v, w, hv, hw, hc⟩ := h
  cases l with
  | source => exact absurd trivial hg
  | hits => exact absurd trivial hg
  | layer i q =>
    cases q with
    | params =>
      right
      rcases hc with ⟨h, _⟩ | ⟨h, _⟩
      · obtain ⟨k, L, h1, h2, h3⟩ := writes_params h
        exact ⟨i, k, L, rfl, h1, h2, h3⟩
      · obtain ⟨k, L, h1, h2, h3⟩ := writes_params h
        exact ⟨i, k, L, rfl, h1, h2, h3⟩
    | slot b =>
      have hboth : Touches s.shared.model v (.layer i (.slot b)) ∧ Touches s.shared.model w (.layer i (.slot b)) := by
        rcases hc with ⟨h, h'⟩ | ⟨h, h'⟩
        · exact ⟨Or.inr h, h'⟩
        · exact ⟨h', Or.inr h⟩
      have on : ∀ (t : Nat) (v : Nat × Pc α), s.workers[t]? = some v → Touches s.shared.model v (.layer i (.slot b)) → s.workingOn t = some b := by
        intro t v hv h
        obtain ⟨h1, x, h2⟩ := touches_slot h
        obtain ⟨c, p⟩ := v
        unfold Batch.workingOn
        rw [hv]
        cases p <;> simp_all [Pc.slot, Pc.busy]
      exact absurd (hx t u b (on t v hv hboth.1) (on u w hw hboth.2)) htu
    | label =>
      left
      rcases hc with ⟨h, h'⟩ | ⟨h, h'⟩
      · obtain ⟨h1, rfl⟩ := writes_label h
        refine ⟨rfl, v, w, hv, hw, ?_⟩
        rcases touches_label h' with ⟨h2, _⟩ | h2
        · exact Or.inl ⟨h1, h2⟩
        · exact Or.inr (Or.inl ⟨h1, h2⟩)
      · obtain ⟨h1, rfl⟩ := writes_label h
        refine ⟨rfl, v, w, hv, hw, ?_⟩
        rcases touches_label h' with ⟨h2, _⟩ | h2
        · exact Or.inl ⟨h2, h1⟩
        · exact Or.inr (Or.inr ⟨h2, h1⟩)

theorem tells_writes {M : Model α} {w : Nat × Pc α} (h : w.2.Tells) : .layer (M.layers.length - 1) .label ∈ w.2.writes w.1 M := by
  obtain ⟨c, p⟩ := w
  cases p with
  | label slot x r => simp [Pc.writes]
  | _ => exact absurd h id

theorem asks_reads {M : Model α} {w : Nat × Pc α} (h : w.2.Asks (M.layers.length - 1 + 1)) {k : Layer α} {S : Softmax} (hk : M.layers.getLast? = some k)
    (hS : k.body = .softmax S) : .layer (M.layers.length - 1) .label ∈ w.2.reads w.1 M := by
  obtain ⟨c, p⟩ := w
  rw [List.getLast?_eq_getElem?] at hk
  cases p with
  | backward slot x r n d =>
    obtain ⟨h1, _⟩ := h
    subst h1
    simp [Pc.reads, hk, hS, Body.backwardReads]
  | _ => exact absurd h id

/-- The races on the label. -/
theorem races_label {s : Batch α} {k : Layer α} {S : Softmax} (hk : s.shared.model.layers.getLast? = some k) (hS : k.body = .softmax S) {t u : Nat} (htu : t ≠ u)
    {v w : Nat × Pc α} (hv : s.workers[t]? = some v) (hw : s.workers[u]? = some w)
    (h : (v.2.Tells ∧ w.2.Tells) ∨ (v.2.Tells ∧ w.2.Asks (s.shared.model.layers.length - 1 + 1)) ∨ (v.2.Asks (s.shared.model.layers.length - 1 + 1) ∧ w.2.Tells)) :
    s.Races t u (.layer (s.shared.model.layers.length - 1) .label) := by
  refine ⟨htu, id, v, w, hv, hw, ?_⟩
  rcases h with ⟨h1, h2⟩ | ⟨h1, h2⟩ | ⟨h1, h2⟩
  · exact Or.inl ⟨tells_writes h1, Or.inr (tells_writes h2)⟩
  · exact Or.inl ⟨tells_writes h1, Or.inl (asks_reads h2 hk hS)⟩
  · exact Or.inr ⟨tells_writes h2, Or.inl (asks_reads h1 hk hS)⟩

/-- How far a thread is from taking a sample to telling its label, with `n` layers. -/
def At (n k : Nat) : Pc α → Prop
  | .fetch _ => k = 0
  | .forward _ _ i _ => k = i + 1 ∧ i ≤ n
  | .label _ _ _ => k = n + 2
  | _ => False

theorem At.tells {n : Nat} {p : Pc α} (h : At n (n + 2) p) : p.Tells := by
  cases p with
  | label => trivial
  | fetch => exact absurd h (by simp [At])
  | forward slot x i s => simp only [At] at h; omega
  | _ => exact absurd h id

theorem copies_length (sl sh : Shared α) (ls : List Loc) : (sl.copies ls sh).model.layers.length = sh.model.layers.length := by
  induction ls with
  | nil => rfl
  | cons l ls ih =>
    show (sl.copy (sl.copies ls sh) l).model.layers.length = _
    rw [Shared.copy_model_length, ih]

section
variable [Zero α] [One α] [Add α] [Sub α] [Mul α] [Div α] [Neg α]

theorem At.step {E : Env α} {t c n k : Nat} {sh : Shared α} {p : Pc α} {r : Pc α × Shared α × List (Event α)} (hn : sh.model.layers.length = n)
    (h : At n k p) (hk : k < n + 2) (hf : k = 0 → p.slot < c ∧ sh.source ≠ []) (hr : p.step E t c sh = .ok r) :
    At n (k + 1) r.1 ∧ r.2.1.model.layers.length = n ∧ r.2.1.source = if k = 0 then sh.source.tail else sh.source := by
  have hlen : r.2.1.model.layers.length = n := by rw [step_writes hr, copies_length, hn]
  refine ⟨?_, hlen, ?_⟩
  · match p with
    | .fetch slot =>
      have h : k = 0 := h
      obtain ⟨h1, h2⟩ := hf h
      have h1 : slot < c := h1
      simp only [Pc.step] at hr
      rw [if_pos h1] at hr
      cases hsrc : sh.source with
      | nil => exact absurd hsrc h2
      | cons x rest =>
        rw [hsrc] at hr
        obtain ⟨s, _, hr⟩ := Res.bind_eq_ok hr
        obtain rfl := Res.ok.inj hr
        exact ⟨by omega, by omega⟩
    | .forward slot x i s =>
      obtain ⟨h1, h2⟩ := h
      simp only [Pc.step] at hr
      split at hr
      · obtain ⟨s, _, hr⟩ := Res.bind_eq_ok hr
        obtain rfl := Res.ok.inj hr
        exact ⟨by omega, by omega⟩
      · obtain ⟨s, _, hr⟩ := Res.bind_eq_ok hr
        obtain rfl := Res.ok.inj hr
        show k + 1 = n + 2
        omega
    | .label slot x r => exact absurd hk (by simp only [At] at h; omega)
    | .backward slot x r m d => exact absurd h id
    | .done slot => exact absurd h id
  · match p with
    | .fetch slot =>
      have h : k = 0 := h
      obtain ⟨h1, h2⟩ := hf h
      have h1 : slot < c := h1
      simp only [Pc.step] at hr
      rw [if_pos h1] at hr
      cases hsrc : sh.source with
      | nil => exact absurd hsrc h2
      | cons x rest =>
        rw [hsrc] at hr
        obtain ⟨s, _, hr⟩ := Res.bind_eq_ok hr
        obtain rfl := Res.ok.inj hr
        rw [if_pos h]
        rfl
    | .forward slot x i s =>
      obtain ⟨h1, h2⟩ := h
      rw [if_neg (by omega)]
      simp only [Pc.step] at hr
      split at hr
      · obtain ⟨s, _, hr⟩ := Res.bind_eq_ok hr
        obtain rfl := Res.ok.inj hr
        rfl
      · obtain ⟨s, _, hr⟩ := Res.bind_eq_ok hr
        obtain rfl := Res.ok.inj hr
        rfl
    | .label slot x r => exact absurd hk (by simp only [At] at h; omega)
    | .backward slot x r m d => exact absurd h id
    | .done slot => exact absurd h id

/-- A thread that runs alone gets to the label. -/
theorem At.run {E : Env α} {t n : Nat} : ∀ (m k : Nat) {s : Batch α} {v : Nat × Pc α} {r : Batch α × List (Event α)}, s.shared.model.layers.length = n →
    s.workers[t]? = some v → At n k v.2 → k + m = n + 2 → (k = 0 → v.2.slot < v.1 ∧ s.shared.source ≠ []) →
    s.run E (List.replicate m t) = .ok r → r.1.shared.model.layers.length = n ∧ (∃ v', r.1.workers[t]? = some v' ∧ v'.2.Tells) ∧
      (∀ u ≠ t, r.1.workers[u]? = s.workers[u]?) ∧ r.1.shared.source = if k = 0 then s.shared.source.tail else s.shared.source
  | 0, k, s, v, r, hn, hv, ha, hk, hf, hr => by
    obtain rfl := Res.ok.inj hr
    have : k = n + 2 := by omega
    subst this
    exact ⟨hn, ⟨v, hv, ha.tells⟩, fun _ _ => rfl, by simp⟩
  | m + 1, k, s, v, r, hn, hv, ha, hk, hf, hr => by
    simp only [List.replicate_succ, Batch.run] at hr
    obtain ⟨a, h1, hr⟩ := Res.bind_eq_ok hr
    obtain ⟨b, h2, hr⟩ := Res.bind_eq_ok hr
    obtain rfl := Res.ok.inj hr
    unfold Batch.step at h1
    rw [hv] at h1
    obtain ⟨q, hq, h1⟩ := Res.bind_eq_ok h1
    obtain rfl := Res.ok.inj h1
    obtain ⟨e1, e2, e3⟩ := ha.step hn (by omega) hf (terminate_ok hq)
    have hlt : t < s.workers.length := (List.getElem?_eq_some_iff.1 hv).1
    obtain ⟨f1, f2, f3, f4⟩ := At.run m (k + 1) (s := ⟨q.2.1, s.workers.set t (v.1, q.1)⟩) (v := (v.1, q.1)) e2 (by simp [List.getElem?_set_self hlt]) e1 (by omega)
      (fun h => absurd h (by omega)) h2
    refine ⟨f1, f2, ?_, ?_⟩
    · intro u hu
      rw [f3 u hu]
      exact List.getElem?_set_ne (Ne.symm hu)
    · rw [f4, if_neg (by omega)]
      exact e3

theorem run_append {E : Env α} (a b : List Nat) : ∀ {s : Batch α} {r : Batch α × List (Event α)}, s.run E (a ++ b) = .ok r →
    ∃ m, s.run E a = .ok m ∧ ∃ r', m.1.run E b = .ok r' ∧ r.1 = r'.1 := by
  induction a with
  | nil => intro s r h; exact ⟨_, rfl, r, h, rfl⟩
  | cons t ts ih =>
    intro s r h
    simp only [List.cons_append, Batch.run] at h
    obtain ⟨x, h1, h⟩ := Res.bind_eq_ok h
    obtain ⟨y, h2, h⟩ := Res.bind_eq_ok h
    obtain rfl := Res.ok.inj h
    obtain ⟨m, e1, r', e2, e3⟩ := ih h2
    exact ⟨(m.1, x.2 ++ m.2), by rw [Batch.run, h1, Res.bind_ok, e1, Res.bind_ok], r', e2, e3⟩

/-- Two steps of different threads that do not conflict can be made in either order. -/
theorem swap_step {E : Env α} {s : Batch α} {t u : Nat} (htu : t ≠ u)
    (hc : ∀ v w, s.workers[t]? = some v → s.workers[u]? = some w → ∀ l, ¬ Conflict s.shared.model v w l)
    {a b : Batch α × List (Event α)} (ha : s.step E t = .ok a) (hb : a.1.step E u = .ok b) :
    ∃ a', s.step E u = .ok (a', b.2) ∧ a'.step E t = .ok (b.1, a.2) := by
  unfold Batch.step at ha hb ⊢
  cases hv : s.workers[t]? with
  | none =>
    rw [hv] at ha
    obtain rfl := Res.ok.inj ha
    refine ⟨b.1, hb, ?_⟩
    cases hw : s.workers[u]? with
    | none =>
      simp only at hb
      rw [hw] at hb
      obtain rfl := Res.ok.inj hb
      rw [hv]
    | some w =>
      simp only at hb
      rw [hw] at hb
      obtain ⟨q, hq, hb⟩ := Res.bind_eq_ok hb
      obtain rfl := Res.ok.inj hb
      rw [List.getElem?_set_ne (Ne.symm htu), hv]
  | some v =>
    rw [hv] at ha
    obtain ⟨q, hq, ha⟩ := Res.bind_eq_ok ha
    obtain rfl := Res.ok.inj ha
    simp only at hb
    rw [List.getElem?_set_ne htu] at hb
    cases hw : s.workers[u]? with
    | none =>
      rw [hw] at hb
      obtain rfl := Res.ok.inj hb
      refine ⟨s, rfl, ?_⟩
      rw [hv]
      simp only
      rw [hq, Res.bind_ok]
    | some w =>
      rw [hw] at hb
      obtain ⟨q', hq', hb⟩ := Res.bind_eq_ok hb
      obtain rfl := Res.ok.inj hb
      have h1 := terminate_ok hq
      have h2 := terminate_ok hq'
      have hc := hc v w hv hw
      obtain ⟨b0, h3⟩ : ∃ b0, w.2.step E u w.1 s.shared = .ok b0 := by
        rw [step_writes h1, step_copies E u w.1 q.2.1 s.shared w.2 (fun l hl h => hc l (Or.inl ⟨hl, Or.inl h⟩))
          (fun l hl h => hc l (Or.inl ⟨hl, Or.inr h⟩))] at h2
        obtain ⟨b0, h3, _⟩ := map_eq_ok h2
        exact ⟨b0, h3⟩
      obtain ⟨sh', k1, k2⟩ := step_comm hc h1 h3
      have e : q' = (b0.1, sh', b0.2.2) := Res.ok.inj (h2.symm.trans k1)
      subst e
      refine ⟨⟨b0.2.1, s.workers.set u (w.1, b0.1)⟩, ?_, ?_⟩
      · simp only
        rw [h3]
        rfl
      · simp only
        rw [List.getElem?_set_ne (Ne.symm htu), hv]
        simp only
        rw [k2]
        simp only [terminate, Res.bind_ok]
        rw [List.set_comm _ _ htu]

/-- Two threads can be about to tell the output layer their labels. -/
theorem both_tell {E : Env α} {B T : Nat} (hB : B < 2 ^ 24) (hB2 : 2 ≤ B) (hT2 : 2 ≤ T) (hT : T < 2147483648) {sh : Shared α} (hM : sh.model.Prepared B)
    (hal : ∀ x ∈ sh.source.take B, ∀ y ∈ sh.source.take B, ∃ m, alone E sh.model ⟨x.data, y.label⟩ = .ok m) (hs : 2 ≤ sh.source.length) :
    ∃ s sched r v w, startBatch B T sh = .ok s ∧ s.run E sched = .ok r ∧ r.1.workers[0]? = some v ∧ r.1.workers[1]? = some w ∧ v.2.Tells ∧ w.2.Tells := by
  have hst := startBatch_eq B T hB (by omega) hT sh
  obtain ⟨i1, i2, i3⟩ := batch_init (E := E) (B := B) (T := T) (w := share B T) sh
  obtain ⟨b1, b2⟩ := share_bounds B T (by omega)
  have hsh : 0 < share B T ∧ share B T < B := by
    constructor
    · rcases Nat.eq_zero_or_pos (share B T) with h | h
      · rw [h] at b1; omega
      · exact h
    · by_contra hge
      have h1 : T * B ≤ T * share B T := Nat.mul_le_mul_left T (by omega)
      have h2 : B + T ≤ T * B := by
        obtain ⟨b, rfl⟩ : ∃ b, B = b + 2 := ⟨B - 2, by omega⟩
        obtain ⟨c, rfl⟩ : ∃ c, T = c + 2 := ⟨T - 2, by omega⟩
        nlinarith [Nat.zero_le (b * c)]
      omega
  obtain ⟨r, hr⟩ := run_ok (Runs.of_alone hM hal) hM.ready (List.replicate (sh.model.layers.length + 2) 0 ++ List.replicate (sh.model.layers.length + 2) 1) i2 i1 i3
  obtain ⟨m, e1, r', e2, e3⟩ := run_append _ _ hr
  have g0 : ∀ t < T, ((List.range T).map (fun t => (min ((t + 1) * share B T) B, (Pc.fetch (t * share B T) : Pc α))))[t]? =
      some (min ((t + 1) * share B T) B, Pc.fetch (t * share B T)) := by
    intro t ht
    rw [List.getElem?_map, List.getElem?_range ht]
    rfl
  obtain ⟨f1, ⟨v, f2, f2'⟩, f3, f4⟩ := At.run (sh.model.layers.length + 2) 0 (s := ⟨sh, _⟩) (n := sh.model.layers.length) rfl (g0 0 (by omega)) (by rfl) (by omega)
    (fun _ => ⟨by show 0 * share B T < min ((0 + 1) * share B T) B; simp; omega, by intro h; rw [show sh.source = [] from h] at hs; simp at hs⟩) e1
  have f3' := f3 1 (by omega)
  rw [show (⟨sh, (List.range T).map (fun t => (min ((t + 1) * share B T) B, Pc.fetch (t * share B T)))⟩ : Batch α).workers[1]? = _ from g0 1 (by omega)] at f3'
  obtain ⟨k1, ⟨w, k2, k2'⟩, k3, k4⟩ := At.run (sh.model.layers.length + 2) 0 (s := m.1) (n := sh.model.layers.length) f1 f3' (by rfl) (by omega)
    (fun _ => ⟨by show 1 * share B T < min ((1 + 1) * share B T) B; simp; omega, by
      rw [f4, if_pos rfl]
      intro h
      have := congrArg List.length h
      simp at this
      omega⟩) e2
  refine ⟨_, _, r, v, w, hst, hr, ?_, ?_, f2', k2'⟩
  · rw [e3, k3 0 (by omega)]
    exact f2
  · rw [e3]
    exact k2

end
end Train
end Cnn
