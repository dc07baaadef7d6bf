import Verif.Lemmas.BatchUpdate
import Verif.Lemmas.Progress
import Verif.Lemmas.Labels
/-! Helper lemmas: the update after a batch whatever labels were used, and completion of a batch (C53). -/
set_option linter.unusedSectionVars false
namespace Cnn
variable {α : Type}

/-- Entry of a stored weight gradient. -/
def gradW [Zero α] (o : Option (Matrix α × Matrix α)) (a b d : Nat) : α := match o with | some g => g.1.value a b d | none => 0

/-- Entry of a stored bias gradient. -/
def gradB [Zero α] (o : Option (Matrix α × Matrix α)) (f : Nat) : α := match o with | some g => g.2.value f 0 0 | none => 0

theorem reads_gradW [Zero α] {G H : Matrix α} {X Y Z : Nat} {u : Nat → Nat → Nat → α} (h : G.Reads X Y Z u) :
    G.Reads X Y Z (gradW (some (G, H))) := by
  refine ⟨h.dim, ?_⟩
  intro a ha b hb d hd
  simp only [gradW, Matrix.value, h.entry a ha b hb d hd]

theorem reads_gradB [Zero α] {G H : Matrix α} {F : Nat} {u : Nat → Nat → Nat → α} (h : H.Reads F 1 1 u) :
    H.Reads F 1 1 (fun f _ _ => gradB (some (G, H)) f) := by
  refine ⟨h.dim, ?_⟩
  intro a ha b hb d hd
  obtain rfl : b = 0 := by omega
  obtain rfl : d = 0 := by omega
  simp only [gradB, Matrix.value, h.entry a ha 0 hb 0 hd]

/-- An update in terms of the entries of the gradients. -/
theorem update_entries [Field α] {N : Num α} {lr : α} {W Bi : Matrix α} {X Y Z F : Nat} {w : Nat → Nat → Nat → α} {β : Nat → α}
    (hW : W.Shows X Y Z w) (hBi : Bi.Shows F 1 1 (fun f _ _ => β f)) {os : List (Option (Matrix α × Matrix α))}
    {gs : List (Matrix α × Matrix α)} {r : Matrix α × Matrix α} (e1 : os = gs.map some)
    (e2 : applyGrads N lr W Bi (gs.map (·.1)) (gs.map (·.2)) = .ok r) :
    (∀ o ∈ os, ∃ G H, o = some (G, H) ∧ G.Reads X Y Z (gradW o) ∧ H.Reads F 1 1 (fun f _ _ => gradB o f)) ∧
    r.1.Shows X Y Z (fun a b d => w a b d - lr * ((os.map (gradW · a b d)).sum / N.ofNat os.length)) ∧
    r.2.Shows F 1 1 (fun f _ _ => β f - lr * ((os.map (gradB · f)).sum / N.ofNat os.length)) := by
  have hg : ∀ p ∈ gs, (∃ f, p.1.Reads X Y Z f) ∧ ∃ f, p.2.Reads F 1 1 f := by
    intro p hp
    obtain ⟨j, hj, rfl⟩ := List.mem_iff_getElem.1 hp
    obtain ⟨g, k, u, v, a1, a2, r1, r2⟩ := applyGrads_inv hW hBi e2 j (by simpa using hj)
    simp only [List.getElem?_map, List.getElem?_eq_getElem hj, Option.map_some, Option.some.injEq] at a1 a2
    subst a1; subst a2
    exact ⟨⟨u, r1⟩, ⟨v, r2⟩⟩
  subst e1
  obtain ⟨W', B', k1, k2, k3⟩ := applyGrads_sum hW hBi hg (N := N) (lr := lr)
  rw [k1] at e2
  obtain rfl := Res.ok.inj e2
  refine ⟨?_, k2.congr ?_, k3.congr ?_⟩
  · intro o ho
    obtain ⟨⟨G, H⟩, hp, rfl⟩ := List.mem_map.1 ho
    obtain ⟨⟨u, r1⟩, v, r2⟩ := hg _ hp
    exact ⟨G, H, rfl, reads_gradW r1, reads_gradB r2⟩
  · intro a _ b _ d _
    rw [List.map_map, List.length_map]
    rfl
  · intro f _ _ _ _ _
    rw [List.map_map, List.length_map]
    rfl

/-- The same for one layer, whatever the arithmetic; the new parameters have the sizes of the old ones. -/
theorem applyGrads_of_reads [Zero α] [One α] [Add α] [Sub α] [Mul α] [Div α] [Neg α] {N : Num α} {lr : α} {n : Nat} {W Bi : Matrix α} {X Y Z F : Nat}
    {w b : Nat → Nat → Nat → α} (hW : W.Shows X Y Z w) (hB : Bi.Shows F 1 1 b) {ws bs : List (Matrix α)} (h1 : ws.length = n) (h2 : bs.length = n)
    (h : ∀ s < n, ∃ G H u v, ws[s]? = some G ∧ bs[s]? = some H ∧ G.Reads X Y Z u ∧ H.Reads F 1 1 v) :
    ∃ r w' b', applyGrads N lr W Bi ws bs = .ok r ∧ r.1.Shows X Y Z w' ∧ r.2.Shows F 1 1 b' := by
  have s3 : Bi.Shows F 1 1 (fun f _ _ => b f 0 0) := hB.congr (by
    intro i _ j hj k hk
    obtain rfl : j = 0 := Nat.lt_one_iff.1 hj
    obtain rfl : k = 0 := Nat.lt_one_iff.1 hk
    rfl)
  have hone : ∀ i, ∃ (u : Nat → Nat → Nat → α) (v : Nat → α), i < n → ∃ g h, ws[i]? = some g ∧ bs[i]? = some h ∧ g.Reads X Y Z u ∧ h.Reads F 1 1 (fun f _ _ => v f) := by
    intro i
    by_cases hin : i < n
    · obtain ⟨g, h, u, v, a1, a2, a3, a4⟩ := h i hin
      refine ⟨u, fun f => v f 0 0, fun _ => ⟨g, h, a1, a2, a3, a4.dim, ?_⟩⟩
      intro i hi j hj k hk
      obtain rfl : j = 0 := Nat.lt_one_iff.1 hj
      obtain rfl : k = 0 := Nat.lt_one_iff.1 hk
      exact a4.entry i hi 0 hj 0 hk
    · exact ⟨fun _ _ _ => 0, fun _ => 0, fun h => absurd h hin⟩
  choose u v hone using hone
  obtain ⟨W', B', a1, a2, a3⟩ := applyGrads_reads N lr hW s3 ws bs u v h1 h2 (by
    intro i M hM
    obtain ⟨g, h, b1, _, b2, _⟩ := hone i (by rw [← h1]; exact (List.getElem?_eq_some_iff.1 hM).1)
    rw [hM] at b1
    obtain rfl := Option.some.inj b1
    exact b2) (by
    intro i M hM
    obtain ⟨g, h, _, b1, _, b2⟩ := hone i (by rw [← h2]; exact (List.getElem?_eq_some_iff.1 hM).1)
    rw [hM] at b1
    obtain rfl := Option.some.inj b1
    exact b2)
  exact ⟨_, _, _, a1, a2, a3⟩

/-- An update whose gradients have the right sizes succeeds. -/
theorem Model.applyBatch_ok [Zero α] [One α] [Add α] [Sub α] [Mul α] [Div α] [Neg α] {N : Num α} {lr : α} {n : Nat} {M : Model α} (hM : M.Prepared n)
    (h : ∀ i W Bi, M.params i = some (W, Bi) → ∃ X Y Z F w, ∃ β : Nat → α, W.Shows X Y Z w ∧ Bi.Shows F 1 1 (fun f _ _ => β f) ∧
      ∀ s < n, ∃ G H u v, M.stored i s = some (G, H) ∧ G.Reads X Y Z u ∧ H.Reads F 1 1 v) :
    ∃ M', M.applyBatch N lr = .ok M' := by
  have hl : ∀ l ∈ M.layers, ∃ b, l.body.applyBatch N lr = .ok b := by
    intro l hm
    obtain ⟨i, hi⟩ := List.mem_iff_getElem?.1 hm
    have hpr := hM l hm
    have key : ∀ (W Bi : Matrix α) (ws bs : List (Matrix α)), l.body.params = some (W, Bi) → ws.length = n → bs.length = n →
        (∀ s, l.body.stored s = ws[s]?.bind fun g => bs[s]?.map fun h => (g, h)) → ∃ r, applyGrads N lr W Bi ws bs = .ok r := by
      intro W Bi ws bs hp h1 h2 hst
      obtain ⟨X, Y, Z, F, w, β, s1, s2, h3⟩ := h i W Bi (by simp [Model.params, hi, hp])
      obtain ⟨r, _, _, e, _⟩ := applyGrads_of_reads (N := N) (lr := lr) s1 s2 h1 h2 (by
        intro s hs
        obtain ⟨G, H, u, v, q1, q2, q3⟩ := h3 s hs
        simp only [Model.stored, hi, Option.bind_some, hst, List.getElem?_eq_getElem (show s < ws.length by omega),
          List.getElem?_eq_getElem (show s < bs.length by omega), Option.map_some, Option.some.injEq, Prod.mk.injEq] at q1
        exact ⟨G, H, u, v, by rw [List.getElem?_eq_getElem (by omega), q1.1], by rw [List.getElem?_eq_getElem (by omega), q1.2], q2, q3⟩)
      exact ⟨_, e⟩
    cases hb : l.body with
    | kernel K =>
      rw [hb] at hpr key
      obtain ⟨r, e⟩ := key _ _ _ _ rfl hpr.1 hpr.2.1 (fun _ => rfl)
      exact ⟨.kernel { K with weights := r.1, biases := r.2 }, by simp only [Body.applyBatch, Kernel.applyBatch, e, Res.bind_ok]⟩
    | connected L =>
      rw [hb] at hpr key
      obtain ⟨r, e⟩ := key _ _ _ _ rfl hpr.2.1 hpr.2.2.1 (fun _ => rfl)
      exact ⟨.connected { L with weights := r.1, biases := r.2 }, by simp only [Body.applyBatch, Connected.applyBatch, e, Res.bind_ok]⟩
    | pooling P => exact ⟨_, rfl⟩
    | activation A => exact ⟨_, rfl⟩
    | softmax S => exact ⟨_, rfl⟩
  have hm : ∀ ls : List (Layer α), (∀ l ∈ ls, ∃ b, l.body.applyBatch N lr = .ok b) →
      ∃ ls', ls.mapM (fun l => do
        let b ← l.body.applyBatch N lr
        Res.ok { l with body := b }) = .ok ls' := by
    intro ls
    induction ls with
    | nil => intro _; exact ⟨[], rfl⟩
    | cons l ls ih =>
      intro h
      obtain ⟨b, e⟩ := h l (by simp)
      obtain ⟨ls', e'⟩ := ih (fun l hl => h l (by simp [hl]))
      exact ⟨_, by rw [List.mapM_cons, e, Res.bind_ok, Res.bind_ok, e', Res.bind_ok]; rfl⟩
  obtain ⟨ls', e⟩ := hm _ hl
  exact ⟨_, by rw [Model.applyBatch, e, Res.bind_ok]⟩

namespace Train
open Model
section
variable [Zero α] [One α] [Add α] [Sub α] [Mul α] [Div α] [Neg α]

/-- A label told belongs to a sample taken. -/
theorem step_labelled {E : Env α} {t c : Nat} {sh : Shared α} {p : Pc α} {r : Pc α × Shared α × List (Event α)}
    (h : p.step E t c sh = .ok r) : ∀ e ∈ labelled r.2.2, e.1 = t ∧ e.2.1 = p.slot ∧ p.busy = some e.2.2 := by
  intro e he
  cases p with
  | fetch slot =>
    simp only [Pc.step] at h
    split at h
    · split at h
      · obtain rfl := Res.ok.inj h
        simp [labelled] at he
      · obtain ⟨s, hs, h⟩ := Res.bind_eq_ok h
        obtain rfl := Res.ok.inj h
        simp [labelled] at he
    · obtain rfl := Res.ok.inj h
      simp [labelled] at he
  | forward slot x i s =>
    simp only [Pc.step] at h
    split at h <;>
    · obtain ⟨s, hs, h⟩ := Res.bind_eq_ok h
      obtain rfl := Res.ok.inj h
      simp [labelled] at he
  | label slot x r' =>
    simp only [Pc.step] at h
    obtain ⟨s, hs, h⟩ := Res.bind_eq_ok h
    obtain rfl := Res.ok.inj h
    simp only [labelled, List.filterMap_cons, List.filterMap_nil, List.mem_singleton] at he
    subst he
    exact ⟨rfl, rfl, rfl⟩
  | backward slot x r' n d =>
    cases n with
    | zero =>
      simp only [Pc.step] at h
      obtain rfl := Res.ok.inj h
      simp [labelled] at he
    | succ n =>
      simp only [Pc.step] at h
      obtain ⟨s, hs, h⟩ := Res.bind_eq_ok h
      obtain rfl := Res.ok.inj h
      exfalso
      simp only [gradEvent] at he
      split at he
      · split at he <;> simp [labelled] at he
      · simp [labelled] at he
  | done slot =>
    simp only [Pc.step] at h
    obtain rfl := Res.ok.inj h
    simp [labelled] at he

theorem labelled_fetched {E : Env α} {T : Nat} {start cutoff : Nat → Nat} {src0 : List (Sample α)} {sched : List Nat} :
    ∀ {s : Batch α} {evs : List (Event α)}, Inv T start cutoff src0 s evs → (∀ e ∈ labelled evs, e ∈ fetches evs) →
      ∀ {r : Batch α × List (Event α)}, s.run E sched = .ok r → ∀ e ∈ labelled (evs ++ r.2), e ∈ fetches (evs ++ r.2) := by
  induction sched with
  | nil =>
    intro s evs _ h r hr
    obtain rfl := Res.ok.inj hr
    rw [List.append_nil]; exact h
  | cons t ts ih =>
    intro s evs hI h r hr
    rw [Batch.run] at hr
    obtain ⟨a, ha, hr⟩ := Res.bind_eq_ok hr
    obtain ⟨b, hb, hr⟩ := Res.bind_eq_ok hr
    obtain rfl := Res.ok.inj hr
    have := ih (hI.step ha) (by
      intro e he
      rw [labelled_append, List.mem_append] at he
      rw [fetches_append, List.mem_append]
      refine he.imp (h e) (fun he => ?_) |>.elim Or.inl id
      unfold Batch.step at ha
      cases hw : s.workers[t]? with
      | none =>
        rw [hw] at ha
        obtain rfl := Res.ok.inj ha
        simp [labelled] at he
      | some v =>
        rw [hw] at ha
        simp only at ha
        obtain ⟨c, hc, ha⟩ := Res.bind_eq_ok ha
        obtain rfl := Res.ok.inj ha
        obtain ⟨h1, h2, h3⟩ := step_labelled (terminate_ok hc) e he
        have := ((hI.thread t v hw).busy _ h3 _).2 rfl
        left
        obtain ⟨e1, e2, e3⟩ := e
        simp only at h1 h2 h3 this
        rw [h1, h2]; exact this) hb
    rwa [List.append_assoc] at this

/-- What a slot contains after a sample was processed with the label of another one. -/
theorem Solo.withLabel {E : Env α} {M0 M m : Model α} {x : Sample α} {lab : List Char} {n slot : Nat} (hM : M0.Prepared n) (hs : slot < n)
    (ha : Cnn.alone E M0 ⟨x.data, lab⟩ = .ok m)
    (h : Solo E (M0.norm slot) x (M0.labelIndex lab) ((M.norm slot).tell (M0.labelIndex lab))) (i : Nat) :
    Cnn.ownGrads E M0 ⟨x.data, lab⟩ i = M.stored i slot := by
  obtain ⟨m2, e1, e2⟩ := h.same (hM.same hs)
  obtain ⟨s, m1, r0, r, d, n, a1, a2, a3, a4, a5, a6⟩ := e1
  obtain ⟨s', m', r0', r', d', n', b1, b2, b3, b4, b5, b6⟩ := alone_solo (hM.setBatchSize_ready 1) ha
  have e : (s, m1) = (s', m') := Res.ok.inj (a1.symm.trans b1)
  obtain ⟨rfl, rfl⟩ := Prod.mk.inj e
  have e : r0 = r0' := Res.ok.inj (a2.symm.trans b2)
  subst e
  have hin : r'.inputs = r.inputs := (assignLoss_inputs b3).trans (assignLoss_inputs a3).symm
  rw [soloB_congr E hin] at b6
  have e : (d, m2) = (d', m) := Res.ok.inj (a6.symm.trans b6)
  obtain ⟨_, rfl⟩ := Prod.mk.inj e
  unfold Cnn.ownGrads
  rw [ha]
  have := e2.stored i
  simp only
  rw [← this, Model.tell_stored, Model.norm_stored]

/-- The start of a batch satisfies the invariants. -/
theorem batch_init {E : Env α} {B T w : Nat} (sh : Shared α) :
    BInv T B w sh.source ⟨sh, (List.range T).map (fun t => (min ((t + 1) * w) B, Pc.fetch (t * w)))⟩ [] ∧
    GInv E sh.model ⟨sh, (List.range T).map (fun t => (min ((t + 1) * w) B, Pc.fetch (t * w)))⟩ [] ∧
    PInv sh.model (sh.source.take B) ⟨sh, (List.range T).map (fun t => (min ((t + 1) * w) B, Pc.fetch (t * w)))⟩ [] := by
  refine ⟨Inv.init T (fun t => t * w) (fun t => min ((t + 1) * w) B) sh,
    GInv.init E T (fun t => t * w) (fun t => min ((t + 1) * w) B) sh, ?_, by simp [grads]⟩
  intro t c slot x r n d h
  simp only [List.getElem?_map, Option.map_eq_some_iff, Prod.mk.injEq, reduceCtorEq, and_false, exists_false] at h

/-- The labels used in a batch are those of samples of the batch. -/
theorem run_labels {E : Env α} {B T : Nat} (hB : B < 2 ^ 24) {sh : Shared α} {s : Batch α} (hs : startBatch B T sh = .ok s)
    {sched : List Nat} {r : Batch α × List (Event α)} (hr : s.run E sched = .ok r) (t slot : Nat) (x : Sample α) (l : Nat)
    (hm : (t, slot, x, l) ∈ grads r.2) : ∃ e ∈ fetches r.2, l = sh.model.labelIndex e.2.2.label := by
  obtain ⟨w, hw, rfl⟩ := startBatch_inv (by omega) hs
  have hf := labelled_fetched (batch_init (E := E) sh).1 (by simp [labelled]) hr
  have h0 : LInv sh.model (⟨sh, (List.range T).map (fun t => (min ((t + 1) * w) B, Pc.fetch (t * w)))⟩ : Batch α) [] := by
    refine ⟨rfl, by simp [labelled], ?_, by simp [UsesLast]⟩
    intro t c slot x r n d h
    simp only [List.getElem?_map, Option.map_eq_some_iff, Prod.mk.injEq, reduceCtorEq, and_false, exists_false] at h
  have hL := h0.run hr
  simp only [List.nil_append] at hL hf
  simp only [grads, List.mem_filterMap] at hm
  obtain ⟨ev, hev, he⟩ := hm
  obtain ⟨pre, post, hsp⟩ := List.append_of_mem hev
  have : ev = .grad t slot x l := by
    cases ev <;> simp at he
    obtain ⟨rfl, rfl, rfl, rfl⟩ := he
    rfl
  subst this
  obtain ⟨_, e, h1, h2⟩ := hL.last pre post t slot x l hsp
  refine ⟨e, hf e ?_, h2⟩
  rw [hsp, labelled_append]
  exact List.mem_append_left _ (List.mem_of_getLast? h1)

/-- The samples of a batch with the labels used for them. -/
theorem run_used {E : Env α} {B T : Nat} (hB : B < 2 ^ 24) {sh : Shared α} (hM : sh.model.Prepared B) {s : Batch α}
    (hs : startBatch B T sh = .ok s) {sched : List Nat} {r : Batch α × List (Event α)} (hr : s.run E sched = .ok r)
    (ho : r.1.over = true)
    (hal : ∀ x ∈ sh.source.take B, ∀ y ∈ sh.source.take B, ∃ m, alone E sh.model ⟨x.data, y.label⟩ = .ok m) :
    ∃ U : Nat × Nat × Sample α → Sample α, ∀ e ∈ fetches r.2, e.2.1 < B ∧
      (∀ i, ownGrads E sh.model (U e) i = r.1.shared.model.stored i e.2.1) ∧ (U e).data = e.2.2.data ∧
        ∃ y ∈ sh.source.take B, (U e).label = y.label := by
  obtain ⟨e1, e3, e4, e5, e6, e7, e8⟩ := run_end hB hM.ready hs hr ho
  have key : ∀ e : Nat × Nat × Sample α, ∃ u : Sample α, e ∈ fetches r.2 → e.2.1 < B ∧
      (∀ i, ownGrads E sh.model u i = r.1.shared.model.stored i e.2.1) ∧ u.data = e.2.2.data ∧ ∃ y ∈ sh.source.take B, u.label = y.label := by
    rintro ⟨t, s, x⟩
    by_cases he : (t, s, x) ∈ fetches r.2
    · obtain ⟨hsl, l, hl, hso⟩ := e3 t s x he
      obtain ⟨e', he', rfl⟩ := run_labels hB hs hr t s x l hl
      have mem : ∀ e ∈ fetches r.2, e.2.2 ∈ sh.source.take B := fun e he => e7 ▸ List.mem_map.2 ⟨e, he, rfl⟩
      obtain ⟨m, hm⟩ := hal x (mem _ he) e'.2.2 (mem _ he')
      exact ⟨⟨x.data, e'.2.2.label⟩, fun _ => ⟨hsl, fun i => hso.withLabel hM hsl hm i, rfl, e'.2.2, mem _ he', rfl⟩⟩
    · exact ⟨x, fun h => absurd h he⟩
  choose U hU using key
  exact ⟨U, fun e he => hU e he⟩

end

/-- The parameters after a batch, whatever labels were used. -/
theorem runBatch_any [Field α] {E : Env α} {p : Hyper α} {B T : Nat} (hp : p.batch = B) (hq : p.threads = T) (hB : B < 2 ^ 24)
    {sh : Shared α} (hM : sh.model.Prepared B) {sched : List Nat} {q : Shared α × List (Event α)}
    (hal : ∀ x ∈ sh.source.take B, ∀ y ∈ sh.source.take B, ∃ m, alone E sh.model ⟨x.data, y.label⟩ = .ok m)
    (h : runBatch E p sched sh = .ok (some q)) :
    ∃ (used : List (Sample α)) (free : List Nat), used.map (·.data) = (sh.source.take B).map (·.data) ∧
      (∀ u ∈ used, ∃ y ∈ sh.source.take B, u.label = y.label) ∧ free.Nodup ∧ (∀ s ∈ free, s < B ∧ ∀ t x, (t, s, x) ∉ fetches q.2) ∧
      used.length + free.length = B ∧
      ∀ i W Bi, sh.model.params i = some (W, Bi) → ∃ (gs : List (Matrix α × Matrix α)) (r : Matrix α × Matrix α),
        used.map (ownGrads E sh.model · i) ++ free.map (sh.model.stored i) = gs.map some ∧
        applyGrads E.num p.rate W Bi (gs.map (·.1)) (gs.map (·.2)) = .ok r ∧ q.1.model.params i = some r := by
  obtain ⟨s, r, hs, hr, ho, hM', h2, h3⟩ := runBatch_split h
  rw [hp, hq] at hs
  obtain ⟨e1, e3, e4, e5, e6, e7, e8⟩ := run_end hB hM.ready hs hr ho
  obtain ⟨U, hU⟩ := run_used hB hM hs hr ho hal
  obtain ⟨free, f1, f2, f3, f4⟩ := update_slots hM e1 hM' (fun e he => ⟨(hU e he).1, (hU e he).2.1⟩) e4 e5
  rw [h2]
  refine ⟨(fetches r.2).map U, free, ?_, ?_, f1, f2, by rw [List.length_map]; exact f3, ?_⟩
  · rw [← e7, List.map_map, List.map_map]
    exact List.map_congr_left fun e he => (hU e he).2.2.1
  · intro u hu
    obtain ⟨e, he, rfl⟩ := List.mem_map.1 hu
    exact (hU e he).2.2.2
  · intro i W Bi hpar
    rw [List.map_map]
    exact f4 i W Bi hpar

/-- A batch that has come to its end is completed by the update, if the gradients have the sizes of the parameters. -/
theorem runBatch_over [Zero α] [One α] [Add α] [Sub α] [Mul α] [Div α] [Neg α] {E : Env α} {p : Hyper α} {B T : Nat} (hp : p.batch = B) (hq : p.threads = T) (hB : B < 2 ^ 24)
    (hT0 : 0 < T) (hT : T < 2147483648) {sh : Shared α} (hM : sh.model.Prepared B)
    (hal : ∀ x ∈ sh.source.take B, ∀ y ∈ sh.source.take B, ∃ m, alone E sh.model ⟨x.data, y.label⟩ = .ok m)
    (hsize : ∀ i W Bi, sh.model.params i = some (W, Bi) → ∃ X Y Z F w, ∃ β : Nat → α, W.Shows X Y Z w ∧ Bi.Shows F 1 1 (fun f _ _ => β f) ∧
      ∀ x ∈ sh.source.take B, ∀ y ∈ sh.source.take B, ∃ G H u v, ownGrads E sh.model ⟨x.data, y.label⟩ i = some (G, H) ∧ G.Reads X Y Z u ∧ H.Reads F 1 1 v)
    (hold : B ≤ sh.source.length ∨ ∀ i W Bi X Y Z F w, ∀ β : Nat → α, sh.model.params i = some (W, Bi) → W.Shows X Y Z w →
      Bi.Shows F 1 1 (fun f _ _ => β f) → ∀ s < B, ∃ G H u v, sh.model.stored i s = some (G, H) ∧ G.Reads X Y Z u ∧ H.Reads F 1 1 v)
    {sched : List Nat} {r : Batch α × List (Event α)}
    (hr : Batch.run E sched (⟨sh, (List.range T).map (fun t => (min ((t + 1) * share B T) B, Pc.fetch (t * share B T)))⟩ : Batch α) = .ok r)
    (ho : r.1.over = true) : ∃ q, runBatch E p sched sh = .ok (some q) ∧ q.2 = r.2 := by
  have hst := startBatch_eq B T hB hT0 hT sh
  obtain ⟨e1, e3, e4, e5, e6, e7, e8⟩ := run_end hB hM.ready hst hr ho
  obtain ⟨U, hU⟩ := run_used hB hM hst hr ho hal
  have hM1 := hM.of_bare e1
  obtain ⟨M', hM'⟩ := Model.applyBatch_ok (N := E.num) (lr := p.rate) hM1 (by
    intro i W Bi hpar
    rw [Model.bare_params e1] at hpar
    obtain ⟨X, Y, Z, F, w, β, s1, s2, s3⟩ := hsize i W Bi hpar
    refine ⟨X, Y, Z, F, w, β, s1, s2, ?_⟩
    intro s hs
    by_cases hf : ∃ e ∈ fetches r.2, e.2.1 = s
    swap
    · rcases hold with hfull | hold
      swap
      · obtain ⟨G, H, u, v, q1, q2, q3⟩ := hold i W Bi X Y Z F w β hpar s1 s2 s hs
        refine ⟨G, H, u, v, ?_, q2, q3⟩
        rw [← norm_stored, e4 s (fun t x hm => hf ⟨_, hm, rfl⟩), norm_stored, q1]
      refine absurd ?_ hf
      have hsub : (fetches r.2).map (fun e => e.2.1) ⊆ List.range B := by
        intro s hs
        obtain ⟨e, he, rfl⟩ := List.mem_map.1 hs
        exact List.mem_range.2 (hU e he).1
      have hp := (e5.subperm hsub).perm_of_length_le (by rw [List.length_range, List.length_map, e6]; omega)
      exact List.mem_map.1 (hp.mem_iff.2 (List.mem_range.2 hs))
    obtain ⟨e, he, rfl⟩ := hf
    obtain ⟨_, k1, k2, y, hy, k3⟩ := hU e he
    obtain ⟨G, H, u, v, q1, q2, q3⟩ := s3 e.2.2 (e7 ▸ List.mem_map.2 ⟨e, he, rfl⟩) y hy
    refine ⟨G, H, u, v, ?_, q2, q3⟩
    rw [← k1, ← q1, ← k2, ← k3])
  exact ⟨_, by rw [runBatch, hp, hq, hst, Res.bind_ok, hr, Res.bind_ok, if_pos ho, hM', Res.bind_ok], rfl⟩

/-- If every sample can be processed with every label and gives gradients of the right sizes, and the batch is full or the
slots contain gradients of the right sizes, then no schedule fails, and some schedule completes the batch. -/
theorem runBatch_progress [Zero α] [One α] [Add α] [Sub α] [Mul α] [Div α] [Neg α] {E : Env α} {p : Hyper α} {B T : Nat} (hp : p.batch = B) (hq : p.threads = T) (hB : B < 2 ^ 24)
    (hT0 : 0 < T) (hT : T < 2147483648) {sh : Shared α} (hM : sh.model.Prepared B)
    (hal : ∀ x ∈ sh.source.take B, ∀ y ∈ sh.source.take B, ∃ m, alone E sh.model ⟨x.data, y.label⟩ = .ok m)
    (hsize : ∀ i W Bi, sh.model.params i = some (W, Bi) → ∃ X Y Z F w, ∃ β : Nat → α, W.Shows X Y Z w ∧ Bi.Shows F 1 1 (fun f _ _ => β f) ∧
      ∀ x ∈ sh.source.take B, ∀ y ∈ sh.source.take B, ∃ G H u v, ownGrads E sh.model ⟨x.data, y.label⟩ i = some (G, H) ∧ G.Reads X Y Z u ∧ H.Reads F 1 1 v)
    (hold : B ≤ sh.source.length ∨ ∀ i W Bi X Y Z F w, ∀ β : Nat → α, sh.model.params i = some (W, Bi) → W.Shows X Y Z w →
      Bi.Shows F 1 1 (fun f _ _ => β f) → ∀ s < B, ∃ G H u v, sh.model.stored i s = some (G, H) ∧ G.Reads X Y Z u ∧ H.Reads F 1 1 v) :
    (∀ sched, ∃ o, runBatch E p sched sh = .ok o) ∧ ∃ sched q, runBatch E p sched sh = .ok (some q) := by
  have hst := startBatch_eq B T hB hT0 hT sh
  obtain ⟨i1, i2, i3⟩ := batch_init (E := E) (B := B) (T := T) (w := share B T) sh
  have hR := Runs.of_alone hM hal
  have done : ∀ sched r, Batch.run E sched (⟨sh, (List.range T).map (fun t => (min ((t + 1) * share B T) B, Pc.fetch (t * share B T)))⟩ : Batch α) = .ok r →
      r.1.over = true → ∃ q, runBatch E p sched sh = .ok (some q) := by
    intro sched r hr ho
    obtain ⟨q, hq, _⟩ := runBatch_over hp hq hB hT0 hT hM hal hsize hold hr ho
    exact ⟨q, hq⟩
  constructor
  · intro sched
    obtain ⟨r, hr⟩ := run_ok hR hM.ready sched i2 i1 i3
    by_cases ho : r.1.over = true
    · obtain ⟨q, hq⟩ := done sched r hr ho
      exact ⟨_, hq⟩
    · exact ⟨none, by rw [runBatch, hp, hq, hst, Res.bind_ok, hr, Res.bind_ok, if_neg ho]⟩
  · obtain ⟨sched, r, hr, ho⟩ := run_ends hR hM.ready _ le_rfl i2 i1 i3
    exact ⟨sched, done sched r hr ho⟩

end Train
end Cnn
