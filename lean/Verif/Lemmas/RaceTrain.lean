import Verif.Lemmas.Race
import Verif.Lemmas.Warm
/-! Helper lemmas: training in which forward calls of fully connected layers overlap (C80). -/
set_option linter.unusedSectionVars false
namespace Cnn
variable {α : Type} [Zero α] [One α] [Add α] [Sub α] [Mul α] [Div α] [Neg α]

namespace Race
open Train Model

/-! ## Training as a function of what a batch does -/

def batchesOf {β : Type} (f : β → Shared α → Res (Option (Shared α × List (Event α)))) : List β → Shared α → Res (Option (Shared α × List (Event α)))
  | [], sh => .ok (some (sh, []))
  | c :: cs, sh => do
    match ← f c sh with
    | none => .ok none
    | some r => do
      match ← batchesOf f cs r.1 with
      | none => .ok none
      | some q => .ok (some (q.1, r.2 ++ q.2))

def epochOf {β : Type} (f : β → Shared α → Res (Option (Shared α × List (Event α)))) (p : Hyper α) (size : Nat) (scheds : List β) (sh : Shared α) :
    Res (Option (Shared α × List (Event α))) := do
  if p.threads < 0 then .throw .length
  else do
    let _ ← workCount p.batch p.threads
    if p.batch < 0 then .throw .length
    else do
      let n ← numBatches size p.batch
      if scheds.length = n.toNat then batchesOf f scheds { sh with hits := 0 } else .ok none

def stepOf {β : Type} (f : β → Shared α → Res (Option (Shared α × List (Event α)))) (p : Hyper α) (size : Nat) (M : Option (Model α)) (e : List β × List (Sample α)) :
    Res (Option (Model α)) :=
  match M with
  | none => .ok none
  | some M => do
    let r ← epochOf f p size e.1 ⟨M, e.2, 0⟩
    .ok (r.map fun q => q.1.model)

def trainOf {β : Type} (f : β → Shared α → Res (Option (Shared α × List (Event α)))) (p : Hyper α) (size : Nat) (epochs : List (List β × List (Sample α))) (M : Model α) :
    Res (Option (Model α)) :=
  M.room p.batch >>= fun _ =>
    if epochs.length = p.epochs.toNat then epochs.foldlM (stepOf f p size) (some (M.setBatchSize (u64 p.batch))) else .ok none

theorem batches_eq (E : Env α) (rnd : Nat → Nat → Nat → α) (p : Hyper α) (cs : List (List Nat)) : ∀ sh : Shared α,
    runBatches E rnd p cs sh = batchesOf (runBatch E rnd p) cs sh := by
  induction cs with
  | nil => intro sh; rfl
  | cons c cs ih =>
    intro sh
    unfold runBatches batchesOf
    simp only [ih]
    rfl

theorem batches_eq' (E : Env α) (p : Hyper α) (cs : List (List Nat)) : ∀ sh : Shared α,
    Train.runBatches E p cs sh = batchesOf (Train.runBatch E p) cs sh := by
  induction cs with
  | nil => intro sh; rfl
  | cons c cs ih =>
    intro sh
    unfold Train.runBatches batchesOf
    simp only [ih]
    rfl

/-- An epoch of `train`. -/
def epochStep (E : Env α) (rnd : Nat → Nat → Nat → α) (p : Hyper α) (size : Nat) (M : Option (Model α)) (e : List (List Nat) × List (Sample α)) : Res (Option (Model α)) :=
  match M with
  | none => .ok none
  | some M => do
    let r ← runEpoch E rnd p size e.1 ⟨M, e.2, 0⟩
    .ok (r.map fun q => q.1.model)

theorem train_room (E : Env α) (rnd : Nat → Nat → Nat → α) (p : Hyper α) (size : Nat) (epochs : List (List (List Nat) × List (Sample α))) (M : Model α) :
    train E rnd p size epochs M = (M.room p.batch >>= fun _ =>
      if epochs.length = p.epochs.toNat then epochs.foldlM (epochStep E rnd p size) (some (M.setBatchSize (u64 p.batch))) else .ok none) := rfl

theorem train_eq (E : Env α) (rnd : Nat → Nat → Nat → α) (p : Hyper α) (size : Nat) (epochs : List (List (List Nat) × List (Sample α))) (M : Model α) :
    train E rnd p size epochs M = trainOf (runBatch E rnd p) p size epochs M := by
  rw [train_room]
  unfold trainOf
  have : ∀ (M : Option (Model α)) e, epochStep E rnd p size M e = stepOf (runBatch E rnd p) p size M e := by
    intro M e
    unfold stepOf epochStep runEpoch epochOf
    simp only [batches_eq]
  rw [show epochStep E rnd p size = stepOf (runBatch E rnd p) p size from funext fun M => funext fun e => this M e]

theorem train_eq' (E : Env α) (p : Hyper α) (size : Nat) (epochs : List (List (List Nat) × List (Sample α))) (M : Model α) :
    Train.train E p size epochs M = trainOf (Train.runBatch E p) p size epochs M := by
  rw [Train.train_room]
  unfold trainOf
  have : ∀ (M : Option (Model α)) e, Train.epochStep E p size M e = stepOf (Train.runBatch E p) p size M e := by
    intro M e
    unfold stepOf Train.epochStep Train.runEpoch epochOf
    simp only [batches_eq']
    cases M <;> rfl
  rw [show Train.epochStep E p size = stepOf (Train.runBatch E p) p size from funext fun M => funext fun e => this M e]

section Transfer
variable {β γ : Type} [Inhabited γ] {f : β → Shared α → Res (Option (Shared α × List (Event α)))} {g : γ → Shared α → Res (Option (Shared α × List (Event α)))}
  {P : Model α → Prop}

theorem batches_transfer (h : ∀ sh : Shared α, P sh.model → ∀ a, ∃ b, f a sh = g b sh)
    (hP : ∀ (sh : Shared α) a r, P sh.model → f a sh = .ok (some r) → P r.1.model) (as : List β) : ∀ sh : Shared α, P sh.model →
    (∃ bs : List γ, bs.length = as.length ∧ batchesOf f as sh = batchesOf g bs sh) ∧ ∀ r, batchesOf f as sh = .ok (some r) → P r.1.model := by
  induction as with
  | nil =>
    intro sh hs
    refine ⟨⟨[], rfl, rfl⟩, fun r hr => ?_⟩
    obtain rfl := Option.some.inj (Res.ok.inj hr)
    exact hs
  | cons a as ih =>
    intro sh hs
    obtain ⟨b, hb⟩ := h sh hs a
    cases e : f a sh with
    | throw | ub | abort =>
      refine ⟨⟨b :: List.replicate as.length default, by simp, ?_⟩, fun r hr => ?_⟩
      · unfold batchesOf
        rw [← hb, e]
        rfl
      · unfold batchesOf at hr
        rw [e] at hr
        cases hr
    | ok o =>
      cases o with
      | none =>
        refine ⟨⟨b :: List.replicate as.length default, by simp, ?_⟩, fun r hr => ?_⟩
        · unfold batchesOf
          rw [← hb, e]
          rfl
        · unfold batchesOf at hr
          rw [e] at hr
          cases hr
      | some r =>
        obtain ⟨⟨bs, hl, hbs⟩, hq⟩ := ih r.1 (hP sh a r hs e)
        refine ⟨⟨b :: bs, by simp [hl], ?_⟩, fun q hr => ?_⟩
        · unfold batchesOf
          rw [← hb, e]
          simp only [Res.bind_ok, hbs]
        · unfold batchesOf at hr
          rw [e, Res.bind_ok] at hr
          obtain ⟨o, ho, hr⟩ := Res.bind_eq_ok hr
          cases o with
          | none => cases hr
          | some q' =>
            obtain rfl := Option.some.inj (Res.ok.inj hr)
            exact hq q' ho

theorem epoch_transfer (h : ∀ sh : Shared α, P sh.model → ∀ a, ∃ b, f a sh = g b sh)
    (hP : ∀ (sh : Shared α) a r, P sh.model → f a sh = .ok (some r) → P r.1.model) (p : Hyper α) (size : Nat) (as : List β) (sh : Shared α) (hs : P sh.model) :
    (∃ bs : List γ, epochOf f p size as sh = epochOf g p size bs sh) ∧ ∀ r, epochOf f p size as sh = .ok (some r) → P r.1.model := by
  obtain ⟨⟨bs, hl, hbs⟩, hq⟩ := batches_transfer h hP as { sh with hits := 0 } hs
  refine ⟨⟨bs, ?_⟩, fun r hr => ?_⟩
  · unfold epochOf
    rw [hl, hbs]
  · unfold epochOf at hr
    split at hr
    · cases hr
    · obtain ⟨_, _, hr⟩ := Res.bind_eq_ok hr
      split at hr
      · cases hr
      · obtain ⟨_, _, hr⟩ := Res.bind_eq_ok hr
        split at hr
        · exact hq r hr
        · cases hr

theorem stepOf_none (f : β → Shared α → Res (Option (Shared α × List (Event α)))) (p : Hyper α) (size : Nat) (as : List (List β × List (Sample α))) :
    as.foldlM (stepOf f p size) none = .ok none := by
  induction as with
  | nil => rfl
  | cons e es ih => rw [List.foldlM_cons]; exact ih

theorem epochs_transfer (h : ∀ sh : Shared α, P sh.model → ∀ a, ∃ b, f a sh = g b sh)
    (hP : ∀ (sh : Shared α) a r, P sh.model → f a sh = .ok (some r) → P r.1.model) (p : Hyper α) (size : Nat) (as : List (List β × List (Sample α))) :
    ∀ M : Model α, P M → ∃ bs : List (List γ × List (Sample α)), bs.map Prod.snd = as.map Prod.snd ∧
      as.foldlM (stepOf f p size) (some M) = bs.foldlM (stepOf g p size) (some M) := by
  induction as with
  | nil => intro M _; exact ⟨[], rfl, rfl⟩
  | cons e es ih =>
    intro M hM
    obtain ⟨⟨d, hd⟩, hq⟩ := epoch_transfer h hP p size e.1 ⟨M, e.2, 0⟩ hM
    have hes : (es.map fun e => (([] : List γ), e.2)).map Prod.snd = es.map Prod.snd := by
      rw [List.map_map]; rfl
    rw [List.foldlM_cons]
    cases er : epochOf f p size e.1 ⟨M, e.2, 0⟩ with
    | throw | ub | abort =>
      refine ⟨(d, e.2) :: es.map fun e => ([], e.2), by rw [List.map_cons, List.map_cons, hes], ?_⟩
      rw [List.foldlM_cons]
      unfold stepOf
      dsimp only
      rw [← hd, er]
      rfl
    | ok o =>
      cases o with
      | none =>
        refine ⟨(d, e.2) :: es.map fun e => ([], e.2), by rw [List.map_cons, List.map_cons, hes], ?_⟩
        rw [List.foldlM_cons]
        have e1 : stepOf f p size (some M) e = .ok none := by unfold stepOf; dsimp only; rw [er]; rfl
        have e2 : stepOf g p size (some M) (d, e.2) = .ok none := by unfold stepOf; dsimp only; rw [← hd, er]; rfl
        rw [e1, e2, Res.bind_ok, Res.bind_ok, stepOf_none, stepOf_none]
      | some r =>
        obtain ⟨ds, hl, hds⟩ := ih r.1.model (hq r er)
        refine ⟨(d, e.2) :: ds, by rw [List.map_cons, List.map_cons, hl], ?_⟩
        rw [List.foldlM_cons]
        have e1 : stepOf f p size (some M) e = .ok (some r.1.model) := by unfold stepOf; dsimp only; rw [er]; rfl
        have e2 : stepOf g p size (some M) (d, e.2) = .ok (some r.1.model) := by unfold stepOf; dsimp only; rw [← hd, er]; rfl
        rw [e1, e2, Res.bind_ok, Res.bind_ok, hds]

theorem train_transfer (h : ∀ sh : Shared α, P sh.model → ∀ a, ∃ b, f a sh = g b sh)
    (hP : ∀ (sh : Shared α) a r, P sh.model → f a sh = .ok (some r) → P r.1.model) (p : Hyper α) (size : Nat) (as : List (List β × List (Sample α)))
    (M : Model α) (hM : P (M.setBatchSize (u64 p.batch))) : ∃ bs : List (List γ × List (Sample α)), bs.map Prod.snd = as.map Prod.snd ∧
      trainOf f p size as M = trainOf g p size bs M := by
  obtain ⟨bs, h1, h2⟩ := epochs_transfer h hP p size as _ hM
  refine ⟨bs, h1, ?_⟩
  unfold trainOf
  have hl : bs.length = as.length := by simpa using congrArg List.length h1
  rw [hl, h2]

end Transfer

/-! ## Calls that are not interrupted -/

theorem run_cons (E : Env α) (rnd : Nat → Nat → Nat → α) (t : Nat) (ts : List Nat) (f : Batch α) : f.run E rnd (t :: ts) =
    (f.step E rnd t >>= fun r => r.1.run E rnd ts >>= fun q => .ok (q.1, r.2 ++ q.2)) := rfl

theorem run_append (E : Env α) (rnd : Nat → Nat → Nat → α) (a b : List Nat) : ∀ f : Batch α, f.run E rnd (a ++ b) =
    (f.run E rnd a >>= fun r => r.1.run E rnd b >>= fun q => .ok (q.1, r.2 ++ q.2)) := by
  induction a with
  | nil =>
    intro f
    show f.run E rnd b = (f.run E rnd b >>= fun q => .ok (q.1, [] ++ q.2))
    cases f.run E rnd b <;> rfl
  | cons t ts ih =>
    intro f
    rw [List.cons_append, run_cons, run_cons]
    cases f.step E rnd t with
    | ok r =>
      simp only [Res.bind_ok, ih]
      cases r.1.run E rnd ts with
      | ok q =>
        simp only [Res.bind_ok]
        cases q.1.run E rnd b with
        | ok z => simp only [Res.bind_ok, List.append_assoc]
        | _ => rfl
      | _ => rfl
    | _ => rfl

/-- Random numbers matter only for fully connected layers. -/
theorem step_draws (E : Env α) (d : Nat → Nat → α) (t cutoff : Nat) (sh : Shared α) (p : Pc α) (h : callOf sh.model p = none) :
    p.step E t cutoff sh = p.step { E with draws := d } t cutoff sh := by
  cases p with
  | forward slot x i s =>
    unfold Pc.step
    dsimp only
    by_cases hi : i < sh.model.layers.length
    · rw [if_pos hi, if_pos hi]
      have : forwardStep E slot (s, sh.model) i = forwardStep { E with draws := d } slot (s, sh.model) i := by
        unfold forwardStep forwardLayer
        dsimp only
        unfold callOf at h
        dsimp only at h
        rw [List.getElem?_eq_getElem hi] at h ⊢
        simp only [Option.map_some] at h
        rw [show Res.ofOption (some sh.model.layers[i]) = .ok sh.model.layers[i] from rfl, Res.bind_ok, Res.bind_ok]
        cases hb : (sh.model.layers[i]).body with
        | connected L => rw [hb] at h; cases h
        | _ => rfl
      rw [this]
    · rw [if_neg hi, if_neg hi]
      rfl
  | backward slot x r i dLdz => cases i <;> rfl
  | _ => rfl

theorem wstep_draws (E : Env α) (d : Nat → Nat → α) (rnd : Nat → Nat → Nat → α) (t : Nat) (w : Worker α) (sh : Shared α) :
    w.step E rnd t sh = w.step { E with draws := d } rnd t sh := by
  unfold Worker.step
  cases h : callOf sh.model w.pc with
  | none => simp only; rw [step_draws E d t w.cutoff sh w.pc h]
  | some c => rfl

/-- A thread finishes the call it is in. -/
theorem finish_call {E : Env α} {rnd : Nat → Nat → Nat → α} {t : Nat} {sh : Shared α} {slot : Nat} {x : Sample α} {i : Nat} {st : Matrix α × List (Matrix α)}
    {L0 : Connected α} (h0 : sh.model.bodyAt i = some (.connected L0)) (n : Nat) : ∀ (ws : List (Worker α)) (w : Worker α) (L : Connected α), ws[t]? = some w →
      w.pc = .forward slot x i st → FirstUse.rank (w.call.getD .size) = n → 0 < n → FirstUse.Part E.num (rnd t i) st.1 L0 (w.call.getD .size) L →
      ∃ k, (⟨{ sh with model := sh.model.setBody i (.connected L) }, ws⟩ : Batch α).run E rnd (List.replicate k t) =
        (terminate (w.pc.step { E with draws := rnd t } t w.cutoff sh) >>= fun r => .ok (⟨r.2.1, ws.set t ⟨w.cutoff, r.1, none⟩⟩, r.2.2)) := by
  induction n using Nat.strongRecOn with
  | _ n ih =>
    intro ws w L hw hp hr hn hP
    rcases callStep_part (E := { E with draws := rnd t }) (rnd := rnd) (t := t) (sh := sh) rfl hp h0 ⟨by omega, hP⟩ with ⟨c, L', e, h1, h2, h3⟩ | e
    · obtain ⟨k, hk⟩ := ih (FirstUse.rank c) (by omega) (ws.set t ⟨w.cutoff, w.pc, some c⟩) ⟨w.cutoff, w.pc, some c⟩ L'
        (List.getElem?_set_self (List.getElem?_eq_some_iff.1 hw).1) hp rfl h1 h3
      refine ⟨k + 1, ?_⟩
      rw [List.replicate_succ, run_cons]
      unfold Batch.step
      dsimp only
      rw [hw]
      dsimp only
      rw [wstep_draws E (rnd t), e]
      simp only [show ∀ (β : Type) (a : β), terminate (Res.ok a) = Res.ok a from fun _ _ => rfl, Res.bind_ok]
      rw [hk]
      dsimp only
      cases terminate (w.pc.step { E with draws := rnd t } t w.cutoff sh) with
      | ok r => simp only [Res.bind_ok, List.set_set, List.nil_append]
      | _ => rfl
    · refine ⟨1, ?_⟩
      show (_ >>= fun r => _ >>= fun q => _) = _
      unfold Batch.step
      dsimp only
      rw [hw]
      dsimp only
      rw [wstep_draws E (rnd t), e]
      cases w.pc.step { E with draws := rnd t } t w.cutoff sh with
      | ok r => simp [Batch.run, terminate]
      | _ => rfl

/-- A thread on its own makes what is one step in Model/Train.lean. -/
theorem solo_step (E : Env α) (rnd : Nat → Nat → Nat → α) {t : Nat} {f : Batch α} {w : Worker α} (hw : f.workers[t]? = some w) (hc : w.call = none) :
    ∃ k, f.run E rnd (List.replicate k t) =
      (terminate (w.pc.step { E with draws := rnd t } t w.cutoff f.shared) >>= fun r => .ok (⟨r.2.1, f.workers.set t ⟨w.cutoff, r.1, none⟩⟩, r.2.2)) := by
  cases hcall : callOf f.shared.model w.pc with
  | none =>
    refine ⟨1, ?_⟩
    show (_ >>= fun r => _ >>= fun q => _) = _
    unfold Batch.step
    rw [hw]
    dsimp only
    rw [wstep_draws E (rnd t)]
    unfold Worker.step
    rw [hcall]
    dsimp only
    cases w.pc.step { E with draws := rnd t } t w.cutoff f.shared with
    | ok r => simp [Batch.run, terminate]
    | _ => rfl
  | some c =>
    obtain ⟨hp, hL⟩ := callOf_some hcall
    have := finish_call (E := E) (rnd := rnd) (t := t) hL _ f.workers w c.state hw hp rfl (by rw [hc]; simp [FirstUse.rank]) (by rw [hc]; exact rfl)
    rwa [Overlap.setBody_self hL] at this

/-- A run with calls as single steps. -/
theorem run_to {E : Env α} {rnd : Nat → Nat → Nat → α} (hd : ∀ t, rnd t = E.draws) (coarse : List Nat) : ∀ {f : Batch α} {s : Train.Batch α},
    f.shared = s.shared → s.workers = f.workers.map (fun w => (w.cutoff, w.pc)) → (∀ (t : Nat) w, f.workers[t]? = some w → w.call = none) →
    ∃ fine : List Nat, Res.Like (fun r q => (r.1.shared = q.1.shared ∧ q.1.workers = r.1.workers.map fun w => (w.cutoff, w.pc)) ∧ r.2 = q.2)
      (f.run E rnd fine) (s.run E coarse) := by
  induction coarse with
  | nil => intro f s h1 h2 _; exact ⟨[], ⟨h1, h2⟩, rfl⟩
  | cons t ts ih =>
    intro f s h1 h2 h3
    unfold Train.Batch.run Train.Batch.step
    rw [h2, List.getElem?_map]
    cases hw : f.workers[t]? with
    | none =>
      obtain ⟨fine, hf⟩ := ih h1 h2 h3
      refine ⟨fine, ?_⟩
      simp only [Option.map_none, Res.bind_ok, List.nil_append]
      cases e : s.run E ts <;> rw [e] at hf <;> exact hf
    | some w =>
      obtain ⟨k, hk⟩ := solo_step E rnd hw (h3 t w hw)
      simp only [Option.map_some]
      have hE : ({ E with draws := rnd t } : Env α) = E := by rw [hd]
      rw [hE, h1] at hk
      cases e : terminate (w.pc.step E t w.cutoff s.shared) with
      | ok r =>
        rw [e, Res.bind_ok] at hk
        obtain ⟨fine, hf⟩ := ih (f := ⟨r.2.1, f.workers.set t ⟨w.cutoff, r.1, none⟩⟩) (s := ⟨r.2.1, s.workers.set t (w.cutoff, r.1)⟩) rfl
          (by rw [List.map_set, h2]) (by
            intro u v hv
            have hv' : (f.workers.set t ⟨w.cutoff, r.1, none⟩)[u]? = some v := hv
            rw [List.getElem?_set] at hv'
            split at hv'
            · split at hv'
              · obtain rfl := Option.some.inj hv'
                rfl
              · cases hv'
            · exact h3 u v hv')
        refine ⟨List.replicate k t ++ fine, ?_⟩
        rw [run_append, hk]
        simp only [Res.bind_ok]
        rw [← h2]
        exact hf.bind fun r' q' hq => ⟨hq.1, by rw [hq.2]⟩
      | throw y => exact absurd e (by cases w.pc.step E t w.cutoff s.shared <;> simp [terminate])
      | ub =>
        rw [e] at hk
        exact ⟨List.replicate k t, by rw [hk]; trivial⟩
      | abort =>
        rw [e] at hk
        exact ⟨List.replicate k t, by rw [hk]; trivial⟩

theorem runBatch_to {E : Env α} {rnd : Nat → Nat → Nat → α} (hd : ∀ t, rnd t = E.draws) {p : Hyper α} {sh : Shared α} (coarse : List Nat) :
    ∃ fine, Train.runBatch E p coarse sh = runBatch E rnd p fine sh := by
  unfold runBatch Train.runBatch
  cases hs : startBatch p.batch p.threads sh with
  | throw | ub | abort => exact ⟨[], rfl⟩
  | ok s =>
    simp only [Res.bind_ok]
    obtain ⟨fine, hL⟩ := run_to hd coarse (f := start s) (s := s) rfl (start_workers s) (fun t w hw => start_call hw)
    exact ⟨fine, (close (Q := fun f s => f.shared = s.shared ∧ s.workers = f.workers.map fun w => (w.cutoff, w.pc)) (fun _ _ h => h.2) (fun _ _ h _ => h.1) hL).symm⟩

theorem Sim.done {E : Env α} {rnd : Nat → Nat → Nat → α} {p : Hyper α} {sh : Shared α} (hM : sh.model.Ready) (fine : List Nat) (r : Shared α × List (Event α))
    (h : runBatch E rnd p fine sh = .ok (some r)) : r.1.model.Ready := by
  unfold runBatch at h
  obtain ⟨s, hs, h⟩ := Res.bind_eq_ok h
  have hsh := startBatch_shared hs
  have h0 : Sim E rnd (start s) s := ⟨rfl, start_workers s, by show s.shared.model.Ready; rw [hsh]; exact hM, fun t w c hw hc => by
    rw [start_call hw] at hc; cases hc⟩
  obtain ⟨q, hq, h⟩ := Res.bind_eq_ok h
  obtain ⟨coarse, hL⟩ := h0.run fine
  rw [hq] at hL
  cases ec : s.run E coarse with
  | ok z =>
    rw [ec] at hL
    split at h
    · obtain ⟨M, hM', h⟩ := Res.bind_eq_ok h
      obtain rfl := Option.some.inj (Res.ok.inj h)
      have hr := hL.1.ready
      exact hr.applyBatch hM'
    · cases h
  | throw | ub | abort => rw [ec] at hL; exact absurd hL id

/-! ## Two threads in the first call of a layer -/

theorem forwardSteps_later {E : Env α} {b : Nat} (n : Nat) {s r : (Matrix α × List (Matrix α)) × Model α}
    (h : (List.range n).foldlM (forwardStep E b) s = .ok r) : r.2.layers.length = s.2.layers.length ∧ n ≤ s.2.layers.length ∧ ∀ j, n ≤ j → r.2.bodyAt j = s.2.bodyAt j := by
  induction n generalizing r with
  | zero => obtain rfl := Res.ok.inj h; exact ⟨rfl, Nat.zero_le _, fun _ _ => rfl⟩
  | succ n ih =>
    rw [List.range_succ, List.foldlM_append] at h
    obtain ⟨q, h1, h⟩ := Res.bind_eq_ok h
    simp only [List.foldlM_cons, List.foldlM_nil] at h
    obtain ⟨a, h2, h⟩ := Res.bind_eq_ok h
    obtain rfl := Res.ok.inj h
    obtain ⟨k1, k2, k3⟩ := ih h1
    unfold forwardStep forwardLayer at h2
    obtain ⟨y, hy, h2⟩ := Res.bind_eq_ok h2
    obtain ⟨R, hR, h2⟩ := Res.bind_eq_ok h2
    obtain rfl := Res.ok.inj h2
    obtain ⟨l, hl, hy⟩ := Res.bind_eq_ok hy
    obtain ⟨z, hz, hy⟩ := Res.bind_eq_ok hy
    obtain rfl := Res.ok.inj hy
    have hl := ofOption_eq hl
    have hn := (List.getElem?_eq_some_iff.1 hl).1
    refine ⟨by simp [setBody, k1], by omega, fun j hj => ?_⟩
    show (q.2.setBody n z.2).bodyAt j = _
    rw [setBody_bodyAt, if_neg (by omega), k3 j (by omega)]

/-- A thread on its own goes through the first layers. -/
theorem solo_forward (E : Env α) (rnd : Nat → Nat → Nat → α) {t cut slot : Nat} {x : Sample α} {st0 : Matrix α × List (Matrix α)} {f : Batch α}
    (hw : f.workers[t]? = some ⟨cut, .forward slot x 0 st0, none⟩) (n : Nat) {st : Matrix α × List (Matrix α)} {M' : Model α}
    (h : (List.range n).foldlM (forwardStep { E with draws := rnd t } slot) (st0, f.shared.model) = .ok (st, M')) :
    ∃ sched, f.run E rnd sched = .ok (⟨{ f.shared with model := M' }, f.workers.set t ⟨cut, .forward slot x n st, none⟩⟩, []) := by
  induction n generalizing st M' with
  | zero =>
    obtain ⟨rfl, rfl⟩ := Prod.mk.inj (Res.ok.inj h)
    refine ⟨[], ?_⟩
    rw [set_same hw]
    rfl
  | succ n ih =>
    rw [List.range_succ, List.foldlM_append] at h
    obtain ⟨⟨st1, M1⟩, h1, h⟩ := Res.bind_eq_ok h
    simp only [List.foldlM_cons, List.foldlM_nil] at h
    obtain ⟨a, h2, h⟩ := Res.bind_eq_ok h
    obtain rfl := Res.ok.inj h
    obtain ⟨s1, e1⟩ := ih h1
    have ht := (List.getElem?_eq_some_iff.1 hw).1
    obtain ⟨k, hk⟩ := solo_step E rnd (t := t) (f := ⟨{ f.shared with model := M1 }, f.workers.set t ⟨cut, .forward slot x n st1, none⟩⟩)
      (w := ⟨cut, .forward slot x n st1, none⟩) (List.getElem?_set_self ht) rfl
    refine ⟨s1 ++ List.replicate k t, ?_⟩
    rw [run_append, e1, Res.bind_ok, hk]
    have hn : n < M1.layers.length := by
      unfold forwardStep forwardLayer at h2
      obtain ⟨y, hy, _⟩ := Res.bind_eq_ok h2
      obtain ⟨l, hl, hy⟩ := Res.bind_eq_ok hy
      exact (List.getElem?_eq_some_iff.1 (ofOption_eq hl)).1
    have : (Pc.forward slot x n st1).step { E with draws := rnd t } t cut { f.shared with model := M1 } =
        .ok (.forward slot x (n + 1) st, { f.shared with model := M' }, []) := by
      simp only [Pc.step]
      rw [if_pos hn, h2]
      rfl
    dsimp only
    rw [this]
    simp [terminate]

end Race
end Cnn
