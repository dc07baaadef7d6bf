import Verif.Lemmas.OverlapRun
import Verif.Lemmas.ShapeRun
/-! Helper lemmas: batches, epochs and training with overlapping layer calls (C76). -/
set_option linter.unusedSectionVars false
namespace Cnn
variable {α : Type} [Zero α] [One α] [Add α] [Sub α] [Mul α] [Div α] [Neg α]

theorem Body.Ready.applyBatch {N : Num α} {lr : α} {B B' : Body α} (hB : B.Ready) (h : B.applyBatch N lr = .ok B') : B'.Ready := by
  cases B with
  | connected L =>
    obtain ⟨L', h1, h⟩ := Res.bind_eq_ok h
    obtain rfl := Res.ok.inj h
    unfold Connected.applyBatch at h1
    obtain ⟨r, _, h1⟩ := Res.bind_eq_ok h1
    obtain rfl := Res.ok.inj h1
    exact hB
  | kernel K =>
    obtain ⟨K', h1, h⟩ := Res.bind_eq_ok h
    obtain rfl := Res.ok.inj h
    trivial
  | pooling | activation | softmax =>
    obtain rfl := Res.ok.inj h
    trivial

theorem Model.Ready.applyBatch {N : Num α} {lr : α} {M M' : Model α} (hM : M.Ready) (h : M.applyBatch N lr = .ok M') : M'.Ready := by
  intro l hl
  obtain ⟨i, hi⟩ := List.mem_iff_getElem?.1 hl
  obtain ⟨h1, _, h2⟩ := Model.applyBatch_get h
  have hlt : i < M.layers.length := h1 ▸ (List.getElem?_eq_some_iff.1 hi).1
  obtain ⟨b, hb, hb'⟩ := h2 i _ (List.getElem?_eq_getElem hlt)
  rw [hi] at hb'
  rw [Option.some.inj hb']
  exact (hM _ (List.getElem_mem hlt)).applyBatch hb

theorem Model.Ready.setBatchSize {M : Model α} (hM : M.Ready) (n : Nat) : (M.setBatchSize n).Ready := by
  intro l hl
  simp only [Model.setBatchSize] at hl
  obtain ⟨k, hk, rfl⟩ := List.mem_map.1 hl
  have := hM k hk
  dsimp only
  cases hb : k.body <;> rw [hb] at this <;> exact this

namespace Overlap
open Train Model

theorem runBatch_from {E : Env α} {p : Hyper α} {B T : Nat} (hp : p.batch = B) (hq : p.threads = T) (hB : B < 2147483648)
    {sh : Shared α} (hM : sh.model.Ready) :
    (∀ fine, ∃ coarse, runBatch E p fine sh = Train.runBatch E p coarse sh) ∧
    (∀ coarse, ∃ fine, runBatch E p fine sh = Train.runBatch E p coarse sh) ∧
    ∀ fine r, runBatch E p fine sh = .ok (some r) → r.1.model.Ready := by
  unfold runBatch Train.runBatch
  rw [hp, hq]
  cases hs : startBatch (B : Int) (T : Int) sh with
  | throw | ub | abort =>
    exact ⟨fun _ => ⟨[], rfl⟩, fun _ => ⟨[], rfl⟩, fun _ r h => absurd h (by intro h; cases h)⟩
  | ok s =>
    simp only [Res.bind_ok]
    obtain ⟨w, _, rfl⟩ := startBatch_inv hB hs
    have hI : BInv T B w sh.source _ [] := Inv.init T (fun t => t * w) (fun t => min ((t + 1) * w) B) sh
    have hS := Sim.start (s := ⟨sh, (List.range T).map (fun t => (min ((t + 1) * w) B, (Pc.fetch (t * w) : Pc α)))⟩) hM
    have close : ∀ {x : Res (Batch α × List (Event α))} {y : Res (Train.Batch α × List (Event α))},
        Res.Like (fun r q => Sim r.1 q.1 ∧ r.2 = q.2) x y →
        (x >>= fun r => if r.1.over then (r.1.shared.model.applyBatch E.num p.rate >>= fun M =>
          Res.ok (some ({ r.1.shared with model := M }, r.2))) else .ok none) =
        (y >>= fun r => if r.1.over then (r.1.shared.model.applyBatch E.num p.rate >>= fun M =>
          Res.ok (some ({ r.1.shared with model := M }, r.2))) else .ok none) := by
      intro x y h
      refine Res.Like.eq (h.bind fun r q hr => ?_)
      obtain ⟨h1, h2⟩ := hr
      rw [h1.over]
      by_cases ho : q.1.over = true
      · rw [if_pos ho, if_pos ho, h1.quiet_over (h1.over.trans ho), h2]
        exact Res.Like.refl fun _ _ => rfl
      · rw [if_neg ho, if_neg ho]
        rfl
    refine ⟨fun fine => ?_, fun coarse => ?_, fun fine r h => ?_⟩
    · obtain ⟨coarse, h⟩ := Sim.run E fine hS hI
      exact ⟨coarse, close h⟩
    · obtain ⟨fine, h⟩ := Sim.follows E coarse hS hI (by
        intro v hv
        obtain ⟨u, _, rfl⟩ := List.mem_map.1 hv
        rfl)
      exact ⟨fine, close h⟩
    · obtain ⟨coarse, hL⟩ := Sim.run E fine hS hI
      have e := close hL
      rw [h] at e
      cases ey : Train.Batch.run E coarse ⟨sh, (List.range T).map (fun t => (min ((t + 1) * w) B, (Pc.fetch (t * w) : Pc α)))⟩ with
      | ok q =>
        obtain ⟨r', er, h⟩ := Res.bind_eq_ok h
        rw [er, ey] at hL
        rw [ey, Res.bind_ok] at e
        by_cases ho : q.1.over = true
        · rw [if_pos ho] at e
          obtain ⟨M, hM', e⟩ := Res.bind_eq_ok e.symm
          obtain rfl := Option.some.inj (Res.ok.inj e)
          exact hL.1.ready.applyBatch hM'
        · rw [if_neg ho] at e
          exact absurd (Res.ok.inj e) (by simp)
      | throw | ub | abort => rw [ey] at e; exact absurd e (by intro e; cases e)

theorem runBatches_from {E : Env α} {p : Hyper α} {B T : Nat} (hp : p.batch = B) (hq : p.threads = T) (hB : B < 2147483648) :
    (∀ fine {sh : Shared α}, sh.model.Ready → ∃ coarse, coarse.length = fine.length ∧ runBatches E p fine sh = Train.runBatches E p coarse sh) ∧
    (∀ coarse {sh : Shared α}, sh.model.Ready → ∃ fine, fine.length = coarse.length ∧ runBatches E p fine sh = Train.runBatches E p coarse sh) ∧
    ∀ fine {sh : Shared α} r, sh.model.Ready → runBatches E p fine sh = .ok (some r) → r.1.model.Ready := by
  refine ⟨fun fine => ?_, fun coarse => ?_, fun fine => ?_⟩
  · induction fine with
    | nil => intro sh _; exact ⟨[], rfl, rfl⟩
    | cons c cs ih =>
      intro sh hM
      obtain ⟨h1, _, h3⟩ := runBatch_from (E := E) hp hq hB hM
      obtain ⟨d, hd⟩ := h1 c
      unfold runBatches
      cases e : runBatch E p c sh with
      | throw | ub | abort =>
        refine ⟨d :: List.replicate cs.length [], by simp, ?_⟩
        unfold Train.runBatches
        rw [← hd, e]
        rfl
      | ok o =>
        cases o with
        | none =>
          refine ⟨d :: List.replicate cs.length [], by simp, ?_⟩
          unfold Train.runBatches
          rw [← hd, e]
          rfl
        | some r =>
          obtain ⟨ds, hl, hds⟩ := ih (h3 c r e)
          refine ⟨d :: ds, by simp [hl], ?_⟩
          unfold Train.runBatches
          rw [← hd, e]
          simp only [Res.bind_ok, hds]
          rfl
  · induction coarse with
    | nil => intro sh _; exact ⟨[], rfl, rfl⟩
    | cons c cs ih =>
      intro sh hM
      obtain ⟨_, h2, h3⟩ := runBatch_from (E := E) hp hq hB hM
      obtain ⟨d, hd⟩ := h2 c
      unfold Train.runBatches
      cases e : runBatch E p d sh with
      | throw | ub | abort =>
        refine ⟨d :: List.replicate cs.length [], by simp, ?_⟩
        unfold runBatches
        rw [← hd, e]
        rfl
      | ok o =>
        cases o with
        | none =>
          refine ⟨d :: List.replicate cs.length [], by simp, ?_⟩
          unfold runBatches
          rw [← hd, e]
          rfl
        | some r =>
          obtain ⟨ds, hl, hds⟩ := ih (h3 d r e)
          refine ⟨d :: ds, by simp [hl], ?_⟩
          unfold runBatches
          rw [← hd, e]
          simp only [Res.bind_ok, hds]
          rfl
  · induction fine with
    | nil =>
      intro sh r hM h
      obtain rfl := Option.some.inj (Res.ok.inj h)
      exact hM
    | cons c cs ih =>
      intro sh r hM h
      obtain ⟨_, _, h3⟩ := runBatch_from (E := E) hp hq hB hM
      unfold runBatches at h
      obtain ⟨o, ho, h⟩ := Res.bind_eq_ok h
      cases o with
      | none => exact absurd (Res.ok.inj h) (by simp)
      | some q =>
        obtain ⟨o', ho', h⟩ := Res.bind_eq_ok h
        cases o' with
        | none => exact absurd (Res.ok.inj h) (by simp)
        | some q' =>
          obtain rfl := Option.some.inj (Res.ok.inj h)
          exact ih q' (h3 c q ho) ho'

theorem runEpoch_from {E : Env α} {p : Hyper α} (hB : p.batch < 2147483648) (size : Nat) {sh : Shared α} (hM : sh.model.Ready) :
    (∀ fine, ∃ coarse, runEpoch E p size fine sh = Train.runEpoch E p size coarse sh) ∧
    (∀ coarse, ∃ fine, runEpoch E p size fine sh = Train.runEpoch E p size coarse sh) ∧
    ∀ fine r, runEpoch E p size fine sh = .ok (some r) → r.1.model.Ready := by
  unfold runEpoch Train.runEpoch
  by_cases ht : p.threads < 0
  · simp only [if_pos ht]
    exact ⟨fun _ => ⟨[], trivial⟩, fun _ => ⟨[], trivial⟩, fun _ r h => absurd h (by simp)⟩
  · simp only [if_neg ht]
    cases workCount p.batch p.threads with
    | throw | ub | abort => exact ⟨fun _ => ⟨[], rfl⟩, fun _ => ⟨[], rfl⟩, fun _ r h => absurd h (by intro h; cases h)⟩
    | ok c =>
      simp only [Res.bind_ok]
      by_cases hb : p.batch < 0
      · simp only [if_pos hb]
        exact ⟨fun _ => ⟨[], trivial⟩, fun _ => ⟨[], trivial⟩, fun _ r h => absurd h (by simp)⟩
      · simp only [if_neg hb]
        cases numBatches size p.batch with
        | throw | ub | abort => exact ⟨fun _ => ⟨[], rfl⟩, fun _ => ⟨[], rfl⟩, fun _ r h => absurd h (by intro h; cases h)⟩
        | ok n =>
          simp only [Res.bind_ok]
          obtain ⟨B, hB'⟩ := Int.eq_ofNat_of_zero_le (show 0 ≤ p.batch by omega)
          obtain ⟨T, hT'⟩ := Int.eq_ofNat_of_zero_le (show 0 ≤ p.threads by omega)
          obtain ⟨h1, h2, h3⟩ := runBatches_from (E := E) hB' hT' (by omega)
          have hM' : ({ sh with hits := 0 } : Shared α).model.Ready := hM
          refine ⟨fun fine => ?_, fun coarse => ?_, fun fine r h => ?_⟩
          · obtain ⟨d, hl, hd⟩ := h1 fine hM'
            refine ⟨d, ?_⟩
            rw [hl, hd]
          · obtain ⟨d, hl, hd⟩ := h2 coarse hM'
            refine ⟨d, ?_⟩
            rw [hl, hd]
          · split at h
            · exact h3 fine r hM' h
            · exact absurd (Res.ok.inj h) (by simp)

/-- An epoch of `train`. -/
def epochStep (E : Env α) (p : Hyper α) (size : Nat) (M : Option (Model α)) (e : List (List (Nat × Act α)) × List (Sample α)) : Res (Option (Model α)) :=
  match M with
  | none => .ok none
  | some M => do
    let r ← runEpoch E p size e.1 ⟨M, e.2, 0⟩
    .ok (r.map fun q => q.1.model)

theorem train_room (E : Env α) (p : Hyper α) (size : Nat) (epochs : List (List (List (Nat × Act α)) × List (Sample α))) (M : Model α) :
    train E p size epochs M = (M.room p.batch >>= fun _ =>
      if epochs.length = p.epochs.toNat then epochs.foldlM (epochStep E p size) (some (M.setBatchSize (u64 p.batch))) else .ok none) := rfl

theorem train_none (E : Env α) (p : Hyper α) (size : Nat) (epochs : List (List (List (Nat × Act α)) × List (Sample α))) :
    epochs.foldlM (epochStep E p size) none = .ok none := by
  induction epochs with
  | nil => rfl
  | cons e es ih => rw [List.foldlM_cons]; exact ih

theorem epochs_from {E : Env α} {p : Hyper α} (hB : p.batch < 2147483648) (size : Nat)
    (fine : List (List (List (Nat × Act α)) × List (Sample α))) : ∀ {M : Model α}, M.Ready → ∃ coarse : List (List (List Nat) × List (Sample α)),
      coarse.map Prod.snd = fine.map Prod.snd ∧
      fine.foldlM (epochStep E p size) (some M) = coarse.foldlM (Train.epochStep E p size) (some M) := by
  induction fine with
  | nil => intro M _; exact ⟨[], rfl, rfl⟩
  | cons e es ih =>
    intro M hM
    obtain ⟨h1, _, h3⟩ := runEpoch_from (E := E) hB size (sh := ⟨M, e.2, 0⟩) hM
    obtain ⟨d, hd⟩ := h1 e.1
    have hes : (es.map fun e => (([] : List (List Nat)), e.2)).map Prod.snd = es.map Prod.snd := by
      rw [List.map_map]; rfl
    rw [List.foldlM_cons]
    unfold epochStep
    dsimp only
    cases er : runEpoch E p size e.1 ⟨M, e.2, 0⟩ with
    | throw | ub | abort =>
      refine ⟨(d, e.2) :: es.map fun e => ([], e.2), by rw [List.map_cons, List.map_cons, hes], ?_⟩
      rw [List.foldlM_cons]
      unfold Train.epochStep
      dsimp only
      rw [← hd, er]
      rfl
    | ok o =>
      cases o with
      | none =>
        refine ⟨(d, e.2) :: es.map fun e => ([], e.2), by rw [List.map_cons, List.map_cons, hes], ?_⟩
        rw [List.foldlM_cons]
        unfold Train.epochStep
        dsimp only
        rw [← hd, er]
        simp only [Res.bind_ok, Option.map_none]
        exact (train_none E p size es).trans (Train.train_none E p size _).symm
      | some r =>
        obtain ⟨ds, hl, hds⟩ := ih (h3 e.1 r er)
        refine ⟨(d, e.2) :: ds, by rw [List.map_cons, List.map_cons, hl], ?_⟩
        rw [List.foldlM_cons]
        unfold Train.epochStep
        dsimp only
        rw [← hd, er]
        simp only [Res.bind_ok, Option.map_some]
        exact hds

theorem epochs_to {E : Env α} {p : Hyper α} (hB : p.batch < 2147483648) (size : Nat)
    (coarse : List (List (List Nat) × List (Sample α))) : ∀ {M : Model α}, M.Ready → ∃ fine : List (List (List (Nat × Act α)) × List (Sample α)),
      fine.map Prod.snd = coarse.map Prod.snd ∧
      fine.foldlM (epochStep E p size) (some M) = coarse.foldlM (Train.epochStep E p size) (some M) := by
  induction coarse with
  | nil => intro M _; exact ⟨[], rfl, rfl⟩
  | cons e es ih =>
    intro M hM
    obtain ⟨_, h2, h3⟩ := runEpoch_from (E := E) hB size (sh := ⟨M, e.2, 0⟩) hM
    obtain ⟨d, hd⟩ := h2 e.1
    have hes : (es.map fun e => (([] : List (List (Nat × Act α))), e.2)).map Prod.snd = es.map Prod.snd := by
      rw [List.map_map]; rfl
    cases er : runEpoch E p size d ⟨M, e.2, 0⟩ with
    | throw | ub | abort =>
      refine ⟨(d, e.2) :: es.map fun e => ([], e.2), by rw [List.map_cons, List.map_cons, hes], ?_⟩
      rw [List.foldlM_cons, List.foldlM_cons]
      unfold epochStep Train.epochStep
      dsimp only
      rw [← hd, er]
      rfl
    | ok o =>
      cases o with
      | none =>
        refine ⟨(d, e.2) :: es.map fun e => ([], e.2), by rw [List.map_cons, List.map_cons, hes], ?_⟩
        rw [List.foldlM_cons, List.foldlM_cons]
        unfold epochStep Train.epochStep
        dsimp only
        rw [← hd, er]
        simp only [Res.bind_ok, Option.map_none]
        exact (train_none E p size _).trans (Train.train_none E p size _).symm
      | some r =>
        obtain ⟨ds, hl, hds⟩ := ih (h3 d r er)
        refine ⟨(d, e.2) :: ds, by rw [List.map_cons, List.map_cons, hl], ?_⟩
        rw [List.foldlM_cons, List.foldlM_cons]
        unfold epochStep Train.epochStep
        dsimp only
        rw [← hd, er]
        simp only [Res.bind_ok, Option.map_some]
        exact hds

end Overlap
end Cnn
