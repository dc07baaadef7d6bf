import Verif.Lemmas.Fair
/-!
# Steps of the threads when the first calls of fully connected layers overlap (C94)
-/
set_option linter.unusedSectionVars false
namespace Cnn
variable {α : Type} [Zero α] [One α] [Add α] [Sub α] [Mul α] [Div α] [Neg α]

/-- The most steps from here to the end of a call. -/
def FirstUse.Pc.rank {α : Type} : FirstUse.Pc α → Nat
  | .size => 10
  | .test _ => 9
  | .claim _ => 8
  | .inputDim _ => 7
  | .alloc _ => 6
  | .fillW => 5
  | .fillB => 4
  | .normW => 3
  | .normB => 2
  | .compare _ => 2
  | .compute => 1
  | .done _ => 1

theorem FirstUse.rank_bounds {α : Type} (p : FirstUse.Pc α) : 1 ≤ p.rank ∧ p.rank ≤ 10 := by cases p <;> simp [FirstUse.Pc.rank]

theorem FirstUse.next_rank {α β : Type} (L : Connected α) (x : Res β) (f : β → FirstUse.Pc α × Connected α) (n : Nat)
    (hf : ∀ a, x = .ok a → (∃ r, (f a).1 = .done r) ∨ (f a).1.rank ≤ n) :
    (∃ r, (FirstUse.next L x f).1 = .done r) ∨ (FirstUse.next L x f).1.rank ≤ n := by
  cases x with
  | ok a => exact hf a rfl
  | throw | ub | abort => exact Or.inl ⟨_, rfl⟩

theorem FirstUse.step_rank {N : Num α} {L : Connected α} {t : FirstUse.Thread α} :
    (∃ r, (FirstUse.step N L t).1 = .done r) ∨ (FirstUse.step N L t).1.rank ≤ t.pc.rank - 1 := by
  obtain ⟨pc, X, d⟩ := t
  cases pc with
  | size | alloc | fillW | fillB | normW | normB =>
    exact FirstUse.next_rank _ _ _ _ fun a _ => Or.inr (by simp [FirstUse.Pc.rank])
  | test e =>
    right
    simp only [FirstUse.step]
    split <;> simp [FirstUse.Pc.rank]
  | claim | inputDim => exact Or.inr (by simp [FirstUse.step, FirstUse.Pc.rank])
  | compare e =>
    simp only [FirstUse.step]
    split
    · exact Or.inr (by simp [FirstUse.Pc.rank])
    · exact Or.inl ⟨_, rfl⟩
  | compute => exact Or.inl ⟨_, rfl⟩
  | done r => exact Or.inl ⟨_, rfl⟩

namespace Race
open Model Train

/-- As `Pc.togo`; a step may take ten. -/
def Worker.togo (n : Nat) (w : Worker α) : Nat := 10 * w.pc.togo n w.cutoff - match w.call with
  | none => 0
  | some c => 10 - c.rank

theorem step_togoR {E : Env α} {rnd : Nat → Nat → Nat → α} {t : Nat} {w : Worker α} {sh : Shared α} {a : Worker α × Shared α × List (Event α)}
    (h : w.step E rnd t sh = .ok a) :
    a.2.1.model.layers.length = sh.model.layers.length ∧ a.1.togo sh.model.layers.length ≤ w.togo sh.model.layers.length - 1 := by
  have old : 10 * w.pc.togo sh.model.layers.length w.cutoff - 9 ≤ w.togo sh.model.layers.length := by
    unfold Worker.togo
    cases w.call with
    | none => simp
    | some c =>
      have := FirstUse.rank_bounds c
      simp only
      omega
  unfold Worker.step at h
  split at h
  · rename_i c hc
    obtain ⟨cut, pc, call⟩ := w
    cases pc with
    | forward slot x i s =>
      simp only [callOf] at hc
      split at hc
      · rename_i L hL
        obtain rfl := Option.some.inj hc
        have hi : i < sh.model.layers.length := by
          cases e : sh.model.layers[i]? with
          | none => rw [e] at hL; cases hL
          | some l => exact (List.getElem?_eq_some_iff.1 e).1
        unfold callStep at h
        simp only at h
        split at h
        · obtain ⟨out, -, h⟩ := Res.bind_eq_ok h
          obtain ⟨R, -, h⟩ := Res.bind_eq_ok h
          obtain rfl := Res.ok.inj h
          refine ⟨Overlap.setBody_length _ _ _, ?_⟩
          refine le_trans ?_ (Nat.sub_le_sub_right old 1)
          simp only [Worker.togo, Pc.togo, Pc.slots]
          omega
        · rename_i hnd
          obtain rfl := Res.ok.inj h
          refine ⟨Overlap.setBody_length _ _ _, ?_⟩
          obtain ⟨r, hr⟩ | hr := FirstUse.step_rank (N := E.num) (L := L) (t := ⟨call.getD .size, s.1, rnd t i⟩)
          · exact absurd hr (hnd r)
          · have pos : 1 ≤ (Pc.forward slot x i s : Pc α).togo sh.model.layers.length cut := by
              simp only [Pc.togo]; omega
            have b := FirstUse.rank_bounds (call.getD (.size : FirstUse.Pc α))
            have b' := FirstUse.rank_bounds (FirstUse.step E.num L ⟨call.getD .size, s.1, rnd t i⟩).1
            simp only at hr
            have e : (Worker.mk cut (Pc.forward slot x i s) call).togo sh.model.layers.length =
                10 * (Pc.forward slot x i s : Pc α).togo sh.model.layers.length cut - (10 - (call.getD (.size : FirstUse.Pc α)).rank) := by
              unfold Worker.togo
              cases call <;> rfl
            rw [e]
            unfold Worker.togo
            simp only
            omega
      · cases hc
    | _ => cases hc
  · obtain ⟨r, hr, h⟩ := Res.bind_eq_ok h
    obtain rfl := Res.ok.inj h
    obtain ⟨g1, g2, -⟩ := step_togo hr
    refine ⟨g1, le_trans ?_ (Nat.sub_le_sub_right old 1)⟩
    simp only [Worker.togo]
    omega

theorem run_togoR {E : Env α} {rnd : Nat → Nat → Nat → α} (sched : List Nat) : ∀ {s : Batch α} {r : Batch α × List (Event α)}, s.run E rnd sched = .ok r →
    r.1.shared.model.layers.length = s.shared.model.layers.length ∧ r.1.workers.length = s.workers.length ∧
    ∀ (t : Nat) (w : Worker α), s.workers[t]? = some w → ∃ w', r.1.workers[t]? = some w' ∧
      w'.togo s.shared.model.layers.length ≤ w.togo s.shared.model.layers.length - sched.count t := by
  induction sched with
  | nil =>
    intro s r h
    obtain rfl := Res.ok.inj h
    exact ⟨rfl, rfl, fun t w hw => ⟨w, hw, by simp⟩⟩
  | cons u ts ih =>
    intro s r h
    rw [Batch.run] at h
    obtain ⟨a, ha, h⟩ := Res.bind_eq_ok h
    obtain ⟨b, hb, h⟩ := Res.bind_eq_ok h
    obtain rfl := Res.ok.inj h
    obtain ⟨h1, h2, h3⟩ := ih hb
    unfold Batch.step at ha
    cases hu : s.workers[u]? with
    | none =>
      rw [hu] at ha
      obtain rfl := Res.ok.inj ha
      refine ⟨h1, h2, fun t w hw => ?_⟩
      have : u ≠ t := by rintro rfl; rw [hw] at hu; cases hu
      rw [List.count_cons_of_ne this]
      exact h3 t w hw
    | some v =>
      rw [hu] at ha
      simp only at ha
      obtain ⟨c, hc, ha⟩ := Res.bind_eq_ok ha
      obtain rfl := Res.ok.inj ha
      obtain ⟨g1, g2⟩ := step_togoR (terminate_ok hc)
      simp only [List.length_set] at h2
      simp only at h1 h3
      rw [g1] at h1 h3
      have hlt : u < s.workers.length := (List.getElem?_eq_some_iff.1 hu).1
      refine ⟨h1, h2, fun t w hw => ?_⟩
      by_cases htu : u = t
      · subst htu
        obtain rfl : v = w := Option.some.inj (hu.symm.trans hw)
        obtain ⟨w', hw', e⟩ := h3 u c.1 (by rw [List.getElem?_set_self hlt])
        refine ⟨w', hw', ?_⟩
        rw [List.count_cons_self]
        omega
      · obtain ⟨w', hw', e⟩ := h3 t w (by rw [List.getElem?_set_ne htu]; exact hw)
        rw [List.count_cons_of_ne htu]
        exact ⟨w', hw', e⟩

theorem over_of_fair {E : Env α} {rnd : Nat → Nat → Nat → α} {sched : List Nat} {s : Batch α} {r : Batch α × List (Event α)} (h : s.run E rnd sched = .ok r)
    (hf : ∀ (t : Nat) (w : Worker α), s.workers[t]? = some w → w.togo s.shared.model.layers.length ≤ sched.count t) : r.1.over = true := by
  obtain ⟨h1, h2, h3⟩ := run_togoR sched h
  rw [Batch.over, List.all_eq_true]
  intro v hv
  obtain ⟨t, ht⟩ := List.mem_iff_getElem?.1 hv
  have hlt : t < s.workers.length := h2 ▸ (List.getElem?_eq_some_iff.1 ht).1
  obtain ⟨w', hw', e⟩ := h3 t _ (List.getElem?_eq_getElem hlt)
  obtain rfl := Option.some.inj (ht.symm.trans hw')
  have := hf t _ (List.getElem?_eq_getElem hlt)
  have e0 : v.togo s.shared.model.layers.length = 0 := by omega
  unfold Worker.togo at e0
  have e1 : v.pc.togo s.shared.model.layers.length v.cutoff = 0 := by
    split at e0
    · omega
    · rename_i c _
      have := FirstUse.rank_bounds c
      omega
  have := togo_zero.1 e1
  obtain ⟨c, p, o⟩ := v
  cases p <;> simp [Pc.isDone] at this ⊢

theorem runBatch_fairR {E : Env α} {rnd : Nat → Nat → Nat → α} {p : Hyper α} {B T : Nat} (hp : p.batch = B) (hq : p.threads = T) (hB : B < 2147483648)
    {sh : Shared α} {sched : List Nat} {o : Option (Shared α × List (Event α))} (h : runBatch E rnd p sched sh = .ok o)
    (hf : Fair T (10 * (B * (2 * sh.model.layers.length + 4) + 1)) sched) :
    ∃ q, o = some q ∧ q.1.model.layers.length = sh.model.layers.length := by
  unfold runBatch at h
  obtain ⟨s, hs, h'⟩ := Res.bind_eq_ok h
  obtain ⟨r, hr, hk⟩ := Res.bind_eq_ok h'
  clear h h'
  rw [hp, hq] at hs
  obtain ⟨w, hw, rfl⟩ := startBatch_inv hB hs
  have hn := (run_togoR sched hr).1
  simp only [start] at hn hr
  have ho := over_of_fair hr (by
    intro t v hv
    simp only [List.map_map, List.getElem?_map] at hv
    obtain ⟨u, hu, rfl⟩ := Option.map_eq_some_iff.1 hv
    obtain ⟨h1, h2⟩ := List.getElem?_eq_some_iff.1 hu
    rw [List.getElem_range] at h2
    rw [List.length_range] at h1
    subst h2
    refine le_trans ?_ (hf t h1)
    simp only [Worker.togo, Function.comp, Pc.togo, Pc.slots, Nat.sub_zero]
    exact Nat.mul_le_mul_left _ (Nat.succ_le_succ (Nat.mul_le_mul_right _ (by omega))))
  rw [if_pos ho] at hk
  obtain ⟨M, hM, h⟩ := Res.bind_eq_ok hk
  obtain rfl := Res.ok.inj h
  exact ⟨_, rfl, (applyBatch_get hM).1.trans hn⟩

theorem runBatches_fairR {E : Env α} {rnd : Nat → Nat → Nat → α} {p : Hyper α} {B T L : Nat} (hp : p.batch = B) (hq : p.threads = T) (hB : B < 2147483648)
    (scheds : List (List Nat))
    (hf : ∀ sched ∈ scheds, Fair T (10 * (B * (2 * L + 4) + 1)) sched) : ∀ {sh : Shared α}, sh.model.layers.length = L →
    ∀ {o : Option (Shared α × List (Event α))}, runBatches E rnd p scheds sh = .ok o → ∃ q, o = some q ∧ q.1.model.layers.length = L := by
  induction scheds with
  | nil =>
    intro sh hL o h
    obtain rfl := Res.ok.inj h
    exact ⟨_, rfl, hL⟩
  | cons c cs ih =>
    intro sh hL o h
    rw [runBatches] at h
    obtain ⟨r, hr, h⟩ := Res.bind_eq_ok h
    obtain ⟨q, rfl, hq'⟩ := runBatch_fairR hp hq hB hr (by rw [hL]; exact hf c (by simp))
    obtain ⟨r', hr', h⟩ := Res.bind_eq_ok h
    obtain ⟨q', rfl, hq''⟩ := ih (fun s hs => hf s (by simp [hs])) (hq'.trans hL) hr'
    obtain rfl := Res.ok.inj h
    exact ⟨_, rfl, hq''⟩

theorem runEpoch_fairR {E : Env α} {rnd : Nat → Nat → Nat → α} {p : Hyper α} {T L size : Nat} (hq : p.threads = T) (hB : p.batch < 2147483648)
    {scheds : List (List Nat)} (hn : ∀ n, numBatches size p.batch = .ok n → scheds.length = n.toNat)
    (hf : ∀ sched ∈ scheds, Fair T (10 * (p.batch.toNat * (2 * L + 4) + 1)) sched)
    {sh : Shared α} (hL : sh.model.layers.length = L) {o : Option (Shared α × List (Event α))} (h : runEpoch E rnd p size scheds sh = .ok o) :
    ∃ q, o = some q ∧ q.1.model.layers.length = L := by
  unfold runEpoch at h
  split at h
  · simp at h
  · obtain ⟨w, -, h⟩ := Res.bind_eq_ok h
    split at h
    · simp at h
    · rename_i h0
      obtain ⟨n, hn', h⟩ := Res.bind_eq_ok h
      rw [if_pos (hn n hn')] at h
      exact runBatches_fairR (by omega) hq (by omega) scheds hf (by exact hL) h

theorem train_fairR {E : Env α} {rnd : Nat → Nat → Nat → α} {p : Hyper α} {T size : Nat} (hq : p.threads = T) (hB : p.batch < 2147483648)
    {epochs : List (List (List Nat) × List (Sample α))} (he : epochs.length = p.epochs.toNat) {M : Model α}
    (hn : ∀ e ∈ epochs, ∀ n, numBatches size p.batch = .ok n → e.1.length = n.toNat)
    (hf : ∀ e ∈ epochs, ∀ sched ∈ e.1, Fair T (10 * (p.batch.toNat * (2 * M.layers.length + 4) + 1)) sched)
    {o : Option (Model α)} (h : train E rnd p size epochs M = .ok o) : ∃ M', o = some M' := by
  unfold train at h
  obtain ⟨-, -, h'⟩ := Res.bind_eq_ok h
  rw [if_pos he] at h'
  clear he h
  have : ∀ (M0 : Model α), M0.layers.length = M.layers.length → epochs.foldlM (fun (M : Option (Model α)) (e : List (List Nat) × List (Sample α)) =>
      match M with
      | none => (Res.ok none : Res (Option (Model α)))
      | some M => do
        let r ← runEpoch E rnd p size e.1 (⟨M, e.2, 0⟩ : Shared α)
        Res.ok (r.map fun (q : Shared α × List (Event α)) => q.1.model)) (some M0) = .ok o →
      ∃ M', o = some M' := by
    clear h'
    induction epochs with
    | nil =>
      intro M0 h0 h
      obtain rfl := Res.ok.inj h
      exact ⟨_, rfl⟩
    | cons e es ih =>
      intro M0 h0 h
      rw [List.foldlM_cons] at h
      obtain ⟨r, hr, h⟩ := Res.bind_eq_ok h
      obtain ⟨r', hr', hr⟩ := Res.bind_eq_ok hr
      obtain ⟨q, rfl, hq'⟩ := runEpoch_fairR hq hB (hn e (by simp)) (hf e (by simp)) (by exact h0) hr'
      obtain rfl := Res.ok.inj hr
      exact ih (fun e he => hn e (by simp [he])) (fun e he => hf e (by simp [he])) q.1.model hq' h
  exact this _ (by simp [Model.setBatchSize]) h'

end Race
end Cnn
