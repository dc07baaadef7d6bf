import Verif.Lemmas.Progress
import Verif.Lemmas.ShapeRun
import Verif.Lemmas.Race
import Verif.Spec.Fair
/-!
# How many steps a thread makes (C94)
-/
set_option linter.unusedSectionVars false
namespace Cnn
variable {α : Type} [Zero α] [One α] [Add α] [Sub α] [Mul α] [Div α] [Neg α]

namespace Train
open Model

/-- The slots a thread has yet to take, its loop ending at `c`. -/
def Pc.slots (c : Nat) : Pc α → Nat
  | .fetch b => c - b
  | .forward b _ _ _ => c - (b + 1)
  | .label b _ _ => c - (b + 1)
  | .backward b _ _ _ _ => c - (b + 1)
  | .done _ => 0

/-- The steps a thread has yet to make if the source does not run dry; `n` layers. -/
def Pc.togo (n c : Nat) (p : Pc α) : Nat :=
  p.slots c * (2 * n + 4) + match p with
    | .fetch _ => 1
    | .forward _ _ i _ => (n - i) + n + 4
    | .label _ _ _ => n + 3
    | .backward _ _ _ k _ => k + 2
    | .done _ => 0

theorem togo_zero {n c : Nat} {p : Pc α} : p.togo n c = 0 ↔ p.isDone = true := by
  cases p <;> simp [Pc.togo, Pc.isDone, Pc.slots]

/-- A step brings a thread nearer to its end, by one if the source has samples. -/
theorem step_togo {E : Env α} {t c : Nat} {sh : Shared α} {p : Pc α} {a : Pc α × Shared α × List (Event α)} (h : p.step E t c sh = .ok a) :
    a.2.1.model.layers.length = sh.model.layers.length ∧
    a.1.togo sh.model.layers.length c ≤ p.togo sh.model.layers.length c - 1 ∧
    (p.slots c ≤ sh.source.length → a.1.togo sh.model.layers.length c = p.togo sh.model.layers.length c - 1 ∧
      a.2.1.source.length + p.slots c = sh.source.length + a.1.slots c) := by
  cases p with
  | fetch slot =>
    simp only [Pc.step] at h
    split at h
    · rename_i hlt
      split at h
      · rename_i hs
        obtain rfl := Res.ok.inj h
        refine ⟨rfl, by simp [Pc.togo, Pc.slots], ?_⟩
        intro hc
        rw [hs] at hc
        simp only [Pc.slots, List.length_nil] at hc
        omega
      · rename_i x rest hs
        obtain ⟨s', _, h⟩ := Res.bind_eq_ok h
        obtain rfl := Res.ok.inj h
        have e : c - slot = c - (slot + 1) + 1 := by omega
        have e1 : (Pc.forward slot x 0 s').togo sh.model.layers.length c = (Pc.fetch slot : Pc α).togo sh.model.layers.length c - 1 := by
          simp only [Pc.togo, Pc.slots]
          rw [e, Nat.add_mul]
          omega
        refine ⟨rfl, e1.le, fun _ => ⟨e1, ?_⟩⟩
        simp only [Pc.slots, hs, List.length_cons]
        omega
    · rename_i hlt
      obtain rfl := Res.ok.inj h
      refine ⟨rfl, by simp [Pc.togo, Pc.slots], fun _ => ⟨?_, ?_⟩⟩
      · simp only [Pc.togo, Pc.slots, show c - slot = 0 by omega]
        omega
      · simp only [Pc.slots, show c - slot = 0 by omega]
  | done slot =>
    obtain rfl := Res.ok.inj h
    exact ⟨rfl, by simp [Pc.togo, Pc.slots], fun _ => ⟨by simp [Pc.togo, Pc.slots], rfl⟩⟩
  | forward slot x i s1 =>
    simp only [Pc.step] at h
    split at h
    · obtain ⟨s', hs', h⟩ := Res.bind_eq_ok h
      obtain rfl := Res.ok.inj h
      refine ⟨(forwardStep_label hs').2.2, ?_, fun _ => ⟨?_, rfl⟩⟩ <;>
      · simp only [Pc.togo, Pc.slots]
        omega
    · obtain ⟨s', hs', h⟩ := Res.bind_eq_ok h
      obtain rfl := Res.ok.inj h
      refine ⟨rfl, ?_, fun _ => ⟨?_, rfl⟩⟩ <;>
      · simp only [Pc.togo, Pc.slots]
        omega
  | label slot x res =>
    simp only [Pc.step] at h
    obtain ⟨s', hs', h⟩ := Res.bind_eq_ok h
    obtain rfl := Res.ok.inj h
    refine ⟨?_, ?_, fun _ => ⟨?_, rfl⟩⟩
    · rw [(backwardBegin_inv hs').2.1]; simp
    all_goals
      simp only [Pc.togo, Pc.slots]
      omega
  | backward slot x res k d =>
    cases k with
    | zero =>
      obtain rfl := Res.ok.inj h
      refine ⟨rfl, ?_, fun _ => ⟨?_, rfl⟩⟩ <;>
      · simp only [Pc.togo, Pc.slots]
        omega
    | succ i =>
      simp only [Pc.step] at h
      obtain ⟨s', hs', h⟩ := Res.bind_eq_ok h
      obtain rfl := Res.ok.inj h
      refine ⟨(backwardStep_label hs').2.2, ?_, fun _ => ⟨?_, rfl⟩⟩ <;>
      · simp only [Pc.togo, Pc.slots]
        omega

/-- The slots all threads have yet to take. -/
def slotsLeft (ws : List (Nat × Pc α)) : Nat := (ws.map fun w => w.2.slots w.1).sum

theorem slots_le {ws : List (Nat × Pc α)} {t : Nat} {w : Nat × Pc α} (h : ws[t]? = some w) : w.2.slots w.1 ≤ slotsLeft ws :=
  List.single_le_sum (by simp) _ (List.mem_map.2 ⟨w, List.mem_of_getElem? h, rfl⟩)

/-- After a schedule each thread is nearer to its end by its number of steps. -/
theorem run_togo {E : Env α} (sched : List Nat) : ∀ {s : Batch α} {r : Batch α × List (Event α)}, s.run E sched = .ok r →
    r.1.shared.model.layers.length = s.shared.model.layers.length ∧ r.1.workers.length = s.workers.length ∧
    ∀ (t : Nat) (w : Nat × Pc α), s.workers[t]? = some w → ∃ p, r.1.workers[t]? = some (w.1, p) ∧
      p.togo s.shared.model.layers.length w.1 ≤ w.2.togo s.shared.model.layers.length w.1 - sched.count t ∧
      (slotsLeft s.workers ≤ s.shared.source.length →
        p.togo s.shared.model.layers.length w.1 = w.2.togo s.shared.model.layers.length w.1 - sched.count t) := by
  induction sched with
  | nil =>
    intro s r h
    obtain rfl := Res.ok.inj h
    exact ⟨rfl, rfl, fun t w hw => ⟨w.2, hw, by simp, by simp⟩⟩
  | cons u ts ih =>
    intro s r h
    rw [Batch.run] at h
    obtain ⟨a, ha, h⟩ := Res.bind_eq_ok h
    obtain ⟨b, hb, h⟩ := Res.bind_eq_ok h
    obtain rfl := Res.ok.inj h
    obtain ⟨h1, h2, h3⟩ := ih hb
    unfold Batch.step at ha
    cases hu : s.workers[u]? with
    | none =>
      rw [hu] at ha
      obtain rfl := Res.ok.inj ha
      refine ⟨h1, h2, fun t w hw => ?_⟩
      have : u ≠ t := by rintro rfl; rw [hw] at hu; cases hu
      rw [List.count_cons_of_ne this]
      exact h3 t w hw
    | some v =>
      rw [hu] at ha
      simp only at ha
      obtain ⟨c, hc, ha⟩ := Res.bind_eq_ok ha
      obtain rfl := Res.ok.inj ha
      obtain ⟨g1, g2, g3⟩ := step_togo (terminate_ok hc)
      simp only [List.length_set] at h2
      simp only at h1 h3
      rw [g1] at h1 h3
      have hlt : u < s.workers.length := (List.getElem?_eq_some_iff.1 hu).1
      have hvu : s.workers[u] = v := (List.getElem?_eq_some_iff.1 hu).2
      have keep : slotsLeft s.workers ≤ s.shared.source.length → slotsLeft (s.workers.set u (v.1, c.1)) ≤ c.2.1.source.length := by
        intro hs
        obtain ⟨-, g4⟩ := g3 (le_trans (slots_le hu) hs)
        have := sum_set (s.workers.map fun w => w.2.slots w.1) u (c.1.slots v.1) (by simpa using hlt)
        simp only [List.getElem_map, hvu] at this
        unfold slotsLeft at hs ⊢
        simp only [List.map_set]
        omega
      refine ⟨h1, h2, fun t w hw => ?_⟩
      by_cases htu : u = t
      · subst htu
        obtain rfl : v = w := Option.some.inj (hu.symm.trans hw)
        obtain ⟨p, hp, hp1, hp2⟩ := h3 u (v.1, c.1) (by rw [List.getElem?_set_self hlt])
        simp only at hp hp1 hp2
        refine ⟨p, hp, ?_, fun hs => ?_⟩
        · rw [List.count_cons_self]
          omega
        · obtain ⟨g4, -⟩ := g3 (le_trans (slots_le hu) hs)
          rw [List.count_cons_self, hp2 (keep hs), g4]
          omega
      · obtain ⟨p, hp, hp1, hp2⟩ := h3 t w (by rw [List.getElem?_set_ne htu]; exact hw)
        rw [List.count_cons_of_ne htu]
        exact ⟨p, hp, hp1, fun hs => hp2 (keep hs)⟩

theorem over_iff {s : Batch α} : s.over = true ↔ ∀ (t : Nat) (w : Nat × Pc α), s.workers[t]? = some w → w.2.isDone = true := by
  rw [Batch.over, List.all_eq_true]
  constructor
  · intro h t w hw
    have := h w (List.mem_of_getElem? hw)
    obtain ⟨c, p⟩ := w
    cases p <;> simp [Pc.isDone] at this ⊢
  · intro h w hw
    obtain ⟨t, ht⟩ := List.mem_iff_getElem?.1 hw
    have := h t w ht
    obtain ⟨c, p⟩ := w
    cases p <;> simp [Pc.isDone] at this ⊢

/-- A batch is over when each thread has made enough steps, and not before unless the source has run dry. -/
theorem run_over {E : Env α} {sched : List Nat} {s : Batch α} {r : Batch α × List (Event α)} (h : s.run E sched = .ok r) :
    ((∀ (t : Nat) (w : Nat × Pc α), s.workers[t]? = some w → w.2.togo s.shared.model.layers.length w.1 ≤ sched.count t) → r.1.over = true) ∧
    (slotsLeft s.workers ≤ s.shared.source.length → r.1.over = true →
      ∀ (t : Nat) (w : Nat × Pc α), s.workers[t]? = some w → w.2.togo s.shared.model.layers.length w.1 ≤ sched.count t) := by
  obtain ⟨h1, h2, h3⟩ := run_togo sched h
  constructor
  · intro hf
    rw [over_iff]
    intro t w hw
    have ht : t < s.workers.length := h2 ▸ (List.getElem?_eq_some_iff.1 hw).1
    obtain ⟨p, hp, hp1, -⟩ := h3 t _ (List.getElem?_eq_getElem ht)
    rw [hw] at hp
    obtain rfl := Option.some.inj hp
    have := hf t _ (List.getElem?_eq_getElem ht)
    rw [← togo_zero (n := s.shared.model.layers.length) (c := s.workers[t].1)]
    show Pc.togo _ _ p = 0
    omega
  · intro hs ho t w hw
    obtain ⟨p, hp, -, hp2⟩ := h3 t w hw
    have e1 : p.isDone = true := (over_iff.1 ho) t _ hp
    have e2 := (togo_zero (n := s.shared.model.layers.length) (c := w.1)).2 e1
    have e3 := hp2 hs
    omega

theorem sum_shares (B w : Nat) : ∀ T : Nat, ((List.range T).map fun t => min ((t + 1) * w) B - t * w).sum = min (T * w) B
  | 0 => by simp
  | T + 1 => by
    rw [List.range_succ, List.map_append, List.sum_append, sum_shares B w T]
    simp only [List.map_cons, List.map_nil, List.sum_cons, List.sum_nil]
    have : (T + 1) * w = T * w + w := Nat.succ_mul T w
    omega

/-- The state in which the threads of a batch start. -/
theorem start_togo {B T w : Nat} {t : Nat} {v : Nat × Pc α}
    (h : ((List.range T).map fun t => (min ((t + 1) * w) B, (Pc.fetch (t * w) : Pc α)))[t]? = some v) (n : Nat) :
    t < T ∧ v.2.togo n v.1 = (min ((t + 1) * w) B - t * w) * (2 * n + 4) + 1 := by
  rw [List.getElem?_map] at h
  obtain ⟨u, hu, rfl⟩ := Option.map_eq_some_iff.1 h
  obtain ⟨h1, h2⟩ := List.getElem?_eq_some_iff.1 hu
  rw [List.getElem_range] at h2
  rw [List.length_range] at h1
  subst h2
  exact ⟨h1, rfl⟩

/-- A batch does not wait for ever. -/
theorem runBatch_fair {E : Env α} {p : Hyper α} {B T : Nat} (hp : p.batch = B) (hq : p.threads = T) (hB : B < 2147483648) {sh : Shared α} {sched : List Nat}
    {o : Option (Shared α × List (Event α))} (h : runBatch E p sched sh = .ok o) :
    ∃ w : Nat, workCount B T = .ok w ∧
      (Fair T (w * (2 * sh.model.layers.length + 4) + 1) sched ∨
        (∀ t < T, (min ((t + 1) * w) B - t * w) * (2 * sh.model.layers.length + 4) + 1 ≤ sched.count t) →
        ∃ q, o = some q ∧ q.1.model.layers.length = sh.model.layers.length) ∧
      (B ≤ sh.source.length → o ≠ none → ∀ t < T, (min ((t + 1) * w) B - t * w) * (2 * sh.model.layers.length + 4) + 1 ≤ sched.count t) := by
  unfold runBatch at h
  obtain ⟨s, hs, h'⟩ := Res.bind_eq_ok h
  obtain ⟨r, hr, hk⟩ := Res.bind_eq_ok h'
  clear h h'
  rw [hp, hq] at hs
  obtain ⟨w, hw, rfl⟩ := startBatch_inv hB hs
  obtain ⟨h1, h2⟩ := run_over hr
  have hn := (run_togo sched hr).1
  simp only at h1 h2 hn
  refine ⟨w, hw, fun hf => ?_, fun hfull ho t ht => ?_⟩
  · have hf' : ∀ t < T, (min ((t + 1) * w) B - t * w) * (2 * sh.model.layers.length + 4) + 1 ≤ sched.count t := by
      obtain hf | hf := hf
      · intro t ht
        refine le_trans (Nat.succ_le_succ (Nat.mul_le_mul_right _ ?_)) (hf t ht)
        have : (t + 1) * w = t * w + w := Nat.succ_mul t w
        omega
      · exact hf
    have ho := h1 (fun t v hv => by
      obtain ⟨ht, e⟩ := start_togo hv sh.model.layers.length
      rw [e]
      exact hf' t ht)
    rw [if_pos ho] at hk
    obtain ⟨M, hM, h⟩ := Res.bind_eq_ok hk
    obtain rfl := Res.ok.inj h
    exact ⟨_, rfl, (applyBatch_get hM).1.trans hn⟩
  · have ho : r.1.over = true := by
      by_contra hc
      rw [if_neg hc] at hk
      exact ho (Res.ok.inj hk).symm
    have hv : ((List.range T).map fun t => (min ((t + 1) * w) B, (Pc.fetch (t * w) : Pc α)))[t]? = some (min ((t + 1) * w) B, Pc.fetch (t * w)) := by
      rw [List.getElem?_map, List.getElem?_range ht]
      rfl
    refine h2 ?_ ho t _ hv
    unfold slotsLeft
    rw [List.map_map]
    refine le_trans (le_of_eq_of_le (sum_shares B w T) (Nat.min_le_right _ _)) hfull

theorem fair_range {B T w L : Nat} {sched : List Nat} (h : Fair T (B * (2 * L + 4) + 1) sched) :
    ∀ t < T, (min ((t + 1) * w) B - t * w) * (2 * L + 4) + 1 ≤ sched.count t := by
  intro t ht
  exact le_trans (Nat.succ_le_succ (Nat.mul_le_mul_right _ (by omega))) (h t ht)

theorem runBatches_fair {E : Env α} {p : Hyper α} {B T L : Nat} (hp : p.batch = B) (hq : p.threads = T) (hB : B < 2147483648) (scheds : List (List Nat))
    (hf : ∀ sched ∈ scheds, Fair T (B * (2 * L + 4) + 1) sched) : ∀ {sh : Shared α}, sh.model.layers.length = L →
    ∀ {o : Option (Shared α × List (Event α))}, runBatches E p scheds sh = .ok o → ∃ q, o = some q ∧ q.1.model.layers.length = L := by
  induction scheds with
  | nil =>
    intro sh hL o h
    obtain rfl := Res.ok.inj h
    exact ⟨_, rfl, hL⟩
  | cons c cs ih =>
    intro sh hL o h
    rw [runBatches] at h
    obtain ⟨r, hr, h⟩ := Res.bind_eq_ok h
    obtain ⟨w, -, h1, -⟩ := runBatch_fair hp hq hB hr
    obtain ⟨q, rfl, hq'⟩ := h1 (Or.inr (by rw [hL]; exact fair_range (hf c (by simp))))
    obtain ⟨r', hr', h⟩ := Res.bind_eq_ok h
    obtain ⟨q', rfl, hq''⟩ := ih (fun s hs => hf s (by simp [hs])) (hq'.trans hL) hr'
    obtain rfl := Res.ok.inj h
    exact ⟨_, rfl, hq''⟩

theorem runEpoch_fair {E : Env α} {p : Hyper α} {T L size : Nat} (hq : p.threads = T) (hB : p.batch < 2147483648) {scheds : List (List Nat)}
    (hn : ∀ n, numBatches size p.batch = .ok n → scheds.length = n.toNat) (hf : ∀ sched ∈ scheds, Fair T (p.batch.toNat * (2 * L + 4) + 1) sched)
    {sh : Shared α} (hL : sh.model.layers.length = L) {o : Option (Shared α × List (Event α))} (h : runEpoch E p size scheds sh = .ok o) :
    ∃ q, o = some q ∧ q.1.model.layers.length = L := by
  unfold runEpoch at h
  split at h
  · simp at h
  · obtain ⟨w, -, h⟩ := Res.bind_eq_ok h
    split at h
    · simp at h
    · rename_i h0
      obtain ⟨n, hn', h⟩ := Res.bind_eq_ok h
      rw [if_pos (hn n hn')] at h
      exact runBatches_fair (by omega) hq (by omega) scheds hf (by exact hL) h

theorem train_fair {E : Env α} {p : Hyper α} {T size : Nat} (hq : p.threads = T) (hB : p.batch < 2147483648)
    {epochs : List (List (List Nat) × List (Sample α))} (he : epochs.length = p.epochs.toNat) {M : Model α}
    (hn : ∀ e ∈ epochs, ∀ n, numBatches size p.batch = .ok n → e.1.length = n.toNat)
    (hf : ∀ e ∈ epochs, ∀ sched ∈ e.1, Fair T (p.batch.toNat * (2 * M.layers.length + 4) + 1) sched)
    {o : Option (Model α)} (h : train E p size epochs M = .ok o) : ∃ M', o = some M' ∧ M'.layers.length = M.layers.length := by
  unfold train at h
  obtain ⟨-, -, h'⟩ := Res.bind_eq_ok h
  rw [if_pos he] at h'
  clear he h
  have : ∀ (M0 : Model α), M0.layers.length = M.layers.length → epochs.foldlM (epochStep E p size) (some M0) = .ok o →
      ∃ M', o = some M' ∧ M'.layers.length = M.layers.length := by
    clear h'
    induction epochs with
    | nil =>
      intro M0 h0 h
      obtain rfl := Res.ok.inj h
      exact ⟨_, rfl, h0⟩
    | cons e es ih =>
      intro M0 h0 h
      rw [List.foldlM_cons] at h
      obtain ⟨r, hr, h⟩ := Res.bind_eq_ok h
      unfold epochStep at hr
      obtain ⟨r', hr', hr⟩ := Res.bind_eq_ok hr
      obtain ⟨q, rfl, hq'⟩ := runEpoch_fair hq hB (hn e (by simp)) (hf e (by simp)) (by exact h0) hr'
      obtain rfl := Res.ok.inj hr
      exact ih (fun e he => hn e (by simp [he])) (fun e he => hf e (by simp [he])) q.1.model hq' h
  exact this _ (by simp [Model.setBatchSize]) h'

end Train

namespace Overlap
open Model Train

/-- As `Pc.togo`; a call takes two steps. -/
def Worker.togo (n : Nat) (w : Worker α) : Nat := 2 * w.pc.togo n w.cutoff - if w.seen.isSome then 1 else 0

/-- The thread gets on. -/
def goes (t : Nat) (a : Nat × Act α) : Bool := match a with
  | (u, .next) => u == t
  | _ => false

theorem setBody_length (M : Model α) (i : Nat) (b : Body α) : (M.setBody i b).layers.length = M.layers.length := by
  simp [setBody]

theorem step_togo' {E : Env α} {s : Batch α} {a : Nat × Act α} {r : Batch α × List (Event α)} (h : s.step E a.1 a.2 = .ok r) :
    r.1.shared.model.layers.length = s.shared.model.layers.length ∧ r.1.workers.length = s.workers.length ∧
    ∀ (t : Nat) (w : Worker α), s.workers[t]? = some w → ∃ w', r.1.workers[t]? = some w' ∧
      w'.togo s.shared.model.layers.length ≤ w.togo s.shared.model.layers.length - if goes t a then 1 else 0 := by
  obtain ⟨u, a⟩ := a
  simp only at h
  have same : ∀ {sh' : Shared α} (hsh : sh'.model.layers.length = s.shared.model.layers.length) (v w' : Worker α), s.workers[u]? = some v →
      w'.togo s.shared.model.layers.length ≤ v.togo s.shared.model.layers.length - (if goes u (u, a) then 1 else 0) →
      sh'.model.layers.length = s.shared.model.layers.length ∧ (s.workers.set u w').length = s.workers.length ∧
      ∀ (t : Nat) (w : Worker α), s.workers[t]? = some w → ∃ w'', (s.workers.set u w')[t]? = some w'' ∧
        w''.togo s.shared.model.layers.length ≤ w.togo s.shared.model.layers.length - if goes t (u, a) then 1 else 0 := by
    intro sh' hsh v w' hv hle
    refine ⟨hsh, by simp, fun t w hw => ?_⟩
    by_cases e : u = t
    · subst e
      obtain rfl := Option.some.inj (hv.symm.trans hw)
      exact ⟨w', by rw [List.getElem?_set_self (List.getElem?_eq_some_iff.1 hv).1], hle⟩
    · refine ⟨w, by rw [List.getElem?_set_ne e]; exact hw, ?_⟩
      have : goes t (u, a) = false := by
        cases a <;> simp [goes, e]
      simp [this]
  unfold Batch.step at h
  cases hu : s.workers[u]? with
  | none =>
    rw [hu] at h
    obtain rfl := Res.ok.inj h
    refine ⟨rfl, rfl, fun t w hw => ⟨w, hw, ?_⟩⟩
    have : u ≠ t := by rintro rfl; rw [hw] at hu; cases hu
    have : goes t (u, a) = false := by
      cases a <;> simp [goes, this]
    simp [this]
  | some v =>
    rw [hu] at h
    simp only at h
    have self : ∀ (t : Nat) (w : Worker α), s.workers[t]? = some w → a ≠ .next → ∃ w', s.workers[t]? = some w' ∧
        w'.togo s.shared.model.layers.length ≤ w.togo s.shared.model.layers.length - if goes t (u, a) then 1 else 0 := by
      intro t w hw ha
      refine ⟨w, hw, ?_⟩
      have : goes t (u, a) = false := by
        cases a <;> simp [goes] at ha ⊢
      simp [this]
    have hg : goes u (u, (Act.next : Act α)) = true := by simp [goes]
    split at h
    · obtain ⟨c, hc, h⟩ := Res.bind_eq_ok h
      obtain rfl := Res.ok.inj h
      obtain ⟨g1, g2, -⟩ := step_togo (terminate_ok hc)
      refine same g1 v _ hu ?_
      simp only [Worker.togo, hg]
      simp only [Option.isSome_none, Bool.false_eq_true, if_false, if_true]
      split <;> omega
    · rename_i hseen
      obtain rfl := Res.ok.inj h
      refine same rfl v _ hu ?_
      simp only [Worker.togo, hg, hseen]
      simp
    · rename_i c B hc hseen
      obtain ⟨d, hd, h⟩ := Res.bind_eq_ok h
      obtain rfl := Res.ok.inj h
      have hd := terminate_ok hd
      unfold finish at hd
      obtain ⟨q, hq, hd⟩ := Res.bind_eq_ok hd
      obtain ⟨l, hl, hd⟩ := Res.bind_eq_ok hd
      obtain rfl := Res.ok.inj hd
      obtain ⟨g1, g2, -⟩ := step_togo hq
      simp only [setBody_length] at g1 g2
      refine same (setBody_length _ _ _) v _ hu ?_
      simp only [Worker.togo, hg, hseen]
      simp
      omega
    · rename_i hseen
      obtain rfl := Res.ok.inj h
      refine same rfl v _ hu ?_
      simp only [Worker.togo, hseen]
      simp [goes]
    · obtain rfl := Res.ok.inj h
      exact ⟨setBody_length _ _ _, rfl, fun t w hw => self t w hw (by simp)⟩
    · rename_i h1 h2 h3 h4 h5
      obtain rfl := Res.ok.inj h
      refine ⟨rfl, rfl, fun t w hw => self t w hw ?_⟩
      rintro rfl
      cases hc : callAt s.shared.model v.pc with
      | none => exact h1 hc rfl
      | some c =>
        cases hs : v.seen with
        | none => exact h2 c hc hs rfl
        | some B => exact h3 c B hc hs rfl

theorem run_togo' {E : Env α} (sched : List (Nat × Act α)) : ∀ {s : Batch α} {r : Batch α × List (Event α)}, s.run E sched = .ok r →
    r.1.shared.model.layers.length = s.shared.model.layers.length ∧ r.1.workers.length = s.workers.length ∧
    ∀ (t : Nat) (w : Worker α), s.workers[t]? = some w → ∃ w', r.1.workers[t]? = some w' ∧
      w'.togo s.shared.model.layers.length ≤ w.togo s.shared.model.layers.length - sched.countP (goes t) := by
  induction sched with
  | nil =>
    intro s r h
    obtain rfl := Res.ok.inj h
    exact ⟨rfl, rfl, fun t w hw => ⟨w, hw, by simp⟩⟩
  | cons a as ih =>
    intro s r h
    rw [Batch.run] at h
    obtain ⟨b, hb, h⟩ := Res.bind_eq_ok h
    obtain ⟨c, hc, h⟩ := Res.bind_eq_ok h
    obtain rfl := Res.ok.inj h
    obtain ⟨g1, g2, g3⟩ := step_togo' hb
    obtain ⟨h1, h2, h3⟩ := ih hc
    refine ⟨h1.trans g1, h2.trans g2, fun t w hw => ?_⟩
    obtain ⟨w', hw', e1⟩ := g3 t w hw
    obtain ⟨w'', hw'', e2⟩ := h3 t w' hw'
    rw [g1] at e2
    refine ⟨w'', hw'', ?_⟩
    rw [List.countP_cons]
    split <;> simp_all <;> omega

theorem over_of_fair {E : Env α} {sched : List (Nat × Act α)} {s : Batch α} {r : Batch α × List (Event α)} (h : s.run E sched = .ok r)
    (hf : ∀ (t : Nat) (w : Worker α), s.workers[t]? = some w → w.togo s.shared.model.layers.length ≤ sched.countP (goes t)) : r.1.over = true := by
  obtain ⟨h1, h2, h3⟩ := run_togo' sched h
  rw [Batch.over, List.all_eq_true]
  intro v hv
  obtain ⟨t, ht⟩ := List.mem_iff_getElem?.1 hv
  have hlt : t < s.workers.length := h2 ▸ (List.getElem?_eq_some_iff.1 ht).1
  obtain ⟨w', hw', e⟩ := h3 t _ (List.getElem?_eq_getElem hlt)
  obtain rfl := Option.some.inj (ht.symm.trans hw')
  have := hf t _ (List.getElem?_eq_getElem hlt)
  have e0 : v.togo s.shared.model.layers.length = 0 := by omega
  unfold Worker.togo at e0
  have e1 : v.pc.togo s.shared.model.layers.length v.cutoff = 0 := by split at e0 <;> omega
  have := togo_zero.1 e1
  obtain ⟨c, p, o⟩ := v
  cases p <;> simp [Pc.isDone] at this ⊢

theorem runBatch_fair' {E : Env α} {p : Hyper α} {B T : Nat} (hp : p.batch = B) (hq : p.threads = T) (hB : B < 2147483648) {sh : Shared α}
    {sched : List (Nat × Act α)} {o : Option (Shared α × List (Event α))} (h : runBatch E p sched sh = .ok o)
    (hf : FairActs T (2 * (B * (2 * sh.model.layers.length + 4) + 1)) sched) :
    ∃ q, o = some q ∧ q.1.model.layers.length = sh.model.layers.length := by
  unfold runBatch at h
  obtain ⟨s, hs, h'⟩ := Res.bind_eq_ok h
  obtain ⟨r, hr, hk⟩ := Res.bind_eq_ok h'
  clear h h'
  rw [hp, hq] at hs
  obtain ⟨w, hw, rfl⟩ := startBatch_inv hB hs
  have hn := (run_togo' sched hr).1
  simp only at hn
  have ho := over_of_fair hr (by
    intro t v hv
    simp only [List.map_map, List.getElem?_map] at hv
    obtain ⟨u, hu, rfl⟩ := Option.map_eq_some_iff.1 hv
    obtain ⟨h1, h2⟩ := List.getElem?_eq_some_iff.1 hu
    rw [List.getElem_range] at h2
    rw [List.length_range] at h1
    subst h2
    refine le_trans ?_ (hf t h1)
    simp only [Worker.togo, Function.comp, Pc.togo, Pc.slots]
    simp only [Option.isSome_none, Bool.false_eq_true, if_false, Nat.sub_zero]
    exact Nat.mul_le_mul_left _ (Nat.succ_le_succ (Nat.mul_le_mul_right _ (by omega))))
  rw [if_pos ho] at hk
  obtain ⟨M, hM, h⟩ := Res.bind_eq_ok hk
  obtain rfl := Res.ok.inj h
  exact ⟨_, rfl, (applyBatch_get hM).1.trans hn⟩

theorem runBatches_fair' {E : Env α} {p : Hyper α} {B T L : Nat} (hp : p.batch = B) (hq : p.threads = T) (hB : B < 2147483648)
    (scheds : List (List (Nat × Act α)))
    (hf : ∀ sched ∈ scheds, FairActs T (2 * (B * (2 * L + 4) + 1)) sched) : ∀ {sh : Shared α}, sh.model.layers.length = L →
    ∀ {o : Option (Shared α × List (Event α))}, runBatches E p scheds sh = .ok o → ∃ q, o = some q ∧ q.1.model.layers.length = L := by
  induction scheds with
  | nil =>
    intro sh hL o h
    obtain rfl := Res.ok.inj h
    exact ⟨_, rfl, hL⟩
  | cons c cs ih =>
    intro sh hL o h
    rw [runBatches] at h
    obtain ⟨r, hr, h⟩ := Res.bind_eq_ok h
    obtain ⟨q, rfl, hq'⟩ := runBatch_fair' hp hq hB hr (by rw [hL]; exact hf c (by simp))
    obtain ⟨r', hr', h⟩ := Res.bind_eq_ok h
    obtain ⟨q', rfl, hq''⟩ := ih (fun s hs => hf s (by simp [hs])) (hq'.trans hL) hr'
    obtain rfl := Res.ok.inj h
    exact ⟨_, rfl, hq''⟩

theorem runEpoch_fair' {E : Env α} {p : Hyper α} {T L size : Nat} (hq : p.threads = T) (hB : p.batch < 2147483648) {scheds : List (List (Nat × Act α))}
    (hn : ∀ n, numBatches size p.batch = .ok n → scheds.length = n.toNat)
    (hf : ∀ sched ∈ scheds, FairActs T (2 * (p.batch.toNat * (2 * L + 4) + 1)) sched)
    {sh : Shared α} (hL : sh.model.layers.length = L) {o : Option (Shared α × List (Event α))} (h : runEpoch E p size scheds sh = .ok o) :
    ∃ q, o = some q ∧ q.1.model.layers.length = L := by
  unfold runEpoch at h
  split at h
  · simp at h
  · obtain ⟨w, -, h⟩ := Res.bind_eq_ok h
    split at h
    · simp at h
    · rename_i h0
      obtain ⟨n, hn', h⟩ := Res.bind_eq_ok h
      rw [if_pos (hn n hn')] at h
      exact runBatches_fair' (by omega) hq (by omega) scheds hf (by exact hL) h

theorem train_fair' {E : Env α} {p : Hyper α} {T size : Nat} (hq : p.threads = T) (hB : p.batch < 2147483648)
    {epochs : List (List (List (Nat × Act α)) × List (Sample α))} (he : epochs.length = p.epochs.toNat) {M : Model α}
    (hn : ∀ e ∈ epochs, ∀ n, numBatches size p.batch = .ok n → e.1.length = n.toNat)
    (hf : ∀ e ∈ epochs, ∀ sched ∈ e.1, FairActs T (2 * (p.batch.toNat * (2 * M.layers.length + 4) + 1)) sched)
    {o : Option (Model α)} (h : train E p size epochs M = .ok o) : ∃ M', o = some M' := by
  unfold train at h
  obtain ⟨-, -, h'⟩ := Res.bind_eq_ok h
  rw [if_pos he] at h'
  clear he h
  have : ∀ (M0 : Model α), M0.layers.length = M.layers.length → epochs.foldlM (fun (M : Option (Model α)) (e : List (List (Nat × Act α)) × List (Sample α)) =>
      match M with
      | none => (Res.ok none : Res (Option (Model α)))
      | some M => do
        let r ← runEpoch E p size e.1 (⟨M, e.2, 0⟩ : Shared α)
        Res.ok (r.map fun (q : Shared α × List (Event α)) => q.1.model)) (some M0) = .ok o →
      ∃ M', o = some M' := by
    clear h'
    induction epochs with
    | nil =>
      intro M0 h0 h
      obtain rfl := Res.ok.inj h
      exact ⟨_, rfl⟩
    | cons e es ih =>
      intro M0 h0 h
      rw [List.foldlM_cons] at h
      obtain ⟨r, hr, h⟩ := Res.bind_eq_ok h
      obtain ⟨r', hr', hr⟩ := Res.bind_eq_ok hr
      obtain ⟨q, rfl, hq'⟩ := runEpoch_fair' hq hB (hn e (by simp)) (hf e (by simp)) (by exact h0) hr'
      obtain rfl := Res.ok.inj hr
      exact ih (fun e he => hn e (by simp [he])) (fun e he => hf e (by simp [he])) q.1.model hq' h
  exact this _ (by simp [Model.setBatchSize]) h'

end Overlap
end Cnn
