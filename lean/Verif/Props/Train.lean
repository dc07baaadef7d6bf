import Verif.Lemmas.ScheduleEnd
import Verif.Props.Network
/-!
# Training: C50, C51, C55
-/
namespace Cnn
open Train
variable {α : Type}

/-! ## C50 -/

/-- The full claim: for every batch size and every positive number of threads, the threads are started on ranges that
cover every batch slot exactly once. -/
def C50_claim : Prop := ∀ B T : Nat, B < 2147483648 → 0 < T → T < 2147483648 →
  ∃ start stop : Nat → Nat, Partition B T start stop ∧ ∀ sh : Shared ℝ,
    startBatch B T sh = .ok ⟨sh, (List.range T).map (fun t => (stop t, Pc.fetch (start t)))⟩

/-- C50 for batch sizes below 2^24. Missing: larger ones, which `float` cannot always represent (`C50_violated`). -/
theorem C50_partition_partial (B T : Nat) (hB : B < 2 ^ 24) (hT0 : 0 < T) (hT : T < 2147483648) :
    ∃ start stop : Nat → Nat, Partition B T start stop ∧ ∀ sh : Shared α,
      startBatch B T sh = .ok ⟨sh, (List.range T).map (fun t => (stop t, Pc.fetch (start t)))⟩ := by
  refine ⟨fun t => t * share B T, fun t => min ((t + 1) * share B T) B, ⟨?_, ?_, ?_⟩, startBatch_eq B T hB hT0 hT⟩
  · intro slot h
    exact blocks_cover B _ T slot (share_bounds B T hT0).1 h
  · intro t _ u _ slot h1 h2 h3 h4
    exact blocks_disjoint B _ t u slot h1 h2 h3 h4
  · intro t _ slot _ h
    omega

/-- C50 is false: one thread and a batch of 2^24+1 – the number of slots is rounded to 2^24 and the last one is left out. -/
theorem C50_violated : ¬ C50_claim := by
  intro h
  obtain ⟨start, stop, hp, hs⟩ := h 16777217 1 (by omega) (by omega) (by omega)
  have e := hs ⟨Model.new, [], 0⟩
  obtain ⟨w, hw, e'⟩ := startBatch_inv (by omega) e
  have hw' : workCount (16777217 : Nat) (1 : Nat) = .ok 16777216 := by decide
  rw [hw'] at hw
  have hw : (16777216 : Int) = w := Res.ok.inj hw
  simp only [List.range_one, List.map_cons, List.map_nil, Batch.mk.injEq, true_and, List.cons.injEq, Prod.mk.injEq,
    and_true] at e'
  obtain ⟨t, ht, h1, h2⟩ := hp.covered 16777216 (by omega)
  obtain rfl : t = 0 := by omega
  omega

/-- C50, every batch size: whatever the ranges, no slot belongs to two threads and none is outside the batch. -/
theorem C50_disjoint (B T : Nat) (hB : B < 2147483648) (sh : Shared α) (s : Batch α) (h : startBatch B T sh = .ok s) :
    ∃ start stop : Nat → Nat, s = ⟨sh, (List.range T).map (fun t => (stop t, Pc.fetch (start t)))⟩ ∧
      (∀ t < T, ∀ u < T, ∀ slot, start t ≤ slot → slot < stop t → start u ≤ slot → slot < stop u → t = u) ∧
      (∀ t < T, ∀ slot, start t ≤ slot → slot < stop t → slot < B) := by
  obtain ⟨w, _, rfl⟩ := startBatch_inv hB h
  exact ⟨_, _, rfl, fun t _ u _ slot h1 h2 h3 h4 => blocks_disjoint B w t u slot h1 h2 h3 h4, fun t _ slot _ h => by omega⟩

/-- Ten slots and four threads: 0-2, 3-5, 6-8 and 9. -/
example : (startBatch 10 4 (⟨Model.new, [], 0⟩ : Shared Int) >>= fun s => .ok (s.workers.map fun w =>
    match w.2 with | .fetch b => (b, w.1) | _ => (0, 0))) = .ok [(0, 3), (3, 6), (6, 9), (9, 10)] := by decide

/-! ## C51 -/

section
variable [Zero α] [One α] [Add α] [Sub α] [Mul α] [Div α] [Neg α]

/-- C51: at every point of every execution of a batch, the samples taken so far are the first ones of the source in
order, and what is left of the source is the rest. -/
theorem C51_order (E : Env α) (B T : Nat) (hB : B < 2147483648) (sh : Shared α) (s : Batch α) (h : startBatch B T sh = .ok s)
    (sched : List Nat) (r : Batch α × List (Event α)) (hr : s.run E sched = .ok r) :
    (fetches r.2).map (fun e => e.2.2) ++ r.1.shared.source = sh.source := by
  obtain ⟨w, _, rfl⟩ := startBatch_inv hB h
  have := Inv.run (Inv.init T (fun t => t * w) (fun t => min ((t + 1) * w) B) sh) hr
  exact this.source

/-- C51: at every point of every execution, no two samples have been assigned the same batch slot, all slots are inside the
batch, and two threads never work on the same slot. -/
theorem C51_slots (E : Env α) (B T : Nat) (hB : B < 2147483648) (sh : Shared α) (s : Batch α) (h : startBatch B T sh = .ok s)
    (sched : List Nat) (r : Batch α × List (Event α)) (hr : s.run E sched = .ok r) :
    ((fetches r.2).map (fun e => e.2.1)).Nodup ∧ (∀ e ∈ fetches r.2, e.2.1 < B) ∧
      (∀ t u b, r.1.workingOn t = some b → r.1.workingOn u = some b → t = u) := by
  obtain ⟨w, _, rfl⟩ := startBatch_inv hB h
  have : BInv T B w sh.source r.1 r.2 := Inv.run (Inv.init T (fun t => t * w) (fun t => min ((t + 1) * w) B) sh) hr
  refine ⟨this.slots_nodup, ?_, fun t u b h1 h2 => this.exclusive h1 h2⟩
  rintro ⟨t, b, x⟩ he
  have := (this.range he).2.2
  simp only
  omega

/-- C51: when all threads have ended, exactly what was taken has been processed, each sample once. -/
theorem C51_finished (E : Env α) (B T : Nat) (hB : B < 2147483648) (sh : Shared α) (s : Batch α)
    (h : startBatch B T sh = .ok s) (sched : List Nat) (r : Batch α × List (Event α)) (hr : s.run E sched = .ok r)
    (ho : r.1.over = true) : (finishes r.2).Perm (fetches r.2) ∧ (finishes r.2).length ≤ min B sh.source.length := by
  obtain ⟨w, _, rfl⟩ := startBatch_inv hB h
  have : BInv T B w sh.source r.1 r.2 := Inv.run (Inv.init T (fun t => t * w) (fun t => min ((t + 1) * w) B) sh) hr
  refine ⟨this.perm ho, ?_⟩
  rw [(this.perm ho).length_eq]
  have h1 := this.le
  have h2 := congrArg List.length this.source
  rw [List.length_append, List.length_map] at h2
  omega

/-- C51, the number of samples of a batch of fewer than 2^24: as many as fit and are there. Missing: larger batches, where
slots may be left out (`C50_violated`, `C51_left_out`). -/
theorem C51_count_partial (E : Env α) (B T : Nat) (hB : B < 2 ^ 24) (sh : Shared α) (s : Batch α)
    (h : startBatch B T sh = .ok s) (sched : List Nat) (r : Batch α × List (Event α)) (hr : s.run E sched = .ok r)
    (ho : r.1.over = true) : (finishes r.2).length = min B sh.source.length := by
  obtain ⟨w, hw, rfl⟩ := startBatch_inv (by omega) h
  have hT : 0 < T := by
    rcases Nat.eq_zero_or_pos T with rfl | h
    · exact absurd hw (by simp [workCount, F32.div, F32.ofInt, F32.rnd])
    · exact h
  have : BInv T B w sh.source r.1 r.2 := Inv.run (Inv.init T (fun t => t * w) (fun t => min ((t + 1) * w) B) sh) hr
  rw [(this.perm ho).length_eq]
  refine this.count ?_ ho
  rw [workCount_eq B T hB hT] at hw
  have hw : (((B + T - 1) / T : Nat) : Int) = w := Res.ok.inj hw
  have := (share_bounds B T hT).1
  unfold share at this
  rw [show w = (B + T - 1) / T by omega]
  exact this

/-- C51: in a batch of 2^24+1 on one thread at most 2^24 samples are ever processed, however many there are. -/
theorem C51_left_out (E : Env α) (sh : Shared α) (s : Batch α) (h : startBatch 16777217 1 sh = .ok s)
    (sched : List Nat) (r : Batch α × List (Event α)) (hr : s.run E sched = .ok r)
    (ho : r.1.over = true) : (finishes r.2).length ≤ 16777216 := by
  obtain ⟨w, hw, rfl⟩ := startBatch_inv (B := 16777217) (T := 1) (by omega) h
  have hw' : workCount (16777217 : Nat) (1 : Nat) = .ok 16777216 := by decide
  rw [hw'] at hw
  have hw : (16777216 : Int) = w := Res.ok.inj hw
  have : BInv 1 16777217 w sh.source r.1 r.2 :=
    Inv.run (Inv.init 1 (fun t => t * w) (fun t => min ((t + 1) * w) 16777217) sh) hr
  rw [(this.perm ho).length_eq]
  have := this.le
  omega

/-! ## C55 -/

theorem runBatch_some {E : Env α} {p : Hyper α} {sched : List Nat} {sh : Shared α} {q : Shared α × List (Event α)}
    (h : runBatch E p sched sh = .ok (some q)) : ∃ s r, startBatch p.batch p.threads sh = .ok s ∧ s.run E sched = .ok r ∧
      r.1.over = true ∧ q.1.source = r.1.shared.source ∧ q.2 = r.2 := by
  unfold runBatch at h
  obtain ⟨s, hs, h⟩ := Res.bind_eq_ok h
  obtain ⟨r, hr, h⟩ := Res.bind_eq_ok h
  by_cases ho : r.1.over = true
  · rw [if_pos ho] at h
    obtain ⟨M, hM, h⟩ := Res.bind_eq_ok h
    obtain rfl := Option.some.inj (Res.ok.inj h)
    exact ⟨s, r, hs, hr, ho, rfl, rfl⟩
  · rw [if_neg ho] at h
    exact absurd (Res.ok.inj h) (by simp)

/-- The batches of an epoch: the samples are taken in order, each batch processes what it takes, and it takes `B` of them
as long as there are that many. -/
theorem runBatches_some {E : Env α} {p : Hyper α} {B T : Nat} (hp : p.batch = B) (hq : p.threads = T) (hB : B < 2 ^ 24)
    (scheds : List (List Nat)) : ∀ {sh : Shared α} {q : Shared α × List (Event α)},
    runBatches E p scheds sh = .ok (some q) →
      (fetches q.2).map (fun e => e.2.2) ++ q.1.source = sh.source ∧
      (finishes q.2).Perm (fetches q.2) ∧ q.1.source.length = sh.source.length - B * scheds.length := by
  induction scheds with
  | nil =>
    intro sh q h
    obtain rfl := Option.some.inj (Res.ok.inj h)
    exact ⟨rfl, List.Perm.refl _, by simp⟩
  | cons c cs ih =>
    intro sh q h
    unfold runBatches at h
    obtain ⟨a, ha, h⟩ := Res.bind_eq_ok h
    cases a with
    | none => exact absurd (Res.ok.inj h) (by simp)
    | some a =>
      obtain ⟨b, hb, h⟩ := Res.bind_eq_ok h
      cases b with
      | none => exact absurd (Res.ok.inj h) (by simp)
      | some b =>
        obtain rfl := Option.some.inj (Res.ok.inj h)
        obtain ⟨s, r, hs, hr, ho, e1, e2⟩ := runBatch_some ha
        rw [hp, hq] at hs
        obtain ⟨i1, i2, i3⟩ := ih hb
        have o := C51_order E B T (by omega) sh s hs c r hr
        have f := (C51_finished E B T (by omega) sh s hs c r hr ho).1
        have n := C51_count_partial E B T hB sh s hs c r hr ho
        rw [f.length_eq] at n
        have hl := congrArg List.length o
        rw [List.length_append, List.length_map] at hl
        refine ⟨?_, ?_, ?_⟩
        · rw [fetches_append, List.map_append, List.append_assoc, i1, e1, e2, o]
        · rw [fetches_append, finishes_append]
          exact (e2 ▸ f).append i2
        · simp only [i3, e1, List.length_cons, Nat.mul_succ]
          omega

/-- C55 for sources and batches of fewer than 2^24 samples: an epoch consists of ⌈size/batch⌉ batches, they take the samples
of the source in order until none is left, and every sample is processed once. Missing: larger ones (`C55_violated`). -/
theorem C55_epoch_partial (E : Env α) (p : Hyper α) (B T : Nat) (hp : p.batch = B) (hq : p.threads = T) (hB : B < 2 ^ 24)
    (scheds : List (List Nat)) (sh : Shared α) (hn : sh.source.length < 2 ^ 24) (q : Shared α × List (Event α))
    (h : runEpoch E p sh.source.length scheds sh = .ok (some q)) :
    scheds.length = (sh.source.length + B - 1) / B ∧ (fetches q.2).map (fun e => e.2.2) = sh.source ∧
      (finishes q.2).Perm (fetches q.2) ∧ q.1.source = [] := by
  unfold runEpoch at h
  rw [if_neg (by omega)] at h
  obtain ⟨w, hw, h⟩ := Res.bind_eq_ok h
  rw [if_neg (by omega)] at h
  obtain ⟨n, hnb, h⟩ := Res.bind_eq_ok h
  have hB0 : 0 < B := by
    rcases Nat.eq_zero_or_pos B with rfl | h'
    · rw [hp] at hnb
      exact absurd hnb (by simp [numBatches, F32.div, F32.ofInt, F32.rnd])
    · exact h'
  rw [hp, numBatches_eq _ _ hn hB0] at hnb
  obtain rfl := Res.ok.inj hnb
  by_cases hl : scheds.length = ((((sh.source.length + B - 1) / B : Nat) : Int)).toNat
  · rw [if_pos hl] at h
    obtain ⟨h1, h2, h3⟩ := runBatches_some hp hq hB scheds h
    have hl : scheds.length = (sh.source.length + B - 1) / B := hl
    have hcover : sh.source.length ≤ B * scheds.length := by
      rw [hl]
      have a := Nat.div_add_mod (sh.source.length + B - 1) B
      have b := Nat.mod_lt (sh.source.length + B - 1) hB0
      omega
    have h0 : q.1.source = [] := by
      rw [← List.length_eq_zero_iff, h3]
      simp only
      omega
    rw [h0, List.append_nil] at h1
    exact ⟨hl, h1, h2, h0⟩
  · rw [if_neg hl] at h
    exact absurd (Res.ok.inj h) (by simp)

end

/-- The full claim about the number of batches. -/
def C55_claim : Prop := ∀ size B : Nat, size < 2147483648 → 0 < B → B < 2147483648 →
  numBatches size B = .ok (((size + B - 1) / B : Nat) : Int)

/-- C55 is false: for 2^24+1 samples in batches of one, only 2^24 batches are run. -/
theorem C55_violated : ¬ C55_claim := by
  intro h
  have h1 := h 16777217 1 (by omega) (by omega) (by omega)
  have h2 : numBatches 16777217 (1 : Nat) = .ok 16777216 := by decide
  rw [h2] at h1
  simp at h1

section
variable [Zero α] [One α] [Add α] [Sub α] [Mul α] [Div α] [Neg α]

/-- C55: every epoch over 2^24+1 samples in batches of one that comes to its end leaves the last sample out. -/
theorem C55_left_out (E : Env α) (p : Hyper α) (T : Nat) (hp : p.batch = 1) (hq : p.threads = T) (scheds : List (List Nat))
    (sh : Shared α) (hn : sh.source.length = 16777217) (q : Shared α × List (Event α))
    (h : runEpoch E p sh.source.length scheds sh = .ok (some q)) : q.1.source.length = 1 := by
  unfold runEpoch at h
  rw [if_neg (by omega)] at h
  obtain ⟨w, hw, h⟩ := Res.bind_eq_ok h
  rw [if_neg (by omega)] at h
  obtain ⟨n, hnb, h⟩ := Res.bind_eq_ok h
  have h2 : numBatches 16777217 1 = .ok 16777216 := by decide
  rw [hp, hn, h2] at hnb
  obtain rfl := Res.ok.inj hnb
  by_cases hl : scheds.length = (16777216 : Int).toNat
  · rw [if_pos hl] at h
    obtain ⟨_, _, h3⟩ := runBatches_some (B := 1) hp hq (by omega) scheds h
    have hl : scheds.length = 16777216 := hl
    simp only at h3
    omega
  · rw [if_neg hl] at h
    exact absurd (Res.ok.inj h) (by simp)

end

/-- Integers with a stand-in for the transcendental functions, for examples that can be evaluated. -/
def toyEnv : Env Int := ⟨⟨fun _ => 1, id, id, fun _ => 0, fun n => n, fun a b => a < b, 0, 0, 0⟩, fun _ _ => 0, id, .dimsFirst⟩

def toySample (a b : Int) (l : String) : Sample Int := ⟨⟨dimN 2 1 1, [a, b]⟩, l.toList⟩

/-- Two batches of two on two threads over three samples: in the second batch the second thread is
first to take a sample and the first finds none. -/
example : (runEpoch toyEnv ⟨1, 2, 2, 1⟩ 3 [[0, 1, 0, 1, 1, 0, 0, 1, 0, 1, 0, 1, 0, 1], [1, 0, 0, 1, 1, 1, 1, 1, 1, 1]]
      ⟨softmaxModel ["a".toList, "b".toList], [toySample 1 2 "a", toySample 3 4 "b", toySample 5 6 "a"], 0⟩ >>= fun q =>
    .ok (q.map fun q => ((fetches q.2).map (fun e => (e.1, e.2.1, e.2.2.data.vals)), q.1.source.length))) =
    .ok (some ([(0, 0, [1, 2]), (1, 1, [3, 4]), (1, 1, [5, 6])], 0)) := by rfl

end Cnn
