import Verif.Lemmas.FairValidate
import Verif.Lemmas.FairRace
import Verif.Props.Safe
import Verif.Props.Overlap
import Verif.Props.Validate
import Mathlib.Tactic.IntervalCases
/-!
# Property C94: training and validation end under every fair schedule
-/
set_option linter.unusedSectionVars false
namespace Cnn
open Model Train
variable {α : Type} [Zero α] [One α] [Add α] [Sub α] [Mul α] [Div α] [Neg α]

/-- C94 A batch for which the source has enough samples: the threads have all ended if and only if each has made at least the number of steps
its own slots take, which is `2 L + 4` for each slot (`L` layers) and one to find that none is left. No thread ever waits for another. -/
theorem C94_batch (E : Env α) (p : Hyper α) (B T : Nat) (hp : p.batch = B) (hq : p.threads = T) (hB : B < 2 ^ 24) (hT0 : 0 < T)
    (sh : Shared α) (hfull : B ≤ sh.source.length) (sched : List Nat) (o : Option (Shared α × List (Event α))) (h : runBatch E p sched sh = .ok o) :
    o ≠ none ↔ ∀ t < T, (min ((t + 1) * ((B + T - 1) / T)) B - t * ((B + T - 1) / T)) * (2 * sh.model.layers.length + 4) + 1 ≤ sched.count t := by
  obtain ⟨w, hw, h1, h2⟩ := runBatch_fair hp hq (by omega) h
  rw [workCount_eq B T hB hT0] at hw
  have hw : ((B + T - 1) / T : Nat) = w := by exact_mod_cast Res.ok.inj hw
  rw [hw]
  refine ⟨h2 hfull, fun hf => ?_⟩
  obtain ⟨q, rfl, -⟩ := h1 (Or.inr hf)
  simp

/-- C94 If the source runs dry the threads may end sooner, never later. -/
theorem C94_batch_short (E : Env α) (p : Hyper α) (B T : Nat) (hp : p.batch = B) (hq : p.threads = T) (hB : B < 2 ^ 24) (hT0 : 0 < T)
    (sh : Shared α) (sched : List Nat) (hf : Fair T (((B + T - 1) / T) * (2 * sh.model.layers.length + 4) + 1) sched) :
    runBatch E p sched sh ≠ .ok none := by
  intro h
  obtain ⟨w, hw, h1, -⟩ := runBatch_fair hp hq (by omega) h
  rw [workCount_eq B T hB hT0] at hw
  have hw : ((B + T - 1) / T : Nat) = w := by exact_mod_cast Res.ok.inj hw
  rw [hw] at hf
  obtain ⟨q, h, -⟩ := h1 (Or.inl hf)
  cases h

theorem fair_of_forever {T : Nat} {σ : Nat → Nat} (h : FairForever T σ) (N : Nat) : ∃ k, ∀ k' ≥ k, Fair T N ((List.range k').map σ) := by
  have one : ∀ (t : Nat), t < T → ∀ n, ∃ k, n ≤ ((List.range k).map σ).count t := by
    intro t ht n
    induction n with
    | zero => exact ⟨0, Nat.zero_le _⟩
    | succ n ih =>
      obtain ⟨k, hk⟩ := ih
      obtain ⟨j, hj, e⟩ := h t ht k
      refine ⟨j + 1, ?_⟩
      rw [List.range_succ, List.map_append, List.count_append]
      have hmono : ((List.range k).map σ).count t ≤ ((List.range j).map σ).count t :=
        ((List.range_sublist.2 hj).map σ).count_le t
      simp only [List.map_cons, List.map_nil, e, List.count_cons_self, List.count_nil]
      omega
  have all : ∀ U ≤ T, ∃ k, ∀ t < U, N ≤ ((List.range k).map σ).count t := by
    intro U
    induction U with
    | zero => exact fun _ => ⟨0, fun t ht => by omega⟩
    | succ U ih =>
      intro hU
      obtain ⟨k, hk⟩ := ih (by omega)
      obtain ⟨k', hk'⟩ := one U (by omega) N
      refine ⟨max k k', fun t ht => ?_⟩
      rcases Nat.lt_or_ge t U with h1 | h1
      · exact le_trans (hk t h1) (((List.range_sublist.2 (Nat.le_max_left _ _)).map σ).count_le t)
      · obtain rfl : t = U := by omega
        exact le_trans hk' (((List.range_sublist.2 (Nat.le_max_right _ _)).map σ).count_le t)
  obtain ⟨k, hk⟩ := all T le_rfl
  exact ⟨k, fun k' hk' t ht => le_trans (hk t ht) (((List.range_sublist.2 hk').map σ).count_le t)⟩

/-- C94 An endless run in which each thread gets its turn again and again does not exist: from some time on the batch is over. -/
theorem C94_forever (E : Env α) (p : Hyper α) (B T : Nat) (hp : p.batch = B) (hq : p.threads = T) (hB : B < 2 ^ 24) (hT0 : 0 < T)
    (sh : Shared α) (σ : Nat → Nat) (hσ : FairForever T σ) : ∃ k, ∀ k' ≥ k, runBatch E p ((List.range k').map σ) sh ≠ .ok none := by
  obtain ⟨k, hk⟩ := fair_of_forever hσ (((B + T - 1) / T) * (2 * sh.model.layers.length + 4) + 1)
  exact ⟨k, fun k' hk' => C94_batch_short E p B T hp hq hB hT0 sh _ (hk k' hk')⟩

/-- C94 Training with any parameters, any model, any source: if every thread gets enough steps in every batch, training does not hang. -/
theorem C94_train (E : Env α) (p : Hyper α) (T : Nat) (hq : p.threads = T) (hB : p.batch < 2147483648) (size : Nat)
    (epochs : List (List (List Nat) × List (Sample α))) (he : epochs.length = p.epochs.toNat) (M : Model α)
    (hn : ∀ e ∈ epochs, ∀ n, numBatches size p.batch = .ok n → e.1.length = n.toNat)
    (hf : ∀ e ∈ epochs, ∀ sched ∈ e.1, Fair T (p.batch.toNat * (2 * M.layers.length + 4) + 1) sched) :
    train E p size epochs M ≠ .ok none := by
  intro h
  obtain ⟨M', h, -⟩ := train_fair hq hB he hn hf h
  cases h

/-- C94 with C70, a call of a layer being one step: a model of layers that fit is trained, whatever the fair schedule. -/
theorem C94_trains (E : Env α) (hE : E.order = .dimsFirst) (p : Hyper α) (B T : Nat) (hp : p.batch = B) (hq : p.threads = T)
    (h0 : 0 < B) (hB : B < 2 ^ 24) (hT0 : 0 < T) (hT : T < 2147483648) (size : Nat) (hs0 : 0 < size) (hsz : size < 2 ^ 24)
    (M : Model α) (s : Shape) (ks : List LayerKind) (hM : M.Runs s ks) (hk : KindsWork true s ks)
    (epochs : List (List (List Nat) × List (Sample α))) (hx : ∀ e ∈ epochs, ∀ x ∈ e.2, x.Fits s M.labels)
    (hfull : ∀ e ∈ epochs.head?, B ≤ e.2.length) (he : epochs.length = p.epochs.toNat)
    (hn : ∀ e ∈ epochs, e.1.length = (size + B - 1) / B)
    (hf : ∀ e ∈ epochs, ∀ sched ∈ e.1, Fair T (B * (2 * M.layers.length + 4) + 1) sched) :
    ∃ M', train E p size epochs M = .ok (some M') := by
  obtain ⟨o, ho⟩ := C70_train_partial E hE p B T hp hq h0 hB hT0 hT size hs0 hsz M s ks hM hk epochs hx hfull
  cases o with
  | some M' => exact ⟨M', ho⟩
  | none =>
    refine absurd ho (C94_train E p T hq (by omega) size epochs he M ?_ ?_)
    · intro e hee n hn'
      rw [hp, numBatches_eq size B hsz h0] at hn'
      rw [hn e hee, ← Res.ok.inj hn']
      rfl
    · rw [hp]
      exact hf

/-- C94 The same for calls that overlap. Each thread must get on twice as often; how often it reads its layer again or writes into its slot
in between does not matter. -/
theorem C94_overlap (E : Env α) (p : Hyper α) (T : Nat) (hq : p.threads = T) (hB : p.batch < 2147483648) (size : Nat)
    (epochs : List (List (List (Nat × Overlap.Act α)) × List (Sample α))) (he : epochs.length = p.epochs.toNat) (M : Model α)
    (hn : ∀ e ∈ epochs, ∀ n, numBatches size p.batch = .ok n → e.1.length = n.toNat)
    (hf : ∀ e ∈ epochs, ∀ sched ∈ e.1, FairActs T (2 * (p.batch.toNat * (2 * M.layers.length + 4) + 1)) sched) :
    Overlap.train E p size epochs M ≠ .ok none := by
  intro h
  obtain ⟨M', h⟩ := Overlap.train_fair' hq hB he hn hf h
  cases h

/-- C94 The same if first calls of fully connected layers overlap, whatever they do to each other. -/
theorem C94_race (E : Env α) (rnd : Nat → Nat → Nat → α) (p : Hyper α) (T : Nat) (hq : p.threads = T) (hB : p.batch < 2147483648) (size : Nat)
    (epochs : List (List (List Nat) × List (Sample α))) (he : epochs.length = p.epochs.toNat) (M : Model α)
    (hn : ∀ e ∈ epochs, ∀ n, numBatches size p.batch = .ok n → e.1.length = n.toNat)
    (hf : ∀ e ∈ epochs, ∀ sched ∈ e.1, Fair T (10 * (p.batch.toNat * (2 * M.layers.length + 4) + 1)) sched) :
    Race.train E rnd p size epochs M ≠ .ok none := by
  intro h
  obtain ⟨M', h⟩ := Race.train_fairR hq hB he hn hf h
  cases h

/-- C94 with C76. -/
theorem C94_overlap_trains (E : Env α) (hE : E.order = .dimsFirst) (p : Hyper α) (B T : Nat) (hp : p.batch = B) (hq : p.threads = T)
    (h0 : 0 < B) (hB : B < 2 ^ 24) (hT0 : 0 < T) (hT : T < 2147483648) (size : Nat) (hs0 : 0 < size) (hsz : size < 2 ^ 24)
    (M : Model α) (hM0 : ∀ l ∈ M.layers, ∀ L, l.body = .connected L → L.initialized = true) (s : Shape) (ks : List LayerKind)
    (hM : M.Runs s ks) (hk : KindsWork true s ks) (epochs : List (List (List (Nat × Overlap.Act α)) × List (Sample α)))
    (hx : ∀ e ∈ epochs, ∀ x ∈ e.2, x.Fits s M.labels) (hfull : ∀ e ∈ epochs.head?, B ≤ e.2.length) (he : epochs.length = p.epochs.toNat)
    (hn : ∀ e ∈ epochs, e.1.length = (size + B - 1) / B)
    (hf : ∀ e ∈ epochs, ∀ sched ∈ e.1, FairActs T (2 * (B * (2 * M.layers.length + 4) + 1)) sched) :
    ∃ M', Overlap.train E p size epochs M = .ok (some M') ∧ M'.Runs s ks := by
  obtain ⟨o, ho, h1⟩ := Overlap.C76_safe E hE p B T hp hq h0 hB hT0 hT size hs0 hsz M hM0 s ks hM hk epochs hx hfull
  cases o with
  | some M' => exact ⟨M', ho, (h1 M' rfl).1⟩
  | none =>
    refine absurd ho (C94_overlap E p T hq (by omega) size epochs he M ?_ ?_)
    · intro e hee n hn'
      rw [hp, numBatches_eq size B hsz h0] at hn'
      rw [hn e hee, ← Res.ok.inj hn']
      rfl
    · rw [hp]
      exact hf

/-- C94 Validation, any files, any model: thread `t` of `T` classifies every `T`th image from number `t` on; each takes `L + 2` steps. All threads have ended
if and only if each has made its steps. The number of images and of threads must fit together into an `int`. -/
theorem C94_validate (E : Env α) (conv : F32 → α) (big : Bool) (lim : Nat) (images labels : Option (List UInt8)) (db : Mnist.Reader)
    (hdb : Mnist.Reader.new big images labels = .ok db) (n T : Nat) (hn : (wrap32 db.numImages).toNat = n) (hT0 : 0 < T) (hT : n + T < 2147483648)
    (sched : List Nat) (M : Model α) (o : Option (Validate.State α × List Validate.Event))
    (h : Validate.count E conv big lim images labels T sched M = .ok o) :
    o ≠ none ↔ ∀ t < T, ((n - t + T - 1) / T) * (M.layers.length + 2) + 1 ≤ sched.count t :=
  Validate.count_fair hdb hn hT0 hT h

/-- C94 with C72: whatever the fair schedule, validation of a trained model on good files ends. -/
theorem C94_validates (E : Env α) (conv : F32 → α) (big : Bool) (lim : Nat) (f : Mnist.Content) (ok : f.Ok lim) (M : Model α) (B : Nat) (ks : List LayerKind)
    (hM : M.Trained B ⟨f.h, f.w, 1⟩ ks) (hB : 0 < B) (hk : KindsWork true ⟨f.h, f.w, 1⟩ ks) (T : Nat) (hT0 : 0 < T) (hT : f.n + T < 2147483648)
    (sched : List Nat) :
    (∃ r, Validate.count E conv big lim (some f.images) (some f.labels) T sched M = .ok (some r)) ↔
      ∀ t < T, ((f.n - t + T - 1) / T) * (M.layers.length + 2) + 1 ≤ sched.count t := by
  obtain ⟨R, e, h⟩ := Mnist.new_on big ok
  obtain ⟨o, ho, -⟩ := Validate.C72_count_partial E conv big lim f ok M B ks hM hB hk T hT0 hT sched
  have hn : (wrap32 (R.numImages : Int)).toNat = f.n := by
    unfold Mnist.Reader.numImages
    rw [h.num, u64_nat (by have := ok.n; omega), wrap32_nat ok.n, Int.toNat_natCast]
  rw [← C94_validate E conv big lim _ _ R e f.n T hn hT0 hT sched M o ho, ho]
  cases o <;> simp

/-! Two threads, two images, two layers: each thread needs five steps. -/

example : (∃ r, Validate.count Validate.plainEnv Validate.value false 1000 (some Validate.twoPixels.images) (some Validate.twoPixels.labels) 2
    [1, 1, 0, 0, 1, 0, 0, 1, 1, 0] Validate.poolModel = .ok (some r)) ∧
    ¬ (∃ r, Validate.count Validate.plainEnv Validate.value false 1000 (some Validate.twoPixels.images) (some Validate.twoPixels.labels) 2
    [1, 1, 0, 0, 1, 0, 0, 1, 1, 1, 1] Validate.poolModel = .ok (some r)) := by
  constructor
  · exact (C94_validates Validate.plainEnv Validate.value false 1000 Validate.twoPixels Validate.twoPixels_ok Validate.poolModel 1 _ Validate.poolModel_trained
      (by decide) Validate.poolModel_works 2 (by decide) (by decide) _).2 (by decide)
  · exact (C94_validates Validate.plainEnv Validate.value false 1000 Validate.twoPixels Validate.twoPixels_ok Validate.poolModel 1 _ Validate.poolModel_trained
      (by decide) Validate.poolModel_works 2 (by decide) (by decide) _).not.2 (by decide)

/-- A schedule may be fair although one thread runs much more often. -/
example : Fair 2 2 [0, 0, 0, 0, 1, 0, 1] ∧ ¬ Fair 3 1 [0, 0, 0, 0, 1, 0, 1] := by
  refine ⟨fun t ht => ?_, fun h => absurd (h 2 (by decide)) (by decide)⟩
  interval_cases t <;> decide

/-- Taking turns for ever is fair. -/
example : FairForever 3 (fun k => k % 3) := by
  intro t ht k
  exact ⟨3 * k + t, by omega, by simp only; omega⟩

end Cnn
