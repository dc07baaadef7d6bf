import Verif.Lemmas.InOrder
import Verif.Props.SmallBatch
import Verif.Props.Make
import Verif.Props.Fair
/-!
# Property C114: a training can be continued by another one
-/
namespace Cnn
open Model Train
variable {α : Type} [Zero α] [One α] [Add α] [Sub α] [Mul α] [Div α] [Neg α]

/-- C114 with batches of one sample: training on `es1` and then the result on `es2` gives the parameters of one training on
all these samples, whatever the numbers of threads, the schedules and the arithmetic. -/
theorem C114_one_sample (E : Env α) (p p1 p2 : Hyper α) (hp : p.batch = 1) (hp1 : p1.batch = 1) (hp2 : p2.batch = 1)
    (hr1 : p1.rate = p.rate) (hr2 : p2.rate = p.rate) (size : Nat) (hsz : size < 2 ^ 24) (M : Model α)
    (hM : (M.setBatchSize 1).Prepared 1) (hl : (M.setBatchSize 1).SoftmaxLast) (es es1 es2 : List (List (List Nat) × List (Sample α)))
    (hs : es.map Prod.snd = (es1 ++ es2).map Prod.snd) (hlen : ∀ e ∈ es, size ≤ e.2.length) (N N1 N2 : Model α)
    (h : train E p size es M = .ok (some N)) (h1 : train E p1 size es1 M = .ok (some N1)) (h2 : train E p2 size es2 N1 = .ok (some N2)) :
    N2.bare = N.bare ∧ ∀ i, N2.params i = N.params i :=
  have := train_resume (B := 1) OrderFree.one hp hp1 hp2 hr1 hr2 (by decide) Nat.one_pos (.inl rfl) hsz hM hl hs (by simpa using hlen) h h1 h2
  ⟨this, fun i => Model.bare_params this i⟩

/-- C114 with batches of one sample and calls of layers that overlap in time, for all numbers of threads. -/
theorem C114_overlap (E : Env α) (p p1 p2 : Hyper α) (hp : p.batch = 1) (hp1 : p1.batch = 1) (hp2 : p2.batch = 1)
    (hr1 : p1.rate = p.rate) (hr2 : p2.rate = p.rate) (size : Nat) (hsz : size < 2 ^ 24) (M : Model α)
    (hM : (M.setBatchSize 1).Prepared 1) (hl : (M.setBatchSize 1).SoftmaxLast) (es es1 es2 : List (List (List (Nat × Overlap.Act α)) × List (Sample α)))
    (hs : es.map Prod.snd = (es1 ++ es2).map Prod.snd) (hlen : ∀ e ∈ es, size ≤ e.2.length) (N N1 N2 : Model α)
    (h : Overlap.train E p size es M = .ok (some N)) (h1 : Overlap.train E p1 size es1 M = .ok (some N1))
    (h2 : Overlap.train E p2 size es2 N1 = .ok (some N2)) : N2.bare = N.bare ∧ ∀ i, N2.params i = N.params i := by
  have used : ∀ l ∈ M.layers, ∀ L, l.body = .connected L → L.initialized = true := by
    intro l hm L hL
    have := hM _ (List.mem_map_of_mem hm)
    simp only [hL, Body.setBatchSize] at this
    exact this.1
  obtain ⟨fs, f1, f2⟩ := Overlap.C76_overlap E p (by omega) size M used es
  obtain ⟨fs1, g1, g2⟩ := Overlap.C76_overlap E p1 (by omega) size M used es1
  rw [f2] at h
  rw [g2] at h1
  have hlen1 : ∀ e ∈ fs1, size ≤ e.2.length := by
    intro e he
    have : e.2 ∈ fs1.map Prod.snd := List.mem_map_of_mem he
    rw [g1] at this
    have : e.2 ∈ es.map Prod.snd := by rw [hs, List.map_append]; exact List.mem_append_left _ this
    obtain ⟨e', he', hee⟩ := List.mem_map.1 this
    rw [← hee]
    exact hlen e' he'
  have hk := train_epochs (B := 1) hp1 (by decide) h1
  obtain ⟨_, hN1, _⟩ := epochRuns_bare (B := 1) OrderFree.one hp1 hp1 rfl (by decide) Nat.one_pos (.inl rfl) hsz fs1 fs1 _ _ rfl (by simpa using hlen1) hM hl rfl hk hk
  obtain ⟨fs2, k1, k2⟩ := Overlap.C76_overlap E p2 (by omega) size N1 (fun l hm L hL => by
    have := hN1 l hm
    rw [hL] at this
    exact this.1) es2
  rw [k2] at h2
  refine C114_one_sample E p p1 p2 hp hp1 hp2 hr1 hr2 size hsz M hM hl fs fs1 fs2 (by rw [f1, hs, List.map_append, List.map_append, g1, k1]) ?_ N N1 N2 h h1 h2
  intro e he
  have : e.2 ∈ fs.map Prod.snd := List.mem_map_of_mem he
  rw [f1] at this
  obtain ⟨e', he', hee⟩ := List.mem_map.1 this
  rw [← hee]
  exact hlen e' he'

/-- C114 with one thread, in any arithmetic; the last batch of an epoch need not be full, but each epoch has at least `B` samples. -/
theorem C114_one_thread (E : Env α) (p p1 p2 : Hyper α) (B : Nat) (hp : p.batch = B) (hp1 : p1.batch = B) (hp2 : p2.batch = B)
    (ht : p.threads = 1) (ht1 : p1.threads = 1) (ht2 : p2.threads = 1) (hr1 : p1.rate = p.rate) (hr2 : p2.rate = p.rate) (hB : B < 2 ^ 24) (h0 : 0 < B)
    (size : Nat) (hsz : size < 2 ^ 24) (M : Model α) (hM : (M.setBatchSize B).Prepared B) (hl : (M.setBatchSize B).SoftmaxLast)
    (es es1 es2 : List (List (List Nat) × List (Sample α))) (hs : es.map Prod.snd = (es1 ++ es2).map Prod.snd)
    (hlen : ∀ e ∈ es, B ≤ e.2.length) (N N1 N2 : Model α) (h : train E p size es M = .ok (some N))
    (h1 : train E p1 size es1 M = .ok (some N1)) (h2 : train E p2 size es2 N1 = .ok (some N2)) :
    N2.bare = N.bare ∧ ∀ i, N2.params i = N.params i := by
  have := train_resume_one hp hp1 hp2 hr1 hr2 hB h0 ht ht1 ht2 hsz hM hl hs hlen h h1 h2
  exact ⟨this, fun i => Model.bare_params this i⟩

/-- C114 in the arithmetic of the program (binary64, one zero, one NaN). -/
theorem C114_binary64 (draws : Nat → Nat → Binary64) (p p1 p2 : Hyper Binary64) (B : Nat) (hp : p.batch = B) (hp1 : p1.batch = B)
    (hp2 : p2.batch = B) (ht : p.threads = 1) (ht1 : p1.threads = 1) (ht2 : p2.threads = 1) (hr1 : p1.rate = p.rate) (hr2 : p2.rate = p.rate) (hB : B < 2 ^ 24) (h0 : 0 < B)
    (size : Nat) (hsz : size < 2 ^ 24) (M : Model Binary64) (hM : (M.setBatchSize B).Prepared B) (hl : (M.setBatchSize B).SoftmaxLast)
    (es es1 es2 : List (List (List Nat) × List (Sample Binary64))) (hs : es.map Prod.snd = (es1 ++ es2).map Prod.snd)
    (hlen : ∀ e ∈ es, B ≤ e.2.length) (N N1 N2 : Model Binary64) (h : train (binary64Env draws) p size es M = .ok (some N))
    (h1 : train (binary64Env draws) p1 size es1 M = .ok (some N1)) (h2 : train (binary64Env draws) p2 size es2 N1 = .ok (some N2)) :
    N2.bare = N.bare ∧ ∀ i, N2.params i = N.params i :=
  C114_one_thread _ p p1 p2 B hp hp1 hp2 ht ht1 ht2 hr1 hr2 hB h0 size hsz M hM hl es es1 es2 hs hlen N N1 N2 h h1 h2

/-- It applies: two epochs over three samples in batches of two in binary64, in one call or in two, do end, and with the same parameters. -/
example (w u v : Binary64) : ∃ (es es1 es2 : List (List (List Nat) × List (Sample Binary64))) (N N1 N2 : Model Binary64),
    es.map Prod.snd = (es1 ++ es2).map Prod.snd ∧ es1.length = 1 ∧ es2.length = 1 ∧
    train (binary64Env fun _ _ => 0) ⟨1, 2, 1, 2⟩ 3 es (tinyModel w) = .ok (some N) ∧
    train (binary64Env fun _ _ => 0) ⟨1, 2, 1, 1⟩ 3 es1 (tinyModel w) = .ok (some N1) ∧
    train (binary64Env fun _ _ => 0) ⟨1, 2, 1, 1⟩ 3 es2 N1 = .ok (some N2) ∧ ∀ i, N2.params i = N.params i := by
  let S : List (Sample Binary64) := [⟨⟨dimN 1 1 1, [u]⟩, "a".toList⟩, ⟨⟨dimN 1 1 1, [v]⟩, "b".toList⟩, ⟨⟨dimN 1 1 1, [w]⟩, "a".toList⟩]
  have hS : ∀ x ∈ S, x.Fits ⟨1, 1, 1⟩ (tinyModel w).labels := by
    intro x hx
    simp only [S, List.mem_cons, List.not_mem_nil, or_false] at hx
    rcases hx with rfl | rfl | rfl
    · exact ⟨⟨fun _ _ _ => u, Matrix.Shows.of_vals ⟨by decide, by decide, by decide, by decide⟩ rfl (by simp)⟩, by simp [tinyModel]⟩
    · exact ⟨⟨fun _ _ _ => v, Matrix.Shows.of_vals ⟨by decide, by decide, by decide, by decide⟩ rfl (by simp)⟩, by simp [tinyModel]⟩
    · exact ⟨⟨fun _ _ _ => w, Matrix.Shows.of_vals ⟨by decide, by decide, by decide, by decide⟩ rfl (by simp)⟩, by simp [tinyModel]⟩
  obtain ⟨es, N, e1, e2⟩ := C70_train_ends (binary64Env fun _ _ => 0) rfl ⟨1, 2, 1, 2⟩ 2 1 rfl rfl (by decide) (by decide) (by decide) (by decide) 3
    (by decide) (by decide) (tinyModel w) ⟨1, 1, 1⟩ [.full 2] (tinyModel_runs _) roundKinds_work [S, S] rfl (by simpa using hS) (by simp [S])
  obtain ⟨es1, N1, f1, f2⟩ := C70_train_ends (binary64Env fun _ _ => 0) rfl ⟨1, 2, 1, 1⟩ 2 1 rfl rfl (by decide) (by decide) (by decide) (by decide) 3
    (by decide) (by decide) (tinyModel w) ⟨1, 1, 1⟩ [.full 2] (tinyModel_runs _) roundKinds_work [S] rfl (by simpa using hS) (by simp [S])
  obtain ⟨r1, r2, _⟩ := C70_trained_partial (binary64Env fun _ _ => 0) rfl ⟨1, 2, 1, 1⟩ 2 1 rfl rfl (by decide) (by decide) (by decide) (by decide) 3
    (by decide) (by decide) (tinyModel w) ⟨1, 1, 1⟩ [.full 2] (tinyModel_runs _) roundKinds_work es1 (by
      intro e he x hx
      have : e.2 ∈ es1.map Prod.snd := List.mem_map_of_mem he
      rw [f1, List.mem_singleton] at this
      exact hS x (this ▸ hx)) (by
      intro e he
      have : e.2 ∈ es1.map Prod.snd := List.mem_map_of_mem (List.mem_of_mem_head? he)
      rw [f1, List.mem_singleton] at this
      rw [this]
      simp [S]) N1 f2
  obtain ⟨es2, N2, g1, g2⟩ := C70_train_ends (binary64Env fun _ _ => 0) rfl ⟨1, 2, 1, 1⟩ 2 1 rfl rfl (by decide) (by decide) (by decide) (by decide) 3
    (by decide) (by decide) N1 ⟨1, 1, 1⟩ [.full 2] r1 roundKinds_work [S] rfl (by rw [r2]; simpa using hS) (by simp [S])
  have hs : es.map Prod.snd = (es1 ++ es2).map Prod.snd := by rw [List.map_append, e1, f1, g1]; rfl
  refine ⟨es, es1, es2, N, N1, N2, hs, by simpa using congrArg List.length f1, by simpa using congrArg List.length g1, e2, f2, g2,
    (C114_binary64 _ ⟨1, 2, 1, 2⟩ ⟨1, 2, 1, 1⟩ ⟨1, 2, 1, 1⟩ 2 rfl rfl rfl rfl rfl rfl rfl rfl (by decide) (by decide) 3 (by decide) _
      ((setBatchSize_shaped (tinyModel_runs _)).prepared roundKinds_work (setBatchSize_used (tinyModel_used _) 2)) ?_ es es1 es2 hs ?_ N N1 N2 e2 f2 g2).2⟩
  · intro i l S hi hS
    match i, hi with
    | 0, hi =>
      obtain rfl := Option.some.inj hi
      exact absurd hS (by simp [Body.setBatchSize])
    | 1, _ => rfl
    | n + 2, hi => exact absurd hi (by simp [tinyModel, Model.setBatchSize])
  · intro e he
    have : e.2 ∈ es.map Prod.snd := List.mem_map_of_mem he
    rw [e1] at this
    simp only [List.mem_cons, List.not_mem_nil, or_false, or_self] at this
    rw [this]
    simp [S]

/-- An epoch over one sample; the second thread is ahead of the first, which looks again at the layer it is in. -/
noncomputable def overlapEpoch (u : Binary64) : List (List (Nat × Overlap.Act Binary64)) × List (Sample Binary64) :=
  ([(List.replicate 18 [(1, .next), (0, .look), (0, .next)]).flatten], [⟨⟨dimN 1 1 1, [u]⟩, "a".toList⟩])

/-- Two threads whose calls overlap: two epochs over one sample, in one call of `train` or in two, in binary64. -/
example (w u : Binary64) : ∃ N N1 N2 : Model Binary64,
    Overlap.train (binary64Env fun _ _ => 0) ⟨1, 1, 2, 2⟩ 1 [overlapEpoch u, overlapEpoch u] (tinyModel w) = .ok (some N) ∧
    Overlap.train (binary64Env fun _ _ => 0) ⟨1, 1, 2, 1⟩ 1 [overlapEpoch u] (tinyModel w) = .ok (some N1) ∧
    Overlap.train (binary64Env fun _ _ => 0) ⟨1, 1, 2, 1⟩ 1 [overlapEpoch u] N1 = .ok (some N2) ∧ ∀ i, N2.params i = N.params i := by
  have hx : ∀ x ∈ (overlapEpoch u).2, x.Fits ⟨1, 1, 1⟩ (tinyModel w).labels := by
    intro x hx
    obtain rfl := List.mem_singleton.1 hx
    exact ⟨⟨fun _ _ _ => u, Matrix.Shows.of_vals ⟨by decide, by decide, by decide, by decide⟩ rfl (by simp)⟩, by simp [tinyModel]⟩
  have hf : ∀ sched ∈ (overlapEpoch u).1, FairActs 2 18 sched := by
    intro sched hs
    obtain rfl := List.mem_singleton.1 hs
    intro t ht
    obtain rfl | rfl : t = 0 ∨ t = 1 := by omega
    · simp [List.replicate_succ]
    · simp [List.replicate_succ]
  have used : ∀ l ∈ (tinyModel w).layers, ∀ L, l.body = .connected L → L.initialized = true := tinyModel_used w
  obtain ⟨N, h, _⟩ := C94_overlap_trains (binary64Env fun _ _ => 0) rfl ⟨1, 1, 2, 2⟩ 1 2 rfl rfl (by decide) (by decide) (by decide) (by decide) 1
    (by decide) (by decide) (tinyModel w) used ⟨1, 1, 1⟩ [.full 2] (tinyModel_runs _) roundKinds_work [overlapEpoch u, overlapEpoch u] (by simpa using hx)
    (by simp [overlapEpoch]) rfl (by simp [overlapEpoch]) (by
      intro e he
      obtain rfl : e = overlapEpoch u := by simpa using he
      exact hf)
  obtain ⟨N1, h1, r1⟩ := C94_overlap_trains (binary64Env fun _ _ => 0) rfl ⟨1, 1, 2, 1⟩ 1 2 rfl rfl (by decide) (by decide) (by decide) (by decide) 1
    (by decide) (by decide) (tinyModel w) used ⟨1, 1, 1⟩ [.full 2] (tinyModel_runs _) roundKinds_work [overlapEpoch u] (by simpa using hx)
    (by simp [overlapEpoch]) rfl (by simp [overlapEpoch]) (by
      intro e he
      obtain rfl : e = overlapEpoch u := by simpa using he
      exact hf)
  obtain ⟨⟨m1, _⟩, m2⟩ := C112_overlap _ _ (by decide) _ _ used _ _ h1
  obtain ⟨N2, h2, _⟩ := C94_overlap_trains (binary64Env fun _ _ => 0) rfl ⟨1, 1, 2, 1⟩ 1 2 rfl rfl (by decide) (by decide) (by decide) (by decide) 1
    (by decide) (by decide) N1 (by
      intro l hl L hL
      obtain ⟨i, hi, rfl⟩ := List.mem_iff_getElem.1 hl
      have hm := (List.forall₂_iff_get.1 m2).2 i (by rw [m2.length_eq]; exact hi) hi
      obtain ⟨_, hm⟩ := hm
      simp only [List.get_eq_getElem] at hm
      rw [hL] at hm
      cases hb : ((tinyModel w).layers[i]'(by rw [m2.length_eq]; exact hi)).body with
      | connected L0 =>
        rw [hb] at hm
        exact (hm.2 (used _ (List.getElem_mem _) L0 hb)).1
      | _ => rw [hb] at hm; exact hm.elim) ⟨1, 1, 1⟩ [.full 2] r1 roundKinds_work [overlapEpoch u] (by rw [m1]; simpa using hx)
    (by simp [overlapEpoch]) rfl (by simp [overlapEpoch]) (by
      rw [← m2.length_eq]
      intro e he
      obtain rfl : e = overlapEpoch u := by simpa using he
      exact hf)
  refine ⟨N, N1, N2, h, h1, h2, (C114_overlap (binary64Env fun _ _ => 0) ⟨1, 1, 2, 2⟩ ⟨1, 1, 2, 1⟩ ⟨1, 1, 2, 1⟩ rfl rfl rfl rfl rfl 1 (by decide) (tinyModel w)
    ((setBatchSize_shaped (tinyModel_runs _)).prepared roundKinds_work (setBatchSize_used (tinyModel_used _) 1))
      ?_ [overlapEpoch u, overlapEpoch u] [overlapEpoch u] [overlapEpoch u] rfl (by simp [overlapEpoch]) N N1 N2 h h1 h2).2⟩
  intro i l S hi hS
  match i, hi with
  | 0, hi =>
    obtain rfl := Option.some.inj hi
    exact absurd hS (by simp [Body.setBatchSize])
  | 1, _ => rfl
  | n + 2, hi => exact absurd hi (by simp [tinyModel, Model.setBatchSize])

end Cnn
