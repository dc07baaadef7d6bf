import Verif.Props.Merge
import Verif.Props.Resume
/-!
# Property C115 with calls of layers that overlap in time
-/
namespace Cnn
open Model Train
variable {α : Type} [Zero α] [One α] [Add α] [Sub α] [Mul α] [Div α] [Neg α]

/-- C115 with batches of one sample and calls of layers that overlap in time, for all numbers of threads. -/
theorem C115_overlap (E : Env α) (p p' : Hyper α) (n : Nat) (hp : p.batch = 1) (hp' : p'.batch = 1) (hr : p'.rate = p.rate)
    (es : List (List (List (Nat × Overlap.Act α)) × List (Sample α))) (hsz : n < 2 ^ 24) (hsz' : n * es.length < 2 ^ 24) (M : Model α)
    (hM : (M.setBatchSize 1).Prepared 1) (hl : (M.setBatchSize 1).SoftmaxLast) (hlen : ∀ e ∈ es, e.2.length = n)
    (scheds : List (List (Nat × Overlap.Act α))) (N N' : Model α) (h : Overlap.train E p n es M = .ok (some N))
    (h' : Overlap.train E p' (n * es.length) [(scheds, (es.map Prod.snd).flatten)] M = .ok (some N')) :
    N'.bare = N.bare ∧ ∀ i, N'.params i = N.params i := by
  have used : ∀ l ∈ M.layers, ∀ L, l.body = .connected L → L.initialized = true := by
    intro l hm L hL
    have := hM _ (List.mem_map_of_mem hm)
    simp only [hL, Body.setBatchSize] at this
    exact this.1
  obtain ⟨fs, f1, f2⟩ := Overlap.C76_overlap E p (by omega) n M used es
  obtain ⟨gs, g1, g2⟩ := Overlap.C76_overlap E p' (by omega) (n * es.length) M used [(scheds, (es.map Prod.snd).flatten)]
  rw [f2] at h
  rw [g2] at h'
  have hlf : fs.length = es.length := by simpa using congrArg List.length f1
  obtain ⟨⟨cs, src⟩, rfl⟩ : ∃ e, gs = [e] := List.length_eq_one_iff.1 (by simpa using congrArg List.length g1)
  have hsrc : src = (fs.map Prod.snd).flatten := by
    rw [f1]
    simpa using g1
  refine C115_one_sample E p p' n hp hp' hr fs hsz (by rw [hlf]; exact hsz') M hM hl ?_ cs N N' h (by rw [hlf, ← hsrc]; exact h')
  intro e he
  have : e.2 ∈ fs.map Prod.snd := List.mem_map_of_mem he
  rw [f1] at this
  obtain ⟨e', he', hee⟩ := List.mem_map.1 this
  rw [← hee]
  exact hlen e' he'

/-- It applies: two epochs over one sample, and one epoch over it twice, with two threads whose calls overlap, in binary64. -/
example (w u : Binary64) : ∃ N N' : Model Binary64,
    Overlap.train (binary64Env fun _ _ => 0) ⟨1, 1, 2, 2⟩ 1 [overlapEpoch u, overlapEpoch u] (tinyModel w) = .ok (some N) ∧
    Overlap.train (binary64Env fun _ _ => 0) ⟨1, 1, 2, 1⟩ 2 [((overlapEpoch u).1 ++ (overlapEpoch u).1, (overlapEpoch u).2 ++ (overlapEpoch u).2)]
      (tinyModel w) = .ok (some N') ∧ ∀ i, N'.params i = N.params i := by
  have hx : ∀ x ∈ (overlapEpoch u).2, x.Fits ⟨1, 1, 1⟩ (tinyModel w).labels := by
    intro x hx
    obtain rfl := List.mem_singleton.1 hx
    exact ⟨⟨fun _ _ _ => u, Matrix.Shows.of_vals ⟨by decide, by decide, by decide, by decide⟩ rfl (by simp)⟩, by simp [tinyModel]⟩
  have hf : ∀ sched ∈ (overlapEpoch u).1, FairActs 2 18 sched := by
    intro sched hs
    obtain rfl := List.mem_singleton.1 hs
    intro t ht
    obtain rfl | rfl : t = 0 ∨ t = 1 := by omega
    · simp [List.replicate_succ]
    · simp [List.replicate_succ]
  have used : ∀ l ∈ (tinyModel w).layers, ∀ L, l.body = .connected L → L.initialized = true := tinyModel_used w
  obtain ⟨N, h, _⟩ := C94_overlap_trains (binary64Env fun _ _ => 0) rfl ⟨1, 1, 2, 2⟩ 1 2 rfl rfl (by decide) (by decide) (by decide) (by decide) 1
    (by decide) (by decide) (tinyModel w) used ⟨1, 1, 1⟩ [.full 2] (tinyModel_runs _) roundKinds_work [overlapEpoch u, overlapEpoch u] (by simpa using hx)
    (by simp [overlapEpoch]) rfl (by simp [overlapEpoch]) (by
      intro e he
      obtain rfl : e = overlapEpoch u := by simpa using he
      exact hf)
  obtain ⟨N', h', _⟩ := C94_overlap_trains (binary64Env fun _ _ => 0) rfl ⟨1, 1, 2, 1⟩ 1 2 rfl rfl (by decide) (by decide) (by decide) (by decide) 2
    (by decide) (by decide) (tinyModel w) used ⟨1, 1, 1⟩ [.full 2] (tinyModel_runs _) roundKinds_work
    [((overlapEpoch u).1 ++ (overlapEpoch u).1, (overlapEpoch u).2 ++ (overlapEpoch u).2)] (by
      intro e he x hxe
      obtain rfl := List.mem_singleton.1 he
      exact hx x (by simpa using hxe))
    (by simp [overlapEpoch]) rfl (by simp [overlapEpoch]) (by
      intro e he sched hs
      obtain rfl := List.mem_singleton.1 he
      exact hf sched (by simpa using hs))
  refine ⟨N, N', h, h', (C115_overlap (binary64Env fun _ _ => 0) ⟨1, 1, 2, 2⟩ ⟨1, 1, 2, 1⟩ 1 rfl rfl rfl [overlapEpoch u, overlapEpoch u] (by decide)
    (by simp) (tinyModel w) ((setBatchSize_shaped (tinyModel_runs _)).prepared roundKinds_work (setBatchSize_used (tinyModel_used _) 1)) ?_
    (by simp [overlapEpoch]) ((overlapEpoch u).1 ++ (overlapEpoch u).1) N N' h (by simpa using h')).2⟩
  intro i l S hi hS
  match i, hi with
  | 0, hi =>
    obtain rfl := Option.some.inj hi
    exact absurd hS (by simp [Body.setBatchSize])
  | 1, _ => rfl
  | n + 2, hi => exact absurd hi (by simp [tinyModel, Model.setBatchSize])

end Cnn
