import Verif.Lemmas.Schedule
import Verif.Lemmas.Partition
import Mathlib.Data.List.Nodup
import Mathlib.Data.List.Perm.Basic
import Mathlib.Data.List.Perm.Subperm
/-! Helper lemmas: what the invariant of a batch says about its trace (C51, C55). -/
namespace Cnn.Train
variable {α : Type} {T B w : Nat} {src0 : List (Sample α)} {s : Batch α} {evs : List (Event α)}

/-- The invariant for blocks of equal length. -/
abbrev BInv (T B w : Nat) (src0 : List (Sample α)) (s : Batch α) (evs : List (Event α)) : Prop :=
  Inv T (fun t => t * w) (fun t => min ((t + 1) * w) B) src0 s evs

theorem BInv.range (h : BInv T B w src0 s evs) {t slot : Nat} {x : Sample α} (he : (t, slot, x) ∈ fetches evs) :
    t < T ∧ t * w ≤ slot ∧ slot < min ((t + 1) * w) B := by
  have ht : t < T := h.thF _ he
  have hl : t < s.workers.length := h.len ▸ ht
  have hT := h.thread t _ (List.getElem?_eq_getElem hl)
  exact ⟨ht, ((hT.fetched slot).1 ⟨x, he⟩).1, hT.inside slot x he⟩

theorem BInv.slots_nodup (h : BInv T B w src0 s evs) : ((fetches evs).map (fun e => e.2.1)).Nodup := by
  have : (fetches evs).map (fun e => e.2.1) = ((fetches evs).map (fun e => (e.1, e.2.1))).map Prod.snd := by
    rw [List.map_map]; rfl
  rw [this]
  refine List.Nodup.map_on ?_ h.nodupF
  rintro ⟨t, b⟩ h1 ⟨u, c⟩ h2 heq
  obtain ⟨⟨t, b, x⟩, m1, heq1⟩ := List.mem_map.1 h1
  obtain ⟨⟨u, c, y⟩, m2, heq2⟩ := List.mem_map.1 h2
  obtain ⟨rfl, rfl⟩ := Prod.mk.inj heq1
  obtain ⟨rfl, rfl⟩ := Prod.mk.inj heq2
  simp only at heq
  subst heq
  obtain ⟨_, a1, a2⟩ := h.range m1
  obtain ⟨_, b1, b2⟩ := h.range m2
  rw [blocks_disjoint B w t u b a1 a2 b1 b2]

theorem workingOn_busy {t b : Nat} (h : s.workingOn t = some b) :
    ∃ v x, s.workers[t]? = some v ∧ v.2.busy = some x ∧ v.2.slot = b := by
  unfold Batch.workingOn at h
  cases hw : s.workers[t]? with
  | none => rw [hw] at h; simp at h
  | some v =>
    rw [hw] at h
    obtain ⟨c, p⟩ := v
    refine ⟨(c, p), ?_⟩
    cases p <;> simp [Pc.busy, Pc.slot] at h ⊢ <;> exact h

theorem BInv.exclusive (h : BInv T B w src0 s evs) {t u b : Nat} (h1 : s.workingOn t = some b) (h2 : s.workingOn u = some b) :
    t = u := by
  obtain ⟨v, x, e1, e2, e3⟩ := workingOn_busy h1
  obtain ⟨v', x', f1, f2, f3⟩ := workingOn_busy h2
  have m1 := ((h.thread t v e1).busy x e2 x).2 rfl
  have m2 := ((h.thread u v' f1).busy x' f2 x').2 rfl
  rw [e3] at m1
  rw [f3] at m2
  obtain ⟨_, a1, a2⟩ := h.range m1
  obtain ⟨_, b1, b2⟩ := h.range m2
  exact blocks_disjoint B w t u b a1 a2 b1 b2

theorem over_done (h : s.over = true) {t : Nat} {v : Nat × Pc α} (hv : s.workers[t]? = some v) : ∃ b, v.2 = .done b := by
  have := List.all_eq_true.1 h v (List.mem_of_getElem? hv)
  obtain ⟨c, p⟩ := v
  cases p <;> simp at this ⊢

theorem BInv.perm (h : BInv T B w src0 s evs) (ho : s.over = true) : (finishes evs).Perm (fetches evs) := by
  refine (List.perm_ext_iff_of_nodup h.nodupG.of_map h.nodupF.of_map).2 ?_
  rintro ⟨t, b, x⟩
  by_cases ht : t < T
  · have hl : t < s.workers.length := h.len ▸ ht
    have hT := h.thread t _ (List.getElem?_eq_getElem hl)
    obtain ⟨c, hc⟩ := over_done ho (List.getElem?_eq_getElem hl)
    rw [hT.finished b x]
    refine ⟨fun a => a.1, fun a => ⟨a, ?_⟩⟩
    have := ((hT.fetched b).1 ⟨x, a⟩).2
    rw [hc] at this ⊢
    simpa using this
  · exact ⟨fun a => absurd (h.thG _ a) ht, fun a => absurd (h.thF _ a) ht⟩

theorem BInv.le (h : BInv T B w src0 s evs) : (fetches evs).length ≤ min B (T * w) := by
  have hn := h.slots_nodup
  have hsub : (fetches evs).map (fun e => e.2.1) ⊆ List.range (min B (T * w)) := by
    intro b hb
    obtain ⟨⟨t, b, x⟩, m, rfl⟩ := List.mem_map.1 hb
    obtain ⟨ht, _, a⟩ := h.range m
    have : (t + 1) * w ≤ T * w := Nat.mul_le_mul_right _ ht
    rw [List.mem_range]
    simp only
    omega
  have := (List.subperm_of_subset hn hsub).length_le
  simpa using this

theorem BInv.count (h : BInv T B w src0 s evs) (hc : B ≤ T * w) (ho : s.over = true) :
    (fetches evs).length = min B src0.length := by
  have hle := h.le
  have hlen : (fetches evs).length + s.shared.source.length = src0.length := by
    rw [← h.source, List.length_append, List.length_map]
  cases hs : s.shared.source with
  | nil => rw [hs] at hlen; simp at hlen; omega
  | cons y ys =>
    have hsub : List.range B ⊆ (fetches evs).map (fun e => e.2.1) := by
      intro b hb
      rw [List.mem_range] at hb
      obtain ⟨t, ht, a1, a2⟩ := blocks_cover B w T b hc hb
      have hl : t < s.workers.length := h.len ▸ ht
      have hT := h.thread t _ (List.getElem?_eq_getElem hl)
      obtain ⟨c, hd⟩ := over_done ho (List.getElem?_eq_getElem hl)
      have hst := hT.done (by rw [hd]; rfl)
      rw [hs] at hst
      rw [hd] at hst
      simp only [slot_done, reduceCtorEq, or_false] at hst
      obtain ⟨x, hx⟩ := (hT.fetched b).2 ⟨a1, by rw [hd]; simp only [bound_done]; omega⟩
      exact List.mem_map.2 ⟨_, hx, rfl⟩
    have := (List.subperm_of_subset List.nodup_range hsub).length_le
    simp only [List.length_range, List.length_map] at this
    omega

end Cnn.Train
