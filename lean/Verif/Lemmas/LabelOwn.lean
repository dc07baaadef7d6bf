import Verif.Lemmas.OneLabel
/-! Helper lemmas: in a batch of samples with the same label every gradient uses the right one (C113). -/
namespace Cnn
open Model Train
variable {α : Type} [Zero α] [One α] [Add α] [Sub α] [Mul α] [Div α] [Neg α]

/-- The samples gradients are computed for were fetched. -/
theorem run_fetched {E : Env α} {B T : Nat} (hB : B < 2 ^ 24) {sh : Shared α} {s : Batch α} (hs : startBatch B T sh = .ok s)
    {sched : List Nat} {r : Batch α × List (Event α)} (hr : s.run E sched = .ok r) (t slot : Nat) (x : Sample α) (l : Nat)
    (hm : (t, slot, x, l) ∈ grads r.2) : (t, slot, x) ∈ fetches r.2 := by
  obtain ⟨w, hw, rfl⟩ := startBatch_inv (by omega) hs
  have hf := labelled_fetched (batch_init (E := E) sh).1 (by simp [labelled]) hr
  have h0 : LInv sh.model (⟨sh, (List.range T).map (fun t => (min ((t + 1) * w) B, Pc.fetch (t * w)))⟩ : Batch α) [] := by
    refine ⟨rfl, by simp [labelled], ?_, by simp [UsesLast]⟩
    intro t c slot x r n d h
    simp only [List.getElem?_map, Option.map_eq_some_iff, Prod.mk.injEq, reduceCtorEq, and_false, exists_false] at h
  have hL := h0.run hr
  simp only [List.nil_append] at hL hf
  simp only [grads, List.mem_filterMap] at hm
  obtain ⟨ev, hev, he⟩ := hm
  obtain ⟨pre, post, hsp⟩ := List.append_of_mem hev
  have : ev = .grad t slot x l := by
    cases ev <;> simp at he
    obtain ⟨rfl, rfl, rfl, rfl⟩ := he
    rfl
  subst this
  refine hf _ ?_
  rw [hsp, labelled_append]
  exact List.mem_append_left _ (hL.last pre post t slot x l hsp).1

theorem ownLabels_alike {E : Env α} {p : Hyper α} {B T : Nat} (hp : p.batch = B) (hq : p.threads = T) (hB : B < 2 ^ 24) {sh : Shared α} (hM : sh.model.Prepared B)
    (hone : ∀ x ∈ sh.source.take B, ∀ y ∈ sh.source.take B, x.label = y.label)
    {sched : List Nat} {q : Shared α × List (Event α)} (h : runBatch E p sched sh = .ok (some q)) : OwnLabels sh.model q.2 := by
  have ho := fetchedOwn_alike hp hq hB hM hone h
  obtain ⟨s, r, hs, hr, _, _, h2, _⟩ := runBatch_split h
  rw [hp, hq] at hs
  intro t slot x l hg
  exact ho t slot x l (by rw [h2]; exact run_fetched hB hs hr t slot x l (by rw [← h2]; exact hg)) hg

end Cnn
