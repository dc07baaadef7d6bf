import Verif.Lemmas.NetDescent
/-! Helper lemmas: the last batch of an epoch when it is short (C54). -/
namespace Cnn
open Finset Model

section
variable {α : Type} [Zero α] [One α] [Add α] [Sub α] [Mul α] [Div α] [Neg α]

omit [One α] [Neg α] in
/-- An update leaves the contents of the slots alone. -/
theorem Body.applyBatch_stored {N : Num α} {lr : α} {B B' : Body α} (h : B.applyBatch N lr = .ok B') (s : Nat) :
    B'.stored s = B.stored s := by
  cases B with
  | kernel K =>
    obtain ⟨K', hK, hb⟩ := Res.bind_eq_ok h
    obtain rfl := Res.ok.inj hb
    obtain ⟨r, hr, hK⟩ := Res.bind_eq_ok hK
    obtain rfl := Res.ok.inj hK
    rfl
  | connected L =>
    obtain ⟨K', hK, hb⟩ := Res.bind_eq_ok h
    obtain rfl := Res.ok.inj hb
    obtain ⟨r, hr, hK⟩ := Res.bind_eq_ok hK
    obtain rfl := Res.ok.inj hK
    rfl
  | pooling P => obtain rfl := Res.ok.inj h; rfl
  | activation A => obtain rfl := Res.ok.inj h; rfl
  | softmax S => obtain rfl := Res.ok.inj h; rfl

theorem Model.applyBatch_stored {N : Num α} {lr : α} {M M' : Model α} (h : M.applyBatch N lr = .ok M') (i s : Nat) :
    M'.stored i s = M.stored i s := by
  obtain ⟨h1, _, h3⟩ := Model.applyBatch_get h
  unfold Model.stored
  cases hm : M.layers[i]? with
  | none =>
    rw [List.getElem?_eq_none_iff] at hm
    rw [List.getElem?_eq_none (by omega)]
  | some l =>
    obtain ⟨b, hb, hm'⟩ := h3 i l hm
    rw [hm', Option.bind_some, Option.bind_some]
    exact Body.applyBatch_stored hb s
end

namespace Train
variable {α : Type} [Field α]

/-- After a full batch with the right labels every slot contains the gradients of one of its samples. -/
theorem full_slots {E : Env α} {p : Hyper α} {B T : Nat} (hp : p.batch = B) (hq : p.threads = T) (hB : B < 2 ^ 24)
    {sh : Shared α} (hM : sh.model.Prepared B) (hfull : B ≤ sh.source.length) {sched : List Nat} {q : Shared α × List (Event α)}
    (h : runBatch E p sched sh = .ok (some q)) (hown : OwnLabels sh.model q.2) (s : Nat) (hs : s < B) :
    ∃ x ∈ sh.source.take B, ∀ i, q.1.model.stored i s = ownGrads E sh.model x i := by
  obtain ⟨M, e1, e2, e3, e4, e5, e6, e7, e8⟩ := runBatch_end hp hq hB hM h
  have hsub : (fetches q.2).map (fun e => e.2.1) ⊆ List.range B := by
    intro s hs
    obtain ⟨⟨t, s', x⟩, he, rfl⟩ := List.mem_map.1 hs
    exact List.mem_range.2 (e3 t s' x he).1
  have hperm : ((fetches q.2).map (fun e => e.2.1)).Perm (List.range B) :=
    (e5.subperm hsub).perm_of_length_le (by simp [e6]; omega)
  obtain ⟨⟨t, s', x⟩, he, hse⟩ := List.mem_map.1 (hperm.mem_iff.2 (List.mem_range.2 hs))
  obtain rfl : s' = s := hse
  refine ⟨x, by rw [← e7]; exact List.mem_map.2 ⟨_, he, rfl⟩, fun i => ?_⟩
  obtain ⟨hs, l, hl, hso⟩ := e3 t s' x he
  obtain rfl := hown t s' x l hl
  rw [Model.applyBatch_stored e2, hso.ownGrads hM hs i]

end Train
end Cnn
