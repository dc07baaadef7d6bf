import Verif.Lemmas.ShortBatch
import Verif.Lemmas.BatchOrder
/-! Helper lemmas: the update after any batch without any law of arithmetic (C54). -/
namespace Cnn
namespace Train
open Model
variable {α : Type} [Zero α] [One α] [Add α] [Sub α] [Mul α] [Div α] [Neg α]

/-- What the slots contain after a batch, and that the update is computed from all of them. -/
theorem runBatch_contents {E : Env α} {p : Hyper α} {B T : Nat} (hp : p.batch = B) (hq : p.threads = T) (hB : B < 2 ^ 24)
    {sh : Shared α} (hM : sh.model.Prepared B) {sched : List Nat} {q : Shared α × List (Event α)} (h : runBatch E p sched sh = .ok (some q)) :
    (∀ t slot x, (t, slot, x) ∈ fetches q.2 → slot < B ∧ ∃ l, (t, slot, x, l) ∈ grads q.2 ∧
        (l = sh.model.labelIndex x.label → ∀ i, q.1.model.stored i slot = ownGrads E sh.model x i)) ∧
      (∀ slot, (∀ t x, (t, slot, x) ∉ fetches q.2) → ∀ i, q.1.model.stored i slot = sh.model.stored i slot) ∧
      ∀ i p0, sh.model.params i = some p0 → ∃ (gs : List (Matrix α × Matrix α)) (r : Matrix α × Matrix α),
        (List.range B).map (q.1.model.stored i ·) = gs.map some ∧
        applyGrads E.num p.rate p0.1 p0.2 (gs.map (·.1)) (gs.map (·.2)) = .ok r ∧ q.1.model.params i = some r := by
  obtain ⟨M, e1, e2, e3, e4, -, -, -, -⟩ := runBatch_end hp hq hB hM h
  refine ⟨?_, ?_, ?_⟩
  · intro t slot x hm
    obtain ⟨hs, l, hl, hso⟩ := e3 t slot x hm
    refine ⟨hs, l, hl, ?_⟩
    rintro rfl i
    rw [Model.applyBatch_stored e2]
    exact (hso.ownGrads hM hs i).symm
  · intro slot hn i
    rw [Model.applyBatch_stored e2, ← norm_stored, e4 slot hn, norm_stored]
  · intro i p0 hp0
    obtain ⟨gs, r, g1, g2, g3⟩ := Model.applyBatch_params (hM.of_bare e1) e2 (p := p0) (by rw [Model.bare_params e1]; exact hp0)
    refine ⟨gs, r, ?_, g2, g3⟩
    rw [← g1]
    exact List.map_congr_left fun s _ => Model.applyBatch_stored e2 i s

/-- The entries of the parameters after a batch. -/
theorem runBatch_entries {E : Env α} {p : Hyper α} {B T : Nat} (hp : p.batch = B) (hq : p.threads = T) (hB : B < 2 ^ 24)
    {sh : Shared α} (hM : sh.model.Prepared B) {sched : List Nat} {q : Shared α × List (Event α)} (h : runBatch E p sched sh = .ok (some q))
    {i : Nat} {W Bi : Matrix α} {X Y Z F : Nat} {w : Nat → Nat → Nat → α} {β : Nat → α} (hpar : sh.model.params i = some (W, Bi))
    (hW : W.Shows X Y Z w) (hBi : Bi.Shows F 1 1 (fun f _ _ => β f)) :
    ∃ (gw : Nat → Nat → Nat → Nat → α) (gb : Nat → Nat → α) (W' B' : Matrix α),
      (∀ s < B, ∃ G H, q.1.model.stored i s = some (G, H) ∧ G.Reads X Y Z (gw s) ∧ H.Reads F 1 1 (fun f _ _ => gb s f)) ∧
      q.1.model.params i = some (W', B') ∧
      W'.Shows X Y Z (fun a b c => w a b c - p.rate * (sumTo B (fun s => gw s a b c) / E.num.ofNat B)) ∧
      B'.Shows F 1 1 (fun f _ _ => β f - p.rate * (sumTo B (fun s => gb s f) / E.num.ofNat B)) := by
  obtain ⟨-, -, h3⟩ := runBatch_contents hp hq hB hM h
  obtain ⟨gs, r, g1, g2, g3⟩ := h3 i _ hpar
  have hgl : gs.length = B := by simpa using (congrArg List.length g1).symm
  have hi := applyGrads_inv hW hBi g2
  have hone : ∀ s, ∃ (u : Nat → Nat → Nat → α) (v : Nat → α), s < B → ∃ g : Matrix α × Matrix α, gs[s]? = some g ∧ q.1.model.stored i s = some g ∧ g.1.Reads X Y Z u ∧
      g.2.Reads F 1 1 (fun f _ _ => v f) := by
    intro s
    by_cases hs : s < B
    · obtain ⟨G, H, u, v, k1, k2, k3, k4⟩ := hi s (by simpa [hgl] using hs)
      refine ⟨u, fun f => v f 0 0, fun _ => ⟨(G, H), ?_, ?_, k3, ⟨k4.dim, ?_⟩⟩⟩
      · rw [List.getElem?_map, Option.map_eq_some_iff] at k1 k2
        obtain ⟨g, hg, rfl⟩ := k1
        obtain ⟨g', hg', rfl⟩ := k2
        rw [hg] at hg'
        obtain rfl := Option.some.inj hg'
        exact hg
      · have := congrArg (fun l : List (Option (Matrix α × Matrix α)) => l[s]?) g1
        rw [List.getElem?_map, Option.map_eq_some_iff] at k1 k2
        obtain ⟨g, hg, rfl⟩ := k1
        obtain ⟨g', hg', rfl⟩ := k2
        rw [hg] at hg'
        obtain rfl := Option.some.inj hg'
        simp only [List.getElem?_map, List.getElem?_range hs, Option.map_some, hg, Option.some.injEq] at this
        exact this
      · intro f hf a ha b hb
        obtain rfl := Nat.lt_one_iff.1 ha
        obtain rfl := Nat.lt_one_iff.1 hb
        exact k4.entry f hf 0 Nat.one_pos 0 Nat.one_pos
    · exact ⟨fun _ _ _ => 0, fun _ => 0, fun h => absurd h hs⟩
  choose gw gb hone using hone
  obtain ⟨W', B', a1, a2, a3⟩ := applyGrads_reads E.num p.rate hW hBi (gs.map (·.1)) (gs.map (·.2)) gw gb (n := B) (by simp [hgl]) (by simp [hgl])
    (by
      intro k M hk
      rw [List.getElem?_map, Option.map_eq_some_iff] at hk
      obtain ⟨g, hg, rfl⟩ := hk
      obtain ⟨g', c1, _, c2, _⟩ := hone k (by rw [← hgl]; exact (List.getElem?_eq_some_iff.1 hg).1)
      rw [hg] at c1
      obtain rfl := Option.some.inj c1
      exact c2)
    (by
      intro k M hk
      rw [List.getElem?_map, Option.map_eq_some_iff] at hk
      obtain ⟨g, hg, rfl⟩ := hk
      obtain ⟨g', c1, _, _, c2⟩ := hone k (by rw [← hgl]; exact (List.getElem?_eq_some_iff.1 hg).1)
      rw [hg] at c1
      obtain rfl := Option.some.inj c1
      exact c2)
  rw [g2] at a1
  obtain rfl := Res.ok.inj a1
  refine ⟨gw, gb, W', B', fun s hs => ?_, g3, a2, a3⟩
  obtain ⟨g, _, c1, c2, c3⟩ := hone s hs
  exact ⟨g.1, g.2, c1, c2, c3⟩

end Train
end Cnn
