import Verif.Lemmas.InOrder
import Verif.Props.SlotUpdate
import Verif.Props.Resume
/-!
# Training with one thread: C54
-/
namespace Cnn
open Train Model

section
variable {α : Type} [Zero α] [One α] [Add α] [Sub α] [Mul α] [Div α] [Neg α]

/-- C54, what happens with one thread, in any arithmetic: every weight and every bias is lowered by the rate times a sum divided by
the batch size. The sum adds, one after the other, what the samples give on their own, in the order of the source, and
behind them, if the batch is short, what the slots held before. -/
theorem C54_one_thread (E : Env α) (p : Hyper α) (B : Nat) (hp : p.batch = B) (hq : p.threads = 1) (hB : B < 2 ^ 24)
    (sh : Shared α) (hM : sh.model.Prepared B) (sched : List Nat) (q : Shared α × List (Event α)) (h : runBatch E p sched sh = .ok (some q))
    (i : Nat) (W Bi : Matrix α) (X Y Z F : Nat) (w : Nat → Nat → Nat → α) (β : Nat → α) (hpar : sh.model.params i = some (W, Bi))
    (hW : W.Shows X Y Z w) (hBi : Bi.Shows F 1 1 (fun f _ _ => β f)) :
    ∃ (gw : Nat → Nat → Nat → Nat → α) (gb : Nat → Nat → α) (W' B' : Matrix α),
      (∀ s < B, ∃ G H, (match sh.source[s]? with | some x => ownGrads E sh.model x i | none => sh.model.stored i s) = some (G, H) ∧
        G.Reads X Y Z (gw s) ∧ H.Reads F 1 1 (fun f _ _ => gb s f)) ∧
      q.1.model.params i = some (W', B') ∧
      W'.Shows X Y Z (fun a b c => w a b c - p.rate * (sumTo B (fun s => gw s a b c) / E.num.ofNat B)) ∧
      B'.Shows F 1 1 (fun f _ _ => β f - p.rate * (sumTo B (fun s => gb s f) / E.num.ofNat B)) := by
  obtain ⟨gw, gb, W', B', h1, h2⟩ := C54_entries E p B 1 hp hq hB sh hM sched q h i W Bi X Y Z F w β hpar hW hBi
  obtain ⟨M, _, e2, e3⟩ := runBatch_left hp hq hB hM h
  refine ⟨gw, gb, W', B', fun s hs => ?_, h2⟩
  obtain ⟨G, H, g1, g2⟩ := h1 s hs
  refine ⟨G, H, ?_, g2⟩
  rw [Model.applyBatch_stored e2] at g1
  cases hx : sh.source[s]? with
  | some x => rw [← g1, (e3 i s hs).1 x hx]
  | none => rw [← g1, (e3 i s hs).2 hx]

end

/-- It applies: a batch of two samples in binary64 completes with one thread, and the new weight of the second class is the sum of
the two gradients, in this order. -/
example (w u v : Binary64) : ∃ sched q, runBatch (binary64Env fun _ _ => 0) ⟨1, 2, 1, 1⟩ sched
      ⟨(tinyModel w).setBatchSize 2, [⟨⟨dimN 1 1 1, [u]⟩, "a".toList⟩, ⟨⟨dimN 1 1 1, [v]⟩, "b".toList⟩], 0⟩ = .ok (some q) ∧
    ∃ (g g' : Matrix Binary64 × Matrix Binary64) (W' B' : Matrix Binary64) (y : Nat → Nat → Nat → Binary64) (a b : Binary64),
      ownGrads (binary64Env fun _ _ => 0) ((tinyModel w).setBatchSize 2) ⟨⟨dimN 1 1 1, [u]⟩, "a".toList⟩ 0 = some g ∧
      ownGrads (binary64Env fun _ _ => 0) ((tinyModel w).setBatchSize 2) ⟨⟨dimN 1 1 1, [v]⟩, "b".toList⟩ 0 = some g' ∧
      g.1.read (dimN 1 0 0) = .ok a ∧ g'.1.read (dimN 1 0 0) = .ok b ∧ q.1.model.params 0 = some (W', B') ∧ W'.Shows 2 1 1 y ∧
      y 1 0 0 = w - 1 * ((0 + a + b) / (binary64Env fun _ _ => 0).num.ofNat 2) := by
  obtain ⟨es, N, h1, h2⟩ := C70_train_ends (binary64Env fun _ _ => 0) rfl ⟨1, 2, 1, 1⟩ 2 1 rfl rfl (by decide) (by decide) (by decide) (by decide) 2
    (by decide) (by decide) (tinyModel w) ⟨1, 1, 1⟩ [.full 2] (tinyModel_runs _) roundKinds_work
    [[⟨⟨dimN 1 1 1, [u]⟩, "a".toList⟩, ⟨⟨dimN 1 1 1, [v]⟩, "b".toList⟩]] rfl (by
      intro e he x hx
      rw [List.mem_singleton] at he
      subst he
      simp only [List.mem_cons, List.not_mem_nil, or_false] at hx
      rcases hx with rfl | rfl
      · exact ⟨⟨fun _ _ _ => u, Matrix.Shows.of_vals ⟨by decide, by decide, by decide, by decide⟩ rfl (by simp)⟩, by simp [tinyModel]⟩
      · exact ⟨⟨fun _ _ _ => v, Matrix.Shows.of_vals ⟨by decide, by decide, by decide, by decide⟩ rfl (by simp)⟩, by simp [tinyModel]⟩) (by simp)
  obtain ⟨⟨cs, src⟩, rfl⟩ : ∃ e, es = [e] := List.length_eq_one_iff.1 (by simpa using congrArg List.length h1)
  obtain rfl : src = _ := by simpa using h1
  have h2 := train_epochs (B := 2) rfl (by decide) h2
  rw [List.foldlM_cons] at h2
  obtain ⟨o, ho, h2⟩ := Res.bind_eq_ok h2
  obtain ⟨r, hr, ho⟩ := Res.bind_eq_ok ho
  obtain rfl := Res.ok.inj ho
  cases r with
  | none => exact absurd (Res.ok.inj h2) (by simp)
  | some q =>
    obtain ⟨_, hcs, hr⟩ := runEpoch_inv (B := 2) rfl (by decide) (by decide) hr
    obtain ⟨sched, rfl⟩ : ∃ s, cs = [s] := List.length_eq_one_iff.1 (by simpa using hcs)
    obtain ⟨r, t, k1, k2, k3⟩ := runBatches_cons hr
    have sW : (tinyLayer w).weights.Shows 2 1 1 (fun i _ _ => if i = 0 then 0 else w) := by
      refine Matrix.Shows.of_vals ⟨by omega, by omega, by omega, by omega⟩ rfl ?_
      simp [tinyLayer, List.range_succ]
    have sB : (tinyLayer w).biases.Shows 2 1 1 (fun _ _ _ => 0) := by
      refine Matrix.Shows.of_vals ⟨by omega, by omega, by omega, by omega⟩ rfl ?_
      simp [tinyLayer, List.range_succ]
    obtain ⟨gw, gb, W', B', c1, c2, c3, _⟩ := C54_one_thread _ ⟨1, 2, 1, 1⟩ 2 rfl rfl (by decide) _
      ((setBatchSize_shaped (tinyModel_runs _)).prepared roundKinds_work (setBatchSize_used (tinyModel_used _) 2)) sched r k1 0 _ _ 2 1 1 2 _ _ rfl sW sB
    obtain ⟨G, H, d1, d2, _⟩ := c1 0 (by decide)
    obtain ⟨G', H', d1', d2', _⟩ := c1 1 (by decide)
    exact ⟨sched, r, k1, (G, H), (G', H'), W', B', _, gw 0 1 0 0, gw 1 1 0 0, d1, d1', d2.entry 1 (by decide) 0 (by decide) 0 (by decide),
      d2'.entry 1 (by decide) 0 (by decide) 0 (by decide), c2, c3, rfl⟩

end Cnn
