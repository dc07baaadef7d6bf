import Verif.Lemmas.SlotUpdate
import Verif.Props.Reproduce
/-!
# Property C54: what any batch does to the parameters, in any arithmetic
-/
namespace Cnn
namespace Train
open Model
variable {α : Type}

section
variable [Zero α] [One α] [Add α] [Sub α] [Mul α] [Div α] [Neg α]

/-- The slots after any batch, full, short or without any sample, for every schedule and every arithmetic: a slot that a
sample got contains the gradients that this sample gives on its own (if its label was used), and every other slot contains
what it did before the batch. -/
theorem C54_slots_partial (E : Env α) (p : Hyper α) (B T : Nat) (hp : p.batch = B) (hq : p.threads = T) (hB : B < 2 ^ 24)
    (sh : Shared α) (hM : sh.model.Prepared B) (sched : List Nat) (q : Shared α × List (Event α)) (h : runBatch E p sched sh = .ok (some q)) :
    (∀ t slot x, (t, slot, x) ∈ fetches q.2 → slot < B ∧ ∃ l, (t, slot, x, l) ∈ grads q.2 ∧
      (l = sh.model.labelIndex x.label → ∀ i, q.1.model.stored i slot = ownGrads E sh.model x i)) ∧
    ∀ slot, (∀ t x, (t, slot, x) ∉ fetches q.2) → ∀ i, q.1.model.stored i slot = sh.model.stored i slot :=
  let r := runBatch_contents hp hq hB hM h
  ⟨r.1, r.2.1⟩

/-- The parameters after any batch, in any arithmetic: every weight and every bias is lowered by the rate times the sum over
all slots, in the order of the slots, of what the slots contain, divided by the batch size, whether or not the batch put
it there. -/
theorem C54_entries (E : Env α) (p : Hyper α) (B T : Nat) (hp : p.batch = B) (hq : p.threads = T) (hB : B < 2 ^ 24)
    (sh : Shared α) (hM : sh.model.Prepared B) (sched : List Nat) (q : Shared α × List (Event α)) (h : runBatch E p sched sh = .ok (some q))
    (i : Nat) (W Bi : Matrix α) (X Y Z F : Nat) (w : Nat → Nat → Nat → α) (β : Nat → α) (hpar : sh.model.params i = some (W, Bi))
    (hW : W.Shows X Y Z w) (hBi : Bi.Shows F 1 1 (fun f _ _ => β f)) :
    ∃ (gw : Nat → Nat → Nat → Nat → α) (gb : Nat → Nat → α) (W' B' : Matrix α),
      (∀ s < B, ∃ G H, q.1.model.stored i s = some (G, H) ∧ G.Reads X Y Z (gw s) ∧ H.Reads F 1 1 (fun f _ _ => gb s f)) ∧
      q.1.model.params i = some (W', B') ∧
      W'.Shows X Y Z (fun a b c => w a b c - p.rate * (sumTo B (fun s => gw s a b c) / E.num.ofNat B)) ∧
      B'.Shows F 1 1 (fun f _ _ => β f - p.rate * (sumTo B (fun s => gb s f) / E.num.ofNat B)) :=
  runBatch_entries hp hq hB hM h hpar hW hBi

/-- In particular a batch that finds the data source empty processes no sample and still moves the parameters: by the
gradients that the batches before left behind. -/
theorem C54_exhausted (E : Env α) (p : Hyper α) (B T : Nat) (hp : p.batch = B) (hq : p.threads = T) (hB : B < 2 ^ 24)
    (sh : Shared α) (hM : sh.model.Prepared B) (he : sh.source = []) (sched : List Nat) (q : Shared α × List (Event α))
    (h : runBatch E p sched sh = .ok (some q))
    (i : Nat) (W Bi : Matrix α) (X Y Z F : Nat) (w : Nat → Nat → Nat → α) (β : Nat → α) (hpar : sh.model.params i = some (W, Bi))
    (hW : W.Shows X Y Z w) (hBi : Bi.Shows F 1 1 (fun f _ _ => β f)) :
    ∃ (gw : Nat → Nat → Nat → Nat → α) (gb : Nat → Nat → α) (W' B' : Matrix α),
      (∀ s < B, ∃ G H, sh.model.stored i s = some (G, H) ∧ G.Reads X Y Z (gw s) ∧ H.Reads F 1 1 (fun f _ _ => gb s f)) ∧
      q.1.model.params i = some (W', B') ∧
      W'.Shows X Y Z (fun a b c => w a b c - p.rate * (sumTo B (fun s => gw s a b c) / E.num.ofNat B)) ∧
      B'.Shows F 1 1 (fun f _ _ => β f - p.rate * (sumTo B (fun s => gb s f) / E.num.ofNat B)) := by
  obtain ⟨gw, gb, W', B', h1, h2⟩ := C54_entries E p B T hp hq hB sh hM sched q h i W Bi X Y Z F w β hpar hW hBi
  refine ⟨gw, gb, W', B', fun s hs => ?_, h2⟩
  obtain ⟨-, -, -, -, -, -, e6, -⟩ := runBatch_end hp hq hB hM h
  have hf : fetches q.2 = [] := by
    rw [he] at e6
    exact List.eq_nil_of_length_eq_zero (by simpa using e6)
  rw [← (C54_slots_partial E p B T hp hq hB sh hM sched q h).2 s (by simp [hf]) i]
  exact h1 s hs

end

/-- Cases of the theorems in binary64: four samples in a batch of four (C101), and then a batch that finds the source empty;
the latter completes. -/
example : ∃ (sched sched' : List Nat) (o q : Shared Double × List (Event Double)), runBatch doubleEnv orderHyper sched orderShared = .ok (some o) ∧
    o.1.model.Prepared 4 ∧ o.1.source = [] ∧ runBatch doubleEnv orderHyper sched' o.1 = .ok (some q) ∧
    ∃ W Bi w, ∃ β : Nat → Double, o.1.model.params 0 = some (W, Bi) ∧ W.Shows 2 1 1 w ∧ Bi.Shows 2 1 1 (fun f _ _ => β f) := by
  obtain ⟨sched, o, -, -, -, h1, -⟩ := order_run (v0 := 1) (v1 := 2 ^ 60) (v2 := -2 ^ 60) (v3 := 0) (List.Perm.refl _)
  obtain ⟨M, e1, e2, -, -, -, -, -, e8⟩ := runBatch_end (B := 4) (T := 4) rfl rfl (by decide) (sh := orderShared) orderModel_prepared h1
  have hP : o.1.model.Prepared 4 := Model.Prepared.apply (orderModel_prepared.of_bare e1) e2
  have hsrc : o.1.source = [] := by rw [e8]; rfl
  have hent := C54_entries doubleEnv orderHyper 4 4 rfl rfl (by decide) orderShared orderModel_prepared sched o h1 0 _ _ 2 1 1 2 _ (fun _ => 0)
    orderModel_params zeros_show zeros_show
  obtain ⟨gw, gb, W', B', k1, k2, k3, k4⟩ := hent
  have h0 : ∀ i W Bi, o.1.model.params i = some (W, Bi) → i = 0 := by
    intro i W Bi hi
    cases hn : orderModel.params i with
    | none =>
      rw [Model.applyBatch_params_none e2 (by rw [Model.bare_params e1]; exact hn)] at hi
      simp at hi
    | some r => exact (order_params (W := r.1) (Bi := r.2) hn).1
  obtain ⟨sched', q, hq⟩ := (runBatch_progress (E := doubleEnv) (p := orderHyper) (B := 4) (T := 4) rfl rfl (by decide) (by decide) (by decide) hP
    (by rw [hsrc]; simp) (by
      intro i W Bi hi
      obtain rfl := h0 i W Bi hi
      obtain ⟨rfl, rfl⟩ := Prod.mk.inj (Option.some.inj (k2.symm.trans hi))
      exact ⟨2, 1, 1, 2, _, _, k3, k4, by rw [hsrc]; simp⟩) (Or.inr (by
      intro i W Bi X Y Z F w β hi hW hBi s hs
      obtain rfl := h0 i W Bi hi
      obtain ⟨rfl, rfl⟩ := Prod.mk.inj (Option.some.inj (k2.symm.trans hi))
      obtain ⟨d1, d2, d3⟩ := dimN_inj.1 (k3.dim.symm.trans hW.dim)
      obtain ⟨d4, -, -⟩ := dimN_inj.1 (k4.dim.symm.trans hBi.dim)
      subst d1 d2 d3 d4
      obtain ⟨G, H, g1, g2, g3⟩ := k1 s hs
      exact ⟨G, H, _, _, g1, g2, g3⟩))).2
  exact ⟨sched, sched', o, q, h1, hP, hsrc, hq, W', B', _, _, k2, k3, k4⟩

end Train
end Cnn
