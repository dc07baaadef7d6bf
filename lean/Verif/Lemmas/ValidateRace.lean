import Verif.Lemmas.ValidateRun
/-! Helper lemmas: one thread of the validation run going ahead (C73). -/
set_option linter.unusedSectionVars false
namespace Cnn.Validate
open Model Mnist
variable {α : Type} [Zero α] [One α] [Add α] [Sub α] [Mul α] [Div α] [Neg α]
variable {E : Env α} {conv : F32 → α} {big : Bool} {lim : Nat} {f : Content} {M0 : Model α} {B T : Nat} {ks : List LayerKind}

theorem run_append {S : Setup α} (l₂ : List Nat) : ∀ (l₁ : List Nat) {b : State α} {r q : State α × List Event}, b.run S l₁ = .ok r → r.1.run S l₂ = .ok q →
    b.run S (l₁ ++ l₂) = .ok (q.1, r.2 ++ q.2) := by
  intro l₁
  induction l₁ with
  | nil =>
    intro b r q h h'
    obtain rfl := Res.ok.inj h
    simpa using h'
  | cons t ts ih =>
    intro b r q h h'
    rw [State.run] at h
    obtain ⟨x, e, h⟩ := Res.bind_eq_ok h
    obtain ⟨y, e', h⟩ := Res.bind_eq_ok h
    obtain rfl := Res.ok.inj h
    rw [List.cons_append, State.run, e, Res.bind_ok, ih e' h', Res.bind_ok]
    simp

/-- Where a step takes a thread. -/
theorem Pc.step_next {S : Setup α} {t : Nat} {sh : Shared α} {i : Int} (hi : i < S.num) {w : Pc α} {sh' : Shared α} {ev : List Event}
    (h : (Pc.next i : Pc α).step S t sh = .ok (w, sh', ev)) : ∃ im s, w = .forward i im 0 s := by
  simp only [Pc.step] at h
  rw [if_pos hi] at h
  split at h
  · obtain ⟨s, _, h⟩ := Res.bind_eq_ok h
    exact ⟨_, _, (Prod.mk.inj (Res.ok.inj h)).1.symm⟩
  all_goals exact absurd h (by simp)

theorem Pc.step_forward {S : Setup α} {t : Nat} {sh : Shared α} {i : Int} {im : Image} {k : Nat} {s : Matrix α × List (Matrix α)} (hk : k < sh.model.layers.length)
    {w : Pc α} {sh' : Shared α} {ev : List Event} (h : (Pc.forward i im k s : Pc α).step S t sh = .ok (w, sh', ev)) : ∃ s, w = .forward i im (k + 1) s := by
  simp only [Pc.step] at h
  rw [if_pos hk] at h
  obtain ⟨s, _, h⟩ := Res.bind_eq_ok h
  exact ⟨_, (Prod.mk.inj (Res.ok.inj h)).1.symm⟩

theorem terminate_eq {β : Type} {a : Res β} {r : β} (h : Train.terminate a = .ok r) : a = .ok r := by
  cases a <;> first | exact h | exact absurd h (by simp [Train.terminate])

theorem step_eq {S : Setup α} {b : State α} {t : Nat} {r : State α × List Event} {w : Pc α} (hw : b.workers[t]? = some w) (h : b.step S t = .ok r) :
    ∃ w' sh', w.step S t b.shared = .ok (w', sh', r.2) ∧ r.1 = ⟨sh', b.workers.set t w'⟩ := by
  unfold State.step at h
  rw [hw] at h
  obtain ⟨⟨w', sh', ev⟩, e, h⟩ := Res.bind_eq_ok h
  obtain rfl := Res.ok.inj h
  exact ⟨w', sh', terminate_eq e, rfl⟩

/-- A thread at the start of its loop goes ahead to layer `k`. -/
theorem Inv.drive (ok : f.Ok lim) (hT0 : 0 < T) (hT : f.n + T < 2147483648) (hB : 0 < B) (hM : M0.Shaped B ⟨f.h, f.w, 1⟩ ks M0.labels) (hr : M0.Ready)
    (hW : KindsWork true ⟨f.h, f.w, 1⟩ ks) {b : State α} {evs : List Event} (h : Inv E conv f M0 B T ⟨f.h, f.w, 1⟩ ks b evs) {t i : Nat} (hi : i < f.n)
    (hw : b.workers[t]? = some (.next (i : Int))) : ∀ k ≤ ks.length + 1, ∃ r, b.run ⟨E, conv, big, lim, f.n, T⟩ (List.replicate (k + 1) t) = .ok r ∧
      Inv E conv f M0 B T ⟨f.h, f.w, 1⟩ ks r.1 (evs ++ r.2) ∧ At r.1 t k ∧ ∀ t', t' ≠ t → r.1.workers[t']? = b.workers[t']? := by
  have htl : t < b.workers.length := (List.getElem?_eq_some_iff.1 hw).1
  intro k
  induction k with
  | zero =>
    intro _
    obtain ⟨r, e, h1, _⟩ := h.step (big := big) ok hT0 hT hB hM hr hW t
    obtain ⟨w', sh', e1, e2⟩ := step_eq hw e
    obtain ⟨im, s, rfl⟩ := Pc.step_next (by show (i : Int) < (f.n : Int); omega) e1
    refine ⟨r, by simp [State.run, e], h1, ⟨i, im, s, ?_⟩, ?_⟩
    · rw [e2]; exact List.getElem?_set_self htl
    · intro t' ht; rw [e2]; exact List.getElem?_set_ne (Ne.symm ht)
  | succ k ih =>
    intro hk
    obtain ⟨r, e, h1, ⟨j, im, s, hat⟩, hne⟩ := ih (by omega)
    obtain ⟨q, e', h2, _⟩ := h1.step (big := big) ok hT0 hT hB hM hr hW t
    obtain ⟨w', sh', e1, e2⟩ := step_eq hat e'
    obtain ⟨s', rfl⟩ := Pc.step_forward (by rw [h1.shaped.count]; omega) e1
    refine ⟨(q.1, r.2 ++ q.2), ?_, by rw [← List.append_assoc]; exact h2, ⟨j, im, s', ?_⟩, ?_⟩
    · rw [List.replicate_succ' (n := k + 1)]
      refine run_append [t] _ e ?_
      simp [State.run, e']
    · simp only [e2]; exact List.getElem?_set_self (List.getElem?_eq_some_iff.1 hat).1
    · intro t' ht
      simp only [e2]
      rw [List.getElem?_set_ne (Ne.symm ht)]
      exact hne t' ht

end Cnn.Validate
