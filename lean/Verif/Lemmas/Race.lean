import Verif.Model.Race
import Verif.Lemmas.OverlapTrain
import Verif.Lemmas.Warm
/-! Helper lemmas: training with the first calls of fully connected layers cut at their accesses (C80). -/
set_option linter.unusedSectionVars false
namespace Cnn
namespace FirstUse
variable {α : Type} [Zero α] [Add α] [Mul α] [Div α]

/-- What a call that nobody disturbs has done to the layer `L0` when it is at the given place. -/
def Part (N : Num α) (d : Nat → α) (X : Matrix α) (L0 : Connected α) : Pc α → Connected α → Prop
  | .size, L => L = L0
  | .test e, L => L = L0 ∧ L0.expected X = .ok e
  | .compare e, L => L = L0 ∧ L0.expected X = .ok e ∧ L0.initialized = true
  | .claim e, L => L = L0 ∧ L0.expected X = .ok e ∧ L0.initialized = false
  | .inputDim e, L => L = { L0 with initialized := true } ∧ L0.expected X = .ok e ∧ L0.initialized = false
  | .alloc e, L => L = { L0 with initialized := true, inputDim := X.dim } ∧ L0.expected X = .ok e ∧ L0.initialized = false
  | .fillW, L => ∃ e W, L = { L0 with initialized := true, inputDim := X.dim, weights := W } ∧ L0.expected X = .ok e ∧ L0.initialized = false ∧
      Matrix.ofDim e 0 = .ok W
  | .fillB, L => ∃ e W W1, L = { L0 with initialized := true, inputDim := X.dim, weights := W1 } ∧ L0.expected X = .ok e ∧ L0.initialized = false ∧
      Matrix.ofDim e 0 = .ok W ∧ W.fillDraws d 0 = .ok W1
  | .normW, L => ∃ e W W1 B1, L = { L0 with initialized := true, inputDim := X.dim, weights := W1, biases := B1 } ∧ L0.expected X = .ok e ∧
      L0.initialized = false ∧ Matrix.ofDim e 0 = .ok W ∧ W.fillDraws d 0 = .ok W1 ∧ L0.biases.fillDraws d W1.vals.length = .ok B1
  | .normB, L => ∃ e W W1 B1 W2, L = { L0 with initialized := true, inputDim := X.dim, weights := W2, biases := B1 } ∧ L0.expected X = .ok e ∧
      L0.initialized = false ∧ Matrix.ofDim e 0 = .ok W ∧ W.fillDraws d 0 = .ok W1 ∧ L0.biases.fillDraws d W1.vals.length = .ok B1 ∧
      W1.normalise N = .ok W2
  | .compute, L => (L = L0 ∧ L0.initialized = true ∧ ∃ e, L0.expected X = .ok e ∧ L0.weights.dim = e) ∨
      (L0.initialized = false ∧ ∃ e W B, L0.expected X = .ok e ∧ L0.initWeights N d e = .ok (W, B) ∧
        L = { L0 with initialized := true, inputDim := X.dim, weights := W, biases := B })
  | .done r, L => (L0.forward N d X).1 = r ∧ ∀ out, r = .ok out → (L0.forward N d X).2 = L

/-- How many steps are left at most. -/
def rank : Pc α → Nat
  | .size => 11
  | .test _ => 10
  | .claim _ => 9
  | .inputDim _ => 8
  | .alloc _ => 7
  | .fillW => 6
  | .fillB => 5
  | .normW => 4
  | .normB => 3
  | .compare _ => 3
  | .compute => 2
  | .done _ => 0

theorem rank_step (N : Num α) (L : Connected α) (c : Pc α) (X : Matrix α) (d : Nat → α) (hc : 0 < rank c) : rank (step N L ⟨c, X, d⟩).1 < rank c := by
  have hn : ∀ {β : Type} (r : Res β) (f : β → Pc α × Connected α) (n : Nat), 0 < n → (∀ a, rank (f a).1 < n) → rank (next L r f).1 < n := by
    intro β r f n h0 h
    cases r with
    | ok a => exact h a
    | _ => exact h0
  cases c <;> simp only [step]
  case size => exact hn _ _ _ hc fun _ => by simp [rank]
  case test e => split <;> simp [rank]
  case claim e => simp [rank]
  case inputDim e => simp [rank]
  case alloc e => exact hn _ _ _ hc fun _ => by simp [rank]
  case fillW => exact hn _ _ _ hc fun _ => by simp [rank]
  case fillB => exact hn _ _ _ hc fun _ => by simp [rank]
  case normW => exact hn _ _ _ hc fun _ => by simp [rank]
  case normB => exact hn _ _ _ hc fun _ => by simp [rank]
  case compare e => split <;> simp [rank]
  case compute => simp [rank]
  case done r => simp [rank] at hc

theorem forward_of {N : Num α} {d : Nat → α} {X : Matrix α} {L0 : Connected α} {e : Dim3} (h : L0.expected X = .ok e) (hi : L0.initialized = true) :
    L0.forward N d X = (if L0.weights.dim = e then L0.compute X else .throw .modelLayer, L0) := by
  unfold Connected.forward Connected.checkSize
  simp [h, hi]

theorem forward_new {N : Num α} {d : Nat → α} {X : Matrix α} {L0 : Connected α} {e : Dim3} (h : L0.expected X = .ok e) (hi : L0.initialized = false) :
    L0.forward N d X = match L0.initWeights N d e with
      | .ok q => (({ L0 with initialized := true, inputDim := X.dim, weights := q.1, biases := q.2 } : Connected α).compute X,
          { L0 with initialized := true, inputDim := X.dim, weights := q.1, biases := q.2 })
      | .throw x => (.throw x, { L0 with initialized := true, inputDim := X.dim })
      | .ub => (.ub, { L0 with initialized := true, inputDim := X.dim })
      | .abort => (.abort, { L0 with initialized := true, inputDim := X.dim }) := by
  unfold Connected.forward Connected.checkSize
  rw [h]
  dsimp only
  rw [hi]
  cases L0.initWeights N d e <;> rfl

theorem Part.step {N : Num α} {d : Nat → α} {X : Matrix α} {L0 L : Connected α} {c : Pc α} (h : Part N d X L0 c L) (hc : 0 < rank c) :
    Part N d X L0 (FirstUse.step N L ⟨c, X, d⟩).1 (FirstUse.step N L ⟨c, X, d⟩).2 := by
  have fail : ∀ {e : Dim3}, L0.expected X = .ok e → L0.initialized = false → ∀ {β : Type} (r : Res β) (f : β → Pc α × Connected α) (L : Connected α),
      (∀ x, r = .throw x → L0.initWeights N d e = .throw x) → (r = .ub → L0.initWeights N d e = .ub) → (r = .abort → L0.initWeights N d e = .abort) →
      (∀ a, r = .ok a → Part N d X L0 (f a).1 (f a).2) → Part N d X L0 (next L r f).1 (next L r f).2 := by
    intro e he hi β r f L h1 h2 h3 h4
    cases r with
    | ok a => exact h4 a rfl
    | throw x =>
      refine ⟨?_, fun out ho => by cases ho⟩
      rw [forward_new he hi, h1 x rfl]
    | ub =>
      refine ⟨?_, fun out ho => by cases ho⟩
      rw [forward_new he hi, h2 rfl]
    | abort =>
      refine ⟨?_, fun out ho => by cases ho⟩
      rw [forward_new he hi, h3 rfl]
  cases c <;> simp only [FirstUse.step]
  case size =>
    obtain rfl : L = L0 := h
    cases he : L.expected X with
    | ok e => exact ⟨rfl, he⟩
    | throw x =>
      refine ⟨?_, fun out ho => by cases ho⟩
      unfold Connected.forward Connected.checkSize
      rw [he]; rfl
    | ub =>
      refine ⟨?_, fun out ho => by cases ho⟩
      unfold Connected.forward Connected.checkSize
      rw [he]; rfl
    | abort =>
      refine ⟨?_, fun out ho => by cases ho⟩
      unfold Connected.forward Connected.checkSize
      rw [he]; rfl
  case test e =>
    obtain ⟨rfl, he⟩ := h
    cases hi : L.initialized with
    | true => exact ⟨rfl, he, hi⟩
    | false => exact ⟨rfl, he, hi⟩
  case claim e =>
    obtain ⟨rfl, he, hi⟩ := h
    exact ⟨rfl, he, hi⟩
  case inputDim e =>
    obtain ⟨rfl, he, hi⟩ := h
    exact ⟨rfl, he, hi⟩
  case alloc e =>
    obtain ⟨rfl, he, hi⟩ := h
    refine fail he hi _ _ _ ?_ ?_ ?_ fun W hW => ⟨e, W, rfl, he, hi, hW⟩
    · intro x hx; unfold Connected.initWeights; rw [hx]; rfl
    · intro hx; unfold Connected.initWeights; rw [hx]; rfl
    · intro hx; unfold Connected.initWeights; rw [hx]; rfl
  case fillW =>
    obtain ⟨e, W, rfl, he, hi, hW⟩ := h
    refine fail he hi _ _ _ ?_ ?_ ?_ fun W1 hW1 => ⟨e, W, W1, rfl, he, hi, hW, hW1⟩
    · intro x hx; unfold Connected.initWeights initParams; rw [hW, Res.bind_ok, hx]; rfl
    · intro hx; unfold Connected.initWeights initParams; rw [hW, Res.bind_ok, hx]; rfl
    · intro hx; unfold Connected.initWeights initParams; rw [hW, Res.bind_ok, hx]; rfl
  case fillB =>
    obtain ⟨e, W, W1, rfl, he, hi, hW, hW1⟩ := h
    refine fail he hi _ _ _ ?_ ?_ ?_ fun B1 hB1 => ⟨e, W, W1, B1, rfl, he, hi, hW, hW1, hB1⟩
    · intro x hx; unfold Connected.initWeights initParams; rw [hW, Res.bind_ok, hW1, Res.bind_ok, hx]; rfl
    · intro hx; unfold Connected.initWeights initParams; rw [hW, Res.bind_ok, hW1, Res.bind_ok, hx]; rfl
    · intro hx; unfold Connected.initWeights initParams; rw [hW, Res.bind_ok, hW1, Res.bind_ok, hx]; rfl
  case normW =>
    obtain ⟨e, W, W1, B1, rfl, he, hi, hW, hW1, hB1⟩ := h
    refine fail he hi _ _ _ ?_ ?_ ?_ fun W2 hW2 => ⟨e, W, W1, B1, W2, rfl, he, hi, hW, hW1, hB1, hW2⟩
    · intro x hx; unfold Connected.initWeights initParams; rw [hW, Res.bind_ok, hW1, Res.bind_ok, hB1, Res.bind_ok, hx]; rfl
    · intro hx; unfold Connected.initWeights initParams; rw [hW, Res.bind_ok, hW1, Res.bind_ok, hB1, Res.bind_ok, hx]; rfl
    · intro hx; unfold Connected.initWeights initParams; rw [hW, Res.bind_ok, hW1, Res.bind_ok, hB1, Res.bind_ok, hx]; rfl
  case normB =>
    obtain ⟨e, W, W1, B1, W2, rfl, he, hi, hW, hW1, hB1, hW2⟩ := h
    refine fail he hi _ _ _ ?_ ?_ ?_ fun B2 hB2 => Or.inr ⟨hi, e, W2, B2, he, ?_, rfl⟩
    · intro x hx; unfold Connected.initWeights initParams; rw [hW, Res.bind_ok, hW1, Res.bind_ok, hB1, Res.bind_ok, hW2, Res.bind_ok, hx]; rfl
    · intro hx; unfold Connected.initWeights initParams; rw [hW, Res.bind_ok, hW1, Res.bind_ok, hB1, Res.bind_ok, hW2, Res.bind_ok, hx]; rfl
    · intro hx; unfold Connected.initWeights initParams; rw [hW, Res.bind_ok, hW1, Res.bind_ok, hB1, Res.bind_ok, hW2, Res.bind_ok, hx]; rfl
    · unfold Connected.initWeights initParams; rw [hW, Res.bind_ok, hW1, Res.bind_ok, hB1, Res.bind_ok, hW2, Res.bind_ok, hB2]; rfl
  case compare e =>
    obtain ⟨rfl, he, hi⟩ := h
    by_cases hd : L.weights.dim = e
    · rw [if_pos hd]
      exact Or.inl ⟨rfl, hi, e, he, hd⟩
    · rw [if_neg hd]
      refine ⟨?_, fun out ho => by cases ho⟩
      rw [forward_of he hi, if_neg hd]
  case compute =>
    rcases h with ⟨rfl, hi, e, he, hd⟩ | ⟨hi, e, W, B, he, hw, rfl⟩
    · refine ⟨?_, fun _ _ => ?_⟩
      · rw [forward_of he hi, if_pos hd]
      · rw [forward_of he hi]
    · refine ⟨?_, fun _ _ => ?_⟩
      · rw [forward_new he hi, hw]
      · rw [forward_new he hi, hw]
  case done r => simp [rank] at hc

/-- In a layer that has been used a call changes nothing. -/
theorem step_used {N : Num α} {d : Nat → α} {X : Matrix α} {L : Connected α} {c : Pc α} (h : Part N d X L c L) (hi : L.initialized = true) :
    (FirstUse.step N L ⟨c, X, d⟩).2 = L := by
  have hf : ¬ L.initialized = false := by rw [hi]; decide
  cases c <;> simp only [FirstUse.step]
  case size => cases L.expected X <;> rfl
  case claim => exact absurd h.2.2 hf
  case inputDim => exact absurd h.2.2 hf
  case alloc => exact absurd h.2.2 hf
  case fillW => obtain ⟨_, _, _, _, h, _⟩ := h; exact absurd h hf
  case fillB => obtain ⟨_, _, _, _, _, h, _⟩ := h; exact absurd h hf
  case normW => obtain ⟨_, _, _, _, _, _, h, _⟩ := h; exact absurd h hf
  case normB => obtain ⟨_, _, _, _, _, _, _, h, _⟩ := h; exact absurd h hf

theorem Part.same {N : Num α} {d : Nat → α} {X : Matrix α} {L L' : Connected α} {c : Pc α} (h : Part N d X L c L) (hi : L.initialized = true)
    (hc : 0 < rank c) (hw : L'.weights = L.weights) (hb : L'.biases = L.biases) (hi' : L'.initialized = true) : Part N d X L' c L' := by
  have hf : ¬ L.initialized = false := by rw [hi]; decide
  have he : L'.expected X = L.expected X := by unfold Connected.expected; rw [hb]
  cases c
  case size => exact rfl
  case test => exact ⟨rfl, he.trans h.2⟩
  case compare => exact ⟨rfl, he.trans h.2.1, hi'⟩
  case claim => exact absurd h.2.2 hf
  case inputDim => exact absurd h.2.2 hf
  case alloc => exact absurd h.2.2 hf
  case fillW => obtain ⟨_, _, _, _, h, _⟩ := h; exact absurd h hf
  case fillB => obtain ⟨_, _, _, _, _, h, _⟩ := h; exact absurd h hf
  case normW => obtain ⟨_, _, _, _, _, _, h, _⟩ := h; exact absurd h hf
  case normB => obtain ⟨_, _, _, _, _, _, _, h, _⟩ := h; exact absurd h hf
  case compute =>
    rcases h with ⟨_, _, e, he', hd⟩ | ⟨h, _⟩
    · exact Or.inl ⟨rfl, hi', e, he.trans he', by rw [hw]; exact hd⟩
    · exact absurd h hf
  case done => simp [rank] at hc

end FirstUse

namespace Race
open Train Model
variable {α : Type} [Zero α] [One α] [Add α] [Sub α] [Mul α] [Div α] [Neg α]

theorem set_same {β : Type} {l : List β} {t : Nat} {a : β} (h : l[t]? = some a) : l.set t a = l := by
  obtain ⟨ht, rfl⟩ := List.getElem?_eq_some_iff.1 h
  exact List.set_getElem_self ht

theorem callOf_some {M : Model α} {p : Pc α} {c : Call α} (h : callOf M p = some c) :
    p = .forward c.slot c.sample c.layer c.data ∧ M.bodyAt c.layer = some (.connected c.state) := by
  unfold callOf at h
  cases p with
  | forward slot x i s =>
    dsimp only at h
    split at h
    · rename_i L hL
      obtain rfl := Option.some.inj h
      exact ⟨rfl, hL⟩
    · cases h
  | _ => cases h

theorem callOf_eq {M : Model α} {slot : Nat} {x : Sample α} {i : Nat} {s : Matrix α × List (Matrix α)} {L : Connected α}
    (h : M.bodyAt i = some (.connected L)) : callOf M (.forward slot x i s) = some ⟨slot, x, i, s, L⟩ := by
  unfold bodyAt at h
  unfold callOf
  dsimp only
  rw [show (M.layers[i]?.map Layer.body) = some (.connected L) from h]

/-- The call of a fully connected layer as one step. -/
theorem step_connected (E : Env α) (t cutoff : Nat) {sh : Shared α} {slot : Nat} {x : Sample α} {i : Nat} {s : Matrix α × List (Matrix α)} {L : Connected α}
    (h : sh.model.bodyAt i = some (.connected L)) : (Pc.forward slot x i s).step E t cutoff sh = (do
      let out ← (L.forward E.num (E.draws i) s.1).1
      let R ← record E out
      .ok (.forward slot x (i + 1) (out, s.2 ++ [R]), { sh with model := sh.model.setBody i (.connected (L.forward E.num (E.draws i) s.1).2) }, [])) := by
  unfold bodyAt at h
  obtain ⟨l, hl, hb⟩ := Option.map_eq_some_iff.1 h
  have hi : i < sh.model.layers.length := (List.getElem?_eq_some_iff.1 hl).1
  unfold Pc.step
  dsimp only
  rw [if_pos hi]
  unfold forwardStep forwardLayer
  dsimp only
  rw [hl, show Res.ofOption (some l) = .ok l from rfl, Res.bind_ok, hb]
  unfold Body.forward
  dsimp only
  cases (L.forward E.num (E.draws i) s.1).1 with
  | ok out =>
    simp only [Res.bind_ok]
    cases record E out <;> rfl
  | _ => rfl

theorem step_bare {E : Env α} {t cutoff : Nat} {sh : Shared α} {p : Pc α} {r : Pc α × Shared α × List (Event α)} (hM : sh.model.Ready)
    (h : p.step E t cutoff sh = .ok r) : r.2.1.model.bare = sh.model.bare := by
  cases p with
  | fetch slot =>
    unfold Pc.step at h
    dsimp only at h
    by_cases hc : slot < cutoff
    · rw [if_pos hc] at h
      cases hs : sh.source with
      | nil => rw [hs] at h; rw [← Res.ok.inj h]
      | cons x rest =>
        rw [hs] at h
        dsimp only at h
        obtain ⟨u, eu, h⟩ := Res.bind_eq_ok h
        rw [← Res.ok.inj h]
    · rw [if_neg hc] at h; rw [← Res.ok.inj h]
  | forward slot x i st =>
    unfold Pc.step at h
    dsimp only at h
    by_cases hc : i < sh.model.layers.length
    · rw [if_pos hc] at h
      obtain ⟨u, eu, h⟩ := Res.bind_eq_ok h
      rw [← Res.ok.inj h]
      exact (forwardStep_frame hM eu).1
    · rw [if_neg hc] at h
      obtain ⟨u, eu, h⟩ := Res.bind_eq_ok h
      rw [← Res.ok.inj h]
  | label slot x r' =>
    unfold Pc.step at h
    dsimp only at h
    obtain ⟨u, eu, h⟩ := Res.bind_eq_ok h
    rw [← Res.ok.inj h]
    dsimp only
    rw [(backwardBegin_inv eu).2.1, bare_tell]
  | backward slot x r' k d =>
    cases k with
    | zero =>
      have e0 : (Pc.backward slot x r' 0 d).step E t cutoff sh =
        .ok (.fetch (slot + 1), { sh with hits := if some r'.labelIdx = r'.trueIdx then sh.hits + 1 else sh.hits }, [.finish t slot x]) := rfl
      rw [e0] at h
      rw [← Res.ok.inj h]
    | succ k =>
      have e0 : (Pc.backward slot x r' (k + 1) d).step E t cutoff sh = (do
        let q ← Model.backwardStep E r' slot (d, sh.model) k
        .ok (.backward slot x r' k q.1, { sh with model := q.2 }, gradEvent sh.model t slot x k)) := rfl
      rw [e0] at h
      obtain ⟨u, eu, h⟩ := Res.bind_eq_ok h
      rw [← Res.ok.inj h]
      exact (backwardStep_frame eu).1
  | done slot =>
    unfold Pc.step at h
    rw [← Res.ok.inj h]

/-! ## Layers that have been used -/

/-- What a batch with calls cut into steps and a batch with calls as single steps have in common if all layers are ready. -/
structure Sim (E : Env α) (rnd : Nat → Nat → Nat → α) (f : Batch α) (s : Train.Batch α) : Prop where
  shared : f.shared = s.shared
  workers : s.workers = f.workers.map fun w => (w.cutoff, w.pc)
  ready : f.shared.model.Ready
  inCall : ∀ (t : Nat) (w : Worker α) (c : FirstUse.Pc α), f.workers[t]? = some w → w.call = some c → 0 < FirstUse.rank c ∧
    ∃ slot x i st L, w.pc = .forward slot x i st ∧ f.shared.model.bodyAt i = some (.connected L) ∧ FirstUse.Part E.num (rnd t i) st.1 L c L

theorem ready_at {M : Model α} (hM : M.Ready) {i : Nat} {L : Connected α} (h : M.bodyAt i = some (.connected L)) : L.initialized = true := by
  unfold bodyAt at h
  obtain ⟨l, hl, hb⟩ := Option.map_eq_some_iff.1 h
  have := hM l (List.mem_of_getElem? hl)
  rw [hb] at this
  exact this

theorem bare_connected {M M' : Model α} (h : M'.bare = M.bare) {i : Nat} {L : Connected α} (hL : M.bodyAt i = some (.connected L)) :
    ∃ L', M'.bodyAt i = some (.connected L') ∧ L'.weights = L.weights ∧ L'.biases = L.biases ∧ L'.initialized = L.initialized := by
  obtain ⟨C, hC, hb⟩ := Overlap.bodyAt_bare h.symm hL
  cases C with
  | connected L' =>
    refine ⟨L', hC, ?_⟩
    simp only [Body.bare, Body.connected.injEq, Connected.mk.injEq] at hb
    exact ⟨hb.1.symm, hb.2.1.symm, hb.2.2.2.1.symm⟩
  | _ => exact absurd hb (by simp [Body.bare])

/-- The other threads do not notice that one makes a step. -/
theorem Sim.next {E : Env α} {rnd : Nat → Nat → Nat → α} {f : Batch α} {s : Train.Batch α} (h : Sim E rnd f s) {t : Nat} {sh : Shared α} {w : Worker α}
    (hb : sh.model.bare = f.shared.model.bare) (hw : ∀ c, w.call = some c → 0 < FirstUse.rank c ∧
      ∃ slot x i st L, w.pc = .forward slot x i st ∧ sh.model.bodyAt i = some (.connected L) ∧ FirstUse.Part E.num (rnd t i) st.1 L c L) :
    Sim E rnd ⟨sh, f.workers.set t w⟩ ⟨sh, s.workers.set t (w.cutoff, w.pc)⟩ := by
  refine ⟨rfl, ?_, h.ready.of_bare hb, ?_⟩
  · show s.workers.set t (w.cutoff, w.pc) = (f.workers.set t w).map _
    rw [List.map_set, h.workers]
  · intro u v c hv hc
    have hv' : (f.workers.set t w)[u]? = some v := hv
    rw [List.getElem?_set] at hv'
    split at hv'
    · rename_i htu
      subst htu
      split at hv'
      · obtain rfl := Option.some.inj hv'
        exact hw c hc
      · cases hv'
    · obtain ⟨h1, slot, x, i, st, L, h2, h3, h4⟩ := h.inCall u v c hv' hc
      obtain ⟨L', g1, g2, g3, g4⟩ := bare_connected hb h3
      exact ⟨h1, slot, x, i, st, L', h2, g1, h4.same (ready_at h.ready h3) h1 g2 g3 (by rw [g4]; exact ready_at h.ready h3)⟩

theorem forward_draws {N : Num α} {L : Connected α} (hi : L.initialized = true) (d d' : Nat → α) (X : Matrix α) :
    L.forward N d X = L.forward N d' X := by
  unfold Connected.forward Connected.checkSize
  cases L.expected X with
  | ok e => dsimp only; rw [if_pos hi, if_pos hi]
  | _ => rfl

theorem Sim.step {E : Env α} {rnd : Nat → Nat → Nat → α} {f : Batch α} {s : Train.Batch α} (h : Sim E rnd f s) (t : Nat) :
    ∃ coarse : List Nat, Res.Like (fun r q => Sim E rnd r.1 q.1 ∧ r.2 = q.2) (f.step E rnd t) (s.run E coarse) := by
  unfold Batch.step
  cases hw : f.workers[t]? with
  | none => exact ⟨[], h, rfl⟩
  | some w =>
    have hsw : s.workers[t]? = some (w.cutoff, w.pc) := by rw [h.workers, List.getElem?_map, hw]; rfl
    have one : s.run E [t] = (terminate (w.pc.step E t w.cutoff f.shared) >>= fun r => .ok (⟨r.2.1, s.workers.set t (w.cutoff, r.1)⟩, r.2.2)) := by
      simp only [Train.Batch.run, Train.Batch.step, hsw, h.shared]
      cases terminate (w.pc.step E t w.cutoff s.shared) with
      | ok r => simp only [Res.bind_ok, List.append_nil]
      | _ => rfl
    dsimp only
    unfold Worker.step
    cases hc : callOf f.shared.model w.pc with
    | none =>
      refine ⟨[t], ?_⟩
      rw [one]
      dsimp only
      cases e : w.pc.step E t w.cutoff f.shared with
      | ok r => exact ⟨h.next (t := t) (w := ⟨w.cutoff, r.1, none⟩) (step_bare h.ready e) (fun c hc => by cases hc), rfl⟩
      | throw _ => trivial
      | ub => trivial
      | abort => trivial
    | some c =>
      obtain ⟨hp, hL⟩ := callOf_some hc
      have hi := ready_at h.ready hL
      have hP : 0 < FirstUse.rank (w.call.getD .size) ∧ FirstUse.Part E.num (rnd t c.layer) c.data.1 c.state (w.call.getD .size) c.state := by
        cases hcall : w.call with
        | none => exact ⟨by simp [FirstUse.rank], rfl⟩
        | some d =>
          obtain ⟨h1, slot, x, i, st, L, h2, h3, h4⟩ := h.inCall t w d hw hcall
          rw [hp] at h2
          obtain ⟨_, _, rfl, rfl⟩ := Pc.forward.inj h2
          rw [hL] at h3
          obtain rfl := Body.connected.inj (Option.some.inj h3)
          exact ⟨h1, h4⟩
      have h2 := FirstUse.step_used hP.2 hi
      have h3 := hP.2.step hP.1
      dsimp only
      unfold callStep
      dsimp only
      rw [h2] at h3 ⊢
      rw [Overlap.setBody_self hL]
      generalize (FirstUse.step E.num c.state ⟨w.call.getD .size, c.data.1, rnd t c.layer⟩).1 = pc at h3 ⊢
      by_cases hr : 0 < FirstUse.rank pc
      · refine ⟨[], ?_⟩
        have : Res.Like (fun r q => Sim E rnd r.1 q.1 ∧ r.2 = q.2)
            (terminate (.ok (⟨w.cutoff, w.pc, some pc⟩, f.shared, [])) >>= fun r => .ok (⟨r.2.1, f.workers.set t r.1⟩, r.2.2)) (s.run E []) := by
          refine ⟨?_, rfl⟩
          have := h.next (t := t) (sh := f.shared) (w := ⟨w.cutoff, w.pc, some pc⟩) rfl (fun d hd => by
            obtain rfl := Option.some.inj hd
            exact ⟨hr, _, _, _, _, _, hp, hL, h3⟩)
          have e : (⟨f.shared, s.workers⟩ : Train.Batch α) = s := by rw [h.shared]
          rw [set_same hsw, e] at this
          exact this
        cases pc <;> first | exact this | (simp [FirstUse.rank] at hr)
      · cases pc with
        | done r =>
          refine ⟨[t], ?_⟩
          rw [one, hp, step_connected E t _ hL, forward_draws hi (E.draws c.layer) (rnd t c.layer)]
          obtain ⟨h4, h5⟩ := h3
          rw [h4]
          cases r with
          | ok out =>
            simp only [Res.bind_ok]
            cases record E out with
            | ok R =>
              refine ⟨?_, rfl⟩
              rw [h5 out rfl, Overlap.setBody_self hL]
              exact h.next (t := t) (sh := f.shared) (w := ⟨w.cutoff, _, none⟩) rfl (fun d hd => by cases hd)
            | throw _ => trivial
            | ub => trivial
            | abort => trivial
          | throw _ => trivial
          | ub => trivial
          | abort => trivial
        | _ => exact absurd (by simp [FirstUse.rank]) hr

theorem Sim.run {E : Env α} {rnd : Nat → Nat → Nat → α} (sched : List Nat) : ∀ {f : Batch α} {s : Train.Batch α}, Sim E rnd f s →
    ∃ coarse : List Nat, Res.Like (fun r q => Sim E rnd r.1 q.1 ∧ r.2 = q.2) (f.run E rnd sched) (s.run E coarse) := by
  induction sched with
  | nil => intro f s h; exact ⟨[], h, rfl⟩
  | cons a as ih =>
    intro f s h
    obtain ⟨c1, h1⟩ := h.step a
    unfold Batch.run
    cases e1 : f.step E rnd a with
    | ok r =>
      cases e2 : s.run E c1 with
      | ok q =>
        rw [e1, e2] at h1
        obtain ⟨c2, h2⟩ := ih h1.1
        refine ⟨c1 ++ c2, ?_⟩
        rw [Overlap.run_append, e2]
        simp only [Res.bind_ok]
        exact h2.bind fun r' q' hq => ⟨hq.1, by rw [h1.2, hq.2]⟩
      | throw | ub | abort => rw [e1, e2] at h1; exact absurd h1 id
    | throw | ub | abort =>
      rw [e1] at h1
      exact ⟨c1, h1⟩

theorem over_map (f : Batch α) (s : Train.Batch α) (h : s.workers = f.workers.map fun w => (w.cutoff, w.pc)) : f.over = s.over := by
  unfold Batch.over Train.Batch.over
  rw [h, List.all_map]
  rfl

/-- The end of a batch. -/
theorem close {E : Env α} {p : Hyper α} {Q : Batch α → Train.Batch α → Prop} (hQ : ∀ f s, Q f s → s.workers = f.workers.map fun w => (w.cutoff, w.pc))
    (hS : ∀ f s, Q f s → f.over = true → f.shared = s.shared)
    {x : Res (Batch α × List (Event α))} {y : Res (Train.Batch α × List (Event α))} (h : Res.Like (fun r q => Q r.1 q.1 ∧ r.2 = q.2) x y) :
    (x >>= fun r => if r.1.over then (r.1.shared.model.applyBatch E.num p.rate >>= fun M =>
      Res.ok (some ({ r.1.shared with model := M }, r.2))) else .ok none) =
    (y >>= fun r => if r.1.over then (r.1.shared.model.applyBatch E.num p.rate >>= fun M =>
      Res.ok (some ({ r.1.shared with model := M }, r.2))) else .ok none) := by
  refine Res.Like.eq (h.bind fun r q hr => ?_)
  obtain ⟨h1, h2⟩ := hr
  have ho := over_map _ _ (hQ _ _ h1)
  by_cases hov : q.1.over = true
  · rw [ho, if_pos hov, if_pos hov, hS _ _ h1 (ho.trans hov), h2]
    exact Res.Like.refl fun _ _ => rfl
  · rw [ho, if_neg hov, if_neg hov]
    rfl

theorem start_workers (s : Train.Batch α) : s.workers = (start s).workers.map fun w => (w.cutoff, w.pc) := by
  unfold start
  rw [List.map_map]
  exact (List.map_id _).symm

theorem start_call {s : Train.Batch α} {t : Nat} {w : Worker α} (h : (start s).workers[t]? = some w) : w.call = none := by
  unfold start at h
  rw [List.getElem?_map] at h
  obtain ⟨v, _, rfl⟩ := Option.map_eq_some_iff.1 h
  rfl

theorem startBatch_shared {batch threads : Int} {sh : Shared α} {s : Train.Batch α} (h : startBatch batch threads sh = .ok s) : s.shared = sh := by
  unfold startBatch at h
  obtain ⟨_, _, h⟩ := Res.bind_eq_ok h
  obtain ⟨_, _, h⟩ := Res.bind_eq_ok h
  rw [← Res.ok.inj h]

theorem runBatch_used {E : Env α} {rnd : Nat → Nat → Nat → α} {p : Hyper α} {sh : Shared α} (hM : sh.model.Ready) (fine : List Nat) :
    ∃ coarse, runBatch E rnd p fine sh = Train.runBatch E p coarse sh := by
  unfold runBatch Train.runBatch
  cases hs : startBatch p.batch p.threads sh with
  | throw | ub | abort => exact ⟨[], rfl⟩
  | ok s =>
    simp only [Res.bind_ok]
    have hsh := startBatch_shared hs
    have h : Sim E rnd (start s) s := ⟨rfl, start_workers s, by show s.shared.model.Ready; rw [hsh]; exact hM, fun t w c hw hc => by
      rw [start_call hw] at hc; cases hc⟩
    obtain ⟨coarse, hL⟩ := h.run fine
    exact ⟨coarse, close (Q := Sim E rnd) (fun _ _ h => h.workers) (fun _ _ h _ => h.shared) hL⟩

/-! ## One thread -/

/-- What a batch of one thread with calls cut into steps and one with calls as single steps have in common. -/
structure Sim1 (E : Env α) (rnd : Nat → Nat → Nat → α) (f : Batch α) (s : Train.Batch α) : Prop where
  workers : s.workers = f.workers.map fun w => (w.cutoff, w.pc)
  one : f.workers.length ≤ 1
  shared : (∀ (t : Nat) (w : Worker α), f.workers[t]? = some w → w.call = none) → f.shared = s.shared
  inCall : ∀ (t : Nat) (w : Worker α) (c : FirstUse.Pc α), f.workers[t]? = some w → w.call = some c → 0 < FirstUse.rank c ∧
    ∃ slot x i st L0 L, w.pc = .forward slot x i st ∧ s.shared.model.bodyAt i = some (.connected L0) ∧
      f.shared = { s.shared with model := s.shared.model.setBody i (.connected L) } ∧ FirstUse.Part E.num (rnd t i) st.1 L0 c L

theorem setBody_twice (M : Model α) (i : Nat) (B C : Body α) : (M.setBody i B).setBody i C = M.setBody i C := by
  refine ext ?_ rfl rfl rfl rfl rfl rfl
  apply List.ext_getElem?
  intro j
  simp only [setBody, List.getElem?_modify]
  by_cases hj : i = j
  · subst hj
    cases M.layers[i]? <;> simp
  · simp [hj]

theorem bodyAt_setBody {M : Model α} {i : Nat} {B C : Body α} (h : M.bodyAt i = some B) : (M.setBody i C).bodyAt i = some C := by
  rw [setBody_bodyAt, if_pos rfl, h]; rfl

/-- A step inside a call which nobody disturbs. -/
theorem callStep_part {E : Env α} {rnd : Nat → Nat → Nat → α} {t : Nat} {w : Worker α} {sh : Shared α} {slot : Nat} {x : Sample α} {i : Nat} {st : Matrix α × List (Matrix α)}
    {L0 L : Connected α} (hd : rnd t i = E.draws i) (hp : w.pc = .forward slot x i st) (h0 : sh.model.bodyAt i = some (.connected L0))
    (hP : 0 < FirstUse.rank (w.call.getD .size) ∧ FirstUse.Part E.num (rnd t i) st.1 L0 (w.call.getD .size) L) :
    (∃ c L', w.step E rnd t { sh with model := sh.model.setBody i (.connected L) } =
        .ok (⟨w.cutoff, w.pc, some c⟩, { sh with model := sh.model.setBody i (.connected L') }, []) ∧ 0 < FirstUse.rank c ∧
        FirstUse.rank c < FirstUse.rank (w.call.getD .size) ∧ FirstUse.Part E.num (rnd t i) st.1 L0 c L') ∨
    w.step E rnd t { sh with model := sh.model.setBody i (.connected L) } =
      (w.pc.step E t w.cutoff sh >>= fun r => .ok (⟨w.cutoff, r.1, none⟩, r.2.1, r.2.2)) := by
  have hL : (sh.model.setBody i (.connected L)).bodyAt i = some (.connected L) := bodyAt_setBody h0
  have h3 := hP.2.step hP.1
  have h4 := FirstUse.rank_step E.num L (w.call.getD .size) st.1 (rnd t i) hP.1
  unfold Worker.step
  dsimp only
  rw [hp, callOf_eq hL, step_connected E t _ h0, ← hd]
  dsimp only
  unfold callStep
  dsimp only
  rw [setBody_twice]
  generalize FirstUse.step E.num L ⟨w.call.getD .size, st.1, rnd t i⟩ = q at h3 h4 ⊢
  obtain ⟨pc, L'⟩ := q
  dsimp only at h3 h4 ⊢
  by_cases hr : 0 < FirstUse.rank pc
  · left
    refine ⟨pc, L', ?_, hr, h4, h3⟩
    cases pc <;> first | (exfalso; simp [FirstUse.rank] at hr; done) | rw [← hp]
  · right
    cases pc with
    | done r =>
      obtain ⟨h5, h6⟩ := h3
      dsimp only
      rw [h5]
      cases r with
      | ok out =>
        simp only [Res.bind_ok]
        rw [h6 out rfl]
        cases record E out <;> rfl
      | _ => rfl
    | _ => exact absurd (by simp [FirstUse.rank]) hr

theorem Sim1.step {E : Env α} {rnd : Nat → Nat → Nat → α} {f : Batch α} {s : Train.Batch α} (hd : rnd 0 = E.draws) (h : Sim1 E rnd f s) (t : Nat) :
    ∃ coarse : List Nat, Res.Like (fun r q => Sim1 E rnd r.1 q.1 ∧ r.2 = q.2) (f.step E rnd t) (s.run E coarse) := by
  unfold Batch.step
  cases hw : f.workers[t]? with
  | none => exact ⟨[], h, rfl⟩
  | some w =>
    have ht : t < f.workers.length := (List.getElem?_eq_some_iff.1 hw).1
    have ht0 : t = 0 := by have := h.one; omega
    have only : ∀ (w' : Worker α) (u : Nat) (v : Worker α), (f.workers.set t w')[u]? = some v → u = t ∧ v = w' := by
      intro w' u v hv
      have hu : u < f.workers.length := by simpa using (List.getElem?_eq_some_iff.1 hv).1
      have hut : u = t := by have := h.one; omega
      subst hut
      rw [List.getElem?_set_self ht] at hv
      exact ⟨rfl, (Option.some.inj hv).symm⟩
    have hsw : s.workers[t]? = some (w.cutoff, w.pc) := by rw [h.workers, List.getElem?_map, hw]; rfl
    have one : s.run E [t] = (terminate (w.pc.step E t w.cutoff s.shared) >>= fun r => .ok (⟨r.2.1, s.workers.set t (w.cutoff, r.1)⟩, r.2.2)) := by
      simp only [Train.Batch.run, Train.Batch.step, hsw]
      cases terminate (w.pc.step E t w.cutoff s.shared) with
      | ok r => simp only [Res.bind_ok, List.append_nil]
      | _ => rfl
    have nextS : ∀ (sh : Shared α) (pc : Pc α), Sim1 E rnd ⟨sh, f.workers.set t ⟨w.cutoff, pc, none⟩⟩ ⟨sh, s.workers.set t (w.cutoff, pc)⟩ := by
      intro sh pc
      refine ⟨?_, by rw [List.length_set]; exact h.one, fun _ => rfl, fun u v c hv hc => ?_⟩
      · show s.workers.set t (w.cutoff, pc) = (f.workers.set t _).map _
        rw [List.map_set, h.workers]
      · obtain ⟨_, rfl⟩ := only _ u v hv
        cases hc
    have whole : ∀ fsh, w.step E rnd t fsh = (w.pc.step E t w.cutoff s.shared >>= fun r => .ok (⟨w.cutoff, r.1, none⟩, r.2.1, r.2.2)) →
        Res.Like (fun r q => Sim1 E rnd r.1 q.1 ∧ r.2 = q.2) (terminate (w.step E rnd t fsh) >>= fun r => .ok (⟨r.2.1, f.workers.set t r.1⟩, r.2.2)) (s.run E [t]) := by
      intro fsh e
      rw [e, one]
      cases w.pc.step E t w.cutoff s.shared with
      | ok r => exact ⟨nextS r.2.1 r.1, rfl⟩
      | throw _ => trivial
      | ub => trivial
      | abort => trivial
    have key : ∀ {slot : Nat} {x : Sample α} {i : Nat} {st : Matrix α × List (Matrix α)} {L0 L : Connected α}, w.pc = .forward slot x i st → s.shared.model.bodyAt i = some (.connected L0) →
        f.shared = { s.shared with model := s.shared.model.setBody i (.connected L) } →
        0 < FirstUse.rank (w.call.getD .size) ∧ FirstUse.Part E.num (rnd t i) st.1 L0 (w.call.getD .size) L →
        ∃ coarse : List Nat, Res.Like (fun r q => Sim1 E rnd r.1 q.1 ∧ r.2 = q.2)
          (terminate (w.step E rnd t f.shared) >>= fun r => .ok (⟨r.2.1, f.workers.set t r.1⟩, r.2.2)) (s.run E coarse) := by
      intro slot x i st L0 L hp h0 hf hP
      rcases callStep_part (E := E) (sh := s.shared) (by rw [ht0, hd]) hp h0 hP with ⟨c, L', e, h1, _, h2⟩ | e
      · refine ⟨[], ?_⟩
        rw [hf, e]
        refine ⟨⟨?_, by rw [List.length_set]; exact h.one, fun hn => ?_, fun u v d hv hdc => ?_⟩, rfl⟩
        · show s.workers = (f.workers.set t _).map _
          rw [List.map_set, ← h.workers, set_same hsw]
        · have := hn t ⟨w.cutoff, w.pc, some c⟩ (List.getElem?_set_self ht)
          cases this
        · obtain ⟨rfl, rfl⟩ := only _ u v hv
          obtain rfl := Option.some.inj hdc
          exact ⟨h1, slot, x, i, st, L0, L', hp, h0, rfl, h2⟩
      · refine ⟨[t], ?_⟩
        rw [hf]
        exact whole _ e
    cases hcall : w.call with
    | some c =>
      obtain ⟨h1, slot, x, i, st, L0, L, hp, h0, hf, h2⟩ := h.inCall t w c hw hcall
      exact key hp h0 hf (by rw [hcall]; exact ⟨h1, h2⟩)
    | none =>
      have hsh : f.shared = s.shared := h.shared fun u v hv => by
        have := only w u v (by rw [set_same hw]; exact hv)
        rw [this.2, hcall]
      cases hc : callOf f.shared.model w.pc with
      | none =>
        refine ⟨[t], whole _ ?_⟩
        unfold Worker.step
        rw [hc, hsh]
      | some c =>
        obtain ⟨hp, hL⟩ := callOf_some hc
        rw [hsh] at hL
        refine key hp hL ?_ (by rw [hcall]; exact ⟨by simp [FirstUse.rank], rfl⟩)
        rw [Overlap.setBody_self hL, hsh]

theorem Sim1.run {E : Env α} {rnd : Nat → Nat → Nat → α} (hd : rnd 0 = E.draws) (sched : List Nat) : ∀ {f : Batch α} {s : Train.Batch α}, Sim1 E rnd f s →
    ∃ coarse : List Nat, Res.Like (fun r q => Sim1 E rnd r.1 q.1 ∧ r.2 = q.2) (f.run E rnd sched) (s.run E coarse) := by
  induction sched with
  | nil => intro f s h; exact ⟨[], h, rfl⟩
  | cons a as ih =>
    intro f s h
    obtain ⟨c1, h1⟩ := h.step hd a
    unfold Batch.run
    cases e1 : f.step E rnd a with
    | ok r =>
      cases e2 : s.run E c1 with
      | ok q =>
        rw [e1, e2] at h1
        obtain ⟨c2, h2⟩ := ih h1.1
        refine ⟨c1 ++ c2, ?_⟩
        rw [Overlap.run_append, e2]
        simp only [Res.bind_ok]
        exact h2.bind fun r' q' hq => ⟨hq.1, by rw [h1.2, hq.2]⟩
      | throw | ub | abort => rw [e1, e2] at h1; exact absurd h1 id
    | throw | ub | abort =>
      rw [e1] at h1
      exact ⟨c1, h1⟩

theorem Sim1.over {E : Env α} {rnd : Nat → Nat → Nat → α} {f : Batch α} {s : Train.Batch α} (h : Sim1 E rnd f s) (ho : f.over = true) : f.shared = s.shared := by
  refine h.shared fun t w hw => ?_
  cases hc : w.call with
  | none => rfl
  | some c =>
    obtain ⟨_, slot, x, i, st, _, _, hp, _⟩ := h.inCall t w c hw hc
    unfold Batch.over at ho
    have := List.all_eq_true.1 ho w (List.mem_of_getElem? hw)
    rw [hp] at this
    cases this

theorem startBatch_count {batch threads : Int} {sh : Shared α} {s : Train.Batch α} (h : startBatch batch threads sh = .ok s) : s.workers.length = threads.toNat := by
  unfold startBatch at h
  obtain ⟨_, _, h⟩ := Res.bind_eq_ok h
  obtain ⟨ws, e, h⟩ := Res.bind_eq_ok h
  rw [← Res.ok.inj h]
  have : ∀ (f : Nat → Res (Nat × Pc α)) (l : List Nat) (ws : List (Nat × Pc α)), l.mapM f = .ok ws → ws.length = l.length := by
    intro f l
    induction l with
    | nil => intro ws e; rw [List.mapM_nil] at e; rw [← Res.ok.inj e]; rfl
    | cons a l ih =>
      intro ws e
      rw [List.mapM_cons] at e
      obtain ⟨b, _, e⟩ := Res.bind_eq_ok e
      obtain ⟨bs, e', e⟩ := Res.bind_eq_ok e
      rw [← Res.ok.inj e, List.length_cons, List.length_cons, ih bs e']
  rw [this _ _ _ e, List.length_range]

theorem runBatch_one {E : Env α} {rnd : Nat → Nat → Nat → α} (hd : rnd 0 = E.draws) {p : Hyper α} (hp : p.threads = 1) {sh : Shared α} (fine : List Nat) :
    ∃ coarse, runBatch E rnd p fine sh = Train.runBatch E p coarse sh := by
  unfold runBatch Train.runBatch
  cases hs : startBatch p.batch p.threads sh with
  | throw | ub | abort => exact ⟨[], rfl⟩
  | ok s =>
    simp only [Res.bind_ok]
    have hc := startBatch_count hs
    have h : Sim1 E rnd (start s) s := ⟨start_workers s, by
      have : (start s).workers.length = s.workers.length := by rw [start_workers s, List.length_map]
      rw [this, hc, hp]; decide, fun _ => rfl, fun t w c hw hc => by
      rw [start_call hw] at hc; cases hc⟩
    obtain ⟨coarse, hL⟩ := h.run hd fine
    exact ⟨coarse, close (Q := Sim1 E rnd) (fun _ _ h => h.workers) (fun _ _ h => h.over) hL⟩

end Race
end Cnn
