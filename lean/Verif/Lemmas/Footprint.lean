import Verif.Lemmas.Overlap
import Verif.Lemmas.ScheduleEnd
import Verif.Spec.Footprint
/-! Helper lemmas for C95: what a layer call reads and writes. -/
set_option linter.unusedSectionVars false
namespace Cnn
variable {α : Type}

theorem copySlot_set {β : Type} {b c : Nat} (h : c ≠ b) (l l' : List β) (a : β) :
    (copySlot c l' l).set b a = copySlot c l' (l.set b a) := by
  unfold copySlot
  split
  · rw [List.set_comm _ _ h]
  · rfl

theorem copySlot_set_self {β : Type} (b : Nat) (l : List β) (a : β) : copySlot b (l.set b a) l = l.set b a := by
  unfold copySlot
  by_cases h : b < l.length
  · rw [List.getElem?_set_self h]
  · rw [List.set_eq_of_length_le (by omega), List.getElem?_eq_none (by omega)]

theorem setSlot_copy {β : Type} {b c : Nat} (h : c ≠ b) (l l' : List β) (a : β) :
    setSlot (copySlot c l' l) b a = copySlot c l' <$> setSlot l b a := by
  unfold setSlot
  rw [copySlot_length]
  split
  · simp only [Res.map_ok, copySlot_set h]
  · rfl

section
variable [Zero α] [One α] [Add α] [Sub α] [Mul α] [Div α] [Neg α]

theorem Connected.forward_grads (N : Num α) (dr : Nat → α) (L : Connected α) (X : Matrix α) (l m : List (Matrix α)) :
    Connected.forward N dr { L with wGrads := l, bGrads := m } X =
      ((L.forward N dr X).1, { (L.forward N dr X).2 with wGrads := l, bGrads := m }) := by
  have hc : ∀ (W : Connected α), Connected.compute { W with wGrads := l, bGrads := m } X = W.compute X := fun W => rfl
  unfold Connected.forward Connected.checkSize
  have e1 : Connected.expected { L with wGrads := l, bGrads := m } X = L.expected X := rfl
  have e2 : Connected.initWeights N dr { L with wGrads := l, bGrads := m } = L.initWeights N dr := rfl
  simp only [e1, e2]
  cases L.expected X with
  | throw | ub | abort => rfl
  | ok e =>
    simp only
    by_cases hi : L.initialized
    · rw [if_pos hi, if_pos hi]
      rfl
    · rw [if_neg hi, if_neg hi]
      cases L.initWeights N dr e with
      | throw | ub | abort => rfl
      | ok r => rfl

theorem Connected.forward_keeps (N : Num α) (dr : Nat → α) (L : Connected α) (X : Matrix α) :
    (L.forward N dr X).2.wGrads = L.wGrads ∧ (L.forward N dr X).2.bGrads = L.bGrads := by
  unfold Connected.forward Connected.checkSize
  cases L.expected X with
  | throw | ub | abort => exact ⟨rfl, rfl⟩
  | ok e =>
    simp only
    by_cases hi : L.initialized
    · rw [if_pos hi]; exact ⟨rfl, rfl⟩
    · rw [if_neg hi]
      cases L.initWeights N dr e <;> exact ⟨rfl, rfl⟩

theorem Connected.forward_init {N : Num α} {dr : Nat → α} {L : Connected α} {X : Matrix α} (hL : L.initialized = true) :
    (L.forward N dr X).2 = L := by
  unfold Connected.forward Connected.checkSize
  cases L.expected X with
  | throw | ub | abort => rfl
  | ok e => simp only; rw [if_pos hL]

namespace Body

/-- A forward call does not depend on parts it does not access, and leaves them as they are. -/
theorem forward_copy (N : Num α) (dr : Nat → α) (X : Matrix α) (b : Nat) (B S : Body α) {p : Part} (hr : p ∉ B.forwardReads b)
    (hw : p ∉ B.forwardWrites b) : (S.copy p B).forward N dr X b = (fun r => (r.1, S.copy p r.2)) <$> B.forward N dr X b := by
  cases B with
  | kernel K =>
    have hp : p ≠ .params := by simpa [forwardReads] using hr
    have : ∃ wG bG, S.copy p (.kernel K) = .kernel { K with wGrads := wG, bGrads := bG } := by
      cases p <;> cases S <;> simp_all [copy, putSlot] <;> exact ⟨_, _, rfl⟩
    obtain ⟨wG, bG, e⟩ := this
    rw [e]
    show (K.forward X >>= fun Y => _) = _ <$> (K.forward X >>= fun Y => _)
    cases K.forward X with
    | throw | ub | abort => rfl
    | ok Y => simp only [Res.bind_ok, Res.map_ok, e]
  | pooling P =>
    have hp : p ≠ .params ∧ p ≠ .slot b := by simpa [forwardReads] using hr
    have : ∃ f : List (Matrix Dim3) → List (Matrix Dim3), (∀ l, S.copy p (.pooling { P with indices := l }) = .pooling { P with indices := f l }) ∧
        (∀ l : List (Matrix Dim3), (f l)[b]? = l[b]?) ∧ ∀ (l : List (Matrix Dim3)) a, (f l).set b a = f (l.set b a) := by
      cases p with
      | params => exact absurd rfl hp.1
      | label => exact ⟨id, fun l => by cases S <;> rfl, fun l => rfl, fun l a => rfl⟩
      | slot c =>
        have hc : c ≠ b := fun h => hp.2 (by rw [h])
        cases S with
        | pooling P' => exact ⟨copySlot c P'.indices, fun l => rfl, fun l => copySlot_ne (Ne.symm hc) _ _, fun l a => copySlot_set hc _ _ _⟩
        | _ => exact ⟨id, fun l => rfl, fun l => rfl, fun l a => rfl⟩
    obtain ⟨f, h1, h2, h3⟩ := this
    rw [show (Body.pooling P : Body α) = .pooling { P with indices := P.indices } from rfl, h1]
    show ((Pooling.forward N { P with indices := f P.indices } X b) >>= fun r => _) = _ <$> (P.forward N X b >>= fun Y => _)
    unfold Pooling.forward
    have e1 : Pooling.outputSize { P with indices := f P.indices } X.dim = P.outputSize X.dim := rfl
    have e2 : Pooling.forwardStep N { P with indices := f P.indices } X = P.forwardStep N X := rfl
    rw [e1, e2]
    simp only [h2]
    cases P.outputSize X.dim with
    | throw | ub | abort => rfl
    | ok od =>
      simp only [Res.bind_ok]
      cases Matrix.ofDim od (0 : α) with
      | throw | ub | abort => rfl
      | ok o =>
        simp only [Res.bind_ok]
        cases Res.ofOption P.indices[b]? with
        | throw | ub | abort => rfl
        | ok i0 =>
          simp only [Res.bind_ok]
          cases i0.resize od 0 with
          | throw | ub | abort => rfl
          | ok i =>
            simp only [Res.bind_ok]
            cases forRange od (P.forwardStep N X) (o, i) with
            | throw | ub | abort => rfl
            | ok r => simp only [Res.bind_ok, Res.map_ok, h1, h3]
  | connected L =>
    have hp : p ≠ .params := by
      intro h
      subst h
      simp [forwardReads] at hr
    have : ∃ f g : List (Matrix α) → List (Matrix α), ∀ L : Connected α, S.copy p (.connected L) = .connected { L with wGrads := f L.wGrads, bGrads := g L.bGrads } := by
      cases p with
      | params => exact absurd rfl hp
      | label => exact ⟨id, id, fun l => by cases S <;> rfl⟩
      | slot c =>
        cases S with
        | connected L' => exact ⟨copySlot c L'.wGrads, copySlot c L'.bGrads, fun l => rfl⟩
        | _ => exact ⟨id, id, fun l => rfl⟩
    obtain ⟨f, g, h1⟩ := this
    rw [h1]
    show ((Connected.forward N dr { L with wGrads := f L.wGrads, bGrads := g L.bGrads } X).1 >>= fun Y =>
      Res.ok (Y, Body.connected (Connected.forward N dr { L with wGrads := f L.wGrads, bGrads := g L.bGrads } X).2)) =
      _ <$> ((L.forward N dr X).1 >>= fun Y => _)
    rw [Connected.forward_grads]
    simp only
    cases (L.forward N dr X).1 with
    | throw | ub | abort => rfl
    | ok Y =>
      obtain ⟨e1, e2⟩ := Connected.forward_keeps N dr L X
      simp only [Res.bind_ok, Res.map_ok, h1, e1, e2]
  | activation A =>
    have hp : p ≠ .params := by simpa [forwardReads] using hr
    have e : S.copy p (.activation A) = .activation A := by cases p <;> cases S <;> simp_all [copy, putSlot]
    rw [e]
    show (A.forward N X >>= fun Y => _) = _ <$> (A.forward N X >>= fun Y => _)
    cases A.forward N X with
    | throw | ub | abort => rfl
    | ok Y => simp only [Res.bind_ok, Res.map_ok, e]
  | softmax Q =>
    have hp : p ≠ .params := by simpa [forwardReads] using hr
    have : ∃ k n, S.copy p (.softmax Q) = .softmax { Q with trueLabel := k, knows := n } := by
      cases p with
      | params => exact absurd rfl hp
      | slot c => exact ⟨Q.trueLabel, Q.knows, by cases S <;> rfl⟩
      | label =>
        cases S with
        | softmax Q' => exact ⟨Q'.trueLabel, Q'.knows, rfl⟩
        | _ => exact ⟨Q.trueLabel, Q.knows, rfl⟩
    obtain ⟨k, n, e⟩ := this
    rw [e]
    show (Q.forward N X >>= fun Y => _) = _ <$> (Q.forward N X >>= fun Y => _)
    cases Q.forward N X with
    | throw | ub | abort => rfl
    | ok Y => simp only [Res.bind_ok, Res.map_ok, e]

/-- A forward call changes only what it writes. -/
theorem forward_writes {N : Num α} {dr : Nat → α} {X : Matrix α} {b : Nat} {B : Body α} {r : Matrix α × Body α}
    (h : B.forward N dr X b = .ok r) : r.2 = (B.forwardWrites b).foldr (fun p d => r.2.copy p d) B := by
  cases B with
  | kernel K =>
    obtain ⟨Y, _, h⟩ := Res.bind_eq_ok h
    obtain rfl := Res.ok.inj h
    rfl
  | pooling P =>
    obtain ⟨r', h', h⟩ := Res.bind_eq_ok h
    obtain rfl := Res.ok.inj h
    unfold Pooling.forward at h'
    obtain ⟨_, _, h'⟩ := Res.bind_eq_ok h'
    obtain ⟨_, _, h'⟩ := Res.bind_eq_ok h'
    obtain ⟨_, _, h'⟩ := Res.bind_eq_ok h'
    obtain ⟨_, _, h'⟩ := Res.bind_eq_ok h'
    obtain ⟨_, _, h'⟩ := Res.bind_eq_ok h'
    obtain rfl := Res.ok.inj h'
    simp only [forwardWrites, List.foldr_cons, List.foldr_nil, copy, putSlot, copySlot_set_self]
  | connected L =>
    obtain ⟨Y, hY, h⟩ := Res.bind_eq_ok h
    obtain rfl := Res.ok.inj h
    simp only [forwardWrites]
    by_cases hi : L.initialized = true
    · rw [if_pos hi, Connected.forward_init hi]
      rfl
    · rw [if_neg hi]
      obtain ⟨e1, e2⟩ := Connected.forward_keeps N dr L X
      simp only [List.foldr_cons, List.foldr_nil, copy]
      rw [← e1, ← e2]
  | activation A =>
    obtain ⟨Y, _, h⟩ := Res.bind_eq_ok h
    obtain rfl := Res.ok.inj h
    rfl
  | softmax S =>
    obtain ⟨Y, _, h⟩ := Res.bind_eq_ok h
    obtain rfl := Res.ok.inj h
    rfl

/-- A backward call does not depend on parts it does not access, and leaves them as they are. -/
theorem backward_copy (N : Num α) (o : ArgOrder) (X Z D : Matrix α) (b : Nat) (last : Bool) (B S : Body α) {p : Part}
    (hr : p ∉ B.backwardReads b) (hw : p ∉ B.backwardWrites b) :
    (S.copy p B).backward N o X Z D b last = (fun r => (r.1, S.copy p r.2)) <$> B.backward N o X Z D b last := by
  cases B with
  | kernel K =>
    have hp : p ≠ .params ∧ p ≠ .slot b := ⟨by simpa [backwardReads] using hr, by simpa [backwardWrites] using hw⟩
    have : ∃ f g : List (Matrix α) → List (Matrix α), (∀ K : Kernel α, S.copy p (.kernel K) = .kernel { K with wGrads := f K.wGrads, bGrads := g K.bGrads }) ∧
        (∀ l a, setSlot (f l) b a = f <$> setSlot l b a) ∧ ∀ l a, setSlot (g l) b a = g <$> setSlot l b a := by
      have ident : ∀ (l : List (Matrix α)) a, setSlot (id l) b a = id <$> setSlot l b a := by
        intro l a; simp
      cases p with
      | params => exact absurd rfl hp.1
      | label => exact ⟨id, id, fun l => by cases S <;> rfl, ident, ident⟩
      | slot c =>
        have hc : c ≠ b := fun h => hp.2 (by rw [h])
        cases S with
        | kernel K' => exact ⟨copySlot c K'.wGrads, copySlot c K'.bGrads, fun l => rfl, fun l a => setSlot_copy hc _ _ _, fun l a => setSlot_copy hc _ _ _⟩
        | _ => exact ⟨id, id, fun l => rfl, ident, ident⟩
    obtain ⟨f, g, h1, h2, h3⟩ := this
    rw [h1]
    show ((Kernel.backward { K with wGrads := f K.wGrads, bGrads := g K.bGrads } X Z D b last) >>= fun r => _) =
      _ <$> (K.backward X Z D b last >>= fun r => _)
    unfold Kernel.backward
    have e1 : Kernel.getdLdW { K with wGrads := f K.wGrads, bGrads := g K.bGrads } X D = K.getdLdW X D := rfl
    have e2 : Kernel.getdLdB { K with wGrads := f K.wGrads, bGrads := g K.bGrads } D = K.getdLdB D := rfl
    have e3 : Kernel.getdLdX { K with wGrads := f K.wGrads, bGrads := g K.bGrads } X D = K.getdLdX X D := rfl
    rw [e1, e2, e3]
    cases K.getdLdW X D with
    | throw | ub | abort => rfl
    | ok gw =>
      simp only [Res.bind_ok, h2]
      cases setSlot K.wGrads b gw with
      | throw | ub | abort => rfl
      | ok wG =>
        simp only [Res.bind_ok, Res.map_ok]
        cases K.getdLdB D with
        | throw | ub | abort => rfl
        | ok gb =>
          simp only [Res.bind_ok, h3]
          cases setSlot K.bGrads b gb with
          | throw | ub | abort => rfl
          | ok bG =>
            simp only [Res.bind_ok, Res.map_ok]
            cases last with
            | true => simp only [if_true, Res.bind_ok, Res.map_ok, h1]
            | false =>
              simp only [Bool.false_eq_true, if_false]
              cases K.getdLdX X D with
              | throw | ub | abort => rfl
              | ok d => simp only [Res.bind_ok, Res.map_ok, h1]
  | pooling P =>
    have hp : p ≠ .params ∧ p ≠ .slot b := by simpa [backwardReads] using hr
    have : ∃ l : List (Matrix Dim3), S.copy p (.pooling P) = .pooling { P with indices := l } ∧ l[b]? = P.indices[b]? := by
      cases p with
      | params => exact absurd rfl hp.1
      | label => exact ⟨P.indices, by cases S <;> rfl, rfl⟩
      | slot c =>
        have hc : c ≠ b := fun h => hp.2 (by rw [h])
        cases S with
        | pooling P' => exact ⟨copySlot c P'.indices P.indices, rfl, copySlot_ne (Ne.symm hc) _ _⟩
        | _ => exact ⟨P.indices, rfl, rfl⟩
    obtain ⟨l, h1, h2⟩ := this
    have e : Pooling.backward N { P with indices := l } X Z D b = P.backward N X Z D b := by
      unfold Pooling.backward Pooling.getdLdX
      simp only [h2]
      cases P.type <;> rfl
    rw [h1]
    show ((Pooling.backward N { P with indices := l } X Z D b) >>= fun r => _) = _ <$> (P.backward N X Z D b >>= fun Y => _)
    rw [e]
    cases P.backward N X Z D b with
    | throw | ub | abort => rfl
    | ok d => simp only [Res.bind_ok, Res.map_ok, h1]
  | connected L =>
    have hp : p ≠ .params ∧ p ≠ .slot b := ⟨by simpa [backwardReads] using hr, by simpa [backwardWrites] using hw⟩
    have : ∃ f g : List (Matrix α) → List (Matrix α), (∀ L : Connected α, S.copy p (.connected L) = .connected { L with wGrads := f L.wGrads, bGrads := g L.bGrads }) ∧
        (∀ l a, setSlot (f l) b a = f <$> setSlot l b a) ∧ ∀ l a, setSlot (g l) b a = g <$> setSlot l b a := by
      have ident : ∀ (l : List (Matrix α)) a, setSlot (id l) b a = id <$> setSlot l b a := by
        intro l a; simp
      cases p with
      | params => exact absurd rfl hp.1
      | label => exact ⟨id, id, fun l => by cases S <;> rfl, ident, ident⟩
      | slot c =>
        have hc : c ≠ b := fun h => hp.2 (by rw [h])
        cases S with
        | connected K' => exact ⟨copySlot c K'.wGrads, copySlot c K'.bGrads, fun l => rfl, fun l a => setSlot_copy hc _ _ _, fun l a => setSlot_copy hc _ _ _⟩
        | _ => exact ⟨id, id, fun l => rfl, ident, ident⟩
    obtain ⟨f, g, h1, h2, h3⟩ := this
    rw [h1]
    show ((Connected.backward o { L with wGrads := f L.wGrads, bGrads := g L.bGrads } X Z D b last) >>= fun r => _) =
      _ <$> (L.backward o X Z D b last >>= fun r => _)
    unfold Connected.backward
    have e3 : Connected.getdLdX o { L with wGrads := f L.wGrads, bGrads := g L.bGrads } D = L.getdLdX o D := rfl
    rw [e3]
    cases Connected.getdLdW o X D with
    | throw | ub | abort => rfl
    | ok gw =>
      simp only [Res.bind_ok, h2]
      cases setSlot L.wGrads b gw with
      | throw | ub | abort => rfl
      | ok wG =>
        simp only [Res.bind_ok, Res.map_ok, h3]
        cases setSlot L.bGrads b D with
        | throw | ub | abort => rfl
        | ok bG =>
          simp only [Res.bind_ok, Res.map_ok]
          cases last with
          | true => simp only [if_true, Res.bind_ok, Res.map_ok, h1]
          | false =>
            simp only [Bool.false_eq_true, if_false]
            cases L.getdLdX o D with
            | throw | ub | abort => rfl
            | ok d => simp only [Res.bind_ok, Res.map_ok, h1]
  | activation A =>
    have hp : p ≠ .params := by simpa [backwardReads] using hr
    have e : S.copy p (.activation A) = .activation A := by cases p <;> cases S <;> simp_all [copy, putSlot]
    rw [e]
    show (A.backward N X Z D >>= fun Y => _) = _ <$> (A.backward N X Z D >>= fun Y => _)
    cases A.backward N X Z D with
    | throw | ub | abort => rfl
    | ok Y => simp only [Res.bind_ok, Res.map_ok, e]
  | softmax Q =>
    have hp : p ≠ .label := by simpa [backwardReads] using hr
    have : ∃ k, S.copy p (.softmax Q) = .softmax { Q with count := k } := by
      cases p <;> cases S <;> simp_all [copy, putSlot] <;> exact ⟨_, rfl⟩
    obtain ⟨k, e⟩ := this
    rw [e]
    show (Q.backward X Z D >>= fun Y => _) = _ <$> (Q.backward X Z D >>= fun Y => _)
    cases Q.backward X Z D with
    | throw | ub | abort => rfl
    | ok Y => simp only [Res.bind_ok, Res.map_ok, e]

/-- A backward call changes only what it writes. -/
theorem backward_writes {N : Num α} {o : ArgOrder} {X Z D : Matrix α} {b : Nat} {last : Bool} {B : Body α} {r : Matrix α × Body α}
    (h : B.backward N o X Z D b last = .ok r) : r.2 = (B.backwardWrites b).foldr (fun p d => r.2.copy p d) B := by
  cases B with
  | kernel K =>
    obtain ⟨r', h', h⟩ := Res.bind_eq_ok h
    obtain rfl := Res.ok.inj h
    obtain ⟨gw, gb, _, _, _, _, _, e⟩ := Kernel.backward_inv h'
    rw [e]
    simp only [backwardWrites, List.foldr_cons, List.foldr_nil, copy, putSlot, copySlot_set_self]
  | pooling P =>
    obtain ⟨Y, _, h⟩ := Res.bind_eq_ok h
    obtain rfl := Res.ok.inj h
    rfl
  | connected L =>
    obtain ⟨r', h', h⟩ := Res.bind_eq_ok h
    obtain rfl := Res.ok.inj h
    obtain ⟨gw, _, _, _, _, e⟩ := Connected.backward_inv h'
    rw [e]
    simp only [backwardWrites, List.foldr_cons, List.foldr_nil, copy, putSlot, copySlot_set_self]
  | activation A =>
    obtain ⟨Y, _, h⟩ := Res.bind_eq_ok h
    obtain rfl := Res.ok.inj h
    rfl
  | softmax S =>
    obtain ⟨Y, _, h⟩ := Res.bind_eq_ok h
    obtain rfl := Res.ok.inj h
    rfl

end Body
end
end Cnn
