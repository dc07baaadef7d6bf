import Verif.Lemmas.Labels
import Verif.Spec.Slots
/-! Helper lemmas: a layer call on a batch slot touches that slot only (C53, C54). -/
set_option linter.unusedSectionVars false
namespace Cnn

theorem ofOption_eq {β : Type} {o : Option β} {a : β} (h : Res.ofOption o = .ok a) : o = some a := by
  cases o with
  | none => exact absurd h (by simp)
  | some b => exact congrArg some (Res.ok.inj h)

theorem map_eq_ok {β γ : Type} {f : β → γ} {x : Res β} {c : γ} (h : f <$> x = .ok c) : ∃ a, x = .ok a ∧ f a = c := by
  cases x with
  | ok a => exact ⟨a, rfl, Res.ok.inj h⟩
  | throw e => exact absurd h (by intro h; cases h)
  | ub => exact absurd h (by intro h; cases h)
  | abort => exact absurd h (by intro h; cases h)

variable {α : Type}

namespace Body

/-- The layer as slot `b` sees it: that slot only. -/
def see (b : Nat) : Body α → Body α
  | .kernel K => .kernel { K with wGrads := K.wGrads[b]?.toList, bGrads := K.bGrads[b]?.toList }
  | .pooling P => .pooling { P with indices := P.indices[b]?.toList }
  | .connected L => .connected { L with wGrads := L.wGrads[b]?.toList, bGrads := L.bGrads[b]?.toList }
  | B => B

/-- The output layer told a label. -/
def tell (l : Nat) : Body α → Body α
  | .softmax S => .softmax { S with trueLabel := l, knows := true }
  | B => B

/-- A fully connected layer has been used before. -/
def Ready : Body α → Prop
  | .connected L => L.initialized = true
  | _ => True

theorem tell_tell (k l : Nat) (B : Body α) : (B.tell k).tell l = B.tell l := by cases B <;> rfl
theorem see_tell (b l : Nat) (B : Body α) : (B.tell l).see b = (B.see b).tell l := by cases B <;> rfl
theorem bare_tell (l : Nat) (B : Body α) : (B.tell l).bare = B.bare := by cases B <;> rfl

theorem Ready.of_bare {B C : Body α} (h : B.Ready) (hb : C.bare = B.bare) : C.Ready := by
  cases C <;> cases B <;> simp_all [bare, Ready]

section
variable [Zero α] [One α] [Add α] [Sub α] [Mul α] [Div α] [Neg α]

theorem setSlot_see {β : Type} (l : List β) (b : Nat) (a : β) :
    setSlot l[b]?.toList 0 a = (fun l : List β => l[b]?.toList) <$> setSlot l b a := by
  unfold setSlot
  by_cases h : b < l.length
  · rw [List.getElem?_eq_getElem h, if_pos (by simp), if_pos h]
    simp [List.getElem?_set_self h]
  · rw [List.getElem?_eq_none (by omega), if_neg (by simp), if_neg h]
    rfl

theorem setSlot_inv {β : Type} {l r : List β} {b : Nat} {a : β} (h : setSlot l b a = .ok r) :
    b < l.length ∧ r = l.set b a := by
  unfold setSlot at h
  split at h
  · exact ⟨‹_›, (Res.ok.inj h).symm⟩
  · exact absurd h (by simp)

theorem _root_.Cnn.Kernel.backward_inv {K : Kernel α} {X Z D : Matrix α} {b : Nat} {last : Bool} {r : Matrix α × Kernel α}
    (h : K.backward X Z D b last = .ok r) : ∃ gw gb, K.getdLdW X D = .ok gw ∧ K.getdLdB D = .ok gb ∧ b < K.wGrads.length ∧
      b < K.bGrads.length ∧ (if last then Res.ok Matrix.empty else K.getdLdX X D) = .ok r.1 ∧
      r.2 = { K with wGrads := K.wGrads.set b gw, bGrads := K.bGrads.set b gb } := by
  unfold Kernel.backward at h
  obtain ⟨gw, f1, h⟩ := Res.bind_eq_ok h
  obtain ⟨wG, e1, h⟩ := Res.bind_eq_ok h
  obtain ⟨gb, f2, h⟩ := Res.bind_eq_ok h
  obtain ⟨bG, e2, h⟩ := Res.bind_eq_ok h
  obtain ⟨l1, rfl⟩ := setSlot_inv e1
  obtain ⟨l2, rfl⟩ := setSlot_inv e2
  refine ⟨gw, gb, f1, f2, l1, l2, ?_⟩
  cases last with
  | true =>
    obtain rfl := Res.ok.inj h
    exact ⟨rfl, rfl⟩
  | false =>
    simp only [Bool.false_eq_true, if_false] at h ⊢
    obtain ⟨q, f3, h⟩ := Res.bind_eq_ok h
    obtain rfl := Res.ok.inj h
    exact ⟨f3, rfl⟩

theorem _root_.Cnn.Kernel.backward_of {K : Kernel α} {X Z D gw gb d : Matrix α} {b : Nat} {last : Bool}
    (h1 : K.getdLdW X D = .ok gw) (h2 : K.getdLdB D = .ok gb) (h3 : b < K.wGrads.length) (h4 : b < K.bGrads.length)
    (h5 : (if last then Res.ok Matrix.empty else K.getdLdX X D) = .ok d) :
    K.backward X Z D b last = .ok (d, { K with wGrads := K.wGrads.set b gw, bGrads := K.bGrads.set b gb }) := by
  unfold Kernel.backward
  rw [h1, Res.bind_ok, setSlot, if_pos h3, Res.bind_ok, h2, Res.bind_ok, setSlot, if_pos h4, Res.bind_ok]
  cases last with
  | true => obtain rfl := Res.ok.inj h5; rfl
  | false =>
    simp only [Bool.false_eq_true, if_false] at h5 ⊢
    rw [h5, Res.bind_ok]

theorem _root_.Cnn.Connected.backward_inv {L : Connected α} {o : ArgOrder} {X Z D : Matrix α} {b : Nat} {last : Bool}
    {r : Matrix α × Connected α} (h : L.backward o X Z D b last = .ok r) : ∃ gw, Connected.getdLdW o X D = .ok gw ∧
      b < L.wGrads.length ∧ b < L.bGrads.length ∧ (if last then Res.ok Matrix.empty else L.getdLdX o D) = .ok r.1 ∧
      r.2 = { L with wGrads := L.wGrads.set b gw, bGrads := L.bGrads.set b D } := by
  unfold Connected.backward at h
  obtain ⟨gw, f1, h⟩ := Res.bind_eq_ok h
  obtain ⟨wG, e1, h⟩ := Res.bind_eq_ok h
  obtain ⟨bG, e2, h⟩ := Res.bind_eq_ok h
  obtain ⟨l1, rfl⟩ := setSlot_inv e1
  obtain ⟨l2, rfl⟩ := setSlot_inv e2
  refine ⟨gw, f1, l1, l2, ?_⟩
  cases last with
  | true =>
    obtain rfl := Res.ok.inj h
    exact ⟨rfl, rfl⟩
  | false =>
    simp only [Bool.false_eq_true, if_false] at h ⊢
    obtain ⟨q, f3, h⟩ := Res.bind_eq_ok h
    obtain rfl := Res.ok.inj h
    exact ⟨f3, rfl⟩

theorem _root_.Cnn.Connected.backward_of {L : Connected α} {o : ArgOrder} {X Z D gw d : Matrix α} {b : Nat} {last : Bool}
    (h1 : Connected.getdLdW o X D = .ok gw) (h3 : b < L.wGrads.length) (h4 : b < L.bGrads.length)
    (h5 : (if last then Res.ok Matrix.empty else L.getdLdX o D) = .ok d) :
    L.backward o X Z D b last = .ok (d, { L with wGrads := L.wGrads.set b gw, bGrads := L.bGrads.set b D }) := by
  unfold Connected.backward
  rw [h1, Res.bind_ok, setSlot, if_pos h3, Res.bind_ok, setSlot, if_pos h4, Res.bind_ok]
  cases last with
  | true => obtain rfl := Res.ok.inj h5; rfl
  | false =>
    simp only [Bool.false_eq_true, if_false] at h5 ⊢
    rw [h5, Res.bind_ok]

theorem forward_see (N : Num α) (dr : Nat → α) (X : Matrix α) (b : Nat) (B : Body α) :
    (B.see b).forward N dr X 0 = (fun r => (r.1, r.2.see b)) <$> B.forward N dr X b := by
  cases B with
  | kernel K =>
    show (K.forward X >>= fun Y => _) = _ <$> (K.forward X >>= fun Y => _)
    cases K.forward X <;> rfl
  | pooling P =>
    show ((Pooling.forward N { P with indices := P.indices[b]?.toList } X 0) >>= fun r => _) = _ <$> (P.forward N X b >>= fun Y => _)
    unfold Pooling.forward
    have e1 : Pooling.outputSize { P with indices := P.indices[b]?.toList } X.dim = P.outputSize X.dim := rfl
    have e2 : Pooling.forwardStep N { P with indices := P.indices[b]?.toList } X = P.forwardStep N X := rfl
    rw [e1, e2]
    cases P.outputSize X.dim with
    | throw | ub | abort => rfl
    | ok od =>
      simp only [Res.bind_ok]
      cases Matrix.ofDim od (0 : α) with
      | throw | ub | abort => rfl
      | ok o =>
        simp only [Res.bind_ok]
        by_cases h : b < P.indices.length
        · rw [List.getElem?_eq_getElem h]
          simp only [Option.toList_some, List.getElem?_cons_zero, Res.ofOption_some, Res.bind_ok]
          cases P.indices[b].resize od 0 with
          | throw | ub | abort => rfl
          | ok i =>
            simp only [Res.bind_ok]
            cases forRange od (P.forwardStep N X) (o, i) with
            | throw | ub | abort => rfl
            | ok r =>
              simp [see, List.getElem?_set_self h]
        · rw [show P.indices[b]? = none from List.getElem?_eq_none (by omega)]
          rfl
  | connected L =>
    have e : ∀ (l m : List (Matrix α)), Connected.forward N dr { L with wGrads := l, bGrads := m } X =
        ((L.forward N dr X).1, { (L.forward N dr X).2 with wGrads := l, bGrads := m }) := by
      intro l m
      have hc : ∀ (W : Connected α), Connected.compute { W with wGrads := l, bGrads := m } X = W.compute X := fun W => rfl
      unfold Connected.forward Connected.checkSize
      have e1 : Connected.expected { L with wGrads := l, bGrads := m } X = L.expected X := rfl
      have e2 : Connected.initWeights N dr { L with wGrads := l, bGrads := m } = L.initWeights N dr := rfl
      simp only [e1, e2]
      cases L.expected X with
      | throw | ub | abort => rfl
      | ok e =>
        simp only
        by_cases hi : L.initialized
        · rw [if_pos hi, if_pos hi]
          rfl
        · rw [if_neg hi, if_neg hi]
          cases L.initWeights N dr e with
          | throw | ub | abort => rfl
          | ok r => rfl
    have e0 : (L.forward N dr X).2.wGrads = L.wGrads ∧ (L.forward N dr X).2.bGrads = L.bGrads := by
      unfold Connected.forward Connected.checkSize
      cases L.expected X with
      | throw | ub | abort => exact ⟨rfl, rfl⟩
      | ok e =>
        simp only
        by_cases hi : L.initialized
        · rw [if_pos hi]; exact ⟨rfl, rfl⟩
        · rw [if_neg hi]
          cases L.initWeights N dr e <;> exact ⟨rfl, rfl⟩
    show ((Connected.forward N dr { L with wGrads := L.wGrads[b]?.toList, bGrads := L.bGrads[b]?.toList } X).1 >>= fun Y =>
      Res.ok (Y, Body.connected (Connected.forward N dr { L with wGrads := L.wGrads[b]?.toList, bGrads := L.bGrads[b]?.toList } X).2)) =
      _ <$> ((L.forward N dr X).1 >>= fun Y => _)
    rw [e]
    simp only
    cases (L.forward N dr X).1 with
    | throw | ub | abort => rfl
    | ok Y =>
      simp only [Res.bind_ok, Res.map_ok, see, e0]
  | activation A =>
    show (A.forward N X >>= fun Y => _) = _ <$> (A.forward N X >>= fun Y => _)
    cases A.forward N X <;> rfl
  | softmax S =>
    show (S.forward N X >>= fun Y => _) = _ <$> (S.forward N X >>= fun Y => _)
    cases S.forward N X <;> rfl

theorem backward_see (N : Num α) (o : ArgOrder) (X Z D : Matrix α) (b : Nat) (last : Bool) (B : Body α) :
    (B.see b).backward N o X Z D 0 last = (fun r => (r.1, r.2.see b)) <$> B.backward N o X Z D b last := by
  cases B with
  | kernel K =>
    show ((Kernel.backward { K with wGrads := K.wGrads[b]?.toList, bGrads := K.bGrads[b]?.toList } X Z D 0 last) >>= fun r => _) =
      _ <$> (K.backward X Z D b last >>= fun r => _)
    unfold Kernel.backward
    have e1 : Kernel.getdLdW { K with wGrads := K.wGrads[b]?.toList, bGrads := K.bGrads[b]?.toList } X D = K.getdLdW X D := rfl
    have e2 : Kernel.getdLdB { K with wGrads := K.wGrads[b]?.toList, bGrads := K.bGrads[b]?.toList } D = K.getdLdB D := rfl
    have e3 : Kernel.getdLdX { K with wGrads := K.wGrads[b]?.toList, bGrads := K.bGrads[b]?.toList } X D = K.getdLdX X D := rfl
    rw [e1, e2, e3]
    cases K.getdLdW X D with
    | throw | ub | abort => rfl
    | ok gw =>
      simp only [Res.bind_ok, setSlot_see]
      cases setSlot K.wGrads b gw with
      | throw | ub | abort => rfl
      | ok wG =>
        simp only [Res.bind_ok, Res.map_ok]
        cases K.getdLdB D with
        | throw | ub | abort => rfl
        | ok gb =>
          simp only [Res.bind_ok]
          cases setSlot K.bGrads b gb with
          | throw | ub | abort => rfl
          | ok bG =>
            simp only [Res.bind_ok, Res.map_ok]
            cases last with
            | true => rfl
            | false =>
              simp only [Bool.false_eq_true, if_false]
              cases K.getdLdX X D <;> rfl
  | pooling P =>
    show ((Pooling.backward N { P with indices := P.indices[b]?.toList } X Z D 0) >>= fun r => _) = _ <$> (P.backward N X Z D b >>= fun Y => _)
    have : Pooling.backward N { P with indices := P.indices[b]?.toList } X Z D 0 = P.backward N X Z D b := by
      unfold Pooling.backward Pooling.getdLdX
      cases P.indices[b]? <;> rfl
    rw [this]
    cases P.backward N X Z D b <;> rfl
  | connected L =>
    show ((Connected.backward o { L with wGrads := L.wGrads[b]?.toList, bGrads := L.bGrads[b]?.toList } X Z D 0 last) >>= fun r => _) =
      _ <$> (L.backward o X Z D b last >>= fun r => _)
    unfold Connected.backward
    have e3 : Connected.getdLdX o { L with wGrads := L.wGrads[b]?.toList, bGrads := L.bGrads[b]?.toList } D = L.getdLdX o D := rfl
    rw [e3]
    cases Connected.getdLdW o X D with
    | throw | ub | abort => rfl
    | ok gw =>
      simp only [Res.bind_ok, setSlot_see]
      cases setSlot L.wGrads b gw with
      | throw | ub | abort => rfl
      | ok wG =>
        simp only [Res.bind_ok, Res.map_ok]
        cases setSlot L.bGrads b D with
        | throw | ub | abort => rfl
        | ok bG =>
          simp only [Res.bind_ok, Res.map_ok]
          cases last with
          | true => rfl
          | false =>
            simp only [Bool.false_eq_true, if_false]
            cases L.getdLdX o D <;> rfl
  | activation A =>
    show (A.backward N X Z D >>= fun Y => _) = _ <$> (A.backward N X Z D >>= fun Y => _)
    cases A.backward N X Z D <;> rfl
  | softmax S =>
    show (S.backward X Z D >>= fun Y => _) = _ <$> (S.backward X Z D >>= fun Y => _)
    cases S.backward X Z D <;> rfl

theorem forward_tell (N : Num α) (dr : Nat → α) (X : Matrix α) (b l : Nat) (B : Body α) :
    (B.tell l).forward N dr X b = (fun r => (r.1, r.2.tell l)) <$> B.forward N dr X b := by
  cases B with
  | kernel K =>
    show (K.forward X >>= fun Y => _) = _ <$> (K.forward X >>= fun Y => _)
    cases K.forward X <;> rfl
  | pooling P =>
    show (P.forward N X b >>= fun r => _) = _ <$> (P.forward N X b >>= fun Y => _)
    cases P.forward N X b <;> rfl
  | connected L =>
    show ((L.forward N dr X).1 >>= fun Y => _) = _ <$> ((L.forward N dr X).1 >>= fun Y => _)
    cases (L.forward N dr X).1 <;> rfl
  | activation A =>
    show (A.forward N X >>= fun Y => _) = _ <$> (A.forward N X >>= fun Y => _)
    cases A.forward N X <;> rfl
  | softmax S =>
    have e : Softmax.forward N { S with trueLabel := l, knows := true } X = S.forward N X := rfl
    show (Softmax.forward N { S with trueLabel := l, knows := true } X >>= fun Y => _) = _ <$> (S.forward N X >>= fun Y => _)
    rw [e]
    cases S.forward N X <;> rfl

/-- What else a forward call does. -/
theorem forward_frame {N : Num α} {dr : Nat → α} {X : Matrix α} {b : Nat} {B : Body α} {r : Matrix α × Body α} (hB : B.Ready)
    (h : B.forward N dr X b = .ok r) : r.2.bare = B.bare ∧ ∀ c ≠ b, r.2.see c = B.see c := by
  cases B with
  | kernel K =>
    obtain ⟨Y, _, h⟩ := Res.bind_eq_ok h
    obtain rfl := Res.ok.inj h
    exact ⟨rfl, fun _ _ => rfl⟩
  | pooling P =>
    obtain ⟨r', h', h⟩ := Res.bind_eq_ok h
    obtain rfl := Res.ok.inj h
    unfold Pooling.forward at h'
    obtain ⟨_, _, h'⟩ := Res.bind_eq_ok h'
    obtain ⟨_, _, h'⟩ := Res.bind_eq_ok h'
    obtain ⟨_, _, h'⟩ := Res.bind_eq_ok h'
    obtain ⟨_, _, h'⟩ := Res.bind_eq_ok h'
    obtain ⟨_, _, h'⟩ := Res.bind_eq_ok h'
    obtain rfl := Res.ok.inj h'
    refine ⟨by simp [bare], fun c hc => ?_⟩
    simp only [see]
    rw [List.getElem?_set_ne (Ne.symm hc)]
  | connected L =>
    obtain ⟨Y, hY, h⟩ := Res.bind_eq_ok h
    obtain rfl := Res.ok.inj h
    have hL : L.initialized = true := hB
    have : (L.forward N dr X).2 = L := by
      unfold Connected.forward Connected.checkSize
      cases L.expected X with
      | throw | ub | abort => rfl
      | ok e => simp only; rw [if_pos hL]
    simp only [this]
    exact ⟨trivial, fun _ _ => trivial⟩
  | activation A =>
    obtain ⟨Y, _, h⟩ := Res.bind_eq_ok h
    obtain rfl := Res.ok.inj h
    exact ⟨rfl, fun _ _ => rfl⟩
  | softmax S =>
    obtain ⟨Y, _, h⟩ := Res.bind_eq_ok h
    obtain rfl := Res.ok.inj h
    exact ⟨rfl, fun _ _ => rfl⟩

/-- What else a backward call does. -/
theorem backward_frame {N : Num α} {o : ArgOrder} {X Z D : Matrix α} {b : Nat} {last : Bool} {B : Body α}
    {r : Matrix α × Body α} (h : B.backward N o X Z D b last = .ok r) : r.2.bare = B.bare ∧ ∀ c ≠ b, r.2.see c = B.see c := by
  cases B with
  | kernel K =>
    obtain ⟨r', h', h⟩ := Res.bind_eq_ok h
    obtain rfl := Res.ok.inj h
    obtain ⟨gw, gb, _, _, _, _, _, e⟩ := Kernel.backward_inv h'
    rw [e]
    refine ⟨by simp [bare], fun c hc => ?_⟩
    simp only [see]
    rw [List.getElem?_set_ne (Ne.symm hc), List.getElem?_set_ne (Ne.symm hc)]
  | pooling P =>
    obtain ⟨Y, _, h⟩ := Res.bind_eq_ok h
    obtain rfl := Res.ok.inj h
    exact ⟨rfl, fun _ _ => rfl⟩
  | connected L =>
    obtain ⟨r', h', h⟩ := Res.bind_eq_ok h
    obtain rfl := Res.ok.inj h
    obtain ⟨gw, _, _, _, _, e⟩ := Connected.backward_inv h'
    rw [e]
    refine ⟨by simp [bare], fun c hc => ?_⟩
    simp only [see]
    rw [List.getElem?_set_ne (Ne.symm hc), List.getElem?_set_ne (Ne.symm hc)]
  | activation A =>
    obtain ⟨Y, _, h⟩ := Res.bind_eq_ok h
    obtain rfl := Res.ok.inj h
    exact ⟨rfl, fun _ _ => rfl⟩
  | softmax S =>
    obtain ⟨Y, _, h⟩ := Res.bind_eq_ok h
    obtain rfl := Res.ok.inj h
    exact ⟨rfl, fun _ _ => rfl⟩

end
end Body
end Cnn
