import Verif.Lemmas.SlotRun
import Verif.Lemmas.PoolSlot
/-! Helper lemmas: what a sample gives on its own does not depend on what its slot contained before (C53, C54). -/
set_option linter.unusedSectionVars false
namespace Cnn
variable {α : Type}

/-- Two layers with one slot each and the same parameters; `tr`: the same recorded indices, `gr`: the same gradients. -/
inductive Body.Same (tr gr : Prop) : Body α → Body α → Prop
  | kernel (K : Kernel α) (w b : List (Matrix α)) (h1 : K.wGrads.length = 1) (h2 : K.bGrads.length = 1) (h3 : w.length = 1)
      (h4 : b.length = 1) (h : gr → w = K.wGrads ∧ b = K.bGrads) :
      Body.Same tr gr (.kernel K) (.kernel { K with wGrads := w, bGrads := b })
  | pooling (P : Pooling) (i : List (Matrix Dim3)) (h1 : P.indices.length = 1) (h2 : i.length = 1) (h3 : 0 < P.stride.x)
      (h4 : 0 < P.stride.y) (h : tr → P.type ≠ .avg → i = P.indices) :
      Body.Same tr gr (.pooling P) (.pooling { P with indices := i })
  | connected (L : Connected α) (w b : List (Matrix α)) (h0 : L.initialized = true) (h1 : L.wGrads.length = 1)
      (h2 : L.bGrads.length = 1) (h3 : w.length = 1) (h4 : b.length = 1) (h : gr → w = L.wGrads ∧ b = L.bGrads) :
      Body.Same tr gr (.connected L) (.connected { L with wGrads := w, bGrads := b })
  | activation (A : Activation) : Body.Same tr gr (.activation A) (.activation A)
  | softmax (S : Softmax) : Body.Same tr gr (.softmax S) (.softmax S)

namespace Body

theorem Same.tell {tr gr : Prop} {B C : Body α} (h : Same tr gr B C) (l : Nat) : Same tr gr (B.tell l) (C.tell l) := by
  cases h with
  | softmax S => exact .softmax _
  | kernel K w b h1 h2 h3 h4 h => exact .kernel K w b h1 h2 h3 h4 h
  | pooling P i h1 h2 h3 h4 h => exact .pooling P i h1 h2 h3 h4 h
  | connected L w b h0 h1 h2 h3 h4 h => exact .connected L w b h0 h1 h2 h3 h4 h
  | activation A => exact .activation A

theorem Same.mono {tr gr tr' gr' : Prop} {B C : Body α} (h : Same tr gr B C) (ht : tr' → tr) (hg : gr' → gr) : Same tr' gr' B C := by
  cases h with
  | softmax S => exact .softmax _
  | kernel K w b h1 h2 h3 h4 h => exact .kernel K w b h1 h2 h3 h4 (fun a => h (hg a))
  | pooling P i h1 h2 h3 h4 h => exact .pooling P i h1 h2 h3 h4 (fun a => h (ht a))
  | connected L w b h0 h1 h2 h3 h4 h => exact .connected L w b h0 h1 h2 h3 h4 (fun a => h (hg a))
  | activation A => exact .activation A

section
variable [Zero α] [One α] [Add α] [Sub α] [Mul α] [Div α] [Neg α]

theorem Same.forward {tr gr : Prop} {N : Num α} {dr : Nat → α} {X Y : Matrix α} {B C B' : Body α} (h : Same tr gr B C)
    (hf : B.forward N dr X 0 = .ok (Y, B')) : ∃ C', C.forward N dr X 0 = .ok (Y, C') ∧ Same True gr B' C' := by
  cases h with
  | kernel K w b h1 h2 h3 h4 h =>
    obtain ⟨y, e, hf⟩ := Res.bind_eq_ok hf
    obtain ⟨rfl, rfl⟩ := Prod.mk.inj (Res.ok.inj hf)
    refine ⟨.kernel { K with wGrads := w, bGrads := b }, ?_, .kernel K w b h1 h2 h3 h4 h⟩
    have e' : Kernel.forward { K with wGrads := w, bGrads := b } X = .ok y := e
    simp only [Body.forward, e', Res.bind_ok]
  | pooling P i h1 h2 h3 h4 h =>
    obtain ⟨r, e, hf⟩ := Res.bind_eq_ok hf
    obtain ⟨y, P'⟩ := r
    obtain ⟨rfl, rfl⟩ := Prod.mk.inj (Res.ok.inj hf)
    obtain ⟨a, c, e1, e2, e3, e4⟩ := Pooling.forward_slot (Q := { P with indices := i }) (c := 0) e rfl rfl rfl h3 h4 (by simp [h2])
    subst e1
    refine ⟨.pooling { P with indices := i.set 0 c }, ?_, ?_⟩
    · simp only [Body.forward, e3, Res.bind_ok]
    · exact .pooling { P with indices := P.indices.set 0 a } (i.set 0 c) (by simpa using h1) (by simpa using h2) h3 h4 (by
        intro _ hne
        obtain ⟨u, rfl⟩ := List.length_eq_one_iff.1 h2
        have hp := h1
        obtain ⟨v, hv⟩ := List.length_eq_one_iff.1 hp
        simp only [hv, List.set_cons_zero, e4 hne])
  | connected L w b h0 h1 h2 h3 h4 h =>
    obtain ⟨y, e, hf⟩ := Res.bind_eq_ok hf
    obtain ⟨rfl, rfl⟩ := Prod.mk.inj (Res.ok.inj hf)
    have key : ∀ W : Connected α, W.initialized = true → W.forward N dr X = ((do
        let x ← W.expected X
        if W.weights.dim = x then W.compute X else .throw .modelLayer), W) := by
      intro W hW
      unfold Connected.forward Connected.checkSize
      cases W.expected X with
      | throw | ub | abort => rfl
      | ok x =>
        simp only [hW, if_true, Res.bind_ok]
        by_cases hd : W.weights.dim = x <;> simp [hd]
    rw [key L h0] at e
    refine ⟨.connected { L with wGrads := w, bGrads := b }, ?_, ?_⟩
    · have e' : (Connected.forward N dr { L with wGrads := w, bGrads := b } X) = (.ok y, { L with wGrads := w, bGrads := b }) := by
        rw [key { L with wGrads := w, bGrads := b } h0, ← e]
        rfl
      simp only [Body.forward, e', Res.bind_ok]
    · rw [key L h0]
      exact .connected L w b h0 h1 h2 h3 h4 h
  | activation A =>
    obtain ⟨y, e, hf⟩ := Res.bind_eq_ok hf
    obtain ⟨rfl, rfl⟩ := Prod.mk.inj (Res.ok.inj hf)
    exact ⟨_, by simp only [Body.forward, e, Res.bind_ok], .activation A⟩
  | softmax S =>
    obtain ⟨y, e, hf⟩ := Res.bind_eq_ok hf
    obtain ⟨rfl, rfl⟩ := Prod.mk.inj (Res.ok.inj hf)
    exact ⟨_, by simp only [Body.forward, e, Res.bind_ok], .softmax S⟩

theorem Same.backward {gr : Prop} {N : Num α} {o : ArgOrder} {X Z D D' : Matrix α} {last : Bool} {B C B' : Body α}
    (h : Same True gr B C) (hf : B.backward N o X Z D 0 last = .ok (D', B')) :
    ∃ C', C.backward N o X Z D 0 last = .ok (D', C') ∧ Same True True B' C' := by
  cases h with
  | kernel K w b h1 h2 h3 h4 h =>
    obtain ⟨r, e, hf⟩ := Res.bind_eq_ok hf
    obtain ⟨rfl, rfl⟩ := Prod.mk.inj (Res.ok.inj hf)
    obtain ⟨gw, gb, f1, f2, f3, f4, f5, f6⟩ := Kernel.backward_inv e
    have := Kernel.backward_of (K := { K with wGrads := w, bGrads := b }) (X := X) (Z := Z) (D := D) (b := 0) (last := last)
      (gw := gw) (gb := gb) (d := r.1) f1 f2 (by simp [h3]) (by simp [h4]) f5
    refine ⟨_, (congrArg (· >>= _) this).trans rfl, ?_⟩
    rw [f6]
    obtain ⟨u, rfl⟩ := List.length_eq_one_iff.1 h3
    obtain ⟨v, rfl⟩ := List.length_eq_one_iff.1 h4
    obtain ⟨u', hu⟩ := List.length_eq_one_iff.1 h1
    obtain ⟨v', hv⟩ := List.length_eq_one_iff.1 h2
    exact .kernel { K with wGrads := K.wGrads.set 0 gw, bGrads := K.bGrads.set 0 gb } [gw] [gb] (by simp [hu]) (by simp [hv]) rfl rfl
      (by simp [hu, hv])
  | pooling P i h1 h2 h3 h4 h =>
    obtain ⟨d, e, hf⟩ := Res.bind_eq_ok hf
    obtain ⟨rfl, rfl⟩ := Prod.mk.inj (Res.ok.inj hf)
    refine ⟨.pooling { P with indices := i }, ?_, .pooling P i h1 h2 h3 h4 h⟩
    have : Pooling.backward N { P with indices := i } X Z D 0 = P.backward N X Z D 0 := by
      by_cases ht : P.type = .avg
      · obtain ⟨u, rfl⟩ := List.length_eq_one_iff.1 h2
        obtain ⟨v, hv⟩ := List.length_eq_one_iff.1 h1
        unfold Pooling.backward Pooling.getdLdX
        simp only [ht, hv]
        rfl
      · rw [h trivial ht]
    simp only [Body.backward, this, e, Res.bind_ok]
  | connected L w b h0 h1 h2 h3 h4 h =>
    obtain ⟨r, e, hf⟩ := Res.bind_eq_ok hf
    obtain ⟨rfl, rfl⟩ := Prod.mk.inj (Res.ok.inj hf)
    obtain ⟨gw, f1, f3, f4, f5, f6⟩ := Connected.backward_inv e
    have := Connected.backward_of (L := { L with wGrads := w, bGrads := b }) (o := o) (X := X) (Z := Z) (D := D) (b := 0) (last := last)
      (gw := gw) (d := r.1) f1 (by simp [h3]) (by simp [h4]) f5
    refine ⟨_, (congrArg (· >>= _) this).trans rfl, ?_⟩
    rw [f6]
    obtain ⟨u, rfl⟩ := List.length_eq_one_iff.1 h3
    obtain ⟨v, rfl⟩ := List.length_eq_one_iff.1 h4
    obtain ⟨u', hu⟩ := List.length_eq_one_iff.1 h1
    obtain ⟨v', hv⟩ := List.length_eq_one_iff.1 h2
    exact .connected { L with wGrads := L.wGrads.set 0 gw, bGrads := L.bGrads.set 0 D } [gw] [D] h0 (by simp [hu]) (by simp [hv]) rfl rfl
      (by simp [hu, hv])
  | activation A =>
    obtain ⟨y, e, hf⟩ := Res.bind_eq_ok hf
    obtain ⟨rfl, rfl⟩ := Prod.mk.inj (Res.ok.inj hf)
    exact ⟨_, by simp only [Body.backward, e, Res.bind_ok], .activation A⟩
  | softmax S =>
    obtain ⟨y, e, hf⟩ := Res.bind_eq_ok hf
    obtain ⟨rfl, rfl⟩ := Prod.mk.inj (Res.ok.inj hf)
    exact ⟨_, by simp only [Body.backward, e, Res.bind_ok], .softmax S⟩

end
end Body

/-- The same for models: `tr i`, `gr i` speak about layer `i`. -/
structure Model.Same (tr gr : Nat → Prop) (m m' : Model α) : Prop where
  labels : m'.labels = m.labels
  length : m'.layers.length = m.layers.length
  layer : ∀ i l l', m.layers[i]? = some l → m'.layers[i]? = some l' → Body.Same (tr i) (gr i) l.body l'.body

namespace Model

theorem Same.mono {tr gr tr' gr' : Nat → Prop} {m m' : Model α} (h : Same tr gr m m')
    (ht : ∀ i < m.layers.length, tr' i → tr i) (hg : ∀ i < m.layers.length, gr' i → gr i) :
    Same tr' gr' m m' :=
  ⟨h.labels, h.length, fun i l l' a b => (h.layer i l l' a b).mono (ht i (List.getElem?_eq_some_iff.1 a).1)
    (hg i (List.getElem?_eq_some_iff.1 a).1)⟩

theorem Same.tell {tr gr : Nat → Prop} {m m' : Model α} (h : Same tr gr m m') (l : Nat) : Same tr gr (m.tell l) (m'.tell l) := by
  refine ⟨h.labels, by simp [h.length], ?_⟩
  intro i y y' a b
  by_cases hi : i + 1 = m.layers.length
  · rw [tell_get_last _ _ _ hi] at a
    rw [tell_get_last _ _ _ (by rw [h.length]; exact hi)] at b
    obtain ⟨z, hz, rfl⟩ := Option.map_eq_some_iff.1 a
    obtain ⟨z', hz', rfl⟩ := Option.map_eq_some_iff.1 b
    exact (h.layer i z z' hz hz').tell l
  · rw [tell_get_ne _ _ _ hi] at a
    rw [tell_get_ne _ _ _ (by rw [h.length]; exact hi)] at b
    exact h.layer i y y' a b

theorem Same.get {tr gr : Nat → Prop} {m m' : Model α} (h : Same tr gr m m') {i : Nat} {l : Layer α}
    (hl : m.layers[i]? = some l) : ∃ l', m'.layers[i]? = some l' ∧ Body.Same (tr i) (gr i) l.body l'.body := by
  have hi : i < m'.layers.length := by rw [h.length]; exact (List.getElem?_eq_some_iff.1 hl).1
  exact ⟨_, List.getElem?_eq_getElem hi, h.layer i l _ hl (List.getElem?_eq_getElem hi)⟩

theorem Same.setBody {tr gr tr' gr' : Nat → Prop} {m m' : Model α} (h : Same tr gr m m') {i : Nat} {B B' : Body α}
    (hB : Body.Same (tr' i) (gr' i) B B') (ht : ∀ j, j ≠ i → tr' j → tr j) (hg : ∀ j, j ≠ i → gr' j → gr j) :
    Same tr' gr' (m.setBody i B) (m'.setBody i B') := by
  refine ⟨h.labels, by simp [Model.setBody, h.length], ?_⟩
  intro j l l' a b
  simp only [Model.setBody, List.getElem?_modify] at a b
  by_cases hj : i = j
  · subst hj
    simp only [if_true] at a b
    obtain ⟨z, _, rfl⟩ := Option.map_eq_some_iff.1 a
    obtain ⟨z', _, rfl⟩ := Option.map_eq_some_iff.1 b
    exact hB
  · simp only [hj, if_false, id_map'] at a b
    exact (h.layer j l l' a b).mono (ht j (Ne.symm hj)) (hg j (Ne.symm hj))

theorem Same.outputs {tr gr : Nat → Prop} {m m' : Model α} (h : Same tr gr m m') {n : Nat} (ho : m.Outputs n) : m'.Outputs n := by
  obtain ⟨y, S, e1, e2, e3⟩ := ho
  rw [List.getLast?_eq_getElem?] at e1
  obtain ⟨y', e4, e5⟩ := h.get e1
  rw [e2] at e5
  refine ⟨y', S, by rw [List.getLast?_eq_getElem?, h.length]; exact e4, ?_, e3⟩
  cases hb : y'.body with
  | softmax S' => rw [hb] at e5; cases e5; rfl
  | _ => rw [hb] at e5; cases e5

section
variable [Zero α] [One α] [Add α] [Sub α] [Mul α] [Div α] [Neg α]

theorem Same.forwardStep {tr gr : Nat → Prop} {E : Env α} {m m' : Model α} (h : Same tr gr m m') {i : Nat}
    {s : Matrix α × List (Matrix α)} {r : (Matrix α × List (Matrix α)) × Model α} (hf : Model.forwardStep E 0 (s, m) i = .ok r) :
    ∃ m2, Model.forwardStep E 0 (s, m') i = .ok (r.1, m2) ∧ Same (fun j => j = i ∨ tr j) gr r.2 m2 := by
  unfold Model.forwardStep Model.forwardLayer at hf
  obtain ⟨y, hy, hf⟩ := Res.bind_eq_ok hf
  obtain ⟨R, hR, hf⟩ := Res.bind_eq_ok hf
  obtain rfl := Res.ok.inj hf
  obtain ⟨l, hl, hy⟩ := Res.bind_eq_ok hy
  obtain ⟨z, hz, hy⟩ := Res.bind_eq_ok hy
  obtain rfl := Res.ok.inj hy
  have hl := ofOption_eq hl
  obtain ⟨l', e1, e2⟩ := h.get hl
  obtain ⟨C', e3, e4⟩ := e2.forward hz
  refine ⟨m'.setBody i C', ?_, h.setBody (e4.mono (by simp) id) (by simp; tauto) (by simp)⟩
  simp only [Model.forwardStep, Model.forwardLayer, e1, e3, Res.ofOption_some, Res.bind_ok]
  simp only at hR
  rw [hR]
  rfl

theorem Same.backwardStep {tr gr : Nat → Prop} {E : Env α} {r : Results α} {m m' : Model α} (h : Same tr gr m m') {i : Nat}
    (ht : tr i) {d : Matrix α} {q : Matrix α × Model α} (hf : Model.backwardStep E r 0 (d, m) i = .ok q) :
    ∃ m2, Model.backwardStep E r 0 (d, m') i = .ok (q.1, m2) ∧ Same tr (fun j => j = i ∨ gr j) q.2 m2 := by
  unfold Model.backwardStep at hf
  obtain ⟨X, f1, hf⟩ := Res.bind_eq_ok hf
  obtain ⟨Z, f2, hf⟩ := Res.bind_eq_ok hf
  obtain ⟨l, hl, hf⟩ := Res.bind_eq_ok hf
  obtain ⟨X', f3, hf⟩ := Res.bind_eq_ok hf
  obtain ⟨Z', f4, hf⟩ := Res.bind_eq_ok hf
  obtain ⟨z, hz, hf⟩ := Res.bind_eq_ok hf
  obtain rfl := Res.ok.inj hf
  have hl := ofOption_eq hl
  obtain ⟨l', e1, e2⟩ := h.get hl
  obtain ⟨C', e3, e4⟩ := (e2.mono (fun _ => ht) id : Body.Same True (gr i) _ _).backward hz
  refine ⟨m'.setBody i C', ?_, h.setBody (e4.mono (by simp) (by simp)) (by simp) (by simp; tauto)⟩
  simp only [Model.backwardStep, f1, f2, f3, f4, e1, e3, Res.ofOption_some, Res.bind_ok]

end
end Model

namespace Train
open Model
variable [Zero α] [One α] [Add α] [Sub α] [Mul α] [Div α] [Neg α]

theorem Same.soloF {gr : Nat → Prop} {E : Env α} {m m' : Model α} {x : Sample α} (h : Same (fun _ => False) gr m m') (n : Nat)
    {r : (Matrix α × List (Matrix α)) × Model α} (hf : soloF E m x n = .ok r) :
    ∃ m2, soloF E m' x n = .ok (r.1, m2) ∧ Same (· < n) gr r.2 m2 := by
  induction n generalizing r with
  | zero =>
    unfold Train.soloF at hf ⊢
    obtain ⟨s, e, hf⟩ := Res.bind_eq_ok hf
    obtain rfl := Res.ok.inj hf
    exact ⟨m', by rw [e]; rfl, h.mono (by simp) (by simp)⟩
  | succ n ih =>
    rw [soloF_succ] at hf ⊢
    obtain ⟨s, e, hf⟩ := Res.bind_eq_ok hf
    obtain ⟨m1, e1, s1⟩ := ih e
    obtain ⟨m2, e2, s2⟩ := s1.forwardStep hf
    refine ⟨m2, by rw [e1, Res.bind_ok, e2], s2.mono ?_ (by simp)⟩
    intro i _ hi
    omega

theorem Same.soloB {E : Env α} {res : Results α} {m m' : Model α} {N : Nat} (h : Same (fun i => i < N) (fun _ => False) m m') (j : Nat)
    (hj : j ≤ N) {r : Matrix α × Model α} (hf : soloB E res m N (N - j) = .ok r) :
    ∃ m2, soloB E res m' N (N - j) = .ok (r.1, m2) ∧ Same (fun i => i < N) (fun i => N - j ≤ i ∧ i < N) r.2 m2 := by
  induction j generalizing r with
  | zero =>
    rw [Nat.sub_zero, soloB_self] at hf ⊢
    obtain rfl := Res.ok.inj hf
    exact ⟨m', rfl, h.mono (fun _ _ a => a) (fun i _ a => by omega)⟩
  | succ j ih =>
    have e0 : N - (j + 1) + 1 = N - j := by omega
    rw [soloB_succ _ _ _ _ _ (by omega), e0] at hf ⊢
    obtain ⟨s, e, hf⟩ := Res.bind_eq_ok hf
    obtain ⟨m1, e1, s1⟩ := ih (by omega) e
    obtain ⟨m2, e2, s2⟩ := s1.backwardStep (by omega) hf
    refine ⟨m2, by rw [e1, Res.bind_ok, e2], s2.mono (by simp) ?_⟩
    intro i _ hi
    omega

/-- The gradients a sample gives on its own depend only on the parameters of the model. -/
theorem Solo.same {E : Env α} {m m' m1 : Model α} {x : Sample α} {l : Nat} (h : Same (fun _ => False) (fun _ => False) m m')
    (hs : Solo E m x l m1) : ∃ m2, Solo E m' x l m2 ∧ Same (fun _ => True) (fun _ => True) m1 m2 := by
  obtain ⟨s, k, r0, r, d, n, h1, h2, h3, h4, h5, h6⟩ := hs
  obtain ⟨k', e1, s1⟩ := Same.soloF h _ h1
  have hk : k.layers.length = m.layers.length := by
    have : ∀ n r, soloF E m x n = .ok r → r.2.layers.length = m.layers.length := by
      intro n
      induction n with
      | zero =>
        intro r hr
        unfold Train.soloF at hr
        obtain ⟨s, e, hr⟩ := Res.bind_eq_ok hr
        obtain rfl := Res.ok.inj hr
        rfl
      | succ n ih =>
        intro r hr
        rw [soloF_succ] at hr
        obtain ⟨s, e, hr⟩ := Res.bind_eq_ok hr
        rw [(forwardStep_label hr).2.2, ih _ e]
    exact this _ _ h1
  obtain ⟨m2, e2, s2⟩ := Same.soloB (s1.tell l) m.layers.length (le_refl _) (by rw [Nat.sub_self]; exact h6)
  rw [Nat.sub_self] at e2 s2
  refine ⟨m2, ⟨s, k', r0, r, d, n, by rw [h.length]; exact e1, ?_, ?_, h.outputs h4, ?_, by rw [h.length]; exact e2⟩, ?_⟩
  · rw [← h2]; exact forwardEnd_congr E h.labels _ _
  · rw [← h3]; exact assignLoss_congr E h.labels _ _
  · rw [labelIndex, h.labels]; exact h5
  · have hm1 : m1.layers.length = m.layers.length := by
      have : ∀ j ≤ m.layers.length, ∀ r', soloB E r (k.tell l) m.layers.length (m.layers.length - j) = .ok r' →
          r'.2.layers.length = m.layers.length := by
        intro j
        induction j with
        | zero =>
          intro _ r' hr
          rw [Nat.sub_zero, soloB_self] at hr
          obtain rfl := Res.ok.inj hr
          simpa using hk
        | succ j ih =>
          intro hj r' hr
          rw [soloB_succ _ _ _ _ _ (by omega), show m.layers.length - (j + 1) + 1 = m.layers.length - j by omega] at hr
          obtain ⟨s, e, hr⟩ := Res.bind_eq_ok hr
          rw [(backwardStep_label hr).2.2, ih (by omega) _ e]
      exact this _ (le_refl _) _ (by rw [Nat.sub_self]; exact h6)
    exact s2.mono (fun i hi _ => by simp only at hi; omega) (fun i hi _ => by simp only at hi; omega)

end Train
end Cnn
