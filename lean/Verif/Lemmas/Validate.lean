import Verif.Spec.Validate
import Verif.Lemmas.ShapeModel
import Verif.Lemmas.SlotModel
import Verif.Lemmas.Mnist
/-! Helper lemmas: what a thread of the validation run computes (C72). -/
set_option linter.unusedSectionVars false
namespace Cnn
variable {α : Type}

theorem loop_two {σ τ : Type} (R : σ → τ → Prop) {b₁ : σ → Iter → Res σ} {b₂ : τ → Iter → Res τ}
    (hs : ∀ x s t s' t', R s t → b₁ s x = .ok s' → b₂ t x = .ok t' → R s' t') (last : Iter) (n : Nat) :
    ∀ {it : Iter} {s s' : σ} {t t' : τ}, R s t → Iter.loop last b₁ n it s = .ok s' → Iter.loop last b₂ n it t = .ok t' → R s' t' := by
  induction n with
  | zero =>
    intro it s s' t t' h h1 h2
    unfold Iter.loop at h1 h2
    split at h1
    · rename_i hl
      rw [if_pos hl] at h2
      obtain rfl := Res.ok.inj h1
      obtain rfl := Res.ok.inj h2
      exact h
    · exact absurd h1 (by simp)
  | succ n ih =>
    intro it s s' t t' h h1 h2
    unfold Iter.loop at h1 h2
    split at h1
    · rename_i hl
      rw [if_pos hl] at h2
      obtain rfl := Res.ok.inj h1
      obtain rfl := Res.ok.inj h2
      exact h
    · rename_i hl
      rw [if_neg hl] at h2
      obtain ⟨u, e1, h1⟩ := Res.bind_eq_ok h1
      obtain ⟨v, e2, h2⟩ := Res.bind_eq_ok h2
      exact ih (hs _ _ _ _ _ h e1 e2) h1 h2

section
variable [Zero α] [One α] [Add α] [Sub α] [Mul α] [Div α] [Neg α]

/-- The output of a pooling layer does not depend on the indices it held. -/
theorem Pooling.forward_same {N : Num α} {P Q : Pooling} (hd : P.dim = Q.dim) (hs : P.stride = Q.stride) (ht : P.type = Q.type) {X : Matrix α} {b : Nat}
    {r q : Matrix α × Pooling} (h : P.forward N X b = .ok r) (h' : Q.forward N X b = .ok q) : r.1 = q.1 := by
  obtain ⟨d, st, t, ip⟩ := P
  obtain ⟨d', st', t', iq⟩ := Q
  simp only at hd hs ht
  subst hd hs ht
  unfold Pooling.forward at h h'
  obtain ⟨od, e1, h⟩ := Res.bind_eq_ok h
  obtain ⟨od', e1', h'⟩ := Res.bind_eq_ok h'
  have : Res.ok od = Res.ok od' := by rw [← e1, ← e1']; rfl
  obtain rfl := Res.ok.inj this
  obtain ⟨out, e2, h⟩ := Res.bind_eq_ok h
  obtain ⟨out', e2', h'⟩ := Res.bind_eq_ok h'
  rw [e2] at e2'
  obtain rfl := Res.ok.inj e2'
  obtain ⟨i1, _, h⟩ := Res.bind_eq_ok h
  obtain ⟨i1', _, h'⟩ := Res.bind_eq_ok h'
  obtain ⟨i2, _, h⟩ := Res.bind_eq_ok h
  obtain ⟨i2', _, h'⟩ := Res.bind_eq_ok h'
  obtain ⟨u, f, h⟩ := Res.bind_eq_ok h
  obtain ⟨u', f', h'⟩ := Res.bind_eq_ok h'
  obtain rfl := Res.ok.inj h
  obtain rfl := Res.ok.inj h'
  show u.1 = u'.1
  unfold forRange at f f'
  refine loop_two (fun (s t : Matrix α × Matrix Dim3) => s.1 = t.1) ?_ _ _ (s := (out, i2)) (t := (out, i2')) rfl f f'
  rintro x ⟨s1, s2⟩ ⟨t1, t2⟩ s' t' rfl g g'
  unfold Pooling.forwardStep at g g'
  obtain ⟨c, ec, g⟩ := Res.bind_eq_ok g
  obtain ⟨c', ec', g'⟩ := Res.bind_eq_ok g'
  have : Res.ok c = Res.ok c' := by rw [← ec, ← ec']; rfl
  obtain rfl := Res.ok.inj this
  obtain ⟨v, ev, g⟩ := Res.bind_eq_ok g
  obtain ⟨v', ev', g'⟩ := Res.bind_eq_ok g'
  have : Res.ok v = Res.ok v' := by rw [← ev, ← ev']; rfl
  obtain rfl := Res.ok.inj this
  cases t with
  | avg =>
    dsimp only at g g'
    obtain ⟨a, ea, g⟩ := Res.bind_eq_ok g
    obtain ⟨a', ea', g'⟩ := Res.bind_eq_ok g'
    rw [ea] at ea'
    obtain rfl := Res.ok.inj ea'
    obtain ⟨o, eo, g⟩ := Res.bind_eq_ok g
    obtain ⟨o', eo', g'⟩ := Res.bind_eq_ok g'
    rw [eo] at eo'
    obtain rfl := Res.ok.inj eo'
    obtain rfl := Res.ok.inj g
    obtain rfl := Res.ok.inj g'
    rfl
  | _ =>
    dsimp only at g g'
    obtain ⟨m, em, g⟩ := Res.bind_eq_ok g
    obtain ⟨m', em', g'⟩ := Res.bind_eq_ok g'
    rw [em] at em'
    obtain rfl := Res.ok.inj em'
    obtain ⟨_, _, g⟩ := Res.bind_eq_ok g
    obtain ⟨_, _, g'⟩ := Res.bind_eq_ok g'
    obtain ⟨a, ea, g⟩ := Res.bind_eq_ok g
    obtain ⟨a', ea', g'⟩ := Res.bind_eq_ok g'
    rw [ea] at ea'
    obtain rfl := Res.ok.inj ea'
    obtain ⟨o, eo, g⟩ := Res.bind_eq_ok g
    obtain ⟨o', eo', g'⟩ := Res.bind_eq_ok g'
    rw [eo] at eo'
    obtain rfl := Res.ok.inj eo'
    obtain rfl := Res.ok.inj g
    obtain rfl := Res.ok.inj g'
    rfl

/-- Everything about a layer but the batch slots and the label told. -/
def Body.core : Body α → Body α
  | .kernel K => .kernel { K with wGrads := [], bGrads := [] }
  | .pooling P => .pooling { P with indices := [] }
  | .connected L => .connected { L with wGrads := [], bGrads := [] }
  | .softmax S => .softmax { S with trueLabel := 0, knows := true }
  | B => B

theorem Body.core_bare (B : Body α) : B.bare.core = B.core := by cases B <;> rfl
theorem Body.core_see (b : Nat) (B : Body α) : (B.see b).core = B.core := by cases B <;> rfl
theorem Body.core_tell (l : Nat) (B : Body α) : (B.tell l).core = B.core := by cases B <;> rfl
theorem Body.core_of_bare {B C : Body α} (h : B.bare = C.bare) : B.core = C.core := by rw [← B.core_bare, h, C.core_bare]

/-- The output of a layer does not depend on the batch slots. -/
theorem Body.forward_core {N : Num α} {dr : Nat → α} {X : Matrix α} {b : Nat} {B C : Body α} (hbc : B.core = C.core) {r q : Matrix α × Body α}
    (h : B.forward N dr X b = .ok r) (h' : C.forward N dr X b = .ok q) : r.1 = q.1 := by
  cases B <;> cases C <;> simp only [Body.core, reduceCtorEq, Body.kernel.injEq, Body.pooling.injEq, Body.connected.injEq, Body.activation.injEq,
    Body.softmax.injEq] at hbc
  case kernel.kernel K L =>
    obtain ⟨Y, e, h⟩ := Res.bind_eq_ok h
    obtain ⟨Y', e', h'⟩ := Res.bind_eq_ok h'
    have : K.forward X = L.forward X := by
      obtain ⟨_, _, _, _, _, _, _⟩ := K
      obtain ⟨_, _, _, _, _, _, _⟩ := L
      simp only [Kernel.mk.injEq] at hbc
      obtain ⟨rfl, rfl, rfl, rfl, rfl, _, _⟩ := hbc
      rfl
    rw [this, e'] at e
    obtain rfl := Res.ok.inj e
    obtain rfl := Res.ok.inj h
    obtain rfl := Res.ok.inj h'
    rfl
  case pooling.pooling P Q =>
    obtain ⟨Y, e, h⟩ := Res.bind_eq_ok h
    obtain ⟨Y', e', h'⟩ := Res.bind_eq_ok h'
    obtain rfl := Res.ok.inj h
    obtain rfl := Res.ok.inj h'
    simp only [Pooling.mk.injEq] at hbc
    obtain ⟨h1, h2, h3, _⟩ := hbc
    exact Pooling.forward_same h1 h2 h3 e e'
  case connected.connected K L =>
    simp only [Connected.mk.injEq] at hbc
    obtain ⟨h1, h2, h3, h4, _, _⟩ := hbc
    let c := max (max K.wGrads.length K.bGrads.length) (max L.wGrads.length L.bGrads.length)
    have hs : (Body.connected K).see c = (Body.connected L).see c := by
      simp only [Body.see, Body.connected.injEq]
      rw [List.getElem?_eq_none (by omega), List.getElem?_eq_none (by omega), List.getElem?_eq_none (by omega), List.getElem?_eq_none (by omega)]
      simp only [h1, h2, h3, h4]
    have e1 := Body.forward_see N dr X c (.connected K)
    have e2 := Body.forward_see N dr X c (.connected L)
    have f1 : (Body.connected K).forward N dr X c = .ok r := h
    have f2 : (Body.connected L).forward N dr X c = .ok q := h'
    rw [hs, e2, f1, f2] at e1
    have := Res.ok.inj e1
    exact (congrArg Prod.fst this).symm
  case activation.activation A B =>
    subst hbc
    rw [h] at h'
    rw [Res.ok.inj h']
  case softmax.softmax S T =>
    obtain ⟨Y, e, h⟩ := Res.bind_eq_ok h
    obtain ⟨Y', e', h'⟩ := Res.bind_eq_ok h'
    obtain rfl := Res.ok.inj h
    obtain rfl := Res.ok.inj h'
    obtain ⟨_, _, _⟩ := S
    obtain ⟨_, _, _⟩ := T
    simp only [Softmax.mk.injEq] at hbc
    obtain ⟨rfl, _, _⟩ := hbc
    have : Res.ok Y = Res.ok Y' := by rw [← e, ← e']; rfl
    exact Res.ok.inj this

/-- The output of a layer does not depend on the contents of the batch slots. -/
theorem Body.forward_same {N : Num α} {dr : Nat → α} {X : Matrix α} {b : Nat} {B C : Body α} (hbc : B.bare = C.bare) {r q : Matrix α × Body α}
    (h : B.forward N dr X b = .ok r) (h' : C.forward N dr X b = .ok q) : r.1 = q.1 := Body.forward_core (Body.core_of_bare hbc) h h'

end
end Cnn

namespace Cnn
open Model
variable {α : Type}

theorem Body.Settled.ready {B : Nat} {b : Body α} (h : b.Settled B) : b.Ready := by
  cases b with
  | connected L => exact h.1
  | _ => trivial

namespace Model

theorem Trained.ready {M : Model α} {B : Nat} {s : Shape} {ks : List LayerKind} (h : M.Trained B s ks) : M.Ready :=
  fun l hl => (h.settled l hl).ready

theorem Trained.shaped {M : Model α} {B : Nat} {s : Shape} {ks : List LayerKind} (h : M.Trained B s ks) : M.Shaped B s ks M.labels := by
  obtain ⟨hr, hs⟩ := h
  refine ⟨hr.count, ?_, ?_, rfl, hr.output⟩
  · intro i y k hy hk
    obtain ⟨L, hL, rfl⟩ := Option.map_eq_some_iff.1 hy
    have h1 := hr.layers i L k hL hk
    have h2 := hs L (List.mem_of_getElem? hL)
    revert h1 h2
    generalize L.body = y
    cases y <;> cases k <;> intro h1 h2 <;> first | exact h1 | exact ⟨h1, h2⟩ | exact ⟨h1, h2.2⟩
  · obtain ⟨L, S, hL, hLS, hc⟩ := hr.last
    refine ⟨S, ?_, hc⟩
    unfold bodyAt
    rw [hL, ← hLS]; rfl

theorem Shaped.trained [Zero α] [One α] [Add α] [Sub α] [Mul α] [Div α] [Neg α] {M : Model α} {B : Nat} {s : Shape} {ks : List LayerKind} {labels : List (List Char)} (h : M.Shaped B s ks labels) (hr : M.Ready) :
    M.Trained B s ks := by
  refine ⟨h.runs, ?_⟩
  intro l hl
  obtain ⟨i, hi⟩ := List.mem_iff_getElem?.1 hl
  have hb : M.bodyAt i = some l.body := by
    unfold bodyAt
    rw [hi]; rfl
  have hlt : i < ks.length + 1 := by rw [← h.count]; exact (List.getElem?_eq_some_iff.1 hi).1
  rcases Nat.lt_or_ge i ks.length with h1 | h1
  · have h2 := h.layers i _ _ hb (List.getElem?_eq_getElem h1)
    have h3 := hr l hl
    revert h2 h3
    generalize l.body = y
    generalize ks[i] = k
    cases y <;> cases k <;> intro h2 h3 <;> first | exact h2.2 | exact ⟨h3, h2.2⟩ | trivial
  · obtain rfl : i = ks.length := by omega
    obtain ⟨S, h2, _⟩ := h.last
    rw [hb] at h2
    rw [Option.some.inj h2]
    trivial

section
variable [Zero α] [One α] [Add α] [Sub α] [Mul α] [Div α] [Neg α]

theorem forwardStep_same {E : Env α} {b i : Nat} {st : Matrix α × List (Matrix α)} {M M' : Model α} (hb : M.bare = M'.bare)
    {r r' : (Matrix α × List (Matrix α)) × Model α} (h : forwardStep E b (st, M) i = .ok r) (h' : forwardStep E b (st, M') i = .ok r') : r.1 = r'.1 := by
  unfold forwardStep forwardLayer at h h'
  obtain ⟨y, hy, h⟩ := Res.bind_eq_ok h
  obtain ⟨R, hR, h⟩ := Res.bind_eq_ok h
  obtain rfl := Res.ok.inj h
  obtain ⟨l, hl, hy⟩ := Res.bind_eq_ok hy
  obtain ⟨z, hz, hy⟩ := Res.bind_eq_ok hy
  obtain rfl := Res.ok.inj hy
  obtain ⟨y', hy', h'⟩ := Res.bind_eq_ok h'
  obtain ⟨R', hR', h'⟩ := Res.bind_eq_ok h'
  obtain rfl := Res.ok.inj h'
  obtain ⟨l', hl', hy'⟩ := Res.bind_eq_ok hy'
  obtain ⟨z', hz', hy'⟩ := Res.bind_eq_ok hy'
  obtain rfl := Res.ok.inj hy'
  have hl := ofOption_eq hl
  have hl' := ofOption_eq hl'
  have := bare_get hb i
  dsimp only at hl hl'
  rw [hl, hl'] at this
  have e := Body.forward_same (Option.some.inj this) hz hz'
  simp only at hR hR'
  rw [e] at hR
  rw [hR] at hR'
  obtain rfl := Res.ok.inj hR'
  simp only [e]

/-- The input after the first `k` layers of a model of its own. -/
def pass (E : Env α) (M : Model α) (X : Matrix α) (k : Nat) : Res ((Matrix α × List (Matrix α)) × Model α) :=
  forwardBegin E X >>= fun s => (List.range k).foldlM (forwardStep E 0) (s, M)

theorem pass_succ (E : Env α) (M : Model α) (X : Matrix α) (k : Nat) : pass E M X (k + 1) = pass E M X k >>= fun s => forwardStep E 0 s k := by
  unfold pass
  cases forwardBegin E X with
  | throw | ub | abort => rfl
  | ok s =>
    simp only [Res.bind_ok]
    rw [List.range_succ, List.foldlM_append]
    cases (List.range k).foldlM (forwardStep E 0) (s, M) with
    | throw | ub | abort => rfl
    | ok r =>
      simp only [Res.bind_ok, List.foldlM_cons, List.foldlM_nil]
      cases forwardStep E 0 r k <;> rfl

theorem pass_same {E : Env α} {M M' : Model α} (hb : M.bare = M'.bare) (hr : M.Ready) {X : Matrix α} : ∀ (k : Nat) {r r' : (Matrix α × List (Matrix α)) × Model α},
    pass E M X k = .ok r → pass E M' X k = .ok r' → r.1 = r'.1 ∧ r.2.bare = M.bare ∧ r'.2.bare = M.bare := by
  have hr' : M'.Ready := hr.of_bare hb.symm
  intro k
  induction k with
  | zero =>
    intro r r' h h'
    obtain ⟨s, e, h⟩ := Res.bind_eq_ok h
    obtain ⟨s', e', h'⟩ := Res.bind_eq_ok h'
    rw [e] at e'
    obtain rfl := Res.ok.inj e'
    obtain rfl := Res.ok.inj h
    obtain rfl := Res.ok.inj h'
    exact ⟨rfl, rfl, hb.symm⟩
  | succ k ih =>
    intro r r' h h'
    rw [pass_succ] at h h'
    obtain ⟨⟨s, N⟩, e, h⟩ := Res.bind_eq_ok h
    obtain ⟨⟨s', N'⟩, e', h'⟩ := Res.bind_eq_ok h'
    obtain ⟨i1, i2, i3⟩ := ih e e'
    simp only at i1 i2 i3
    subst i1
    refine ⟨forwardStep_same (i2.trans i3.symm) h h', ?_, ?_⟩
    · rw [(forwardStep_frame (hr.of_bare i2) h).1, i2]
    · rw [(forwardStep_frame (hr.of_bare i3) h').1, i3]

/-- What the model answers does not depend on what its batch slots hold. -/
theorem forwardPropagation_same {E : Env α} {M M' : Model α} (hb : M.bare = M'.bare) (hr : M.Ready) {X : Matrix α} {r r' : Results α × Model α}
    (h : M.forwardPropagation E X 0 = .ok r) (h' : M'.forwardPropagation E X 0 = .ok r') : r.1 = r'.1 := by
  unfold forwardPropagation at h h'
  obtain ⟨s, e, h⟩ := Res.bind_eq_ok h
  obtain ⟨s', e', h'⟩ := Res.bind_eq_ok h'
  rw [e] at e'
  obtain rfl := Res.ok.inj e'
  obtain ⟨p, e1, h⟩ := Res.bind_eq_ok h
  obtain ⟨p', e1', h'⟩ := Res.bind_eq_ok h'
  rw [← bare_len hb] at e1'
  obtain ⟨i1, i2, i3⟩ := pass_same hb hr M.layers.length (r := p) (r' := p') (by unfold pass; rw [e, Res.bind_ok, e1]) (by unfold pass; rw [e, Res.bind_ok, e1'])
  obtain ⟨q, e2, h⟩ := Res.bind_eq_ok h
  obtain ⟨q', e2', h'⟩ := Res.bind_eq_ok h'
  rw [← i1, forwardEnd_congr E (M' := p.2) (bare_labels (i3.trans i2.symm)), e2] at e2'
  obtain rfl := Res.ok.inj e2'
  obtain rfl := Res.ok.inj h
  obtain rfl := Res.ok.inj h'
  rfl

theorem forwardPropagation_bare {E : Env α} {M : Model α} (hr : M.Ready) {X : Matrix α} {r : Results α} {M' : Model α}
    (h : M.forwardPropagation E X 0 = .ok (r, M')) : M'.bare = M.bare := by
  unfold forwardPropagation at h
  obtain ⟨s, e, h⟩ := Res.bind_eq_ok h
  obtain ⟨p, e1, h⟩ := Res.bind_eq_ok h
  obtain ⟨q, _, h⟩ := Res.bind_eq_ok h
  obtain ⟨rfl, rfl⟩ := Prod.mk.inj (Res.ok.inj h)
  have e2 : pass E M X M.layers.length = .ok p := by unfold pass; rw [e, Res.bind_ok, e1]
  exact (pass_same rfl hr M.layers.length e2 e2).2.1

variable {B : Nat} {s : Shape} {ks : List LayerKind} {labels : List (List Char)} {M : Model α}

theorem pass_shaped (E : Env α) (h : M.Shaped B s ks labels) (hr : M.Ready) (hW : KindsWork true s ks) (hB : 0 < B) {X : Matrix α} (hX : X.Has s) :
    ∀ k ≤ ks.length + 1, ∃ st M', pass E M X k = .ok (st, M') ∧ M'.Shaped B s ks labels ∧ M'.bare = M.bare ∧
      st.1.Has (shapeAt ks s k) ∧ Records s ks st.2 k := by
  intro k
  induction k with
  | zero =>
    intro _
    obtain ⟨A, rec, e, hA, hR⟩ := forwardBegin_shaped (ks := ks) E hX
    exact ⟨(A, rec), M, by unfold pass; rw [e]; rfl, h, rfl, hA, hR⟩
  | succ k ih =>
    intro hk
    obtain ⟨⟨A, rec⟩, M', e, h1, h2, h3, h4⟩ := ih (by omega)
    obtain ⟨A', rec', M'', e', hA', hR', hS', _, _⟩ := forwardStep_shaped E h1 hW hB (show k < ks.length + 1 by omega) h3 h4
    refine ⟨(A', rec'), M'', by rw [pass_succ, e, Res.bind_ok, e'], hS', ?_, hA', hR'⟩
    rw [(forwardStep_frame (hr.of_bare h2) e').1, h2]

end
end Model

namespace Validate
open Mnist

theorem input_shows {X : Matrix F32} {x y z : Nat} {g : Nat → Nat → Nat → F32} (c : F32 → α) (h : X.Shows x y z g) :
    (input c X).Shows x y z (fun i j k => c (g i j k)) := by
  refine Matrix.Shows.of_vals h.good h.dim ?_
  show X.vals.map c = _
  have : X.vals = (List.range (x * y * z)).map (fun n => g (n % x) (n / x % y) (n / x / y)) := by
    have := h.vals_eq
    exact this
  rw [this, List.map_map]
  rfl

theorem record_unique {f : Content} {i : Nat} {im im' : Image} (h : f.IsRecord i im) (h' : f.IsRecord i im') : im = im' := by
  obtain ⟨d, l⟩ := im
  obtain ⟨d', l'⟩ := im'
  have h1 : l = l' := by have a := h.1; have b := h'.1; simp only at a b; omega
  have h2 : d = d' := h.2.unique h'.2
  rw [h1, h2]

end Validate
end Cnn
