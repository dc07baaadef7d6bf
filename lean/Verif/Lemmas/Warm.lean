import Verif.Lemmas.Accuracy
/-! Helper lemmas: a model with unused fully connected layers works like the model with these layers made ready (C79, C80). -/
set_option linter.unusedSectionVars false
namespace Cnn
open Model
variable {α : Type} [Zero α] [One α] [Add α] [Sub α] [Mul α] [Div α] [Neg α]

/-- A layer made ready: the unused layer treats its first input like this one. -/
theorem Body.warm (N : Num α) (draws : Nat → α) {B : Nat} {first : Bool} {s : Shape} {k : LayerKind} {b : Body α} (h : b.Shaped B first s k)
    (hW : k.Works first s) {X0 : Matrix α} (hX0 : X0.Has s) :
    ∃ b' : Body α, b'.Shaped B first s k ∧ b'.Ready ∧ ∀ (X : Matrix α) (slot : Nat), X.Has s → b.forward N draws X slot = b'.forward N draws X slot := by
  match b, k, h with
  | .kernel K, .conv .., h => exact ⟨_, h, trivial, fun _ _ _ => rfl⟩
  | .pooling P, .pool .., h => exact ⟨_, h, trivial, fun _ _ _ => rfl⟩
  | .activation A, .act _, h => exact ⟨_, h, trivial, fun _ _ _ => rfl⟩
  | .connected L, .full n, h =>
    obtain ⟨h1 | ⟨h1, f, h2⟩, l1, l2⟩ := h
    · obtain ⟨w, β, h1, h2⟩ := h1
      exact ⟨.connected L, ⟨Or.inl ⟨w, β, h1, h2⟩, l1, l2⟩, h1.initialized, fun _ _ _ => rfl⟩
    · obtain ⟨x0, hX0⟩ := hX0
      have h2' : L.biases.Shows n 1 1 (fun i _ _ => f i 0 0) := by
        refine h2.congr ?_
        intro i _ j hj k hk
        obtain rfl : j = 0 := by change j < 1 at hj; omega
        obtain rfl : k = 0 := by change k < 1 at hk; omega
        rfl
      have g : Good n (s.X * s.Y * s.Z) 1 :=
        ⟨hW.1, Nat.mul_pos (Nat.mul_pos hX0.good.x hX0.good.y) hX0.good.z, by decide, by have := hW.2; omega⟩
      obtain ⟨L', e1, e2, e3, e4, e5⟩ := Connected.first_shows N draws h1 h2' hX0 g
      refine ⟨.connected L', ⟨Or.inl ⟨_, _, e5, Or.inr e2⟩, by rw [e3]; exact l1, by rw [e4]; exact l2⟩, e5.initialized, ?_⟩
      rintro X slot ⟨x, hX⟩
      have k1 : L.checkSize N draws X = (.ok true, L') := by
        rw [← e1]
        unfold Connected.checkSize Connected.expected
        rw [hX.dim, hX0.dim]
      have k2 : L'.checkSize N draws X = (.ok true, L') := by
        rw [Connected.later_check N draws e5 hX]; simp
      have k3 : L.forward N draws X = L'.forward N draws X := by
        unfold Connected.forward
        rw [k1, k2]
      simp only [Body.forward, k3]

namespace Model
variable {B : Nat} {s : Shape} {ks : List LayerKind} {labels : List (List Char)} {M : Model α}

/-- The sizes after the first layers, and the layers not reached yet are as before. -/
theorem forwardSteps_shaped (E : Env α) (h : M.Shaped B s ks labels) (hW : KindsWork true s ks) {b : Nat} (hb : b < B) {X : Matrix α} (hX : X.Has s)
    (n : Nat) (hn : n ≤ ks.length + 1) : ∃ st0, forwardBegin E X = .ok st0 ∧ ∃ st M', (List.range n).foldlM (forwardStep E b) (st0, M) = .ok (st, M') ∧
      M'.Shaped B s ks labels ∧ st.1.Has (shapeAt ks s n) ∧ Records s ks st.2 n := by
  obtain ⟨A0, rec0, e0, hA0, hR0⟩ := forwardBegin_shaped (ks := ks) E hX
  refine ⟨(A0, rec0), e0, ?_⟩
  obtain ⟨⟨st, M'⟩, e1, hA, hR, hS⟩ := foldlM_range_inv
    (fun n (st : (Matrix α × List (Matrix α)) × Model α) => st.1.1.Has (shapeAt ks s n) ∧ Records s ks st.1.2 n ∧ st.2.Shaped B s ks labels)
    n (forwardStep E b) ((A0, rec0), M) ⟨hA0, hR0, h⟩ (by
      rintro m hm ⟨⟨A, rec⟩, M1⟩ ⟨h1, h2, h3⟩
      obtain ⟨A', rec', M', e, g1, g2, g3, _⟩ := forwardStep_shaped E h3 hW hb (show m < ks.length + 1 by omega) h1 h2
      exact ⟨((A', rec'), M'), e, g1, g2, g3⟩)
  exact ⟨st, M', e1, hS, hA, hR⟩

/-- The model with all layers made ready. -/
theorem warm (E : Env α) (h : M.Shaped B s ks labels) (hW : KindsWork true s ks) (hB : 0 < B) {X0 : Matrix α} (hX0 : X0.Has s) :
    ∃ M' : Model α, M'.Shaped B s ks labels ∧ M'.Ready ∧ M.outline = M'.outline ∧
      ∀ (i : Nat) (b b' : Body α), M.bodyAt i = some b → M'.bodyAt i = some b' → ∀ (X : Matrix α) (slot : Nat), X.Has (shapeAt ks s i) →
        b.forward E.num (E.draws i) X slot = b'.forward E.num (E.draws i) X slot := by
  have hfill : ∀ i, ∃ C : Body α, (∀ (b : Body α) (k : LayerKind), M.bodyAt i = some b → ks[i]? = some k → C.Shaped B (decide (i = 0)) (shapeAt ks s i) k ∧ C.Ready ∧
      ∀ (X : Matrix α) (slot : Nat), X.Has (shapeAt ks s i) → b.forward E.num (E.draws i) X slot = C.forward E.num (E.draws i) X slot) ∧
      ∀ b : Body α, M.bodyAt i = some b → ks[i]? = none → C = b := by
    intro i
    cases hL : M.bodyAt i with
    | none => exact ⟨.softmax (Softmax.new 0), by simp, by simp⟩
    | some b =>
      cases hl : ks[i]? with
      | none => exact ⟨b, by simp, by simp⟩
      | some k =>
        have hi := (List.getElem?_eq_some_iff.1 hl).1
        obtain ⟨_, _, st, _, _, _, hA, _⟩ := forwardSteps_shaped E h hW hB hX0 i (by omega)
        obtain ⟨C, k1, k2, k3⟩ := Body.warm E.num (E.draws i) (h.layers i b k hL hl) (by simpa using hW.at hl) hA
        refine ⟨C, ?_, by simp⟩
        intro b' k' e1 e2
        obtain rfl := Option.some.inj e1
        obtain rfl := Option.some.inj e2
        exact ⟨k1, k2, k3⟩
  choose C hC hC' using hfill
  have hat : ∀ i, (M.withBodies C).bodyAt i = (M.bodyAt i).map fun _ => C i := by
    intro i
    unfold bodyAt withBodies
    simp only [List.getElem?_mapIdx, Option.map_map]
    rfl
  have hlt : ∀ {i b}, M.bodyAt i = some b → i < ks.length + 1 := by
    intro i b hb
    unfold bodyAt at hb
    obtain ⟨L, hL, _⟩ := Option.map_eq_some_iff.1 hb
    rw [← h.count]
    exact (List.getElem?_eq_some_iff.1 hL).1
  obtain ⟨S, hS, hS'⟩ := h.last
  refine ⟨M.withBodies C, ⟨by simp [withBodies, h.count], ?_, ⟨S, ?_, hS'⟩, h.labelled, h.output⟩, ?_, ?_, ?_⟩
  · intro i b k hb hk
    rw [hat] at hb
    obtain ⟨b0, hb0, rfl⟩ := Option.map_eq_some_iff.1 hb
    exact (hC i b0 k hb0 hk).1
  · rw [hat, hS, Option.map_some, hC' ks.length _ hS (by simp)]
  · intro l hl
    obtain ⟨i, hi⟩ := List.mem_iff_getElem?.1 hl
    have hb : (M.withBodies C).bodyAt i = some l.body := by unfold bodyAt; rw [hi]; rfl
    rw [hat] at hb
    obtain ⟨b0, hb0, e⟩ := Option.map_eq_some_iff.1 hb
    rw [← e]
    cases hk : ks[i]? with
    | some k => exact (hC i b0 k hb0 hk).2.1
    | none =>
      have h1 := hlt hb0
      have h2 := List.getElem?_eq_none_iff.1 hk
      obtain rfl : i = ks.length := by omega
      rw [hS] at hb0
      rw [hC' _ _ hS hk]
      trivial
  · unfold outline
    simp only [withBodies]
    congr 1
    refine List.ext_getElem? fun i => ?_
    simp only [List.getElem?_map, List.getElem?_mapIdx, Option.map_map]
    rfl
  · intro i b b' hb hb' X slot hX
    rw [hat, hb, Option.map_some] at hb'
    obtain rfl := Option.some.inj hb'
    cases hk : ks[i]? with
    | some k => exact (hC i b k hb hk).2.2 X slot hX
    | none => rw [hC' i b hb hk]

end Model

namespace Train
variable {B : Nat} {s : Shape} {ks : List LayerKind} {labels : List (List Char)}

/-- Models whose layers treat their inputs alike answer alike, and are the same afterwards. -/
theorem forwardPropagation_warm {E : Env α} {M M' : Model α} (h' : M'.Shaped B s ks labels) (hW : KindsWork true s ks) (hout : M.outline = M'.outline)
    (hsame : ∀ (i : Nat) (b b' : Body α), M.bodyAt i = some b → M'.bodyAt i = some b' → ∀ (X : Matrix α) (slot : Nat), X.Has (shapeAt ks s i) →
        b.forward E.num (E.draws i) X slot = b'.forward E.num (E.draws i) X slot) {b : Nat} (hb : b < B) {X : Matrix α} (hX : X.Has s) :
    M.forwardPropagation E X b = M'.forwardPropagation E X b := by
  have hlen := outline_length hout
  have key : ∀ n ≤ ks.length + 1, ∀ st0, forwardBegin E X = .ok st0 → ∀ st N', (List.range n).foldlM (forwardStep E b) (st0, M') = .ok (st, N') →
      ∃ N, (List.range n).foldlM (forwardStep E b) (st0, M) = .ok (st, N) ∧ MSim M M' N N' ∧
        ∀ j < n, N.bodyAt j = N'.bodyAt j := by
    intro n
    induction n with
    | zero =>
      intro _ st0 _ st N' e
      obtain ⟨rfl, rfl⟩ := Prod.mk.inj (Res.ok.inj e)
      exact ⟨M, rfl, ⟨hout, fun j => Or.inr ⟨rfl, rfl⟩⟩, by simp⟩
    | succ n ih =>
      intro hn st0 e0 st N' e
      rw [List.range_succ, List.foldlM_append] at e ⊢
      obtain ⟨⟨st1, N1'⟩, e1, e⟩ := Res.bind_eq_ok e
      simp only [List.foldlM_cons, List.foldlM_nil] at e
      obtain ⟨a, e2, e⟩ := Res.bind_eq_ok e
      obtain rfl := Res.ok.inj e
      obtain ⟨N1, f1, f2, f4⟩ := ih (by omega) st0 e0 st1 N1' e1
      obtain ⟨st0', g0, st1', N1'', g1, g2, g3, _⟩ := forwardSteps_shaped E h' hW hb hX n (by omega)
      rw [e0] at g0
      obtain rfl := Res.ok.inj g0
      rw [e1] at g1
      obtain ⟨rfl, rfl⟩ := Prod.mk.inj (Res.ok.inj g1)
      have f3 : N1'.layers.length = M'.layers.length := by rw [g2.count, h'.count]
      have hN : n < N1'.layers.length := by rw [f3, h'.count]; omega
      have hstep : Pc.step E 0 0 (⟨N1', [], 0⟩ : Shared α) (.forward b ⟨X, []⟩ n st1) = .ok (.forward b ⟨X, []⟩ (n + 1) st, ⟨N', [], 0⟩, []) := by
        simp only [Pc.step]
        rw [if_pos hN, e2]
        rfl
      obtain ⟨M1, k1, k2, k3⟩ := Pc.step_sim (M0 := M) (M0' := M') (M := N1) (sh' := ⟨N1', [], 0⟩) (L := M'.layers.length) (p := .forward b ⟨X, []⟩ n st1) f3 f2 f4
        (by
          intro slot x i st hp _ y y' hy hy'
          simp only [Pc.forward.injEq] at hp
          obtain ⟨rfl, _, rfl, rfl⟩ := hp
          exact hsame n y y' hy hy' _ _ g3) hstep
      have hlen1 := outline_length f2.outline
      simp only [Pc.step] at k1
      rw [if_pos (by rw [hlen1]; exact hN)] at k1
      obtain ⟨c, c1, c2⟩ := Res.bind_eq_ok k1
      have c3 := Res.ok.inj c2
      simp only [Prod.mk.injEq, Pc.forward.injEq, true_and, Shared.mk.injEq, and_true] at c3
      refine ⟨M1, ?_, k2, fun j hj => k3 j (Or.inl hj)⟩
      rw [f1, Res.bind_ok, List.foldlM_cons, c1, Res.bind_ok, ← c3.1, ← c3.2]
      rfl
  obtain ⟨st0, e0, st, N', e1, g1, _, _⟩ := forwardSteps_shaped E h' hW hb hX (ks.length + 1) (le_refl _)
  obtain ⟨N, f1, f2, f4⟩ := key _ (le_refl _) st0 e0 st N' e1
  have hN : N = N' := by
    refine eq_of_outline f2.outline fun j hj => f4 j ?_
    rw [outline_length f2.outline, g1.count] at hj
    exact hj
  unfold forwardPropagation
  rw [e0, Res.bind_ok, Res.bind_ok, hlen, h'.count, f1, e1, hN]

theorem sameStart {E : Env α} {M M' : Model α} (h' : M'.Shaped B s ks labels) (hW : KindsWork true s ks)
    (hsame : ∀ (i : Nat) (b b' : Body α), M.bodyAt i = some b → M'.bodyAt i = some b' → ∀ (X : Matrix α) (slot : Nat), X.Has (shapeAt ks s i) →
        b.forward E.num (E.draws i) X slot = b'.forward E.num (E.draws i) X slot) {src : List (Sample α)} (hsrc : ∀ x ∈ src, x.data.Has s) :
    SameStart E M M' B src := by
  intro slot hslot x hx i st m hs b b' hb hb'
  have hi : i < ks.length + 1 := by
    unfold bodyAt at hb'
    obtain ⟨L, hL, _⟩ := Option.map_eq_some_iff.1 hb'
    rw [← h'.count]
    exact (List.getElem?_eq_some_iff.1 hL).1
  refine hsame i b b' hb hb' _ _ ?_
  obtain ⟨st0, e0, st1, M1, e1, _, hA, _⟩ := forwardSteps_shaped E h' hW hslot (hsrc x hx) i (by omega)
  unfold soloF at hs
  rw [e0, Res.bind_ok, forwardSteps_norm, e1] at hs
  have : st1 = st := congrArg Prod.fst (Res.ok.inj hs)
  rw [← this]
  exact hA

/-- A batch on a model with unused layers is a batch on the model with these layers made ready. -/
theorem runBatch_warm {E : Env α} (hE : E.order = .dimsFirst) {p : Hyper α} {T : Nat} (hp : p.batch = B) (hq : p.threads = T) (h0 : 0 < B) (hB : B < 2 ^ 24)
    (hT0 : 0 < T) (hT : T < 2147483648) (hW : KindsWork true s ks) {sh : Shared α} {M : Model α} (h' : sh.model.Shaped B s ks labels) (hr' : sh.model.Ready)
    (hx : ∀ x ∈ sh.source, x.Fits s labels) (hsrc : sh.source ≠ []) (hout : M.outline = sh.model.outline)
    (hsame : ∀ (i : Nat) (b b' : Body α), M.bodyAt i = some b → sh.model.bodyAt i = some b' → ∀ (X : Matrix α) (slot : Nat), X.Has (shapeAt ks s i) →
        b.forward E.num (E.draws i) X slot = b'.forward E.num (E.draws i) X slot)
    (sched : List Nat) : runBatch E p sched { sh with model := M } = runBatch E p sched sh := by
  have hS : SameStart E M sh.model B (sh.source.take B) := sameStart h' hW hsame fun x hx' => (hx x (List.mem_of_mem_take hx')).1
  have hst := startBatch_eq B T hB hT0 hT sh
  have hst' := startBatch_eq B T hB hT0 hT { sh with model := M }
  have hinit : SInv B s ks labels sh.model ⟨sh, (List.range T).map (fun t => (min ((t + 1) * share B T) B, Pc.fetch (t * share B T)))⟩ [] := by
    refine ⟨h', Keeps.refl _ _ _, hx, ?_, by simp [finishes]⟩
    intro w hw
    obtain ⟨t, _, rfl⟩ := List.mem_map.1 hw
    exact ⟨Nat.min_le_right _ _, trivial⟩
  obtain ⟨r, hr, _⟩ := hinit.run hE hW sched
  have i2 : GInv E sh.model ⟨sh, (List.range T).map (fun t => (min ((t + 1) * share B T) B, Pc.fetch (t * share B T)))⟩ [] := GInv.init E T (fun t => t * share B T) (fun t => min ((t + 1) * share B T) B) sh
  have i1 : BInv T B (share B T) sh.source ⟨sh, (List.range T).map (fun t => (min ((t + 1) * share B T) B, Pc.fetch (t * share B T)))⟩ [] := Inv.init T (fun t => t * share B T) (fun t => min ((t + 1) * share B T) B) sh
  have h1 : Sim M sh.model (⟨{ sh with model := M }, (List.range T).map (fun t => (min ((t + 1) * share B T) B, Pc.fetch (t * share B T)))⟩ : Batch α)
      ⟨sh, (List.range T).map (fun t => (min ((t + 1) * share B T) B, Pc.fetch (t * share B T)))⟩ [] := by
    refine ⟨rfl, rfl, ⟨hout, fun j => Or.inr ⟨rfl, rfl⟩⟩, ?_, Or.inl rfl⟩
    intro t w hw j hj
    simp only [List.getElem?_map, Option.map_eq_some_iff] at hw
    obtain ⟨a, _, rfl⟩ := hw
    simp [Pc.passed] at hj
  obtain ⟨q, e, h2⟩ := h1.run hr' hS sched i2 i1 hr
  have hov : q.over = r.1.over := by unfold Batch.over; rw [h2.workers]
  unfold runBatch
  rw [hp, hq, hst, hst', Res.bind_ok, Res.bind_ok, hr, e, Res.bind_ok, Res.bind_ok]
  simp only [hov]
  by_cases ho : r.1.over = true
  · have hcount := (run_end hB hr' hst hr ho).2.2.2.2.1
    have hm : q.shared.model = r.1.shared.model := by
      rcases h2.same with h3 | ⟨t, w, x, h3, h4⟩ | h3
      · rw [List.nil_append] at h3
        rw [h3] at hcount
        have : sh.source.length ≠ 0 := fun h => hsrc (List.eq_nil_of_length_eq_zero h)
        simp only [List.length_nil] at hcount
        omega
      · exact (over_not_busy ho h3 h4).elim
      · exact h3
    have hsh : q.shared = r.1.shared := by rw [h2.shared, hm]
    simp only [ho, if_true, hsh]
  · rw [if_neg ho, if_neg ho]

end Train
end Cnn
