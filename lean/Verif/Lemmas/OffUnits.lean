import Verif.Lemmas.Dark
import Verif.Lemmas.PlainTwins
import Verif.Spec.OffUnits
/-! Helper lemmas: a RELU unit that is off gets no gradient, in any arithmetic (C105). -/
set_option linter.unusedSectionVars false
namespace Cnn
variable {α : Type} {nan : α → Prop} {m K i : Nat}

theorem Model.ReluAt.of_bare {M M' : Model α} {l : Nat} (hb : M'.bare = M.bare) (h : M.ReluAt l) : M'.ReluAt l := by
  obtain ⟨L, A, h1, h2, h3, h4⟩ := h
  have := Model.bare_get hb l
  rw [h1] at this
  cases hl : M'.layers[l]? with
  | none => rw [hl] at this; simp at this
  | some L' =>
    rw [hl] at this
    simp only [Option.map_some, Option.some.injEq, h2] at this
    obtain ⟨nm, b⟩ := L'
    cases b <;> simp [Body.bare] at this
    subst this
    exact ⟨_, _, hl, rfl, h3, h4⟩

section
variable [Zero α] [One α] [Add α] [Sub α] [Mul α] [Div α] [Neg α] {E : Env α} {rate : α} {B : Nat}

theorem Model.ReluAt.applyBatch {N : Num α} {lr : α} {M M' : Model α} {l : Nat} (h : M.ReluAt l) (e : M.applyBatch N lr = .ok M') : M'.ReluAt l := by
  obtain ⟨L, A, h1, h2, h3, h4⟩ := h
  obtain ⟨_, _, k⟩ := Model.applyBatch_get e
  obtain ⟨b, hb, hb'⟩ := k l L h1
  rw [h2] at hb
  obtain rfl := Res.ok.inj hb
  exact ⟨_, A, hb', rfl, h3, h4⟩

theorem Model.ReluAt.setBatchSize {M : Model α} {l : Nat} (h : M.ReluAt l) (n : Nat) : (M.setBatchSize n).ReluAt l := by
  obtain ⟨L, A, h1, h2, h3, h4⟩ := h
  refine ⟨{ L with body := L.body.setBatchSize n }, A, ?_, ?_, h3, h4⟩
  · unfold Model.setBatchSize
    simp only [List.getElem?_map, h1, Option.map_some]
  · dsimp only
    rw [h2]
    rfl

/-- A column whose entry `i` has the property. -/
def Matrix.At (P : α → Prop) (m i : Nat) (A : Matrix α) : Prop := ∃ f : Nat → α, A.Shows m 1 1 (fun a _ _ => f a) ∧ P (f i)

theorem Matrix.At.ofExpr {P Q : α → Prop} {A R : Matrix α} (h : A.At P m i) {c : α → α} (hc : ∀ a, P a → Q (c a)) (e : Matrix.ofExpr c A.expr = .ok R) :
    R.At Q m i := by
  obtain ⟨f, h1, h2⟩ := h
  obtain ⟨R', e', h'⟩ := Matrix.ofExpr_shows h1.expr c
  rw [e'] at e
  obtain rfl := Res.ok.inj e
  exact ⟨fun a => c (f a), h', hc _ h2⟩

theorem Activation.forward_off {A : Activation} {X Y : Matrix α} (hA : A.fn = .relu) (h : X.At (fun a => E.num.lt 0 a = false) m i)
    (e : A.forward E.num X = .ok Y) : Y.At (· = 0) m i := by
  obtain ⟨f, h1, h2⟩ := h
  obtain ⟨P, e', h'⟩ := Matrix.ofExpr_shows (MExpr.un_shows (A.fn.eval E.num) h1.expr) (id : α → α)
  have e : Matrix.ofExpr id (MExpr.un (A.fn.eval E.num) X.expr) = .ok Y := e
  rw [e'] at e
  obtain rfl := Res.ok.inj e
  refine ⟨fun a => A.fn.eval E.num (f a), h', ?_⟩
  dsimp only
  rw [hA]
  show (if E.num.lt 0 (f i) = true then f i else 0) = 0
  rw [h2, if_neg (by simp)]

theorem Activation.backward_off (Z : ZeroKept E nan rate B) (O : ZeroOff E nan) {A : Activation} {X Z D Y : Matrix α} (hA : A.gradFn = .relu)
    (hZ : Z.At (· = 0) m i) (hD : D.At (fun _ => True) m i) (e : A.backward E.num X Z D = .ok Y) : Y.At (Dead nan) m i := by
  obtain ⟨z, hz, z2⟩ := hZ
  obtain ⟨d, hd, _⟩ := hD
  obtain ⟨G, e1, h1⟩ := Matrix.ofExpr_shows (MExpr.un_shows (A.gradFn.grad E.num) hz.expr) (id : α → α)
  obtain ⟨Ex, e2, h2⟩ := MExpr.bin_shows (· * ·) hd.expr h1.expr
  obtain ⟨P, e3, h⟩ := Matrix.ofExpr_shows h2 (id : α → α)
  unfold Activation.backward Activation.gradient at e
  rw [e1, Res.bind_ok, e2, Res.bind_ok, e3] at e
  obtain rfl := Res.ok.inj e
  refine ⟨fun a => d a * A.gradFn.grad E.num (z a), h, ?_⟩
  dsimp only
  rw [hA, z2]
  have : ActFn.relu.grad E.num (0 : α) = 0 := by
    show (if E.num.lt 0 0 = true then (1 : α) else 0) = 0
    rw [O.lt, if_neg (by simp)]
  rw [this]
  exact ‹ZeroKept E nan rate B›.mul _

/-- Row `i` is dead. -/
def RowDead (nan : α → Prop) (m K i : Nat) (W : Matrix α) : Prop := ∀ f, W.Reads m K 1 f → ∀ k < K, Dead nan (f i k 0)

theorem Matrix.Shows.rowDead {W : Matrix α} {w : Nat → Nat → Nat → α} (h : W.Shows m K 1 w) (hi : i < m) (hw : ∀ k < K, Dead nan (w i k 0)) :
    RowDead nan m K i W := by
  intro f hf k hk
  have e1 := hf.entry i hi k hk 0 Nat.one_pos
  rw [h.entry i hi k hk 0 Nat.one_pos] at e1
  rw [← Res.ok.inj e1]
  exact hw k hk

theorem Dead.times (A : Absorbs E nan) (O : ZeroOff E nan) {a : α} (h : Dead nan a) (b : α) : Dead nan (a * b) := by
  rcases h with rfl | h
  · exact O.mul b
  · exact Or.inr (A.mul_left _ _ h)

/-- The gradients a sample for which unit `i` is off leaves. -/
theorem alone_off (A : Absorbs E nan) (Z : ZeroKept E nan rate B) (O : ZeroOff E nan) (hE : E.order = .dimsFirst) {M : Model α} {s : Shape} {ks : List LayerKind}
    (hM : M.Runs s (.full m :: .act .relu :: ks)) (hW : KindsWork true s (.full m :: .act .relu :: ks)) (hu : M.Used) (hrelu : M.ReluAt 1)
    {x : Sample α} (hx : x.Fits s M.labels) (hi : i < m) (hoff : M.OffFor E s m i x) :
    ∃ M', alone E M x = .ok M' ∧ ∀ G H, M'.stored 0 0 = some (G, H) → RowDead nan m (s.X * s.Y * s.Z) i G ∧ RowDead nan m 1 i H := by
  obtain ⟨W, Bi, w, β, g, o1, o2, o3, o4, o5⟩ := hoff
  obtain ⟨ls, hls⟩ : ∃ ls, ls = LayerKind.full m :: LayerKind.act .relu :: ks := ⟨_, rfl⟩
  have hk0 : ls[0]? = some (.full m) := by rw [hls]; rfl
  have hk1 : ls[1]? = some (.act .relu) := by rw [hls]; rfl
  rw [← hls] at hM hW
  have h := Model.setBatchSize_shaped (B := 1) hM
  have hlen : 1 < ls.length := (List.getElem?_eq_some_iff.1 hk1).1
  have hsh0 : shapeAt ls s 0 = s := rfl
  have hsh1 : shapeAt ls s 1 = ⟨m, 1, 1⟩ := shapeAt_succ hk0
  have hsh2 : shapeAt ls s 2 = ⟨m, 1, 1⟩ := by rw [shapeAt_succ hk1, hsh1]; rfl
  have hRd : (M.setBatchSize 1).Ready := (h.prepared hW (setBatchSize_used hu 1)).ready
  have hpar : ∀ c, (M.setBatchSize 1).params c = M.params c := fun c => setBatchSize_params M 1 c
  have hrelu1 : (M.setBatchSize 1).ReluAt 1 := hrelu.setBatchSize 1
  obtain ⟨A0, rec0, e0, hA0, hR0⟩ := Model.forwardBegin_shaped (ks := ls) E hx.1
  have hA0g : A0.Shows s.X s.Y s.Z g := by
    obtain ⟨A1, f1, s1⟩ := Matrix.ofExpr_shows o4.expr (id : α → α)
    unfold Model.forwardBegin Model.record at e0
    rw [f1, Res.bind_ok] at e0
    obtain ⟨R, _, e0⟩ := Res.bind_eq_ok e0
    obtain ⟨rfl, _⟩ := Prod.mk.inj (Res.ok.inj e0)
    exact s1
  obtain ⟨st, e1, hA, hR, hS, hrd, hbare, _, _, hr2⟩ := foldlM_range_inv
    (fun c (st : (Matrix α × List (Matrix α)) × Model α) => st.1.1.Has (shapeAt ls s c) ∧ Model.Records s ls st.1.2 c ∧ st.2.Shaped 1 s ls M.labels ∧
      Model.ReadyTo s ls st.2 0 c ∧ st.2.bare = (M.setBatchSize 1).bare ∧ (c = 0 → st.1.1.Shows s.X s.Y s.Z g) ∧
      (c = 1 → st.1.1.At (fun a => E.num.lt 0 a = false) m i) ∧ (1 < c → ∃ R, st.1.2[2]? = some R ∧ R.At (· = 0) m i))
    (ls.length + 1) (Model.forwardStep E 0) ((A0, rec0), M.setBatchSize 1)
    ⟨hA0, hR0, h, fun j _ _ hj => absurd hj (by omega), rfl, fun _ => hA0g, fun h => absurd h (by omega), fun h => absurd h (by omega)⟩ (by
      rintro c hc ⟨⟨A, rec⟩, M1⟩ ⟨h1, h2, h3, h4, h5, h6, h7, h8⟩
      have hRd1 : M1.Ready := hRd.of_bare h5
      obtain ⟨A', rec', M', e, g1, g2, g3, g4, g5⟩ := Model.forwardStep_shaped E h3 hW Nat.one_pos hc h1 h2
      have hfr := (Model.forwardStep_frame hRd1 e).1.trans h5
      obtain ⟨L, q, R, p1, p2, p3, p4⟩ := Model.forwardStep_parts e
      obtain ⟨pq, rfl⟩ := Prod.mk.inj p4
      obtain ⟨rfl, rfl⟩ := Prod.mk.inj pq
      dsimp only at p1 p2 h7 h8 h2 h6 h1
      have old : ∀ {d : Nat} {R' : Matrix α}, rec[d]? = some R' → (rec ++ [R])[d]? = some R' := by
        intro d R' hd
        rw [List.getElem?_append_left (List.getElem?_eq_some_iff.1 hd).1, hd]
      have new : (rec ++ [R])[c + 1]? = some R := by
        rw [← h2.1, List.getElem?_concat_length]
      have hstep0 : c = 0 → q.1.At (fun a => E.num.lt 0 a = false) m i := by
        rintro rfl
        obtain ⟨L', C, w', β', k1, k2, _, k4, _, k6, _, _⟩ := h3.connected hRd1 hk0
        rw [p1] at k1
        obtain rfl := Option.some.inj k1
        have hpp : M.params 0 = some (C.weights, C.biases) := by rw [← hpar, ← Model.bare_params h5]; exact k6
        rw [o1] at hpp
        obtain ⟨rfl, rfl⟩ := Prod.mk.inj (Option.some.inj hpp)
        have hxx := h6 rfl
        rw [hsh0] at k4
        obtain ⟨out, ec, hout⟩ := Connected.compute_shows k4 hxx
        obtain ⟨Y', ef, _⟩ := Connected.forward_later (N := E.num) (draws := E.draws 0) k4 hxx
        rw [k2] at p2
        unfold Body.forward at p2
        dsimp only at p2
        rw [ef] at p2
        have p2 := Res.ok.inj p2
        have : Y' = out := by
          unfold Connected.forward at ef
          rw [Connected.later_check E.num (E.draws 0) k4 hxx] at ef
          have := (Prod.mk.inj ef).1
          rw [ec, Res.bind_ok, if_pos (decide_eq_true rfl)] at this
          exact (Res.ok.inj this).symm
        subst this
        rw [← p2]
        refine ⟨_, hout, ?_⟩
        have e1 : affine w' β' (s.X * s.Y * s.Z) (flatOf s.X s.Y g) i =
            affine (fun a k => w a k 0) (fun a => β a 0 0) (s.X * s.Y * s.Z) (flatOf s.X s.Y g) i := by
          unfold affine
          have hb : β' i = β i 0 0 := k4.biases.same o3 hi Nat.one_pos Nat.one_pos
          rw [hb, sumTo_congr fun k hk => ?_]
          have : w' i k = w i k 0 := k4.weights.same o2 hi hk Nat.one_pos
          rw [this]
        rw [← e1] at o5
        exact o5
      have hstep1 : c = 1 → q.1.At (· = 0) m i := by
        intro hcl
        obtain ⟨L', Ac, k1, k2, k3, _⟩ := hrelu1.of_bare h5
        rw [← hcl, p1] at k1
        obtain rfl := Option.some.inj k1
        rw [k2] at p2
        unfold Body.forward at p2
        dsimp only at p2
        obtain ⟨Y, ey, p2⟩ := Res.bind_eq_ok p2
        obtain rfl := Res.ok.inj p2
        exact Activation.forward_off k3 (h7 hcl) ey
      refine ⟨_, e, g1, g2, g3, g5 h4, hfr, fun hcl => absurd hcl (by omega), fun hcl => hstep0 (by omega), fun hcl => ?_⟩
      rcases Nat.lt_or_ge 1 c with hlc | hlc
      · obtain ⟨R', r1, r2⟩ := h8 hlc
        exact ⟨R', old r1, r2⟩
      · obtain rfl : c = 1 := by omega
        exact ⟨R, new, (hstep1 rfl).ofExpr (fun a ha => by rw [ha, Z.toFloat]) p3⟩)
  rw [shapeAt_end (Nat.le_succ _)] at hA
  have hl := hS.labelled
  obtain ⟨r, e2, hr, hi'⟩ := Model.forwardEnd_has E st.2 hA (by rw [hl]; exact h.output) st.1.2
  have ef' : (M.setBatchSize 1).forwardPropagation E x.data 0 = .ok (r, st.2) := by
    unfold Model.forwardPropagation
    rw [e0, Res.bind_ok, h.count, e1, Res.bind_ok, e2, Res.bind_ok]
  have hRr : Model.Records s ls r.inputs (ls.length + 1) := by rw [hr]; exact hR
  obtain ⟨r', M1, eb, hin, hS1, hK1, hT1⟩ := Model.backwardBegin_shaped E hS hRr hx.2
  have hb1 : M1.bare = (M.setBatchSize 1).bare := by
    obtain ⟨_, q2, _⟩ := Model.backwardBegin_inv eb
    dsimp only at q2
    rw [q2, Model.bare_tell, hbare]
  rw [← hr, ← hin] at hr2
  rw [← hin] at hRr
  obtain ⟨R2, r2, t2⟩ := hr2 (by omega)
  obtain ⟨st1, e7, _, _, _, _, _, _, q1⟩ := foldlM_reverse_inv
    (fun c (st : Matrix α × Model α) => st.2.Shaped 1 s ls M.labels ∧ Model.ReadyTo s ls st.2 0 (ls.length + 1) ∧
      (0 < c → c ≤ ls.length → st.1.Has (shapeAt ls s c)) ∧ Model.Told ls st.2 ∧ st.2.bare = (M.setBatchSize 1).bare ∧
      (c = 1 → st.1.At (Dead nan) m i) ∧
      (c = 0 → ∀ G H, st.2.stored 0 0 = some (G, H) → RowDead nan m (s.X * s.Y * s.Z) i G ∧ RowDead nan m 1 i H))
    (ls.length + 1) (Model.backwardStep E r' 0) (Matrix.empty, M1)
    ⟨hS1, hK1.ready 0 _ hrd, fun _ h => absurd h (by omega), hT1, hb1, fun h => absurd h (by omega), fun h => absurd h (by omega)⟩ (by
      rintro c hc ⟨d, M2⟩ ⟨k1, k2, k3, k4, k5, k7, k8⟩
      dsimp only at k1 k2 k3 k4 k5 k7 k8
      obtain ⟨d2, M3, e9, w1, w2, w3, _⟩ := Model.backwardStep_shaped E hE k1 hW Nat.one_pos hc hRr (d := d) (fun h => k3 (by omega) (by omega)) k2 k4
      have hfr := (Model.backwardStep_frame e9).1.trans k5
      have hRd2 : M2.Ready := hRd.of_bare k5
      obtain ⟨X0, Z0, L, X, Zc, q, p1, p2, p3, p4, p5, p6, p7⟩ := Model.backwardStep_parts e9
      obtain ⟨rfl, rfl⟩ := Prod.mk.inj p7
      dsimp only at p3 p6
      rw [hE] at p6
      -- the activation
      have hs1 : c = 1 → q.1.At (Dead nan) m i := by
        rintro rfl
        obtain ⟨L', Ac, a1, a2, _, a3⟩ := hrelu1.of_bare k5
        rw [p3] at a1
        obtain rfl := Option.some.inj a1
        rw [r2] at p2
        obtain rfl := Option.some.inj p2
        have hD := k3 (by omega) (by omega)
        rw [hsh2] at hD
        obtain ⟨δ, hδ⟩ := hD.col
        rw [a2] at p6
        unfold Body.backward at p6
        dsimp only at p6
        obtain ⟨Y, ey, p6⟩ := Res.bind_eq_ok p6
        obtain rfl := Res.ok.inj p6
        exact Activation.backward_off Z O a3 (t2.ofExpr (fun a ha => ha) p5) ⟨δ, hδ, trivial⟩ ey
      -- the units
      have hs0 : c = 0 → ∀ G H, (M2.setBody c q.2).stored 0 0 = some (G, H) → RowDead nan m (s.X * s.Y * s.Z) i G ∧ RowDead nan m 1 i H := by
        rintro rfl G H hst
        obtain ⟨L', C, w', β', a1, a2, a3, a4, a5, a6, a7, a8⟩ := k1.connected hRd2 hk0
        rw [p3] at a1
        obtain rfl := Option.some.inj a1
        obtain ⟨X0', X', y1, y2, ⟨xf, hxf⟩⟩ := Model.recordAt_shaped hRr (show 0 ≤ ls.length + 1 by omega)
        have : X0 = X0' := by
          unfold Model.recordAt at y1
          rw [p1] at y1
          exact Res.ok.inj y1
        subst this
        rw [p4] at y2
        obtain rfl := Res.ok.inj y2
        obtain ⟨δ, hδ, hδt⟩ := k7 rfl
        obtain ⟨gw, e10, hw⟩ := Connected.getdLdW_shows hxf hδ a4.weights.good
        rw [a2] at p6
        unfold Body.backward at p6
        dsimp only at p6
        obtain ⟨y, py, p6⟩ := Res.bind_eq_ok p6
        obtain rfl := Res.ok.inj p6
        obtain ⟨gw', b1, b2, b3, b4, b5⟩ := Connected.backward_inv py
        rw [e10] at b1
        obtain rfl := Res.ok.inj b1
        rw [Model.stored_bodyAt, Model.setBody_bodyAt, if_pos rfl, a3] at hst
        dsimp only at hst
        rw [b5] at hst
        simp only [Body.stored, List.getElem?_set, if_true, a7, a8, Nat.one_pos, Option.bind_some, Option.map_some, Option.some.injEq, Prod.mk.injEq] at hst
        obtain ⟨rfl, rfl⟩ := hst
        exact ⟨hw.rowDead hi fun k hk => Dead.sumTo A Z fun _ _ => hδt.times A O _, hδ.rowDead hi fun k hk => hδt⟩
      exact ⟨_, e9, w2, w3.ready 0 _ k2, fun h0 _ => w1 h0, w3.told k4, hfr, hs1, hs0⟩)
  refine ⟨st1.2, ?_, q1 rfl⟩
  unfold alone
  rw [ef', Res.bind_ok]
  unfold Model.backwardsPropagation
  rw [eb, Res.bind_ok, hS.count, e7]
  rfl

/-- Row `i` of the stored gradients of the first layer is dead in all slots. -/
def OffSlots (nan : α → Prop) (B m K i : Nat) (M : Model α) : Prop :=
  ∀ b < B, ∀ G H, M.stored 0 b = some (G, H) → RowDead nan m K i G ∧ RowDead nan m 1 i H

/-- A unit whose weights and bias are the same but for NaNs is off where it was. -/
theorem Model.OffFor.kept (A : Absorbs E nan) {s : Shape} {M M' : Model α} (hi : i < m) (hk : KeptUnit nan m (s.X * s.Y * s.Z) i M M') {x : Sample α}
    (h : M.OffFor E s m i x) : M'.OffFor E s m i x := by
  obtain ⟨W, Bi, w, β, g, o1, o2, o3, o4, o5⟩ := h
  obtain ⟨W1, Bi1, W', Bi', w1, β1, w', β', e1, e2, e3, e4, e5, e6, e7, e8⟩ := hk
  rw [o1] at e1
  obtain ⟨rfl, rfl⟩ := Prod.mk.inj (Option.some.inj e1)
  refine ⟨W', Bi', w', β', g, e2, e4, e6, o4, ?_⟩
  have hb : β1 i 0 0 = β i 0 0 := e5.same o3 hi Nat.one_pos Nat.one_pos
  rw [hb] at e8
  rcases e8 with e8 | e8
  · by_cases hn : ∃ k < s.X * s.Y * s.Z, nan (w' i k 0)
    · obtain ⟨k, hk, hn⟩ := hn
      exact A.lt_right _ _ (A.add_left _ _ (A.sumTo hk (A.mul_left _ _ hn)))
    · have : affine (fun a k => w' a k 0) (fun a => β' a 0 0) (s.X * s.Y * s.Z) (flatOf s.X s.Y g) i =
          affine (fun a k => w a k 0) (fun a => β a 0 0) (s.X * s.Y * s.Z) (flatOf s.X s.Y g) i := by
        unfold affine
        dsimp only
        rw [e8, sumTo_congr fun k hk => ?_]
        have hw : w1 i k 0 = w i k 0 := e3.same o2 hi hk Nat.one_pos
        rw [← hw, ((e7 k hk).resolve_right fun h => hn ⟨k, hk, h⟩)]
      rw [this]
      exact o5
  · exact A.lt_right _ _ (A.add_right _ _ e8)

/-- An update with dead gradients keeps what has been kept so far. -/
theorem Dead.keeps (A : Absorbs E nan) (Z : ZeroKept E nan rate B) {u w a : α} (hw : w = u ∨ nan w) (h : Dead nan a) :
    w - rate * (a / E.num.ofNat B) = u ∨ nan (w - rate * (a / E.num.ofNat B)) := by
  rcases hw with rfl | hw
  · exact Dead.update A Z h
  · exact Or.inr (A.sub_left _ _ hw)

namespace Train
open Model
variable {p : Hyper α} {T : Nat} {s : Shape} {ks : List LayerKind} {labels : List (List Char)}

theorem runBatch_off (A : Absorbs E nan) (Z : ZeroKept E nan p.rate B) (O : ZeroOff E nan) (hE : E.order = .dimsFirst)
    (hW : KindsWork true s (.full m :: .act .relu :: ks)) (hp : p.batch = B)
    (hq : p.threads = T) (hB : B < 2 ^ 24) (hi : i < m) {sh : Shared α}
    (h : Between B s (.full m :: .act .relu :: ks) labels sh) (hu : sh.model.Used) (hrelu : sh.model.ReluAt 1) {M0 : Model α}
    (hkept : KeptUnit nan m (s.X * s.Y * s.Z) i M0 sh.model) (hoff : ∀ x ∈ sh.source, M0.OffFor E s m i x)
    (hs : OffSlots nan B m (s.X * s.Y * s.Z) i sh.model ∨ B ≤ sh.source.length) {sched : List Nat}
    {q : Shared α × List (Event α)} (hr : runBatch E p sched sh = .ok (some q)) :
    OffSlots nan B m (s.X * s.Y * s.Z) i q.1.model ∧ KeptUnit nan m (s.X * s.Y * s.Z) i M0 q.1.model ∧ q.1.model.ReluAt 1 ∧ q.1.source = sh.source.drop B := by
  have hPrep := h.model.prepared hW hu
  obtain ⟨_, hslot, _⟩ := runBatch_contents hp hq hB hPrep hr
  have hr' := hr
  obtain ⟨s0, r, es, er, ho, hM', hev, hsrc⟩ := runBatch_split hr
  rw [hp, hq] at es
  obtain ⟨e1, e3, e4, e5, e6, e7, e8⟩ := run_end hB hPrep.ready es er ho
  have hlab := h.model.labelled
  have hRuns := h.model.runs
  have hfit : ∀ x ∈ sh.source.take B, x.Fits s sh.model.labels := by
    intro x hx
    rw [hlab]
    exact h.source x (List.mem_of_mem_take hx)
  obtain ⟨U, hU⟩ := run_used hB hPrep es er ho (by
    intro x hx y hy
    exact alone_shaped hE hRuns hW ⟨(hfit x hx).1, (hfit y hy).2⟩)
  have hdead : OffSlots nan B m (s.X * s.Y * s.Z) i q.1.model := by
    intro b hb
    by_cases hex : ∃ t x, (t, b, x) ∈ fetches r.2
    · obtain ⟨t, x, hx⟩ := hex
      obtain ⟨u1, u2, u3, y, hy, u4⟩ := hU _ hx
      have hxm : x ∈ sh.source.take B := by rw [← e7]; exact List.mem_map.2 ⟨_, hx, rfl⟩
      obtain ⟨M1, em, hm⟩ := alone_off A Z O hE hRuns hW hu hrelu (x := U (t, b, x)) ⟨by rw [u3]; exact (hfit _ hxm).1, by rw [u4]; exact (hfit y hy).2⟩ hi (by
        obtain ⟨W, Bi, w, β, g, o1, o2, o3, o4, o5⟩ := (hoff x (List.mem_of_mem_take hxm)).kept A hi hkept
        exact ⟨W, Bi, w, β, g, o1, o2, o3, by rw [u3]; exact o4, o5⟩)
      intro G H hst
      refine hm G H ?_
      rw [Model.applyBatch_stored hM', ← u2 0] at hst
      unfold ownGrads at hst
      rw [em] at hst
      exact hst
    · rcases hs with hs | hl
      · rw [hslot b (by rw [hev]; exact fun t x hx => hex ⟨t, x, hx⟩) 0]
        exact hs b hb
      · exfalso
        rw [Nat.min_eq_left hl] at e6
        have hsub : (fetches r.2).map (fun e => e.2.1) ⊆ List.range B := by
          intro c hc
          obtain ⟨⟨t, c, x⟩, m, rfl⟩ := List.mem_map.1 hc
          exact List.mem_range.2 (e3 t c x m).1
        have hpm : (fetches r.2).map (fun e => e.2.1) |>.Perm (List.range B) :=
          (List.subperm_of_subset e5 hsub).perm_of_length_le (by simp [e6])
        obtain ⟨⟨t, b', x⟩, m, rfl⟩ := List.mem_map.1 (hpm.mem_iff.2 (List.mem_range.2 hb))
        exact hex ⟨t, x, m⟩
  refine ⟨hdead, ?_, (hrelu.of_bare e1).applyBatch hM', hsrc.trans e8⟩
  obtain ⟨W, Bi, W1, Bi1, w, β, w1, β1, g1, g2, g3, g4, g5, g6, g7, g8⟩ := hkept
  obtain ⟨β', hβ'⟩ := g6.has.col
  have hββ : β' i = β1 i 0 0 := hβ'.same g6 hi Nat.one_pos Nat.one_pos
  rw [← hββ] at g8
  obtain ⟨gw, gb, W', B', k1, k2, k3, k4⟩ := runBatch_entries hp hq hB hPrep hr' g2 g4 hβ'
  refine ⟨W, Bi, W', B', w, β, _, _, g1, k2, g3, k3, g5, k4, fun k hk => ?_, ?_⟩
  · refine Dead.keeps A Z (g7 k hk) (Dead.sumTo A Z fun b hb => ?_)
    obtain ⟨G, H, m1, m2, _⟩ := k1 b hb
    exact (hdead b hb G H m1).1 _ m2 k hk
  · refine Dead.keeps A Z g8 (Dead.sumTo A Z fun b hb => ?_)
    obtain ⟨G, H, m1, _, m2⟩ := k1 b hb
    exact (hdead b hb G H m1).2 _ m2 0 Nat.one_pos

theorem runBatches_off (A : Absorbs E nan) (Z : ZeroKept E nan p.rate B) (O : ZeroOff E nan) (hE : E.order = .dimsFirst)
    (hW : KindsWork true s (.full m :: .act .relu :: ks)) (hp : p.batch = B)
    (hq : p.threads = T) (h0 : 0 < B) (hB : B < 2 ^ 24) (hT0 : 0 < T) (hT : T < 2147483648) (hi : i < m) {M0 : Model α}
    (scheds : List (List Nat)) : ∀ {sh : Shared α}, Between B s (.full m :: .act .relu :: ks) labels sh → sh.model.Used → sh.model.ReluAt 1 →
    KeptUnit nan m (s.X * s.Y * s.Z) i M0 sh.model → (∀ x ∈ sh.source, M0.OffFor E s m i x) →
    (OffSlots nan B m (s.X * s.Y * s.Z) i sh.model ∨ B ≤ sh.source.length) → ∀ {q : Shared α × List (Event α)},
    runBatches E p scheds sh = .ok (some q) → KeptUnit nan m (s.X * s.Y * s.Z) i M0 q.1.model ∧ q.1.model.ReluAt 1 ∧
      (scheds ≠ [] → OffSlots nan B m (s.X * s.Y * s.Z) i q.1.model) := by
  induction scheds with
  | nil =>
    intro sh h hu hrelu hkept _ _ q hq
    obtain rfl := Option.some.inj (Res.ok.inj hq)
    exact ⟨hkept, hrelu, fun h => absurd rfl h⟩
  | cons c' cs ih =>
    intro sh h hu hrelu hkept hd hs q hq'
    obtain ⟨o, eo, ho⟩ := runBatch_shaped hE hW hp hq h0 hB hT0 hT h c'
    unfold runBatches at hq'
    rw [eo, Res.bind_ok] at hq'
    cases o with
    | none => exact absurd (Res.ok.inj hq') (by simp)
    | some r =>
      obtain ⟨h1, h2, h3⟩ := ho r rfl
      obtain ⟨b1, b2, b3, b4⟩ := runBatch_off A Z O hE hW hp hq hB hi h hu hrelu hkept hd hs eo
      dsimp only at hq'
      obtain ⟨o', e', hq'⟩ := Res.bind_eq_ok hq'
      cases o' with
      | none => exact absurd (Res.ok.inj hq') (by simp)
      | some q1 =>
        obtain rfl := Option.some.inj (Res.ok.inj hq')
        obtain ⟨c1, c2, c3⟩ := ih ⟨h1, h3, Or.inl h2⟩ (Full.used h0 h1 h2) b3 b2
          (fun x hx => hd x (List.mem_of_mem_drop (by rw [← b4]; exact hx))) (Or.inl b1) e'
        refine ⟨c1, c2, fun _ => ?_⟩
        cases cs with
        | nil =>
          obtain rfl := Option.some.inj (Res.ok.inj e')
          exact b1
        | cons _ _ => exact c3 (by simp)

theorem epochs_off (A : Absorbs E nan) (Z : ZeroKept E nan p.rate B) (O : ZeroOff E nan) (hE : E.order = .dimsFirst)
    (hW : KindsWork true s (.full m :: .act .relu :: ks)) (hp : p.batch = B)
    (hq : p.threads = T) (h0 : 0 < B) (hB : B < 2 ^ 24) (hT0 : 0 < T) (hT : T < 2147483648) (hi : i < m) {M0 : Model α}
    {size : Nat} (hs0 : 0 < size) (hsz : size < 2 ^ 24) (epochs : List (List (List Nat) × List (Sample α))) :
    ∀ {M M' : Model α}, M.Shaped B s (.full m :: .act .relu :: ks) labels → M.Used → M.ReluAt 1 → KeptUnit nan m (s.X * s.Y * s.Z) i M0 M →
    (∀ e ∈ epochs, ∀ x ∈ e.2, x.Fits s labels) → (∀ ep ∈ epochs, ∀ x ∈ ep.2, M0.OffFor E s m i x) →
    (Full B s (.full m :: .act .relu :: ks) M ∧ OffSlots nan B m (s.X * s.Y * s.Z) i M ∨ ∀ e ∈ epochs.head?, B ≤ e.2.length) →
    epochs.foldlM (epochStep E p size) (some M) = .ok (some M') → KeptUnit nan m (s.X * s.Y * s.Z) i M0 M' := by
  induction epochs with
  | nil =>
    intro M M' h hu _ hkept _ _ _ hM'
    obtain rfl := Option.some.inj (Res.ok.inj hM')
    exact hkept
  | cons ep es ih =>
    intro M M' h hu hrelu hkept hx hd hf hM'
    have hb : Between B s (.full m :: .act .relu :: ks) labels (⟨M, ep.2, 0⟩ : Shared α) := ⟨h, hx ep (by simp), hf.imp And.left (fun h => h ep (by simp))⟩
    obtain ⟨o, eo, ho⟩ := runEpoch_shaped hE hW hp hq h0 hB hT0 hT hs0 hsz ep.1 hb
    rw [List.foldlM_cons] at hM'
    unfold epochStep at hM'
    dsimp only at hM'
    rw [eo, Res.bind_ok, Res.bind_ok] at hM'
    cases o with
    | none =>
      have := train_none E p size es
      unfold epochStep at this
      rw [Option.map_none, this] at hM'
      exact absurd (Res.ok.inj hM') (by simp)
    | some r =>
      rw [runEpoch_if hp hq h0 hB hT0 hsz] at eo
      by_cases hl : ep.1.length = (size + B - 1) / B
      · rw [if_pos hl] at eo
        have hne : ep.1 ≠ [] := by
          intro hnil
          have := ceilDiv_pos hs0 h0
          rw [hnil] at hl
          simp at hl
          omega
        obtain ⟨b1, b2, b3⟩ := runBatches_off A Z O hE hW hp hq h0 hB hT0 hT hi ep.1 (sh := ⟨M, ep.2, 0⟩) hb hu hrelu hkept (hd ep (by simp))
          (hf.imp And.right (fun h => h ep (by simp))) eo
        obtain ⟨h1, h2⟩ := ho r rfl
        exact ih h1 (Full.used h0 h1 h2) b2 b1 (fun e he => hx e (by simp [he])) (fun e he => hd e (by simp [he])) (Or.inl ⟨h2, b3 hne⟩) hM'
      · rw [if_neg hl] at eo
        exact absurd (Res.ok.inj eo) (by simp)

end Train

end
end Cnn
