import Verif.Lemmas.NaNRun
import Verif.Lemmas.SlotUpdate
import Verif.Spec.PlainTwins
/-! Helper lemmas: two equal units are treated alike, in any arithmetic (C106). -/
set_option linter.unusedSectionVars false
namespace Cnn
variable {α : Type} {m K n i j : Nat}

/-- Rows `i` and `j` are the same. -/
def RowTwin (m K i j : Nat) (W : Matrix α) : Prop := ∀ f, W.Reads m K 1 f → ∀ k < K, f i k 0 = f j k 0

/-- Columns `i` and `j` are the same. -/
def ColTwin (n m i j : Nat) (W : Matrix α) : Prop := ∀ f, W.Reads n m 1 f → ∀ a < n, f a i 0 = f a j 0

theorem Matrix.Shows.rowTwin {W : Matrix α} {w : Nat → Nat → Nat → α} (h : W.Shows m K 1 w) (hi : i < m) (hj : j < m) (hw : ∀ k < K, w i k 0 = w j k 0) :
    RowTwin m K i j W := by
  intro f hf k hk
  have e1 := hf.entry i hi k hk 0 Nat.one_pos
  have e2 := hf.entry j hj k hk 0 Nat.one_pos
  rw [h.entry i hi k hk 0 Nat.one_pos] at e1
  rw [h.entry j hj k hk 0 Nat.one_pos] at e2
  rw [← Res.ok.inj e1, ← Res.ok.inj e2, hw k hk]

theorem Matrix.Shows.colTwin {W : Matrix α} {w : Nat → Nat → Nat → α} (h : W.Shows n m 1 w) (hi : i < m) (hj : j < m) (hw : ∀ a < n, w a i 0 = w a j 0) :
    ColTwin n m i j W := by
  intro f hf a ha
  have e1 := hf.entry a ha i hi 0 Nat.one_pos
  have e2 := hf.entry a ha j hj 0 Nat.one_pos
  rw [h.entry a ha i hi 0 Nat.one_pos] at e1
  rw [h.entry a ha j hj 0 Nat.one_pos] at e2
  rw [← Res.ok.inj e1, ← Res.ok.inj e2, hw a ha]

theorem Matrix.Shows.reads' {W : Matrix α} {X Y Z : Nat} {w : Nat → Nat → Nat → α} (h : W.Shows X Y Z w) : W.Reads X Y Z w := ⟨h.dim, h.entry⟩

/-- A column whose entries `i` and `j` are the same. -/
def Matrix.Twin (m i j : Nat) (A : Matrix α) : Prop := ∃ f : Nat → α, A.Shows m 1 1 (fun a _ _ => f a) ∧ f i = f j

theorem Matrix.Twin.ofExpr [Zero α] {A R : Matrix α} (h : A.Twin m i j) {c : α → α} (e : Matrix.ofExpr c A.expr = .ok R) : R.Twin m i j := by
  obtain ⟨f, h1, h2⟩ := h
  obtain ⟨R', e', h'⟩ := Matrix.ofExpr_shows h1.expr c
  rw [e'] at e
  obtain rfl := Res.ok.inj e
  exact ⟨fun a => c (f a), h', by dsimp only; rw [h2]⟩

theorem flatOf_col {m k : Nat} (hk : k < m) (f : Nat → α) : flatOf m 1 (fun a _ _ => f a) k = f k := by
  unfold flatOf
  rw [Nat.mod_eq_of_lt hk]

section
variable [Zero α] [One α] [Add α] [Sub α] [Mul α] [Div α] [Neg α] {E : Env α}

theorem affine_twin {w : Nat → Nat → α} {β : Nat → α} (v : Nat → α) (hw : ∀ k < K, w i k = w j k) (hβ : β i = β j) : affine w β K v i = affine w β K v j := by
  unfold affine
  rw [hβ, sumTo_congr (fun k hk => by rw [hw k hk])]

/-- A fully connected layer that has been used, in a model. -/
theorem Model.Shaped.connected {B l : Nat} {s : Shape} {ks : List LayerKind} {labels : List (List Char)} {M : Model α} (h : M.Shaped B s ks labels) (hr : M.Ready)
    (hk : ks[l]? = some (.full m)) : ∃ (L : Layer α) (C : Connected α) (w : Nat → Nat → α) (β : Nat → α), M.layers[l]? = some L ∧ L.body = .connected C ∧
      M.bodyAt l = some L.body ∧ C.Is m ((shapeAt ks s l).X * (shapeAt ks s l).Y * (shapeAt ks s l).Z) w β ∧
      (decide (l = 0) = true ∨ C.inputDim = dimN (shapeAt ks s l).X (shapeAt ks s l).Y (shapeAt ks s l).Z) ∧ M.params l = some (C.weights, C.biases) ∧
      C.wGrads.length = B ∧ C.bGrads.length = B := by
  obtain ⟨L, k', hL, hbody, hk'⟩ := h.get (List.getElem?_eq_some_iff.1 hk).1
  have hs := h.layers l _ _ hbody hk
  have hrd := hr L (List.mem_of_getElem? hL)
  have hpar : M.params l = L.body.params := by rw [Model.params_bodyAt, hbody]; rfl
  obtain ⟨nm, body⟩ := L
  match body, hs with
  | .connected C, ⟨hI, l1, l2⟩ =>
    obtain ⟨w, β, hC, hd⟩ := hI.resolve_right (by rintro ⟨h, _⟩; have hrd : C.initialized = true := hrd; rw [hrd] at h; exact absurd h (by simp))
    exact ⟨_, C, w, β, hL, rfl, hbody, hC, hd, hpar, l1, l2⟩

theorem Model.Shaped.activation {B l : Nat} {s : Shape} {ks : List LayerKind} {labels : List (List Char)} {M : Model α} (h : M.Shaped B s ks labels)
    {f : ActFn} (hk : ks[l]? = some (.act f)) : ∃ (L : Layer α) (A : Activation), M.layers[l]? = some L ∧ L.body = .activation A := by
  obtain ⟨L, k', hL, hbody, hk'⟩ := h.get (List.getElem?_eq_some_iff.1 hk).1
  have hs := h.layers l _ _ hbody hk
  obtain ⟨nm, body⟩ := L
  match body, hs with
  | .activation C, _ => exact ⟨_, C, hL, rfl⟩

theorem Model.forwardStep_parts {b l : Nat} {st st' : (Matrix α × List (Matrix α)) × Model α} (h : Model.forwardStep E b st l = .ok st') :
    ∃ L q R, st.2.layers[l]? = some L ∧ L.body.forward E.num (E.draws l) st.1.1 b = .ok q ∧ Matrix.ofExpr E.toFloat q.1.expr = .ok R ∧
      st' = ((q.1, st.1.2 ++ [R]), st.2.setBody l q.2) := by
  unfold Model.forwardStep Model.forwardLayer at h
  obtain ⟨y, hy, h⟩ := Res.bind_eq_ok h
  obtain ⟨R, hR, h⟩ := Res.bind_eq_ok h
  obtain rfl := Res.ok.inj h
  obtain ⟨L, hl, hy⟩ := Res.bind_eq_ok hy
  obtain ⟨q, hz, hy⟩ := Res.bind_eq_ok hy
  obtain rfl := Res.ok.inj hy
  exact ⟨L, q, R, ofOption_eq hl, hz, hR, rfl⟩

theorem Model.backwardStep_parts {r : Results α} {b l : Nat} {st st' : Matrix α × Model α} (h : Model.backwardStep E r b st l = .ok st') :
    ∃ X0 Z0 L X Z q, r.inputs[l]? = some X0 ∧ r.inputs[l + 1]? = some Z0 ∧ st.2.layers[l]? = some L ∧ Matrix.ofExpr id X0.expr = .ok X ∧
      Matrix.ofExpr id Z0.expr = .ok Z ∧ L.body.backward E.num E.order X Z st.1 b (decide (l = 0)) = .ok q ∧ st' = (q.1, st.2.setBody l q.2) := by
  unfold Model.backwardStep Model.recordAt at h
  obtain ⟨X0, h1, h⟩ := Res.bind_eq_ok h
  obtain ⟨Z0, h2, h⟩ := Res.bind_eq_ok h
  obtain ⟨L, h3, h⟩ := Res.bind_eq_ok h
  obtain ⟨X, h4, h⟩ := Res.bind_eq_ok h
  obtain ⟨Z, h5, h⟩ := Res.bind_eq_ok h
  obtain ⟨q, h6, h⟩ := Res.bind_eq_ok h
  obtain rfl := Res.ok.inj h
  refine ⟨X0, Z0, L, X, Z, q, ?_, ?_, ofOption_eq h3, h4, h5, h6, rfl⟩
  · cases hx : r.inputs[l]? with
    | none => rw [hx] at h1; exact absurd h1 (by simp)
    | some a => rw [hx] at h1; rw [← Res.ok.inj h1]
  · cases hx : r.inputs[l + 1]? with
    | none => rw [hx] at h2; exact absurd h2 (by simp)
    | some a => rw [hx] at h2; rw [← Res.ok.inj h2]

theorem Activation.forward_twin {A : Activation} {X Y : Matrix α} (h : X.Twin m i j) (e : A.forward E.num X = .ok Y) : Y.Twin m i j := by
  obtain ⟨f, h1, h2⟩ := h
  obtain ⟨P, e', h'⟩ := Matrix.ofExpr_shows (MExpr.un_shows (A.fn.eval E.num) h1.expr) (id : α → α)
  have e : Matrix.ofExpr id (MExpr.un (A.fn.eval E.num) X.expr) = .ok Y := e
  rw [e'] at e
  obtain rfl := Res.ok.inj e
  exact ⟨fun a => A.fn.eval E.num (f a), h', by dsimp only; rw [h2]⟩

theorem Activation.backward_twin {A : Activation} {X Z D Y : Matrix α} (hZ : Z.Twin m i j) (hD : D.Twin m i j) (e : A.backward E.num X Z D = .ok Y) : Y.Twin m i j := by
  obtain ⟨z, hz, z2⟩ := hZ
  obtain ⟨d, hd, d2⟩ := hD
  obtain ⟨G, e1, h1⟩ := Matrix.ofExpr_shows (MExpr.un_shows (A.gradFn.grad E.num) hz.expr) (id : α → α)
  obtain ⟨Ex, e2, h2⟩ := MExpr.bin_shows (· * ·) hd.expr h1.expr
  obtain ⟨P, e3, h⟩ := Matrix.ofExpr_shows h2 (id : α → α)
  unfold Activation.backward Activation.gradient at e
  rw [e1, Res.bind_ok, e2, Res.bind_ok, e3] at e
  obtain rfl := Res.ok.inj e
  exact ⟨fun a => d a * A.gradFn.grad E.num (z a), h, by dsimp only; rw [z2, d2]⟩

/-- The parameters and stored gradients treat the two units alike. -/
structure Model.TwinParams (M : Model α) (l m K n i j : Nat) : Prop where
  rows : ∀ W Bi, M.params l = some (W, Bi) → RowTwin m K i j W ∧ RowTwin m 1 i j Bi
  cols : ∀ V Bj, M.params (l + 2) = some (V, Bj) → ColTwin n m i j V

/-- The gradients a sample leaves in a model whose units `i` and `j` are twins. -/
theorem alone_twins (hE : E.order = .dimsFirst) {M : Model α} {s : Shape} {ks : List LayerKind} (hM : M.Runs s ks) (hW : KindsWork true s ks) (hu : M.Used)
    {x : Sample α} (hx : x.Fits s M.labels) {l : Nat} {f : ActFn} (hk0 : ks[l]? = some (.full m)) (hk1 : ks[l + 1]? = some (.act f))
    (hk2 : ks[l + 2]? = some (.full n)) (hi : i < m) (hj : j < m)
    (hT : M.TwinParams l m ((shapeAt ks s l).X * (shapeAt ks s l).Y * (shapeAt ks s l).Z) n i j) :
    ∃ M', alone E M x = .ok M' ∧
      (∀ G H, M'.stored l 0 = some (G, H) → RowTwin m ((shapeAt ks s l).X * (shapeAt ks s l).Y * (shapeAt ks s l).Z) i j G ∧ RowTwin m 1 i j H) ∧
      ∀ G H, M'.stored (l + 2) 0 = some (G, H) → ColTwin n m i j G := by
  have h := Model.setBatchSize_shaped (B := 1) hM
  have hlen : l + 2 < ks.length := (List.getElem?_eq_some_iff.1 hk2).1
  have hsh1 : shapeAt ks s (l + 1) = ⟨m, 1, 1⟩ := shapeAt_succ hk0
  have hsh2 : shapeAt ks s (l + 2) = ⟨m, 1, 1⟩ := by rw [shapeAt_succ hk1, hsh1]; rfl
  have hm1 : m * 1 * 1 = m := by simp
  have hRd : (M.setBatchSize 1).Ready := (h.prepared hW (setBatchSize_used hu 1)).ready
  have hpar : ∀ c, (M.setBatchSize 1).params c = M.params c := fun c => setBatchSize_params M 1 c
  obtain ⟨A0, rec0, e0, hA0, hR0⟩ := Model.forwardBegin_shaped (ks := ks) E hx.1
  obtain ⟨st, e1, hA, hR, hS, hrd, hbare, _, hr1, hr2⟩ := foldlM_range_inv
    (fun c (st : (Matrix α × List (Matrix α)) × Model α) => st.1.1.Has (shapeAt ks s c) ∧ Model.Records s ks st.1.2 c ∧ st.2.Shaped 1 s ks M.labels ∧
      Model.ReadyTo s ks st.2 0 c ∧ st.2.bare = (M.setBatchSize 1).bare ∧ (c = l + 1 → st.1.1.Twin m i j) ∧
      (l < c → ∃ R, st.1.2[l + 1]? = some R ∧ R.Twin m i j) ∧ (l + 1 < c → ∃ R, st.1.2[l + 2]? = some R ∧ R.Twin m i j))
    (ks.length + 1) (Model.forwardStep E 0) ((A0, rec0), M.setBatchSize 1)
    ⟨hA0, hR0, h, fun j _ _ hj => absurd hj (by omega), rfl, fun h => absurd h (by omega), fun h => absurd h (by omega), fun h => absurd h (by omega)⟩ (by
      rintro c hc ⟨⟨A, rec⟩, M1⟩ ⟨h1, h2, h3, h4, h5, h6, h7, h8⟩
      have hRd1 : M1.Ready := hRd.of_bare h5
      obtain ⟨A', rec', M', e, g1, g2, g3, g4, g5⟩ := Model.forwardStep_shaped E h3 hW Nat.one_pos hc h1 h2
      have hfr := (Model.forwardStep_frame hRd1 e).1.trans h5
      obtain ⟨L, q, R, p1, p2, p3, p4⟩ := Model.forwardStep_parts e
      obtain ⟨pq, rfl⟩ := Prod.mk.inj p4
      obtain ⟨rfl, rfl⟩ := Prod.mk.inj pq
      dsimp only at p1 p2 h7 h8 h2 h6 h1
      have old : ∀ {d : Nat} {R' : Matrix α}, rec[d]? = some R' → (rec ++ [R])[d]? = some R' := by
        intro d R' hd
        rw [List.getElem?_append_left (List.getElem?_eq_some_iff.1 hd).1, hd]
      have new : (rec ++ [R])[c + 1]? = some R := by
        rw [← h2.1, List.getElem?_concat_length]
      have hstep0 : c = l → q.1.Twin m i j := by
        rintro rfl
        obtain ⟨L', C, w, β, k1, k2, _, k4, _, k6, _, _⟩ := h3.connected hRd1 hk0
        rw [p1] at k1
        obtain rfl := Option.some.inj k1
        obtain ⟨t1, t2⟩ := hT.rows C.weights C.biases (by rw [← hpar, ← Model.bare_params h5]; exact k6)
        obtain ⟨xx, hxx⟩ := h1
        obtain ⟨out, ec, hout⟩ := Connected.compute_shows k4 hxx
        obtain ⟨Y', ef, _⟩ := Connected.forward_later (N := E.num) (draws := E.draws c) k4 hxx
        rw [k2] at p2
        unfold Body.forward at p2
        dsimp only at p2
        rw [ef] at p2
        have p2 := Res.ok.inj p2
        have : Y' = out := by
          unfold Connected.forward at ef
          rw [Connected.later_check E.num (E.draws c) k4 hxx] at ef
          have := (Prod.mk.inj ef).1
          rw [ec, Res.bind_ok, if_pos (decide_eq_true rfl)] at this
          exact (Res.ok.inj this).symm
        subst this
        rw [← p2]
        refine ⟨_, hout, affine_twin _ (fun k hk => t1 _ k4.weights.reads' k hk) (t2 _ k4.biases.reads' 0 Nat.one_pos)⟩
      have hstep1 : c = l + 1 → q.1.Twin m i j := by
        intro hcl
        obtain ⟨L', Ac, k1, k2⟩ := h3.activation (l := c) (by rw [hcl]; exact hk1)
        rw [p1] at k1
        obtain rfl := Option.some.inj k1
        rw [k2] at p2
        unfold Body.forward at p2
        dsimp only at p2
        obtain ⟨Y, ey, p2⟩ := Res.bind_eq_ok p2
        obtain rfl := Res.ok.inj p2
        exact Activation.forward_twin (h6 hcl) ey
      refine ⟨_, e, g1, g2, g3, g5 h4, hfr, fun hcl => hstep0 (by omega), fun hcl => ?_, fun hcl => ?_⟩
      · rcases Nat.lt_or_ge l c with hlc | hlc
        · obtain ⟨R', r1, r2⟩ := h7 hlc
          exact ⟨R', old r1, r2⟩
        · obtain rfl : c = l := by omega
          exact ⟨R, new, (hstep0 rfl).ofExpr p3⟩
      · rcases Nat.lt_or_ge (l + 1) c with hlc | hlc
        · obtain ⟨R', r1, r2⟩ := h8 hlc
          exact ⟨R', old r1, r2⟩
        · obtain rfl : c = l + 1 := by omega
          exact ⟨R, new, (hstep1 rfl).ofExpr p3⟩)
  rw [shapeAt_end (Nat.le_succ _)] at hA
  have hl := hS.labelled
  obtain ⟨r, e2, hr, hi'⟩ := Model.forwardEnd_has E st.2 hA (by rw [hl]; exact h.output) st.1.2
  have ef' : (M.setBatchSize 1).forwardPropagation E x.data 0 = .ok (r, st.2) := by
    unfold Model.forwardPropagation
    rw [e0, Res.bind_ok, h.count, e1, Res.bind_ok, e2, Res.bind_ok]
  have hRr : Model.Records s ks r.inputs (ks.length + 1) := by rw [hr]; exact hR
  obtain ⟨r', M1, eb, hin, hS1, hK1, hT1⟩ := Model.backwardBegin_shaped E hS hRr hx.2
  have hb1 : M1.bare = (M.setBatchSize 1).bare := by
    obtain ⟨_, q2, _⟩ := Model.backwardBegin_inv eb
    dsimp only at q2
    rw [q2, Model.bare_tell, hbare]
  rw [← hr, ← hin] at hr1 hr2
  rw [← hin] at hRr
  obtain ⟨R1, r1, t1⟩ := hr1 (by omega)
  obtain ⟨R2, r2, t2⟩ := hr2 (by omega)
  obtain ⟨st1, e7, _, _, _, _, _, _, _, q1, q2⟩ := foldlM_reverse_inv
    (fun c (st : Matrix α × Model α) => st.2.Shaped 1 s ks M.labels ∧ Model.ReadyTo s ks st.2 0 (ks.length + 1) ∧
      (0 < c → c ≤ ks.length → st.1.Has (shapeAt ks s c)) ∧ Model.Told ks st.2 ∧ st.2.bare = (M.setBatchSize 1).bare ∧
      (c = l + 2 → st.1.Twin m i j) ∧ (c = l + 1 → st.1.Twin m i j) ∧
      (c ≤ l → ∀ G H, st.2.stored l 0 = some (G, H) → RowTwin m ((shapeAt ks s l).X * (shapeAt ks s l).Y * (shapeAt ks s l).Z) i j G ∧ RowTwin m 1 i j H) ∧
      (c ≤ l + 2 → ∀ G H, st.2.stored (l + 2) 0 = some (G, H) → ColTwin n m i j G))
    (ks.length + 1) (Model.backwardStep E r' 0) (Matrix.empty, M1)
    ⟨hS1, hK1.ready 0 _ hrd, fun _ h => absurd h (by omega), hT1, hb1, fun h => absurd h (by omega), fun h => absurd h (by omega), fun h => absurd h (by omega),
      fun h => absurd h (by omega)⟩ (by
      rintro c hc ⟨d, M2⟩ ⟨k1, k2, k3, k4, k5, k6, k7, k8, k9⟩
      dsimp only at k1 k2 k3 k4 k5 k6 k7 k8 k9
      obtain ⟨d2, M3, e9, w1, w2, w3, _⟩ := Model.backwardStep_shaped E hE k1 hW Nat.one_pos hc hRr (d := d) (fun h => k3 (by omega) (by omega)) k2 k4
      have hfr := (Model.backwardStep_frame e9).1.trans k5
      have hRd2 : M2.Ready := hRd.of_bare k5
      obtain ⟨X0, Z0, L, X, Z, q, p1, p2, p3, p4, p5, p6, p7⟩ := Model.backwardStep_parts e9
      obtain ⟨rfl, rfl⟩ := Prod.mk.inj p7
      dsimp only at p3 p6
      rw [hE] at p6
      have keep : ∀ b, c ≠ b → (M2.setBody c q.2).stored b 0 = M2.stored b 0 := by
        intro b hb
        rw [Model.stored_bodyAt, Model.setBody_bodyAt, if_neg hb, Model.stored_bodyAt]
      -- the layer after the units
      have hs2 : c = l + 2 → q.1.Twin m i j ∧ ∀ G H, (M2.setBody c q.2).stored (l + 2) 0 = some (G, H) → ColTwin n m i j G := by
        rintro rfl
        obtain ⟨L', C, w, β, a1, a2, a3, a4, a5, a6, a7, a8⟩ := k1.connected hRd2 hk2
        rw [p3] at a1
        obtain rfl := Option.some.inj a1
        rw [r2] at p1
        obtain rfl := Option.some.inj p1
        obtain ⟨xf, hxf, hxt⟩ := t2.ofExpr p4
        rw [hsh2] at a4 a5
        dsimp only at a4 a5
        have hD := k3 (by omega) (by omega)
        rw [shapeAt_succ hk2] at hD
        obtain ⟨δ, hδ⟩ := hD.col
        obtain ⟨gw, e10, hw⟩ := Connected.getdLdW_shows hxf hδ a4.weights.good
        obtain ⟨D, e11, hDs⟩ := Connected.getdLdX_shows a4 (a5.resolve_left (by simp)) hxf.good.x Nat.one_pos hδ
        have hct := hT.cols C.weights C.biases (by rw [← hpar, ← Model.bare_params k5]; exact a6)
        rw [a2] at p6
        unfold Body.backward at p6
        dsimp only at p6
        obtain ⟨y, py, p6⟩ := Res.bind_eq_ok p6
        obtain rfl := Res.ok.inj p6
        obtain ⟨gw', b1, b2, b3, b4, b5⟩ := Connected.backward_inv py
        rw [e10] at b1
        obtain rfl := Res.ok.inj b1
        rw [if_neg (by simp), e11] at b4
        obtain hy1 := Res.ok.inj b4
        rw [hm1] at a4 hw
        refine ⟨?_, ?_⟩
        · dsimp only
          rw [← hy1]
          refine ⟨fun a => sumTo n (fun b => w b (fl m 1 a 0 0) * δ b), hDs.congr ?_, ?_⟩
          · intro a _ b hb e he
            obtain rfl := Nat.lt_one_iff.1 hb
            obtain rfl := Nat.lt_one_iff.1 he
            rfl
          · refine sumTo_congr fun b hb => ?_
            have f1 : fl m 1 i 0 0 = i := by simp [fl]
            have f2 : fl m 1 j 0 0 = j := by simp [fl]
            rw [f1, f2, hct _ a4.weights.reads' b hb]
        · intro G H hst
          rw [Model.stored_bodyAt, Model.setBody_bodyAt, if_pos rfl, a3] at hst
          dsimp only at hst
          rw [b5] at hst
          simp only [Body.stored, List.getElem?_set, if_true, a7, a8, Nat.one_pos, Option.bind_some, Option.map_some, Option.some.injEq, Prod.mk.injEq] at hst
          obtain ⟨rfl, rfl⟩ := hst
          refine hw.colTwin hi hj fun a ha => ?_
          rw [flatOf_col hi, flatOf_col hj, hxt]
      -- the activation
      have hs1 : c = l + 1 → q.1.Twin m i j := by
        intro hcl
        obtain ⟨L', Ac, a1, a2⟩ := k1.activation (l := c) (by rw [hcl]; exact hk1)
        rw [p3] at a1
        obtain rfl := Option.some.inj a1
        rw [hcl, r2] at p2
        obtain rfl := Option.some.inj p2
        rw [a2] at p6
        unfold Body.backward at p6
        dsimp only at p6
        obtain ⟨Y, ey, p6⟩ := Res.bind_eq_ok p6
        obtain rfl := Res.ok.inj p6
        exact Activation.backward_twin (t2.ofExpr p5) (k6 (by omega)) ey
      -- the units
      have hs0 : c = l → ∀ G H, (M2.setBody c q.2).stored l 0 = some (G, H) →
          RowTwin m ((shapeAt ks s l).X * (shapeAt ks s l).Y * (shapeAt ks s l).Z) i j G ∧ RowTwin m 1 i j H := by
        rintro rfl G H hst
        obtain ⟨L', C, w, β, a1, a2, a3, a4, a5, a6, a7, a8⟩ := k1.connected hRd2 hk0
        rw [p3] at a1
        obtain rfl := Option.some.inj a1
        obtain ⟨X0', X', y1, y2, ⟨xf, hxf⟩⟩ := Model.recordAt_shaped hRr (show c ≤ ks.length + 1 by omega)
        have : X0 = X0' := by
          unfold Model.recordAt at y1
          rw [p1] at y1
          exact Res.ok.inj y1
        subst this
        rw [p4] at y2
        obtain rfl := Res.ok.inj y2
        obtain ⟨δ, hδ, hδt⟩ := k7 rfl
        obtain ⟨gw, e10, hw⟩ := Connected.getdLdW_shows hxf hδ a4.weights.good
        rw [a2] at p6
        unfold Body.backward at p6
        dsimp only at p6
        obtain ⟨y, py, p6⟩ := Res.bind_eq_ok p6
        obtain rfl := Res.ok.inj p6
        obtain ⟨gw', b1, b2, b3, b4, b5⟩ := Connected.backward_inv py
        rw [e10] at b1
        obtain rfl := Res.ok.inj b1
        rw [Model.stored_bodyAt, Model.setBody_bodyAt, if_pos rfl, a3] at hst
        dsimp only at hst
        rw [b5] at hst
        simp only [Body.stored, List.getElem?_set, if_true, a7, a8, Nat.one_pos, Option.bind_some, Option.map_some, Option.some.injEq, Prod.mk.injEq] at hst
        obtain ⟨rfl, rfl⟩ := hst
        exact ⟨hw.rowTwin hi hj fun k hk => by rw [hδt], hδ.rowTwin hi hj fun k hk => hδt⟩
      refine ⟨_, e9, w2, w3.ready 0 _ k2, fun h0 _ => w1 h0, w3.told k4, hfr, fun h => (hs2 h).1, hs1, fun h G H => ?_, fun h G H => ?_⟩
      · by_cases hcl : c = l
        · exact hs0 hcl G H
        · rw [keep l hcl]
          exact k8 (by omega) G H
      · by_cases hcl : c = l + 2
        · exact (hs2 hcl).2 G H
        · rw [keep _ hcl]
          exact k9 (by omega) G H)
  refine ⟨st1.2, ?_, q1 (Nat.zero_le _), q2 (Nat.zero_le _)⟩
  unfold alone
  rw [ef', Res.bind_ok]
  unfold Model.backwardsPropagation
  rw [eb, Res.bind_ok, hS.count, e7]
  rfl

theorem Model.TwinUnits.params {M : Model α} {l : Nat} (h : M.TwinUnits l m K n i j) (hi : i < m) (hj : j < m) : M.TwinParams l m K n i j := by
  obtain ⟨W, Bi, V, Bj, w, β, v, e1, e2, h1, h2, h3, h4, h5, h6⟩ := h
  refine ⟨fun W' Bi' e => ?_, fun V' Bj' e => ?_⟩
  · rw [e1] at e
    obtain ⟨rfl, rfl⟩ := Prod.mk.inj (Option.some.inj e)
    exact ⟨h1.rowTwin hi hj h4, h2.rowTwin hi hj fun k hk => by obtain rfl := Nat.lt_one_iff.1 hk; exact h5⟩
  · rw [e2] at e
    obtain ⟨rfl, rfl⟩ := Prod.mk.inj (Option.some.inj e)
    exact h3.colTwin hi hj h6

/-- The gradients stored in all slots treat the units alike. -/
def TwinSlots (B l m K n i j : Nat) (M : Model α) : Prop :=
  ∀ b < B, (∀ G H, M.stored l b = some (G, H) → RowTwin m K i j G ∧ RowTwin m 1 i j H) ∧ ∀ G H, M.stored (l + 2) b = some (G, H) → ColTwin n m i j G

namespace Train
open Model
variable {p : Hyper α} {T B l : Nat} {s : Shape} {ks : List LayerKind} {labels : List (List Char)} {f : ActFn}

theorem runBatch_twinUnits (hE : E.order = .dimsFirst) (hW : KindsWork true s ks) (hp : p.batch = B)
    (hq : p.threads = T) (h0 : 0 < B) (hB : B < 2 ^ 24) (hT0 : 0 < T) (hT : T < 2147483648) (hk0 : ks[l]? = some (.full m)) (hk1 : ks[l + 1]? = some (.act f))
    (hk2 : ks[l + 2]? = some (.full n)) (hi : i < m) (hj : j < m) {sh : Shared α} (h : Between B s ks labels sh) (hu : sh.model.Used)
    (ht : sh.model.TwinUnits l m ((shapeAt ks s l).X * (shapeAt ks s l).Y * (shapeAt ks s l).Z) n i j)
    (hs : TwinSlots B l m ((shapeAt ks s l).X * (shapeAt ks s l).Y * (shapeAt ks s l).Z) n i j sh.model ∨ B ≤ sh.source.length) {sched : List Nat}
    {q : Shared α × List (Event α)} (hr : runBatch E p sched sh = .ok (some q)) :
    TwinSlots B l m ((shapeAt ks s l).X * (shapeAt ks s l).Y * (shapeAt ks s l).Z) n i j q.1.model ∧
      q.1.model.TwinUnits l m ((shapeAt ks s l).X * (shapeAt ks s l).Y * (shapeAt ks s l).Z) n i j := by
  have hPrep := h.model.prepared hW hu
  obtain ⟨_, hslot, _⟩ := runBatch_contents hp hq hB hPrep hr
  have hr' := hr
  obtain ⟨s0, r, es, er, ho, hM', hev, hsrc⟩ := runBatch_split hr
  rw [hp, hq] at es
  obtain ⟨e1, e3, e4, e5, e6, e7, e8⟩ := run_end hB hPrep.ready es er ho
  have hlab := h.model.labelled
  have hRuns := h.model.runs
  have hfit : ∀ x ∈ sh.source.take B, x.Fits s sh.model.labels := by
    intro x hx
    rw [hlab]
    exact h.source x (List.mem_of_mem_take hx)
  obtain ⟨U, hU⟩ := run_used hB hPrep es er ho (by
    intro x hx y hy
    exact alone_shaped hE hRuns hW ⟨(hfit x hx).1, (hfit y hy).2⟩)
  have htw : TwinSlots B l m ((shapeAt ks s l).X * (shapeAt ks s l).Y * (shapeAt ks s l).Z) n i j q.1.model := by
    intro b hb
    by_cases hex : ∃ t x, (t, b, x) ∈ fetches r.2
    · obtain ⟨t, x, hx⟩ := hex
      obtain ⟨u1, u2, u3, y, hy, u4⟩ := hU _ hx
      have hxm : x ∈ sh.source.take B := by rw [← e7]; exact List.mem_map.2 ⟨_, hx, rfl⟩
      obtain ⟨M1, em, hm1, hm2⟩ := alone_twins hE hRuns hW hu (x := U (t, b, x)) ⟨by rw [u3]; exact (hfit _ hxm).1, by rw [u4]; exact (hfit y hy).2⟩ hk0 hk1 hk2 hi hj
        (ht.params hi hj)
      have key : ∀ c, M1.stored c 0 = q.1.model.stored c b := by
        intro c
        rw [Model.applyBatch_stored hM', ← u2 c]
        unfold ownGrads
        rw [em]
      exact ⟨fun G H hst => hm1 G H (by rw [key]; exact hst), fun G H hst => hm2 G H (by rw [key]; exact hst)⟩
    · rcases hs with hs | hl
      · have key := hslot b (by rw [hev]; exact fun t x hx => hex ⟨t, x, hx⟩)
        rw [key, key]
        exact hs b hb
      · exfalso
        rw [Nat.min_eq_left hl] at e6
        have hsub : (fetches r.2).map (fun e => e.2.1) ⊆ List.range B := by
          intro c hc
          obtain ⟨⟨t, c, x⟩, m, rfl⟩ := List.mem_map.1 hc
          exact List.mem_range.2 (e3 t c x m).1
        have hpm : (fetches r.2).map (fun e => e.2.1) |>.Perm (List.range B) :=
          (List.subperm_of_subset e5 hsub).perm_of_length_le (by simp [e6])
        obtain ⟨⟨t, b', x⟩, m, rfl⟩ := List.mem_map.1 (hpm.mem_iff.2 (List.mem_range.2 hb))
        exact hex ⟨t, x, m⟩
  refine ⟨htw, ?_⟩
  obtain ⟨W, Bi, V, Bj, w, β, v, g1, g2, h1, h2, h3, h4, h5, h6⟩ := ht
  obtain ⟨β', hβ'⟩ := h2.has.col
  obtain ⟨W2, Bj', g2', h3', h2j⟩ := h.model.params hu (i := l + 2) hk2 rfl
  rw [g2] at g2'
  obtain ⟨rfl, rfl⟩ := Prod.mk.inj (Option.some.inj g2')
  obtain ⟨γ, hγ⟩ := h2j.col
  have hββ : β' i = β' j := by
    have a1 : β' i = β i 0 0 := hβ'.same h2 hi Nat.one_pos Nat.one_pos
    have a2 : β' j = β j 0 0 := hβ'.same h2 hj Nat.one_pos Nat.one_pos
    rw [a1, a2, h5]
  obtain ⟨gw, gb, W', B', k1, k2, k3, k4⟩ := runBatch_entries hp hq hB hPrep hr' g1 h1 hβ'
  obtain ⟨gv, _, V', B'', c1, c2, c3, _⟩ := runBatch_entries hp hq hB hPrep hr' g2 h3 hγ
  refine ⟨W', B', V', B'', _, _, _, k2, c2, k3, k4, c3, fun k hk => ?_, ?_, fun a ha => ?_⟩
  · rw [h4 k hk, sumTo_congr fun b hb => ?_]
    obtain ⟨G, H, m1, m2, _⟩ := k1 b hb
    exact ((htw b hb).1 G H m1).1 _ m2 k hk
  · rw [hββ, sumTo_congr fun b hb => ?_]
    obtain ⟨G, H, m1, _, m2⟩ := k1 b hb
    exact ((htw b hb).1 G H m1).2 _ m2 0 Nat.one_pos
  · rw [h6 a ha, sumTo_congr fun b hb => ?_]
    obtain ⟨G, H, m1, m2, _⟩ := c1 b hb
    exact (htw b hb).2 G H m1 _ m2 a ha

theorem runBatches_twinUnits (hE : E.order = .dimsFirst) (hW : KindsWork true s ks) (hp : p.batch = B)
    (hq : p.threads = T) (h0 : 0 < B) (hB : B < 2 ^ 24) (hT0 : 0 < T) (hT : T < 2147483648) (hk0 : ks[l]? = some (.full m)) (hk1 : ks[l + 1]? = some (.act f))
    (hk2 : ks[l + 2]? = some (.full n)) (hi : i < m) (hj : j < m) (scheds : List (List Nat)) : ∀ {sh : Shared α}, Between B s ks labels sh → sh.model.Used →
    sh.model.TwinUnits l m ((shapeAt ks s l).X * (shapeAt ks s l).Y * (shapeAt ks s l).Z) n i j →
    (TwinSlots B l m ((shapeAt ks s l).X * (shapeAt ks s l).Y * (shapeAt ks s l).Z) n i j sh.model ∨ B ≤ sh.source.length) →
    ∀ {q : Shared α × List (Event α)}, runBatches E p scheds sh = .ok (some q) →
      q.1.model.TwinUnits l m ((shapeAt ks s l).X * (shapeAt ks s l).Y * (shapeAt ks s l).Z) n i j ∧
      (scheds ≠ [] → TwinSlots B l m ((shapeAt ks s l).X * (shapeAt ks s l).Y * (shapeAt ks s l).Z) n i j q.1.model) := by
  induction scheds with
  | nil =>
    intro sh h hu ht _ q hq
    obtain rfl := Option.some.inj (Res.ok.inj hq)
    exact ⟨ht, fun h => absurd rfl h⟩
  | cons c' cs ih =>
    intro sh h hu ht hs q hq'
    obtain ⟨o, eo, ho⟩ := runBatch_shaped hE hW hp hq h0 hB hT0 hT h c'
    unfold runBatches at hq'
    rw [eo, Res.bind_ok] at hq'
    cases o with
    | none => exact absurd (Res.ok.inj hq') (by simp)
    | some r =>
      obtain ⟨h1, h2, h3⟩ := ho r rfl
      obtain ⟨b1, b2⟩ := runBatch_twinUnits hE hW hp hq h0 hB hT0 hT hk0 hk1 hk2 hi hj h hu ht hs eo
      dsimp only at hq'
      obtain ⟨o', e', hq'⟩ := Res.bind_eq_ok hq'
      cases o' with
      | none => exact absurd (Res.ok.inj hq') (by simp)
      | some q1 =>
        obtain rfl := Option.some.inj (Res.ok.inj hq')
        obtain ⟨c1, c2⟩ := ih (sh := r.1) ⟨h1, h3, Or.inl h2⟩ (Full.used h0 h1 h2) b2 (Or.inl b1) e'
        refine ⟨c1, fun _ => ?_⟩
        cases cs with
        | nil =>
          obtain rfl := Option.some.inj (Res.ok.inj e')
          exact b1
        | cons _ _ => exact c2 (by simp)

theorem epochs_twinUnits (hE : E.order = .dimsFirst) (hW : KindsWork true s ks) (hp : p.batch = B)
    (hq : p.threads = T) (h0 : 0 < B) (hB : B < 2 ^ 24) (hT0 : 0 < T) (hT : T < 2147483648) (hk0 : ks[l]? = some (.full m)) (hk1 : ks[l + 1]? = some (.act f))
    (hk2 : ks[l + 2]? = some (.full n)) (hi : i < m) (hj : j < m)
    {size : Nat} (hs0 : 0 < size) (hsz : size < 2 ^ 24) (epochs : List (List (List Nat) × List (Sample α))) :
    ∀ {M M' : Model α}, M.Shaped B s ks labels → M.Used → (∀ e ∈ epochs, ∀ x ∈ e.2, x.Fits s labels) →
    M.TwinUnits l m ((shapeAt ks s l).X * (shapeAt ks s l).Y * (shapeAt ks s l).Z) n i j →
    (Full B s ks M ∧ TwinSlots B l m ((shapeAt ks s l).X * (shapeAt ks s l).Y * (shapeAt ks s l).Z) n i j M ∨ ∀ e ∈ epochs.head?, B ≤ e.2.length) →
    epochs.foldlM (epochStep E p size) (some M) = .ok (some M') → M'.TwinUnits l m ((shapeAt ks s l).X * (shapeAt ks s l).Y * (shapeAt ks s l).Z) n i j := by
  induction epochs with
  | nil =>
    intro M M' h hu _ ht _ hM'
    obtain rfl := Option.some.inj (Res.ok.inj hM')
    exact ht
  | cons ep es ih =>
    intro M M' h hu hx ht hf hM'
    have hb : Between B s ks labels (⟨M, ep.2, 0⟩ : Shared α) := ⟨h, hx ep (by simp), hf.imp And.left (fun h => h ep (by simp))⟩
    obtain ⟨o, eo, ho⟩ := runEpoch_shaped hE hW hp hq h0 hB hT0 hT hs0 hsz ep.1 hb
    rw [List.foldlM_cons] at hM'
    unfold epochStep at hM'
    dsimp only at hM'
    rw [eo, Res.bind_ok, Res.bind_ok] at hM'
    cases o with
    | none =>
      have := train_none E p size es
      unfold epochStep at this
      rw [Option.map_none, this] at hM'
      exact absurd (Res.ok.inj hM') (by simp)
    | some r =>
      rw [runEpoch_if hp hq h0 hB hT0 hsz] at eo
      by_cases hl : ep.1.length = (size + B - 1) / B
      · rw [if_pos hl] at eo
        have hne : ep.1 ≠ [] := by
          intro hnil
          have := ceilDiv_pos hs0 h0
          rw [hnil] at hl
          simp at hl
          omega
        obtain ⟨b1, b2⟩ := runBatches_twinUnits hE hW hp hq h0 hB hT0 hT hk0 hk1 hk2 hi hj ep.1 (sh := ⟨M, ep.2, 0⟩) hb hu ht
          (hf.imp And.right (fun h => h ep (by simp))) eo
        obtain ⟨h1, h2⟩ := ho r rfl
        exact ih h1 (Full.used h0 h1 h2) (fun e he => hx e (by simp [he])) b1 (Or.inl ⟨h2, b2 hne⟩) hM'
      · rw [if_neg hl] at eo
        exact absurd (Res.ok.inj eo) (by simp)

end Train

end
end Cnn
