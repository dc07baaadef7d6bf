import Verif.Lemmas.NaNBody
import Verif.Lemmas.BatchAny
/-! Helper lemmas: NaNs in a pass over the layers, and in the update after it (C97). -/
set_option linter.unusedSectionVars false
namespace Cnn
variable {α : Type} {nan : α → Prop}

theorem foldlM_reverse_inv {σ : Type} (P : Nat → σ → Prop) (N : Nat) (body : σ → Nat → Res σ) : ∀ (s : σ), P N s →
    (∀ n < N, ∀ s, P (n + 1) s → ∃ s', body s n = .ok s' ∧ P n s') → ∃ s', (List.range N).reverse.foldlM body s = .ok s' ∧ P 0 s' := by
  induction N with
  | zero => intro s h _; exact ⟨s, rfl, h⟩
  | succ N ih =>
    intro s h hs
    obtain ⟨s1, e1, h1⟩ := hs N (by omega) s h
    obtain ⟨s2, e2, h2⟩ := ih s1 h1 (fun n hn => hs n (by omega))
    refine ⟨s2, ?_, h2⟩
    rw [List.range_succ, List.reverse_append, List.reverse_singleton, List.singleton_append, List.foldlM_cons, e1, Res.bind_ok, e2]

theorem unpooled_drop {ks : List LayerKind} {i : Nat} {k : LayerKind} (h : ks[i]? = some k) :
    unpooled (ks.drop i) = k.passes (unpooled (ks.drop (i + 1))) := by
  rw [List.drop_eq_getElem?_toList_append, h]
  cases k <;> rfl

theorem Model.stored_bodyAt (M : Model α) (i b : Nat) : M.stored i b = (M.bodyAt i).bind (fun y => y.stored b) := by
  unfold Model.stored Model.bodyAt
  cases M.layers[i]? <;> rfl

theorem Model.params_bodyAt (M : Model α) (i : Nat) : M.params i = (M.bodyAt i).bind (fun y => y.params) := by
  unfold Model.params Model.bodyAt
  cases M.layers[i]? <;> rfl

theorem SpoiltPair.ruined {s : Shape} {rest : List LayerKind} {W B : Matrix α} {k : LayerKind} (h : SpoiltPair nan (unpooled rest) s W B k) :
    Ruined nan s rest W B k := by
  cases k <;> exact h

theorem Matrix.Shows.same {M : Matrix α} {X Y Z : Nat} {f g : Nat → Nat → Nat → α} (h : M.Shows X Y Z f) (h' : M.Shows X Y Z g) {i j k : Nat} (hi : i < X)
    (hj : j < Y) (hk : k < Z) : f i j k = g i j k :=
  Res.ok.inj ((h.entry i hi j hj k hk).symm.trans (h'.entry i hi j hj k hk))

/-- The shape of a matrix is determined. -/
theorem Matrix.Shows.shape {M : Matrix α} {X Y Z X' Y' Z' : Nat} {f g : Nat → Nat → Nat → α} (h : M.Shows X Y Z f) (h' : M.Shows X' Y' Z' g) :
    X = X' ∧ Y = Y' ∧ Z = Z' := by
  have := h.dim.symm.trans h'.dim
  simp only [dimN, Dim3.mk.injEq] at this
  omega

theorem Matrix.StillNaN.refl {W : Matrix α} {s : Shape} (h : W.Has s) : W.StillNaN nan W := by
  obtain ⟨f, h⟩ := h
  exact ⟨_, _, _, f, f, h, h, fun _ _ _ _ _ _ h => h⟩

theorem Matrix.StillNaN.trans {U V W : Matrix α} (h : U.StillNaN nan V) (h' : V.StillNaN nan W) : U.StillNaN nan W := by
  obtain ⟨X, Y, Z, u, v, hu, hv, h⟩ := h
  obtain ⟨X', Y', Z', v', w, hv', hw, h'⟩ := h'
  obtain ⟨rfl, rfl, rfl⟩ := hv.shape hv'
  refine ⟨_, _, _, u, w, hu, hw, fun i hi j hj k hk hn => h' i hi j hj k hk ?_⟩
  rw [hv'.same hv hi hj hk]
  exact h i hi j hj k hk hn

theorem Matrix.StillNaN.lost {W W' : Matrix α} {s : Shape} (h : W.StillNaN nan W') (hW : W.Lost nan s) : W'.Lost nan s := by
  obtain ⟨X, Y, Z, w, w', hw, hw', h⟩ := h
  obtain ⟨f, hf, hn⟩ := hW
  obtain ⟨rfl, rfl, rfl⟩ := hw.shape hf
  exact ⟨w', hw', fun i hi j hj k hk => h i hi j hj k hk (by rw [hw.same hf hi hj hk]; exact hn i hi j hj k hk)⟩

theorem Matrix.StillNaN.hurt {W W' : Matrix α} {s : Shape} (h : W.StillNaN nan W') (hW : W.Hurt nan s) : W'.Hurt nan s := by
  obtain ⟨X, Y, Z, w, w', hw, hw', h⟩ := h
  obtain ⟨f, hf, i, hi, j, hj, k, hk, hn⟩ := hW
  obtain ⟨rfl, rfl, rfl⟩ := hw.shape hf
  exact ⟨w', hw', i, hi, j, hj, k, hk, h i hi j hj k hk (by rw [hw.same hf hi hj hk]; exact hn)⟩

theorem Ruined.still {s : Shape} {rest : List LayerKind} {W B W' B' : Matrix α} {k : LayerKind} (h : Ruined nan s rest W B k) (hW : W.StillNaN nan W')
    (hB : B.StillNaN nan B') : Ruined nan s rest W' B' k := by
  cases k with
  | conv => exact ⟨hW.lost h.1, hB.lost h.2⟩
  | full n =>
    refine ⟨?_, fun hu => ⟨hW.lost (h.2 hu).1, hB.lost (h.2 hu).2⟩⟩
    obtain ⟨r, hr, ⟨w, hw, hnw⟩, ⟨β, hβ, hnβ⟩⟩ := h.1
    refine ⟨r, hr, ?_, ?_⟩
    · obtain ⟨X, Y, Z, v, v', hv, hv', h⟩ := hW
      obtain ⟨rfl, rfl, rfl⟩ := hv.shape hw
      exact ⟨v', hv', fun j hj => h r hr j hj 0 Nat.one_pos (by rw [hv.same hw hr hj Nat.one_pos]; exact hnw j hj)⟩
    · obtain ⟨X, Y, Z, v, v', hv, hv', h⟩ := hB
      obtain ⟨rfl, rfl, rfl⟩ := hv.shape hβ
      exact ⟨v', hv', h r hr 0 Nat.one_pos 0 Nat.one_pos (by rw [hv.same hβ hr Nat.one_pos Nat.one_pos]; exact hnβ)⟩
  | pool => trivial
  | act => trivial

/-- The shapes of the weights and biases of a layer. -/
def LayerKind.wShape (s : Shape) : LayerKind → Shape
  | .conv p q C F => ⟨p, q, C * F⟩
  | .full n => ⟨n, s.X * s.Y * s.Z, 1⟩
  | _ => s

def LayerKind.bSize : LayerKind → Nat
  | .conv _ _ _ F => F
  | .full n => n
  | _ => 0

theorem Body.Shaped.params {B : Nat} {first : Bool} {s : Shape} {k : LayerKind} {b : Body α} (h : b.Shaped B first s k) (hl : k.learns = true)
    (hu : ∀ L, b = .connected L → L.initialized = true) :
    ∃ W Bi, b.params = some (W, Bi) ∧ W.Has (k.wShape s) ∧ Bi.Has ⟨k.bSize, 1, 1⟩ := by
  match b, k, h with
  | .kernel K, .conv p q C F, ⟨⟨w, β, hK⟩, _, _⟩ => exact ⟨_, _, rfl, hK.weights.has, hK.biases.has⟩
  | .connected L, .full n, ⟨h0, _, _⟩ =>
    have hinit : L.initialized = true := hu L rfl
    obtain ⟨w, β, hL, hi⟩ := h0.resolve_right (by rintro ⟨h, _⟩; rw [hinit] at h; exact absurd h (by simp))
    exact ⟨_, _, rfl, hL.weights.has, hL.biases.has⟩
  | .pooling _, .pool .., _ => simp [LayerKind.learns] at hl
  | .activation _, .act _, _ => simp [LayerKind.learns] at hl

theorem Body.Filled.stored {b : Nat} {s : Shape} {k : LayerKind} {B : Nat} {first : Bool} {y : Body α} (hS : y.Shaped B first s k) (h : y.Filled b s k) {g g' : Matrix α}
    (hg : y.stored b = some (g, g')) : g.Has (k.wShape s) ∧ g'.Has ⟨k.bSize, 1, 1⟩ := by
  match y, k, hS with
  | .kernel K, .conv p q C F, _ =>
    simp only [Body.stored, Option.bind_eq_some_iff, Option.map_eq_some_iff, Prod.mk.injEq] at hg
    obtain ⟨_, h1, _, h2, rfl, rfl⟩ := hg
    exact ⟨h.1 _ h1, h.2 _ h2⟩
  | .connected L, .full n, _ =>
    simp only [Body.stored, Option.bind_eq_some_iff, Option.map_eq_some_iff, Prod.mk.injEq] at hg
    obtain ⟨_, h1, _, h2, rfl, rfl⟩ := hg
    exact ⟨h.1 _ h1, h.2 _ h2⟩
  | .pooling _, .pool .., _ => simp [Body.stored] at hg
  | .activation _, .act _, _ => simp [Body.stored] at hg

section
variable [Zero α] [One α] [Add α] [Sub α] [Mul α] [Div α] [Neg α] {E : Env α} (A : Absorbs E nan)
include A

/-- The update: NaNs stay, and NaN gradients give NaN parameters. -/
theorem applyGrads_nan {lr : α} {W Bi W' Bi' : Matrix α} {s : Shape} {k : LayerKind} (hW : W.Has (k.wShape s)) (hB : Bi.Has ⟨k.bSize, 1, 1⟩)
    {gs : List (Matrix α × Matrix α)} (hg : ∀ g ∈ gs, g.1.Has (k.wShape s) ∧ g.2.Has ⟨k.bSize, 1, 1⟩)
    (h : applyGrads E.num lr W Bi (gs.map (·.1)) (gs.map (·.2)) = .ok (W', Bi')) :
    W.StillNaN nan W' ∧ Bi.StillNaN nan Bi' ∧ ∀ t, (∃ g ∈ gs, SpoiltPair nan t s g.1 g.2 k) → SpoiltPair nan t s W' Bi' k := by
  obtain ⟨w, hW⟩ := hW
  obtain ⟨β, hB⟩ := hB.col
  have h1 : ∀ q : Nat, ∃ f : Nat → Nat → Nat → α, ∀ g, gs[q]? = some g → g.1.Shows (k.wShape s).X (k.wShape s).Y (k.wShape s).Z f := by
    intro q
    cases hq : gs[q]? with
    | none => exact ⟨fun _ _ _ => 0, by simp⟩
    | some g =>
      obtain ⟨f, hf⟩ := (hg g (List.mem_of_getElem? hq)).1
      exact ⟨f, fun g' hg' => by obtain rfl := Option.some.inj hg'; exact hf⟩
  have h2 : ∀ q : Nat, ∃ f : Nat → α, ∀ g, gs[q]? = some g → g.2.Shows k.bSize 1 1 (fun i _ _ => f i) := by
    intro q
    cases hq : gs[q]? with
    | none => exact ⟨fun _ => 0, by simp⟩
    | some g =>
      obtain ⟨f, hf⟩ := (hg g (List.mem_of_getElem? hq)).2.col
      exact ⟨f, fun g' hg' => by obtain rfl := Option.some.inj hg'; exact hf⟩
  choose Gw hGw using h1
  choose Gb hGb using h2
  obtain ⟨W2, B2, e, s1, s2⟩ := applyGrads_shows E.num lr hW hB (gs.map (·.1)) (gs.map (·.2)) Gw Gb (n := gs.length) (by simp) (by simp)
    (by
      intro i M hM
      simp only [List.getElem?_map, Option.map_eq_some_iff] at hM
      obtain ⟨g, hg, rfl⟩ := hM
      exact hGw i g hg)
    (by
      intro i M hM
      simp only [List.getElem?_map, Option.map_eq_some_iff] at hM
      obtain ⟨g, hg, rfl⟩ := hM
      exact hGb i g hg)
  rw [h] at e
  obtain ⟨rfl, rfl⟩ := Prod.mk.inj (Res.ok.inj e)
  have upd : ∀ (x : α) (t : Nat → α) (q : Nat), q < gs.length → nan (t q) → nan (x - lr * (sumTo gs.length t / E.num.ofNat gs.length)) :=
    fun x t q hq hn => A.sub_right _ _ (A.mul_right _ _ (A.div_left _ _ (A.sumTo hq hn)))
  refine ⟨⟨_, _, _, _, _, hW, s1, fun i _ j _ k _ hn => A.sub_left _ _ hn⟩, ⟨_, _, _, _, _, hB, s2, fun i _ j _ k _ hn => A.sub_left _ _ hn⟩, ?_⟩
  rintro t ⟨g, hmem, hsp⟩
  obtain ⟨q, hq⟩ := List.mem_iff_getElem?.1 hmem
  have hql := (List.getElem?_eq_some_iff.1 hq).1
  have g1 := hGw q g hq
  have g2 := hGb q g hq
  match k, hsp with
  | .conv a b C F, ⟨⟨f1, k1, n1⟩, ⟨f2, k2, n2⟩⟩ =>
    refine ⟨⟨_, s1, fun i hi j hj k hk => ?_⟩, ⟨_, s2, fun i hi j hj k hk => ?_⟩⟩
    · refine upd _ _ q hql ?_
      rw [g1.same k1 hi hj hk]
      exact n1 i hi j hj k hk
    · refine upd _ _ q hql ?_
      have := g2.same k2 hi hj hk
      rw [this]
      exact n2 i hi j hj k hk
  | .full n, ⟨⟨r, hr, ⟨f1, k1, n1⟩, ⟨f2, k2, n2⟩⟩, hall⟩ =>
    refine ⟨⟨r, hr, ⟨_, s1, fun j hj => ?_⟩, ⟨_, s2, ?_⟩⟩, fun ht => ?_⟩
    · refine upd _ _ q hql ?_
      rw [g1.same k1 hr hj Nat.one_pos]
      exact n1 j hj
    · refine upd _ _ q hql ?_
      have := g2.same k2 hr Nat.one_pos Nat.one_pos
      rw [this]
      exact n2
    · obtain ⟨⟨f1, k1, n1⟩, ⟨f2, k2, n2⟩⟩ := hall ht
      refine ⟨⟨_, s1, fun i hi j hj k hk => ?_⟩, ⟨_, s2, fun i hi j hj k hk => ?_⟩⟩
      · refine upd _ _ q hql ?_
        rw [g1.same k1 hi hj hk]
        exact n1 i hi j hj k hk
      · refine upd _ _ q hql ?_
        have := g2.same k2 hi hj hk
        rw [this]
        exact n2 i hi j hj k hk
  | .pool .., _ => trivial
  | .act _, _ => trivial

namespace Model
variable {B : Nat} {s : Shape} {ks : List LayerKind} {labels : List (List Char)} {M : Model α}

theorem backwardStep_nan (hE : E.order = .dimsFirst) (h : M.Shaped B s ks labels) (hW : KindsWork true s ks) {b : Nat} (hb : b < B) {i : Nat}
    (hi : i < ks.length) {r : Results α} (hR : Records s ks r.inputs (ks.length + 1)) {d : Matrix α}
    (hd : d.Bad nan (unpooled (ks.drop (i + 1))) (shapeAt ks s (i + 1))) (hr : ReadyTo s ks M b (ks.length + 1)) :
    ∃ d' body', backwardStep E r b (d, M) i = .ok (d', M.setBody i body') ∧ (0 < i → d'.Bad nan (unpooled (ks.drop i)) (shapeAt ks s i)) ∧
      ∀ k W Bi, ks[i]? = some k → body'.stored b = some (W, Bi) → SpoiltPair nan (unpooled (ks.drop (i + 1))) (shapeAt ks s i) W Bi k := by
  obtain ⟨A1, X, e1, e2, hX⟩ := recordAt_shaped hR (show i ≤ ks.length + 1 by omega)
  obtain ⟨C, Z, e3, e4, hZ⟩ := recordAt_shaped hR (show i + 1 ≤ ks.length + 1 by omega)
  obtain ⟨L, k, hL, hbody, hk⟩ := h.get hi
  rw [shapeAt_succ hk] at hd hZ
  obtain ⟨D', body', e5, hD', hs'⟩ := Body.backward_nan A hX (by simpa using hW.at hk) hZ hd hb (h.layers i _ k hbody hk)
    (hr i _ k (by omega) hbody hk)
  refine ⟨D', body', ?_, fun h0 => ?_, fun k' W Bi hk' hst => ?_⟩
  · unfold backwardStep
    dsimp only
    rw [e1, Res.bind_ok, e3, Res.bind_ok, hL]
    show (Res.ok L >>= fun l => _ : Res _) = _
    rw [Res.bind_ok, e2, Res.bind_ok, e4, Res.bind_ok, hE, e5, Res.bind_ok]
  · rw [unpooled_drop hk]
    exact hD' (by simp; omega)
  · rw [hk] at hk'
    obtain rfl := Option.some.inj hk'
    exact hs' W Bi hst

theorem backwardLast_nan (h : M.Shaped B s ks labels) {b : Nat} {r : Results α} (hR : Records s ks r.inputs (ks.length + 1)) {d : Matrix α}
    {P : Matrix α} (hP : r.inputs.getLast? = some P) (hn : P.Lost nan (kindsOut ks s)) (ht : Told ks M) :
    ∃ d' body, backwardStep E r b (d, M) ks.length = .ok (d', M.setBody ks.length body) ∧ d'.Lost nan (shapeAt ks s ks.length) := by
  obtain ⟨A1, X, e1, e2, hX⟩ := recordAt_shaped hR (show ks.length ≤ ks.length + 1 by omega)
  obtain ⟨Z, e4, hZ⟩ := Matrix.ofExpr_lost hn (c := (id : α → α)) (fun _ h => h)
  have e3 : recordAt r (ks.length + 1) = .ok P := by
    unfold recordAt
    rw [List.getLast?_eq_getElem?, hR.1] at hP
    rw [show ks.length + 1 + 1 - 1 = ks.length + 1 by omega] at hP
    rw [hP]
  obtain ⟨L, S, hL, hbody, hLS, hc⟩ := h.getLast
  obtain ⟨S', h1, h2, h3⟩ := ht
  rw [hbody] at h1
  obtain rfl : S = S' := by simpa using h1
  have hs : kindsOut ks s = ⟨S.count, 1, 1⟩ ∨ kindsOut ks s = ⟨1, S.count, 1⟩ := by rw [hc]; exact h.output
  obtain ⟨D', e5, hD'⟩ := Softmax.backward_nan A (X := X) (D := d) hZ hs h2 h3
  refine ⟨D', .softmax S, ?_, by rw [shapeAt_end (le_refl _)]; exact hD'⟩
  unfold backwardStep
  dsimp only
  rw [e1, Res.bind_ok, e3, Res.bind_ok, hL]
  show (Res.ok L >>= fun l => _ : Res _) = _
  rw [Res.bind_ok, e2, Res.bind_ok, e4, Res.bind_ok, hLS]
  show ((S.backward X Z d >>= fun D => Res.ok (D, Body.softmax S)) >>= fun r => _ : Res _) = _
  rw [e5, Res.bind_ok, Res.bind_ok]

end Model

/-- A sample with NaN probabilities leaves NaN gradients. -/
theorem alone_nan (hE : E.order = .dimsFirst) {M : Model α} {s : Shape} {ks : List LayerKind} (hM : M.Runs s ks) (hW : KindsWork true s ks) {x : Sample α}
    (hx : x.Fits s M.labels) (hn : (M.setBatchSize 1).AnswersNaN nan E x.data 0) :
    ∃ m, alone E M x = .ok m ∧ ∀ i k W Bi, ks[i]? = some k → m.stored i 0 = some (W, Bi) → SpoiltPair nan (unpooled (ks.drop (i + 1))) (shapeAt ks s i) W Bi k := by
  have h := Model.setBatchSize_shaped (B := 1) hM
  obtain ⟨r0, M0', P, v, ef, eP, hP, hnP⟩ := hn
  obtain ⟨A0, rec0, e0, hA0, hR0⟩ := Model.forwardBegin_shaped (ks := ks) E hx.1
  obtain ⟨st, e1, hA, hR, hS, hrd⟩ := foldlM_range_inv
    (fun n (st : (Matrix α × List (Matrix α)) × Model α) => st.1.1.Has (shapeAt ks s n) ∧ Model.Records s ks st.1.2 n ∧ st.2.Shaped 1 s ks M.labels ∧
      Model.ReadyTo s ks st.2 0 n)
    (ks.length + 1) (Model.forwardStep E 0) ((A0, rec0), M.setBatchSize 1) ⟨hA0, hR0, h, fun j _ _ hj => absurd hj (by omega)⟩ (by
      rintro n hn ⟨⟨A, rec⟩, M1⟩ ⟨h1, h2, h3, h4⟩
      obtain ⟨A', rec', M', e, g1, g2, g3, g4, g5⟩ := Model.forwardStep_shaped E h3 hW Nat.one_pos hn h1 h2
      exact ⟨_, e, g1, g2, g3, g5 h4⟩)
  rw [shapeAt_end (Nat.le_succ _)] at hA
  have hl := hS.labelled
  obtain ⟨r, e2, hr, hi⟩ := Model.forwardEnd_has E st.2 hA (by rw [hl]; exact h.output) st.1.2
  have ef' : (M.setBatchSize 1).forwardPropagation E x.data 0 = .ok (r, st.2) := by
    unfold Model.forwardPropagation
    rw [e0, Res.bind_ok, h.count, e1, Res.bind_ok, e2, Res.bind_ok]
  rw [ef'] at ef
  obtain ⟨rfl, rfl⟩ := Prod.mk.inj (Res.ok.inj ef)
  have hRr : Model.Records s ks r.inputs (ks.length + 1) := by rw [hr]; exact hR
  obtain ⟨r', M1, eb, hin, hS1, hK1, hT1⟩ := Model.backwardBegin_shaped E hS hRr hx.2
  rw [← hin] at hRr eP
  have hlost : P.Lost nan (kindsOut ks s) := by
    obtain ⟨Q, hQ, hQs⟩ := hRr.at (le_refl _)
    rw [List.getLast?_eq_getElem?, hRr.1] at eP
    have : P = Q := by
      have := eP.symm.trans hQ
      exact Option.some.inj this
    subst this
    rw [shapeAt_end (Nat.le_succ _)] at hQs
    obtain ⟨f, hf⟩ := hQs
    refine ⟨f, hf, fun i hi j hj k hk => ?_⟩
    have hlab : (M.setBatchSize 1).labels.length = M.labels.length := rfl
    rw [hlab] at hP hnP
    rcases hP with hP | hP
    · obtain ⟨a1, a2, a3⟩ := hf.shape hP
      rw [hf.same (g := fun _ j _ => v j) (by rw [a1, a2, a3]; exact hP) hi hj hk]
      exact hnP j (by omega)
    · obtain ⟨a1, a2, a3⟩ := hf.shape hP
      rw [hf.same (g := fun i _ _ => v i) (by rw [a1, a2, a3]; exact hP) hi hj hk]
      exact hnP i (by omega)
  have hrd1 := hK1.ready 0 _ hrd
  let Inv : Nat → Matrix α × Model α → Prop := fun n st => st.2.Shaped 1 s ks M.labels ∧ Model.ReadyTo s ks st.2 0 (ks.length + 1) ∧
    (0 < n → st.1.Bad nan (unpooled (ks.drop n)) (shapeAt ks s n)) ∧
    (∀ i k W Bi, n ≤ i → ks[i]? = some k → st.2.stored i 0 = some (W, Bi) → SpoiltPair nan (unpooled (ks.drop (i + 1))) (shapeAt ks s i) W Bi k) ∧ Model.Told ks st.2
  have hlast : ∃ st0, Model.backwardStep E r' 0 (Matrix.empty, M1) ks.length = .ok st0 ∧ Inv ks.length st0 := by
    obtain ⟨d', body, e5, hd'⟩ := Model.backwardLast_nan A (b := 0) (d := Matrix.empty) hS1 hRr eP hlost hT1
    obtain ⟨d2, M2, e6, _, g2, g3, _⟩ := Model.backwardStep_shaped E hE hS1 hW Nat.one_pos (i := ks.length) (by omega) hRr (d := Matrix.empty)
      (fun h => absurd h (by omega)) hrd1 hT1
    rw [e5] at e6
    obtain ⟨rfl, rfl⟩ := Prod.mk.inj (Res.ok.inj e6)
    refine ⟨_, e5, g2, g3.ready 0 _ hrd1, fun _ => ?_, ?_, g3.told hT1⟩
    · simp only [List.drop_length]
      exact hd'
    · intro i k W Bi hi hk
      have := (List.getElem?_eq_some_iff.1 hk).1
      omega
  obtain ⟨st0, el, hI0⟩ := hlast
  obtain ⟨st1, e7, g1, g2, g3, g4, g5⟩ := foldlM_reverse_inv Inv ks.length (Model.backwardStep E r' 0) st0 hI0 (by
    rintro n hn ⟨d, M2⟩ ⟨k1, k2, k3, k4, k5⟩
    obtain ⟨d', body', e8, q1, q2⟩ := Model.backwardStep_nan A hE k1 hW Nat.one_pos hn hRr (k3 (by omega)) k2
    obtain ⟨L, k, hL, hbody, hk⟩ := k1.get hn
    obtain ⟨d2, M3, e9, _, w2, w3, _⟩ := Model.backwardStep_shaped E hE k1 hW Nat.one_pos (i := n) (by omega) hRr (d := d)
      (fun _ => (k3 (by omega)).weak.has) k2 k5
    rw [e8] at e9
    obtain ⟨rfl, rfl⟩ := Prod.mk.inj (Res.ok.inj e9)
    refine ⟨_, e8, w2, w3.ready 0 _ k2, q1, ?_, w3.told k5⟩
    intro i k' W Bi hi hk' hst
    rw [Model.stored_bodyAt, Model.setBody_bodyAt] at hst
    by_cases hni : n = i
    · subst hni
      rw [if_pos rfl, hbody] at hst
      exact q2 k' W Bi hk' hst
    · rw [if_neg hni, ← Model.stored_bodyAt] at hst
      exact k4 i k' W Bi (by omega) hk' hst)
  refine ⟨st1.2, ?_, fun i k W Bi => g4 i k W Bi (Nat.zero_le _)⟩
  unfold alone
  rw [ef', Res.bind_ok]
  unfold Model.backwardsPropagation
  rw [eb, Res.bind_ok, hS.count, List.range_succ, List.reverse_append, List.reverse_singleton, List.singleton_append, List.foldlM_cons, el, Res.bind_ok, e7]
  rfl

end
end Cnn
