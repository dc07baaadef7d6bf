import Verif.Lemmas.ShapeBody
import Verif.Lemmas.FreshRun
/-! Helper lemmas: sizes through the steps of a pass over the layers (C70). -/
set_option linter.unusedSectionVars false
namespace Cnn

/-- The shape of the input of layer `i`. -/
def shapeAt (ks : List LayerKind) (s : Shape) (i : Nat) : Shape := kindsOut (ks.take i) s

theorem kindsOut_append (ks ls : List LayerKind) (s : Shape) : kindsOut (ks ++ ls) s = kindsOut ls (kindsOut ks s) := by
  induction ks generalizing s with
  | nil => rfl
  | cons k ks ih => exact ih _

theorem shapeAt_succ {ks : List LayerKind} {s : Shape} {i : Nat} {k : LayerKind} (h : ks[i]? = some k) :
    shapeAt ks s (i + 1) = k.out (shapeAt ks s i) := by
  unfold shapeAt
  rw [List.take_add_one, h, kindsOut_append]
  rfl

theorem shapeAt_end {ks : List LayerKind} {s : Shape} {i : Nat} (h : ks.length ≤ i) : shapeAt ks s i = kindsOut ks s := by
  unfold shapeAt
  rw [List.take_of_length_le h]

theorem KindsWork.at {first : Bool} {s : Shape} {ks : List LayerKind} (h : KindsWork first s ks) {i : Nat} {k : LayerKind} (hk : ks[i]? = some k) :
    k.Works (first && decide (i = 0)) (shapeAt ks s i) := by
  induction ks generalizing first s i with
  | nil => simp at hk
  | cons a ks ih =>
    cases i with
    | zero =>
      obtain rfl : a = k := by simpa using hk
      simpa [shapeAt, kindsOut] using h.1
    | succ i =>
      have := ih h.2 (by simpa using hk)
      simpa [shapeAt, kindsOut] using this

namespace Model
variable {α : Type}

/-- `Runs` in training with `B` batch slots. -/
structure Shaped (B : Nat) (s : Shape) (ks : List LayerKind) (labels : List (List Char)) (M : Model α) : Prop where
  count : M.layers.length = ks.length + 1
  layers : ∀ (i : Nat) (b : Body α) (k : LayerKind), M.bodyAt i = some b → ks[i]? = some k → b.Shaped B (decide (i = 0)) (shapeAt ks s i) k
  last : ∃ S : Softmax, M.bodyAt ks.length = some (.softmax S) ∧ S.count = labels.length
  labelled : M.labels = labels
  output : kindsOut ks s = ⟨labels.length, 1, 1⟩ ∨ kindsOut ks s = ⟨1, labels.length, 1⟩

/-- The first `n` layers have processed an input in slot `b`. -/
def ReadyTo (s : Shape) (ks : List LayerKind) (M : Model α) (b n : Nat) : Prop :=
  ∀ (j : Nat) (y : Body α) (k : LayerKind), j < n → M.bodyAt j = some y → ks[j]? = some k → y.Seen b (shapeAt ks s j) k

/-- The layers from `n` on have stored gradients in slot `b`. -/
def FilledFrom (s : Shape) (ks : List LayerKind) (M : Model α) (b n : Nat) : Prop :=
  ∀ (j : Nat) (y : Body α) (k : LayerKind), n ≤ j → M.bodyAt j = some y → ks[j]? = some k → y.Filled b (shapeAt ks s j) k

/-- The output layer has been told a label. -/
def Told (ks : List LayerKind) (M : Model α) : Prop :=
  ∃ S : Softmax, M.bodyAt ks.length = some (.softmax S) ∧ S.knows = true ∧ S.trueLabel < S.count

structure Keeps (s : Shape) (ks : List LayerKind) (M M' : Model α) : Prop where
  ready : ∀ b n, ReadyTo s ks M b n → ReadyTo s ks M' b n
  filled : ∀ b n, FilledFrom s ks M b n → FilledFrom s ks M' b n
  told : Told ks M → Told ks M'

theorem Keeps.refl (s : Shape) (ks : List LayerKind) (M : Model α) : Keeps s ks M M := ⟨fun _ _ h => h, fun _ _ h => h, id⟩

theorem Keeps.trans {s : Shape} {ks : List LayerKind} {M M' M'' : Model α} (h : Keeps s ks M M') (h' : Keeps s ks M' M'') : Keeps s ks M M'' :=
  ⟨fun b n x => h'.ready b n (h.ready b n x), fun b n x => h'.filled b n (h.filled b n x), fun x => h'.told (h.told x)⟩

variable {B : Nat} {s : Shape} {ks : List LayerKind} {labels : List (List Char)} {M : Model α}

theorem Shaped.get (h : M.Shaped B s ks labels) {i : Nat} (hi : i < ks.length) :
    ∃ (L : Layer α) (k : LayerKind), M.layers[i]? = some L ∧ M.bodyAt i = some L.body ∧ ks[i]? = some k := by
  have : i < M.layers.length := by rw [h.count]; omega
  refine ⟨M.layers[i], ks[i], List.getElem?_eq_getElem this, ?_, List.getElem?_eq_getElem hi⟩
  unfold bodyAt
  rw [List.getElem?_eq_getElem this]; rfl

theorem Shaped.getLast (h : M.Shaped B s ks labels) :
    ∃ (L : Layer α) (S : Softmax), M.layers[ks.length]? = some L ∧ M.bodyAt ks.length = some (.softmax S) ∧ L.body = .softmax S ∧ S.count = labels.length := by
  obtain ⟨S, h1, h2⟩ := h.last
  have h3 := h1
  unfold bodyAt at h3
  obtain ⟨L, hL, h3⟩ := Option.map_eq_some_iff.1 h3
  exact ⟨L, S, hL, h1, h3, h2⟩

theorem setBody_labels (M : Model α) (i : Nat) (b : Body α) : (M.setBody i b).labels = M.labels := rfl

theorem Shaped.setBody (h : M.Shaped B s ks labels) {i : Nat} {b0 b : Body α} {k : LayerKind} (h0 : M.bodyAt i = some b0) (hk : ks[i]? = some k)
    (hb : b.Shaped B (decide (i = 0)) (shapeAt ks s i) k) (hkeep : Body.Keeps (shapeAt ks s i) k b0 b) :
    (M.setBody i b).Shaped B s ks labels ∧ Keeps s ks M (M.setBody i b) := by
  have hi : i < ks.length := (List.getElem?_eq_some_iff.1 hk).1
  have hne : i ≠ ks.length := by omega
  refine ⟨⟨by rw [setBody_length]; exact h.count, ?_, ?_, h.labelled, h.output⟩, ?_, ?_, ?_⟩
  · intro j y k' hy hk'
    rw [setBody_bodyAt] at hy
    split_ifs at hy with hj
    · subst hj
      rw [h0] at hy
      obtain rfl : b = y := by simpa using hy
      rw [hk] at hk'
      obtain rfl := Option.some.inj hk'
      exact hb
    · exact h.layers j y k' hy hk'
  · obtain ⟨S, h1, h2⟩ := h.last
    refine ⟨S, ?_, h2⟩
    rw [setBody_bodyAt, if_neg hne, h1]
  · intro c n hr j y k' hj hy hk'
    rw [setBody_bodyAt] at hy
    split_ifs at hy with hji
    · subst hji
      rw [h0] at hy
      obtain rfl : b = y := by simpa using hy
      rw [hk] at hk'
      obtain rfl := Option.some.inj hk'
      exact hkeep.seen c (hr _ b0 _ hj h0 hk)
    · exact hr j y k' hj hy hk'
  · intro c n hr j y k' hj hy hk'
    rw [setBody_bodyAt] at hy
    split_ifs at hy with hji
    · subst hji
      rw [h0] at hy
      obtain rfl : b = y := by simpa using hy
      rw [hk] at hk'
      obtain rfl := Option.some.inj hk'
      exact hkeep.filled c (hr _ b0 _ hj h0 hk)
    · exact hr j y k' hj hy hk'
  · rintro ⟨S, h1, h2⟩
    refine ⟨S, ?_, h2⟩
    rw [setBody_bodyAt, if_neg hne, h1]

/-- Changing the output layer. -/
theorem Shaped.setLast (h : M.Shaped B s ks labels) {S : Softmax} (hc : S.count = labels.length)
    (ht : Told ks M → S.knows = true ∧ S.trueLabel < S.count) :
    (M.setBody ks.length (.softmax S)).Shaped B s ks labels ∧ Keeps s ks M (M.setBody ks.length (.softmax S)) := by
  obtain ⟨S0, h0, _⟩ := h.last
  have hl : (M.setBody ks.length (.softmax S)).bodyAt ks.length = some (.softmax S) := by
    rw [setBody_bodyAt, if_pos rfl, h0]; rfl
  have hne : ∀ (j : Nat) (k : LayerKind), ks[j]? = some k → ks.length ≠ j := by
    intro j k hk
    have := (List.getElem?_eq_some_iff.1 hk).1
    omega
  refine ⟨⟨by rw [setBody_length]; exact h.count, ?_, ⟨S, hl, hc⟩, h.labelled, h.output⟩, ?_, ?_, ?_⟩
  · intro j y k hy hk
    rw [setBody_bodyAt, if_neg (hne j k hk)] at hy
    exact h.layers j y k hy hk
  · intro c n hr j y k hj hy hk
    rw [setBody_bodyAt, if_neg (hne j k hk)] at hy
    exact hr j y k hj hy hk
  · intro c n hr j y k hj hy hk
    rw [setBody_bodyAt, if_neg (hne j k hk)] at hy
    exact hr j y k hj hy hk
  · intro h1
    exact ⟨S, hl, ht h1⟩

/-- The records of the inputs of the first layers, including that of layer `n`. -/
def Records (s : Shape) (ks : List LayerKind) (rec : List (Matrix α)) (n : Nat) : Prop :=
  rec.length = n + 1 ∧ ∀ (j : Nat) (A : Matrix α), rec[j]? = some A → A.Has (shapeAt ks s j)

theorem Records.at {rec : List (Matrix α)} {n j : Nat} (h : Records s ks rec n) (hj : j ≤ n) : ∃ A, rec[j]? = some A ∧ A.Has (shapeAt ks s j) := by
  have hl : j < rec.length := by rw [h.1]; omega
  exact ⟨_, List.getElem?_eq_getElem hl, h.2 j _ (List.getElem?_eq_getElem hl)⟩

theorem Records.push {rec : List (Matrix α)} {n : Nat} (h : Records s ks rec n) {R : Matrix α} (hR : R.Has (shapeAt ks s (n + 1))) :
    Records s ks (rec ++ [R]) (n + 1) := by
  refine ⟨by simp [h.1], ?_⟩
  intro j A hA
  rw [List.getElem?_append] at hA
  split_ifs at hA with hj
  · exact h.2 j A hA
  · have h1 : j - rec.length = 0 := by
      have := (List.getElem?_eq_some_iff.1 hA).1
      simp at this; omega
    have h2 := h.1
    obtain rfl : j = n + 1 := by omega
    rw [h1] at hA
    obtain rfl : R = A := by simpa using hA
    exact hR

section
variable [Zero α] [One α] [Add α] [Sub α] [Mul α] [Div α] [Neg α]

theorem forwardBegin_shaped (E : Env α) {X : Matrix α} (hX : X.Has s) :
    ∃ A rec, forwardBegin E X = .ok (A, rec) ∧ A.Has (shapeAt ks s 0) ∧ Records s ks rec 0 := by
  obtain ⟨A, e1, h1⟩ := Matrix.ofExpr_has hX (id : α → α)
  obtain ⟨R, e2, h2⟩ := Matrix.ofExpr_has h1 E.toFloat
  refine ⟨A, [R], ?_, h1, rfl, ?_⟩
  · unfold forwardBegin record
    rw [e1, Res.bind_ok, e2, Res.bind_ok]
  · intro j A' hA'
    have : j = 0 := by
      have := (List.getElem?_eq_some_iff.1 hA').1
      simpa using this
    subst this
    obtain rfl : R = A' := by simpa using hA'
    exact h2

theorem forwardStep_shaped (E : Env α) (h : M.Shaped B s ks labels) (hW : KindsWork true s ks) {b : Nat} (hb : b < B) {i : Nat} (hi : i < ks.length + 1)
    {A : Matrix α} {rec : List (Matrix α)} (hA : A.Has (shapeAt ks s i)) (hR : Records s ks rec i) :
    ∃ A' rec' M', forwardStep E b ((A, rec), M) i = .ok ((A', rec'), M') ∧ A'.Has (shapeAt ks s (i + 1)) ∧ Records s ks rec' (i + 1) ∧
      M'.Shaped B s ks labels ∧ Keeps s ks M M' ∧ (ReadyTo s ks M b i → ReadyTo s ks M' b (i + 1)) := by
  rcases Nat.lt_or_ge i ks.length with hi' | hi'
  · obtain ⟨L, k, hL, hbody, hk⟩ := h.get hi'
    obtain ⟨Y, body', e1, hY, hs', hr, hkeep⟩ := Body.forward_shaped E.num (E.draws i) hA (by simpa using hW.at hk) hb (h.layers i _ k hbody hk)
    rw [← shapeAt_succ hk] at hY
    obtain ⟨R, e2, hR'⟩ := Matrix.ofExpr_has hY E.toFloat
    obtain ⟨hS', hK'⟩ := h.setBody hbody hk hs' hkeep
    refine ⟨Y, rec ++ [R], M.setBody i body', ?_, hY, hR.push hR', hS', hK', ?_⟩
    · unfold forwardStep forwardLayer record
      dsimp only
      rw [hL]
      show (((Res.ok L >>= fun l => _) >>= fun r => _ : Res _)) = _
      rw [Res.bind_ok, e1, Res.bind_ok, Res.bind_ok, e2, Res.bind_ok]
    · intro hrd j y k' hj hy hk'
      rcases Nat.lt_or_ge j i with hji | hji
      · exact hK'.ready b i hrd j y k' hji hy hk'
      · obtain rfl : j = i := by omega
        rw [setBody_bodyAt, if_pos rfl, hbody] at hy
        obtain rfl : body' = y := by simpa using hy
        rw [hk] at hk'
        obtain rfl := Option.some.inj hk'
        exact hr
  · obtain rfl : i = ks.length := by omega
    obtain ⟨L, S, hL, hbody, hLS, hc⟩ := h.getLast
    have hs : shapeAt ks s ks.length = ⟨S.count, 1, 1⟩ ∨ shapeAt ks s ks.length = ⟨1, S.count, 1⟩ := by
      rw [shapeAt_end (le_refl _), hc]; exact h.output
    obtain ⟨Y, e1, hY⟩ := Softmax.forward_has E.num hA hs
    have hY : Y.Has (shapeAt ks s (ks.length + 1)) := by
      rw [shapeAt_end (Nat.le_succ _)]; rw [shapeAt_end (le_refl _)] at hY; exact hY
    obtain ⟨R, e2, hR'⟩ := Matrix.ofExpr_has hY E.toFloat
    obtain ⟨hS', hK'⟩ := h.setLast (S := S) hc (by
      rintro ⟨S', h1, h2⟩
      rw [hbody] at h1
      obtain rfl : S = S' := by simpa using h1
      exact h2)
    refine ⟨Y, rec ++ [R], M.setBody ks.length (.softmax S), ?_, hY, hR.push hR', hS', hK', ?_⟩
    · unfold forwardStep forwardLayer record
      dsimp only
      rw [hL]
      show (((Res.ok L >>= fun l => _) >>= fun r => _ : Res _)) = _
      rw [Res.bind_ok, hLS]
      show (((Softmax.forward E.num S A >>= fun Y => Res.ok (Y, Body.softmax S)) >>= fun r => _) >>= fun r => _ : Res _) = _
      rw [e1, Res.bind_ok, Res.bind_ok, Res.bind_ok, e2, Res.bind_ok]
    · intro hrd j y k' hj hy hk'
      have := (List.getElem?_eq_some_iff.1 hk').1
      exact hK'.ready b _ hrd j y k' this hy hk'

theorem backwardBegin_shaped (E : Env α) (h : M.Shaped B s ks labels) {r : Results α} (hR : Records s ks r.inputs (ks.length + 1)) {lab : List Char}
    (hl : lab ∈ labels) : ∃ r' M', M.backwardBegin E r lab = .ok (r', M') ∧ r'.inputs = r.inputs ∧ M'.Shaped B s ks labels ∧ Keeps s ks M M' ∧ Told ks M' := by
  obtain ⟨L, S, hL, hbody, hLS, hc⟩ := h.getLast
  obtain ⟨A, hA, hAs⟩ := hR.at (le_refl _)
  have hlast : r.inputs.getLast? = some A := by rw [List.getLast?_eq_getElem?, hR.1]; exact hA
  obtain ⟨A', e1, hA'⟩ := Matrix.ofExpr_has hAs (id : α → α)
  rw [shapeAt_end (Nat.le_succ _)] at hA'
  obtain ⟨v, hv⟩ := hA'.vec h.output
  have hidx : M.labelIndex lab < labels.length := by
    unfold labelIndex
    rw [h.labelled]
    exact List.findIdx_lt_length_of_exists ⟨lab, hl, by simp⟩
  have hll : M.layers.getLast? = some L := by rw [List.getLast?_eq_getElem?, h.count]; exact hL
  have ht : S.assignTrueLabel (M.labelIndex lab) = (.ok (), { S with trueLabel := M.labelIndex lab, knows := true }) := if_neg (by omega)
  obtain ⟨hS', hK'⟩ := h.setLast (S := { S with trueLabel := M.labelIndex lab, knows := true }) hc (fun _ => ⟨rfl, by
    show M.labelIndex lab < S.count
    omega⟩)
  obtain ⟨r', he, hr'⟩ : ∃ r', M.assignLoss E r lab = .ok r' ∧ r'.inputs = r.inputs := by
    refine ⟨{ r with trueLabel := some lab, trueIdx := some (M.labelIndex lab), loss := E.toFloat (E.num.max (-1 * E.num.log2 (v (M.labelIndex lab) + E.num.eps)) 0) }, ?_, rfl⟩
    unfold assignLoss lossFcn
    rw [hlast]
    show (Res.ok A >>= fun out => _ : Res _) = _
    rw [Res.bind_ok, e1, Res.bind_ok, hv.flat hidx]; rfl
  refine ⟨r', M.setBody ks.length (.softmax { S with trueLabel := M.labelIndex lab, knows := true }), ?_, hr', hS', hK', ?_⟩
  · unfold backwardBegin
    rw [he, Res.bind_ok, hll]
    show (Res.ok L >>= fun l => _ : Res _) = _
    rw [Res.bind_ok, hLS]
    dsimp only
    rw [ht, h.count]; rfl
  · refine ⟨{ S with trueLabel := M.labelIndex lab, knows := true }, ?_, rfl, ?_⟩
    · rw [setBody_bodyAt, if_pos rfl, hbody]; rfl
    · show M.labelIndex lab < S.count
      omega

theorem recordAt_shaped {r : Results α} {n i : Nat} (hR : Records s ks r.inputs n) (hi : i ≤ n) :
    ∃ A X, recordAt r i = .ok A ∧ Matrix.ofExpr (id : α → α) A.expr = .ok X ∧ X.Has (shapeAt ks s i) := by
  obtain ⟨A, hA, hAs⟩ := hR.at hi
  obtain ⟨X, e, hX⟩ := Matrix.ofExpr_has hAs (id : α → α)
  refine ⟨A, X, ?_, e, hX⟩
  unfold recordAt
  rw [hA]

theorem backwardStep_shaped (E : Env α) (hE : E.order = .dimsFirst) (h : M.Shaped B s ks labels) (hW : KindsWork true s ks) {b : Nat} (hb : b < B) {i : Nat}
    (hi : i < ks.length + 1) {r : Results α} (hR : Records s ks r.inputs (ks.length + 1)) {d : Matrix α}
    (hd : i < ks.length → d.Has (shapeAt ks s (i + 1))) (hr : ReadyTo s ks M b (ks.length + 1)) (ht : Told ks M) :
    ∃ d' M', backwardStep E r b (d, M) i = .ok (d', M') ∧ (0 < i → d'.Has (shapeAt ks s i)) ∧ M'.Shaped B s ks labels ∧ Keeps s ks M M' ∧
      (FilledFrom s ks M b (i + 1) → FilledFrom s ks M' b i) := by
  obtain ⟨A, X, e1, e2, hX⟩ := recordAt_shaped hR (show i ≤ ks.length + 1 by omega)
  obtain ⟨C, Z, e3, e4, hZ⟩ := recordAt_shaped hR (show i + 1 ≤ ks.length + 1 by omega)
  rcases Nat.lt_or_ge i ks.length with hi' | hi'
  · obtain ⟨L, k, hL, hbody, hk⟩ := h.get hi'
    have hd := hd hi'
    rw [shapeAt_succ hk] at hd hZ
    obtain ⟨D', body', e5, hD', hs', hf, hkeep⟩ := Body.backward_shaped E.num hX (by simpa using hW.at hk) hZ hd hb (h.layers i _ k hbody hk)
      (hr i _ k hi hbody hk)
    obtain ⟨hS', hK'⟩ := h.setBody hbody hk hs' hkeep
    refine ⟨D', M.setBody i body', ?_, fun h0 => hD' (by simp; omega), hS', hK', ?_⟩
    · unfold backwardStep
      dsimp only
      rw [e1, Res.bind_ok, e3, Res.bind_ok, hL]
      show (Res.ok L >>= fun l => _ : Res _) = _
      rw [Res.bind_ok, e2, Res.bind_ok, e4, Res.bind_ok, hE, e5, Res.bind_ok]
    · intro hfi j y k' hj hy hk'
      rcases Nat.lt_or_ge i j with hji | hji
      · exact hK'.filled b (i + 1) hfi j y k' hji hy hk'
      · obtain rfl : j = i := by omega
        rw [setBody_bodyAt, if_pos rfl, hbody] at hy
        obtain rfl : body' = y := by simpa using hy
        rw [hk] at hk'
        obtain rfl := Option.some.inj hk'
        exact hf
  · obtain rfl : i = ks.length := by omega
    obtain ⟨L, S, hL, hbody, hLS, hc⟩ := h.getLast
    obtain ⟨S', h1, h2, h3⟩ := ht
    rw [hbody] at h1
    obtain rfl : S = S' := by simpa using h1
    have hs : kindsOut ks s = ⟨S.count, 1, 1⟩ ∨ kindsOut ks s = ⟨1, S.count, 1⟩ := by rw [hc]; exact h.output
    rw [shapeAt_end (Nat.le_succ _)] at hZ
    obtain ⟨D', e5, hD'⟩ := Softmax.backward_has (X := X) (D := d) hZ hs h2 h3
    obtain ⟨hS', hK'⟩ := h.setLast (S := S) hc (fun _ => ⟨h2, h3⟩)
    refine ⟨D', M.setBody ks.length (.softmax S), ?_, fun _ => by rw [shapeAt_end (le_refl _)]; exact hD', hS', hK', ?_⟩
    · unfold backwardStep
      dsimp only
      rw [e1, Res.bind_ok, e3, Res.bind_ok, hL]
      show (Res.ok L >>= fun l => _ : Res _) = _
      rw [Res.bind_ok, e2, Res.bind_ok, e4, Res.bind_ok, hLS]
      show ((S.backward X Z d >>= fun D => Res.ok (D, Body.softmax S)) >>= fun r => _ : Res _) = _
      rw [e5, Res.bind_ok, Res.bind_ok]
    · intro _ j y k' hj hy hk'
      have := (List.getElem?_eq_some_iff.1 hk').1
      omega

theorem mapM_exists {β γ : Type} (f : β → Res γ) (l : List β) (h : ∀ x ∈ l, ∃ y, f x = .ok y) :
    ∃ ls, l.mapM f = .ok ls ∧ ls.length = l.length ∧ ∀ (i : Nat) (x : β) (y : γ), l[i]? = some x → ls[i]? = some y → f x = .ok y := by
  induction l with
  | nil => exact ⟨[], rfl, rfl, by simp⟩
  | cons a l ih =>
    obtain ⟨y, hy⟩ := h a (by simp)
    obtain ⟨ls, e, hlen, hget⟩ := ih (fun x hx => h x (by simp [hx]))
    refine ⟨y :: ls, by rw [List.mapM_cons, hy, e]; rfl, by simp [hlen], ?_⟩
    intro i x z hx hz
    cases i with
    | zero =>
      obtain rfl : a = x := by simpa using hx
      obtain rfl : y = z := by simpa using hz
      exact hy
    | succ i => exact hget i x z (by simpa using hx) (by simpa using hz)

/-- All slots have been used. -/
def Full (B : Nat) (s : Shape) (ks : List LayerKind) (M : Model α) : Prop :=
  ∀ b < B, ReadyTo s ks M b (ks.length + 1) ∧ FilledFrom s ks M b 0

theorem Keeps.full {M M' : Model α} (h : Keeps s ks M M') (hf : Full B s ks M) : Full B s ks M' :=
  fun b hb => ⟨h.ready b _ (hf b hb).1, h.filled b _ (hf b hb).2⟩

theorem applyBatch_shaped (N : Num α) (lr : α) (hB : 0 < B) (h : M.Shaped B s ks labels) (hf : Full B s ks M) :
    ∃ M', M.applyBatch N lr = .ok M' ∧ M'.Shaped B s ks labels ∧ Full B s ks M' := by
  have hbodyAt : ∀ {i : Nat} {L : Layer α}, M.layers[i]? = some L → M.bodyAt i = some L.body := by
    intro i L hL
    unfold bodyAt
    rw [hL]; rfl
  have hone : ∀ {i : Nat} {L : Layer α} {k : LayerKind}, M.layers[i]? = some L → ks[i]? = some k →
      ∃ body', L.body.applyBatch N lr = .ok body' ∧ body'.Shaped B (decide (i = 0)) (shapeAt ks s i) k ∧ Body.Keeps (shapeAt ks s i) k L.body body' := by
    intro i L k hL hk
    have hi := (List.getElem?_eq_some_iff.1 hk).1
    exact Body.applyBatch_shaped N lr hB (h.layers i _ k (hbodyAt hL) hk)
      (fun b hb => (hf b hb).1 i _ k (by omega) (hbodyAt hL) hk) (fun b hb => (hf b hb).2 i _ k (by omega) (hbodyAt hL) hk)
  obtain ⟨ls, e, hlen, hget⟩ := mapM_exists (fun l : Layer α => do
    let b ← l.body.applyBatch N lr
    .ok { l with body := b }) M.layers (by
      intro L hL
      obtain ⟨i, hL⟩ := List.mem_iff_getElem?.1 hL
      have hi : i < ks.length + 1 := by rw [← h.count]; exact (List.getElem?_eq_some_iff.1 hL).1
      rcases Nat.lt_or_ge i ks.length with hi' | hi'
      · obtain ⟨b', e', _⟩ := hone hL (List.getElem?_eq_getElem hi')
        exact ⟨{ L with body := b' }, by rw [e', Res.bind_ok]⟩
      · obtain rfl : i = ks.length := by omega
        obtain ⟨L', S, hL', _, hLS, _⟩ := h.getLast
        rw [hL] at hL'
        obtain rfl := Option.some.inj hL'
        exact ⟨{ L with body := .softmax S }, by rw [hLS]; rfl⟩)
  have hat : ∀ {i : Nat} {y : Body α}, (ls[i]?.map (·.body)) = some y → ∃ L, M.layers[i]? = some L ∧ L.body.applyBatch N lr = .ok y := by
    intro i y hy
    obtain ⟨L', hL', rfl⟩ := Option.map_eq_some_iff.1 hy
    have hi : i < M.layers.length := by rw [← hlen]; exact (List.getElem?_eq_some_iff.1 hL').1
    refine ⟨M.layers[i], List.getElem?_eq_getElem hi, ?_⟩
    have := hget i _ L' (List.getElem?_eq_getElem hi) hL'
    obtain ⟨b, hb, this⟩ := Res.bind_eq_ok this
    rw [hb, ← Res.ok.inj this]
  have hone' : ∀ {i : Nat} {y : Body α} {k : LayerKind}, (ls[i]?.map (·.body)) = some y → ks[i]? = some k → ∃ y0, M.bodyAt i = some y0 ∧
      y.Shaped B (decide (i = 0)) (shapeAt ks s i) k ∧ Body.Keeps (shapeAt ks s i) k y0 y := by
    intro i y k hy hk
    obtain ⟨L, hL, e'⟩ := hat hy
    obtain ⟨b', e'', h1, h2⟩ := hone hL hk
    rw [e'] at e''
    obtain rfl := Res.ok.inj e''
    exact ⟨_, hbodyAt hL, h1, h2⟩
  refine ⟨{ M with layers := ls }, ?_, ⟨by simp [hlen, h.count], ?_, ?_, h.labelled, h.output⟩, ?_⟩
  · unfold applyBatch
    rw [e, Res.bind_ok]
  · intro i y k hy hk
    obtain ⟨_, _, h1, _⟩ := hone' hy hk
    exact h1
  · obtain ⟨L, S, hL, hbody, hLS, hc⟩ := h.getLast
    refine ⟨S, ?_, hc⟩
    have hi : ks.length < ls.length := by rw [hlen, h.count]; omega
    have := hget ks.length L _ hL (List.getElem?_eq_getElem hi)
    rw [hLS] at this
    show (ls[ks.length]?.map (·.body)) = _
    rw [List.getElem?_eq_getElem hi, ← Res.ok.inj this]; rfl
  · intro b hb
    refine ⟨?_, ?_⟩
    · intro j y k hj hy hk
      obtain ⟨y0, h0, _, h2⟩ := hone' hy hk
      exact h2.seen b ((hf b hb).1 j y0 k hj h0 hk)
    · intro j y k hj hy hk
      obtain ⟨y0, h0, _, h2⟩ := hone' hy hk
      exact h2.filled b ((hf b hb).2 j y0 k hj h0 hk)

/-- What `train` does first. -/
theorem setBatchSize_shaped (h : M.Runs s ks) : (M.setBatchSize B).Shaped B s ks M.labels := by
  refine ⟨by simp [setBatchSize, h.count], ?_, ?_, rfl, h.output⟩
  · intro i y k hy hk
    unfold bodyAt setBatchSize at hy
    simp only [List.getElem?_map, Option.map_map, Option.map_eq_some_iff] at hy
    obtain ⟨L, hL, rfl⟩ := hy
    exact Body.setBatchSize_shaped B (h.layers i L k hL hk)
  · obtain ⟨L, S, hL, hLS, hc⟩ := h.last
    refine ⟨S, ?_, hc⟩
    unfold bodyAt setBatchSize
    simp only [List.getElem?_map, hL, Option.map_some, hLS]
    rfl

theorem Shaped.runs (h : M.Shaped B s ks labels) : M.Runs s ks := by
  refine ⟨h.count, ?_, ?_, by rw [h.labelled]; exact h.output⟩
  · intro i L k hL hk
    have hb : M.bodyAt i = some L.body := by
      unfold bodyAt
      rw [hL]; rfl
    have := h.layers i _ k hb hk
    revert this
    generalize L.body = y
    cases y <;> cases k <;> intro h <;> first | exact h | exact h.1
  · obtain ⟨L, S, hL, _, hLS, hc⟩ := h.getLast
    exact ⟨L, S, hL, hLS, by rw [h.labelled]; exact hc⟩

theorem forwardPropagation_shaped (E : Env α) (h : M.Shaped B s ks labels) (hW : KindsWork true s ks) {b : Nat} (hb : b < B) {X : Matrix α} (hX : X.Has s) :
    ∃ r M', M.forwardPropagation E X b = .ok (r, M') ∧ r.labelIdx < labels.length ∧ M'.Shaped B s ks labels := by
  obtain ⟨A0, rec0, e0, hA0, hR0⟩ := forwardBegin_shaped (ks := ks) E hX
  obtain ⟨st, e1, hA, hR, hS⟩ := foldlM_range_inv
    (fun n (st : (Matrix α × List (Matrix α)) × Model α) => st.1.1.Has (shapeAt ks s n) ∧ Records s ks st.1.2 n ∧ st.2.Shaped B s ks labels)
    (ks.length + 1) (forwardStep E b) ((A0, rec0), M) ⟨hA0, hR0, h⟩ (by
      rintro n hn ⟨⟨A, rec⟩, M1⟩ ⟨h1, h2, h3⟩
      obtain ⟨A', rec', M', e, g1, g2, g3, _⟩ := forwardStep_shaped E h3 hW hb hn h1 h2
      exact ⟨_, e, g1, g2, g3⟩)
  rw [shapeAt_end (Nat.le_succ _)] at hA
  have hl := hS.labelled
  obtain ⟨r, e2, hr, hi⟩ := forwardEnd_has E st.2 hA (by rw [hl]; exact h.output) st.1.2
  refine ⟨r, st.2, ?_, by rw [← hl]; exact hi, hS⟩
  unfold forwardPropagation
  rw [e0, Res.bind_ok, h.count, e1, Res.bind_ok, e2, Res.bind_ok]

end
end Model
end Cnn
