import Verif.Lemmas.Network
import Verif.Lemmas.Softmax
import Verif.Spec.Connected
import Verif.Props.Reductions
/-!
# Propagation through a model: C57, C58
-/
namespace Cnn
open Model
variable {α : Type} [Zero α] [One α] [Add α] [Sub α] [Mul α] [Div α] [Neg α]

/-! ## C57 -/

/-- C57: whenever `forwardPropagation` returns, every layer has been called once, in order, each on the full-precision
output of the one before; there is one record for the input and one for each output, namely that matrix with every
entry converted to `float`; the last output has as many entries as there are labels; and the model has changed only in the
states left by the layer calls. -/
theorem C57_consistent (E : Env α) (M M' : Model α) (X : Matrix α) (b : Nat) (r : Results α)
    (h : M.forwardPropagation E X b = .ok (r, M')) :
    ∃ (outs : Nat → Matrix α) (bodies : Nat → Body α), Pass E M b X outs bodies ∧ M' = M.withBodies bodies ∧
      r.inputs.length = M.layers.length + 1 ∧
      (∀ i ≤ M.layers.length, ∃ R, r.inputs[i]? = some R ∧
        ∀ (A B C : Nat) (f : Nat → Nat → Nat → α), (outs i).Shows A B C f → R.Shows A B C (fun i j k => E.toFloat (f i j k))) ∧
      (∀ (A B C : Nat) (f : Nat → Nat → Nat → α), (outs M.layers.length).Shows A B C f →
        A * B * C = M.labels.length ∧ r.labelIdx < M.labels.length ∧
        r.confidence = E.toFloat (flatOf A B f r.labelIdx)) := by
  unfold forwardPropagation at h
  obtain ⟨s, hs, h⟩ := Res.bind_eq_ok h
  obtain ⟨t, ht, h⟩ := Res.bind_eq_ok h
  obtain ⟨u, hu, h⟩ := Res.bind_eq_ok h
  obtain ⟨rfl, rfl⟩ := Prod.mk.inj (Res.ok.inj h)
  obtain ⟨A, hA, hs⟩ := Res.bind_eq_ok hs
  obtain ⟨R, hR, hs⟩ := Res.bind_eq_ok hs
  obtain rfl := Res.ok.inj hs
  obtain ⟨outs, recs, bodies, h0, h1, h2, h3, rfl⟩ := forward_fold_inv M.layers.length le_rfl ht
  subst h0 h1
  obtain ⟨hn, m, c, hm, hc, rfl⟩ := forwardEnd_inv hu
  simp only [upTo] at hn
  refine ⟨outs, bodies, ⟨hA, fun i l hl => h2 i ?_ l hl⟩, upTo_all _ _, by simp, ?_, ?_⟩
  · exact (List.getElem?_eq_some_iff.1 hl).1
  · intro i hi
    refine ⟨recs i, by simp [Nat.lt_succ_of_le hi], ?_⟩
    intro A B C f hf
    obtain ⟨R', e, s⟩ := Matrix.ofExpr_shows hf.expr E.toFloat
    have : record E (outs i) = .ok (recs i) := by
      rcases Nat.eq_zero_or_pos i with rfl | hp
      · exact hR
      · exact h3 i hp hi
    rw [record, e] at this
    obtain rfl := Res.ok.inj this
    exact s
  · intro A B C f hf
    rw [hf.dim, MExpr.sizeD_dimN hf.good] at hn
    have hnl' : A * B * C = M.labels.length := Res.ok.inj hn
    have g := hf.good
    obtain ⟨q, hq, e⟩ := MExpr.bestElem_inside (fun a b => E.num.lt a b) hf.expr
    rw [MExpr.maxIndexFlat, e, Res.bind_ok] at hm
    have hd := MExpr.iterAt_diff (X := A) (Y := B) (Z := C) (n := q) g.x g.y
    rw [show (outs M.layers.length).expr.dim = dimN A B C from hf.dim, hd, u64_nat (by have := g.small; omega)] at hm
    obtain rfl := Res.ok.inj hm
    rw [hf.flat_lt hq] at hc
    obtain rfl := Res.ok.inj hc
    exact ⟨hnl', by simpa [← hnl'] using hq, rfl⟩

/-- C57: `label_idx` is the index of the largest output, the first of them if there are several. -/
theorem C57_largest [LinearOrder α] (E : Env α) (hlt : E.num.lt = fun a b => decide (a < b)) (M M' : Model α) (X : Matrix α)
    (b : Nat) (r : Results α) (h : M.forwardPropagation E X b = .ok (r, M')) (outs : Nat → Matrix α)
    (bodies : Nat → Body α) (hp : Pass E M b X outs bodies) (A B C : Nat) (f : Nat → Nat → Nat → α)
    (hf : (outs M.layers.length).Shows A B C f) :
    ∀ n < M.labels.length, flatOf A B f n ≤ flatOf A B f r.labelIdx ∧
      (n < r.labelIdx → flatOf A B f n < flatOf A B f r.labelIdx) := by
  unfold forwardPropagation at h
  obtain ⟨s, hs, h⟩ := Res.bind_eq_ok h
  obtain ⟨t, ht, h⟩ := Res.bind_eq_ok h
  obtain ⟨u, hu, h⟩ := Res.bind_eq_ok h
  obtain ⟨rfl, rfl⟩ := Prod.mk.inj (Res.ok.inj h)
  obtain ⟨A0, hA, hs⟩ := Res.bind_eq_ok hs
  obtain ⟨R, hR, hs⟩ := Res.bind_eq_ok hs
  obtain rfl := Res.ok.inj hs
  obtain ⟨outs2, recs, bodies2, h0, h1, h2, h3, rfl⟩ := forward_fold_inv M.layers.length le_rfl ht
  have heq2 : ∀ n, n ≤ M.layers.length → outs2 n = outs n := by
    intro n
    induction n with
    | zero => exact fun _ => h0.trans (Res.ok.inj (hA.symm.trans hp.start))
    | succ n ih =>
      intro hn
      have hg : M.layers[n]? = some M.layers[n] := List.getElem?_eq_getElem (by omega)
      have e1 := h2 n (by omega) _ hg
      have e2 := hp.layer n _ hg
      rw [ih (by omega)] at e1
      exact congrArg Prod.fst (Res.ok.inj (e1.symm.trans e2))
  obtain ⟨hn, m, c, hm, hc, rfl⟩ := forwardEnd_inv hu
  simp only [upTo] at hn hm
  rw [heq2 _ le_rfl] at hn hm
  rw [hf.dim, MExpr.sizeD_dimN hf.good] at hn
  have hnl' : A * B * C = M.labels.length := Res.ok.inj hn
  obtain ⟨i, j, k, hi, hj, hk, _, _, e, g1, g2⟩ := C20_max _ _ hf.expr
  rw [hlt, e] at hm
  obtain rfl := Res.ok.inj hm
  intro n hn
  have hi' : flatOf A B f (i + j * A + k * (A * B)) = f i j k := by
    have : i + j * A + k * (A * B) = fl A B i j k := rfl
    rw [this, flatOf, fl_mod hi, fl_div_mod hi hj, fl_div_div hi hj]
  rw [← hnl'] at hn
  obtain ⟨u1, u2, u3⟩ := unflat_lt hf.good.x hf.good.y hn
  rw [hi']
  refine ⟨g1 _ u1 _ u2 _ u3, fun hlt => g2 _ u1 _ u2 _ u3 ?_⟩
  have := fl_unflat A B n
  unfold fl at this
  rw [this]
  exact hlt

/-- C57: if all layers work and the last output has as many entries as there are labels, the call returns. -/
theorem C57_returns (E : Env α) (M : Model α) (X : Matrix α) (b : Nat) (outs : Nat → Matrix α) (bodies : Nat → Body α)
    (hp : Pass E M b X outs bodies) (hs : ∀ i ≤ M.layers.length, ∃ A B C f, (outs i).Shows A B C f) (A B C : Nat)
    (f : Nat → Nat → Nat → α) (hf : (outs M.layers.length).Shows A B C f) (hsize : A * B * C = M.labels.length) :
    ∃ r, M.forwardPropagation E X b = .ok (r, M.withBodies bodies) := by
  have hr : ∀ i, ∃ R, i ≤ M.layers.length → record E (outs i) = .ok R := by
    intro i
    by_cases hi : i ≤ M.layers.length
    · obtain ⟨A, B, C, f, hf⟩ := hs i hi
      obtain ⟨R, e, _⟩ := Matrix.ofExpr_shows hf.expr E.toFloat
      exact ⟨R, fun _ => e⟩
    · exact ⟨Matrix.empty, fun h => absurd h hi⟩
  choose recs hrec using hr
  have g := hf.good
  obtain ⟨q, hq, e⟩ := MExpr.bestElem_inside (fun a b => E.num.lt a b) hf.expr
  have hd := MExpr.iterAt_diff (X := A) (Y := B) (Z := C) (n := q) g.x g.y
  have hmax : MExpr.maxIndexFlat E.num.lt (outs M.layers.length).expr = .ok q := by
    rw [MExpr.maxIndexFlat, e, Res.bind_ok, show (outs M.layers.length).expr.dim = dimN A B C from hf.dim, hd,
      u64_nat (by have := g.small; omega)]
  refine ⟨⟨none, q, none, -1, E.toFloat (flatOf A B f q), (List.range (M.layers.length + 1)).map recs⟩, ?_⟩
  unfold forwardPropagation forwardBegin
  simp only [hp.start, Res.bind_ok, hrec 0 (by omega)]
  rw [forward_fold hp.layer M.layers.length le_rfl (fun i _ hi => hrec i hi), Res.bind_ok, upTo_all]
  rw [forwardEnd_eq (by rw [hf.dim, MExpr.sizeD_dimN g, hsize]; rfl) hmax (hf.flat_lt hq)]
  rfl

/-- C57: if all layers work but the size of the last output is not the number of labels, the `assert` stops the program. -/
theorem C57_mismatch (E : Env α) (M : Model α) (X : Matrix α) (b : Nat) (outs : Nat → Matrix α) (bodies : Nat → Body α)
    (hp : Pass E M b X outs bodies) (hs : ∀ i ≤ M.layers.length, ∃ A B C f, (outs i).Shows A B C f) (A B C : Nat)
    (f : Nat → Nat → Nat → α) (hf : (outs M.layers.length).Shows A B C f) (hsize : A * B * C ≠ M.labels.length) :
    M.forwardPropagation E X b = .abort := by
  have hr : ∀ i, ∃ R, i ≤ M.layers.length → record E (outs i) = .ok R := by
    intro i
    by_cases hi : i ≤ M.layers.length
    · obtain ⟨A, B, C, f, hf⟩ := hs i hi
      obtain ⟨R, e, _⟩ := Matrix.ofExpr_shows hf.expr E.toFloat
      exact ⟨R, fun _ => e⟩
    · exact ⟨Matrix.empty, fun h => absurd h hi⟩
  choose recs hrec using hr
  unfold forwardPropagation forwardBegin
  simp only [hp.start, Res.bind_ok, hrec 0 (by omega)]
  rw [forward_fold hp.layer M.layers.length le_rfl (fun i _ hi => hrec i hi), Res.bind_ok, upTo_all]
  rw [forwardEnd_abort (n := A * B * C) (by rw [hf.dim, MExpr.sizeD_dimN hf.good]) (by simpa [withBodies] using hsize),
    Res.bind_abort]

/-- A model whose only layer is a softmax over the given labels. -/
def softmaxModel (labels : List (List Char)) : Model α := (Model.new : Model α).setOutputLabels labels true

/-- Exact arithmetic without rounding of the records. -/
noncomputable def exactEnv : Env ℝ := ⟨Num.real, fun _ _ => 0, id, .dimsFirst⟩

/-- Input (0,1) to a softmax over the labels "a", "b". -/
theorem softmaxModel_forward : ∃ r M', (softmaxModel ["a".toList, "b".toList] : Model ℝ).forwardPropagation exactEnv
    ⟨dimN 2 1 1, [0, 1]⟩ 0 = .ok (r, M') ∧ M'.labels = ["a".toList, "b".toList] ∧
    (∃ R p, r.inputs.getLast? = some R ∧ R.IsVec 2 p) := by
  have hX : (⟨dimN 2 1 1, [0, 1]⟩ : Matrix ℝ).Shows 2 1 1 (fun i _ _ => i) := by
    refine Matrix.Shows.of_vals ⟨by omega, by omega, by omega, by omega⟩ rfl ?_
    simp [List.range_succ]
  obtain ⟨X', e0, s0⟩ := Matrix.ofExpr_shows hX.expr (id : ℝ → ℝ)
  obtain ⟨P, e1, d1, s1⟩ := softmax_forward (S := Softmax.new 2) (M := X') (n := 2) (v := fun i => i) (Or.inr s0) rfl
  have hs1 : P.Shows 2 1 1 (fun i _ _ => softmax 2 (fun i => i) i) := by
    rcases s1 with s1 | s1
    · have := s1.dim.symm.trans (d1.trans s0.dim)
      rw [dimN_inj] at this
      omega
    · exact s1
  have hp : Pass exactEnv (softmaxModel ["a".toList, "b".toList] : Model ℝ) 0 ⟨dimN 2 1 1, [0, 1]⟩
      (fun n => if n = 0 then X' else P) (fun _ => .softmax (Softmax.new 2)) := by
    refine ⟨e0, ?_⟩
    intro i l hl
    have hi : i < 1 := (List.getElem?_eq_some_iff.1 hl).1
    obtain rfl : i = 0 := by omega
    obtain rfl : _ = l := Option.some.inj hl
    show (do let Y ← (Softmax.new 2).forward Num.real X'; Res.ok (Y, Body.softmax (Softmax.new 2))) = _
    rw [e1]
    rfl
  obtain ⟨r, h⟩ := C57_returns exactEnv _ _ 0 _ _ hp (by
    intro i _
    by_cases hi : i = 0
    · exact ⟨2, 1, 1, _, by simpa [hi] using s0⟩
    · exact ⟨2, 1, 1, _, by simpa [hi] using hs1⟩) 2 1 1 _ hs1 rfl
  refine ⟨r, _, h, rfl, ?_⟩
  obtain ⟨outs, bodies, hp', _, hlen, hrec, _⟩ := C57_consistent _ _ _ _ _ _ h
  obtain ⟨R, hR, hRs⟩ := hrec 1 le_rfl
  have hlen2 : r.inputs.length = 2 := hlen
  have ho0 : outs 0 = X' := Res.ok.inj (hp'.start.symm.trans e0)
  have ho1 : outs 1 = P := by
    have a := hp'.layer 0 _ rfl
    have b := hp.layer 0 _ rfl
    rw [ho0] at a
    exact congrArg Prod.fst (Res.ok.inj (a.symm.trans b))
  refine ⟨R, fun i => id (softmax 2 (fun i => i) i), ?_, Or.inr (hRs 2 1 1 (fun i _ _ => softmax 2 (fun i => i) i) (ho1 ▸ hs1))⟩
  rw [List.getLast?_eq_getElem?, hlen2]
  exact hR

/-! ## C58 -/

/-- The full claim: propagating the result of a forward pass backwards with a label that is not an output label throws
`out_of_range` (and so, in particular, does not read outside a matrix). -/
def C58_claim : Prop := ∀ (E : Env ℝ) (M M' : Model ℝ) (X : Matrix ℝ) (b : Nat) (r : Results ℝ) (label : List Char),
  M.forwardPropagation E X b = .ok (r, M') → (∃ l S, M.layers.getLast? = some l ∧ l.body = .softmax S) →
  label ∉ M.labels → M'.backwardsPropagation E r label b = .throw .outOfRange

omit [Zero α] [One α] [Add α] [Sub α] [Mul α] [Div α] [Neg α] in
theorem labelIndex_unknown (M : Model α) (label : List Char) (h : label ∉ M.labels) :
    M.labelIndex label = M.labels.length := by
  unfold labelIndex
  rw [List.findIdx_eq_length]
  intro x hx
  simp only [beq_eq_false_iff_ne, ne_eq]
  rintro rfl
  exact h hx

/-- C58: in every model, for every result whose last record is a matrix with one entry for each label – which C57 gives for
every result of `forwardPropagation` – an unknown label makes `lossFcn` read one entry past the end before anything is checked. -/
theorem C58_reads_outside (E : Env α) (M : Model α) (r : Results α) (label : List Char) (b : Nat) (R : Matrix α)
    (hR : r.inputs.getLast? = some R) (A B C : Nat) (f : Nat → Nat → Nat → α) (hf : R.Shows A B C f)
    (hsize : A * B * C = M.labels.length) (h : label ∉ M.labels) : M.backwardsPropagation E r label b = .ub := by
  obtain ⟨R', e, s⟩ := Matrix.ofExpr_shows hf.expr (id : α → α)
  have : R'.flat M.labels.length = .ub := Matrix.flat_ub (by rw [s.length, hsize])
  simp only [backwardsPropagation, backwardBegin, assignLoss, hR, Res.ofOption_some, Res.bind_ok, e,
    labelIndex_unknown M label h, lossFcn, this, Res.bind_ub]

/-- C58 is false: already for a softmax over the labels "a", "b" and the label "c". -/
theorem C58_violated : ¬ C58_claim := by
  intro hc
  obtain ⟨r, M', h, hl, R, p, hR, hv⟩ := softmaxModel_forward
  have h1 := hc exactEnv _ M' _ 0 r "c".toList h ⟨_, _, rfl, rfl⟩ (by decide)
  have h2 : M'.backwardsPropagation exactEnv r "c".toList 0 = .ub := by
    rcases hv with hv | hv
    · exact C58_reads_outside _ _ _ _ _ R hR 1 2 1 _ hv (by rw [hl]; rfl) (by rw [hl]; decide)
    · exact C58_reads_outside _ _ _ _ _ R hR 2 1 1 _ hv (by rw [hl]; rfl) (by rw [hl]; decide)
  rw [h1] at h2
  exact absurd h2 (by simp)

omit [Sub α] [Div α] in
/-- C58, what does hold: a label that is an output label is accepted; the stored index is that of its first occurrence, it is
what the output layer is told and the reported loss is the loss at that index. Missing: the report for unknown labels. -/
theorem C58_known_partial (E : Env α) (M : Model α) (r : Results α) (label : List Char) (R : Matrix α)
    (hR : r.inputs.getLast? = some R) (A B C : Nat) (f : Nat → Nat → Nat → α) (hf : R.Shows A B C f)
    (hsize : A * B * C = M.labels.length) (h : label ∈ M.labels) (l : Layer α) (S : Softmax)
    (hl : M.layers.getLast? = some l) (hS : l.body = .softmax S) (hcount : S.count = M.labels.length) :
    ∃ t, t < M.labels.length ∧ M.labels[t]? = some label ∧ (∀ t' < t, M.labels[t']? ≠ some label) ∧
      M.backwardBegin E r label =
        .ok ({ r with trueLabel := some label, trueIdx := some t,
                      loss := E.toFloat (E.num.max (-1 * E.num.log2 (flatOf A B f t + E.num.eps)) 0) },
             M.setBody (M.layers.length - 1) (.softmax ⟨S.count, t, true⟩)) := by
  have ht : M.labelIndex label < M.labels.length := by
    unfold labelIndex
    rw [List.findIdx_lt_length]
    exact ⟨label, h, by simp⟩
  refine ⟨M.labelIndex label, ht, ?_, ?_, ?_⟩
  · have := List.findIdx_getElem (xs := M.labels) (p := (· == label)) (w := ht)
    rw [List.getElem?_eq_getElem ht]
    exact congrArg some (beq_iff_eq.1 this)
  · intro t' ht' he
    obtain ⟨hlt, he⟩ := List.getElem?_eq_some_iff.1 he
    have := List.not_of_lt_findIdx (xs := M.labels) (p := (· == label)) ht'
    simp [he] at this
  · obtain ⟨R', e, s⟩ := Matrix.ofExpr_shows hf.expr (id : α → α)
    simp only [backwardBegin, assignLoss, hR, Res.ofOption_some, Res.bind_ok, e, lossFcn,
      s.flat_lt (n := M.labelIndex label) (by omega), hl, hS, Softmax.assignTrueLabel]
    rw [if_neg (by omega)]
    rfl

/-- The labels of `softmaxModel_forward` meet the hypotheses. -/
example : "b".toList ∈ (softmaxModel ["a".toList, "b".toList] : Model ℝ).labels ∧
    (softmaxModel ["a".toList, "b".toList] : Model ℝ).layers.getLast? =
      some ⟨"SoftmaxOutput".toList, .softmax (Softmax.new 2)⟩ := ⟨by decide, rfl⟩

end Cnn
