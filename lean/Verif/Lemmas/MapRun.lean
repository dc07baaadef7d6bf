import Verif.Lemmas.Room
import Verif.Lemmas.MapTrain
import Mathlib.Order.Filter.Basic
/-!
# A run and its image under a homomorphism of arithmetics
-/
set_option linter.unusedSectionVars false
namespace Cnn
open Res
variable {α β : Type} [Zero α] [One α] [Add α] [Sub α] [Mul α] [Div α] [Neg α] [Zero β] [One β] [Add β] [Sub β] [Mul β] [Div β] [Neg β]
variable {E : Env α} {val : α → ℝ} {E' : Env β} {φ : α → β}

/-- Every layer has the property. -/
def Model.All (Q : Nat → Body α → Prop) (M : Model α) : Prop := ∀ i l, M.layers[i]? = some l → Q i l.body

/-- A property of layers that does not change in training. -/
def Steady (Q : Nat → Body α → Prop) : Prop := ∀ i b b', Q i b → b.Like b' → Q i b'

namespace Model

theorem map_layers (M : Model α) (i : Nat) : (M.map φ).layers[i]? = (M.layers[i]?).map (Layer.map φ) := List.getElem?_map

theorem map_length (M : Model α) : (M.map φ).layers.length = M.layers.length := List.length_map ..

theorem setBody_map (M : Model α) (i : Nat) (b : Body α) : (M.map φ).setBody i (b.map φ) = (M.setBody i b).map φ := by
  unfold setBody Model.map
  simp only [Model.mk.injEq, and_true]
  refine List.ext_getElem? fun j => ?_
  rw [List.getElem?_modify, List.getElem?_map, List.getElem?_map, List.getElem?_modify]
  cases M.layers[j]? with
  | none => rfl
  | some l =>
    by_cases hj : i = j
    · simp [hj, Layer.map]
    · simp [hj]

theorem All.setBody {Q : Nat → Body α → Prop} {M : Model α} (h : M.All Q) {i : Nat} {b : Body α} (hb : ∀ l, M.layers[i]? = some l → Q i b) :
    (M.setBody i b).All Q := by
  intro j l hl
  unfold Model.setBody at hl
  simp only [List.getElem?_modify] at hl
  cases e : M.layers[j]? with
  | none => rw [e] at hl; cases hl
  | some l' =>
    rw [e] at hl
    by_cases hj : i = j
    · subst hj
      simp only [if_true, Option.map_eq_map, Option.map_some, Option.some.injEq] at hl
      subst hl
      exact hb l' e
    · simp only [hj, if_false, Option.map_eq_map, Option.map_some, Option.some.injEq] at hl
      subst hl
      exact h j l' e

theorem forwardLayer_map (h : Hom E val E' φ) (M : Model α) (hM : M.All fun i b => b.Sane (∀ n, val (E.draws i n) ≠ 0)) (t i : Nat)
    (X : Matrix α) (ha : ∀ l, M.layers[i]? = some l → l.body.FwdAlike E E' φ X) :
    (M.map φ).forwardLayer E' t i (X.map φ) = mapFst φ (Model.map φ) <$> M.forwardLayer E t i X := by
  unfold forwardLayer
  rw [map_layers, ← map_ofOption, bind_res_map, map_res_bind]
  cases hl : M.layers[i]? with
  | none => rfl
  | some l =>
    rw [ofOption_some, bind_ok, bind_ok]
    show (l.body.map φ).forward E'.num (E'.draws i) (X.map φ) t >>= _ = _
    rw [Body.forward_map h i l.body (hM i l hl) X (ha l hl), bind_res_map, map_res_bind]
    exact bind_congr' rfl fun r => by rw [setBody_map]; rfl

theorem record_map (h : Hom E val E' φ) (A : Matrix α) : record E' (A.map φ) = Matrix.map φ <$> record E A := by
  unfold record
  rw [Matrix.expr_map]
  exact Matrix.ofExpr_map φ φ h.zero E.toFloat E'.toFloat (fun a => (h.toFloat a).symm) _

/-- The map of the active data and the records. -/
abbrev mapState (φ : α → β) (s : Matrix α × List (Matrix α)) : Matrix β × List (Matrix β) := (s.1.map φ, s.2.map (Matrix.map φ))

theorem forwardBegin_map (h : Hom E val E' φ) (X : Matrix α) : forwardBegin E' (X.map φ) = mapState φ <$> forwardBegin E X := by
  unfold forwardBegin
  rw [Matrix.expr_map, Matrix.ofExpr_id_map φ h.zero, bind_res_map, map_res_bind]
  refine bind_congr' rfl fun A => ?_
  rw [record_map h, bind_res_map, map_res_bind]
  exact bind_congr' rfl fun R => rfl

theorem forwardStep_map (h : Hom E val E' φ) (t : Nat) (s : (Matrix α × List (Matrix α)) × Model α)
    (hM : s.2.All fun i b => b.Sane (∀ n, val (E.draws i n) ≠ 0)) (i : Nat)
    (ha : ∀ l, s.2.layers[i]? = some l → l.body.FwdAlike E E' φ s.1.1) :
    forwardStep E' t (mapState φ s.1, s.2.map φ) i = (fun s => (mapState φ s.1, s.2.map φ)) <$> forwardStep E t s i := by
  unfold forwardStep
  rw [forwardLayer_map h s.2 hM t i s.1.1 ha, bind_res_map, map_res_bind]
  refine bind_congr' rfl fun r => ?_
  rw [record_map h, bind_res_map, map_res_bind]
  exact bind_congr' rfl fun R => by rw [map_ok]; simp [mapState]

theorem backwardStep_map (h : Hom E val E' φ) {D : Nat → Prop} (r : Results α) (r' : Results β) (hr : r'.inputs = r.inputs.map (Matrix.map φ)) (t : Nat)
    (s : Matrix α × Model α) (hM : s.2.All fun i b => b.Sane (D i)) (i : Nat)
    (ha : ∀ Z Z' l, r.inputs[i + 1]? = some Z → Matrix.ofExpr id Z.expr = .ok Z' → s.2.layers[i]? = some l → l.body.BwdAlike E E' φ Z') :
    backwardStep E' r' t (s.1.map φ, s.2.map φ) i = (fun s => (s.1.map φ, s.2.map φ)) <$> backwardStep E r t s i := by
  have hrec : ∀ j, recordAt r' j = Matrix.map φ <$> recordAt r j := by
    intro j
    unfold recordAt
    rw [hr, List.getElem?_map]
    cases r.inputs[j]? <;> rfl
  unfold backwardStep
  rw [hrec, bind_res_map, map_res_bind]
  refine bind_congr' rfl fun X => ?_
  rw [hrec, bind_res_map, map_res_bind]
  cases hZ : recordAt r (i + 1) with
  | ok Z =>
    rw [bind_ok, bind_ok, map_layers, ← map_ofOption, bind_res_map, map_res_bind]
    cases hl : s.2.layers[i]? with
    | none => rfl
    | some l =>
      rw [ofOption_some, bind_ok, bind_ok, map_res_bind, Matrix.expr_map, Matrix.ofExpr_id_map φ h.zero, bind_res_map]
      refine bind_congr' rfl fun X' => ?_
      rw [map_res_bind, Matrix.expr_map, Matrix.ofExpr_id_map φ h.zero, bind_res_map]
      cases hZ' : Matrix.ofExpr id Z.expr with
      | ok Z' =>
        rw [bind_ok, bind_ok, map_res_bind]
        have hZi : r.inputs[i + 1]? = some Z := by
          unfold recordAt at hZ
          cases e : r.inputs[i + 1]? with
          | none => rw [e] at hZ; cases hZ
          | some A => rw [e] at hZ; cases hZ; rfl
        show (l.body.map φ).backward E'.num E'.order (X'.map φ) (Z'.map φ) (s.1.map φ) t _ >>= _ = _
        rw [Body.backward_map h l.body (hM i l hl) X' Z' s.1 (ha Z Z' l hZi hZ' hl), bind_res_map]
        exact bind_congr' rfl fun q => by rw [setBody_map]; rfl
      | _ => rfl
  | _ => rfl

theorem mapM_map {σ τ : Type} (g : σ → τ) (l : List σ) {f : σ → Res σ} {f' : τ → Res τ} (h : ∀ a ∈ l, f' (g a) = g <$> f a) :
    (l.map g).mapM f' = List.map g <$> l.mapM f := by
  induction l with
  | nil => rfl
  | cons a l ih =>
    rw [List.map_cons, List.mapM_cons, List.mapM_cons, h a (by simp), ih fun b hb => h b (List.mem_cons_of_mem _ hb)]
    cases f a with
    | ok b => cases l.mapM f <;> rfl
    | _ => rfl

theorem applyBatch_map (h : Hom E val E' φ) {D : Nat → Prop} (M : Model α) (hM : M.All fun i b => b.Sane (D i)) (lr : α) :
    (M.map φ).applyBatch E'.num (φ lr) = Model.map φ <$> M.applyBatch E.num lr := by
  unfold applyBatch
  rw [map_res_bind]
  show (M.layers.map (Layer.map φ)).mapM _ >>= _ = _
  rw [mapM_map (Layer.map φ) M.layers (f := fun l => do
    let b ← l.body.applyBatch E.num lr
    .ok { l with body := b }) fun l hl => ?_, bind_res_map]
  · exact bind_congr' rfl fun ls => rfl
  · obtain ⟨i, hi⟩ := List.mem_iff_getElem?.mp hl
    show (l.body.map φ).applyBatch E'.num (φ lr) >>= _ = _
    rw [Body.applyBatch_map h l.body (hM i l hi), bind_res_map, map_res_bind]
    exact bind_congr' rfl fun b => rfl

theorem setBatchSize_map (M : Model α) (n : Nat) : (M.map φ).setBatchSize n = (M.setBatchSize n).map φ := by
  unfold setBatchSize Model.map
  simp only [Model.mk.injEq, and_true, List.map_map]
  refine List.map_congr_left fun l _ => ?_
  show (⟨l.name, (l.body.map φ).setBatchSize n⟩ : Layer β) = ⟨l.name, (l.body.setBatchSize n).map φ⟩
  rw [Body.setBatchSize_map]

/-! ### What does not change -/

theorem mapM_getElem {σ τ : Type} {f : σ → Res τ} {l : List σ} {r : List τ} (h : l.mapM f = .ok r) (i : Nat) (b : τ) (hb : r[i]? = some b) :
    ∃ a, l[i]? = some a ∧ f a = .ok b := by
  induction l generalizing r i with
  | nil => cases h; simp at hb
  | cons a l ih =>
    rw [List.mapM_cons] at h
    obtain ⟨c, hc, h⟩ := Res.bind_eq_ok h
    obtain ⟨r', hr, h⟩ := Res.bind_eq_ok h
    cases h
    cases i with
    | zero => cases hb; exact ⟨a, rfl, hc⟩
    | succ i => exact ih hr i hb

theorem applyBatch_all {Q : Nat → Body α → Prop} (hQ : Steady Q) {N : Num α} {lr : α} {M M' : Model α} (h : M.applyBatch N lr = .ok M')
    (hM : M.All Q) : M'.All Q := by
  unfold applyBatch at h
  obtain ⟨ls, hls, h⟩ := Res.bind_eq_ok h
  cases h
  intro i l hl
  obtain ⟨a, ha, hf⟩ := mapM_getElem hls i l hl
  obtain ⟨b, hb, hf⟩ := Res.bind_eq_ok hf
  cases hf
  exact hQ i _ _ (hM i a ha) (Body.applyBatch_like hb)

theorem forwardStep_all {Q : Nat → Body α → Prop} (hQ : Steady Q) {t : Nat} {s s' : (Matrix α × List (Matrix α)) × Model α} {i : Nat}
    (h : forwardStep E t s i = .ok s') (hM : s.2.All Q) : s'.2.All Q := by
  unfold forwardStep at h
  obtain ⟨r, hr, h⟩ := Res.bind_eq_ok h
  obtain ⟨R, _, h⟩ := Res.bind_eq_ok h
  cases h
  unfold forwardLayer at hr
  obtain ⟨l, hl, hr⟩ := Res.bind_eq_ok hr
  obtain ⟨q, hq, hr⟩ := Res.bind_eq_ok hr
  cases hr
  have hl : s.2.layers[i]? = some l := by
    cases e : s.2.layers[i]? with
    | none => rw [e] at hl; cases hl
    | some a => rw [e] at hl; cases hl; rfl
  exact hM.setBody fun l' hl' => hQ i _ _ (hM i l hl) (Body.forward_like (Y := q.1) (b' := q.2) hq)

theorem backwardStep_all {Q : Nat → Body α → Prop} (hQ : Steady Q) {r : Results α} {t : Nat} {s s' : Matrix α × Model α} {i : Nat}
    (h : backwardStep E r t s i = .ok s') (hM : s.2.All Q) : s'.2.All Q := by
  unfold backwardStep at h
  obtain ⟨_, _, h⟩ := Res.bind_eq_ok h
  obtain ⟨_, _, h⟩ := Res.bind_eq_ok h
  obtain ⟨l, hl, h⟩ := Res.bind_eq_ok h
  obtain ⟨_, _, h⟩ := Res.bind_eq_ok h
  obtain ⟨_, _, h⟩ := Res.bind_eq_ok h
  obtain ⟨q, hq, h⟩ := Res.bind_eq_ok h
  cases h
  have hl : s.2.layers[i]? = some l := by
    cases e : s.2.layers[i]? with
    | none => rw [e] at hl; cases hl
    | some a => rw [e] at hl; cases hl; rfl
  exact hM.setBody fun l' hl' => hQ i _ _ (hM i l hl) (Body.backward_like (Y := q.1) (b' := q.2) hq)

end Model

namespace Train
open Model

/-! ## Related states -/

/-- `φ` takes one place in a thread to the other; success and loss are left out. -/
inductive Pc.Rel (φ : α → β) : Pc α → Pc β → Prop
  | fetch (s : Nat) : Rel φ (.fetch s) (.fetch s)
  | forward (s : Nat) (x : Sample α) (i : Nat) (q : Matrix α × List (Matrix α)) : Rel φ (.forward s x i q) (.forward s (x.map φ) i (mapState φ q))
  | label (s : Nat) (x : Sample α) (r : Results α) (r' : Results β) (h : r'.inputs = r.inputs.map (Matrix.map φ)) :
      Rel φ (.label s x r) (.label s (x.map φ) r')
  | backward (s : Nat) (x : Sample α) (r : Results α) (r' : Results β) (n : Nat) (G : Matrix α) (h : r'.inputs = r.inputs.map (Matrix.map φ)) :
      Rel φ (.backward s x r n G) (.backward s (x.map φ) r' n (G.map φ))
  | done (s : Nat) : Rel φ (.done s) (.done s)

structure Shared.Rel (φ : α → β) (sh : Shared α) (sh' : Shared β) : Prop where
  model : sh'.model = sh.model.map φ
  source : sh'.source = sh.source.map (Sample.map φ)

structure Batch.Rel (φ : α → β) (s : Batch α) (s' : Batch β) : Prop where
  shared : s.shared.Rel φ s'.shared
  workers : List.Forall₂ (fun w w' => w'.1 = w.1 ∧ Pc.Rel φ w.2 w'.2) s.workers s'.workers

/-- The label can be chosen in the other arithmetic, too. -/
def EndOk (E : Env α) (E' : Env β) (φ : α → β) (A : Matrix α) : Prop :=
  ∀ i c, MExpr.maxIndexFlat E.num.lt A.expr = .ok i → A.flat i = .ok c →
    ∃ i' c', MExpr.maxIndexFlat E'.num.lt (A.map φ).expr = .ok i' ∧ (A.map φ).flat i' = .ok c'

/-- What is returned, if anything, is related; if `T`, something is. -/
structure Holds (T : Prop) {σ : Type} (x : Res σ) (R : σ → Prop) : Prop where
  total : T → ∃ r, x = .ok r
  rel : ∀ r, x = .ok r → R r

theorem Holds.of {T : Prop} {σ : Type} {x : Res σ} {R : σ → Prop} {r : σ} (h : x = .ok r) (hr : R r) : Holds T x R :=
  ⟨fun _ => ⟨r, h⟩, fun q hq => by rw [h] at hq; cases hq; exact hr⟩

theorem Holds.bind {T : Prop} {σ τ : Type} {x : Res σ} {R : σ → Prop} {f : σ → Res τ} {S : τ → Prop} (h : Holds T x R)
    (hf : ∀ a, R a → Holds T (f a) S) : Holds T (x >>= f) S := by
  refine ⟨fun t => ?_, fun r hr => ?_⟩
  · obtain ⟨a, ha⟩ := h.total t
    rw [ha, bind_ok]
    exact (hf a (h.rel a ha)).total t
  · obtain ⟨a, ha, hr⟩ := Res.bind_eq_ok hr
    exact (hf a (h.rel a ha)).rel r hr

/-- The comparisons that the next step of a thread makes come out the same, or do not matter. -/
def StepOk (T : Prop) (E : Env α) (E' : Env β) (φ : α → β) (M : Model α) : Pc α → Prop
  | .forward _ _ i s => (∀ l, M.layers[i]? = some l → l.body.FwdAlike E E' φ s.1) ∧ (T → M.layers.length ≤ i → EndOk E E' φ s.1)
  | .backward _ _ r (i + 1) _ => ∀ Z Z' l, r.inputs[i + 1]? = some Z → Matrix.ofExpr id Z.expr = .ok Z' → M.layers[i]? = some l →
      l.body.BwdAlike E E' φ Z'
  | _ => True

theorem forwardEnd_rel {M : Model α} {A : Matrix α} {rec : List (Matrix α)} {r : Results α} (he : EndOk E E' φ A)
    (h : forwardEnd E M A rec = .ok r) : ∃ r', forwardEnd E' (M.map φ) (A.map φ) (rec.map (Matrix.map φ)) = .ok r' ∧
      r'.inputs = r.inputs.map (Matrix.map φ) := by
  unfold forwardEnd at h ⊢
  rw [Matrix.map_dim, show (M.map φ).labels = M.labels from rfl]
  obtain ⟨n, hn, h⟩ := Res.bind_eq_ok h
  rw [hn, bind_ok]
  split at h
  · cases h
  · next hne =>
    rw [if_neg hne]
    obtain ⟨i, hi, h⟩ := Res.bind_eq_ok h
    obtain ⟨c, hc, h⟩ := Res.bind_eq_ok h
    cases h
    obtain ⟨i', c', h1, h2⟩ := he i c hi hc
    rw [h1, bind_ok, h2, bind_ok]
    exact ⟨_, rfl, rfl⟩

theorem backwardBegin_rel (h0 : φ 0 = 0) {M : Model α} {r : Results α} {r' : Results β} (hr : r'.inputs = r.inputs.map (Matrix.map φ))
    {label : List Char} {q : Results α × Model α} (h : M.backwardBegin E r label = .ok q) :
    ∃ q', (M.map φ).backwardBegin E' r' label = .ok q' ∧ q'.1.inputs = q.1.inputs.map (Matrix.map φ) ∧ q'.2 = q.2.map φ := by
  unfold backwardBegin at h ⊢
  obtain ⟨r1, h1, h⟩ := Res.bind_eq_ok h
  unfold assignLoss at h1 ⊢
  obtain ⟨out, h2, h1⟩ := Res.bind_eq_ok h1
  obtain ⟨out', h3, h1⟩ := Res.bind_eq_ok h1
  obtain ⟨loss, h4, h1⟩ := Res.bind_eq_ok h1
  cases h1
  obtain ⟨l, hl, h⟩ := Res.bind_eq_ok h
  have hi : (M.map φ).labelIndex label = M.labelIndex label := rfl
  unfold lossFcn at h4
  obtain ⟨p, hp, h4⟩ := Res.bind_eq_ok h4
  have e1 : lossFcn E'.num (out'.map φ) (M.labelIndex label) = .ok (E'.num.max (-1 * E'.num.log2 (φ p + E'.num.eps)) 0) := by
    unfold lossFcn
    rw [Matrix.flat_map, hp]; rfl
  have e2 : Res.ofOption r'.inputs.getLast? = .ok (out.map φ) := by
    rw [hr, List.getLast?_map, ← map_ofOption, h2]; rfl
  have e3 : Res.ofOption (M.map φ).layers.getLast? = .ok (l.map φ) := by
    show Res.ofOption (M.layers.map (Layer.map φ)).getLast? = _
    rw [List.getLast?_map, ← map_ofOption, hl]; rfl
  rw [e2, bind_ok, Matrix.expr_map, Matrix.ofExpr_id_map φ h0, h3, map_ok, bind_ok, hi, e1, bind_ok, bind_ok, e3, bind_ok]
  obtain ⟨name, b⟩ := l
  cases b with
  | softmax S =>
    show ∃ q', ((S.assignTrueLabel (M.labelIndex label)).1 >>= fun _ => Res.ok (_, (M.map φ).setBody ((M.map φ).layers.length - 1)
      (.softmax (S.assignTrueLabel (M.labelIndex label)).2))) = .ok q' ∧ _
    replace h : ((S.assignTrueLabel (M.labelIndex label)).1 >>= fun _ => Res.ok (_, M.setBody (M.layers.length - 1)
      (.softmax (S.assignTrueLabel (M.labelIndex label)).2))) = .ok q := h
    obtain ⟨u, hu, h⟩ := Res.bind_eq_ok h
    rw [hu, bind_ok]
    cases h
    refine ⟨_, rfl, hr, ?_⟩
    rw [map_length]
    exact setBody_map M (M.layers.length - 1) (.softmax (S.assignTrueLabel (M.labelIndex label)).2)
  | _ => cases h

theorem backwardBegin_all {Q : Nat → Body α → Prop} (hQ : Steady Q) {M : Model α} {r : Results α} {label : List Char} {q : Results α × Model α}
    (h : M.backwardBegin E r label = .ok q) (hM : M.All Q) : q.2.All Q := by
  unfold backwardBegin at h
  obtain ⟨r1, h1, h⟩ := Res.bind_eq_ok h
  obtain ⟨l, hl, h⟩ := Res.bind_eq_ok h
  obtain ⟨name, b⟩ := l
  cases b with
  | softmax S =>
    replace h : ((S.assignTrueLabel (M.labelIndex label)).1 >>= fun _ => Res.ok (_, M.setBody (M.layers.length - 1)
      (.softmax (S.assignTrueLabel (M.labelIndex label)).2))) = .ok q := h
    obtain ⟨u, hu, h⟩ := Res.bind_eq_ok h
    cases h
    refine hM.setBody fun l' hl' => ?_
    have : M.layers[M.layers.length - 1]? = some ⟨name, .softmax S⟩ := by
      rw [List.getLast?_eq_getElem?] at hl
      cases e : M.layers[M.layers.length - 1]? with
      | none => rw [e] at hl; cases hl
      | some a => rw [e] at hl; cases hl; rfl
    exact hQ _ _ _ (hM _ _ this) trivial
  | _ => cases h

theorem forwardEnd_holds {T : Prop} {M : Model α} {A : Matrix α} {rec : List (Matrix α)} {r : Results α} (he : T → EndOk E E' φ A)
    (h : forwardEnd E M A rec = .ok r) : Holds T (forwardEnd E' (M.map φ) (A.map φ) (rec.map (Matrix.map φ)))
      fun r' => r'.inputs = r.inputs.map (Matrix.map φ) := by
  refine ⟨fun t => ?_, fun r' hr' => ?_⟩
  · obtain ⟨r', h', _⟩ := forwardEnd_rel (he t) h
    exact ⟨r', h'⟩
  · unfold forwardEnd at h hr'
    obtain ⟨_, _, h⟩ := Res.bind_eq_ok h
    obtain ⟨_, _, hr'⟩ := Res.bind_eq_ok hr'
    split at h
    · cases h
    · split at hr'
      · cases hr'
      · obtain ⟨_, _, h⟩ := Res.bind_eq_ok h
        obtain ⟨_, _, h⟩ := Res.bind_eq_ok h
        obtain ⟨_, _, hr'⟩ := Res.bind_eq_ok hr'
        obtain ⟨_, _, hr'⟩ := Res.bind_eq_ok hr'
        cases h
        cases hr'
        rfl

/-- One step of a thread. -/
theorem Pc.step_rel {T : Prop} (h : Hom E val E' φ) {t c : Nat} {sh : Shared α} {sh' : Shared β} (hs : sh.Rel φ sh')
    (hM : sh.model.All fun i b => b.Sane (∀ n, val (E.draws i n) ≠ 0)) {pc : Pc α} {pc' : Pc β} (hp : Pc.Rel φ pc pc')
    (ho : StepOk T E E' φ sh.model pc) {r : Pc α × Shared α × List (Event α)} (hr : pc.step E t c sh = .ok r) :
    Holds T (pc'.step E' t c sh') fun r' => Pc.Rel φ r.1 r'.1 ∧ r.2.1.Rel φ r'.2.1 := by
  obtain ⟨hm, hso⟩ := hs
  cases hp with
  | fetch s =>
    simp only [Pc.step] at hr ⊢
    split at hr
    · next hc =>
      rw [if_pos hc, hso]
      cases hsrc : sh.source with
      | nil => rw [hsrc] at hr; cases hr; exact .of rfl ⟨.done s, ⟨hm, hso⟩⟩
      | cons x rest =>
        rw [hsrc] at hr
        obtain ⟨q, hq, hr⟩ := Res.bind_eq_ok hr
        cases hr
        simp only [List.map_cons]
        rw [show (x.map φ).data = x.data.map φ from rfl, forwardBegin_map h, hq, map_ok, bind_ok]
        exact .of rfl ⟨.forward s x 0 q, ⟨hm, rfl⟩⟩
    · next hc =>
      rw [if_neg hc]
      cases hr
      exact .of rfl ⟨.done s, ⟨hm, hso⟩⟩
  | forward s x i q =>
    simp only [Pc.step] at hr ⊢
    rw [hm, map_length]
    split at hr
    · next hi =>
      rw [if_pos hi]
      obtain ⟨w, hw, hr⟩ := Res.bind_eq_ok hr
      cases hr
      have := forwardStep_map h s (q, sh.model) hM i ho.1
      rw [show ((mapState φ q, sh.model.map φ) : (Matrix β × List (Matrix β)) × Model β) = (mapState φ (q, sh.model).1, (q, sh.model).2.map φ) from rfl,
        this, hw, map_ok, bind_ok]
      exact .of rfl ⟨.forward s x (i + 1) w.1, ⟨rfl, hso⟩⟩
    · next hi =>
      rw [if_neg hi]
      obtain ⟨w, hw, hr⟩ := Res.bind_eq_ok hr
      cases hr
      exact (forwardEnd_holds (fun t => ho.2 t (by omega)) hw).bind fun r' h2 => .of rfl ⟨.label s x w r' h2, ⟨hm, hso⟩⟩
  | label s x w w' hw =>
    simp only [Pc.step] at hr ⊢
    obtain ⟨q, hq, hr⟩ := Res.bind_eq_ok hr
    cases hr
    obtain ⟨q', h1, h2, h3⟩ := backwardBegin_rel (E := E) (E' := E') h.zero hw hq
    rw [hm, show (x.map φ).label = x.label from rfl, h1, bind_ok]
    refine .of rfl ⟨?_, ⟨h3, hso⟩⟩
    rw [map_length]
    exact .backward s x q.1 q'.1 _ Matrix.empty h2
  | backward s x w w' n G hw =>
    cases n with
    | zero =>
      simp only [Pc.step] at hr ⊢
      cases hr
      exact .of rfl ⟨.fetch (s + 1), ⟨hm, hso⟩⟩
    | succ i =>
      simp only [Pc.step] at hr ⊢
      obtain ⟨q, hq, hr⟩ := Res.bind_eq_ok hr
      cases hr
      have := backwardStep_map h w w' hw s (G, sh.model) hM i ho
      rw [hm, show ((G.map φ, sh.model.map φ) : Matrix β × Model β) = ((G, sh.model).1.map φ, (G, sh.model).2.map φ) from rfl, this, hq, map_ok, bind_ok]
      exact .of rfl ⟨.backward s x w w' i q.1 hw, ⟨rfl, hso⟩⟩
  | done s =>
    simp only [Pc.step] at hr ⊢
    cases hr
    exact .of rfl ⟨.done s, ⟨hm, hso⟩⟩

theorem Pc.step_all {Q : Nat → Body α → Prop} (hQ : Steady Q) {t c : Nat} {sh : Shared α} (hM : sh.model.All Q) {pc : Pc α}
    {r : Pc α × Shared α × List (Event α)} (hr : pc.step E t c sh = .ok r) : r.2.1.model.All Q := by
  cases pc with
  | fetch s =>
    simp only [Pc.step] at hr
    split at hr
    · cases hsrc : sh.source with
      | nil => rw [hsrc] at hr; cases hr; exact hM
      | cons x rest =>
        rw [hsrc] at hr
        obtain ⟨q, hq, hr⟩ := Res.bind_eq_ok hr
        cases hr; exact hM
    · cases hr; exact hM
  | forward s x i q =>
    simp only [Pc.step] at hr
    split at hr
    · obtain ⟨w, hw, hr⟩ := Res.bind_eq_ok hr
      cases hr
      exact forwardStep_all hQ hw hM
    · obtain ⟨w, hw, hr⟩ := Res.bind_eq_ok hr
      cases hr; exact hM
  | label s x w =>
    simp only [Pc.step] at hr
    obtain ⟨q, hq, hr⟩ := Res.bind_eq_ok hr
    cases hr
    exact backwardBegin_all hQ hq hM
  | backward s x w n G =>
    cases n with
    | zero => simp only [Pc.step] at hr; cases hr; exact hM
    | succ i =>
      simp only [Pc.step] at hr
      obtain ⟨q, hq, hr⟩ := Res.bind_eq_ok hr
      cases hr
      exact backwardStep_all hQ hq hM
  | done s => simp only [Pc.step] at hr; cases hr; exact hM

theorem terminate_ok {σ : Type} {x : Res σ} {a : σ} (h : terminate x = .ok a) : x = .ok a := by
  cases x <;> first | exact h | cases h

/-- One step of a batch. -/
theorem Batch.step_rel {T : Prop} (h : Hom E val E' φ) {s : Batch α} {s' : Batch β} (hs : s.Rel φ s')
    (hM : s.shared.model.All fun i b => b.Sane (∀ n, val (E.draws i n) ≠ 0)) {t : Nat} (ho : ∀ w, s.workers[t]? = some w → StepOk T E E' φ s.shared.model w.2)
    {r : Batch α × List (Event α)} (hr : s.step E t = .ok r) : Holds T (s'.step E' t) fun r' => r.1.Rel φ r'.1 := by
  unfold Batch.step at hr ⊢
  cases hw : s.workers[t]? with
  | none =>
    have hw' : s'.workers[t]? = none := by
      rw [List.getElem?_eq_none_iff] at hw ⊢
      rw [← hs.workers.length_eq]; exact hw
    rw [hw] at hr
    rw [hw']
    cases hr
    exact .of rfl hs
  | some w =>
    obtain ⟨ht, he⟩ := List.getElem?_eq_some_iff.mp hw
    have ht' : t < s'.workers.length := by rw [← hs.workers.length_eq]; exact ht
    have hw' : s'.workers[t]? = some s'.workers[t] := List.getElem?_eq_getElem ht'
    have hp := hs.workers.get ht ht'
    simp only [List.get_eq_getElem] at hp
    rw [hw] at hr
    rw [hw']
    rw [he] at hp
    obtain ⟨q, hq, hr⟩ := Res.bind_eq_ok hr
    cases hr
    have key := Pc.step_rel h hs.shared hM hp.2 (ho w hw) (terminate_ok hq)
    have key' : Holds T (terminate ((s'.workers[t]).2.step E' t (s'.workers[t]).1 s'.shared))
        fun r' => Pc.Rel φ q.1 r'.1 ∧ q.2.1.Rel φ r'.2.1 := by
      rw [hp.1]
      exact ⟨fun T => by obtain ⟨r, hr⟩ := key.total T; exact ⟨r, by rw [hr]; rfl⟩, fun r hr => key.rel r (terminate_ok hr)⟩
    refine key'.bind fun q' hq' => .of rfl ?_
    obtain ⟨h2, h3⟩ := hq'
    refine ⟨h3, ?_⟩
    refine List.forall₂_iff_get.mpr ⟨?_, fun i hi hi' => ?_⟩
    · simp [hs.workers.length_eq]
    · simp only [List.get_eq_getElem, List.getElem_set]
      split
      · exact ⟨hp.1, h2⟩
      · have := hs.workers.get (i := i) (by simpa using hi) (by simpa using hi')
        simpa using this

theorem Batch.step_all {Q : Nat → Body α → Prop} (hQ : Steady Q) {s : Batch α} (hM : s.shared.model.All Q) {t : Nat}
    {r : Batch α × List (Event α)} (hr : s.step E t = .ok r) : r.1.shared.model.All Q := by
  unfold Batch.step at hr
  cases hw : s.workers[t]? with
  | none => rw [hw] at hr; cases hr; exact hM
  | some w =>
    rw [hw] at hr
    obtain ⟨q, hq, hr⟩ := Res.bind_eq_ok hr
    cases hr
    exact Pc.step_all hQ hM (terminate_ok hq)

theorem Batch.run_all {Q : Nat → Body α → Prop} (hQ : Steady Q) {ts : List Nat} {s : Batch α} (hM : s.shared.model.All Q)
    {r : Batch α × List (Event α)} (hr : s.run E ts = .ok r) : r.1.shared.model.All Q := by
  induction ts generalizing s r with
  | nil => cases hr; exact hM
  | cons t ts ih =>
    simp only [Batch.run] at hr
    obtain ⟨q, hq, hr⟩ := Res.bind_eq_ok hr
    obtain ⟨w, hw, hr⟩ := Res.bind_eq_ok hr
    cases hr
    exact ih (r := w) (Batch.step_all hQ hM hq) hw

theorem Batch.over_rel {s : Batch α} {s' : Batch β} (hs : s.Rel φ s') : s'.over = s.over := by
  unfold Batch.over
  have := hs.workers
  clear hs
  generalize s.workers = w, s'.workers = w' at this ⊢
  induction this with
  | nil => rfl
  | cons h _ ih =>
    simp only [List.all_cons, ih]
    congr 1
    obtain ⟨_, h⟩ := h
    revert h
    generalize Prod.snd _ = a, Prod.snd _ = b
    intro h
    cases h <;> rfl

theorem startBatch_rel {sh : Shared α} {sh' : Shared β} (hs : sh.Rel φ sh') {batch threads : Int} {s : Batch α}
    (h : startBatch batch threads sh = .ok s) : s.shared = sh ∧ ∃ s', startBatch batch threads sh' = .ok s' ∧ s.Rel φ s' := by
  unfold startBatch at h ⊢
  obtain ⟨w, hw, h⟩ := Res.bind_eq_ok h
  obtain ⟨ws, hws, h⟩ := Res.bind_eq_ok h
  cases h
  refine ⟨rfl, ?_⟩
  rw [hw, bind_ok]
  have key : ∀ (l : List Nat) (ws : List (Nat × Pc α)), l.mapM (fun t => do
      let r ← workRange w batch t
      Res.ok (r.2, Pc.fetch r.1)) = .ok ws → ∃ ws' : List (Nat × Pc β), l.mapM (fun t => do
      let r ← workRange w batch t
      Res.ok (r.2, Pc.fetch r.1)) = .ok ws' ∧ List.Forall₂ (fun w w' => w'.1 = w.1 ∧ Pc.Rel φ w.2 w'.2) ws ws' := by
    intro l
    induction l with
    | nil => intro ws h; cases h; exact ⟨[], rfl, .nil⟩
    | cons t l ih =>
      intro ws h
      rw [List.mapM_cons] at h
      obtain ⟨a, ha, h⟩ := Res.bind_eq_ok h
      obtain ⟨b, hb, h⟩ := Res.bind_eq_ok h
      cases h
      obtain ⟨r, hr, ha⟩ := Res.bind_eq_ok ha
      cases ha
      obtain ⟨ws', h1, h2⟩ := ih b hb
      rw [List.mapM_cons, hr, bind_ok, bind_ok, h1, bind_ok]
      exact ⟨_, rfl, .cons ⟨rfl, .fetch _⟩ h2⟩
  obtain ⟨ws', h1, h2⟩ := key _ ws hws
  rw [h1, bind_ok]
  exact ⟨_, rfl, hs, h2⟩

/-! ## Many homomorphisms at once -/

section
variable {T : Prop} {ι : Type} {U : Filter ι} {γ : ι → Type} [∀ k, Zero (γ k)] [∀ k, One (γ k)] [∀ k, Add (γ k)] [∀ k, Sub (γ k)] [∀ k, Mul (γ k)]
  [∀ k, Div (γ k)] [∀ k, Neg (γ k)] {F : ∀ k, Env (γ k)} {ψ : ∀ k, α → γ k} {Q : Nat → Body α → Prop}

/-- Homomorphisms under which each step of a thread can be followed by most of them. -/
structure Follow (T : Prop) (E : Env α) (val : α → ℝ) (U : Filter ι) (F : ∀ k, Env (γ k)) (ψ : ∀ k, α → γ k) (Q : Nat → Body α → Prop) : Prop where
  hom : ∀ k, Hom E val (F k) (ψ k)
  steady : Steady Q
  sane : ∀ i b, Q i b → b.Sane (∀ n, val (E.draws i n) ≠ 0)
  step : ∀ M pc, M.All Q → ∀ᶠ k in U, StepOk T E (F k) (ψ k) M pc

variable (f : Follow T E val U F ψ Q)
include f

theorem Follow.saneAll {M : Model α} (hM : M.All Q) : M.All fun i b => b.Sane (∀ n, val (E.draws i n) ≠ 0) :=
  fun i l hl => f.sane i _ (hM i l hl)

theorem Follow.run (ts : List Nat) (s : Batch α) (hM : s.shared.model.All Q) {r : Batch α × List (Event α)} (hr : s.run E ts = .ok r) :
    ∀ᶠ k in U, ∀ s', s.Rel (ψ k) s' → Holds T (s'.run (F k) ts) fun r' => r.1.Rel (ψ k) r'.1 := by
  induction ts generalizing s r with
  | nil =>
    cases hr
    exact .of_forall fun k s' hs => .of rfl hs
  | cons t ts ih =>
    simp only [Batch.run] at hr
    obtain ⟨q, hq, hr⟩ := Res.bind_eq_ok hr
    obtain ⟨w, hw, hr⟩ := Res.bind_eq_ok hr
    cases hr
    have ho : ∀ᶠ k in U, ∀ w, s.workers[t]? = some w → StepOk T E (F k) (ψ k) s.shared.model w.2 := by
      cases e : s.workers[t]? with
      | none => exact .of_forall fun k w h => by cases h
      | some w =>
        filter_upwards [f.step _ w.2 hM] with k hk
        intro w' h'
        cases h'
        exact hk
    filter_upwards [ho, ih q.1 (Batch.step_all f.steady hM hq) hw] with k h1 h2
    intro s' hs
    simp only [Batch.run]
    exact (Batch.step_rel (f.hom k) hs (f.saneAll hM) h1 hq).bind fun q' h4 => (h2 q'.1 h4).bind fun w' h6 => .of rfl h6

/-- Both runs are complete, with related ends, or neither is. -/
def EndRel (φ : α → β) : Option (Shared α × List (Event α)) → Option (Shared β × List (Event β)) → Prop
  | none, none => True
  | some r, some r' => r.1.Rel φ r'.1
  | _, _ => False

theorem runBatch_all {p : Hyper α} {sched : List Nat} {sh : Shared α} (hM : sh.model.All Q) {r : Shared α × List (Event α)}
    (hr : runBatch E p sched sh = .ok (some r)) : r.1.model.All Q := by
  unfold runBatch at hr
  obtain ⟨s, hs, hr⟩ := Res.bind_eq_ok hr
  obtain ⟨q, hq, hr⟩ := Res.bind_eq_ok hr
  split at hr
  · obtain ⟨M, h, hr⟩ := Res.bind_eq_ok hr
    cases hr
    have : s.shared = sh := by
      unfold startBatch at hs
      obtain ⟨w, hw, hs⟩ := Res.bind_eq_ok hs
      obtain ⟨ws, hws, hs⟩ := Res.bind_eq_ok hs
      cases hs; rfl
    exact applyBatch_all f.steady h (Batch.run_all f.steady (this ▸ hM) hq)
  · cases hr

theorem Follow.runBatch {p : Hyper α} (sched : List Nat) (sh : Shared α) (hM : sh.model.All Q) {o : Option (Shared α × List (Event α))}
    (hr : runBatch E p sched sh = .ok o) :
    ∀ᶠ k in U, ∀ sh', sh.Rel (ψ k) sh' → Holds T (runBatch (F k) (p.map (ψ k)) sched sh') fun o' => EndRel (ψ k) o o' := by
  unfold Train.runBatch at hr ⊢
  obtain ⟨s, hs, hr⟩ := Res.bind_eq_ok hr
  obtain ⟨q, hq, hr⟩ := Res.bind_eq_ok hr
  have e : s.shared = sh := by
    unfold startBatch at hs
    obtain ⟨w, hw, hs⟩ := Res.bind_eq_ok hs
    obtain ⟨ws, hws, hs⟩ := Res.bind_eq_ok hs
    cases hs; rfl
  have hM' : s.shared.model.All Q := e ▸ hM
  filter_upwards [f.run sched s hM' hq] with k hk
  intro sh' hsh
  obtain ⟨_, s', h1, h2⟩ := startBatch_rel hsh hs
  rw [show (p.map (ψ k)).batch = p.batch from rfl, show (p.map (ψ k)).threads = p.threads from rfl, h1, bind_ok]
  refine (hk s' h2).bind fun q' h4 => ?_
  rw [Batch.over_rel h4]
  split at hr
  · next ho =>
    rw [if_pos ho]
    obtain ⟨M, hm, hr⟩ := Res.bind_eq_ok hr
    cases hr
    rw [h4.shared.model, show (p.map (ψ k)).rate = ψ k p.rate from rfl,
      applyBatch_map (f.hom k) _ (f.saneAll (Batch.run_all f.steady hM' hq)), hm, map_ok, bind_ok]
    exact .of rfl ⟨rfl, h4.shared.source⟩
  · next ho =>
    rw [if_neg ho]
    cases hr
    exact .of rfl trivial

theorem runBatches_all {p : Hyper α} {cs : List (List Nat)} {sh : Shared α} (hM : sh.model.All Q) {r : Shared α × List (Event α)}
    (hr : runBatches E p cs sh = .ok (some r)) : r.1.model.All Q := by
  induction cs generalizing sh r with
  | nil => cases hr; exact hM
  | cons c cs ih =>
    simp only [runBatches] at hr
    obtain ⟨o, ho, hr⟩ := Res.bind_eq_ok hr
    cases o with
    | none => cases hr
    | some q =>
      obtain ⟨o', ho', hr⟩ := Res.bind_eq_ok hr
      cases o' with
      | none => cases hr
      | some w => cases hr; exact ih (r := w) (runBatch_all f hM ho) ho'

theorem Follow.runBatches {p : Hyper α} (cs : List (List Nat)) (sh : Shared α) (hM : sh.model.All Q) {o : Option (Shared α × List (Event α))}
    (hr : runBatches E p cs sh = .ok o) :
    ∀ᶠ k in U, ∀ sh', sh.Rel (ψ k) sh' → Holds T (runBatches (F k) (p.map (ψ k)) cs sh') fun o' => EndRel (ψ k) o o' := by
  induction cs generalizing sh o with
  | nil =>
    cases hr
    exact .of_forall fun k sh' h => .of rfl h
  | cons c cs ih =>
    simp only [Train.runBatches] at hr ⊢
    obtain ⟨q, hq, hr⟩ := Res.bind_eq_ok hr
    cases q with
    | none =>
      cases hr
      filter_upwards [f.runBatch c sh hM hq] with k hk
      intro sh' hs
      refine (hk sh' hs).bind fun o' h2 => ?_
      cases o' with
      | none => exact .of rfl trivial
      | some _ => exact h2.elim
    | some q =>
      obtain ⟨w, hw, hr⟩ := Res.bind_eq_ok hr
      filter_upwards [f.runBatch c sh hM hq, ih q.1 (runBatch_all f hM hq) hw] with k hk hk'
      intro sh' hs
      refine (hk sh' hs).bind fun o' h2 => ?_
      cases o' with
      | none => exact h2.elim
      | some q' =>
        refine (hk' q'.1 h2).bind fun w' h4 => ?_
        cases w with
        | none => cases hr; cases w' with
          | none => exact .of rfl trivial
          | some _ => exact h4.elim
        | some w => cases hr; cases w' with
          | none => exact h4.elim
          | some w' => exact .of rfl h4

theorem runEpoch_all {p : Hyper α} {size : Nat} {cs : List (List Nat)} {sh : Shared α} (hM : sh.model.All Q) {r : Shared α × List (Event α)}
    (hr : runEpoch E p size cs sh = .ok (some r)) : r.1.model.All Q := by
  unfold runEpoch at hr
  split at hr
  · cases hr
  · obtain ⟨_, _, hr⟩ := Res.bind_eq_ok hr
    split at hr
    · cases hr
    · obtain ⟨n, _, hr⟩ := Res.bind_eq_ok hr
      split at hr
      · exact runBatches_all f (sh := { sh with hits := 0 }) hM hr
      · cases hr

theorem Follow.runEpoch {p : Hyper α} {size : Nat} (cs : List (List Nat)) (sh : Shared α) (hM : sh.model.All Q) {o : Option (Shared α × List (Event α))}
    (hr : runEpoch E p size cs sh = .ok o) :
    ∀ᶠ k in U, ∀ sh', sh.Rel (ψ k) sh' → Holds T (runEpoch (F k) (p.map (ψ k)) size cs sh') fun o' => EndRel (ψ k) o o' := by
  unfold Train.runEpoch at hr
  split at hr
  · cases hr
  · next h1 =>
    obtain ⟨c, hc, hr⟩ := Res.bind_eq_ok hr
    split at hr
    · cases hr
    · next h2 =>
      obtain ⟨n, hn, hr⟩ := Res.bind_eq_ok hr
      have e : ∀ k (sh' : Shared (γ k)), Train.runEpoch (F k) (p.map (ψ k)) size cs sh' =
          if cs.length = n.toNat then Train.runBatches (F k) (p.map (ψ k)) cs { sh' with hits := 0 } else .ok none := by
        intro k sh'
        unfold Train.runEpoch
        rw [if_neg (show ¬(p.map (ψ k)).threads < 0 from h1), show workCount (p.map (ψ k)).batch (p.map (ψ k)).threads = _ from hc, bind_ok,
          if_neg (show ¬(p.map (ψ k)).batch < 0 from h2), show numBatches size (p.map (ψ k)).batch = _ from hn, bind_ok]
      simp only [e]
      split at hr
      · next h3 =>
        filter_upwards [f.runBatches cs { sh with hits := 0 } hM hr] with k hk
        intro sh' hs
        rw [if_pos h3]
        exact hk _ ⟨hs.model, hs.source⟩
      · next h3 =>
        cases hr
        refine .of_forall fun k sh' hs => ?_
        rw [if_neg h3]
        exact .of rfl trivial

/-- The same for the model that `train` leaves behind. -/
def ModelRel (φ : α → β) : Option (Model α) → Option (Model β) → Prop
  | none, none => True
  | some M, some M' => M' = M.map φ
  | _, _ => False

omit f in
/-- One epoch of `train`. -/
def oneEpoch (E : Env α) (p : Hyper α) (size : Nat) (M : Option (Model α)) (e : List (List Nat) × List (Sample α)) : Res (Option (Model α)) :=
  match M with
  | none => .ok none
  | some M => do
    let r ← runEpoch E p size e.1 ⟨M, e.2, 0⟩
    .ok (r.map fun q => q.1.model)

omit f in
theorem train_fold (E : Env α) (p : Hyper α) (size : Nat) (epochs : List (List (List Nat) × List (Sample α))) (M : Model α) :
    Train.train E p size epochs M = (M.room p.batch >>= fun _ =>
      if epochs.length = p.epochs.toNat then epochs.foldlM (oneEpoch E p size) (some (M.setBatchSize (u64 p.batch))) else .ok none) := rfl

omit f in
theorem room_map {β : Type} (f : α → β) (b : Int) (M : Model α) : (M.map f).room b = M.room b := by
  unfold Model.room Model.map
  simp only [List.any_map]
  congr 4
  funext l
  obtain ⟨n, b⟩ := l
  cases b <;> rfl

theorem Follow.train {p : Hyper α} {size : Nat} (epochs : List (List (List Nat) × List (Sample α))) (M : Model α)
    (hM : (M.setBatchSize (u64 p.batch)).All Q) {o : Option (Model α)} (hr : train E p size epochs M = .ok o) :
    ∀ᶠ k in U, Holds T (train (F k) (p.map (ψ k)) size (epochs.map fun e => (e.1, e.2.map (Sample.map (ψ k)))) (M.map (ψ k))) fun o' =>
      ModelRel (ψ k) o o' := by
  simp only [train_fold] at hr ⊢
  simp only [List.length_map, show ∀ k, (p.map (ψ k)).epochs = p.epochs from fun _ => rfl, show ∀ k, (p.map (ψ k)).batch = p.batch from fun _ => rfl, room_map]
  rcases M.room_cases p.batch with hroom | ⟨-, hroom⟩
  swap
  · rw [hroom] at hr; cases hr
  simp only [hroom, Res.bind_ok] at hr ⊢
  split at hr
  · next h1 =>
    simp only [if_pos h1, setBatchSize_map]
    clear h1
    generalize M.setBatchSize (u64 p.batch) = M at hM hr
    have key : ∀ (epochs : List (List (List Nat) × List (Sample α))) (q : Option (Model α)), (∀ M, q = some M → M.All Q) →
        ∀ o, epochs.foldlM (oneEpoch E p size) q = .ok o →
        ∀ᶠ k in U, ∀ q', ModelRel (ψ k) q q' → Holds T ((epochs.map fun e => (e.1, e.2.map (Sample.map (ψ k)))).foldlM
          (oneEpoch (F k) (p.map (ψ k)) size) q') fun o' => ModelRel (ψ k) o o' := by
      intro epochs
      induction epochs with
      | nil =>
        intro q _ o h
        cases h
        exact .of_forall fun k q' h => .of rfl h
      | cons e epochs ih =>
        intro q hq o h
        rw [List.foldlM_cons] at h
        obtain ⟨q1, h1, h⟩ := Res.bind_eq_ok h
        cases q with
        | none =>
          cases h1
          filter_upwards [ih none (by simp) o h] with k hk
          intro q' hq'
          cases q' with
          | some _ => exact hq'.elim
          | none =>
            rw [List.map_cons, List.foldlM_cons]
            exact hk none trivial
        | some M =>
          obtain ⟨r, hr, h1⟩ := Res.bind_eq_ok h1
          cases h1
          have hall : ∀ M', r.map (fun q => q.1.model) = some M' → M'.All Q := by
            intro M' hM'
            cases r with
            | none => cases hM'
            | some w => cases hM'; exact runEpoch_all f (sh := ⟨M, e.2, 0⟩) (hq M rfl) hr
          filter_upwards [ih _ hall o h, f.runEpoch e.1 ⟨M, e.2, 0⟩ (hq M rfl) hr] with k hk hk'
          intro q' hq'
          cases q' with
          | none => exact hq'.elim
          | some M' =>
            rw [List.map_cons, List.foldlM_cons]
            have key := hk' ⟨M', e.2.map (Sample.map (ψ k)), 0⟩ ⟨hq', rfl⟩
            refine (Holds.bind key fun r' h3 => Holds.of rfl ?_ : Holds T (oneEpoch (F k) (p.map (ψ k)) size (some M') _)
              (ModelRel (ψ k) (r.map fun q => q.1.model))).bind fun q' hq' => hk q' hq'
            cases r with
            | none => cases r' with
              | none => trivial
              | some _ => exact h3.elim
            | some r => cases r' with
              | none => exact h3.elim
              | some r' => exact h3.model
    filter_upwards [key epochs (some M) (fun M' h => by cases h; exact hM) o hr] with k hk
    exact hk (some (M.map (ψ k))) rfl
  · next h1 =>
    cases hr
    simp only [if_neg h1]
    exact .of_forall fun k => .of rfl trivial

end

end Train
end Cnn
