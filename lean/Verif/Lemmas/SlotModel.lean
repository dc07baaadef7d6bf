import Verif.Lemmas.Slots
/-! Helper lemmas: propagation through a model on one batch slot (C53, C54). -/
set_option linter.unusedSectionVars false
namespace Cnn
namespace Model
variable {α : Type}

/-- The model as slot `b` sees it. -/
def see (b : Nat) (M : Model α) : Model α := { M with layers := M.layers.map fun l => { l with body := l.body.see b } }

/-- The model whose output layer has been told a label. -/
def tell (l : Nat) (M : Model α) : Model α :=
  { M with layers := M.layers.modify (M.layers.length - 1) fun y => { y with body := y.body.tell l } }

/-- The model as slot `b` sees it, the label replaced by a fixed one. -/
def norm (b : Nat) (M : Model α) : Model α := (M.see b).tell 0

/-- All layers are ready. -/
def Ready (M : Model α) : Prop := ∀ l ∈ M.layers, l.body.Ready

theorem ext {M M' : Model α} (h : M.layers = M'.layers) (h1 : M.labels = M'.labels) (h2 : M.softmax = M'.softmax)
    (h3 : M.kernels = M'.kernels) (h4 : M.poolings = M'.poolings) (h5 : M.connecteds = M'.connecteds)
    (h6 : M.activations = M'.activations) : M = M' := by
  cases M; cases M'; simp_all

theorem see_setBody (M : Model α) (i b : Nat) (B : Body α) : (M.setBody i B).see b = (M.see b).setBody i (B.see b) := by
  refine ext ?_ rfl rfl rfl rfl rfl rfl
  apply List.ext_getElem?
  intro j
  simp only [see, setBody, List.getElem?_map, List.getElem?_modify]
  by_cases h : i = j
  · subst h; simp; cases M.layers[i]? <;> rfl
  · simp [h]

@[simp] theorem see_length (M : Model α) (b : Nat) : (M.see b).layers.length = M.layers.length := by simp [see]
@[simp] theorem tell_length (M : Model α) (l : Nat) : (M.tell l).layers.length = M.layers.length := by simp [tell]
@[simp] theorem norm_length (M : Model α) (b : Nat) : (M.norm b).layers.length = M.layers.length := by simp [norm]
@[simp] theorem bare_length (M : Model α) : M.bare.layers.length = M.layers.length := by simp [bare]
@[simp] theorem setBody_length (M : Model α) (i : Nat) (B : Body α) : (M.setBody i B).layers.length = M.layers.length := by
  simp [setBody]

theorem see_get (M : Model α) (b i : Nat) :
    (M.see b).layers[i]? = M.layers[i]?.map fun l => { l with body := l.body.see b } := by simp [see]

theorem tell_get_last (M : Model α) (l i : Nat) (h : i + 1 = M.layers.length) :
    (M.tell l).layers[i]? = M.layers[i]?.map fun y => { y with body := y.body.tell l } := by
  have e : M.layers.length - 1 = i := by omega
  simp only [tell, List.getElem?_modify, e, if_true]; rfl

theorem tell_get_ne (M : Model α) (l i : Nat) (h : i + 1 ≠ M.layers.length) : (M.tell l).layers[i]? = M.layers[i]? := by
  simp only [tell, List.getElem?_modify]
  rcases Nat.lt_or_ge i M.layers.length with h1 | h1
  · have e : M.layers.length - 1 ≠ i := by omega
    simp [e]
  · rw [List.getElem?_eq_none (by omega)]; rfl

theorem tell_tell (M : Model α) (k l : Nat) : (M.tell k).tell l = M.tell l := by
  refine ext ?_ rfl rfl rfl rfl rfl rfl
  apply List.ext_getElem?
  intro i
  by_cases h : i + 1 = M.layers.length
  · rw [tell_get_last _ _ _ (by simpa using h), tell_get_last _ _ _ h, tell_get_last _ _ _ h]
    simp only [Option.map_map]
    congr 1
    funext y
    simp [Body.tell_tell]
  · rw [tell_get_ne _ _ _ (by simpa using h), tell_get_ne _ _ _ h, tell_get_ne _ _ _ h]

theorem see_tell (M : Model α) (b l : Nat) : (M.tell l).see b = (M.see b).tell l := by
  refine ext ?_ rfl rfl rfl rfl rfl rfl
  apply List.ext_getElem?
  intro i
  rw [see_get]
  by_cases h : i + 1 = M.layers.length
  · rw [tell_get_last _ _ _ h, tell_get_last _ _ _ (by simpa using h), see_get]
    simp only [Option.map_map]
    congr 1
    funext y
    simp [Body.see_tell]
  · rw [tell_get_ne _ _ _ h, tell_get_ne _ _ _ (by simpa using h), see_get]

theorem tell_setBody_last (M : Model α) (i l : Nat) (B : Body α) (h : i + 1 = M.layers.length) :
    (M.setBody i B).tell l = (M.tell l).setBody i (B.tell l) := by
  refine ext ?_ rfl rfl rfl rfl rfl rfl
  apply List.ext_getElem?
  intro j
  have e : M.layers.length - 1 = i := by omega
  simp only [tell, setBody, List.getElem?_modify, List.length_modify, e]
  by_cases hj : i = j
  · subst hj; simp; cases M.layers[i]? <;> rfl
  · simp [hj]

theorem tell_setBody_ne (M : Model α) (i l : Nat) (B : Body α) (h : i + 1 ≠ M.layers.length) :
    (M.setBody i B).tell l = (M.tell l).setBody i B := by
  refine ext ?_ rfl rfl rfl rfl rfl rfl
  apply List.ext_getElem?
  intro j
  simp only [tell, setBody, List.getElem?_modify, List.length_modify]
  rcases Nat.lt_or_ge i M.layers.length with hi | hi
  · have e : M.layers.length - 1 ≠ i := by omega
    by_cases hj : i = j
    · subst hj
      simp [e]
    · simp [hj]
  · by_cases hj : i = j
    · subst hj
      simp [show M.layers[i]? = none from List.getElem?_eq_none hi]
    · simp [hj]

theorem norm_tell (M : Model α) (b l : Nat) : (M.tell l).norm b = M.norm b := by
  rw [norm, see_tell, tell_tell]; rfl

theorem norm_labels (M : Model α) (b : Nat) : (M.norm b).labels = M.labels := rfl

theorem bare_tell (M : Model α) (l : Nat) : (M.tell l).bare = M.bare := by
  refine ext ?_ rfl rfl rfl rfl rfl rfl
  apply List.ext_getElem?
  intro i
  simp only [bare, List.getElem?_map]
  by_cases h : i + 1 = M.layers.length
  · rw [tell_get_last _ _ _ h]
    simp only [Option.map_map]
    congr 1
    funext y
    simp [Body.bare_tell]
  · rw [tell_get_ne _ _ _ h]

theorem bare_get {M M' : Model α} (h : M'.bare = M.bare) (i : Nat) :
    M'.layers[i]?.map (fun l => l.body.bare) = M.layers[i]?.map (fun l => l.body.bare) := by
  have := congrArg (fun m : Model α => m.layers[i]?.map (fun l => l.body)) h
  simp only [bare, List.getElem?_map, Option.map_map] at this
  exact this

theorem bare_len {M M' : Model α} (h : M'.bare = M.bare) : M'.layers.length = M.layers.length := by
  have := congrArg (fun m : Model α => m.layers.length) h
  simpa using this

theorem bare_labels {M M' : Model α} (h : M'.bare = M.bare) : M'.labels = M.labels := by
  have : M'.bare.labels = M.bare.labels := by rw [h]
  exact this

theorem Ready.of_bare {M M' : Model α} (hM : M.Ready) (h : M'.bare = M.bare) : M'.Ready := by
  intro l hl
  obtain ⟨i, hi⟩ := List.mem_iff_getElem?.1 hl
  have := bare_get h i
  rw [hi] at this
  cases hm : M.layers[i]? with
  | none => rw [hm] at this; simp at this
  | some k =>
    rw [hm] at this
    simp only [Option.map_some, Option.some.injEq] at this
    exact (hM k (List.mem_of_getElem? hm)).of_bare this

theorem bare_setBody {M : Model α} {i : Nat} {l : Layer α} {B : Body α} (hl : M.layers[i]? = some l)
    (h : B.bare = l.body.bare) : (M.setBody i B).bare = M.bare := by
  refine ext ?_ rfl rfl rfl rfl rfl rfl
  apply List.ext_getElem?
  intro j
  simp only [bare, setBody, List.getElem?_map, List.getElem?_modify]
  by_cases hj : i = j
  · subst hj; simp [hl, h]
  · simp [hj]

theorem see_setBody_eq {M : Model α} {i c : Nat} {l : Layer α} {B : Body α} (hl : M.layers[i]? = some l)
    (h : B.see c = l.body.see c) : (M.setBody i B).see c = M.see c := by
  refine ext ?_ rfl rfl rfl rfl rfl rfl
  apply List.ext_getElem?
  intro j
  simp only [see, setBody, List.getElem?_map, List.getElem?_modify]
  by_cases hj : i = j
  · subst hj; simp [hl, h]
  · simp [hj]

section
variable [Zero α] [One α] [Add α] [Sub α] [Mul α] [Div α] [Neg α]

theorem forwardStep_see (E : Env α) (b i : Nat) (s : Matrix α × List (Matrix α)) (M : Model α) :
    forwardStep E 0 (s, M.see b) i = (fun r => (r.1, r.2.see b)) <$> forwardStep E b (s, M) i := by
  unfold forwardStep forwardLayer
  simp only [see_get]
  cases M.layers[i]? with
  | none => rfl
  | some l =>
    simp only [Option.map_some, Res.ofOption_some, Res.bind_ok, Body.forward_see]
    cases l.body.forward E.num (E.draws i) s.1 b with
    | throw | ub | abort => rfl
    | ok r =>
      simp only [Res.map_ok, Res.bind_ok]
      cases record E r.1 with
      | throw | ub | abort => rfl
      | ok R => simp only [Res.bind_ok, Res.map_ok, see_setBody]

theorem forwardStep_tell (E : Env α) (b i l : Nat) (s : Matrix α × List (Matrix α)) (M : Model α) :
    forwardStep E b (s, M.tell l) i = (fun r => (r.1, r.2.tell l)) <$> forwardStep E b (s, M) i := by
  unfold forwardStep forwardLayer
  by_cases hi : i + 1 = M.layers.length
  · simp only [tell_get_last _ _ _ hi]
    cases M.layers[i]? with
    | none => rfl
    | some y =>
      simp only [Option.map_some, Res.ofOption_some, Res.bind_ok, Body.forward_tell]
      cases y.body.forward E.num (E.draws i) s.1 b with
      | throw | ub | abort => rfl
      | ok r =>
        simp only [Res.map_ok, Res.bind_ok]
        cases record E r.1 with
        | throw | ub | abort => rfl
        | ok R => simp only [Res.bind_ok, Res.map_ok, tell_setBody_last _ _ _ _ hi]
  · simp only [tell_get_ne _ _ _ hi]
    cases M.layers[i]? with
    | none => rfl
    | some y =>
      simp only [Res.ofOption_some, Res.bind_ok]
      cases y.body.forward E.num (E.draws i) s.1 b with
      | throw | ub | abort => rfl
      | ok r =>
        simp only [Res.bind_ok]
        cases record E r.1 with
        | throw | ub | abort => rfl
        | ok R => simp only [Res.bind_ok, Res.map_ok, tell_setBody_ne _ _ _ _ hi]

theorem forwardStep_norm (E : Env α) (b i : Nat) (s : Matrix α × List (Matrix α)) (M : Model α) :
    forwardStep E 0 (s, M.norm b) i = (fun r => (r.1, r.2.norm b)) <$> forwardStep E b (s, M) i := by
  rw [norm, forwardStep_tell, forwardStep_see]
  cases forwardStep E b (s, M) i <;> rfl

theorem backwardStep_see (E : Env α) (r : Results α) (b i : Nat) (d : Matrix α) (M : Model α) :
    backwardStep E r 0 (d, M.see b) i = (fun q => (q.1, q.2.see b)) <$> backwardStep E r b (d, M) i := by
  unfold backwardStep
  cases recordAt r i with
  | throw | ub | abort => rfl
  | ok X =>
    simp only [Res.bind_ok]
    cases recordAt r (i + 1) with
    | throw | ub | abort => rfl
    | ok Z =>
      simp only [Res.bind_ok, see_get]
      cases M.layers[i]? with
      | none => rfl
      | some l =>
        simp only [Option.map_some, Res.ofOption_some, Res.bind_ok, Body.backward_see]
        cases Matrix.ofExpr id X.expr with
        | throw | ub | abort => rfl
        | ok X' =>
          simp only [Res.bind_ok]
          cases Matrix.ofExpr id Z.expr with
          | throw | ub | abort => rfl
          | ok Z' =>
            simp only [Res.bind_ok]
            cases l.body.backward E.num E.order X' Z' d b (decide (i = 0)) with
            | throw | ub | abort => rfl
            | ok q => simp only [Res.map_ok, Res.bind_ok, see_setBody]

theorem backwardStep_tell (E : Env α) (r : Results α) (b i l : Nat) (d : Matrix α) (M : Model α) (hi : i + 1 ≠ M.layers.length) :
    backwardStep E r b (d, M.tell l) i = (fun q => (q.1, q.2.tell l)) <$> backwardStep E r b (d, M) i := by
  unfold backwardStep
  cases recordAt r i with
  | throw | ub | abort => rfl
  | ok X =>
    simp only [Res.bind_ok]
    cases recordAt r (i + 1) with
    | throw | ub | abort => rfl
    | ok Z =>
      simp only [Res.bind_ok, tell_get_ne _ _ _ hi]
      cases M.layers[i]? with
      | none => rfl
      | some y =>
        simp only [Res.ofOption_some, Res.bind_ok]
        cases Matrix.ofExpr id X.expr with
        | throw | ub | abort => rfl
        | ok X' =>
          simp only [Res.bind_ok]
          cases Matrix.ofExpr id Z.expr with
          | throw | ub | abort => rfl
          | ok Z' =>
            simp only [Res.bind_ok]
            cases y.body.backward E.num E.order X' Z' d b (decide (i = 0)) with
            | throw | ub | abort => rfl
            | ok q => simp only [Res.map_ok, Res.bind_ok, tell_setBody_ne _ _ _ _ hi]

theorem backwardStep_congr (E : Env α) {r r' : Results α} (h : r.inputs = r'.inputs) (b i : Nat) (s : Matrix α × Model α) :
    backwardStep E r b s i = backwardStep E r' b s i := by
  unfold backwardStep recordAt
  rw [h]

theorem forwardEnd_congr (E : Env α) {M M' : Model α} (h : M.labels = M'.labels) (A : Matrix α) (rec : List (Matrix α)) :
    forwardEnd E M A rec = forwardEnd E M' A rec := by
  unfold forwardEnd
  rw [h]

theorem forwardStep_frame {E : Env α} {b i : Nat} {s r : (Matrix α × List (Matrix α)) × Model α} (hM : s.2.Ready)
    (h : forwardStep E b s i = .ok r) : r.2.bare = s.2.bare ∧ ∀ c ≠ b, r.2.norm c = s.2.norm c := by
  unfold forwardStep forwardLayer at h
  obtain ⟨y, hy, h⟩ := Res.bind_eq_ok h
  obtain ⟨R, hR, h⟩ := Res.bind_eq_ok h
  obtain rfl := Res.ok.inj h
  obtain ⟨l, hl, hy⟩ := Res.bind_eq_ok hy
  obtain ⟨z, hz, hy⟩ := Res.bind_eq_ok hy
  obtain rfl := Res.ok.inj hy
  have hl := ofOption_eq hl
  obtain ⟨h1, h2⟩ := Body.forward_frame (hM l (List.mem_of_getElem? hl)) hz
  exact ⟨bare_setBody hl h1, fun c hc => by rw [norm, see_setBody_eq hl (h2 c hc)]; rfl⟩

theorem backwardStep_frame {E : Env α} {r : Results α} {b i : Nat} {s q : Matrix α × Model α}
    (h : backwardStep E r b s i = .ok q) : q.2.bare = s.2.bare ∧ ∀ c ≠ b, q.2.norm c = s.2.norm c := by
  unfold backwardStep at h
  obtain ⟨X, _, h⟩ := Res.bind_eq_ok h
  obtain ⟨Z, _, h⟩ := Res.bind_eq_ok h
  obtain ⟨l, hl, h⟩ := Res.bind_eq_ok h
  obtain ⟨X', _, h⟩ := Res.bind_eq_ok h
  obtain ⟨Z', _, h⟩ := Res.bind_eq_ok h
  obtain ⟨z, hz, h⟩ := Res.bind_eq_ok h
  obtain rfl := Res.ok.inj h
  have hl := ofOption_eq hl
  obtain ⟨h1, h2⟩ := Body.backward_frame hz
  exact ⟨bare_setBody hl h1, fun c hc => by rw [norm, see_setBody_eq hl (h2 c hc)]; rfl⟩

/-- What the start of the back-propagation does: the output layer is a softmax layer and is told the label. -/
theorem backwardBegin_inv {E : Env α} {M : Model α} {r : Results α} {lab : List Char} {q : Results α × Model α}
    (h : M.backwardBegin E r lab = .ok q) : M.assignLoss E r lab = .ok q.1 ∧ q.2 = M.tell (M.labelIndex lab) ∧
      q.1.inputs = r.inputs ∧ ∃ l S, M.layers.getLast? = some l ∧ l.body = .softmax S ∧ M.labelIndex lab < S.count := by
  unfold backwardBegin at h
  obtain ⟨r', hr, h⟩ := Res.bind_eq_ok h
  obtain ⟨l, hl, h⟩ := Res.bind_eq_ok h
  have hl := ofOption_eq hl
  cases hb : l.body with
  | softmax S =>
    rw [hb] at h
    simp only [Softmax.assignTrueLabel] at h
    by_cases hc : M.labelIndex lab ≥ S.count
    · rw [if_pos hc] at h; exact absurd h (by simp)
    · rw [if_neg hc] at h
      simp only [Res.bind_ok] at h
      obtain rfl := Res.ok.inj h
      refine ⟨hr, ?_, ?_, l, S, hl, hb, by omega⟩
      · refine ext ?_ rfl rfl rfl rfl rfl rfl
        apply List.ext_getElem?
        intro j
        simp only [setBody, tell, List.getElem?_modify]
        by_cases hj : M.layers.length - 1 = j
        · subst hj
          rw [List.getLast?_eq_getElem?] at hl
          simp [hl, hb, Body.tell]
        · simp [hj]
      · unfold assignLoss at hr
        obtain ⟨_, _, hr⟩ := Res.bind_eq_ok hr
        obtain ⟨_, _, hr⟩ := Res.bind_eq_ok hr
        obtain ⟨_, _, hr⟩ := Res.bind_eq_ok hr
        obtain rfl := Res.ok.inj hr
        rfl
  | _ => rw [hb] at h; exact absurd h (by simp)

/-- A model whose output layer knows label `l`. -/
theorem tell_self {M : Model α} {y : Layer α} {S : Softmax} (h : M.layers.getLast? = some y) (hb : y.body = .softmax S)
    (hk : S.knows = true) : M.tell S.trueLabel = M := by
  refine ext ?_ rfl rfl rfl rfl rfl rfl
  apply List.ext_getElem?
  intro j
  simp only [tell, List.getElem?_modify]
  by_cases hj : M.layers.length - 1 = j
  · subst hj
    rw [List.getLast?_eq_getElem?] at h
    obtain ⟨n, b⟩ := y
    obtain ⟨c, t, k⟩ := S
    simp only at hb hk
    subst hb; subst hk
    simp [h, Body.tell]
  · simp [hj]

/-- The back-propagation through the last layer of a model whose output layer stores label `l`. -/
theorem backwardStep_last {E : Env α} {r : Results α} {b i : Nat} {d : Matrix α} {M : Model α} {q : Matrix α × Model α} {l : Nat}
    (hi : i + 1 = M.layers.length) (hl : Train.storedLabel M = some l) (h : backwardStep E r b (d, M) i = .ok q) :
    backwardStep E r 0 (d, (M.norm b).tell l) i = .ok (q.1, (q.2.norm b).tell l) := by
  have h0 := h
  unfold backwardStep at h
  obtain ⟨X, _, h⟩ := Res.bind_eq_ok h
  obtain ⟨Z, _, h⟩ := Res.bind_eq_ok h
  obtain ⟨y, hy, h⟩ := Res.bind_eq_ok h
  obtain ⟨X', _, h⟩ := Res.bind_eq_ok h
  obtain ⟨Z', _, h⟩ := Res.bind_eq_ok h
  obtain ⟨z, hz, h⟩ := Res.bind_eq_ok h
  obtain rfl := Res.ok.inj h
  have hy := ofOption_eq hy
  simp only at hy
  have hlast : M.layers.getLast? = some y := by
    rw [List.getLast?_eq_getElem?, show M.layers.length - 1 = i by omega]; exact hy
  rw [Train.storedLabel_eq, hlast, Option.bind_some] at hl
  cases hb : y.body with
  | softmax S =>
    rw [hb] at hl hz
    obtain rfl := Option.some.inj hl
    obtain ⟨D, hD, hz⟩ := Res.bind_eq_ok hz
    obtain rfl := Res.ok.inj hz
    have hk : S.knows = true := by
      by_contra hc
      unfold Softmax.backward at hD
      rw [if_pos (by simpa using hc)] at hD
      exact absurd hD (by simp)
    have e1 := tell_self hlast hb hk
    have e2 : (M.norm b).tell S.trueLabel = M.see b := by
      rw [norm, tell_tell, ← see_tell, e1]
    have e3 : (M.setBody i (.softmax S)) = M := by
      refine ext ?_ rfl rfl rfl rfl rfl rfl
      apply List.ext_getElem?
      intro j
      simp only [setBody, List.getElem?_modify]
      by_cases hj : i = j
      · subst hj; simp [hy, ← hb]
      · simp [hj]
    simp only [e3] at h0 ⊢
    rw [e2, backwardStep_see, h0, Res.map_ok]
  | _ => rw [hb] at hl; exact absurd hl (by simp [Train.outLabel])

end
end Model
end Cnn
