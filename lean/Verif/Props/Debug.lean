import Verif.Model.Debug
import Verif.Props.Console
import Verif.Props.Reductions
import Verif.Props.Train
/-!
# C90: results and weights printed for inspection
-/
namespace Cnn.Console
open Terminal
variable {α : Type}

/-- The lines about the answer of a model; a tab takes the cursor to the ninth column. -/
def isAnswer (T : Texts α) (index : Nat) (confidence : α) : List (List Cell) :=
  [reads "Layer Results:" [], reads "        Label Index: " (natText index), reads "        Confidence:  " (T.number confidence)]

/-- The lines about the truth. -/
def isTruth (T : Texts α) (loss : α) (label : List Char) (index : Nat) : List (List Cell) :=
  [reads "        Loss:        " (T.number loss), reads "        True value:  " label, reads "        True index:  " (natText index)]

theorem tab_line {c : Char} {a : List Char} (hc : Plain (c :: a)) {r : List Char} (hr : Plain r) {s : String}
    (hs : s.toList = List.replicate 8 ' ' ++ c :: a) : Prints ('\t' :: c :: a ++ r ++ ['\n']) [reads s r] := by
  have := Prints.tab (c := c) (s := a ++ r) (plain_append (a := c :: a) hc hr)
  unfold reads
  rw [hs]
  simpa only [List.append_assoc, List.cons_append] using this

theorem answer_prints {T : Texts α} (hT : T.Plain) (index : Nat) (confidence : α) :
    Prints ("Layer Results:\n".toList ++ "\tLabel Index: ".toList ++ natText index ++ ['\n'] ++ "\tConfidence:  ".toList ++ T.number confidence ++ ['\n'])
      (isAnswer T index confidence) := by
  have := (reads_line (s := "Layer Results:") (by decide) plain_nil).append ((tab_line (c := 'L') (a := "abel Index: ".toList) (by unfold Plain; decide)
    (natText_plain index) (s := "        Label Index: ") (by decide)).append (tab_line (c := 'C') (a := "onfidence:  ".toList) (by unfold Plain; decide)
    (hT.number confidence) (s := "        Confidence:  ") (by decide)))
  unfold isAnswer
  refine (congrArg₂ Prints ?_ rfl).mpr this
  rw [show "Layer Results:\n".toList = "Layer Results:".toList ++ [] ++ ['\n'] by decide,
    show "\tLabel Index: ".toList = '\t' :: 'L' :: "abel Index: ".toList by decide,
    show "\tConfidence:  ".toList = '\t' :: 'C' :: "onfidence:  ".toList by decide]
  simp only [List.append_assoc, List.cons_append, List.nil_append]

/-- The program's own function for results prints the same as in C88 for an answer without a true label. -/
theorem C90_answer [Zero α] [One α] [Add α] [Sub α] [Mul α] [Div α] [Neg α] (T : Texts α) (hT : T.Plain) (E : Env α) (M : Model α) (X : Matrix α) (b : Nat)
    (r : Results α) (M' : Model α) (h : M.forwardPropagation E X b = .ok (r, M')) :
    ∃ s, resultsOf T r = .ok s ∧ ∀ t : Terminal, t.Fresh → t.write s = { t with above := t.above ++ (isAnswer T r.labelIdx r.confidence ++ [[]]) } := by
  unfold Model.forwardPropagation at h
  obtain ⟨s0, _, h⟩ := Res.bind_eq_ok h
  obtain ⟨s1, _, h⟩ := Res.bind_eq_ok h
  obtain ⟨r', hr, h⟩ := Res.bind_eq_ok h
  obtain rfl : r' = r := congrArg Prod.fst (Res.ok.inj h)
  have hn : r'.trueLabel = none := by
    unfold Model.forwardEnd at hr
    obtain ⟨n, _, hr⟩ := Res.bind_eq_ok hr
    split at hr
    · cases hr
    · obtain ⟨i, _, hr⟩ := Res.bind_eq_ok hr
      obtain ⟨c, _, hr⟩ := Res.bind_eq_ok hr
      rw [← Res.ok.inj hr]
  refine ⟨results T r'.labelIdx r'.confidence, by unfold resultsOf; rw [hn], ?_⟩
  have := (answer_prints hT r'.labelIdx r'.confidence).append Prints.newline
  intro t ht
  exact this t ht

/-- C90 After a label has been assigned (as training does for every sample) the loss, the label and its position in the list of labels are printed as well. The position is the first place
where the label occurs; for a label that does not occur it is the number of labels. -/
theorem C90_truth [Zero α] [One α] [Add α] [Sub α] [Mul α] [Div α] [Neg α] (T : Texts α) (hT : T.Plain) (E : Env α) (M : Model α) (r r' : Results α)
    (label : List Char) (hl : Plain label) (h : M.assignLoss E r label = .ok r') :
    ∃ s i, resultsOf T r' = .ok s ∧
      (∀ t : Terminal, t.Fresh → t.write s = { t with above := t.above ++ (isAnswer T r.labelIdx r.confidence ++ isTruth T r'.loss label i ++ [[]]) }) ∧
      (∀ j < i, M.labels[j]? ≠ some label) ∧ (label ∈ M.labels → M.labels[i]? = some label) ∧ (label ∉ M.labels → i = M.labels.length) := by
  unfold Model.assignLoss at h
  obtain ⟨a, _, h⟩ := Res.bind_eq_ok h
  obtain ⟨b, _, h⟩ := Res.bind_eq_ok h
  obtain ⟨c, _, h⟩ := Res.bind_eq_ok h
  obtain rfl := Res.ok.inj h
  refine ⟨_, M.labelIndex label, rfl, ?_, ?_, ?_, ?_⟩
  · have := (answer_prints hT r.labelIdx r.confidence).append ((tab_line (c := 'L') (a := "oss:        ".toList) (by unfold Plain; decide)
      (hT.number (E.toFloat c)) (s := "        Loss:        ") (by decide)).append ((tab_line (c := 'T') (a := "rue value:  ".toList) (by unfold Plain; decide)
      hl (s := "        True value:  ") (by decide)).append ((tab_line (c := 'T') (a := "rue index:  ".toList) (by unfold Plain; decide)
      (natText_plain (M.labelIndex label)) (s := "        True index:  ") (by decide)).append Prints.newline)))
    intro t ht
    have := this t ht
    rw [show "\tLoss:        ".toList = '\t' :: 'L' :: "oss:        ".toList by decide,
      show "\tTrue value:  ".toList = '\t' :: 'T' :: "rue value:  ".toList by decide,
      show "\tTrue index:  ".toList = '\t' :: 'T' :: "rue index:  ".toList by decide]
    unfold isTruth
    simp only [List.append_assoc, List.cons_append, List.nil_append] at this ⊢
    exact this
  · intro j hj
    unfold Model.labelIndex at hj
    have := List.not_of_lt_findIdx hj
    intro hc
    rw [List.getElem?_eq_some_iff] at hc
    obtain ⟨h1, h2⟩ := hc
    simp [h2] at this
  · intro hm
    unfold Model.labelIndex
    have hlt : M.labels.findIdx (· == label) < M.labels.length := List.findIdx_lt_length_of_exists ⟨label, hm, by simp⟩
    rw [List.getElem?_eq_getElem hlt]
    have := List.findIdx_getElem (w := hlt)
    simpa using this
  · intro hm
    unfold Model.labelIndex
    exact List.findIdx_eq_length.2 fun x hx => by
      simp only [beq_eq_false_iff_ne]
      rintro rfl
      exact hm hx

/-- A softmax over "a" and "b" answers "b" and is told that "b" was right: position 1. -/
example : ((softmaxModel ["a".toList, "b".toList] : Model Int).forwardPropagation toyEnv ⟨dimN 2 1 1, [3, 4]⟩ 0 >>= fun q =>
    q.2.assignLoss toyEnv q.1 "b".toList >>= fun r => .ok (r.trueLabel, r.trueIdx)) = .ok (some "b".toList, some 1) := by decide +kernel

/-- A tensor of weights or biases: its size and its entries. -/
structure Block where
  X : Nat
  Y : Nat
  Z : Nat
  entry : Nat → Nat → Nat → ℝ

/-- The Euclidean norm. -/
noncomputable def Block.norm (B : Block) : ℝ :=
  Real.sqrt (∑ i ∈ Finset.range B.X, ∑ j ∈ Finset.range B.Y, ∑ k ∈ Finset.range B.Z, B.entry i j k ^ 2)

/-- The entries of a matrix, or no entries. -/
def Block.Is (B : Block) (M : Matrix ℝ) : Prop := M.Shows B.X B.Y B.Z B.entry ∨ M = Matrix.empty ∧ B.X = 0 ∧ B.Y = 0 ∧ B.Z = 0

theorem normOf {B : Block} {M : Matrix ℝ} (h : B.Is M) : MExpr.l2Norm Real.sqrt M.expr = .ok B.norm := by
  rcases h with h | ⟨rfl, hx, -, -⟩
  · exact C20_l2Norm _ _ h.expr
  · unfold Block.norm
    rw [hx]
    rfl

/-- The two lines about layer `i`. -/
noncomputable def isLayer (T : Texts ℝ) (i : Nat) (w b : Block) : List (List Cell) :=
  [reads "Layer " (natText i ++ " has weights of norm ".toList ++ T.number w.norm), reads "Layer " (natText i ++ " has biases of norm ".toList ++ T.number b.norm)]

/-- The lines about layers, counted from `i`. -/
noncomputable def areLayers (T : Texts ℝ) : Nat → List (Block × Block) → List (List Cell)
  | _, [] => []
  | i, c :: cs => isLayer T i c.1 c.2 ++ areLayers T (i + 1) cs

/-- The blocks are the weights and biases of a layer; only convolution and fully connected layers have some. -/
def Params (l : Layer ℝ) (c : Block × Block) : Prop :=
  match l.body with
  | .kernel K => c.1.Is K.weights ∧ c.2.Is K.biases
  | .connected L => c.1.Is L.weights ∧ c.2.Is L.biases
  | .pooling _ | .activation _ | .softmax _ => c.1.X = 0 ∧ c.1.Y = 0 ∧ c.1.Z = 0 ∧ c.2.X = 0 ∧ c.2.Y = 0 ∧ c.2.Z = 0

theorem Params.is {l : Layer ℝ} {c : Block × Block} (h : Params l c) : c.1.Is l.body.weights ∧ c.2.Is l.body.biases := by
  unfold Params at h
  rcases l with ⟨n, b⟩
  cases b <;> first | exact h | exact ⟨.inr ⟨rfl, h.1, h.2.1, h.2.2.1⟩, .inr ⟨rfl, h.2.2.2⟩⟩

/-- C90 `debugLayerWeights` prints, for the layers in order, the Euclidean norms of weights and biases. Layers without weights have blocks of size 0, whose norm is 0. -/
theorem C90_weights (T : Texts ℝ) (hT : T.Plain) (M : Model ℝ) (cs : List (Block × Block))
    (h : List.Forall₂ Params M.layers cs) :
    ∃ s, debugLayerWeights Real.sqrt T M = .ok s ∧ ∀ t : Terminal, t.Fresh → t.write s = { t with above := t.above ++ areLayers T 0 cs } := by
  unfold debugLayerWeights
  suffices ∀ i : Nat, ∃ s, debugLayers Real.sqrt T i M.layers = .ok s ∧ Prints s (areLayers T i cs) from this 0
  intro i
  generalize M.layers = ls at h
  induction h generalizing i with
  | nil => exact ⟨[], rfl, Prints.nil⟩
  | @cons l c ls cs h _ ih =>
    obtain ⟨s, e, hs⟩ := ih (i + 1)
    have ew := normOf h.is.1
    have eb := normOf h.is.2
    unfold debugLayers debugLayer
    rw [ew, Res.bind_ok, eb, Res.bind_ok, Res.bind_ok, e, Res.bind_ok]
    refine ⟨_, rfl, ?_⟩
    unfold areLayers
    refine Prints.append ?_ hs
    have := (reads_line (s := "Layer ") (by decide) (r := natText i ++ " has weights of norm ".toList ++ T.number c.1.norm)
      (plain_append (plain_append (natText_plain i) (by unfold Plain; decide)) (hT.number _))).append
      (reads_line (s := "Layer ") (by decide) (r := natText i ++ " has biases of norm ".toList ++ T.number c.2.norm)
      (plain_append (plain_append (natText_plain i) (by unfold Plain; decide)) (hT.number _)))
    unfold isLayer
    simpa only [List.append_assoc, List.cons_append, List.nil_append] using this

/-- A model with a convolution layer of weights 3 and 4 and bias 2, and a pooling layer: the lines show 5, 2, 0 and 0. -/
example (T : Texts ℝ) (hT : T.Plain) : ∃ (M : Model ℝ) (s : List Char), M.layers.length = 2 ∧ debugLayerWeights Real.sqrt T M = .ok s ∧
    (blank.write s).above = [reads "Layer " ("0 has weights of norm ".toList ++ T.number 5), reads "Layer " ("0 has biases of norm ".toList ++ T.number 2),
      reads "Layer " ("1 has weights of norm ".toList ++ T.number 0), reads "Layer " ("1 has biases of norm ".toList ++ T.number 0)] := by
  let K : Kernel ℝ := ⟨⟨1, 2, 1⟩, 1, 1, ⟨dimN 1 2 1, [3, 4]⟩, ⟨dimN 1 1 1, [2]⟩, [], []⟩
  let M : Model ℝ := ⟨[⟨"Kernel_1".toList, .kernel K⟩, ⟨"Pooling_1".toList, .pooling (Pooling.new ⟨2, 2⟩ ⟨2, 2⟩ .max)⟩], [], false, 1, 1, 0, 0⟩
  have hw : K.weights.Shows 1 2 1 (fun _ j _ => if j = 0 then 3 else 4) := by
    refine Matrix.Shows.of_vals ⟨by decide, by decide, by decide, by decide⟩ rfl ?_
    simp [K, List.range_succ]
  have hb : K.biases.Shows 1 1 1 (fun _ _ _ => 2) := Matrix.Shows.of_vals ⟨by decide, by decide, by decide, by decide⟩ rfl (by simp [K])
  obtain ⟨s, e, h⟩ := C90_weights T hT M [(⟨1, 2, 1, fun _ j _ => if j = 0 then 3 else 4⟩, ⟨1, 1, 1, fun _ _ _ => 2⟩), (⟨0, 0, 0, fun _ _ _ => 0⟩, ⟨0, 0, 0, fun _ _ _ => 0⟩)]
    (.cons ⟨.inl hw, .inl hb⟩ (.cons ⟨rfl, rfl, rfl, rfl, rfl, rfl⟩ .nil))
  refine ⟨M, s, rfl, e, ?_⟩
  have n1 : Block.norm ⟨1, 2, 1, fun _ j _ => if j = 0 then 3 else 4⟩ = 5 := by
    unfold Block.norm
    simp only [Finset.sum_range_succ, Finset.sum_range_zero]
    rw [show (5 : ℝ) = Real.sqrt (5 ^ 2) by rw [Real.sqrt_sq (by norm_num)]]
    congr 1
    norm_num
  have n2 : Block.norm ⟨1, 1, 1, fun _ _ _ => 2⟩ = 2 := by
    unfold Block.norm
    simp only [Finset.sum_range_succ, Finset.sum_range_zero, zero_add]
    exact Real.sqrt_sq (by norm_num)
  have n3 : Block.norm ⟨0, 0, 0, fun _ _ _ => 0⟩ = 0 := by simp [Block.norm]
  rw [h blank ⟨⟨rfl, rfl, rfl⟩, rfl, rfl⟩]
  simp only [areLayers, isLayer, n1, n2, n3]
  rfl

end Cnn.Console
