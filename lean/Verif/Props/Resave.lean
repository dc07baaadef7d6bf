import Verif.Lemmas.Resave
import Verif.Props.SavedModels
/-!
# Property C110: a file that is loaded and saved again
-/
namespace Cnn
variable {α : Type} [Zero α] [Add α] [Mul α] [Div α]

/-- The claim of C110: loading a saved file into a new model and saving that gives the same file. -/
def C110_claim (C : Codec α) : Prop := ∀ (N : Num α) (draws : Nat → Nat → α) (M M' : Model α) (file file' : List Char),
  M.Saves C file → Model.loadModel N draws C Model.new (some file) = some (.ok true, M') → M'.Saves C file' → file' = file

/-- C110 What happens in general, activation layers included: the second file is the one that the model without activation layers has,
and it stays the same however often it is loaded and saved. Strides may be any; numbers must be finite. -/
theorem C110_settles [Inhabited α] (C : Codec α) (hC : C.Lawful) (M : Model α) (ls : List (Layer α)) (S : Layer α) (n : Softmax)
    (hM : M.layers = ls ++ [S]) (hS : S.body = .softmax n) (hls : ∀ l ∈ ls, l.body.standard.Storable C ∨ ∃ A, l.body = .activation A)
    (hw : ∀ w ∈ M.labels, IsWord w) (hn : M.labels.length < 2147483648) :
    ∃ file file', M.Saves C file ∧ M.withoutActivations.Saves C file' ∧ ∀ (N : Num α) (draws : Nat → Nat → α),
      (∃ M', Model.loadModel N draws C Model.new (some file) = some (.ok true, M') ∧ M'.Saves C file') ∧
      ∃ M', Model.loadModel N draws C Model.new (some file') = some (.ok true, M') ∧ M'.Saves C file' := by
  have key : ∀ (M : Model α) (ls : List (Layer α)), M.layers = ls ++ [S] → (∀ l ∈ ls, l.body.standard.Storable C ∨ ∃ A, l.body = .activation A) →
      (∀ w ∈ M.labels, IsWord w) → M.labels.length < 2147483648 → ∃ file, M.Saves C file ∧ ∀ (N : Num α) (draws : Nat → Nat → α),
        ∃ M', Model.loadModel N draws C Model.new (some file) = some (.ok true, M') ∧
          M'.saveModel C true = M.withoutActivations.saveModel C true := by
    intro M ls hM hls hw hn
    obtain ⟨file, e1, h⟩ := C48_load C hC M.standard (ls.map fun l => ⟨l.name, l.body.standard⟩) ⟨S.name, S.body.standard⟩ n
      (by show M.layers.map _ = _; rw [hM, List.map_append]; rfl) (by rw [hS]; rfl)
      (by
        intro l hl
        obtain ⟨l0, h0, rfl⟩ := List.mem_map.1 hl
        rcases hls l0 h0 with h | ⟨A, h⟩
        · exact .inl h
        · exact .inr ⟨A, by show l0.body.standard = _; rw [h]; rfl⟩) hw hn
    rw [Model.standard_save] at e1
    refine ⟨file, e1, fun N draws => ?_⟩
    obtain ⟨M', ls', e2, h6, h7, h8, _, _⟩ := h N draws Model.new
    refine ⟨M', e2, saveModel_congr C (M' := M') (M := M.withoutActivations) ?_ h8 true⟩
    rw [h6]
    show List.Forall₂ _ ([] ++ ls' ++ [_]) (M.layers.filter _)
    rw [hM, List.filter_append, List.nil_append]
    refine List.rel_append ?_ ?_
    · replace h7 : List.Forall₂ (fun l' l : Layer α => Body.SameAs C l'.body l.body) ls'
          ((ls.map fun l => (⟨l.name, l.body.standard⟩ : Layer α)).filter fun l => !l.body.isAct) := by
        refine (congrArg (List.Forall₂ _ ls') (List.filter_congr fun l _ => ?_)).mp h7
        cases l.body <;> rfl
      rw [standard_filter, List.forall₂_map_right_iff] at h7
      refine forall₂_imp_mem h7 fun l' l hl hs => ?_
      rw [hs.text, Body.standard_text]
      intro A hA
      have h1 := (List.mem_filter.1 hl).2
      rw [← standard_isAct, show l.body.standard = _ from hA] at h1
      exact absurd h1 (by simp [Body.isAct])
    · rw [List.filter_cons_of_pos (by rw [hS]; rfl), List.filter_nil]
      exact .cons (by rw [hS]; rfl) .nil
  obtain ⟨file, e1, h1⟩ := key M ls hM hls hw hn
  have hwM : M.withoutActivations.layers = ls.filter (fun l => !l.body.isAct) ++ [S] := by
    show M.layers.filter _ = _
    rw [hM, List.filter_append, List.filter_cons_of_pos (by rw [hS]; rfl), List.filter_nil]
  obtain ⟨file', e2, h2⟩ := key M.withoutActivations _ hwM (fun l hl => hls l (List.mem_filter.1 hl).1) hw hn
  refine ⟨file, file', e1, e2, fun N draws => ⟨?_, ?_⟩⟩
  · obtain ⟨M', h3, h4⟩ := h1 N draws
    exact ⟨M', h3, h4.trans e2⟩
  · obtain ⟨M', h3, h4⟩ := h2 N draws
    refine ⟨M', h3, h4.trans ?_⟩
    have : M.withoutActivations.withoutActivations = M.withoutActivations := by
      unfold Model.withoutActivations
      simp only [List.filter_filter, Bool.and_self]
    rw [this]
    exact e2

/-- C110 Without activation layers the file does not change. -/
theorem C110_partial [Inhabited α] (C : Codec α) (hC : C.Lawful) (M : Model α) (ls : List (Layer α)) (S : Layer α) (n : Softmax)
    (hM : M.layers = ls ++ [S]) (hS : S.body = .softmax n) (hls : ∀ l ∈ ls, l.body.standard.Storable C)
    (hw : ∀ w ∈ M.labels, IsWord w) (hn : M.labels.length < 2147483648) :
    ∃ file, M.Saves C file ∧ ∀ (N : Num α) (draws : Nat → Nat → α),
      ∃ M', Model.loadModel N draws C Model.new (some file) = some (.ok true, M') ∧ M'.Saves C file := by
  obtain ⟨file, file', e1, e2, h⟩ := C110_settles C hC M ls S n hM hS (fun l hl => .inl (hls l hl)) hw hn
  have : M.withoutActivations = M := by
    unfold Model.withoutActivations
    have : M.layers.filter (fun l => !l.body.isAct) = M.layers := by
      rw [List.filter_eq_self]
      intro l hl
      rw [hM, List.mem_append, List.mem_singleton] at hl
      rcases hl with hl | rfl
      · rw [← standard_isAct]
        have := hls l hl
        generalize l.body.standard = b at this
        cases this <;> rfl
      · rw [hS]; rfl
    rw [this]
  rw [this] at e2
  obtain rfl : file = file' := Option.some.inj (Prod.mk.inj (e1.symm.trans e2)).2
  exact ⟨file, e1, fun N draws => (h N draws).1⟩

/-- C110 The number of layers in the file gets smaller if there are activation layers, so the claim fails. -/
theorem C110_violated [Inhabited α] (C : Codec α) (hC : C.Lawful) : ¬ C110_claim C := by
  intro h
  have N : Num α := ⟨id, id, id, id, fun _ => 0, fun _ _ => false, 0, 0, 0⟩
  obtain ⟨file, file', e1, e2, h'⟩ := C110_settles C hC (((Model.new : Model α).addActivation .relu).setOutputLabels [] true) _ _ _ rfl rfl
    (by intro l hl
        simp only [Model.addActivation, Model.append, Model.new, List.nil_append, List.mem_singleton] at hl
        exact .inr ⟨_, by rw [hl]⟩) (by intro w hw; cases hw) (by show 0 < 2147483648; decide)
  obtain ⟨M', e3, e4⟩ := (h' N fun _ _ => 0).1
  have := h N (fun _ _ => 0) _ M' file file' e1 e3 e4
  have l1 : file = [] ++ Model.layerHead 0 ++ (Activation.new .relu).serialize ++ Model.layerHead 1 ++ (Softmax.new 0).serialize ++ Model.labelText [] :=
    (Option.some.inj (Prod.mk.inj e1).2).symm
  have l2 : file' = [] ++ Model.layerHead 0 ++ (Softmax.new 0).serialize ++ Model.labelText [] := (Option.some.inj (Prod.mk.inj e2).2).symm
  rw [l1, l2] at this
  have := congrArg List.length this
  simp only [List.length_append, Model.layerHead, List.length_cons] at this
  omega

/-! ## They apply -/

/-- A model with a convolution of stride 3, an activation layer, a pooling layer whose stride is not the pool size, a fully connected layer
and two labels; binary32. -/
def resaveModel : Model (Ieee Fmt.binary32) :=
  ⟨[⟨"Kernel_1".toList, .kernel { exampleKernelS with stride := 3 }⟩, ⟨"Activation_1".toList, .activation (Activation.new .tangent)⟩,
    ⟨"Pooling_1".toList, .pooling (Pooling.new ⟨2, 2⟩ ⟨1, 3⟩ .avg)⟩,
    ⟨"FullyConnected_1".toList, .connected exampleConnectedS⟩, ⟨"SoftmaxOutput".toList, .softmax (Softmax.new 2)⟩],
    ["a".toList, "b".toList], true, 1, 1, 1, 1⟩

theorem resaveModel_storable : ∀ l ∈ resaveModel.layers.dropLast, l.body.standard.Storable (Ieee.codec Fmt.binary32) ∨ ∃ A, l.body = .activation A := by
  have hK : exampleKernelS.Is 1 2 1 2 1 (fun _ _ _ => 0) (fun _ => 0) :=
    ⟨rfl, rfl, rfl, Matrix.Shows.of_vals ⟨by decide, by decide, by decide, by decide⟩ rfl (by rfl),
      Matrix.Shows.of_vals ⟨by decide, by decide, by decide, by decide⟩ rfl (by rfl)⟩
  have hL : exampleConnectedS.Is 2 3 (fun _ _ => 0) (fun _ => 0) :=
    ⟨Matrix.Shows.of_vals ⟨by decide, by decide, by decide, by decide⟩ rfl (by rfl),
      Matrix.Shows.of_vals ⟨by decide, by decide, by decide, by decide⟩ rfl (by rfl), rfl⟩
  intro l hl
  simp only [resaveModel, List.dropLast, List.mem_cons, List.not_mem_nil, or_false] at hl
  rcases hl with rfl | rfl | rfl | rfl
  · exact .inl (.kernel (K := exampleKernelS) hK (fun _ _ _ _ _ _ => finite_zero32) (fun _ _ => finite_zero32))
  · exact .inr ⟨_, rfl⟩
  · exact .inl (.pooling (by decide) (by decide) rfl)
  · exact .inl (.connected hL (fun _ _ _ _ => finite_zero32) (fun _ _ => finite_zero32))

example [Add (Ieee Fmt.binary32)] [Mul (Ieee Fmt.binary32)] [Div (Ieee Fmt.binary32)] : ∃ file file', resaveModel.Saves (Ieee.codec Fmt.binary32) file ∧
    resaveModel.withoutActivations.Saves (Ieee.codec Fmt.binary32) file' ∧ ∀ (N : Num (Ieee Fmt.binary32)) (draws : Nat → Nat → Ieee Fmt.binary32),
      (∃ M', Model.loadModel N draws (Ieee.codec Fmt.binary32) Model.new (some file) = some (.ok true, M') ∧ M'.Saves (Ieee.codec Fmt.binary32) file') ∧
      ∃ M', Model.loadModel N draws (Ieee.codec Fmt.binary32) Model.new (some file') = some (.ok true, M') ∧ M'.Saves (Ieee.codec Fmt.binary32) file' :=
  C110_settles _ (Ieee.lawful _) resaveModel _ _ (Softmax.new 2) (List.dropLast_append_getLast (l := resaveModel.layers) (by simp [resaveModel])).symm rfl
    resaveModel_storable (by unfold IsWord; decide) (by decide)

/-- Without the activation layer. -/
example [Add (Ieee Fmt.binary32)] [Mul (Ieee Fmt.binary32)] [Div (Ieee Fmt.binary32)] :
    ∃ file, resaveModel.withoutActivations.Saves (Ieee.codec Fmt.binary32) file ∧ ∀ (N : Num (Ieee Fmt.binary32)) (draws : Nat → Nat → Ieee Fmt.binary32),
      ∃ M', Model.loadModel N draws (Ieee.codec Fmt.binary32) Model.new (some file) = some (.ok true, M') ∧ M'.Saves (Ieee.codec Fmt.binary32) file := by
  refine C110_partial _ (Ieee.lawful _) resaveModel.withoutActivations _ _ (Softmax.new 2)
    (List.dropLast_append_getLast (l := resaveModel.withoutActivations.layers) (by simp [resaveModel, Model.withoutActivations, Body.isAct])).symm rfl ?_
    (by unfold IsWord; decide) (by decide)
  intro l hl
  have h1 : l ∈ resaveModel.layers.dropLast ∧ l.body.isAct = false := by
    simp only [resaveModel, Model.withoutActivations, Body.isAct, List.filter, Bool.not_true, Bool.not_false, List.dropLast, List.mem_cons, List.not_mem_nil, or_false] at hl ⊢
    rcases hl with rfl | rfl | rfl <;> simp
  rcases resaveModel_storable l h1.1 with h | ⟨A, h⟩
  · exact h
  · rw [h] at h1
    exact absurd h1.2 (by simp [Body.isAct])

end Cnn
