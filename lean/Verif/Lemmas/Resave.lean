import Verif.Spec.Resave
import Verif.Lemmas.MatrixText
/-! Helper lemmas: layers and models that are written as the same text. -/
namespace Cnn
variable {α : Type}

theorem matrixText_congr (C : Codec α) {X Y Z : Nat} {f g : Nat → Nat → Nat → α}
    (h : ∀ i < X, ∀ j < Y, ∀ k < Z, C.Same (g i j k) (f i j k)) : matrixText C X Y Z g = matrixText C X Y Z f := by
  unfold matrixText sliceText rowText
  have : ∀ x ∈ List.range X, ∀ y ∈ List.range Y, ∀ z ∈ List.range Z, cellText C (g x y z) = cellText C (f x y z) := by
    intro x hx y hy z hz
    have h1 := h x (List.mem_range.1 hx) y (List.mem_range.1 hy) z (List.mem_range.1 hz)
    have h2 := h1.2
    unfold Codec.Finite at h2
    obtain ⟨fx, hfx⟩ := Option.ne_none_iff_exists'.1 h2
    unfold cellText Codec.text
    rw [h1.1, hfx]
  congr 2
  refine List.flatMap_congr fun z hz => ?_
  congr 1
  refine List.flatMap_congr fun x hx => ?_
  congr 1
  exact List.flatMap_congr fun y hy => this x hx y hy z hz

theorem Codec.SameMatrix.text {C : Codec α} {M' M : Matrix α} (h : C.SameMatrix M' M) :
    M'.serialize C = M.serialize C ∧ M'.dim = M.dim := by
  obtain ⟨X, Y, Z, f, g, hf, hg, he⟩ := h
  rw [hf.serialize, hg.serialize, matrixText_congr C he, hf.dim, hg.dim]
  exact ⟨rfl, rfl⟩

theorem Body.SameAs.text {C : Codec α} {b' b : Body α} (h : b'.SameAs C b) (ha : ∀ A, b ≠ .activation A) : b'.serialize C = b.serialize C := by
  match b', b, h with
  | .kernel K', .kernel K, h =>
    show K'.serialize C = K.serialize C
    unfold Kernel.serialize
    rw [h.weights.text.1, h.biases.text.1, h.dim, h.num]
  | .pooling P', .pooling P, h =>
    show Res.ok P'.serialize = .ok P.serialize
    unfold Pooling.serialize
    rw [h.dim, h.type]
  | .connected L', .connected L, h =>
    show L'.serialize C = L.serialize C
    unfold Connected.serialize
    rw [h.weights.text.1, h.biases.text.1, h.weights.text.2]
  | .activation A', .activation A, h => exact absurd rfl (ha A)
  | .softmax S', .softmax S, h => rfl

theorem Body.standard_text (C : Codec α) (b : Body α) : b.standard.serialize C = b.serialize C := by
  cases b <;> rfl

theorem forall₂_imp_mem {β γ : Type} {R Q : β → γ → Prop} {xs : List β} {ys : List γ} (h : List.Forall₂ R xs ys)
    (hq : ∀ x, ∀ y ∈ ys, R x y → Q x y) : List.Forall₂ Q xs ys := by
  induction h with
  | nil => exact .nil
  | cons h _ ih => exact .cons (hq _ _ List.mem_cons_self h) (ih fun x y hy => hq x y (List.mem_cons_of_mem _ hy))

theorem saveLayers_congr (C : Codec α) {ls' ls : List (Layer α)} (h : List.Forall₂ (fun l' l => l'.body.serialize C = l.body.serialize C) ls' ls)
    (i : Nat) (os : List Char) : Model.saveLayers C i ls' os = Model.saveLayers C i ls os := by
  induction h generalizing i os with
  | nil => rfl
  | cons h _ ih =>
    unfold Model.saveLayers
    rw [h]
    split <;> first | exact ih _ _ | rfl

theorem saveModel_congr (C : Codec α) {M' M : Model α} (h : List.Forall₂ (fun l' l => l'.body.serialize C = l.body.serialize C) M'.layers M.layers)
    (hl : M'.labels = M.labels) (o : Bool) : M'.saveModel C o = M.saveModel C o := by
  unfold Model.saveModel
  rw [saveLayers_congr C h, hl]

/-- The model with the strides that are assumed when a file is read. -/
def Model.standard (M : Model α) : Model α := { M with layers := M.layers.map fun l => ⟨l.name, l.body.standard⟩ }

theorem Model.standard_save (C : Codec α) (M : Model α) (o : Bool) : M.standard.saveModel C o = M.saveModel C o := by
  refine saveModel_congr C (M' := M.standard) (M := M) ?_ rfl o
  show List.Forall₂ _ (M.layers.map _) M.layers
  rw [List.forall₂_map_left_iff]
  exact List.forall₂_same.2 fun l _ => Body.standard_text C l.body

theorem standard_isAct (b : Body α) : b.standard.isAct = b.isAct := by
  cases b <;> rfl

theorem standard_filter (ls : List (Layer α)) :
    (ls.map fun l => (⟨l.name, l.body.standard⟩ : Layer α)).filter (fun l => !l.body.isAct) =
      (ls.filter (fun l => !l.body.isAct)).map fun l => ⟨l.name, l.body.standard⟩ := by
  rw [List.filter_map]
  congr 2
  funext l
  exact congrArg _ (standard_isAct l.body)

end Cnn
