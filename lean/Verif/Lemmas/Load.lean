import Verif.Spec.Saved
import Verif.Lemmas.LayerText
import Verif.Lemmas.Shrink
/-! Helper lemmas: loading a saved model (C48, C49, C62, C66). -/
namespace Cnn
open IStream

/-! ### Names -/

section
variable {α : Type}

theorem countKind_append (k : String) (a b : List (Layer α)) : countKind k (a ++ b) = countKind k a + countKind k b := by
  simp [countKind]

/-- The counters of a model count its layers. -/
structure Model.Counted (M : Model α) : Prop where
  kernels : M.kernels = countKind "Kernel" M.layers
  poolings : M.poolings = countKind "Pooling" M.layers
  connecteds : M.connecteds = countKind "FullyConnected" M.layers
  activations : M.activations = countKind "Activation" M.layers

theorem Model.counted_new : (Model.new : Model α).Counted := ⟨rfl, rfl, rfl, rfl⟩

theorem Named.nil : Named ([] : List (Layer α)) := by
  intro pre l post h
  exact absurd h (by simp)

theorem Named.snoc {ls : List (Layer α)} {l : Layer α} (h : Named ls) (hl : l.name = properName ls l.body) : Named (ls ++ [l]) := by
  intro pre m post e
  rcases List.append_eq_append_iff.1 e with ⟨as, h1, h2⟩ | ⟨bs, h1, h2⟩
  · -- pre = ls ++ as
    cases as with
    | nil =>
      simp only [List.nil_append, List.cons.injEq, List.append_nil] at h1 h2
      rw [← h2.1, h1]; exact hl
    | cons a as => simp at h2
  · cases bs with
    | nil =>
      simp only [List.nil_append, List.cons.injEq, List.append_nil] at h1 h2
      rw [h2.1, ← h1]; exact hl
    | cons b bs =>
      simp only [List.cons_append, List.cons.injEq] at h2
      obtain ⟨rfl, h3⟩ := h2
      exact h pre m bs h1

theorem Body.SameAs.kind {C : Codec α} {b' b : Body α} (h : b'.SameAs C b) : b'.kind = b.kind := by
  cases b' <;> cases b <;> first | rfl | exact absurd h (by simp [Body.SameAs])

theorem countKind_congr {C : Codec α} (k : String) {ls' ls : List (Layer α)}
    (h : List.Forall₂ (fun l' l => Body.SameAs C l'.body l.body) ls' ls) : countKind k ls' = countKind k ls := by
  unfold countKind
  induction h with
  | nil => rfl
  | cons h _ ih =>
    simp only [List.filter_cons, h.kind]
    split
    · simp only [List.length_cons, ih]
    · exact ih

/-- Layers of the same classes with proper names have the same names. -/
theorem Named.same {C : Codec α} {ls' ls : List (Layer α)} (h : List.Forall₂ (fun l' l => Body.SameAs C l'.body l.body) ls' ls)
    (hn' : Named ls') (hn : Named ls) : List.Forall₂ (Layer.SameAs C) ls' ls := by
  rw [List.forall₂_iff_get] at h ⊢
  refine ⟨h.1, fun i h1 h2 => ⟨?_, h.2 i h1 h2⟩⟩
  have e' : ls' = ls'.take i ++ ls'[i] :: ls'.drop (i + 1) := by simp
  have e : ls = ls.take i ++ ls[i] :: ls.drop (i + 1) := by simp
  have n' := hn' _ _ _ e'
  have n := hn _ _ _ e
  have hpre : List.Forall₂ (fun l' l => Body.SameAs C l'.body l.body) (ls'.take i) (ls.take i) :=
    List.forall₂_take i (by rw [List.forall₂_iff_get]; exact h)
  have hk : (ls'[i]).body.kind = (ls[i]).body.kind := (h.2 i h1 h2).kind
  simp only [List.get_eq_getElem]
  rw [n', n]
  unfold properName
  rw [hk]
  split
  · rw [countKind_congr _ hpre]
  · rfl

end

/-! ### The loop -/

namespace Model
variable {α : Type} [Zero α] [Add α] [Mul α] [Div α]

theorem loop_step (N : Num α) (draws : Nat → Nat → α) (C : Codec α) (M : Model α) (fuel : Nat) {head label : List Char} {r : List Char}
    {s' : Model α × IStream} (hh : ∀ c ∈ head, c ≠ '\n') (hl : ∀ c ∈ label, c ≠ '\n')
    (h : loadLayer N draws C label (M, ⟨label ++ '\n' :: r, false, false⟩) = (.ok true, s')) :
    loadLoop N draws C (fuel + 1) (M, ⟨head ++ '\n' :: (label ++ '\n' :: r), false, false⟩) = loadLoop N draws C fuel s' := by
  unfold loadLoop
  simp only
  rw [getline_line hh]
  simp only [Bool.false_eq_true, if_false]
  rw [readLine_line hl]
  simp only
  rw [h]
  simp only
  cases fuel <;> rfl

theorem loop_runtime (N : Num α) (draws : Nat → Nat → α) (C : Codec α) (M : Model α) (fuel : Nat) {head label : List Char} {r : List Char}
    {s' : Model α × IStream} (hh : ∀ c ∈ head, c ≠ '\n') (hl : ∀ c ∈ label, c ≠ '\n')
    (h : loadLayer N draws C label (M, ⟨label ++ '\n' :: r, false, false⟩) = (.throw .runtime, s')) :
    loadLoop N draws C (fuel + 1) (M, ⟨head ++ '\n' :: (label ++ '\n' :: r), false, false⟩) = some (.ok false, s'.1) := by
  unfold loadLoop
  simp only
  rw [getline_line hh]
  simp only [Bool.false_eq_true, if_false]
  rw [readLine_line hl]
  simp only
  rw [h]

/-- The loop ends after a last line end. -/
theorem loop_end (N : Num α) (draws : Nat → Nat → α) (C : Codec α) (M : Model α) (fuel : Nat) :
    loadLoop N draws C (fuel + 2) (M, ⟨['\n'], false, false⟩) = some (.ok true, M) := by
  have e1 : getline ⟨['\n'], false, false⟩ = ([], ⟨[], false, false⟩) := getline_line (line := []) (by simp)
  have e2 : readLine ⟨[], false, false⟩ = ([], ⟨[], false, true⟩) := by decide
  have e3 : getline ⟨[], false, true⟩ = ([], ⟨[], false, true⟩) := by decide
  unfold loadLoop
  simp only [e1, Bool.false_eq_true, if_false, e2]
  have : loadLayer N draws C [] (M, ⟨[], false, true⟩) = (.ok true, (M, ⟨[], false, true⟩)) := by
    unfold loadLayer
    rw [if_neg (by decide), if_neg (by decide), if_neg (by decide), if_neg (by decide)]
  rw [this]
  simp only
  unfold loadLoop
  simp only [e3, if_true]

/-- The lines that start a layer. -/
def keywords : List (List Char) := ["Kernel".toList, "Pooling".toList, "Connected Layer".toList, "Softmax".toList]

theorem loadLayer_other (N : Num α) (draws : Nat → Nat → α) (C : Codec α) (M : Model α) (label : List Char) (is : IStream)
    (h : label ∉ keywords) : loadLayer N draws C label (M, is) = (.ok true, (M, is)) := by
  simp only [keywords, List.mem_cons, List.not_mem_nil, or_false, not_or] at h
  unfold loadLayer
  rw [if_neg h.1, if_neg h.2.1, if_neg h.2.2.1, if_neg h.2.2.2]

theorem kernel_zero (N : Num α) (draws : Nat → α) : ∃ W B, Kernel.new N draws ⟨0, 0, 0⟩ 1 1 = .ok ⟨⟨0, 0, 0⟩, 1, 1, W, B, [], []⟩ :=
  ⟨_, _, rfl⟩

theorem addKernel_zero (N : Num α) (draws : Nat → α) (M : Model α) : ∃ K : Kernel α, K.stride = 1 ∧
    M.addKernel N draws ⟨0, 0, 0⟩ 1 =
      .ok { M.append (layerName "Kernel" (M.kernels + 1)) (.kernel K) with kernels := M.kernels + 1 } := by
  obtain ⟨W, B, e⟩ := kernel_zero N draws
  refine ⟨⟨⟨0, 0, 0⟩, 1, 1, W, B, [], []⟩, ?_, ?_⟩
  · rfl
  · unfold addKernel
    have : u32 ((1 : Nat) : Int) = 1 := rfl
    rw [this, e, Res.bind_ok]

omit [Zero α] [Add α] [Mul α] [Div α] in
theorem onLast_append {τ : Type} (get : Body α → Option τ) (put : τ → Body α) (m : Exec (τ × IStream) Bool) {M : Model α}
    {ls : List (Layer α)} {l : Layer α} {t t' : τ} {is is' : IStream} {r : Res Bool} (hM : M.layers = ls ++ [l])
    (hg : get l.body = some t) (hm : m (t, is) = (r, (t', is'))) :
    onLast get put m (M, is) = (r, ({ M with layers := ls ++ [{ l with body := put t' }] }, is')) := by
  unfold onLast
  simp only [hM, List.getLast?_append, List.getLast?_singleton, Option.some_or, hg, hm, List.dropLast_append_cons,
    List.dropLast_singleton, List.append_nil]

theorem layerHead_line (i : Nat) : ∃ h, layerHead i = h ++ ['\n'] ∧ ∀ c ∈ h, c ≠ '\n' := by
  refine ⟨'(' :: natText i ++ ") ----------".toList, by simp [layerHead], ?_⟩
  intro c hc
  simp only [List.cons_append, List.mem_cons, List.mem_append] at hc
  rcases hc with rfl | hc | hc
  · decide
  · have := natText_isDigit i c hc
    rintro rfl
    exact absurd this (by decide)
  · revert c; decide

/-- What loading one layer gives. -/
structure Loaded (C : Codec α) (M : Model α) (b : Body α) (M' : Model α) (l : Layer α) : Prop where
  layers : M'.layers = M.layers ++ [l]
  same : l.body.SameAs C b
  labels : M'.labels = M.labels ∧ M'.softmax = M.softmax
  counted : M.Counted → M'.Counted ∧ l.name = properName M.layers l.body

variable [Inhabited α]

theorem load_one (N : Num α) (draws : Nat → Nat → α) (C : Codec α) (hC : C.Lawful) {b : Body α} (hb : b.Storable C) :
    ∃ t, b.serialize C = .ok t ∧ ∀ (M : Model α) (fuel i : Nat) (rest : List Char), ∃ M' l, Loaded C M b M' l ∧
      loadLoop N draws C (fuel + 1) (M, ⟨layerHead i ++ (t ++ rest), false, false⟩) =
        loadLoop N draws C fuel (M', ⟨rest, false, false⟩) := by
  cases hb with
  | @kernel A B D F K w β h hw hβ =>
    obtain ⟨t, w', β', e, s1, s2, ⟨t', et⟩, hr⟩ := Kernel.round_trip C hC h hw hβ
    refine ⟨t, e, fun M fuel i rest => ?_⟩
    obtain ⟨hd, eh, hh⟩ := layerHead_line i
    obtain ⟨K₀, hs, ea⟩ := addKernel_zero N (draws M.kernels) M
    obtain ⟨K', ed, hK', _, _⟩ := hr K₀ rest
    refine ⟨{ M.append (layerName "Kernel" (M.kernels + 1)) (.kernel K') with kernels := M.kernels + 1 },
      ⟨layerName "Kernel" (M.kernels + 1), .kernel K'⟩, ⟨rfl, ?_, ⟨rfl, rfl⟩, ?_⟩, ?_⟩
    · exact ⟨by rw [hK'.dim, h.dim], by rw [hK'.num, h.num], by rw [hK'.stride, hs, h.stride],
        ⟨_, _, _, _, _, h.weights, hK'.weights, s1⟩, ⟨_, _, _, _, _, h.biases, hK'.biases, fun i hi _ _ _ _ => s2 i hi⟩⟩
    · intro hc
      refine ⟨⟨?_, ?_, ?_, ?_⟩, ?_⟩
      · simp only [append, countKind_append, ← hc.kernels]; rfl
      · simp only [append, countKind_append, ← hc.poolings]; rfl
      · simp only [append, countKind_append, ← hc.connecteds]; rfl
      · simp only [append, countKind_append, ← hc.activations]; rfl
      · simp only [properName, Body.kind, layerName, ← hc.kernels]
    · have e1 : layerHead i ++ (t ++ rest) = hd ++ '\n' :: ("Kernel".toList ++ '\n' :: (t' ++ rest)) := by
        rw [eh, et]; simp [line]
      rw [e1]
      refine loop_step N draws C M fuel hh (by decide) ?_
      unfold loadLayer
      rw [if_pos rfl]
      simp only [ea]
      have e2 : "Kernel".toList ++ '\n' :: (t' ++ rest) = t ++ rest := by rw [et]; simp [line]
      rw [e2]
      refine (onLast_append _ Body.kernel (Kernel.deserialize C) (ls := M.layers) (l := ⟨layerName "Kernel" (M.kernels + 1), .kernel K₀⟩) ?_ ?_ ed).trans ?_ <;> rfl
  | @pooling P hx hy hs =>
    refine ⟨_, rfl, fun M fuel i rest => ?_⟩
    obtain ⟨hd, eh, hh⟩ := layerHead_line i
    refine ⟨{ M.append (layerName "Pooling" (M.poolings + 1)) (.pooling ⟨P.dim, P.dim, P.type, [Matrix.empty]⟩) with
        poolings := M.poolings + 1 },
      ⟨layerName "Pooling" (M.poolings + 1), .pooling ⟨P.dim, P.dim, P.type, [Matrix.empty]⟩⟩, ⟨rfl, ?_, ⟨rfl, rfl⟩, ?_⟩, ?_⟩
    · exact ⟨rfl, hs.symm, rfl⟩
    · intro hc
      refine ⟨⟨?_, ?_, ?_, ?_⟩, ?_⟩
      · simp only [append, countKind_append, ← hc.kernels]; rfl
      · simp only [append, countKind_append, ← hc.poolings]; rfl
      · simp only [append, countKind_append, ← hc.connecteds]; rfl
      · simp only [append, countKind_append, ← hc.activations]; rfl
      · simp only [properName, Body.kind, layerName, ← hc.poolings]
    · obtain ⟨t', et⟩ : ∃ t', P.serialize = line "Pooling" ++ t' :=
        ⟨_, by unfold Pooling.serialize; simp only [List.append_assoc]; rfl⟩
      have e1 : layerHead i ++ (P.serialize ++ rest) = hd ++ '\n' :: ("Pooling".toList ++ '\n' :: (t' ++ rest)) := by
        rw [eh, et]; simp [line]
      rw [e1]
      refine loop_step N draws C M fuel hh (by decide) ?_
      unfold loadLayer
      rw [if_neg (by decide), if_pos rfl]
      have e2 : "Pooling".toList ++ '\n' :: (t' ++ rest) = P.serialize ++ rest := by rw [et]; simp [line]
      rw [e2]
      refine (onLast_append _ Body.pooling Pooling.deserialize (ls := M.layers) (l := ⟨layerName "Pooling" (M.poolings + 1), .pooling (Pooling.new ⟨0, 0⟩ ⟨0, 0⟩ .max)⟩)
        ?_ ?_ (Pooling.deserialize_text P (Pooling.new ⟨0, 0⟩ ⟨0, 0⟩ .max) hx hy rest)).trans ?_ <;> rfl
  | @connected n m L w β h hw hβ =>
    obtain ⟨t, w', β', e, s1, s2, ⟨t', et⟩, hr⟩ := Connected.round_trip C hC h hw hβ
    refine ⟨t, e, fun M fuel i rest => ?_⟩
    obtain ⟨hd, eh, hh⟩ := layerHead_line i
    obtain ⟨L₀, ea⟩ : ∃ L₀ : Connected α, M.addConnected 0 =
      .ok { M.append (layerName "FullyConnected" (M.connecteds + 1)) (.connected L₀) with connecteds := M.connecteds + 1 } :=
      ⟨_, rfl⟩
    obtain ⟨L', ed, hL', _, _⟩ := hr L₀ rest
    refine ⟨{ M.append (layerName "FullyConnected" (M.connecteds + 1)) (.connected L') with connecteds := M.connecteds + 1 },
      ⟨layerName "FullyConnected" (M.connecteds + 1), .connected L'⟩, ⟨rfl, ?_, ⟨rfl, rfl⟩, ?_⟩, ?_⟩
    · exact ⟨⟨_, _, _, _, _, h.weights, hL'.weights, fun i hi k hk _ _ => s1 i hi k hk⟩,
        ⟨_, _, _, _, _, h.biases, hL'.biases, fun i hi _ _ _ _ => s2 i hi⟩, hL'.initialized, h.initialized⟩
    · intro hc
      refine ⟨⟨?_, ?_, ?_, ?_⟩, ?_⟩
      · simp only [append, countKind_append, ← hc.kernels]; rfl
      · simp only [append, countKind_append, ← hc.poolings]; rfl
      · simp only [append, countKind_append, ← hc.connecteds]; rfl
      · simp only [append, countKind_append, ← hc.activations]; rfl
      · simp only [properName, Body.kind, layerName, ← hc.connecteds]
    · have e1 : layerHead i ++ (t ++ rest) = hd ++ '\n' :: ("Connected Layer".toList ++ '\n' :: (t' ++ rest)) := by
        rw [eh, et]; simp [line]
      rw [e1]
      refine loop_step N draws C M fuel hh (by decide) ?_
      unfold loadLayer
      rw [if_neg (by decide), if_neg (by decide), if_pos rfl]
      simp only [ea]
      have e2 : "Connected Layer".toList ++ '\n' :: (t' ++ rest) = t ++ rest := by rw [et]; simp [line]
      rw [e2]
      refine (onLast_append _ Body.connected (Connected.deserialize C) (ls := M.layers) (l := ⟨layerName "FullyConnected" (M.connecteds + 1), .connected L₀⟩) ?_ ?_ ed).trans ?_ <;>
        rfl

omit [Inhabited α] in
/-- A convolution layer that does not go on with its first dimension. -/
theorem load_kernel_bad (N : Num α) (draws : Nat → Nat → α) (C : Codec α) (M : Model α) (rest : List Char)
    (h : (expectInt "x".toList ⟨rest, false, false⟩).1 = .throw .runtime) :
    ∃ s', loadLayer N draws C "Kernel".toList (M, ⟨"Kernel".toList ++ '\n' :: rest, false, false⟩) = (.throw .runtime, s') ∧
      s'.1.layers.length = M.layers.length + 1 ∧ s'.1.labels = M.labels := by
  obtain ⟨K₀, hs, ea⟩ := addKernel_zero N (draws M.kernels) M
  have ed : ∃ is', Kernel.deserialize C (K₀, ⟨"Kernel".toList ++ '\n' :: rest, false, false⟩) = (.throw .runtime, (K₀, is')) := by
    refine ⟨(expectInt "x".toList ⟨rest, false, false⟩).2, ?_⟩
    unfold Kernel.deserialize
    rw [Exec.run_ok (Exec.into_ok expectVoid_line), Exec.run_throw (Exec.into_throw (Prod.ext h rfl))]
  obtain ⟨is', ed⟩ := ed
  refine ⟨({ M.append (layerName "Kernel" (M.kernels + 1)) (.kernel K₀) with kernels := M.kernels + 1 }, is'), ?_, ?_, rfl⟩
  · unfold loadLayer
    rw [if_pos rfl]
    simp only [ea]
    refine (onLast_append _ Body.kernel (Kernel.deserialize C) (ls := M.layers) (l := ⟨layerName "Kernel" (M.kernels + 1), .kernel K₀⟩)
      ?_ ?_ ed).trans ?_ <;> rfl
  · simp [append]

omit [Inhabited α] in
/-- A fully connected layer that does not go on with its first dimension. -/
theorem load_connected_bad (N : Num α) (draws : Nat → Nat → α) (C : Codec α) (M : Model α) (rest : List Char)
    (h : (expectInt "x".toList ⟨rest, false, false⟩).1 = .throw .runtime) :
    ∃ s', loadLayer N draws C "Connected Layer".toList (M, ⟨"Connected Layer".toList ++ '\n' :: rest, false, false⟩) =
      (.throw .runtime, s') := by
  obtain ⟨L₀, ea⟩ : ∃ L₀ : Connected α, M.addConnected 0 =
      .ok { M.append (layerName "FullyConnected" (M.connecteds + 1)) (.connected L₀) with connecteds := M.connecteds + 1 } :=
    ⟨_, rfl⟩
  have ed : ∃ is', Connected.deserialize C (L₀, ⟨"Connected Layer".toList ++ '\n' :: rest, false, false⟩) = (.throw .runtime, (L₀, is')) := by
    refine ⟨(expectInt "x".toList ⟨rest, false, false⟩).2, ?_⟩
    unfold Connected.deserialize
    rw [Exec.run_ok (Exec.into_ok expectVoid_line), Exec.run_throw (Exec.into_throw (Prod.ext h rfl))]
  obtain ⟨is', ed⟩ := ed
  refine ⟨({ M.append (layerName "FullyConnected" (M.connecteds + 1)) (.connected L₀) with connecteds := M.connecteds + 1 }, is'), ?_⟩
  unfold loadLayer
  rw [if_neg (by decide), if_neg (by decide), if_pos rfl]
  simp only [ea]
  refine (onLast_append _ Body.connected (Connected.deserialize C) (ls := M.layers)
    (l := ⟨layerName "FullyConnected" (M.connecteds + 1), .connected L₀⟩) ?_ ?_ ed).trans ?_ <;> rfl

omit [Inhabited α] in
/-- A pooling layer of an unknown type. -/
theorem load_pooling_bad (N : Num α) (draws : Nat → Nat → α) (C : Codec α) (M : Model α) (name rest : List Char)
    (hn : ∀ c ∈ name, c ≠ '\n') (h : name ≠ "MAX".toList ∧ name ≠ "MIN".toList ∧ name ≠ "AVG".toList) :
    ∃ s', loadLayer N draws C "Pooling".toList (M, ⟨"Pooling".toList ++ '\n' :: (name ++ '\n' :: rest), false, false⟩) =
      (.throw .runtime, s') := by
  have ed : ∃ is', Pooling.deserialize (Pooling.new ⟨0, 0⟩ ⟨0, 0⟩ .max, ⟨"Pooling".toList ++ '\n' :: (name ++ '\n' :: rest), false, false⟩) =
      (.throw .runtime, (Pooling.new ⟨0, 0⟩ ⟨0, 0⟩ .max, is')) := by
    refine ⟨⟨rest, false, false⟩, ?_⟩
    unfold Pooling.deserialize
    rw [Exec.run_ok (Exec.into_ok expectVoid_line), Exec.run_throw]
    unfold Pooling.readType
    simp only
    rw [getline_line hn]
    simp only
    rw [if_neg h.1, if_neg h.2.1, if_neg h.2.2]
  obtain ⟨is', ed⟩ := ed
  refine ⟨(M.addPooling ⟨0, 0⟩ ⟨0, 0⟩ .max, is'), ?_⟩
  unfold loadLayer
  rw [if_neg (by decide), if_pos rfl]
  refine (onLast_append _ Body.pooling Pooling.deserialize (ls := M.layers)
    (l := ⟨layerName "Pooling" (M.poolings + 1), .pooling (Pooling.new ⟨0, 0⟩ ⟨0, 0⟩ .max)⟩) ?_ ?_ ed).trans ?_ <;> rfl

omit [Inhabited α] in
/-- Layers of other classes are not recognised: three lines are skipped. -/
theorem load_activation (N : Num α) (draws : Nat → Nat → α) (C : Codec α) (A : Activation) (M : Model α) (fuel i j : Nat)
    (rest : List Char) :
    loadLoop N draws C (fuel + 3) (M, ⟨layerHead i ++ (A.serialize ++ (layerHead j ++ rest)), false, false⟩) =
      loadLoop N draws C fuel (M, ⟨layerHead j ++ rest, false, false⟩) := by
  obtain ⟨hd, eh, hh⟩ := layerHead_line i
  obtain ⟨hd', eh', hh'⟩ := layerHead_line j
  have e1 : layerHead i ++ (A.serialize ++ (layerHead j ++ rest)) =
      hd ++ '\n' :: ("Activation".toList ++ '\n' :: (A.tag.name.toList ++ '\n' :: (hd' ++ '\n' :: rest))) := by
    rw [eh, eh']; simp [Activation.serialize, line]
  have e2 : layerHead j ++ rest = hd' ++ '\n' :: rest := by rw [eh']; simp
  have other := loadLayer_other N draws C M
  have hp : hd'.head? = some '(' := by
    have := congrArg List.head? eh'
    simp only [layerHead, List.cons_append, List.head?_cons, List.head?_append] at this
    cases hd' with
    | nil => simp at this
    | cons c l => simpa using this.symm
  rw [e1, loop_step N draws C M (fuel + 2) hh (by decide) (other _ _ (by decide)),
    loop_step N draws C M (fuel + 1) (by decide) (actName_line _) (other _ _ (by cases A.tag <;> decide)),
    loop_step N draws C M fuel (actName_line _) hh' (other _ _ ?_), e2]
  intro hm
  simp only [keywords, List.mem_cons, List.not_mem_nil, or_false] at hm
  rcases hm with h | h | h | h <;> (rw [h] at hp; exact absurd hp (by decide))

/-- Is it an activation layer? -/
def isActivation (l : Layer α) : Bool := match l.body with | .activation _ => true | _ => false

/-- All layers before the output, which is a layer again. -/
theorem load_all (N : Num α) (draws : Nat → Nat → α) (C : Codec α) (hC : C.Lawful) (ls : List (Layer α))
    (hb : ∀ l ∈ ls, l.body.Storable C ∨ isActivation l = true) (i : Nat) :
    ∃ T n, (T = [] ∨ ∃ r, T = layerHead i ++ r) ∧ (∀ more os, saveLayers C i (ls ++ more) os = saveLayers C (i + ls.length) more (os ++ T)) ∧
      ∀ (M : Model α) (fuel : Nat) (rest : List Char), ∃ M' ls', M'.layers = M.layers ++ ls' ∧
        List.Forall₂ (fun l' l => Body.SameAs C l'.body l.body) ls' (ls.filter (!isActivation ·)) ∧
        (M'.labels = M.labels ∧ M'.softmax = M.softmax) ∧
        (M.Counted → M'.Counted ∧ (Named M.layers → Named M'.layers)) ∧
        loadLoop N draws C (fuel + n) (M, ⟨T ++ (layerHead (i + ls.length) ++ rest), false, false⟩) =
          loadLoop N draws C fuel (M', ⟨layerHead (i + ls.length) ++ rest, false, false⟩) := by
  induction ls generalizing i with
  | nil =>
    exact ⟨[], 0, .inl rfl, by simp, fun M fuel rest => ⟨M, [], by simp, .nil, ⟨rfl, rfl⟩, fun h => ⟨h, id⟩, rfl⟩⟩
  | cons l ls ih =>
    obtain ⟨T, n, hst, hT, hM⟩ := ih (fun m hm => hb m (by simp [hm])) (i + 1)
    have hlen : i + (l :: ls).length = i + 1 + ls.length := by simp only [List.length_cons]; omega
    by_cases hact : isActivation l = true
    · obtain ⟨A, hA⟩ : ∃ A, l.body = .activation A := by
        unfold isActivation at hact
        split at hact
        · rename_i A h; exact ⟨A, h⟩
        · simp at hact
      refine ⟨layerHead i ++ A.serialize ++ T, n + 3, .inr ⟨A.serialize ++ T, by simp⟩, ?_, ?_⟩
      · intro more os
        rw [List.cons_append, saveLayers, hA]
        simp only [Body.serialize]
        rw [hT, hlen]
        simp
      · intro M fuel rest
        obtain ⟨M', ls', a1, a2, a3, a4, a5⟩ := hM M fuel rest
        refine ⟨M', ls', a1, by rw [List.filter_cons_of_neg (by simp [hact])]; exact a2, a3, a4, ?_⟩
        rw [hlen, ← a5]
        have hstart : ∃ j r', T ++ (layerHead (i + 1 + ls.length) ++ rest) = layerHead j ++ r' := by
          rcases hst with rfl | ⟨r', rfl⟩
          · exact ⟨_, rest, rfl⟩
          · exact ⟨i + 1, r' ++ (layerHead (i + 1 + ls.length) ++ rest), by simp⟩
        obtain ⟨j, r', ej⟩ := hstart
        have e0 : layerHead i ++ A.serialize ++ T ++ (layerHead (i + 1 + ls.length) ++ rest) =
            layerHead i ++ (A.serialize ++ (layerHead j ++ r')) := by rw [← ej]; simp
        rw [e0, ← Nat.add_assoc, load_activation, ej]
    · obtain ⟨t, e, hl⟩ := load_one N draws C hC ((hb l (by simp)).resolve_right hact)
      refine ⟨layerHead i ++ t ++ T, n + 1, .inr ⟨t ++ T, by simp⟩, ?_, ?_⟩
      · intro more os
        rw [List.cons_append, saveLayers, e]
        simp only
        rw [hT, hlen]
        simp
      · intro M fuel rest
        obtain ⟨M₁, l', h1, e1⟩ := hl M (fuel + n) i (T ++ (layerHead (i + 1 + ls.length) ++ rest))
        obtain ⟨M', ls', a1, a2, a3, a4, a5⟩ := hM M₁ fuel rest
        refine ⟨M', l' :: ls', by rw [a1, h1.layers]; simp, ?_, ⟨a3.1.trans h1.labels.1, a3.2.trans h1.labels.2⟩, ?_, ?_⟩
        · rw [List.filter_cons_of_pos (by simp [hact])]; exact .cons h1.same a2
        · intro hc
          obtain ⟨c1, n1⟩ := h1.counted hc
          obtain ⟨c2, n2⟩ := a4 c1
          exact ⟨c2, fun hn => n2 (by rw [h1.layers]; exact hn.snoc n1)⟩
        · rw [hlen, ← a5, ← e1]
          simp [Nat.add_assoc]

/-! ### The output -/

omit [Zero α] [Add α] [Mul α] [Div α] [Inhabited α]

theorem _root_.Cnn.extractWord_stop {w r : List Char} {c : Char} (h : IsWord w) (hc : isWs c = true) :
    extractWord ⟨w ++ c :: r, false, false⟩ = (some w, ⟨c :: r, false, false⟩) := by
  obtain ⟨h1, h2⟩ := h
  cases w with
  | nil => exact absurd rfl h1
  | cons d w =>
    unfold extractWord
    have hs := sentryWs_ok (ws := []) (c := d) (l := w ++ c :: r) (by simp) (h2 d (by simp))
    simp only [List.nil_append] at hs
    rw [List.cons_append, hs]
    have t : (d :: w ++ c :: r).takeWhile (fun c => !isWs c) = d :: w := by
      rw [List.takeWhile_append_of_pos (by intro a ha; simp [h2 a ha])]
      simp [hc]
    have e : (d :: w ++ c :: r).dropWhile (fun c => !isWs c) = c :: r := by
      rw [List.dropWhile_append_of_pos (by intro a ha; simp [h2 a ha])]
      simp [hc]
    rw [List.cons_append] at t e
    simp only [t, e]
    rfl

theorem extractWord_word {w r : List Char} (h : IsWord w) :
    extractWord ⟨w ++ '\n' :: r, false, false⟩ = (some w, ⟨'\n' :: r, false, false⟩) := extractWord_stop h (by decide)

theorem readLabels_text (labels : List (List Char)) (h : ∀ w ∈ labels, IsWord w) (rest : List Char) :
    readLabels labels.length ⟨labels.flatMap (· ++ ['\n']) ++ rest, false, false⟩ = (labels, ⟨rest, false, false⟩) := by
  induction labels with
  | nil => rfl
  | cons w ws ih =>
    have e : (w :: ws).flatMap (· ++ ['\n']) ++ rest = w ++ '\n' :: (ws.flatMap (· ++ ['\n']) ++ rest) := by simp
    rw [e, List.length_cons, readLabels, extractWord_word (h w (by simp))]
    simp only
    rw [clearLine_nl', ih (fun v hv => h v (by simp [hv]))]
    rfl

theorem placeText_nat (label : List Char) (n : Nat) (r : List Char) :
    label ++ ' ' :: (natText n ++ '\n' :: r) = placeText label (n : Int) ++ r := by
  unfold placeText intText
  rw [if_neg (by omega)]
  simp

theorem loadSoftmax_text (M : Model α) (labels : List (List Char)) (h : ∀ w ∈ labels, IsWord w) (hn : labels.length < 2147483648)
    (rest : List Char) :
    loadSoftmax (M, ⟨line "Softmax" ++ ('\n' :: ("Output labels".toList ++ ' ' :: (natText labels.length ++ '\n' ::
      (labels.flatMap (· ++ ['\n']) ++ rest)))), false, false⟩) = (.ok true, (M.setOutputLabels labels true, ⟨rest, false, false⟩)) := by
  unfold loadSoftmax
  simp only
  rw [line_append, clearLine_nl (by decide) (by decide), clearLine_nl', placeText_nat, expectInt_place (by unfold I32; omega)]
  simp only
  rw [if_neg (by omega), Int.toNat_natCast, readLabels_text labels h]

end Model
end Cnn
