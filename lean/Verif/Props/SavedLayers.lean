import Verif.Spec.Saved
import Verif.Lemmas.LayerText
import Verif.Lemmas.Codec
import Verif.Props.Text
import Verif.Props.Connected
/-!
# C44 – C47: saved layers load back
-/
namespace Cnn
open IStream

section
variable {α : Type} [Zero α] [Inhabited α]

/-! ## C44 -/

/-- C44: one pair of weights and biases, equal to the saved ones to six decimals, is read back into every receiver, whatever
text follows. The stride is not saved: the receiver keeps its own. -/
theorem C44_round_trip (C : Codec α) (hC : C.Lawful) (A B D F s : Nat) (K : Kernel α) (w : Nat → Nat → Nat → α) (β : Nat → α)
    (hK : K.Is A B D F s w β) (hw : ∀ a < A, ∀ b < B, ∀ m < D * F, C.Finite (w a b m)) (hβ : ∀ f < F, C.Finite (β f)) :
    ∃ t, ∃ w' : Nat → Nat → Nat → α, ∃ β' : Nat → α, K.serialize C = .ok t ∧
      (∀ a < A, ∀ b < B, ∀ m < D * F, C.Same (w' a b m) (w a b m)) ∧ (∀ f < F, C.Same (β' f) (β f)) ∧
      ∀ (R : Kernel α) (rest : List Char), ∃ K', Kernel.deserialize C (R, ofText (t ++ rest)) = (.ok true, (K', ofText rest)) ∧
        K'.Is A B D F R.stride w' β' := by
  obtain ⟨t, w', β', e, h1, h2, _, h3⟩ := Kernel.round_trip C hC hK hw hβ
  refine ⟨t, w', β', e, h1, h2, fun R rest => ?_⟩
  obtain ⟨K', e', hI, _⟩ := h3 R rest
  exact ⟨K', e', hI⟩

/-- With a receiver of the same stride the loaded layer is the saved one. -/
theorem C44_same (C : Codec α) (hC : C.Lawful) (A B D F s : Nat) (K : Kernel α) (w : Nat → Nat → Nat → α) (β : Nat → α)
    (hK : K.Is A B D F s w β) (hw : ∀ a < A, ∀ b < B, ∀ m < D * F, C.Finite (w a b m)) (hβ : ∀ f < F, C.Finite (β f)) :
    ∃ t, K.serialize C = .ok t ∧ ∀ (R : Kernel α) (rest : List Char), R.stride = K.stride →
      ∃ K', Kernel.deserialize C (R, ofText (t ++ rest)) = (.ok true, (K', ofText rest)) ∧ K'.SameAs C K := by
  obtain ⟨t, w', β', e, h1, h2, h3⟩ := C44_round_trip C hC A B D F s K w β hK hw hβ
  refine ⟨t, e, fun R rest hs => ?_⟩
  obtain ⟨K', e', hI⟩ := h3 R rest
  exact ⟨K', e', ⟨by rw [hI.dim, hK.dim], by rw [hI.num, hK.num], by rw [hI.stride, hs],
    ⟨_, _, _, _, _, hK.weights, hI.weights, h1⟩, ⟨_, _, _, _, _, hK.biases, hI.biases, fun i hi _ _ _ _ => h2 i hi⟩⟩⟩

end

/-- A layer of two `1 × 2` filters with `float` entries. -/
def exampleKernel32 : Kernel (Ieee Fmt.binary32) :=
  ⟨dimN 1 2 1, 2, 3, ⟨dimN 1 2 2, [0, 0, 0, 0]⟩, ⟨dimN 2 1 1, [0, 0]⟩, [], []⟩

theorem exampleKernel32_is : exampleKernel32.Is 1 2 1 2 3 (fun _ _ _ => 0) (fun _ => 0) :=
  ⟨rfl, rfl, rfl, Matrix.Shows.of_vals ⟨by decide, by decide, by decide, by decide⟩ rfl (by rfl),
    Matrix.Shows.of_vals ⟨by decide, by decide, by decide, by decide⟩ rfl (by rfl)⟩

theorem finite_zero32 : (Ieee.codec Fmt.binary32).Finite 0 := by
  unfold Codec.Finite
  decide

example : ∃ t, exampleKernel32.serialize (Ieee.codec Fmt.binary32) = .ok t ∧
    ∀ (R : Kernel (Ieee Fmt.binary32)) (rest : List Char), R.stride = 3 →
      ∃ K', Kernel.deserialize (Ieee.codec Fmt.binary32) (R, ofText (t ++ rest)) = (.ok true, (K', ofText rest)) ∧
        K'.SameAs (Ieee.codec Fmt.binary32) exampleKernel32 :=
  C44_same _ (Ieee.lawful _) 1 2 1 2 3 _ _ _ exampleKernel32_is (fun _ _ _ _ _ _ => finite_zero32) (fun _ _ => finite_zero32)

/-! ## C45 -/

/-- The claim of C45 for one layer. -/
def C45_claim : Prop := ∀ P : Pooling, I32 P.dim.x → I32 P.dim.y → I32 P.stride.x → I32 P.stride.y →
  ∀ (R : Pooling) (rest : List Char), ∃ P', Pooling.deserialize (R, ofText (P.serialize ++ rest)) = (.ok true, (P', ofText rest)) ∧
    P'.SameAs P

/-- What is read back: type and pool size, but the pool size also as the stride. -/
theorem C45_read (P : Pooling) (hx : I32 P.dim.x) (hy : I32 P.dim.y) (R : Pooling) (rest : List Char) :
    ∃ P', Pooling.deserialize (R, ofText (P.serialize ++ rest)) = (.ok true, (P', ofText rest)) ∧
      P'.type = P.type ∧ P'.dim = P.dim ∧ P'.stride = P.dim ∧ P'.indices = R.indices :=
  ⟨_, Pooling.deserialize_text P R hx hy rest, rfl, rfl, rfl, rfl⟩

/-- So the claim fails: overlapping `2 × 2` pools with stride 1 come back disjoint. -/
theorem C45_violated : ¬ C45_claim := by
  intro h
  obtain ⟨P', e, hs⟩ := h (Pooling.new ⟨2, 2⟩ ⟨1, 1⟩ .max) (by decide) (by decide) (by decide) (by decide) (Pooling.new ⟨2, 2⟩ ⟨1, 1⟩ .max) []
  obtain ⟨P'', e', _, _, h2, _⟩ := C45_read (Pooling.new ⟨2, 2⟩ ⟨1, 1⟩ .max) (by decide) (by decide) (Pooling.new ⟨2, 2⟩ ⟨1, 1⟩ .max) []
  have : P' = P'' := by
    rw [e] at e'
    exact (Prod.mk.inj (Prod.mk.inj e').2).1
  subst this
  rw [hs.stride] at h2
  exact absurd h2 (by decide)

/-- C45 for layers whose stride is the pool size. Missing: all others, refuted above. -/
theorem C45_partial (P : Pooling) (hx : I32 P.dim.x) (hy : I32 P.dim.y) (hs : P.stride = P.dim) (R : Pooling) (rest : List Char) :
    ∃ P', Pooling.deserialize (R, ofText (P.serialize ++ rest)) = (.ok true, (P', ofText rest)) ∧ P'.SameAs P := by
  obtain ⟨P', e, h1, h2, h3, _⟩ := C45_read P hx hy R rest
  exact ⟨P', e, ⟨h2, h3.trans hs.symm, h1⟩⟩

/-- An unknown type is rejected: the name of another type, or one of the names with something added. -/
theorem C45_unknown_type (R : Pooling) (name rest : List Char) (hn : ∀ c ∈ name, c ≠ '\n')
    (h : name ≠ "MAX".toList ∧ name ≠ "MIN".toList ∧ name ≠ "AVG".toList) :
    (Pooling.deserialize (R, ofText (line "Pooling" ++ (name ++ '\n' :: rest)))).1 = .throw .runtime := by
  unfold Pooling.deserialize ofText
  rw [Exec.run_ok (Exec.into_ok (expectVoid_line' _ _))]
  have : Pooling.readType (R, ⟨name ++ '\n' :: rest, false, false⟩) = (.throw .runtime, (R, ⟨rest, false, false⟩)) := by
    unfold Pooling.readType
    simp only
    rw [getline_line hn]
    simp only
    rw [if_neg h.1, if_neg h.2.1, if_neg h.2.2]
  rw [Exec.run_throw this]

example : Pooling.deserialize (Pooling.new ⟨0, 0⟩ ⟨0, 0⟩ .max, ofText ((Pooling.new ⟨2, 3⟩ ⟨2, 3⟩ .avg).serialize ++ "rest".toList)) =
    (.ok true, (Pooling.new ⟨2, 3⟩ ⟨2, 3⟩ .avg, ofText "rest".toList)) := by decide +kernel

/-! ## C46 -/

section
variable {α : Type} [Zero α] [Inhabited α]

/-- The full claim of C46: for all layers, used or not, reading the text of the layer into a new layer gives one that
computes `w'·v + β'` forward, and a gradient of the input's shape backward. -/
def C46_claim (C : Codec α) [Add α] [Mul α] [Div α] : Prop :=
  (∀ (n : Nat) (L R : Connected α) (rest : List Char), 0 < n → n < 2147483648 → Connected.new n = .ok L →
      Connected.new 0 = .ok R → ∃ t L', L.serialize C = .ok t ∧
        Connected.deserialize C (R, ofText (t ++ rest)) = (.ok true, (L', ofText rest))) ∧
  (∀ (n X Y Z : Nat) (L R : Connected α) (w : Nat → Nat → α) (β g : Nat → α) (M Q G : Matrix α) (x : Nat → Nat → Nat → α)
      (rest : List Char),
    L.Is n (X * Y * Z) w β → L.inputDim = dimN X Y Z → (∀ i < n, ∀ k < X * Y * Z, C.Finite (w i k)) → (∀ i < n, C.Finite (β i)) →
    Connected.new 0 = .ok R → M.Shows X Y Z x → G.Shows n 1 1 (fun i _ _ => g i) →
    ∃ t L' D L'' r, L.serialize C = .ok t ∧ Connected.deserialize C (R, ofText (t ++ rest)) = (.ok true, (L', ofText rest)) ∧
      (L'.setBatchSize 1).backward .dimsFirst M Q G 0 false = .ok (D, L'') ∧ D.Shows X Y Z r)

/-- C46, forward: a layer that has fixed its size is read back, into every receiver, with the parameters rounded to six
decimals, and then computes `w'·v + β'`.
Missing: layers that have not fixed their size, and backward propagation; both refuted below. -/
theorem C46_forward_partial [Add α] [Mul α] [Div α] (C : Codec α) (hC : C.Lawful) (n m : Nat) (L : Connected α)
    (w : Nat → Nat → α) (β : Nat → α) (hL : L.Is n m w β) (hw : ∀ i < n, ∀ k < m, C.Finite (w i k)) (hβ : ∀ i < n, C.Finite (β i)) :
    ∃ t, ∃ w' : Nat → Nat → α, ∃ β' : Nat → α, L.serialize C = .ok t ∧
      (∀ i < n, ∀ k < m, C.Same (w' i k) (w i k)) ∧ (∀ i < n, C.Same (β' i) (β i)) ∧
      ∀ (R : Connected α) (rest : List Char), ∃ L', Connected.deserialize C (R, ofText (t ++ rest)) =
          (.ok true, (L', ofText rest)) ∧ L'.SameAs C L ∧ L'.inputDim = R.inputDim ∧
        ∀ (N : Num α) (draws : Nat → α) (i : Input α),
          if i.count = m then
            ∃ out, L'.forward N draws i.mat = (.ok out, L') ∧
              out.Shows n 1 1 (fun p _ _ => affine w' β' m (flatOf i.X i.Y i.entry) p)
          else L'.forward N draws i.mat = (.throw .modelLayer, L') := by
  obtain ⟨t, w', β', e, h1, h2, _, h3⟩ := Connected.round_trip C hC hL hw hβ
  refine ⟨t, w', β', e, h1, h2, fun R rest => ?_⟩
  obtain ⟨L', e', hI, hd, _⟩ := h3 R rest
  refine ⟨L', e', ⟨⟨_, _, _, _, _, hL.weights, hI.weights, fun i hi k hk _ _ => h1 i hi k hk⟩,
    ⟨_, _, _, _, _, hL.biases, hI.biases, fun i hi _ _ _ _ => h2 i hi⟩, hI.initialized, hL.initialized⟩, hd, ?_⟩
  intro N draws i
  exact C37_forward N draws L' w' β' i.mat i.entry hI i.shows'

/-- Backward, for all layers, inputs and gradients: read into a layer made by `addConnectedLayer`, whose stored input shape
is empty, the layer throws `MatrixTransformException` unless it is the first layer of the model (`is_last_layer`). -/
theorem C46_backward [Add α] [Mul α] (C : Codec α) (hC : C.Lawful) (n X Y Z k : Nat) (L R : Connected α)
    (w : Nat → Nat → α) (β g : Nat → α) (M Q G : Matrix α) (x : Nat → Nat → Nat → α) (rest : List Char)
    (hL : L.Is n (X * Y * Z) w β) (hw : ∀ i < n, ∀ k < X * Y * Z, C.Finite (w i k)) (hβ : ∀ i < n, C.Finite (β i))
    (hR : Connected.new k = .ok R) (hM : M.Shows X Y Z x) (hG : G.Shows n 1 1 (fun i _ _ => g i)) :
    ∃ t L', L.serialize C = .ok t ∧ Connected.deserialize C (R, ofText (t ++ rest)) = (.ok true, (L', ofText rest)) ∧
      (L'.setBatchSize 1).backward .dimsFirst M Q G 0 false = .throw .matrixTransform ∧
      ∃ L'', (L'.setBatchSize 1).backward .dimsFirst M Q G 0 true = .ok (Matrix.empty, L'') := by
  obtain ⟨t, w', β', e, _, _, _, h3⟩ := Connected.round_trip C hC hL hw hβ
  obtain ⟨L', e', hI, hd, _⟩ := h3 R rest
  have hR0 : R.inputDim = dimN 0 0 0 := by
    unfold Connected.new at hR
    obtain ⟨_, _, hR⟩ := Res.bind_eq_ok hR
    obtain ⟨_, _, hR⟩ := Res.bind_eq_ok hR
    rw [← Res.ok.inj hR]
    rfl
  have hI' : (L'.setBatchSize 1).Is n (X * Y * Z) w' β' := ⟨hI.weights, hI.biases, hI.initialized⟩
  obtain ⟨DW, eW, _⟩ := Connected.getdLdW_shows hM hG hI.weights.good
  have hl1 : 0 < (L'.setBatchSize 1).wGrads.length := Nat.zero_lt_one
  have hl2 : 0 < (L'.setBatchSize 1).bGrads.length := Nat.zero_lt_one
  refine ⟨t, L', e, e', ?_, ?_⟩
  · unfold Connected.backward
    rw [eW, Res.bind_ok, setSlot, if_pos hl1, Res.bind_ok, setSlot, if_pos hl2, Res.bind_ok]
    simp only [Bool.false_eq_true, if_false]
    rw [Connected.getdLdX_lost hI' (hd.trans hR0) hG]; rfl
  · refine ⟨{ L'.setBatchSize 1 with
        wGrads := (L'.setBatchSize 1).wGrads.set 0 DW, bGrads := (L'.setBatchSize 1).bGrads.set 0 G }, ?_⟩
    unfold Connected.backward
    rw [eW, Res.bind_ok, setSlot, if_pos hl1, Res.bind_ok, setSlot, if_pos hl2, Res.bind_ok]
    rfl

omit [Inhabited α] in
/-- A layer that has not been used yet is not read back at all: for every size, receiver and following text, reading throws
`std::runtime_error`. -/
theorem C46_unused (C : Codec α) (n : Nat) (hn : 0 < n) (hs : n < 2147483648) (L : Connected α) (hL : Connected.new n = .ok L)
    (R : Connected α) (rest : List Char) :
    ∃ t, L.serialize C = .ok t ∧ (Connected.deserialize C (R, ofText (t ++ rest))).1 = .throw .runtime := by
  obtain ⟨B, eB, sB⟩ := Matrix.ofDim_shows (X := n) (Y := 1) (Z := 1) ⟨hn, by decide, by decide, by omega⟩ (0 : α)
  have hnew : L.weights = ⟨dimN 0 0 0, []⟩ ∧ L.biases = B := by
    unfold Connected.new at hL
    obtain ⟨W, eW, hL⟩ := Res.bind_eq_ok hL
    obtain ⟨B', e, hL⟩ := Res.bind_eq_ok hL
    rw [wrap32_nat hs] at e
    have h1 : B' = B := by
      have h2 : Matrix.ofDim (dimN n 1 1) (0 : α) = .ok B' := e
      exact (Res.ok.inj (eB.symm.trans h2)).symm
    have h2 : W = ⟨dimN 0 0 0, []⟩ := by
      have h3 : (Matrix.ofDim (0 : Dim3) (0 : α)) = .ok ⟨dimN 0 0 0, []⟩ := rfl
      exact Res.ok.inj (eW.symm.trans h3)
    have hL := Res.ok.inj hL
    subst hL
    exact ⟨h2, h1⟩
  obtain ⟨tw, ew, rw'⟩ := C43_empty_partial C 0 0 0 (by decide) (by decide) (by decide) (by decide) (by decide)
  refine ⟨_, by unfold Connected.serialize; rw [hnew.1, ew, Res.bind_ok, hnew.2, sB.serialize C, Res.bind_ok], ?_⟩
  unfold Connected.deserialize ofText
  simp only [List.append_assoc]
  have hw := rw' R.weights (line "biases" ++ (matrixText C n 1 1 (fun _ _ _ => (0 : α)) ++ rest))
  unfold ofText at hw
  rw [Exec.run_ok (Exec.into_ok (expectVoid_line' _ _)),
    Exec.run_ok (Exec.into_ok (expectInt_place (by decide))),
    Exec.run_ok (Exec.into_ok (expectInt_place (by decide))),
    Exec.run_ok (Exec.into_ok (expectVoid_line' _ _)),
    Exec.run_ok (Exec.field_ok ?_ hw)]
  · simp only [if_true]
    have hv := (C41_mismatch_partial "biases".toList ('\n' :: (line "biases" ++ (matrixText C n 1 1 (fun _ _ _ => (0 : α)) ++ rest)))
      (by intro h; obtain ⟨u, hu⟩ := h; exact absurd (congrArg List.head? hu) (by simp)) (by decide)).1
    unfold ofText at hv
    rw [Exec.run_throw (Exec.into_throw (Prod.ext hv rfl))]
  · rfl

omit [Inhabited α] in
/-- So the claim fails for the unused layer … -/
theorem C46_violated [Add α] [Mul α] [Div α] (C : Codec α) : ¬ C46_claim C := by
  intro h
  obtain ⟨t, L', e, e'⟩ := h.1 2 _ _ [] (by decide) (by decide) rfl rfl
  obtain ⟨t', e1, e2⟩ := C46_unused C 2 (by decide) (by decide) _ rfl _ []
  rw [e] at e1
  obtain rfl := Res.ok.inj e1
  rw [e'] at e2
  exact absurd e2 (by simp)

end

/-- … and, in backward propagation, for a used one. -/
theorem C46_backward_violated [Add (Ieee Fmt.binary32)] [Mul (Ieee Fmt.binary32)] : ¬ ∀ (L R : Connected (Ieee Fmt.binary32)) (M Q G : Matrix (Ieee Fmt.binary32)),
    L.Is 2 3 (fun _ _ => 0) (fun _ => 0) → L.inputDim = dimN 3 1 1 → Connected.new 0 = .ok R →
    M.Shows 3 1 1 (fun _ _ _ => 0) → G.Shows 2 1 1 (fun _ _ _ => 0) →
    ∃ t L' D, L.serialize (Ieee.codec _) = .ok t ∧
      Connected.deserialize (Ieee.codec _) (R, ofText t) = (.ok true, (L', ofText [])) ∧
      (L'.setBatchSize 1).backward .dimsFirst M Q G 0 false = .ok D := by
  intro h
  have hL : (⟨⟨dimN 2 3 1, [0, 0, 0, 0, 0, 0]⟩, ⟨dimN 2 1 1, [0, 0]⟩, dimN 3 1 1, true, [], []⟩ :
      Connected (Ieee Fmt.binary32)).Is 2 3 (fun _ _ => 0) (fun _ => 0) :=
    ⟨Matrix.Shows.of_vals ⟨by decide, by decide, by decide, by decide⟩ rfl (by rfl),
      Matrix.Shows.of_vals ⟨by decide, by decide, by decide, by decide⟩ rfl (by rfl), rfl⟩
  have hM : (⟨dimN 3 1 1, [0, 0, 0]⟩ : Matrix (Ieee Fmt.binary32)).Shows 3 1 1 (fun _ _ _ => 0) :=
    Matrix.Shows.of_vals ⟨by decide, by decide, by decide, by decide⟩ rfl (by rfl)
  have hG : (⟨dimN 2 1 1, [0, 0]⟩ : Matrix (Ieee Fmt.binary32)).Shows 2 1 1 (fun _ _ _ => 0) :=
    Matrix.Shows.of_vals ⟨by decide, by decide, by decide, by decide⟩ rfl (by rfl)
  obtain ⟨t, L', D, e, e', hD⟩ := h _ _ _ Matrix.empty _ hL rfl rfl hM hG
  obtain ⟨t₁, L₁, e₁, e₁', hT, _⟩ := C46_backward (Ieee.codec _) (Ieee.lawful _) 2 3 1 1 0 _ _ _ _ _ _ Matrix.empty _ _ [] hL
    (fun _ _ _ _ => finite_zero32) (fun _ _ => finite_zero32) rfl hM hG
  rw [e] at e₁
  obtain rfl := Res.ok.inj e₁
  rw [List.append_nil, e'] at e₁'
  obtain rfl : L' = L₁ := (Prod.mk.inj (Prod.mk.inj e₁').2).1
  rw [hD] at hT
  exact absurd hT (by simp)

/-! ## C47 -/

/-- The claim of C47: the loaded layer computes the saved function. -/
def C47_claim : Prop := ∀ (f g : ActFn) (rest : List Char),
  ∃ A', Activation.deserialize (Activation.new g, ofText ((Activation.new f).serialize ++ rest)) = (.ok true, (A', ofText rest)) ∧
    ∀ (N : Num Int) (X : Matrix Int), A'.forward N X = (Activation.new f).forward N X

/-- What is read back: the tag of the saved layer; the functions stay those of the receiver. -/
theorem C47_read (A R : Activation) (rest : List Char) :
    Activation.deserialize (R, ofText (A.serialize ++ rest)) = (.ok true, (⟨A.tag, R.fn, R.gradFn⟩, ofText rest)) :=
  Activation.deserialize_text A R rest

/-- Unknown names throw `std::runtime_error`. -/
theorem C47_unknown (R : Activation) (name rest : List Char) (hn : ∀ c ∈ name, c ≠ '\n') (h : ∀ f : ActFn, name ≠ f.name.toList) :
    (Activation.deserialize (R, ofText (line "Activation" ++ (name ++ '\n' :: rest)))).1 = .throw .runtime := by
  unfold Activation.deserialize ofText
  rw [Exec.run_ok (Exec.into_ok (expectVoid_line' _ _))]
  have hname : ActFn.ofName name = .throw .runtime := by
    unfold ActFn.ofName
    exact (if_neg (h .relu)).trans ((if_neg (h .sigmoid)).trans ((if_neg (h .linear)).trans ((if_neg (h .tangent)).trans
      (if_neg (h .leaky)))))
  have : Activation.readName (R, ⟨name ++ '\n' :: rest, false, false⟩) = (.throw .runtime, (R, ⟨rest, false, false⟩)) := by
    unfold Activation.readName
    simp only
    rw [getline_line hn]
    simp only [hname]
  rw [Exec.run_throw this]

/-- The five names are different. -/
theorem C47_names (f g : ActFn) (h : f.name = g.name) : f = g := by
  cases f <;> cases g <;> first | rfl | exact absurd h (by decide)

/-- The claim fails: RELU loaded into a LINEAR layer still computes the identity. -/
theorem C47_violated : ¬ C47_claim := by
  intro h
  obtain ⟨A', e, hf⟩ := h .relu .linear []
  rw [C47_read] at e
  obtain rfl : _ = A' := (Prod.mk.inj (Prod.mk.inj e).2).1
  have := hf ⟨id, id, id, id, fun n => n, fun a b => decide (a < b), 0, 0, 0⟩ ⟨dimN 1 1 1, [-1]⟩
  exact absurd this (by decide)

/-- C47 for a receiver that already has the saved function. Missing: all other receivers, refuted above. -/
theorem C47_partial (f : ActFn) (rest : List Char) :
    Activation.deserialize (Activation.new f, ofText ((Activation.new f).serialize ++ rest)) =
      (.ok true, (Activation.new f, ofText rest)) :=
  C47_read _ _ _

example : (Activation.deserialize (Activation.new .relu, ofText "Activation\nSoftplus\n".toList)).1 = .throw .runtime := by decide +kernel

end Cnn
