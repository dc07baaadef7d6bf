import Verif.Lemmas.ManyFilters
import Verif.Model.Serialize
/-!
# Property C109: a convolution layer holds the filters it was made for

`Kernel::Kernel` computes the depth of the weights as `filter_dim.z*num_filters_in` in `unsigned` arithmetic.
-/
set_option linter.unusedSectionVars false
namespace Cnn
variable {α : Type} [Zero α] [One α] [Add α] [Sub α] [Mul α] [Div α] [Neg α]

/-- The claim: a convolution layer with `F` filters of size `A × B × C` that could be made has weights for all filters. -/
def C109_claim (N : Num α) (draws : Nat → α) : Prop :=
  ∀ A B C F stride : Nat, 0 < A → 0 < B → 0 < C → 0 < F → A < 2147483648 → B < 2147483648 → C < 2147483648 → F < 4294967296 →
    ∀ K, Kernel.new N draws ⟨A, B, C⟩ F stride = .ok K → K.weights.dim = ⟨A, B, ((C * F : Nat) : Int)⟩

/-- C109 Exactly when it has: if `C * F` is an `int`. -/
theorem C109_exact (N : Num α) (draws : Nat → α) (A B C F stride : Nat) (K : Kernel α) (h : Kernel.new N draws ⟨A, B, C⟩ F stride = .ok K) :
    K.weights.dim = ⟨A, B, ((C * F : Nat) : Int)⟩ ↔ C * F < 2147483648 := by
  obtain ⟨_, _, h3, _⟩ := Kernel.new_dim h
  have e1 : K.weights.dim = ⟨A, B, wrap32 ((C * F : Nat) : Int)⟩ := by
    rw [h3, Nat.cast_mul]
  generalize C * F = n at e1 ⊢
  rw [e1]
  constructor
  · intro e
    exact (wrap32_eq_iff n).1 (Dim3.mk.inj e).2.2
  · intro e
    rw [(wrap32_eq_iff n).2 e]

/-- C109 A layer with `C * F` beyond the range of `int`, if it could be made at all, is of no use: no forward pass of any input
succeeds. -/
theorem C109_useless (N : Num α) (draws : Nat → α) (A B C F stride : Nat) (hA : 0 < A) (hB : 0 < B) (hC : 0 < C) (K : Kernel α)
    (h : Kernel.new N draws ⟨A, B, C⟩ F stride = .ok K) (hb : 2147483648 ≤ C * F) (X Y : Matrix α) : K.forward X ≠ .ok Y := by
  obtain ⟨h1, h2, h3, h4⟩ := Kernel.new_dim h
  dsimp only at h3 h4
  have hpos : (0 : Int) < (A : Int) * B := by positivity
  have h0 : 0 ≤ wrap32 ((C : Int) * F) := nonneg_of_mul_nonneg_right h4 hpos
  have hlt : wrap32 ((C : Int) * F) < 2147483648 := by
    unfold wrap32
    omega
  refine Kernel.forward_short (C := C) (z := (wrap32 ((C : Int) * F)).toNat) hC (by rw [h1]) ?_ (by omega) ?_ X Y
  · rw [h3]
    dsimp only
    omega
  · rw [h2]
    omega

/-- C109 A layer that can be made though its weights are too small: 65537 filters of size 1 × 1 × 65536. The weights have depth 65536,
enough for one filter. -/
theorem C109_wraps (N : Num α) (draws : Nat → α) :
    ∃ K, Kernel.new N draws ⟨1, 1, 65536⟩ 65537 1 = .ok K ∧ K.weights.dim = ⟨1, 1, 65536⟩ ∧ K.numFilters = 65537 := by
  obtain ⟨W, e1, s1⟩ := Matrix.ofDim_shows (X := 1) (Y := 1) (Z := 65536) ⟨by decide, by decide, by decide, by decide⟩ (0 : α)
  obtain ⟨Bi, e2, s2⟩ := Matrix.ofDim_shows (X := 65537) (Y := 1) (Z := 1) ⟨by decide, by decide, by decide, by decide⟩ (0 : α)
  obtain ⟨W', B', e3, s3, s4⟩ := initParams_shows N draws s1 s2
  refine ⟨⟨⟨1, 1, 65536⟩, 65537, 1, W', B', [], []⟩, ?_, s3.dim, rfl⟩
  have e1' : Matrix.ofDim ⟨1, 1, wrap32 ((65536 : Int) * ((65537 : Nat) : Int))⟩ (0 : α) = .ok W := by
    rw [← e1]
    rfl
  have e2' : Matrix.ofDim ⟨wrap32 ((65537 : Nat) : Int), 1, 1⟩ (0 : α) = .ok Bi := by
    rw [← e2]
    rfl
  unfold Kernel.new
  rw [e1', Res.bind_ok, e2', Res.bind_ok, e3]
  rfl

/-- C109 The claim is false, whatever the arithmetic and the random numbers. -/
theorem C109_violated (N : Num α) (draws : Nat → α) : ¬ C109_claim N draws := by
  intro h
  obtain ⟨K, h1, h2, _⟩ := C109_wraps N draws
  have := h 1 1 65536 65537 1 (by decide) (by decide) (by decide) (by decide) (by decide) (by decide) (by decide) (by decide) K h1
  rw [h2] at this
  exact absurd (congrArg Dim3.z this) (by decide)

/-- C109 It holds for all layers whose weights have fewer than 2^31 entries: they can be made and have all filters. -/
theorem C109_partial (N : Num α) (draws : Nat → α) (A B C F : Nat) (hA : 0 < A) (hB : 0 < B) (hC : 0 < C) (hF : 0 < F)
    (h : A * B * (C * F) < 2147483648) : ∃ K, Kernel.new N draws ⟨A, B, C⟩ F 1 = .ok K ∧ K.weights.dim = ⟨A, B, ((C * F : Nat) : Int)⟩ ∧
      K.biases.dim = ⟨F, 1, 1⟩ := by
  obtain ⟨K, w, β, h1, h2⟩ := Kernel.new_any N draws hA hB hC hF h
  exact ⟨K, h1, h2.weights.dim, h2.biases.dim⟩

/-- C109 The counts given to `addKernel` and `addConnectedLayer` are taken modulo 2^32 without notice. -/
theorem C109_counts (N : Num α) (draws : Nat → α) (M : Model α) (size : Dim3) (count : Nat) :
    M.addKernel N draws size (count + 4294967296) = M.addKernel N draws size count ∧ M.addConnected (count + 4294967296) = M.addConnected count := by
  have : u32 ((count + 4294967296 : Nat) : Int) = u32 (count : Nat) := by
    unfold u32
    omega
  constructor
  · unfold Model.addKernel
    rw [this]
  · unfold Model.addConnected
    rw [this]

/-- C109 Counts below 2^32 are kept: the layer `addKernel` appends has that many filters of that size. -/
theorem C109_added (N : Num α) (draws : Nat → α) (M M' : Model α) (size : Dim3) (count : Nat) (hc : count < 4294967296)
    (h : M.addKernel N draws size count = .ok M') :
    ∃ L K, M'.layers = M.layers ++ [L] ∧ L.body = .kernel K ∧ K.dim = size ∧ K.numFilters = count ∧ M'.labels = M.labels := by
  unfold Model.addKernel at h
  obtain ⟨K, e, h⟩ := Res.bind_eq_ok h
  obtain rfl := Res.ok.inj h
  obtain ⟨h1, h2, _⟩ := Kernel.new_dim e
  refine ⟨_, K, rfl, rfl, h1, ?_, rfl⟩
  rw [h2]
  unfold u32
  omega

/-- C109 The fully connected layer `addConnectedLayer` appends has that many units, for counts that are an `int`. -/
theorem C109_added_units (M M' : Model α) (count : Nat) (hc : count < 2147483648) (h : M.addConnected count = .ok M') :
    ∃ L C, M'.layers = M.layers ++ [L] ∧ L.body = .connected C ∧ C.biases.dim = ⟨count, 1, 1⟩ ∧ M'.labels = M.labels := by
  unfold Model.addConnected at h
  obtain ⟨C, e, h⟩ := Res.bind_eq_ok h
  obtain rfl := Res.ok.inj h
  refine ⟨_, C, rfl, rfl, ?_, rfl⟩
  unfold Connected.new at e
  obtain ⟨W, _, e⟩ := Res.bind_eq_ok e
  obtain ⟨Bi, e1, e⟩ := Res.bind_eq_ok e
  obtain rfl := Res.ok.inj e
  unfold Matrix.ofDim at e1
  obtain ⟨n, _, e1⟩ := Res.bind_eq_ok e1
  obtain rfl := Res.ok.inj e1
  dsimp only
  have : u32 (count : Int) = count := by
    unfold u32
    omega
  rw [this, (wrap32_eq_iff count).2 hc]

/-! ## It applies -/

/-- The layer of `C109_wraps` accepts no input. -/
example (N : Num α) (draws : Nat → α) : ∃ K, Kernel.new N draws ⟨1, 1, 65536⟩ 65537 1 = .ok K ∧ ∀ X Y, K.forward X ≠ .ok Y := by
  obtain ⟨K, h, _⟩ := C109_wraps N draws
  exact ⟨K, h, C109_useless N draws 1 1 65536 65537 1 (by decide) (by decide) (by decide) K h (by decide)⟩

/-- The first convolution layer of `main()`. -/
example (N : Num α) (draws : Nat → α) : ∃ K, Kernel.new N draws ⟨(5 : Nat), (5 : Nat), (1 : Nat)⟩ 2 1 = .ok K ∧ K.weights.dim = ⟨5, 5, 2⟩ := by
  obtain ⟨K, h1, h2, _⟩ := C109_partial N draws 5 5 1 2 (by decide) (by decide) (by decide) (by decide) (by decide)
  exact ⟨K, h1, h2⟩

/-- Ten units. -/
example (M : Model α) : ∃ M' : Model α, M.addConnected 10 = .ok M' ∧ ∃ L C, M'.layers = M.layers ++ [L] ∧ L.body = .connected C ∧ C.biases.dim = ⟨10, 1, 1⟩ := by
  obtain ⟨C, e, _⟩ := Connected.new_any (α := α) (n := 10) (by decide) (by decide)
  obtain ⟨M', h⟩ : ∃ M', M.addConnected 10 = .ok M' := by
    unfold Model.addConnected
    have e : Connected.new (u32 ((10 : Nat) : Int)) = .ok C := e
    rw [e]
    exact ⟨_, rfl⟩
  obtain ⟨L, C', h1, h2, h3, _⟩ := C109_added_units M M' 10 (by decide) h
  exact ⟨M', h, L, C', h1, h2, h3⟩

/-- One unit instead of 2^32 + 1. -/
example (N : Num α) (M : Model α) : M.addConnected 4294967297 = M.addConnected 1 := (C109_counts N (fun _ => 0) M 0 1).2

end Cnn
