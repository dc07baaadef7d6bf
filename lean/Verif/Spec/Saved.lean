import Verif.Spec.Text
import Verif.Spec.Kernel
import Verif.Spec.Connected
import Verif.Model.Serialize
/-!
# Specification vocabulary for saved layers and models (C44 – C49, C62, C66)
-/
namespace Cnn
variable {α : Type}

/-- The layer `K'` behaves as `K` up to the rounding of its parameters: same filters and stride. -/
structure Kernel.SameAs (C : Codec α) (K' K : Kernel α) : Prop where
  dim : K'.dim = K.dim
  num : K'.numFilters = K.numFilters
  stride : K'.stride = K.stride
  weights : C.SameMatrix K'.weights K.weights
  biases : C.SameMatrix K'.biases K.biases

/-- The same pooling. -/
structure Pooling.SameAs (P' P : Pooling) : Prop where
  dim : P'.dim = P.dim
  stride : P'.stride = P.stride
  type : P'.type = P.type

/-- The same parameters; both layers have fixed their size. -/
structure Connected.SameAs (C : Codec α) (L' L : Connected α) : Prop where
  weights : C.SameMatrix L'.weights L.weights
  biases : C.SameMatrix L'.biases L.biases
  initialized : L'.initialized = true ∧ L.initialized = true

/-- The same function and derivative. -/
structure Activation.SameAs (A' A : Activation) : Prop where
  fn : A'.fn = A.fn
  grad : A'.gradFn = A.gradFn

/-- Two layers of the same class that agree. -/
def Body.SameAs (C : Codec α) : Body α → Body α → Prop
  | .kernel K', .kernel K => K'.SameAs C K
  | .pooling P', .pooling P => P'.SameAs P
  | .connected L', .connected L => L'.SameAs C L
  | .activation A', .activation A => A'.SameAs A
  | .softmax S', .softmax S => S'.count = S.count
  | _, _ => False

/-- The same name and an agreeing layer. -/
def Layer.SameAs (C : Codec α) (l' l : Layer α) : Prop := l'.name = l.name ∧ l'.body.SameAs C l.body

/-- The same sequence of layers, labels and kind of output. -/
structure Model.SameAs (C : Codec α) (M' M : Model α) : Prop where
  layers : List.Forall₂ (Layer.SameAs C) M'.layers M.layers
  labels : M'.labels = M.labels
  softmax : M'.softmax = M.softmax

/-- The word in the names of the layers of a class; the output layer has a fixed name. -/
def Body.kind : Body α → Option String
  | .kernel _ => some "Kernel"
  | .pooling _ => some "Pooling"
  | .connected _ => some "FullyConnected"
  | .activation _ => some "Activation"
  | .softmax _ => none

/-- How many of the layers are of a class. -/
def countKind (k : String) (ls : List (Layer α)) : Nat := (ls.filter (fun l => l.body.kind == some k)).length

/-- The name a layer should have after the layers `pre`: `Kind_n` for the `n`-th of its class. -/
def properName (pre : List (Layer α)) (b : Body α) : List Char :=
  match b.kind with
  | some k => k.toList ++ '_' :: natText (countKind k pre + 1)
  | none => "SoftmaxOutput".toList

/-- All layers have the names they should have. -/
def Named (ls : List (Layer α)) : Prop := ∀ pre l post, ls = pre ++ l :: post → l.name = properName pre l.body

/-- Layers that survive saving and loading: convolutions with stride 1, pooling with the pool size as stride, fully connected
layers that have been used; entries are neither infinite nor NaN. -/
inductive Body.Storable (C : Codec α) : Body α → Prop
  | kernel {A B D F : Nat} {K : Kernel α} {w : Nat → Nat → Nat → α} {β : Nat → α} (h : K.Is A B D F 1 w β)
      (hw : ∀ a < A, ∀ b < B, ∀ m < D * F, C.Finite (w a b m)) (hβ : ∀ f < F, C.Finite (β f)) : Storable C (.kernel K)
  | pooling {P : Pooling} (hx : I32 P.dim.x) (hy : I32 P.dim.y) (hs : P.stride = P.dim) : Storable C (.pooling P)
  | connected {n m : Nat} {L : Connected α} {w : Nat → Nat → α} {β : Nat → α} (h : L.Is n m w β)
      (hw : ∀ i < n, ∀ k < m, C.Finite (w i k)) (hβ : ∀ i < n, C.Finite (β i)) : Storable C (.connected L)

/-- A label that is one word. -/
def IsWord (s : List Char) : Prop := s ≠ [] ∧ ∀ c ∈ s, IStream.isWs c = false

end Cnn
