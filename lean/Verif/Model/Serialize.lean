import Verif.Model.Layers
import Verif.Model.Stream
/-!
# Saving and loading layers (src/Layers/*.cpp) and models (src/ModelDescription.tpp)

`deserialize` changes a layer and a stream; both are kept when it throws.
-/
namespace Cnn

namespace Exec
variable {σ β : Type}

/-- Read something from the stream and store it. -/
def into (m : Exec IStream β) (put : β → σ → σ) : Exec (σ × IStream) Unit := fun s =>
  match m s.2 with
  | (.ok b, is) => (.ok (), (put b s.1, is))
  | (.throw e, is) => (.throw e, (s.1, is))
  | (.ub, is) => (.ub, (s.1, is))
  | (.abort, is) => (.abort, (s.1, is))

/-- Work on a part of the state. -/
def field {τ : Type} (get : σ → τ) (put : τ → σ → σ) (m : Exec (τ × IStream) β) : Exec (σ × IStream) β := fun s =>
  let r := m (get s.1, s.2)
  (r.1, (put r.2.1 s.1, r.2.2))

end Exec

/-- A line of text. -/
def line (s : String) : List Char := s.toList ++ ['\n']

open IStream

namespace Kernel
variable {α : Type}

/-- Kernel.cpp:223-235 `serialize`. -/
def serialize (C : Codec α) (K : Kernel α) : Res (List Char) := do
  let w ← K.weights.serialize C
  let b ← K.biases.serialize C
  .ok (line "Kernel" ++ placeText "x".toList K.dim.x ++ placeText "y".toList K.dim.y ++ placeText "z".toList K.dim.z ++
    placeText "n".toList K.numFilters ++ line "weights" ++ w ++ line "biases" ++ b)

/-- Kernel.cpp:240-262 `deserialize`. -/
def deserialize [Zero α] (C : Codec α) : Exec (Kernel α × IStream) Bool := do
  Exec.into (expectVoid "Kernel".toList) (fun _ K => K)
  Exec.into (expectInt "x".toList) (fun v K => { K with dim := { K.dim with x := v } })
  Exec.into (expectInt "y".toList) (fun v K => { K with dim := { K.dim with y := v } })
  Exec.into (expectInt "z".toList) (fun v K => { K with dim := { K.dim with z := v } })
  Exec.into (expectUnsigned "n".toList) (fun v K => { K with numFilters := v })
  Exec.into (expectVoid "weights".toList) (fun _ K => K)
  let b ← Exec.field (fun K => K.weights) (fun M K => { K with weights := M }) (Matrix.deserialize C)
  if b then do
    Exec.into (expectVoid "biases".toList) (fun _ K => K)
    Exec.field (fun K => K.biases) (fun M K => { K with biases := M }) (Matrix.deserialize C)
  else Exec.pure false

end Kernel

namespace Connected
variable {α : Type}

/-- ConnectedLayer.cpp:140-150 `serialize`. -/
def serialize (C : Codec α) (L : Connected α) : Res (List Char) := do
  let w ← L.weights.serialize C
  let b ← L.biases.serialize C
  .ok (line "Connected Layer" ++ placeText "x".toList L.weights.dim.x ++ placeText "y".toList L.weights.dim.y ++
    line "weights" ++ w ++ line "biases" ++ b)

/-- ConnectedLayer.cpp:155-166 `deserialize`; the two dimensions read are not used. -/
def deserialize [Zero α] (C : Codec α) : Exec (Connected α × IStream) Bool := do
  Exec.into (expectVoid "Connected Layer".toList) (fun _ L => L)
  Exec.into (expectInt "x".toList) (fun _ L => L)
  Exec.into (expectInt "y".toList) (fun _ L => L)
  Exec.into (expectVoid "weights".toList) (fun _ L => L)
  let b ← Exec.field (fun L => L.weights) (fun M L => { L with weights := M }) (Matrix.deserialize C)
  if b then do
    Exec.into (expectVoid "biases".toList) (fun _ L => L)
    let b ← Exec.field (fun L => L.biases) (fun M L => { L with biases := M }) (Matrix.deserialize C)
    if b then do
      Exec.modify (fun s => ({ s.1 with initialized := true }, s.2))
      Exec.pure true
    else Exec.pure false
  else Exec.pure false

end Connected

namespace Pooling

/-- Pooling.cpp:139-141: the name of the type. -/
def typeName : PoolType → String
  | .max => "MAX"
  | .min => "MIN"
  | .avg => "AVG"

/-- Pooling.cpp:134-153 `serialize`; the pool size is written twice, the stride never. -/
def serialize (P : Pooling) : List Char :=
  line "Pooling" ++ line (typeName P.type) ++ placeText "x".toList P.dim.x ++ placeText "y".toList P.dim.y ++
    line "stride" ++ placeText "x".toList P.dim.x ++ placeText "y".toList P.dim.y

/-- Pooling.cpp:163-169: the type. -/
def readType : Exec (Pooling × IStream) Unit := fun s =>
  let (t, is) := s.2.getline
  if t = "MAX".toList then (.ok (), ({ s.1 with type := .max }, is))
  else if t = "MIN".toList then (.ok (), ({ s.1 with type := .min }, is))
  else if t = "AVG".toList then (.ok (), ({ s.1 with type := .avg }, is))
  else (.throw .runtime, (s.1, is))

/-- Pooling.cpp:158-183 `deserialize`. -/
def deserialize : Exec (Pooling × IStream) Bool := do
  Exec.into (expectVoid "Pooling".toList) (fun _ P => P)
  readType
  Exec.into (expectInt "x".toList) (fun v P => { P with dim := { P.dim with x := v } })
  Exec.into (expectInt "y".toList) (fun v P => { P with dim := { P.dim with y := v } })
  Exec.into (expectVoid "stride".toList) (fun _ P => P)
  Exec.into (expectInt "x".toList) (fun v P => { P with stride := { P.stride with x := v } })
  Exec.into (expectInt "y".toList) (fun v P => { P with stride := { P.stride with y := v } })
  Exec.pure true

end Pooling

/-- Activation.h:19-33 `toString`. -/
def ActFn.name : ActFn → String
  | .relu => "RELU"
  | .sigmoid => "SIGMOID"
  | .linear => "LINEAR"
  | .tangent => "TANGENT"
  | .leaky => "LEAKY_RELU"

/-- Activation.h:36-44 `fromString`. -/
def ActFn.ofName (s : List Char) : Res ActFn :=
  if s = "RELU".toList then .ok .relu
  else if s = "SIGMOID".toList then .ok .sigmoid
  else if s = "LINEAR".toList then .ok .linear
  else if s = "TANGENT".toList then .ok .tangent
  else if s = "LEAKY_RELU".toList then .ok .leaky
  else .throw .runtime

namespace Activation

/-- Activation.cpp:84-89 `serialize`. -/
def serialize (A : Activation) : List Char := line "Activation" ++ line A.tag.name

/-- Activation.cpp:97-99: the name; the function pointers are not changed. -/
def readName : Exec (Activation × IStream) Unit := fun s =>
  let (t, is) := s.2.getline
  match ActFn.ofName t with
  | .ok f => (.ok (), ({ s.1 with tag := f }, is))
  | .throw e => (.throw e, (s.1, is))
  | .ub => (.ub, (s.1, is))
  | .abort => (.abort, (s.1, is))

/-- Activation.cpp:94-101 `deserialize`. -/
def deserialize : Exec (Activation × IStream) Bool := do
  Exec.into (expectVoid "Activation".toList) (fun _ A => A)
  readName
  Exec.pure true

end Activation

namespace Softmax

/-- Softmax.cpp:90-92 `serialize`. -/
def serialize (_ : Softmax) : List Char := line "Softmax"

/-- Softmax.cpp:97-100 `deserialize`. -/
def deserialize : Exec (Softmax × IStream) Bool := do
  Exec.into (expectVoid "Softmax".toList) (fun _ S => S)
  Exec.pure true

end Softmax

/-! ## Models -/

/-- The derived classes of `ModelLayer`. -/
inductive Body (α : Type) where
  | kernel (K : Kernel α)
  | pooling (P : Pooling)
  | connected (L : Connected α)
  | activation (A : Activation)
  | softmax (S : Softmax)

/-- A `ModelLayer` with its name (ModelLayer.h:10). -/
structure Layer (α : Type) where
  name : List Char
  body : Body α

/-- ModelDescription.h:35-73 with `OutputDataType = std::string` (main.cpp:155). `softmax`: `output_function_ == SOFTMAX`.
`loss_function` has a single value. -/
structure Model (α : Type) where
  layers : List (Layer α)
  labels : List (List Char)
  softmax : Bool
  kernels : Nat
  poolings : Nat
  connecteds : Nat
  activations : Nat

namespace Model
variable {α : Type}

/-- A default-constructed model. -/
def new : Model α := ⟨[], [], false, 0, 0, 0, 0⟩

/-- `"Kind_" + std::to_string(n)`. -/
def layerName (kind : String) (n : Nat) : List Char := kind.toList ++ '_' :: natText n

/-- `layers.emplace_back(…)` and the name. -/
def append (M : Model α) (name : List Char) (b : Body α) : Model α := { M with layers := M.layers ++ [⟨name, b⟩] }

section
variable [Zero α] [Add α] [Sub α] [Mul α] [Div α]

/-- ModelDescription.tpp:15-22 `addKernel` (stride 1). -/
def addKernel (N : Num α) (draws : Nat → α) (M : Model α) (size : Dim3) (count : Nat) : Res (Model α) := do
  let K ← Kernel.new N draws size (u32 count) 1
  .ok { M.append (layerName "Kernel" (M.kernels + 1)) (.kernel K) with kernels := M.kernels + 1 }

/-- ModelDescription.tpp:33-39 `addConnectedLayer`. -/
def addConnected (M : Model α) (n : Nat) : Res (Model α) := do
  let L ← Connected.new (u32 n)
  .ok { M.append (layerName "FullyConnected" (M.connecteds + 1)) (.connected L) with connecteds := M.connecteds + 1 }

end

/-- ModelDescription.tpp:24-31 `addPooling`. -/
def addPooling (M : Model α) (size stride : Dim2) (t : PoolType) : Model α :=
  { M.append (layerName "Pooling" (M.poolings + 1)) (.pooling (Pooling.new size stride t)) with poolings := M.poolings + 1 }

/-- ModelDescription.tpp:41-47 `addActivation`. -/
def addActivation (M : Model α) (f : ActFn) : Model α :=
  { M.append (layerName "Activation" (M.activations + 1)) (.activation (Activation.new f)) with
      activations := M.activations + 1 }

/-- ModelDescription.tpp:49-59 `setOutputLabels` (`false` stands for `UNSPECIFIED_OUTPUT`). -/
def setOutputLabels (M : Model α) (labels : List (List Char)) (softmax : Bool) : Model α :=
  let M := { M with labels := labels, softmax := softmax }
  if softmax then M.append "SoftmaxOutput".toList (.softmax (Softmax.new labels.length)) else M

end Model

/-- The virtual `serialize`. -/
def Body.serialize {α : Type} (C : Codec α) : Body α → Res (List Char)
  | .kernel K => K.serialize C
  | .pooling P => .ok P.serialize
  | .connected L => L.serialize C
  | .activation A => .ok A.serialize
  | .softmax S => .ok S.serialize

namespace Model
variable {α : Type}

/-- ModelDescription.tpp:69: the line before a layer. -/
def layerHead (i : Nat) : List Char := '(' :: natText i ++ ") ----------\n".toList

/-- ModelDescription.tpp:68-71: the loop over the layers; the text written so far also after an exception. -/
def saveLayers (C : Codec α) : Nat → List (Layer α) → List Char → Res Unit × List Char
  | _, [], os => (.ok (), os)
  | i, l :: ls, os =>
    match l.body.serialize C with
    | .ok t => saveLayers C (i + 1) ls (os ++ layerHead i ++ t)
    | .throw e => (.throw e, os ++ layerHead i)
    | .ub => (.ub, os ++ layerHead i)
    | .abort => (.abort, os ++ layerHead i)

/-- ModelDescription.tpp:77-81: the labels. -/
def labelText (labels : List (List Char)) : List Char :=
  "\nOutput labels ".toList ++ natText labels.length ++ ['\n'] ++ labels.flatMap (· ++ ['\n']) ++ ['\n']

/-- ModelDescription.tpp:61-84 `saveModel`: the returned value and the new content of the file; `opened` says whether
the file could be opened for writing (otherwise nothing is written, and that is not checked). -/
def saveModel (C : Codec α) (M : Model α) (opened : Bool) : Res Bool × Option (List Char) :=
  let keep (t : List Char) : Option (List Char) := if opened then some t else none
  match saveLayers C 0 M.layers [] with
  | (.ok (), os) => (.ok true, keep (os ++ labelText M.labels))
  | (.throw _, os) => (.ok false, keep os)
  | (.ub, os) => (.ub, keep os)
  | (.abort, os) => (.abort, keep os)

/-- ModelDescription.tpp:120-125: `n` labels. -/
def readLabels : Nat → IStream → List (List Char) × IStream
  | 0, s => ([], s)
  | n + 1, s =>
    let (w, s) := s.extractWord
    let r := readLabels n s.clearLine
    (w.getD [] :: r.1, r.2)

/-- ModelDescription.tpp:113-129: the branch for the output layer. -/
def loadSoftmax : Exec (Model α × IStream) Bool := fun s =>
  let is := s.2.clearLine.clearLine
  match expectInt "Output labels".toList is with
  | (.ok n, is) =>
    if n < 0 then (.throw .length, (s.1, is))
    else
      let r := readLabels n.toNat is
      (.ok true, (s.1.setOutputLabels r.1 true, r.2))
  | (.throw e, is) => (.throw e, (s.1, is))
  | (.ub, is) => (.ub, (s.1, is))
  | (.abort, is) => (.abort, (s.1, is))

/-- Let the last layer of the model read the stream. -/
def onLast (get : Body α → Option τ) (put : τ → Body α) (m : Exec (τ × IStream) Bool) : Exec (Model α × IStream) Bool :=
  fun s =>
    match s.1.layers.getLast? with
    | some l =>
      match get l.body with
      | some t =>
        let r := m (t, s.2)
        (r.1, ({ s.1 with layers := s.1.layers.dropLast ++ [{ l with body := put r.2.1 }] }, r.2.2))
      | none => (.ub, s)
    | none => (.ub, s)

section
variable [Zero α] [Add α] [Sub α] [Mul α] [Div α]

/-- ModelDescription.tpp:95-129: one layer. The call `addKernel({0, 0, 0}, 1, LINEAR)` has an argument too many for
ModelDescription.h:52; it is modelled without it. `draws k` are the random numbers for the `k`-th convolution layer. -/
def loadLayer (N : Num α) (draws : Nat → Nat → α) (C : Codec α) (label : List Char) : Exec (Model α × IStream) Bool :=
  fun s =>
    if label = "Kernel".toList then
      match s.1.addKernel N (draws s.1.kernels) ⟨0, 0, 0⟩ 1 with
      | .ok M => onLast (fun | .kernel K => some K | _ => none) .kernel (Kernel.deserialize C) (M, s.2)
      | .throw e => (.throw e, s)
      | .ub => (.ub, s)
      | .abort => (.abort, s)
    else if label = "Pooling".toList then
      onLast (fun | .pooling P => some P | _ => none) .pooling Pooling.deserialize
        (s.1.addPooling ⟨0, 0⟩ ⟨0, 0⟩ .max, s.2)
    else if label = "Connected Layer".toList then
      match s.1.addConnected 0 with
      | .ok M => onLast (fun | .connected L => some L | _ => none) .connected (Connected.deserialize C) (M, s.2)
      | .throw e => (.throw e, s)
      | .ub => (.ub, s)
      | .abort => (.abort, s)
    else if label = "Softmax".toList then loadSoftmax s
    else (.ok true, s)

/-- ModelDescription.tpp:91-137: the loop; `none` if the fuel does not suffice (it always does, see `C49_terminates`).
Only `std::runtime_error` is caught. -/
def loadLoop (N : Num α) (draws : Nat → Nat → α) (C : Codec α) : Nat → Model α × IStream → Option (Res Bool × Model α)
  | 0, _ => none
  | fuel + 1, (M, is) =>
    let is := (is.getline).2
    if is.fail then some (.ok true, M)
    else
      let (label, is) := is.readLine
      match loadLayer N draws C label (M, is) with
      | (.ok true, s) => loadLoop N draws C fuel s
      | (.ok false, s) => some (.ok false, s.1)
      | (.throw .runtime, s) => some (.ok false, s.1)
      | (.throw e, s) => some (.throw e, s.1)
      | (.ub, s) => some (.ub, s.1)
      | (.abort, s) => some (.abort, s.1)

/-- ModelDescription.tpp:86-140 `loadModel`; `none` is a file that cannot be opened, which leaves the stream failed. -/
def loadModel (N : Num α) (draws : Nat → Nat → α) (C : Codec α) (M : Model α) (file : Option (List Char)) :
    Option (Res Bool × Model α) :=
  match file with
  | some t => loadLoop N draws C (t.length + 1) (M, ofText t)
  | none => loadLoop N draws C 1 (M, ⟨[], false, true⟩)

end
end Model
end Cnn
