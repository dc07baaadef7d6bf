import Verif.Spec.Saved
/-!
# Specification vocabulary for files that are loaded and saved again (C110)
-/
namespace Cnn
variable {α : Type}

/-- The layer with the stride that is assumed when a file is read: 1 for convolutions, the pool size for pooling. -/
def Body.standard : Body α → Body α
  | .kernel K => .kernel { K with stride := 1 }
  | .pooling P => .pooling { P with stride := P.dim }
  | b => b

/-- An activation layer. -/
def Body.isAct : Body α → Bool
  | .activation _ => true
  | _ => false

/-- The model without its activation layers. -/
def Model.withoutActivations (M : Model α) : Model α :=
  { M with layers := M.layers.filter (fun l => !l.body.isAct) }

/-- `saveModel` returns true and leaves this file. -/
def Model.Saves (C : Codec α) (M : Model α) (file : List Char) : Prop := M.saveModel C true = (.ok true, some file)

end Cnn
