import Verif.Model.Network
/-!
# Specification vocabulary for propagation through a model (C57, C58)
-/
namespace Cnn
variable {α : Type} [Zero α] [One α] [Add α] [Sub α] [Mul α] [Div α] [Neg α]

/-- The layers of `M`, each called once on batch slot `b`, in order, each on the (full precision) output of the one before:
`outs 0` is the input, `outs (i+1)` the output of layer `i`, whose state becomes `bodies i`. -/
structure Pass (E : Env α) (M : Model α) (b : Nat) (X : Matrix α) (outs : Nat → Matrix α) (bodies : Nat → Body α) : Prop where
  start : Matrix.ofExpr id X.expr = .ok (outs 0)
  layer : ∀ (i : Nat) (l : Layer α), M.layers[i]? = some l → l.body.forward E.num (E.draws i) (outs i) b = .ok (outs (i + 1), bodies i)

/-- The model with the states of all layers replaced. -/
def Model.withBodies (M : Model α) (bodies : Nat → Body α) : Model α :=
  { M with layers := M.layers.mapIdx (fun i l => { l with body := bodies i }) }

end Cnn
