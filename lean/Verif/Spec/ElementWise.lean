import Verif.Model.Expr
import Verif.Spec.Shows
/-!
# Nested element-wise expressions (C11, C12)

`EW ι α` is the syntax of what a program writes: named operands `ι` combined by binary operators, operators with a
scalar, and entry-wise functions. `build` performs the corresponding sequence of operator calls of the model;
`value` says what entry `(i,j,k)` should be.
-/
namespace Cnn

inductive EW (ι α : Type) where
  | leaf (i : ι)
  | bin (op : α → α → α) (a b : EW ι α)
  | scal (op : α → α) (a : EW ι α)
  | un (op : α → α) (a : EW ι α)

namespace EW
variable {ι α : Type}

def build (env : ι → MExpr α) : EW ι α → Res (MExpr α)
  | leaf i => .ok (env i)
  | bin op a b => do
    let A ← a.build env
    let B ← b.build env
    MExpr.bin op A B
  | scal op a => do let A ← a.build env; .ok (MExpr.scal op A)
  | un op a => do let A ← a.build env; .ok (MExpr.un op A)

def value (f : ι → Nat → Nat → Nat → α) (i j k : Nat) : EW ι α → α
  | leaf l => f l i j k
  | bin op a b => op (a.value f i j k) (b.value f i j k)
  | scal op a => op (a.value f i j k)
  | un op a => op (a.value f i j k)

/-- The operands occurring in the expression. -/
def leaves : EW ι α → List ι
  | leaf i => [i]
  | bin _ a b => a.leaves ++ b.leaves
  | scal _ a => a.leaves
  | un _ a => a.leaves

/-- Operands when the target of the assignment may occur (`none`) besides other operands. -/
def envWith (others : ι → MExpr α) (target : MExpr α) : Option ι → MExpr α
  | none => target
  | some i => others i

def valWith (others : ι → Nat → Nat → Nat → α) (target : Nat → Nat → Nat → α) : Option ι → Nat → Nat → Nat → α
  | none => target
  | some i => others i

end EW
end Cnn
