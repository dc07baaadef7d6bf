/-!
# Outcomes of C++ operations

Every modelled operation that can fail returns a `Res`:
* `ok a`     – normal return,
* `throw e`  – a C++ exception leaves the function,
* `ub`       – undefined behaviour (out-of-bounds access to a `std::vector`, signed overflow, …),
* `abort`    – a failed `assert`.
-/
namespace Cnn

/-- The exceptions thrown by the code (include/cnn_from_scratch/exceptions.h:8-30) and by the
standard library functions it calls. -/
inductive Exc where
  | matrixSize       -- my_cnn::MatrixSizeException       exceptions.h:8
  | matrixTransform  -- my_cnn::MatrixTransformException  exceptions.h:16
  | modelLayer       -- my_cnn::ModelLayerException       exceptions.h:24
  | outOfRange       -- std::out_of_range
  | runtime          -- std::runtime_error
  | length           -- std::length_error from a std::vector asked for a negative (huge) size
  deriving DecidableEq, Repr

inductive Res (α : Type) where
  | ok (a : α)
  | throw (e : Exc)
  | ub
  | abort
  deriving Repr, DecidableEq

namespace Res
variable {α β γ : Type}

protected def bind : Res α → (α → Res β) → Res β
  | ok a, f => f a
  | throw e, _ => throw e
  | ub, _ => ub
  | abort, _ => abort

instance : Monad Res where
  pure := ok
  bind := Res.bind

@[simp] theorem pure_eq (a : α) : (pure a : Res α) = ok a := rfl
@[simp] theorem bind_ok (a : α) (f : α → Res β) : (ok a >>= f) = f a := rfl
@[simp] theorem bind_throw (e : Exc) (f : α → Res β) : (throw e >>= f) = throw e := rfl
@[simp] theorem bind_ub (f : α → Res β) : ((ub : Res α) >>= f) = ub := rfl
@[simp] theorem bind_abort (f : α → Res β) : ((abort : Res α) >>= f) = abort := rfl
@[simp] theorem map_ok (a : α) (f : α → β) : (f <$> (ok a : Res α)) = ok (f a) := rfl

instance : LawfulMonad Res := LawfulMonad.mk'
  (id_map := by intro α x; cases x <;> rfl)
  (pure_bind := by intros; rfl)
  (bind_assoc := by intro α β γ x f g; cases x <;> rfl)

/-- A vector access `v[i]` / dereference: a missing element is undefined behaviour. -/
def ofOption : Option α → Res α
  | some a => ok a
  | none => ub

@[simp] theorem ofOption_some (a : α) : ofOption (some a) = ok a := rfl
@[simp] theorem ofOption_none : ofOption (none : Option α) = ub := rfl

end Res
end Cnn
