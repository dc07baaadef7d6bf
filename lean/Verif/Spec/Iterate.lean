import Verif.Spec.Shows
/-!
# Specification vocabulary for iteration (C03, C04)
-/
namespace Cnn
variable {α : Type}

/-- The list of iterators at which a loop body is called. -/
def trace (loop : (List Iter → Iter → Res (List Iter)) → List Iter → Res (List Iter)) : Res (List Iter) :=
  loop (fun acc it => .ok (acc ++ [it])) []

/-- The expected visiting sequence: step `n` is at flat position `n` and at the 3-d index addressing it. -/
def visits (X Y Z : Nat) : List Iter :=
  (List.range (X * Y * Z)).map (fun n => ⟨dimN (n % X) (n / X % Y) (n / X / Y), dimN X Y Z, n⟩)

/-- A range-for over a matrix that only looks at each entry. -/
def iterate (M : Matrix α) : Res Unit :=
  forRange M.dim (fun _ it => do let _ ← M.flat it.scalar; .ok ()) ()

end Cnn
