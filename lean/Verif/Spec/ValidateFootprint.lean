import Verif.Spec.Validate
import Verif.Spec.Footprint
/-!
# Specification vocabulary for data races between validation threads (C100)

Which locations a step of a validation thread reads and writes, as in the source text. The locations are those of Spec/Footprint.lean;
`source` is the reader of the files, which is used under the mutex (main.cpp:79-81), `hits` is `correct_count`, which is atomic (line 67).
The labels of the model are read, never written.
-/
namespace Cnn.Validate
variable {α : Type}

/-- The state `dst` with the contents of a location of the state `src`. -/
def Shared.copy (src dst : Shared α) : Loc → Shared α
  | .source => { dst with db := src.db }
  | .hits => { dst with correct := src.correct }
  | .layer i p => { dst with model := (Train.Shared.copy ⟨src.model, [], 0⟩ ⟨dst.model, [], 0⟩ (.layer i p)).model }

/-- The state `dst` with the contents of several locations of the state `src`. -/
def Shared.copies (src : Shared α) (ls : List Loc) (dst : Shared α) : Shared α := ls.foldr (fun l d => src.copy d l) dst

/-- What the next step of a thread reads; `num` is the number of images. `forwardPropagation` works on batch slot 0
(ModelDescription.h:58). -/
def Pc.reads (num : Int) (M : Model α) : Pc α → List Loc
  | .next i => if i < num then [.source] else []
  | .forward _ _ k _ => match M.layers[k]? with
    | some l => (l.body.forwardReads 0).map (.layer k)
    | none => [.hits]
  | .done _ => []

/-- What the next step of a thread writes. -/
def Pc.writes (num : Int) (M : Model α) : Pc α → List Loc
  | .next i => if i < num then [.source] else []
  | .forward _ _ k _ => match M.layers[k]? with
    | some l => (l.body.forwardWrites 0).map (.layer k)
    | none => [.hits]
  | .done _ => []

/-- The next step of a thread accesses a location. -/
def Touches (num : Int) (M : Model α) (w : Pc α) (l : Loc) : Prop := l ∈ w.reads num M ∨ l ∈ w.writes num M

/-- Threads `t` and `u` are about to access a location, one of them writing, and nothing orders the accesses. -/
def State.Races (num : Int) (b : State α) (t u : Nat) (l : Loc) : Prop :=
  t ≠ u ∧ ¬ l.guarded ∧ ∃ v w, b.workers[t]? = some v ∧ b.workers[u]? = some w ∧
    ((l ∈ v.writes num b.shared.model ∧ Touches num b.shared.model w l) ∨ (l ∈ w.writes num b.shared.model ∧ Touches num b.shared.model v l))

end Cnn.Validate
