import Verif.Spec.Iterate
import Verif.Lemmas.Fill
/-! Helper lemmas for C03. -/
namespace Cnn

theorem trace_range (d : Dim3) (N : Nat) :
    (List.range N).foldlM (fun (acc : List Iter) m => (Res.ok (acc ++ [iterAt d m]) : Res (List Iter))) [] =
      .ok ((List.range N).map (iterAt d)) := by
  induction N with
  | zero => rfl
  | succ N ih => rw [List.range_succ, List.foldlM_append, ih]; simp

theorem visits_eq {X Y Z : Nat} (hX : 0 < X) (hY : 0 < Y) :
    (List.range (X * Y * Z)).map (iterAt (dimN X Y Z)) = visits X Y Z := by
  unfold visits
  apply List.map_congr_left
  intro n _
  rw [iterAt_dimN hX hY]; rfl

end Cnn
