import Verif.Spec.ElementWise
import Verif.Lemmas.Expr
/-! Helper lemmas for C11, C12. -/
namespace Cnn
namespace EW
variable {ι α : Type} {X Y Z : Nat}

theorem build_shows (env : ι → MExpr α) (f : ι → Nat → Nat → Nat → α) (e : EW ι α)
    (h : ∀ i ∈ e.leaves, (env i).Shows X Y Z (f i)) :
    ∃ E, e.build env = .ok E ∧ E.Shows X Y Z (fun i j k => e.value f i j k) := by
  induction e with
  | leaf i => exact ⟨env i, rfl, h i (by simp [leaves])⟩
  | bin op a b iha ihb =>
    obtain ⟨A, eA, sA⟩ := iha (fun i hi => h i (by simp [leaves, hi]))
    obtain ⟨B, eB, sB⟩ := ihb (fun i hi => h i (by simp [leaves, hi]))
    obtain ⟨E, eE, sE⟩ := MExpr.bin_shows op sA sB
    exact ⟨E, by simp [build, eA, eB, eE], sE⟩
  | scal op a iha =>
    obtain ⟨A, eA, sA⟩ := iha (fun i hi => h i (by simpa [leaves] using hi))
    exact ⟨_, by simp only [build, eA, Res.bind_ok], MExpr.scal_shows op sA⟩
  | un op a iha =>
    obtain ⟨A, eA, sA⟩ := iha (fun i hi => h i (by simpa [leaves] using hi))
    exact ⟨_, by simp only [build, eA, Res.bind_ok], MExpr.un_shows op sA⟩

/-- Building either succeeds with the common dimensions of all operands or throws. -/
theorem build_or (env : ι → MExpr α) (e : EW ι α) :
    (∃ E, e.build env = .ok E ∧ ∀ i ∈ e.leaves, (env i).dim = E.dim) ∨ e.build env = .throw .matrixSize := by
  induction e with
  | leaf i => exact Or.inl ⟨env i, rfl, by simp [leaves]⟩
  | bin op a b iha ihb =>
    rcases iha with ⟨A, eA, hA⟩ | eA
    · rcases ihb with ⟨B, eB, hB⟩ | eB
      · by_cases c : A.dim = B.dim
        · left
          have hE : (bin op a b).build env =
              .ok { dim := A.dim, get := fun i => do let x ← A.get i; let y ← B.get i; .ok (op x y) } := by
            simp [build, eA, eB, MExpr.bin, Matrix.checkSize, c]
          refine ⟨_, hE, ?_⟩
          intro i hi
          simp only [leaves, List.mem_append] at hi
          rcases hi with hi | hi
          · exact hA i hi
          · exact (hB i hi).trans c.symm
        · right; simp [build, eA, eB, MExpr.bin_mismatch op c]
      · right; simp [build, eA, eB]
    · right; simp [build, eA]
  | scal op a iha =>
    rcases iha with ⟨A, eA, hA⟩ | eA
    · left; exact ⟨MExpr.scal op A, by simp only [build, eA, Res.bind_ok], hA⟩
    · right; simp [build, eA]
  | un op a iha =>
    rcases iha with ⟨A, eA, hA⟩ | eA
    · left; exact ⟨MExpr.un op A, by simp only [build, eA, Res.bind_ok], hA⟩
    · right; simp [build, eA]

/-- The value at one index only depends on the operands' values at that index. -/
theorem value_congr (f g : ι → Nat → Nat → Nat → α) (e : EW ι α) (i j k : Nat)
    (h : ∀ l, f l i j k = g l i j k) : e.value f i j k = e.value g i j k := by
  induction e with
  | leaf l => exact h l
  | bin op a b iha ihb => simp [value, iha, ihb]
  | scal op a iha => simp [value, iha]
  | un op a iha => simp [value, iha]

end EW
end Cnn
