import Verif.Lemmas.BatchUpdate
import Mathlib.Algebra.BigOperators.Group.List.Basic
/-! Helper lemmas: batches with copies of samples (C113). -/
set_option linter.unusedSectionVars false
namespace Cnn
variable {α : Type}

theorem Matrix.Reads.unique {A : Matrix α} {X Y Z : Nat} {f g : Nat → Nat → Nat → α} (h : A.Reads X Y Z f) (h' : A.Reads X Y Z g) :
    ∀ i < X, ∀ j < Y, ∀ k < Z, f i j k = g i j k := fun i hi j hj k hk => Res.ok.inj ((h.entry i hi j hj k hk).symm.trans (h'.entry i hi j hj k hk))

theorem Body.setBatchSize_twice (B : Body α) {n : Nat} (hn : 0 < n) : (B.setBatchSize n).setBatchSize 1 = B.setBatchSize 1 := by
  cases B with
  | pooling P =>
    have : Matrix.vecResize (Matrix.vecResize P.indices n Matrix.empty) 1 Matrix.empty = Matrix.vecResize P.indices 1 Matrix.empty := by
      obtain ⟨m, rfl⟩ : ∃ m, n = m + 1 := ⟨n - 1, by omega⟩
      unfold Matrix.vecResize
      cases P.indices with
      | nil => simp
      | cons a l => simp
    exact congrArg (fun l => Body.pooling { P with indices := l }) this
  | _ => rfl

theorem Model.setBatchSize_twice (M : Model α) {n : Nat} (hn : 0 < n) : (M.setBatchSize n).setBatchSize 1 = M.setBatchSize 1 := by
  simp only [Model.setBatchSize, List.map_map]
  congr 1
  refine List.map_congr_left fun l _ => ?_
  simp only [Function.comp_apply, Body.setBatchSize_twice l.body hn]

theorem ownGrads_setBatchSize [Zero α] [One α] [Add α] [Sub α] [Mul α] [Div α] [Neg α] (E : Env α) (M : Model α) {n : Nat} (hn : 0 < n) (x : Sample α) (i : Nat) :
    ownGrads E (M.setBatchSize n) x i = ownGrads E M x i := by
  unfold ownGrads alone
  rw [Model.setBatchSize_twice M hn]

theorem sum_copies {α β : Type} [Semiring α] (k : Nat) (xs : List β) (f : β → α) : (((List.replicate k xs).flatten).map f).sum = k * (xs.map f).sum := by
  induction k with
  | zero => simp
  | succ k ih => rw [List.replicate_succ, List.flatten_cons, List.map_append, List.sum_append, ih, Nat.cast_succ, add_mul, one_mul, add_comm]

end Cnn
