import Verif.Lemmas.Map
/-!
# Layers commute with homomorphisms of arithmetics
-/
set_option linter.unusedSectionVars false
namespace Cnn
open Res
variable {α β : Type}

/-! ## Convolution layers need sums and products only -/

namespace Kernel
section
variable [Zero α] [Add α] [Sub α] [Mul α] [Div α] [Zero β] [Add β] [Sub β] [Mul β] [Div β] {φ : α → β}

theorem padInput_map (h0 : φ 0 = 0) (v : View) (M : Matrix α) (f : Dim3) : padInput v (M.map φ) f = Matrix.map φ <$> padInput v M f := by
  unfold padInput
  simp only [map_res_bind]
  refine bind_congr' rfl fun px => bind_congr' rfl fun py => ?_
  rw [← h0, Matrix.ofDim_map, bind_res_map]
  refine bind_congr' rfl fun P => bind_congr' rfl fun t => ?_
  exact View.assign_map φ _ _ _ _ _ _ fun M' it => by rw [View.expr_map]; rfl

theorem forwardChannel_map (h : SumHom φ) (K : Kernel α) (X : Matrix α) (filter : View) (i : Nat) (out : Matrix α) (j : Nat) :
    (K.map φ).forwardChannel (X.map φ) filter i (out.map φ) j = Matrix.map φ <$> K.forwardChannel X filter i out j := by
  unfold forwardChannel
  simp only [map_res_bind]
  refine bind_congr' rfl fun W => bind_congr' rfl fun I => bind_congr' rfl fun o => ?_
  rw [View.expr_map]
  show MExpr.convolve _ (W.expr (K.weights.map φ)) _ >>= _ = _
  rw [View.expr_map, MExpr.convolve_map h, bind_res_map]
  refine bind_congr' rfl fun e => ?_
  exact View.opAssign_map φ φ _ _ (fun a b => (h.add a b).symm) _ _ _ _ _ fun M' i => rfl

theorem forwardFilter_map (h : SumHom φ) (K : Kernel α) (X : Matrix α) (out : Matrix α) (i : Nat) :
    (K.map φ).forwardFilter (X.map φ) (out.map φ) i = Matrix.map φ <$> K.forwardFilter X out i := by
  unfold forwardFilter
  simp only [map_res_bind]
  refine bind_congr' rfl fun fl => ?_
  show (List.range (u64 K.dim.z)).foldlM _ _ >>= _ = _
  rw [foldlM_map (Matrix.map φ) _ (fun s j => forwardChannel_map h K X fl i s j), bind_res_map]
  refine bind_congr' rfl fun out => bind_congr' rfl fun o => ?_
  show (K.biases.map φ).flat i >>= _ = _
  rw [Matrix.flat_map, bind_res_map]
  refine bind_congr' rfl fun b => ?_
  exact View.opScalar_map φ φ _ _ _ _ _ _ (fun M' => rfl) (fun a b => (h.add a b).symm)

theorem forward_map (h : SumHom φ) (K : Kernel α) (X : Matrix α) : (K.map φ).forward (X.map φ) = Matrix.map φ <$> K.forward X := by
  unfold forward
  rw [show (K.map φ).checkSize (X.map φ) = K.checkSize X from rfl]
  split
  · rfl
  · rw [map_res_bind, ← h.zero, Matrix.ofDim_map, bind_res_map]
    exact bind_congr' rfl fun out => foldlM_map (Matrix.map φ) _ (fun s i => forwardFilter_map h K X s i) out

theorem getdLdW_map (h : SumHom φ) (K : Kernel α) (X D : Matrix α) : (K.map φ).getdLdW (X.map φ) (D.map φ) = Matrix.map φ <$> K.getdLdW X D := by
  unfold getdLdW
  rw [map_res_bind, ← h.zero, Matrix.ofDim_map, bind_res_map]
  refine bind_congr' rfl fun G => foldlM_map (Matrix.map φ) _ (fun s f => ?_) G
  simp only [map_res_bind]
  refine bind_congr' rfl fun og => bind_congr' rfl fun wg => ?_
  refine foldlM_map (Matrix.map φ) _ (fun s c => ?_) s
  simp only [map_res_bind]
  refine bind_congr' rfl fun ic => bind_congr' rfl fun t => ?_
  rw [View.expr_map, View.expr_map, MExpr.convolve_map h, bind_res_map]
  exact bind_congr' rfl fun e => View.assign_map φ _ _ _ _ _ _ fun M' it => rfl

theorem filterGradient_map (h : SumHom φ) (K : Kernel α) (X D : Matrix α) (f : Nat) :
    (K.map φ).filterGradient (X.map φ) (D.map φ) f = Matrix.map φ <$> K.filterGradient X D f := by
  unfold filterGradient
  simp only [map_res_bind]
  refine bind_congr' rfl fun fl => bind_congr' rfl fun og => ?_
  rw [← h.zero, Matrix.ofDim_map, bind_res_map]
  refine bind_congr' rfl fun G => foldlM_map (Matrix.map φ) _ (fun s c => ?_) G
  simp only [map_res_bind]
  refine bind_congr' rfl fun fc => ?_
  rw [View.expr_map, MExpr.rotate_map, bind_res_map]
  refine bind_congr' rfl fun rg => ?_
  show padInput fc (K.weights.map φ) og.dim >>= _ = _
  rw [padInput_map h.zero, bind_res_map]
  refine bind_congr' rfl fun pf => bind_congr' rfl fun t => ?_
  rw [Matrix.expr_map, MExpr.convolve_map h, bind_res_map]
  exact bind_congr' rfl fun e => View.assign_map φ _ _ _ _ _ _ fun M' it => rfl

theorem getdLdX_map (h : SumHom φ) (K : Kernel α) (X D : Matrix α) : (K.map φ).getdLdX (X.map φ) (D.map φ) = Matrix.map φ <$> K.getdLdX X D := by
  unfold getdLdX
  rw [map_res_bind, ← h.zero, Matrix.ofDim_map, bind_res_map]
  refine bind_congr' rfl fun G => foldlM_map (Matrix.map φ) _ (fun s f => ?_) G
  simp only [map_res_bind]
  rw [filterGradient_map h, bind_res_map]
  refine bind_congr' rfl fun fg => bind_congr' rfl fun _ => ?_
  refine Matrix.assignExpr_map φ h.zero _ _ _ _ fun M' it => ?_
  rw [Matrix.read_map, bind_res_map, map_res_bind]
  refine bind_congr' rfl fun a => ?_
  rw [Matrix.read_map, bind_res_map, map_res_bind]
  exact bind_congr' rfl fun b => by rw [← h.add]; rfl

theorem getdLdB_map (h : SumHom φ) (K : Kernel α) (D : Matrix α) : (K.map φ).getdLdB (D.map φ) = Matrix.map φ <$> K.getdLdB D := by
  unfold getdLdB
  rw [map_res_bind, ← h.zero]
  show Matrix.ofDim K.biases.dim (φ 0) >>= _ = _
  rw [Matrix.ofDim_map, bind_res_map]
  refine bind_congr' rfl fun G => foldlM_map (Matrix.map φ) _ (fun s f => ?_) G
  simp only [map_res_bind]
  refine bind_congr' rfl fun v => ?_
  rw [View.expr_map, MExpr.sum_map h, bind_res_map]
  exact bind_congr' rfl fun a => Matrix.setFlat_map φ _ _ _

theorem _root_.Cnn.setSlot_map {σ τ : Type} (g : σ → τ) (l : List σ) (i : Nat) (a : σ) : setSlot (l.map g) i (g a) = List.map g <$> setSlot l i a := by
  unfold setSlot
  rw [List.length_map]
  split
  · rw [map_ok, List.map_set]
  · rfl

/-- A pair of a matrix and something else. -/
abbrev _root_.Cnn.mapFst {σ τ : Type} (φ : α → β) (g : σ → τ) (r : Matrix α × σ) : Matrix β × τ := (r.1.map φ, g r.2)

theorem backward_map (h : SumHom φ) (K : Kernel α) (X Z D : Matrix α) (b : Nat) (last : Bool) :
    (K.map φ).backward (X.map φ) (Z.map φ) (D.map φ) b last = mapFst φ (Kernel.map φ) <$> K.backward X Z D b last := by
  unfold backward
  simp only [map_res_bind]
  rw [getdLdW_map h, bind_res_map]
  refine bind_congr' rfl fun gw => ?_
  show setSlot (K.wGrads.map (Matrix.map φ)) _ _ >>= _ = _
  rw [setSlot_map, bind_res_map]
  refine bind_congr' rfl fun wG => ?_
  rw [getdLdB_map h, bind_res_map]
  refine bind_congr' rfl fun gb => ?_
  show setSlot (K.bGrads.map (Matrix.map φ)) _ _ >>= _ = _
  rw [setSlot_map, bind_res_map]
  refine bind_congr' rfl fun bG => ?_
  cases last
  · simp only [Bool.false_eq_true, if_false]
    rw [getdLdX_map h, bind_res_map, map_res_bind]
    exact bind_congr' rfl fun r => rfl
  · rfl

end
end Kernel

/-! ## Fully connected layers after their first use -/

namespace Connected
section
variable [Zero α] [Add α] [Sub α] [Mul α] [Div α] [Zero β] [Add β] [Sub β] [Mul β] [Div β] {φ : α → β}

theorem compute_map (h : SumHom φ) (L : Connected α) (X : Matrix α) : (L.map φ).compute (X.map φ) = Matrix.map φ <$> L.compute X := by
  unfold compute
  simp only [map_res_bind]
  refine bind_congr' rfl fun n => ?_
  rw [Matrix.reshape_map, bind_res_map]
  refine bind_congr' rfl fun v => ?_
  show MExpr.matMul (L.weights.map φ).expr _ >>= _ = _
  rw [Matrix.expr_map, Matrix.expr_map, MExpr.matMul_map h, bind_res_map]
  refine bind_congr' rfl fun P => ?_
  show MExpr.bin _ _ (L.biases.map φ).expr >>= _ = _
  rw [Matrix.expr_map, MExpr.bin_map φ φ φ _ _ (fun a b => (h.add a b).symm), bind_res_map]
  exact bind_congr' rfl fun e => Matrix.ofExpr_id_map φ h.zero e

theorem getdLdW_map (h : SumHom φ) (o : ArgOrder) (X D : Matrix α) : getdLdW o (X.map φ) (D.map φ) = Matrix.map φ <$> getdLdW o X D := by
  unfold getdLdW
  simp only [map_res_bind]
  refine bind_congr' rfl fun n => ?_
  rw [Matrix.reshape_map, bind_res_map]
  refine bind_congr' rfl fun v => ?_
  rw [Matrix.expr_map, Matrix.expr_map, MExpr.transpose_map, MExpr.matMulP_map h, bind_res_map]
  exact bind_congr' rfl fun e => Matrix.ofExpr_id_map φ h.zero e

theorem getdLdX_map (h : SumHom φ) (o : ArgOrder) (L : Connected α) (D : Matrix α) :
    (L.map φ).getdLdX o (D.map φ) = Matrix.map φ <$> L.getdLdX o D := by
  unfold getdLdX
  simp only [map_res_bind]
  show MExpr.matMulP _ _ (MExpr.transpose (L.weights.map φ).expr) _ >>= _ = _
  rw [Matrix.expr_map, Matrix.expr_map, MExpr.transpose_map, MExpr.matMulP_map h, bind_res_map]
  refine bind_congr' rfl fun e => ?_
  rw [Matrix.ofExpr_id_map φ h.zero, bind_res_map]
  exact bind_congr' rfl fun M => Matrix.reshape_map φ M _

theorem backward_map (h : SumHom φ) (o : ArgOrder) (L : Connected α) (X Z D : Matrix α) (b : Nat) (last : Bool) :
    (L.map φ).backward o (X.map φ) (Z.map φ) (D.map φ) b last = mapFst φ (Connected.map φ) <$> L.backward o X Z D b last := by
  unfold backward
  simp only [map_res_bind]
  rw [getdLdW_map h, bind_res_map]
  refine bind_congr' rfl fun gw => ?_
  show setSlot (L.wGrads.map (Matrix.map φ)) _ _ >>= _ = _
  rw [setSlot_map, bind_res_map]
  refine bind_congr' rfl fun wG => ?_
  show setSlot (L.bGrads.map (Matrix.map φ)) _ _ >>= _ = _
  rw [setSlot_map, bind_res_map]
  refine bind_congr' rfl fun bG => ?_
  cases last
  · simp only [Bool.false_eq_true, if_false]
    rw [getdLdX_map h, bind_res_map, map_res_bind]
    exact bind_congr' rfl fun r => rfl
  · rfl

end
end Connected
end Cnn
