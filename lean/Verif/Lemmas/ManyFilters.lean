import Verif.Lemmas.MapNumbers
import Verif.Lemmas.PoolSlot
import Verif.Lemmas.ShapeBuild
/-! Helper lemmas: the size of the weights of a convolution layer (C109). -/
set_option linter.unusedSectionVars false
namespace Cnn
variable {α : Type} [Zero α] [One α] [Add α] [Sub α] [Mul α] [Div α] [Neg α]

theorem Matrix.normalise_dim {N : Num α} {M R : Matrix α} (h : M.normalise N = .ok R) : R.dim = M.dim := by
  unfold Matrix.normalise at h
  obtain ⟨n, _, h⟩ := Res.bind_eq_ok h
  refine forRange_keep (P := fun S : Matrix α => S.dim = M.dim) (fun S it S' hS e => ?_) rfl h
  obtain ⟨a, _, e⟩ := Res.bind_eq_ok e
  obtain ⟨b, _, e⟩ := Res.bind_eq_ok e
  obtain ⟨_, rfl⟩ := setFlat_ok e
  exact hS

theorem Kernel.new_dim {N : Num α} {draws : Nat → α} {d : Dim3} {n stride : Nat} {K : Kernel α} (h : Kernel.new N draws d n stride = .ok K) :
    K.dim = d ∧ K.numFilters = n ∧ K.weights.dim = ⟨d.x, d.y, wrap32 (d.z * n)⟩ ∧ 0 ≤ d.x * d.y * wrap32 (d.z * n) := by
  unfold Kernel.new at h
  obtain ⟨W, e1, h⟩ := Res.bind_eq_ok h
  obtain ⟨B, _, h⟩ := Res.bind_eq_ok h
  obtain ⟨r, e2, h⟩ := Res.bind_eq_ok h
  obtain rfl := Res.ok.inj h
  unfold Matrix.ofDim at e1
  obtain ⟨v, e3, e1⟩ := Res.bind_eq_ok e1
  obtain rfl := Res.ok.inj e1
  unfold initParams at e2
  obtain ⟨W1, f1, e2⟩ := Res.bind_eq_ok e2
  obtain ⟨B1, _, e2⟩ := Res.bind_eq_ok e2
  obtain ⟨W2, f2, e2⟩ := Res.bind_eq_ok e2
  obtain ⟨B2, _, e2⟩ := Res.bind_eq_ok e2
  obtain rfl := Res.ok.inj e2
  obtain ⟨g1, _⟩ := vecSize_inv e3
  refine ⟨rfl, rfl, (Matrix.normalise_dim f2).trans (fillDraws_dim f1), ?_⟩
  dsimp only at g1
  omega

theorem wrap32_eq_iff (n : Nat) : wrap32 (n : Int) = n ↔ n < 2147483648 := by
  unfold wrap32
  omega

/-- If the weights hold fewer channels than all filters together have, no forward pass succeeds. -/
theorem Kernel.forward_short {K : Kernel α} {C z : Nat} (hC : 0 < C) (hd : K.dim.z = C) (hz : K.weights.dim.z = z) (hz' : z < 2147483648)
    (hs : z < C * K.numFilters) (X Y : Matrix α) : K.forward X ≠ .ok Y := by
  intro h
  unfold Kernel.forward at h
  split at h
  · exact absurd h (by simp)
  · obtain ⟨out, _, h⟩ := Res.bind_eq_ok h
    have hi : z / C < K.numFilters := (Nat.div_lt_iff_lt_mul hC).2 (by rw [Nat.mul_comm]; exact hs)
    obtain ⟨u, u', hu⟩ := foldlM_range_steps _ _ h _ hi
    unfold Kernel.forwardFilter at hu
    obtain ⟨v, hv, _⟩ := Res.bind_eq_ok hu
    have hle : z / C * C ≤ z := Nat.div_mul_le_self z C
    have hgt : z < z / C * C + C := Nat.lt_div_mul_add hC
    have hw : wrap32 (((z / C : Nat) : Int) * K.dim.z) = ((z / C * C : Nat) : Int) := by
      rw [hd, ← Nat.cast_mul]
      exact (wrap32_eq_iff _).2 (by omega)
    rw [hw, hd] at hv
    unfold View.slices View.create at hv
    obtain ⟨e, he, hv⟩ := Res.bind_eq_ok hv
    unfold View.endOf at he
    obtain ⟨a, _, he⟩ := Res.bind_eq_ok he
    obtain ⟨b, _, he⟩ := Res.bind_eq_ok he
    obtain ⟨c, hc, he⟩ := Res.bind_eq_ok he
    obtain rfl := Res.ok.inj he
    have hc := chk_eq hc
    dsimp only at hc
    have : View.exceeds ⟨a, b, c⟩ K.weights.dim = true := by
      unfold View.exceeds
      have : c > K.weights.dim.z := by
        rw [hz]
        omega
      simp [this]
    rw [if_pos this] at hv
    exact absurd hv (by simp)

end Cnn
