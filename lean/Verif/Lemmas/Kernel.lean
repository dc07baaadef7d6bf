import Verif.Lemmas.View
import Verif.Lemmas.Expr
import Verif.Lemmas.Sums
import Verif.Lemmas.Fill
import Verif.Spec.Kernel
/-! Helper lemmas for the convolution layer. -/
namespace Cnn

theorem wrap32_nat {n : Nat} (h : n < 2147483648) : wrap32 (n : Int) = n := by unfold wrap32; omega

theorem wrap32_eq {z : Int} (h : -2147483648 ≤ z) (h' : z < 2147483648) : wrap32 z = z := by unfold wrap32; omega

namespace View
variable {X Y Z : Nat}

theorem slices_eq (g : Good X Y Z) {k n : Nat} (h : k + n ≤ Z) :
    slices (dimN X Y Z) k n = .ok ⟨dimN 0 0 k, dimN X Y n⟩ :=
  create_ok (sx := 0) (sy := 0) g ⟨by omega, by omega, h⟩

theorem slice_eq (g : Good X Y Z) {k : Nat} (h : k < Z) : slice (dimN X Y Z) k = .ok ⟨dimN 0 0 k, dimN X Y 1⟩ :=
  slices_eq g (n := 1) (by omega)

theorem subSlice_eq (g : Good X Y Z) {k n c : Nat} (h : k + n ≤ Z) (hc : c < n) :
    subSlice (dimN X Y Z) ⟨dimN 0 0 k, dimN X Y n⟩ c = .ok ⟨dimN 0 0 (k + c), dimN X Y 1⟩ := by
  obtain ⟨_, h1, h2, h3⟩ := g.bounds
  have e := create_ok (sx := 0) (sy := 0) (sz := k + c) (wx := X) (wy := Y) (wz := 1) g ⟨by omega, by omega, by omega⟩
  unfold subSlice subSlices sub
  simp only
  have ed : (dimN 0 0 k + ⟨0, 0, (c : Int)⟩ : Dim3) = dimN 0 0 (k + c) := dimN_add 0 0 k 0 0 c
  have eo : endOf (dimN 0 0 k) ⟨0, 0, (c : Int)⟩ = .ok (dimN 0 0 (k + c)) := by
    rw [← ed]
    unfold endOf
    simp only [dimN]
    rw [chk_ok (by unfold I32; omega), chk_ok (by unfold I32; omega)]
    rfl
  rw [eo, Res.bind_ok]
  have e' : create (dimN X Y Z) (dimN 0 0 (k + c)) ⟨(X : Int), (Y : Int), 1⟩ = .ok ⟨dimN 0 0 (k + c), dimN X Y 1⟩ := e
  rw [e', Res.bind_ok]
  unfold endOf
  simp only
  rw [chk_ok (by unfold I32; omega), chk_ok (by unfold I32; omega), chk_ok (by unfold I32; omega)]
  simp only [Res.bind_ok]
  rw [if_neg (by simp [exceeds]; omega)]

end View

namespace Kernel
variable {α : Type} {X Y A B C F : Nat}

section order
variable [Zero α] [Add α] [Mul α]
variable {K : Kernel α} {w x : Nat → Nat → Nat → α} {β : Nat → α}

/-- One channel added to one output slice, in the order of the code. -/
def chan (A B C : Nat) (w x : Nat → Nat → Nat → α) (f i j c : Nat) : α :=
  sumTo2 A B (fun a b => x (i + a) (j + b) c * w a b (f * C + c))

omit [Zero α] [Add α] [Mul α] in
theorem sizes (hK : K.Is A B C F 1 w β) : 0 < A ∧ 0 < B ∧ 0 < C ∧ 0 < F ∧ C < 2147483648 ∧ F < 2147483648 ∧
    C * F < 2147483648 := by
  have g := hK.weights.good
  obtain ⟨_, _, _, h3⟩ := g.bounds
  have hCF := g.z
  have hF := hK.biases.good.x
  have hC : 0 < C := Nat.pos_of_mul_pos_right hCF
  have := hK.biases.good.bounds
  refine ⟨g.x, g.y, hC, hF, ?_, by omega, by omega⟩
  exact lt_of_le_of_lt (Nat.le_mul_of_pos_right C hF) (by omega)

theorem slot_le {C F f : Nat} (hf : f < F) : f * C + C ≤ C * F := by
  have : (f + 1) * C ≤ F * C := Nat.mul_le_mul_right _ hf
  rw [Nat.mul_comm C F]; rw [Nat.add_mul, Nat.one_mul] at this; exact this

omit [Zero α] [Add α] [Mul α] in
theorem good_out (hK : K.Is A B C F 1 w β) (hf : ConvFits X Y A B F) : Good (X - A + 1) (Y - B + 1) F :=
  ⟨by omega, by omega, (sizes hK).2.2.2.1, hf.out⟩

omit [Zero α] [Add α] [Mul α] in
theorem filter_eq (hK : K.Is A B C F 1 w β) {f : Nat} (hf : f < F) :
    View.slices K.weights.dim ((f * C : Nat) : Int) K.dim.z = .ok ⟨dimN 0 0 (f * C), dimN A B C⟩ := by
  rw [hK.weights.dim, hK.dim]
  exact View.slices_eq hK.weights.good (slot_le hf)

omit [Zero α] [Add α] [Mul α] in
theorem channel_shows (hK : K.Is A B C F 1 w β) {f c : Nat} (hf : f < F) (hc : c < C) :
    View.subSlice K.weights.dim ⟨dimN 0 0 (f * C), dimN A B C⟩ c = .ok ⟨dimN 0 0 (f * C + c), dimN A B 1⟩ ∧
    ((⟨dimN 0 0 (f * C + c), dimN A B 1⟩ : View).expr K.weights).Shows A B 1 (fun a b _ => w a b (f * C + c)) := by
  have g := hK.weights.good
  have h := slot_le (C := C) hf
  constructor
  · rw [hK.weights.dim]; exact View.subSlice_eq g h hc
  · refine (View.expr_shows hK.weights (sx := 0) (sy := 0) (sz := f * C + c) ⟨by omega, by omega, by omega⟩ g.x g.y
      (by omega)).congr ?_
    intro i hi j hj k hk
    obtain rfl : k = 0 := by omega
    simp

omit [Zero α] [Add α] [Mul α] in
theorem slice_shows {M : Matrix α} {Z k : Nat} {x : Nat → Nat → Nat → α} (hM : M.Shows X Y Z x) (hk : k < Z) :
    View.slice M.dim k = .ok ⟨dimN 0 0 k, dimN X Y 1⟩ ∧
    ((⟨dimN 0 0 k, dimN X Y 1⟩ : View).expr M).Shows X Y 1 (fun i j _ => x i j k) := by
  constructor
  · rw [hM.dim]; exact View.slice_eq hM.good hk
  · refine (View.expr_shows hM (sx := 0) (sy := 0) (sz := k) ⟨by omega, by omega, by omega⟩ hM.good.x hM.good.y
      (by omega)).congr ?_
    intro i hi j hj l hl
    obtain rfl : l = 0 := by omega
    simp

theorem forwardChannel_shows (hK : K.Is A B C F 1 w β) {M out : Matrix α} {o : Nat → Nat → Nat → α}
    (hM : M.Shows X Y C x) (hfit : ConvFits X Y A B F) (ho : out.Shows (X - A + 1) (Y - B + 1) F o) {f c : Nat}
    (hf : f < F) (hc : c < C) :
    ∃ out', K.forwardChannel M ⟨dimN 0 0 (f * C), dimN A B C⟩ f out c = .ok out' ∧
      out'.Shows (X - A + 1) (Y - B + 1) F (fun i j k => if k = f then o i j k + chan A B C w x f i j c else o i j k) := by
  obtain ⟨e1, s1⟩ := channel_shows hK hf hc
  obtain ⟨e2, s2⟩ := slice_shows hM hc
  obtain ⟨e3, _⟩ := slice_shows ho hf
  obtain ⟨E, e4, s4⟩ := MExpr.convolve_shows s2 s1 hfit.x hfit.y
  obtain ⟨out', e5, s5⟩ := View.opAssign_shows (· + ·) ho (sx := 0) (sy := 0) (sz := f) (wx := X - A + 1) (wy := Y - B + 1)
    (wz := 1) ⟨by omega, by omega, by omega⟩ (by omega) (by omega) (fun _ => E.get) _
    (fun i hi j hj k hk M' _ => s4.entry i hi j hj k hk)
  refine ⟨out', ?_, s5.congr ?_⟩
  · unfold forwardChannel
    simp only [e1, e2, e3, Res.bind_ok, hK.stride]
    have ew : wrap32 ((1 : Nat) : Int) = 1 := by decide
    rw [ew, e4, Res.bind_ok, s4.dim]
    exact e5
  · intro i hi j hj k hk
    by_cases h : k = f
    · subst h
      rw [if_pos (by unfold inBox; omega), if_pos rfl]
      rfl
    · rw [if_neg (by unfold inBox; omega), if_neg h]

theorem forwardFilter_shows (hK : K.Is A B C F 1 w β) {M out : Matrix α} {o : Nat → Nat → Nat → α}
    (hM : M.Shows X Y C x) (hfit : ConvFits X Y A B F) (ho : out.Shows (X - A + 1) (Y - B + 1) F o) {f : Nat}
    (hf : f < F) (h0 : ∀ i j, o i j f = 0) :
    ∃ out', K.forwardFilter M out f = .ok out' ∧
      out'.Shows (X - A + 1) (Y - B + 1) F
        (fun i j k => if k = f then sumTo C (fun c => chan A B C w x f i j c) + β f else o i j k) := by
  obtain ⟨_, _, hC0, hF0, hC, hF, hCF⟩ := sizes hK
  obtain ⟨out1, e1, s1⟩ := foldlM_range_inv (fun n (M' : Matrix α) => n ≤ C → M'.Shows (X - A + 1) (Y - B + 1) F
      (fun i j k => if k = f then sumTo n (fun c => chan A B C w x f i j c) else o i j k)) C
    (K.forwardChannel M ⟨dimN 0 0 (f * C), dimN A B C⟩ f) out
    (fun _ => ho.congr (by
      intro i _ j _ k _
      by_cases h : k = f
      · subst h; simp [sumTo, h0]
      · simp [h]))
    (by
      intro n hn M' hM'
      obtain ⟨M2, e, s⟩ := forwardChannel_shows hK hM hfit (hM' (by omega)) hf hn
      refine ⟨M2, e, fun _ => s.congr ?_⟩
      intro i _ j _ k _
      by_cases h : k = f
      · simp [h, sumTo_succ]
      · simp [h])
  have s1 := s1 (le_refl _)
  obtain ⟨e3, _⟩ := slice_shows s1 hf
  have eb : K.biases.flat f = .ok (β f) := by
    have := hK.biases.flat_fl hf (j := 0) (by omega) (k := 0) (by omega)
    simpa [fl] using this
  obtain ⟨out', e5, s5⟩ := View.opScalar_shows (· + ·) s1 (sx := 0) (sy := 0) (sz := f) (wx := X - A + 1) (wy := Y - B + 1)
    (wz := 1) ⟨by omega, by omega, by omega⟩ (by omega) (by omega) (β f)
  refine ⟨out', ?_, s5.congr ?_⟩
  · unfold forwardFilter
    have ez : K.dim.z = (C : Int) := by rw [hK.dim]
    have hfC : f * C < 2147483648 := by have := slot_le (C := C) hf; omega
    have ew : wrap32 (((f : Nat) : Int) * K.dim.z) = ((f * C : Nat) : Int) := by
      rw [ez, ← Nat.cast_mul, wrap32_nat hfC]
    rw [ew, filter_eq hK hf, Res.bind_ok, ez, u64_nat (by omega), e1, Res.bind_ok, e3, Res.bind_ok, eb, Res.bind_ok]
    exact e5
  · intro i hi j hj k hk
    by_cases h : k = f
    · subst h
      rw [if_pos (by unfold inBox; omega), if_pos rfl, if_pos rfl]
    · rw [if_neg (by unfold inBox; omega), if_neg h, if_neg h]

omit [Zero α] [Add α] [Mul α] in
theorem outputSize_eq (hK : K.Is A B C F 1 w β) {M : Matrix α} (hM : M.Shows X Y C x) (hfit : ConvFits X Y A B F) :
    K.outputSize M = dimN (X - A + 1) (Y - B + 1) F := by
  obtain ⟨_, _, hC0, hF0, hC, hF, hCF⟩ := sizes hK
  have := hM.good.bounds
  have h1 := hfit.x
  have h2 := hfit.y
  unfold outputSize
  rw [hM.dim, hK.dim, hK.num]
  simp only
  rw [show ((X : Nat) : Int) - ((A : Nat) : Int) + 1 = ((X - A + 1 : Nat) : Int) by omega,
    show ((Y : Nat) : Int) - ((B : Nat) : Int) + 1 = ((Y - B + 1 : Nat) : Int) by omega,
    wrap32_nat (by omega), wrap32_nat (by omega), wrap32_nat hF]

/-- The forward pass, entry by entry in the order of the code. -/
theorem forward_shows (hK : K.Is A B C F 1 w β) {M : Matrix α} (hM : M.Shows X Y C x) (hfit : ConvFits X Y A B F) :
    ∃ out, K.forward M = .ok out ∧ out.Shows (X - A + 1) (Y - B + 1) F
      (fun i j f => sumTo C (fun c => chan A B C w x f i j c) + β f) := by
  obtain ⟨_, _, hC0, hF0, hC, hF, hCF⟩ := sizes hK
  obtain ⟨out0, e0, s0⟩ := Matrix.ofDim_shows (good_out hK hfit) (0 : α)
  obtain ⟨out, e1, s1⟩ := foldlM_range_inv (fun n (M' : Matrix α) => n ≤ F → M'.Shows (X - A + 1) (Y - B + 1) F
      (fun i j f => if f < n then sumTo C (fun c => chan A B C w x f i j c) + β f else 0)) F
    (K.forwardFilter M) out0 (fun _ => s0.congr (by simp)) (by
      intro n hn M' hM'
      obtain ⟨M2, e, s⟩ := forwardFilter_shows hK hM hfit (hM' (by omega)) hn (by simp)
      refine ⟨M2, e, fun _ => s.congr ?_⟩
      intro i _ j _ k _
      by_cases h : k = n
      · subst h; simp
      · by_cases h' : k < n
        · rw [if_neg h, if_pos h', if_pos (by omega)]
        · rw [if_neg h, if_neg h', if_neg (by omega)])
  refine ⟨out, ?_, (s1 (le_refl _)).congr ?_⟩
  · unfold forward
    have hc : K.checkSize M = true := by
      unfold checkSize; rw [hM.dim, hK.dim]; simp
    rw [if_neg (by simp [hc]), outputSize_eq hK hM hfit, e0, Res.bind_ok, hK.num, e1]
  · intro i _ j _ k hk
    rw [if_pos hk]

/-- The weight gradient, in the order of the code. -/
theorem getdLdW_shows (hK : K.Is A B C F 1 w β) {M G : Matrix α} (hM : M.Shows X Y C x) (hfit : ConvFits X Y A B F)
    {g : Nat → Nat → Nat → α} (hG : G.Shows (X - A + 1) (Y - B + 1) F g) :
    ∃ D, K.getdLdW M G = .ok D ∧ D.Shows A B (C * F) (fun a b m =>
      sumTo2 (X - A + 1) (Y - B + 1) (fun p q => x (a + p) (b + q) (m % C) * g p q (m / C))) := by
  obtain ⟨hA0, hB0, hC0, hF0, hC, hF, hCF⟩ := sizes hK
  have gw := hK.weights.good
  have hx := hfit.x
  have hy := hfit.y
  obtain ⟨D0, e0, s0⟩ := Matrix.ofDim_shows gw (0 : α)
  generalize hv : (fun a b m => sumTo2 (X - A + 1) (Y - B + 1) (fun p q => x (a + p) (b + q) (m % C) * g p q (m / C))) = val
  have ez : K.dim.z = (C : Int) := by rw [hK.dim]
  obtain ⟨D, e1, s1⟩ := foldlM_range_inv (fun n (M' : Matrix α) => n ≤ F → M'.Shows A B (C * F)
      (fun a b m => if m < n * C then val a b m else 0)) F
    (fun (dLdW : Matrix α) (f : Nat) => do
      let og ← View.slice G.dim f
      let wg ← View.slices dLdW.dim (f * K.dim.z) K.dim.z
      (List.range K.dim.z.toNat).foldlM (fun (dLdW : Matrix α) (c : Nat) => do
        let ic ← View.slice M.dim c
        let t ← View.subSlice dLdW.dim wg c
        let E ← MExpr.convolve (ic.expr M) (og.expr G) ⟨1, 1⟩
        t.assign dLdW E.dim (Iter.fin E.dim) (fun _ => E.deref)) dLdW) D0 (fun _ => s0.congr (by simp)) (by
      intro f hf M' hM'
      have hM' := hM' (by omega)
      obtain ⟨eg, sg⟩ := slice_shows hG hf
      have hsl := slot_le (C := C) hf
      have ef : View.slices M'.dim (f * K.dim.z) K.dim.z = .ok ⟨dimN 0 0 (f * C), dimN A B C⟩ := by
        rw [hM'.dim, ez, ← Nat.cast_mul]
        exact View.slices_eq gw hsl
      rw [eg, Res.bind_ok, ef, Res.bind_ok, ez, Int.toNat_natCast]
      obtain ⟨M2, e2, s2⟩ := foldlM_range_inv (fun c (M' : Matrix α) => c ≤ C → M'.Shows A B (C * F)
          (fun a b m => if m < f * C + c then val a b m else 0)) C
        (fun (dLdW : Matrix α) (c : Nat) => do
          let ic ← View.slice M.dim c
          let t ← View.subSlice dLdW.dim ⟨dimN 0 0 (f * C), dimN A B C⟩ c
          let E ← MExpr.convolve (ic.expr M) ((⟨dimN 0 0 f, dimN (X - A + 1) (Y - B + 1) 1⟩ : View).expr G) ⟨1, 1⟩
          t.assign dLdW E.dim (Iter.fin E.dim) (fun _ => E.deref)) M' (fun _ => hM') (by
          intro c hc M3 hM3
          have hM3 := hM3 (by omega)
          obtain ⟨ei, si⟩ := slice_shows hM hc
          have et : View.subSlice M3.dim ⟨dimN 0 0 (f * C), dimN A B C⟩ c = .ok ⟨dimN 0 0 (f * C + c), dimN A B 1⟩ := by
            rw [hM3.dim]; exact View.subSlice_eq gw hsl hc
          obtain ⟨E, eE, sE⟩ := MExpr.convolve_shows si sg (by omega) (by omega)
          have dA : X - (X - A + 1) + 1 = A := by omega
          have dB : Y - (Y - B + 1) + 1 = B := by omega
          rw [dA, dB] at sE
          obtain ⟨M4, e4, s4⟩ := View.assign_shows hM3 (sx := 0) (sy := 0) (sz := f * C + c) (wx := A) (wy := B)
            (wz := 1) ⟨by omega, by omega, by omega⟩ hA0 hB0 (Iter.fin (dimN A B 1)) ⟨rfl, rfl⟩ (fun _ => E.deref) _
            (fun i hi j hj k hk M' _ => sE.deref i hi j hj k hk)
          refine ⟨M4, ?_, fun _ => s4.congr ?_⟩
          · rw [ei, Res.bind_ok, et, Res.bind_ok, eE, Res.bind_ok, sE.dim]; exact e4
          · intro a ha b hb m hm
            by_cases h : m = f * C + c
            · subst h
              rw [if_pos (by unfold inBox; omega), if_pos (by omega), ← hv]
              simp only [Nat.sub_zero]
              have h1 : (f * C + c) % C = c := by rw [Nat.mul_add_mod_self_right]; exact Nat.mod_eq_of_lt hc
              have h2 : (f * C + c) / C = f := by
                rw [Nat.mul_comm, Nat.mul_add_div hC0, Nat.div_eq_of_lt hc, Nat.add_zero]
              rw [h1, h2]
            · rw [if_neg (by unfold inBox; omega)]
              by_cases h' : m < f * C + c
              · rw [if_pos h', if_pos (by omega)]
              · rw [if_neg h', if_neg (by omega)])
      refine ⟨M2, e2, fun _ => (s2 (le_refl _)).congr ?_⟩
      intro a _ b _ m _
      rw [Nat.add_mul, Nat.one_mul])
  refine ⟨D, ?_, (s1 (le_refl _)).congr ?_⟩
  · unfold getdLdW
    rw [hK.weights.dim, e0, Res.bind_ok, hK.num]
    exact e1
  · intro a _ b _ m hm
    rw [if_pos (by rw [Nat.mul_comm]; exact hm)]

/-- Entry `(u, v)` of the padded filter channel. -/
def pad (A B S : Nat) (w : Nat → Nat → Nat → α) (m u v : Nat) : α :=
  if (S - 1 ≤ u ∧ u < S - 1 + A) ∧ (S - 1 ≤ v ∧ v < S - 1 + B) then w (u - (S - 1)) (v - (S - 1)) m else 0

omit [Add α] [Mul α] in
theorem padInput_shows (hK : K.Is A B C F 1 w β) {f c S : Nat} (hf : f < F) (hc : c < C) (hS : 0 < S)
    (hpad : (A + 2 * (S - 1)) * (B + 2 * (S - 1)) < 2147483648) :
    ∃ P, padInput ⟨dimN 0 0 (f * C + c), dimN A B 1⟩ K.weights (dimN S S 1) = .ok P ∧
      P.Shows (A + 2 * (S - 1)) (B + 2 * (S - 1)) 1 (fun u v _ => pad A B S w (f * C + c) u v) := by
  obtain ⟨hA0, hB0, hC0, hF0, hC, hF, hCF⟩ := sizes hK
  obtain ⟨_, sc⟩ := channel_shows hK hf hc
  have gp : Good (A + 2 * (S - 1)) (B + 2 * (S - 1)) 1 := ⟨by omega, by omega, by omega, by omega⟩
  have hb := gp.bounds
  obtain ⟨P0, e0, s0⟩ := Matrix.ofDim_shows gp (0 : α)
  obtain ⟨P, e1, s1⟩ := View.assign_shows s0 (sx := S - 1) (sy := S - 1) (sz := 0) (wx := A) (wy := B) (wz := 1)
    ⟨by omega, by omega, by omega⟩ hA0 hB0 (Iter.finView (dimN A B 1)) (finView_idx _)
    (fun _ => ((⟨dimN 0 0 (f * C + c), dimN A B 1⟩ : View).expr K.weights).deref) _
    (fun i hi j hj k hk M' _ => sc.deref i hi j hj k hk)
  refine ⟨P, ?_, s1.congr ?_⟩
  · unfold padInput
    simp only
    have ex : ((A : Nat) : Int) + 2 * (((S : Nat) : Int) - 1) = ((A + 2 * (S - 1) : Nat) : Int) := by omega
    have ey : ((B : Nat) : Int) + 2 * (((S : Nat) : Int) - 1) = ((B + 2 * (S - 1) : Nat) : Int) := by omega
    have es : ((S : Nat) : Int) - 1 = ((S - 1 : Nat) : Int) := by omega
    rw [ex, ey, chk_ok (by unfold I32; omega), Res.bind_ok, chk_ok (by unfold I32; omega), Res.bind_ok, es]
    have e0' : Matrix.ofDim ⟨((A + 2 * (S - 1) : Nat) : Int), ((B + 2 * (S - 1) : Nat) : Int), ((1 : Nat) : Int)⟩ (0 : α) = .ok P0 := e0
    rw [e0', Res.bind_ok, s0.dim]
    have ec := View.create_ok (sx := S - 1) (sy := S - 1) (sz := 0) (wx := A) (wy := B) (wz := 1) gp
      ⟨by omega, by omega, by omega⟩
    have ec' : View.create (dimN (A + 2 * (S - 1)) (B + 2 * (S - 1)) 1) ⟨((S - 1 : Nat) : Int), ((S - 1 : Nat) : Int), 0⟩
      (dimN A B 1) = .ok ⟨dimN (S - 1) (S - 1) 0, dimN A B 1⟩ := ec
    rw [ec', Res.bind_ok]
    exact e1
  · intro u hu v hv k hk
    obtain rfl : k = 0 := by omega
    unfold pad
    by_cases h : (S - 1 ≤ u ∧ u < S - 1 + A) ∧ (S - 1 ≤ v ∧ v < S - 1 + B)
    · rw [if_pos h, if_pos (by unfold inBox; omega)]
    · rw [if_neg h, if_neg (by unfold inBox; omega)]

/-- One term of the input gradient, in the order of the code. -/
def gradTerm (A B C S : Nat) (w g : Nat → Nat → Nat → α) (f i j c : Nat) : α :=
  sumTo2 S S (fun p q => pad A B S w (f * C + c) (i + p) (j + q) * g (S - 1 - p) (S - 1 - q) f)

theorem filterGradient_shows (hK : K.Is A B C F 1 w β) {M G : Matrix α} (hM : M.Shows X Y C x)
    {S : Nat} (hS : 0 < S) (hX : A + S = X + 1) (hY : B + S = Y + 1)
    {g : Nat → Nat → Nat → α} (hG : G.Shows S S F g) (hpad : (A + 2 * (S - 1)) * (B + 2 * (S - 1)) < 2147483648)
    {f : Nat} (hf : f < F) :
    ∃ D, K.filterGradient M G f = .ok D ∧ D.Shows X Y C (fun i j c => gradTerm A B C S w g f i j c) := by
  obtain ⟨hA0, hB0, hC0, hF0, hC, hF, hCF⟩ := sizes hK
  have gX := hM.good
  obtain ⟨D0, e0, s0⟩ := Matrix.ofDim_shows gX (0 : α)
  obtain ⟨eg, sg⟩ := slice_shows hG hf
  obtain ⟨R, eR, sR⟩ := (MExpr.rotate_shows sg).2.1
  have ez : K.dim.z = (C : Int) := by rw [hK.dim]
  obtain ⟨D, e1, s1⟩ := foldlM_range_inv (fun n (M' : Matrix α) => n ≤ C → M'.Shows X Y C
      (fun i j c => if c < n then gradTerm A B C S w g f i j c else 0)) C
    (fun (fg : Matrix α) (c : Nat) => do
      let fc ← View.subSlice K.weights.dim ⟨dimN 0 0 (f * C), dimN A B C⟩ c
      let rg ← MExpr.rotate 2 ((⟨dimN 0 0 f, dimN S S 1⟩ : View).expr G)
      let pf ← padInput fc K.weights (dimN S S 1)
      let t ← View.slice fg.dim c
      let E ← MExpr.convolve pf.expr rg ⟨1, 1⟩
      t.assign fg E.dim (Iter.fin E.dim) (fun _ => E.deref)) D0 (fun _ => s0.congr (by simp)) (by
      intro c hc M' hM'
      have hM' := hM' (by omega)
      obtain ⟨ec, _⟩ := channel_shows hK hf hc
      obtain ⟨P, eP, sP⟩ := padInput_shows hK hf hc hS hpad
      obtain ⟨et, _⟩ := slice_shows hM' hc
      obtain ⟨E, eE, sE⟩ := MExpr.convolve_shows sP.expr sR (by omega) (by omega)
      have dX : A + 2 * (S - 1) - S + 1 = X := by omega
      have dY : B + 2 * (S - 1) - S + 1 = Y := by omega
      rw [dX, dY] at sE
      obtain ⟨M2, e2, s2⟩ := View.assign_shows hM' (sx := 0) (sy := 0) (sz := c) (wx := X) (wy := Y)
        (wz := 1) ⟨by omega, by omega, by omega⟩ gX.x gX.y (Iter.fin (dimN X Y 1)) ⟨rfl, rfl⟩ (fun _ => E.deref) _
        (fun i hi j hj k hk M' _ => sE.deref i hi j hj k hk)
      refine ⟨M2, ?_, fun _ => s2.congr ?_⟩
      · rw [ec, Res.bind_ok, eR, Res.bind_ok, eP, Res.bind_ok, et, Res.bind_ok, eE, Res.bind_ok, sE.dim]; exact e2
      · intro i hi j hj k hk
        by_cases h : k = c
        · subst h
          rw [if_pos (by unfold inBox; omega), if_pos (by omega)]
          rfl
        · rw [if_neg (by unfold inBox; omega)]
          by_cases h' : k < c
          · rw [if_pos h', if_pos (by omega)]
          · rw [if_neg h', if_neg (by omega)])
  refine ⟨D, ?_, (s1 (le_refl _)).congr ?_⟩
  · unfold filterGradient
    have ef : View.slices K.weights.dim (f * K.dim.z) K.dim.z = .ok ⟨dimN 0 0 (f * C), dimN A B C⟩ := by
      have := filter_eq hK hf
      rw [ez] at this ⊢
      rw [← Nat.cast_mul]; exact this
    rw [ef, Res.bind_ok, eg, Res.bind_ok, hM.dim, e0, Res.bind_ok, ez, Int.toNat_natCast]
    exact e1
  · intro i _ j _ k hk
    rw [if_pos hk]

/-- The input gradient, in the order of the code, for a square output. -/
theorem getdLdX_shows (hK : K.Is A B C F 1 w β) {M G : Matrix α} (hM : M.Shows X Y C x)
    {S : Nat} (hS : 0 < S) (hX : A + S = X + 1) (hY : B + S = Y + 1)
    {g : Nat → Nat → Nat → α} (hG : G.Shows S S F g) (hpad : (A + 2 * (S - 1)) * (B + 2 * (S - 1)) < 2147483648) :
    ∃ D, K.getdLdX M G = .ok D ∧ D.Shows X Y C (fun i j c => sumTo F (fun f => gradTerm A B C S w g f i j c)) := by
  have gX := hM.good
  obtain ⟨D0, e0, s0⟩ := Matrix.ofDim_shows gX (0 : α)
  obtain ⟨D, e1, s1⟩ := foldlM_range_inv (fun n (M' : Matrix α) => n ≤ F → M'.Shows X Y C
      (fun i j c => sumTo n (fun f => gradTerm A B C S w g f i j c))) F
    (fun (dLdX : Matrix α) (f : Nat) => do
      let fg ← K.filterGradient M G f
      Matrix.checkSize dLdX.dim fg.dim
      dLdX.assignExpr dLdX.dim (fun M it => do
        let a ← M.read it.idx
        let b ← fg.read it.idx
        .ok (a + b))) D0 (fun _ => s0.congr (by simp [sumTo])) (by
      intro f hf M' hM'
      have hM' := hM' (by omega)
      obtain ⟨fg, ef, sf⟩ := filterGradient_shows hK hM hS hX hY hG hpad hf
      obtain ⟨M2, e2, s2⟩ := Matrix.assignExpr_shows' gX (h := fun i j c => sumTo (f + 1) (fun f => gradTerm A B C S w g f i j c))
        hM' (fun (M : Matrix α) it => do
          let a ← M.read it.idx
          let b ← fg.read it.idx
          .ok (a + b)) (by
          intro i hi j hj k hk M3 hM3
          have h1 := hM3.entry i hi j hj k hk
          have h2 := sf.entry i hi j hj k hk
          simp only [lt_irrefl, if_false] at h1
          simp only
          rw [h1, Res.bind_ok, h2, Res.bind_ok, sumTo_succ])
      refine ⟨M2, ?_, fun _ => s2⟩
      rw [ef, Res.bind_ok, hM'.dim, sf.dim]
      simp only [Matrix.checkSize, ne_eq, not_true, if_false, Res.bind_ok]
      exact e2)
  refine ⟨D, ?_, s1 (le_refl _)⟩
  unfold getdLdX
  rw [hM.dim, e0, Res.bind_ok, hK.num]
  exact e1

/-- A non-square output gradient makes `getdLdX` throw. -/
theorem getdLdX_nonsquare (hK : K.Is A B C F 1 w β) {M G : Matrix α} (hM : M.Shows X Y C x)
    {W H : Nat} {g : Nat → Nat → Nat → α} (hG : G.Shows W H F g) (hne : W ≠ H) :
    K.getdLdX M G = .throw .matrixTransform := by
  obtain ⟨hA0, hB0, hC0, hF0, hC, hF, hCF⟩ := sizes hK
  obtain ⟨D0, e0, s0⟩ := Matrix.ofDim_shows hM.good (0 : α)
  have ez : K.dim.z = (C : Int) := by rw [hK.dim]
  have hfg : K.filterGradient M G 0 = .throw .matrixTransform := by
    unfold filterGradient
    have ef : View.slices K.weights.dim ((0 : Nat) * K.dim.z) K.dim.z = .ok ⟨dimN 0 0 (0 * C), dimN A B C⟩ := by
      have := filter_eq hK hF0
      rw [ez] at this ⊢
      rw [← Nat.cast_mul]; exact this
    obtain ⟨eg, sg⟩ := slice_shows hG hF0
    obtain ⟨ec, _⟩ := channel_shows hK hF0 hC0
    rw [ef, Res.bind_ok, eg, Res.bind_ok, hM.dim, e0, Res.bind_ok, ez, Int.toNat_natCast]
    refine foldlM_range_fail (fun _ s => s = D0) C 0 hC0 _ D0 _ (fun f => rfl) rfl (by omega) ?_
    rintro s rfl
    rw [ec, Res.bind_ok, MExpr.rotate_nonsquare 2 (by rw [sg.dim]; simpa using hne)]
    rfl
  unfold getdLdX
  rw [hM.dim, e0, Res.bind_ok, hK.num]
  refine foldlM_range_fail (fun _ s => s = D0) F 0 hF0 _ D0 _ (fun f => rfl) rfl (by omega) ?_
  rintro s rfl
  rw [hfg]; rfl

end order

/-- The bias gradient. -/
theorem getdLdB_shows {α : Type} [AddCommMonoid α] {K : Kernel α} {w : Nat → Nat → Nat → α}
    {β : Nat → α} (hK : K.Is A B C F 1 w β) {W H : Nat} {G : Matrix α} {g : Nat → Nat → Nat → α} (hG : G.Shows W H F g) :
    ∃ D, K.getdLdB G = .ok D ∧ D.Shows F 1 1 (fun f _ _ => ∑ p ∈ Finset.range W, ∑ q ∈ Finset.range H, g p q f) := by
  obtain ⟨D0, e0, s0⟩ := Matrix.ofDim_shows hK.biases.good (0 : α)
  obtain ⟨D, e1, s1⟩ := foldlM_range_inv (fun n (M' : Matrix α) => n ≤ F → M'.Shows F 1 1
      (fun f _ _ => if f < n then ∑ p ∈ Finset.range W, ∑ q ∈ Finset.range H, g p q f else 0)) F
    (fun (dLdB : Matrix α) (f : Nat) => do
      let v ← View.slice G.dim f
      let s ← (v.expr G).sum
      dLdB.setFlat f s) D0 (fun _ => s0.congr (by simp)) (by
      intro f hf M' hM'
      have hM' := hM' (by omega)
      obtain ⟨eg, sg⟩ := slice_shows hG hf
      obtain ⟨M2, e2, s2⟩ := hM'.setFlat (n := f) (by omega) (total W H 1 (fun p q _ => g p q f))
      refine ⟨M2, ?_, fun _ => s2.congr ?_⟩
      · rw [eg, Res.bind_ok, MExpr.sum_eq_total sg, Res.bind_ok]; exact e2
      · intro i hi j hj k hk
        obtain rfl : j = 0 := by omega
        obtain rfl : k = 0 := by omega
        have : fl F 1 i 0 0 = i := by unfold fl; omega
        rw [this]
        by_cases h : i = f
        · subst h
          rw [if_pos (by omega), if_pos (by omega)]
          simp only [total, Finset.sum_range_one]
        · rw [if_neg h]
          by_cases h' : i < f
          · rw [if_pos h', if_pos (by omega)]
          · rw [if_neg h', if_neg (by omega)])
  refine ⟨D, ?_, (s1 (le_refl _)).congr ?_⟩
  · unfold getdLdB
    rw [hK.biases.dim, e0, Res.bind_ok, hK.num]
    exact e1
  · intro f hf _ _ _ _
    rw [if_pos hf]

/-- In exact arithmetic the padded, rotated convolution is the sum over the windows containing the entry. -/
theorem gradTerm_eq {α : Type} [CommSemiring α] {A B C S : Nat} (w g : Nat → Nat → Nat → α) (f i j c : Nat) :
    gradTerm A B C S w g f i j c = ∑ p ∈ Finset.range S, ∑ q ∈ Finset.range S,
      if (p ≤ i ∧ i < p + A) ∧ (q ≤ j ∧ j < q + B) then w (i - p) (j - q) (f * C + c) * g p q f else 0 := by
  unfold gradTerm
  rw [sumTo2_eq, ← Finset.sum_range_reflect]
  refine Finset.sum_congr rfl fun p hp => ?_
  have hp := Finset.mem_range.1 hp
  rw [← Finset.sum_range_reflect]
  refine Finset.sum_congr rfl fun q hq => ?_
  have hq := Finset.mem_range.1 hq
  unfold pad
  have e1 : S - 1 - (S - 1 - p) = p := by omega
  have e2 : S - 1 - (S - 1 - q) = q := by omega
  rw [e1, e2]
  by_cases h : (p ≤ i ∧ i < p + A) ∧ (q ≤ j ∧ j < q + B)
  · rw [if_pos h, if_pos (by omega)]
    congr 2 <;> omega
  · rw [if_neg h, if_neg (by omega), zero_mul]

section adjoint
variable {α : Type} [CommRing α]

/-- The weight gradient is the adjoint of the layer as a function of its weights. -/
theorem adjoint_weights (W H A B C F : Nat) (hC : 0 < C) (x D g : Nat → Nat → Nat → α) :
    total W H F (fun i j f => g i j f * ∑ c ∈ Finset.range C, ∑ a ∈ Finset.range A, ∑ b ∈ Finset.range B,
      x (i + a) (j + b) c * D a b (f * C + c)) =
    total A B (C * F) (fun a b m => (∑ p ∈ Finset.range W, ∑ q ∈ Finset.range H,
      x (a + p) (b + q) (m % C) * g p q (m / C)) * D a b m) := by
  have h1 : ∀ i j f, g i j f * ∑ c ∈ Finset.range C, ∑ a ∈ Finset.range A, ∑ b ∈ Finset.range B,
      x (i + a) (j + b) c * D a b (f * C + c) =
      total A B C (fun a b c => x (a + i) (b + j) c * g i j f * D a b (c + f * C)) := by
    intro i j f
    rw [sum_rot, Finset.mul_sum]
    refine Finset.sum_congr rfl fun a _ => ?_
    rw [Finset.mul_sum]
    refine Finset.sum_congr rfl fun b _ => ?_
    rw [Finset.mul_sum]
    refine Finset.sum_congr rfl fun c _ => ?_
    rw [Nat.add_comm i a, Nat.add_comm j b, Nat.add_comm (f * C) c]
    ring
  simp only [h1]
  rw [total_exchange]
  refine Finset.sum_congr rfl fun a _ => Finset.sum_congr rfl fun b _ => ?_
  rw [sum_range_mul, Finset.sum_comm]
  refine Finset.sum_congr rfl fun c hc => ?_
  have hc := Finset.mem_range.1 hc
  simp only [total]
  rw [← sum_rot]
  refine Finset.sum_congr rfl fun f _ => ?_
  have e1 : (c + f * C) % C = c := by rw [Nat.add_mul_mod_self_right, Nat.mod_eq_of_lt hc]
  have e2 : (c + f * C) / C = f := by rw [Nat.add_mul_div_right _ _ hC, Nat.div_eq_of_lt hc, Nat.zero_add]
  rw [e1, e2, Finset.sum_mul]
  refine Finset.sum_congr rfl fun p _ => ?_
  rw [Finset.sum_mul]

/-- The input gradient is the adjoint of the layer as a function of its input. -/
theorem adjoint_input {X Y S A B C F : Nat} (hX : A + S = X + 1) (hY : B + S = Y + 1)
    (w D g : Nat → Nat → Nat → α) :
    total S S F (fun i j f => g i j f * ∑ c ∈ Finset.range C, ∑ a ∈ Finset.range A, ∑ b ∈ Finset.range B,
      D (i + a) (j + b) c * w a b (f * C + c)) =
    total X Y C (fun i j c => (∑ f ∈ Finset.range F, ∑ p ∈ Finset.range S, ∑ q ∈ Finset.range S,
      if (p ≤ i ∧ i < p + A) ∧ (q ≤ j ∧ j < q + B) then w (i - p) (j - q) (f * C + c) * g p q f else 0) * D i j c) := by
  have h1 : ∀ i j c, (∑ f ∈ Finset.range F, ∑ p ∈ Finset.range S, ∑ q ∈ Finset.range S,
      if (p ≤ i ∧ i < p + A) ∧ (q ≤ j ∧ j < q + B) then w (i - p) (j - q) (f * C + c) * g p q f else 0) * D i j c =
      total S S F (fun p q f => if (p ≤ i ∧ i < p + A) ∧ (q ≤ j ∧ j < q + B) then
        w (i - p) (j - q) (f * C + c) * g p q f * D i j c else 0) := by
    intro i j c
    rw [sum_rot]
    unfold total
    simp only [Finset.sum_mul, ite_mul, zero_mul]
  simp only [h1]
  rw [total_exchange]
  refine total_congr fun p hp q hq f _ => ?_
  rw [total_window p q (by omega) (by omega)
    (fun i j c => w (i - p) (j - q) (f * C + c) * g p q f * D i j c)]
  rw [sum_rot, Finset.mul_sum]
  refine Finset.sum_congr rfl fun a _ => ?_
  rw [Finset.mul_sum]
  refine Finset.sum_congr rfl fun b _ => ?_
  rw [Finset.mul_sum]
  refine Finset.sum_congr rfl fun c _ => ?_
  simp only [Nat.add_sub_cancel_left]
  ring

end adjoint

end Kernel
end Cnn
