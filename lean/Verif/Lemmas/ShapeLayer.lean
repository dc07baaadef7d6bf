import Verif.Spec.Safe
import Verif.Lemmas.Softmax
import Verif.Lemmas.Connected
import Verif.Lemmas.Pooling
import Verif.Lemmas.Network
/-! Helper lemmas: sizes through the layers, in any arithmetic (C70). -/
set_option linter.unusedSectionVars false
namespace Cnn
variable {α : Type}

theorem Matrix.Shows.has {M : Matrix α} {X Y Z : Nat} {f : Nat → Nat → Nat → α} (h : M.Shows X Y Z f) : M.Has ⟨X, Y, Z⟩ := ⟨f, h⟩

theorem Matrix.Has.good {M : Matrix α} {s : Shape} (h : M.Has s) : Good s.X s.Y s.Z := h.elim fun _ h => h.good

theorem Matrix.Has.col {M : Matrix α} {n : Nat} (h : M.Has ⟨n, 1, 1⟩) : ∃ g : Nat → α, M.Shows n 1 1 (fun i _ _ => g i) := by
  obtain ⟨f, h⟩ := h
  refine ⟨fun i => f i 0 0, h.congr ?_⟩
  intro i _ j hj k hk
  obtain rfl : j = 0 := by have : j < 1 := hj; omega
  obtain rfl : k = 0 := by have : k < 1 := hk; omega
  rfl

theorem Matrix.Has.row {M : Matrix α} {n : Nat} (h : M.Has ⟨1, n, 1⟩) : ∃ g : Nat → α, M.Shows 1 n 1 (fun _ j _ => g j) := by
  obtain ⟨f, h⟩ := h
  refine ⟨fun i => f 0 i 0, h.congr ?_⟩
  intro i hi j _ k hk
  obtain rfl : i = 0 := by have : i < 1 := hi; omega
  obtain rfl : k = 0 := by have : k < 1 := hk; omega
  rfl

theorem Matrix.Has.vec {M : Matrix α} {s : Shape} {n : Nat} (h : M.Has s) (hs : s = ⟨n, 1, 1⟩ ∨ s = ⟨1, n, 1⟩) : ∃ v, M.IsVec n v := by
  rcases hs with rfl | rfl
  · obtain ⟨g, h⟩ := h.col; exact ⟨g, Or.inr h⟩
  · obtain ⟨g, h⟩ := h.row; exact ⟨g, Or.inl h⟩

theorem Matrix.ofExpr_has {β : Type} [Zero β] {A : Matrix α} {s : Shape} (h : A.Has s) (c : α → β) : ∃ R, Matrix.ofExpr c A.expr = .ok R ∧ R.Has s := by
  obtain ⟨f, h⟩ := h
  obtain ⟨R, e, hR⟩ := Matrix.ofExpr_shows h.expr c
  exact ⟨R, e, _, hR⟩

/-- The bias gradient of a convolution layer. -/
theorem Kernel.getdLdB_has [Zero α] [Add α] {K : Kernel α} {A B C F : Nat} {w : Nat → Nat → Nat → α} {β : Nat → α}
    (hK : K.Is A B C F 1 w β) {W H : Nat} {G : Matrix α} {g : Nat → Nat → Nat → α} (hG : G.Shows W H F g) :
    ∃ D, K.getdLdB G = .ok D ∧ D.Has ⟨F, 1, 1⟩ := by
  obtain ⟨D0, e0, s0⟩ := Matrix.ofDim_shows hK.biases.good (0 : α)
  obtain ⟨D, e1, s1⟩ := foldlM_range_inv (fun n (M' : Matrix α) => M'.Has ⟨F, 1, 1⟩) F
    (fun (dLdB : Matrix α) (f : Nat) => do
      let v ← View.slice G.dim f
      let s ← (v.expr G).sum
      dLdB.setFlat f s) D0 s0.has (by
      rintro f hf M' ⟨m, hM'⟩
      obtain ⟨eg, sg⟩ := Kernel.slice_shows hG hf
      obtain ⟨M2, e2, s2⟩ := hM'.setFlat (n := f) (by show f < F * 1 * 1; omega) (sumTo (W * H * 1) (fun n => g (n % W) (n / W % H) f))
      refine ⟨M2, ?_, s2.has⟩
      rw [eg, Res.bind_ok, MExpr.sum_eq_sumTo sg, Res.bind_ok]; exact e2)
  refine ⟨D, ?_, s1⟩
  unfold getdLdB
  rw [hK.biases.dim, e0, Res.bind_ok, hK.num]
  exact e1

/-- The recorded indices of a slot: one for each output, pointing into the same channel of the input. -/
def GoodIndices (s o : Shape) (ind : Matrix Dim3) : Prop :=
  ∃ u v : Nat → Nat → Nat → Nat, ind.Shows o.X o.Y o.Z (fun i j k => dimN (u i j k) (v i j k) k) ∧
    ∀ i < o.X, ∀ j < o.Y, ∀ k < o.Z, u i j k < s.X ∧ v i j k < s.Y ∧ k < s.Z

namespace Pooling
variable [Zero α] [Add α] [Div α] {X Y Z px py sx sy : Nat}

theorem forward_has (N : Num α) (P : Pooling) {M : Matrix α} {s : Shape} (b : Nat) (hM : M.Has s) (hd : P.dim = ⟨px, py⟩)
    (hs : P.stride = ⟨sx, sy⟩) (hf : PoolFits s.X s.Y px py sx sy) (hb : b < P.indices.length) :
    ∃ out ind, P.forward N M b = .ok (out, { P with indices := P.indices.set b ind }) ∧
      out.Has ⟨windows s.X px sx, windows s.Y py sy, s.Z⟩ ∧
      (P.type ≠ .avg → GoodIndices s ⟨windows s.X px sx, windows s.Y py sy, s.Z⟩ ind) := by
  obtain ⟨x, hM⟩ := hM
  by_cases ht : P.type = .avg
  · have g := hM.good
    have go := good_out g hf
    obtain ⟨out0, eo, so⟩ := Matrix.ofDim_shows go (0 : α)
    obtain ⟨old, hold⟩ : ∃ old, P.indices[b]? = some old := ⟨_, List.getElem?_eq_getElem hb⟩
    have : Inhabited Dim3 := ⟨0⟩
    obtain ⟨ind0, f0, ei, si⟩ := Matrix.resize_shows old go (0 : Dim3)
    obtain ⟨⟨out, ind⟩, el, s1⟩ := forRange_inv (σ := Matrix α × Matrix Dim3) go.x go.y (Z := s.Z)
      (fun n st => st.1.Has ⟨windows s.X px sx, windows s.Y py sy, s.Z⟩)
      (P.forwardStep N M) (out0, ind0) so.has (by
        rintro i hi j hj k hk ⟨o, d⟩ ⟨f, ho⟩
        have hb := box (Z := s.Z) hf hi hj hk
        have hv := View.expr_shows hM hb hf.px0 hf.py0 (by omega)
        obtain ⟨a, hmean⟩ : ∃ a, MExpr.mean N.ofNat ((⟨dimN (i * sx) (j * sy) k, dimN px py 1⟩ : View).expr M) = .ok a := by
          unfold MExpr.mean
          rw [MExpr.sum_eq_sumTo hv, Res.bind_ok, hv.dim, MExpr.sizeD_dimN hv.good, Res.bind_ok]
          exact ⟨_, rfl⟩
        obtain ⟨o', e1, s1⟩ := ho.write (i := i) (j := j) (k := k) hi hj hk a
        refine ⟨(o', d), ?_, s1.has⟩
        unfold forwardStep
        simp only [corner_eq g hf hs hi hj, Res.bind_ok]
        rw [show P.window = dimN px py 1 by simp [window, hd], hM.dim, View.create_ok g hb, Res.bind_ok]
        simp only [ht, hmean, Res.bind_ok, e1])
    refine ⟨out, ind, ?_, s1, fun h => absurd ht h⟩
    unfold forward
    rw [hM.dim, outputSize_eq g hf hd hs, Res.bind_ok, eo, Res.bind_ok, hold, Res.ofOption_some, Res.bind_ok, ei,
      Res.bind_ok, el]
    rfl
  · obtain ⟨out, ind, u, v, e, h1, h2, h3⟩ := forward_select N P M x b hM hd hs hf hb ht
    refine ⟨out, ind, e, h1.has, fun _ => ⟨u, v, h2, ?_⟩⟩
    intro i hi j hj k hk
    obtain ⟨⟨_, a1⟩, ⟨_, a2⟩, _⟩ := h3 i hi j hj k hk
    have b1 := windows_inside hf.x hi
    have b2 := windows_inside hf.y hj
    exact ⟨by omega, by omega, hk⟩

theorem backward_has (N : Num α) (P : Pooling) {M Q G : Matrix α} {s : Shape} (b : Nat) (hM : M.Has s) (hd : P.dim = ⟨px, py⟩)
    (hs : P.stride = ⟨sx, sy⟩) (hf : PoolFits s.X s.Y px py sx sy) {ind : Matrix Dim3} (hi : P.indices[b]? = some ind)
    (hind : P.type ≠ .avg → GoodIndices s ⟨windows s.X px sx, windows s.Y py sy, s.Z⟩ ind)
    (hG : G.Has ⟨windows s.X px sx, windows s.Y py sy, s.Z⟩) : ∃ D, P.backward N M Q G b = .ok D ∧ D.Has s := by
  obtain ⟨x, hM⟩ := hM
  obtain ⟨d, hG⟩ := hG
  have g := hM.good
  have go := good_out g hf
  obtain ⟨D0, e0, s0⟩ := Matrix.ofDim_shows g (0 : α)
  by_cases ht : P.type = .avg
  · obtain ⟨D, el, sD⟩ := forRange_inv (σ := Matrix α) go.x go.y (Z := s.Z) (fun n D => D.Has s)
      (fun (D : Matrix α) it => do
        let inIdx ← P.corner it.idx
        let v ← View.create D.dim inIdx P.window
        let g ← G.flat it.scalar
        v.opScalar (· + ·) D (fun _ => .ok (g / N.ofNat (u64 (P.dim.x * P.dim.y))))) D0 s0.has (by
        rintro p hp q hq l hl D ⟨f, hD⟩
        have hb := box (Z := s.Z) hf hp hq hl
        obtain ⟨D', e', s'⟩ := View.opScalar_shows (· + ·) hD hb hf.px0 hf.py0 (d p q l / N.ofNat (u64 (P.dim.x * P.dim.y)))
        refine ⟨D', ?_, s'.has⟩
        rw [hD.dim]
        simp only [corner_eq g hf hs hp hq, Res.bind_ok]
        rw [show P.window = dimN px py 1 by simp [window, hd], View.create_ok g hb, Res.bind_ok]
        simp only [hG.flat_fl hp hq hl, Res.bind_ok]
        exact e')
    refine ⟨D, ?_, sD⟩
    unfold backward getdLdX
    rw [hM.dim, e0, Res.bind_ok, hi, Res.ofOption_some, Res.bind_ok]
    simp only [ht, hG.dim]
    exact el
  · obtain ⟨u, v, hshow, hin⟩ := hind ht
    obtain ⟨D, el, sD⟩ := forRange_inv (σ := Matrix α) go.x go.y (Z := s.Z) (fun n D => D.Has s)
      (fun (D : Matrix α) it => do
        let p ← ind.flat it.scalar
        let g ← G.read it.idx
        let a ← D.read p
        D.write p (a + g)) D0 s0.has (by
        rintro p hp q hq l hl D ⟨f, hD⟩
        obtain ⟨h1, h2, h3⟩ := hin p hp q hq l hl
        have hfl : ind.flat (fl (windows s.X px sx) (windows s.Y py sy) p q l) = _ := hshow.flat_fl hp hq hl
        obtain ⟨D', e', s'⟩ := hD.write h1 h2 h3 (f (u p q l) (v p q l) l + d p q l)
        refine ⟨D', ?_, s'.has⟩
        simp only [hfl, Res.bind_ok, hG.entry p hp q hq l hl, hD.entry _ h1 _ h2 _ h3]
        exact e')
    refine ⟨D, ?_, sD⟩
    have hdim : ind.dim = dimN (windows s.X px sx) (windows s.Y py sy) s.Z := hshow.dim
    unfold backward getdLdX
    rw [hM.dim, e0, Res.bind_ok, hi, Res.ofOption_some, Res.bind_ok]
    cases htt : P.type with
    | avg => exact absurd htt ht
    | min => simp only [hdim]; exact el
    | max => simp only [hdim]; exact el

end Pooling

section
variable [Zero α] [One α] [Add α] [Sub α] [Mul α] [Div α] [Neg α]

theorem Softmax.softMax_has (N : Num α) {M : Matrix α} {s : Shape} (hM : M.Has s) : ∃ P, Softmax.softMax N M = .ok P ∧ P.Has s := by
  obtain ⟨x, hM⟩ := hM
  obtain ⟨n, hn, eb⟩ := MExpr.bestElem_inside (fun a b => N.lt a b) hM.expr
  have ed := hM.expr.deref_flat hn
  generalize hm : x (n % s.X) (n / s.X % s.Y) (n / s.X / s.Y) = m at ed
  have emax : MExpr.max N.lt M.expr = .ok m := by
    simp only [MExpr.max, eb, Res.bind_ok, ed]
  obtain ⟨E, e2, s2⟩ := Matrix.ofExpr_shows (MExpr.un_shows N.exp (MExpr.scal_shows (· - m) hM.expr)) (id : α → α)
  have e3 := MExpr.sum_eq_sumTo s2.expr
  obtain ⟨P, e4, s4⟩ := Matrix.ofExpr_shows (MExpr.scal_shows (· / sumTo (s.X * s.Y * s.Z) (fun n =>
    id (N.exp (x (n % s.X) (n / s.X % s.Y) (n / s.X / s.Y) - m)))) s2.expr) (id : α → α)
  refine ⟨P, ?_, s4.has⟩
  simp only [Softmax.softMax, emax, Res.bind_ok, e2, e3]
  exact e4

theorem Softmax.forward_has (N : Num α) {S : Softmax} {M : Matrix α} {s : Shape} (hM : M.Has s) (hs : s = ⟨S.count, 1, 1⟩ ∨ s = ⟨1, S.count, 1⟩) :
    ∃ P, S.forward N M = .ok P ∧ P.Has s := by
  obtain ⟨P, e, h⟩ := Softmax.softMax_has N hM
  obtain ⟨v, hv⟩ := hM.vec hs
  obtain ⟨_, _, h1, hr, _⟩ := hv.facts
  refine ⟨P, ?_, h⟩
  unfold Softmax.forward Softmax.checkSize
  rw [if_pos hr, h1]
  simp [e]

theorem Softmax.backward_has {S : Softmax} {X Z D : Matrix α} {s : Shape} (hZ : Z.Has s) (hs : s = ⟨S.count, 1, 1⟩ ∨ s = ⟨1, S.count, 1⟩)
    (hk : S.knows = true) (ht : S.trueLabel < S.count) : ∃ R, S.backward X Z D = .ok R ∧ R.Has s := by
  obtain ⟨v, hv⟩ := hZ.vec hs
  obtain ⟨f, hZ⟩ := hZ
  have hlt : S.trueLabel < s.X * s.Y * s.Z := by
    rcases hs with rfl | rfl
    · show S.trueLabel < S.count * 1 * 1; omega
    · show S.trueLabel < 1 * S.count * 1; omega
  obtain ⟨R, e, h⟩ := hZ.setFlat hlt (v S.trueLabel - 1)
  refine ⟨R, ?_, h.has⟩
  unfold Softmax.backward Softmax.getdLdX
  rw [hk, hv.flat ht]
  exact e

theorem Activation.forward_has (N : Num α) (A : Activation) {M : Matrix α} {s : Shape} (hM : M.Has s) : ∃ P, A.forward N M = .ok P ∧ P.Has s := by
  obtain ⟨x, hM⟩ := hM
  obtain ⟨P, e, h⟩ := Matrix.ofExpr_shows (MExpr.un_shows (A.fn.eval N) hM.expr) (id : α → α)
  exact ⟨P, e, h.has⟩

theorem Activation.backward_has (N : Num α) (A : Activation) {X Z D : Matrix α} {s : Shape} (hZ : Z.Has s) (hD : D.Has s) :
    ∃ P, A.backward N X Z D = .ok P ∧ P.Has s := by
  obtain ⟨z, hZ⟩ := hZ
  obtain ⟨d, hD⟩ := hD
  obtain ⟨G, e1, h1⟩ := Matrix.ofExpr_shows (MExpr.un_shows (A.gradFn.grad N) hZ.expr) (id : α → α)
  obtain ⟨E, e2, h2⟩ := MExpr.bin_shows (· * ·) hD.expr h1.expr
  obtain ⟨P, e, h⟩ := Matrix.ofExpr_shows h2 (id : α → α)
  refine ⟨P, ?_, h.has⟩
  unfold Activation.backward Activation.gradient
  rw [e1, Res.bind_ok, e2, Res.bind_ok, e]

/-- The choice of the label. -/
theorem Model.forwardEnd_has (E : Env α) (M : Model α) {A : Matrix α} {s : Shape} (hA : A.Has s) (hs : s = ⟨M.labels.length, 1, 1⟩ ∨ s = ⟨1, M.labels.length, 1⟩)
    (rec : List (Matrix α)) : ∃ r, Model.forwardEnd E M A rec = .ok r ∧ r.inputs = rec ∧ r.labelIdx < M.labels.length := by
  obtain ⟨v, hv⟩ := hA.vec hs
  obtain ⟨_, _, h1, _, _⟩ := hv.facts
  obtain ⟨x, hA⟩ := hA
  obtain ⟨n, hn, eb⟩ := MExpr.bestElem_inside (fun a b => E.num.lt a b) hA.expr
  have g := hA.good
  have hmax : MExpr.maxIndexFlat E.num.lt A.expr = .ok n := by
    rw [MExpr.maxIndexFlat, eb, Res.bind_ok, show A.expr.dim = dimN s.X s.Y s.Z from hA.dim, MExpr.iterAt_diff g.x g.y,
      u64_nat (by have := g.small; omega)]
  obtain ⟨c, hc⟩ : ∃ c, A.flat n = .ok c := ⟨_, hA.flat_lt hn⟩
  refine ⟨⟨none, n, none, -1, E.toFloat c, rec⟩, ?_, rfl, ?_⟩
  rotate_left 1
  · show n < M.labels.length
    rcases hs with rfl | rfl <;> simpa using hn
  unfold Model.forwardEnd
  rw [h1, Res.bind_ok, if_neg (by simp), hmax, Res.bind_ok, hc]; rfl

end
end Cnn
