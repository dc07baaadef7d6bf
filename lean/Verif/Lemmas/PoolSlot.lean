import Verif.Lemmas.Pooling
/-! Helper lemmas: what a MIN or MAX pooling layer records for a sample does not depend on the batch slot (C53). -/
namespace Cnn

namespace F32

/-- A fraction greater than 0. -/
def Pos (a : F32) : Prop := 0 < a.num ∧ 0 < a.den

theorem rnd_pos {p : Int} {d : Nat} (hp : 0 < p) (hd : 0 < d) : (rnd p d).Pos := by
  unfold rnd
  rw [if_neg (by omega), if_pos hp]
  obtain ⟨N, D, e, h0, h1, _⟩ := rndPos_near p.natAbs d (by omega) hd
  rw [e]
  refine ⟨?_, h0⟩
  rcases Nat.eq_zero_or_pos N with h3 | h3
  · subst h3
    have : 0 < p.natAbs * D := Nat.mul_pos (by omega) h0
    simp only [zero_mul, mul_zero, zero_add] at h1
    omega
  · show (0 : Int) < N
    omega

theorem ofInt_pos {n : Int} (h : 0 < n) : (ofInt n).Pos := rnd_pos h (by decide)

theorem div_pos {a b q : F32} (ha : a.Pos) (hb : b.Pos) (h : div a b = some q) : q.Pos := by
  unfold div at h
  rw [if_neg (by have := hb.1; omega)] at h
  obtain rfl := Option.some.inj h
  rw [Int.sign_eq_one_of_pos hb.1, mul_one]
  refine rnd_pos (Int.mul_pos ha.1 ?_) (Nat.mul_pos ha.2 ?_)
  · have := hb.2; omega
  · have := hb.1; omega

theorem ceil_pos {a : F32} (h : a.Pos) : 0 < a.ceil := by
  obtain ⟨h1, h2⟩ := h
  unfold ceil
  have h3 : (0 : Int) < a.den := by omega
  have : -a.num / (a.den : Int) < 0 := Int.ediv_neg_of_neg_of_pos (by omega) h3
  omega

end F32

/-- A window that fits gives a positive number of windows. -/
theorem outLen_pos {n d s r : Int} (h : Pooling.outLen n d s = .ok r) (hd : d ≤ n) (hs : 0 < s) : 0 < r := by
  unfold Pooling.outLen at h
  obtain ⟨m, e, h⟩ := Res.bind_eq_ok h
  have hm : m = n - d := by
    unfold chk at e
    split at e
    · exact (Res.ok.inj e).symm
    · exact absurd e (by simp)
  have hnum : (F32.add (F32.ofInt m) ⟨1, 1⟩).Pos := by
    rcases lt_or_ge 0 m with h0 | h0
    · have hp := F32.ofInt_pos h0
      unfold F32.add
      refine F32.rnd_pos ?_ (Nat.mul_pos hp.2 (by decide))
      have := hp.1
      simp only [Nat.cast_one, mul_one, one_mul]
      omega
    · obtain rfl : m = 0 := by omega
      exact ⟨by decide, by decide⟩
  cases hq : F32.div (F32.add (F32.ofInt m) ⟨1, 1⟩) (F32.ofInt s) with
  | none => rw [hq] at h; exact absurd h (by simp)
  | some q =>
    rw [hq] at h
    have hr : q.ceil = r := by
      unfold chk at h
      simp only at h
      split at h
      · exact Res.ok.inj h
      · exact absurd h (by simp)
    rw [← hr]
    exact F32.ceil_pos (F32.div_pos hnum (F32.ofInt_pos hs) hq)

/-- Two folds whose steps keep a relation, the first of which succeeds. -/
theorem foldlM_range_rel {σ τ : Type} (R : Nat → σ → τ → Prop) (N : Nat) (b₁ : σ → Nat → Res σ) (b₂ : τ → Nat → Res τ) {s : σ}
    {t : τ} (h0 : R 0 s t)
    (hs : ∀ n < N, ∀ s t s', R n s t → b₁ s n = .ok s' → ∃ t', b₂ t n = .ok t' ∧ R (n + 1) s' t') {s' : σ}
    (h : (List.range N).foldlM b₁ s = .ok s') : ∃ t', (List.range N).foldlM b₂ t = .ok t' ∧ R N s' t' := by
  induction N generalizing s' with
  | zero =>
    obtain rfl := Res.ok.inj h
    exact ⟨t, rfl, h0⟩
  | succ N ih =>
    rw [List.range_succ, List.foldlM_append] at h
    obtain ⟨s1, e1, h⟩ := Res.bind_eq_ok h
    obtain ⟨t1, e2, r1⟩ := ih (fun n hn => hs n (by omega)) e1
    have h' : b₁ s1 N = .ok s' := by
      obtain ⟨w, e, h⟩ := Res.bind_eq_ok h
      rw [e]; exact h
    obtain ⟨t2, e3, r2⟩ := hs N (by omega) s1 t1 s' r1 h'
    refine ⟨t2, ?_, r2⟩
    rw [List.range_succ, List.foldlM_append, e2]
    simp [e3]

/-- A fold that succeeds performs every step successfully. -/
theorem foldlM_range_steps {σ : Type} (N : Nat) (b : σ → Nat → Res σ) {s s' : σ}
    (h : (List.range N).foldlM b s = .ok s') : ∀ n < N, ∃ u u', b u n = .ok u' := by
  induction N generalizing s' with
  | zero => intro n hn; omega
  | succ N ih =>
    rw [List.range_succ, List.foldlM_append] at h
    obtain ⟨s1, e1, h⟩ := Res.bind_eq_ok h
    have h' : b s1 N = .ok s' := by
      obtain ⟨w, e, h⟩ := Res.bind_eq_ok h
      rw [e]; exact h
    intro n hn
    rcases Nat.lt_or_ge n N with hlt | hge
    · exact ih e1 n hlt
    · obtain rfl : n = N := by omega
      exact ⟨s1, s', h'⟩

theorem chk_eq {a r : Int} (h : chk a = .ok r) : r = a := by
  unfold chk at h
  split at h
  · exact (Res.ok.inj h).symm
  · exact absurd h (by simp)

theorem vecSize_inv {d : Dim3} {n : Nat} (h : vecSize d = .ok n) : (n : Int) = d.x * d.y * d.z ∧ I32 (d.x * d.y * d.z) := by
  unfold vecSize Dim3.volume at h
  obtain ⟨v, hv, h⟩ := Res.bind_eq_ok h
  obtain ⟨xy, e1, hv⟩ := Res.bind_eq_ok hv
  obtain rfl := chk_eq e1
  have e2 := chk_eq hv
  subst e2
  have hI : I32 (d.x * d.y * d.z) := by
    by_contra hc
    rw [chk_ub hc] at hv
    exact absurd hv (by simp)
  split at h
  · exact absurd h (by simp)
  · have := Res.ok.inj h
    exact ⟨by omega, hI⟩

namespace Pooling
variable {α : Type} [Zero α] [Add α] [Div α]

/-- One step of the loop on two states that differ in the recorded indices only. -/
theorem forwardStep_rel {N : Num α} {P : Pooling} (ht : P.type ≠ .avg) {X : Matrix α} {o o' : Matrix α} {od : Dim3}
    {a a' b : List Dim3} {d' : Dim3} {it : Iter} (hb : b.length = a.length)
    (h : P.forwardStep N X (o, ⟨od, a⟩) it = .ok (o', ⟨d', a'⟩)) :
    ∃ v, d' = od ∧ getIndex od it.idx < a.length ∧ a' = a.set (getIndex od it.idx) v ∧
      P.forwardStep N X (o, ⟨od, b⟩) it = .ok (o', ⟨od, b.set (getIndex od it.idx) v⟩) := by
  unfold forwardStep at h ⊢
  obtain ⟨c, e1, h⟩ := Res.bind_eq_ok h
  obtain ⟨v, e2, h⟩ := Res.bind_eq_ok h
  simp only [e1, e2, Res.bind_ok]
  have hw : ∀ (x : Dim3) (r : Matrix Dim3), (⟨od, a⟩ : Matrix Dim3).write it.idx x = .ok r →
      getIndex od it.idx < a.length ∧ r = ⟨od, a.set (getIndex od it.idx) x⟩ ∧
      (⟨od, b⟩ : Matrix Dim3).write it.idx x = .ok ⟨od, b.set (getIndex od it.idx) x⟩ := by
    intro x r hr
    unfold Matrix.write Matrix.setFlat at hr
    simp only at hr
    split at hr
    · rename_i hlt
      refine ⟨hlt, (Res.ok.inj hr).symm, ?_⟩
      unfold Matrix.write Matrix.setFlat
      simp only
      rw [if_pos (by rw [hb]; exact hlt)]
    · exact absurd hr (by simp)
  cases htt : P.type with
  | avg => exact absurd htt ht
  | min =>
    simp only [htt] at h ⊢
    obtain ⟨m, e3, h⟩ := Res.bind_eq_ok h
    obtain ⟨i, e4, h⟩ := Res.bind_eq_ok h
    obtain ⟨q, e5, h⟩ := Res.bind_eq_ok h
    obtain ⟨o2, e6, h⟩ := Res.bind_eq_ok h
    obtain ⟨h1, h2, h3⟩ := hw _ _ e4
    have h := Res.ok.inj h
    simp only [Prod.mk.injEq] at h
    obtain ⟨rfl, rfl⟩ := h
    injection h2 with h4 h5
    exact ⟨_, h4, h1, h5, by simp only [e3, Res.bind_ok, h3, e5, e6]⟩
  | max =>
    simp only [htt] at h ⊢
    obtain ⟨m, e3, h⟩ := Res.bind_eq_ok h
    obtain ⟨i, e4, h⟩ := Res.bind_eq_ok h
    obtain ⟨q, e5, h⟩ := Res.bind_eq_ok h
    obtain ⟨o2, e6, h⟩ := Res.bind_eq_ok h
    obtain ⟨h1, h2, h3⟩ := hw _ _ e4
    have h := Res.ok.inj h
    simp only [Prod.mk.injEq] at h
    obtain ⟨rfl, rfl⟩ := h
    injection h2 with h4 h5
    exact ⟨_, h4, h1, h5, by simp only [e3, Res.bind_ok, h3, e5, e6]⟩

/-- The recorded indices of a MIN or MAX layer are those of the sample, whatever the slot contained before. -/
theorem loop_same {N : Num α} {P : Pooling} (ht : P.type ≠ .avg) (hsx : 0 < P.stride.x) (hsy : 0 < P.stride.y) {X o o' : Matrix α}
    {od : Dim3} {n : Nat} {a b : List Dim3} {ind : Matrix Dim3} (hod : P.outputSize X.dim = .ok od) (hn : vecSize od = .ok n)
    (ha : a.length = n) (hb : b.length = n)
    (h : forRange od (P.forwardStep N X) (o, ⟨od, a⟩) = .ok (o', ind)) :
    forRange od (P.forwardStep N X) (o, ⟨od, b⟩) = .ok (o', ind) := by
  obtain ⟨hv, hI⟩ := vecSize_inv hn
  have hz : 0 ≤ od.z := by
    by_contra hc
    have hf : Iter.fuel od = 0 := by
      unfold Iter.fuel
      rw [show od.z.toNat = 0 by omega, Nat.mul_zero]
    unfold forRange at h
    rw [hf] at h
    unfold Iter.loop at h
    have : (Iter.beg od).same (Iter.fin od) = false := by
      simp [Iter.same, Iter.beg, Iter.fin, Iter.mk']
      omega
    rw [this] at h
    exact absurd h (by simp)
  rcases lt_or_ge 0 od.z with hpos | hzero
  · -- the first window fits, so the output is not empty
    have hfuel : 0 < Iter.fuel od := by
      unfold Iter.fuel
      exact Nat.mul_pos (Nat.mul_pos (by omega) (by omega)) (by omega)
    rw [forRange_eq_fold _ hz] at h ⊢
    have hxy : P.dim.x ≤ X.dim.x ∧ P.dim.y ≤ X.dim.y := by
      obtain ⟨u, u', hstep⟩ := foldlM_range_steps _ _ h 0 hfuel
      unfold forwardStep at hstep
      obtain ⟨c, e1, hstep⟩ := Res.bind_eq_ok hstep
      obtain ⟨v, e2, hstep⟩ := Res.bind_eq_ok hstep
      have hidx : (iterAt od 0).idx = ⟨0, 0, 0⟩ := by simp [iterAt, unflat]
      unfold corner at e1
      rw [hidx] at e1
      obtain ⟨x, ex, e1⟩ := Res.bind_eq_ok e1
      obtain ⟨y, ey, e1⟩ := Res.bind_eq_ok e1
      have hx := chk_eq ex
      have hy := chk_eq ey
      simp only [zero_mul] at hx hy
      subst hx; subst hy
      obtain rfl := Res.ok.inj e1
      unfold View.create at e2
      obtain ⟨e, e3, e2⟩ := Res.bind_eq_ok e2
      unfold View.endOf at e3
      obtain ⟨x', ex', e3⟩ := Res.bind_eq_ok e3
      obtain ⟨y', ey', e3⟩ := Res.bind_eq_ok e3
      obtain ⟨z', ez', e3⟩ := Res.bind_eq_ok e3
      have hx' := chk_eq ex'
      have hy' := chk_eq ey'
      obtain rfl := Res.ok.inj e3
      split at e2
      · exact absurd e2 (by simp)
      · rename_i hex
        simp only [View.exceeds, Bool.or_eq_true, decide_eq_true_eq, not_or, window] at hex hx' hy'
        omega
    unfold outputSize at hod
    obtain ⟨x, ex, hod⟩ := Res.bind_eq_ok hod
    obtain ⟨y, ey, hod⟩ := Res.bind_eq_ok hod
    obtain rfl := Res.ok.inj hod
    have px := outLen_pos ex hxy.1 hsx
    have py := outLen_pos ey hxy.2 hsy
    simp only at hv hI hz hpos hn h hfuel ⊢
    obtain ⟨A, hA⟩ := Int.eq_ofNat_of_zero_le px.le
    obtain ⟨B, hB⟩ := Int.eq_ofNat_of_zero_le py.le
    obtain ⟨C, hC⟩ := Int.eq_ofNat_of_zero_le hz
    have hdim : (⟨x, y, X.dim.z⟩ : Dim3) = dimN A B C := by rw [hA, hB, hC]
    rw [hdim] at h ⊢ 
    have hA0 : 0 < A := by omega
    have hB0 : 0 < B := by omega
    have hC0 : 0 < C := by omega
    have hn' : n = A * B * C := by
      rw [hA, hB, hC] at hv
      exact_mod_cast hv
    have good : Good A B C := ⟨hA0, hB0, hC0, by
      unfold I32 at hI
      rw [hA, hB, hC] at hI
      have : ((A * B * C : Nat) : Int) ≤ 2147483647 := by push_cast; exact hI.2
      omega⟩
    rw [fuel_dimN hA0 hB0] at h ⊢
    obtain ⟨t', e', r⟩ := foldlM_range_rel (σ := Matrix α × Matrix Dim3) (τ := Matrix α × Matrix Dim3)
      (fun m s t => s.1 = t.1 ∧ s.2.dim = dimN A B C ∧ t.2.dim = dimN A B C ∧ s.2.vals.length = n ∧ t.2.vals.length = n ∧
        ∀ i < m, s.2.vals[i]? = t.2.vals[i]?) (A * B * C)
      (fun s m => P.forwardStep N X s (iterAt (dimN A B C) m)) (fun s m => P.forwardStep N X s (iterAt (dimN A B C) m))
      (s := (o, ⟨dimN A B C, a⟩)) (t := (o, ⟨dimN A B C, b⟩)) ⟨rfl, rfl, rfl, ha, hb, fun i hi => absurd hi (Nat.not_lt_zero i)⟩
      (by
        rintro m hm ⟨so, sd, sv⟩ ⟨tt, td, tv⟩ ⟨so', sd', sv'⟩ ⟨h1, h2, h3, h4, h5, h6⟩ hs
        simp only at h1 h2 h3 h4 h5 h6
        subst h1; subst h2; subst h3
        obtain ⟨v, e1, e2, e3, e4⟩ := forwardStep_rel ht (b := tv) (by omega) hs
        have hidx : getIndex (dimN A B C) (iterAt (dimN A B C) m).idx = m := by
          obtain ⟨l1, l2, l3⟩ := unflat_lt hA0 hB0 hm
          rw [iterAt_dimN hA0 hB0, unflat_eq, getIndex_dimN good l1 l2 l3]
          exact fl_unflat A B m
        rw [hidx] at e2 e3 e4
        refine ⟨_, e4, rfl, e1, rfl, ?_, ?_, ?_⟩
        · rw [e3, List.length_set]; exact h4
        · simp only [List.length_set]; exact h5
        · intro i hi
          simp only [e3]
          rcases Nat.lt_or_ge i m with hlt | hge
          · rw [List.getElem?_set_ne (by omega), List.getElem?_set_ne (by omega)]
            exact h6 i hlt
          · obtain rfl : i = m := by omega
            rw [List.getElem?_set_self (by omega), List.getElem?_set_self (by omega)]) h
    obtain ⟨r1, r2, r3, r4, r5, r6⟩ := r
    rw [e']
    obtain ⟨t1, td, tv⟩ := t'
    obtain ⟨sd, sv⟩ := ind
    simp only at r1 r2 r3 r4 r5 r6
    subst r1; subst r2; subst r3
    have : sv = tv := by
      apply List.ext_getElem?
      intro i
      rcases Nat.lt_or_ge i (A * B * C) with hlt | hge
      · exact r6 i hlt
      · rw [List.getElem?_eq_none (by omega), List.getElem?_eq_none (by omega)]
    rw [this]
  · -- no layers: nothing is recorded
    have e0 : od.z = 0 := by omega
    rw [e0, mul_zero] at hv
    have hn0 : n = 0 := by omega
    obtain rfl : a = [] := List.length_eq_zero_iff.mp (by omega)
    obtain rfl : b = [] := List.length_eq_zero_iff.mp (by omega)
    exact h

theorem vecResize_length {β : Type} (l : List β) (n : Nat) (v : β) : (Matrix.vecResize l n v).length = n := by
  simp [Matrix.vecResize]; omega

/-- `propagateForward` on another slot of a layer with the same parameters. -/
theorem forward_slot {N : Num α} {P Q P' : Pooling} {X Y : Matrix α} {b c : Nat} (h : P.forward N X b = .ok (Y, P'))
    (hd : Q.dim = P.dim) (hs : Q.stride = P.stride) (ht : Q.type = P.type) (hsx : 0 < P.stride.x) (hsy : 0 < P.stride.y)
    (hc : c < Q.indices.length) :
    ∃ i j, P' = { P with indices := P.indices.set b i } ∧ b < P.indices.length ∧
      Q.forward N X c = .ok (Y, { Q with indices := Q.indices.set c j }) ∧ (P.type ≠ .avg → i = j) := by
  unfold forward at h
  obtain ⟨od, e1, h⟩ := Res.bind_eq_ok h
  obtain ⟨o0, e2, h⟩ := Res.bind_eq_ok h
  obtain ⟨i0, e3, h⟩ := Res.bind_eq_ok h
  obtain ⟨i1, e4, h⟩ := Res.bind_eq_ok h
  obtain ⟨⟨ro, ri⟩, e5, h⟩ := Res.bind_eq_ok h
  have h := Res.ok.inj h
  simp only [Prod.mk.injEq] at h
  obtain ⟨rfl, rfl⟩ := h
  have hb : b < P.indices.length := by
    by_contra hcon
    rw [List.getElem?_eq_none (by omega)] at e3
    exact absurd e3 (by simp)
  unfold Matrix.resize at e4
  obtain ⟨n, e6, e4⟩ := Res.bind_eq_ok e4
  obtain rfl := Res.ok.inj e4
  have eq1 : Q.outputSize X.dim = .ok od := by rw [← e1]; unfold outputSize; rw [hd, hs]
  have hstep : Q.forwardStep N X = P.forwardStep N X := by
    funext s it; unfold forwardStep corner window; rw [hd, hs, ht]
  obtain ⟨j0, ej⟩ : ∃ j0, Q.indices[c]? = some j0 := ⟨_, List.getElem?_eq_getElem hc⟩
  by_cases htt : P.type = .avg
  · -- AVG does not touch the indices
    have key : ∀ (J : Matrix Dim3), ∃ J', forRange od (P.forwardStep N X) (o0, J) = .ok (ro, J') := by
      intro J
      have hz : 0 ≤ od.z ∨ od.z < 0 := by omega
      rcases hz with hz | hz
      · rw [forRange_eq_fold _ hz] at e5 ⊢
        obtain ⟨t', e', r⟩ := foldlM_range_rel (σ := Matrix α × Matrix Dim3) (τ := Matrix α × Matrix Dim3)
          (fun _ s t => s.1 = t.1) (Iter.fuel od)
          (fun s m => P.forwardStep N X s (iterAt od m)) (fun s m => P.forwardStep N X s (iterAt od m))
          (s := (o0, ⟨od, Matrix.vecResize i0.vals n 0⟩)) (t := (o0, J)) rfl (by
            rintro m _ s t s' hst hh
            unfold forwardStep at hh ⊢
            simp only [htt] at hh ⊢
            obtain ⟨a, f1, hh⟩ := Res.bind_eq_ok hh
            obtain ⟨v, f2, hh⟩ := Res.bind_eq_ok hh
            obtain ⟨w, f3, hh⟩ := Res.bind_eq_ok hh
            obtain ⟨u, f4, hh⟩ := Res.bind_eq_ok hh
            obtain rfl := Res.ok.inj hh
            refine ⟨(u, t.2), ?_, rfl⟩
            simp only [f1, f2, f3, Res.bind_ok]
            rw [← hst, f4, Res.bind_ok]) e5
        exact ⟨t'.2, by rw [e']; simp only at r; rw [r]⟩
      · have hf : Iter.fuel od = 0 := by
          unfold Iter.fuel
          rw [show od.z.toNat = 0 by omega, Nat.mul_zero]
        unfold forRange at e5
        rw [hf] at e5
        unfold Iter.loop at e5
        have : (Iter.beg od).same (Iter.fin od) = false := by
          simp [Iter.same, Iter.beg, Iter.fin, Iter.mk']
          omega
        rw [this] at e5
        exact absurd e5 (by simp)
    obtain ⟨J', eJ⟩ := key ⟨od, Matrix.vecResize j0.vals n 0⟩
    refine ⟨ri, J', rfl, hb, ?_, fun hne => absurd htt hne⟩
    unfold forward
    rw [eq1, Res.bind_ok, e2, Res.bind_ok, ej, Res.ofOption_some, Res.bind_ok]
    unfold Matrix.resize
    rw [e6]
    simp only [Res.bind_ok, hstep, eJ]
  · have := loop_same htt hsx hsy e1 e6 (vecResize_length i0.vals n 0) (vecResize_length j0.vals n 0) e5
    refine ⟨ri, ri, rfl, hb, ?_, fun _ => rfl⟩
    unfold forward
    rw [eq1, Res.bind_ok, e2, Res.bind_ok, ej, Res.ofOption_some, Res.bind_ok]
    unfold Matrix.resize
    rw [e6]
    simp only [Res.bind_ok, hstep, this]

end Pooling
end Cnn
