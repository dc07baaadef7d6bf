import Verif.Lemmas.PoolSize
import Verif.Lemmas.Reduce
import Verif.Lemmas.View
import Verif.Lemmas.Fill
import Verif.Spec.Pooling
/-!
# Pooling: loops
-/
namespace Cnn

theorem windows_inside {n d s i : Nat} (hd : d ≤ n) (hi : i < windows n d s) : i * s + d ≤ n := by
  unfold windows at hi
  have h1 : i ≤ (n - d) / s := by omega
  have h2 : i * s ≤ (n - d) / s * s := Nat.mul_le_mul_right _ h1
  have h3 := Nat.div_mul_le_self (n - d) s
  omega

theorem windows_last {n d s : Nat} (hs : 0 < s) : n < windows n d s * s + d := by
  unfold windows
  have := Nat.lt_div_mul_add (a := n - d) hs
  rw [add_mul, one_mul]
  omega

theorem windows_pos (n d s : Nat) : 0 < windows n d s := Nat.succ_pos _

theorem windows_le {n d s : Nat} (hd : d ≤ n) (h0 : 0 < d) : windows n d s ≤ n := by
  unfold windows
  have : (n - d) / s ≤ n - d := Nat.div_le_self _ _
  omega

/-- A loop over a non-empty matrix, by invariant. -/
theorem forRange_inv {σ : Type} {X Y Z : Nat} (hX : 0 < X) (hY : 0 < Y) (P : Nat → σ → Prop)
    (body : σ → Iter → Res σ) (s : σ) (h0 : P 0 s)
    (hs : ∀ i < X, ∀ j < Y, ∀ k < Z, ∀ s, P (fl X Y i j k) s →
      ∃ s', body s ⟨dimN i j k, dimN X Y Z, fl X Y i j k⟩ = .ok s' ∧ P (fl X Y i j k + 1) s') :
    ∃ s', forRange (dimN X Y Z) body s = .ok s' ∧ P (X * Y * Z) s' := by
  rw [forRange_eq_fold _ (Matrix.dimN_z_nonneg X Y Z), fuel_dimN hX hY]
  refine foldlM_range_inv P _ _ s h0 ?_
  intro n hn s hP
  obtain ⟨a, b, c⟩ := unflat_lt hX hY hn
  rw [iterAt_dimN hX hY, unflat_eq]
  have := hs _ a _ b _ c s (by rwa [fl_unflat])
  rwa [fl_unflat] at this

theorem Matrix.resize_shows {α : Type} [Inhabited α] (M : Matrix α) {X Y Z : Nat} (g : Good X Y Z) (z : α) :
    ∃ M' f, M.resize (dimN X Y Z) z = .ok M' ∧ M'.Shows X Y Z f := by
  have hl : (Matrix.vecResize M.vals (X * Y * Z) z).length = X * Y * Z := by
    simp [Matrix.vecResize]; omega
  obtain ⟨f, hf⟩ := Matrix.exists_shows (M := ⟨dimN X Y Z, Matrix.vecResize M.vals (X * Y * Z) z⟩) g rfl hl
  exact ⟨_, f, by simp only [Matrix.resize, g.vecSize, Res.bind_ok], hf⟩

theorem write_upto {α : Type} {M : Matrix α} {X Y Z : Nat} {f g : Nat → Nat → Nat → α} {i j k : Nat}
    (h : M.Shows X Y Z (fun i' j' k' => if fl X Y i' j' k' < fl X Y i j k then g i' j' k' else f i' j' k'))
    (hi : i < X) (hj : j < Y) (hk : k < Z) :
    ∃ M', M.write (dimN i j k) (g i j k) = .ok M' ∧
      M'.Shows X Y Z (fun i' j' k' => if fl X Y i' j' k' < fl X Y i j k + 1 then g i' j' k' else f i' j' k') := by
  obtain ⟨M', e, s⟩ := h.write hi hj hk (g i j k)
  refine ⟨M', e, s.congr ?_⟩
  intro i' hi' j' hj' k' hk'
  by_cases c : i' = i ∧ j' = j ∧ k' = k
  · obtain ⟨rfl, rfl, rfl⟩ := c
    simp
  · simp only [c, if_false]
    have hne : fl X Y i' j' k' ≠ fl X Y i j k := fun h => c (fl_inj hi' hj' hi hj h)
    by_cases h1 : fl X Y i' j' k' < fl X Y i j k
    · rw [if_pos h1, if_pos (by omega)]
    · rw [if_neg h1, if_neg (by omega)]

namespace Pooling
variable {α : Type} [Zero α] [Add α] [Div α]
variable {X Y Z px py sx sy : Nat}

theorem good_out (g : Good X Y Z) (hf : PoolFits X Y px py sx sy) :
    Good (windows X px sx) (windows Y py sy) Z := by
  refine ⟨windows_pos _ _ _, windows_pos _ _ _, g.z, ?_⟩
  have h1 := windows_le (s := sx) hf.x hf.px0
  have h2 := windows_le (s := sy) hf.y hf.py0
  exact lt_of_le_of_lt (Nat.mul_le_mul_right _ (Nat.mul_le_mul h1 h2)) g.small

theorem outputSize_eq (g : Good X Y Z) (hf : PoolFits X Y px py sx sy) {P : Pooling} (hd : P.dim = ⟨px, py⟩)
    (hs : P.stride = ⟨sx, sy⟩) :
    P.outputSize (dimN X Y Z) = .ok (dimN (windows X px sx) (windows Y py sy) Z) := by
  obtain ⟨_, h1, h2, _⟩ := g.bounds
  unfold outputSize
  simp only [hd, hs]
  rw [outLen_eq X px sx h1 hf.x hf.sx0 hf.xSmall, outLen_eq Y py sy h2 hf.y hf.sy0 hf.ySmall]
  rfl

theorem corner_eq (g : Good X Y Z) (hf : PoolFits X Y px py sx sy) {P : Pooling} (hs : P.stride = ⟨sx, sy⟩) {i j k : Nat}
    (hi : i < windows X px sx) (hj : j < windows Y py sy) :
    P.corner (dimN i j k) = .ok (dimN (i * sx) (j * sy) k) := by
  obtain ⟨_, h1, h2, _⟩ := g.bounds
  have a := windows_inside hf.x hi
  have b := windows_inside hf.y hj
  unfold corner
  simp only [hs]
  rw [show (i : Int) * (sx : Int) = ((i * sx : Nat) : Int) by push_cast; rfl,
    show (j : Int) * (sy : Int) = ((j * sy : Nat) : Int) by push_cast; rfl,
    chk_ok (by unfold I32; omega), Res.bind_ok, chk_ok (by unfold I32; omega)]
  rfl

theorem box (hf : PoolFits X Y px py sx sy) {i j k : Nat}
    (hi : i < windows X px sx) (hj : j < windows Y py sy) (hk : k < Z) :
    Box X Y Z (i * sx) (j * sy) k px py 1 :=
  ⟨windows_inside hf.x hi, windows_inside hf.y hj, by omega⟩

/-- The relation with which a pool type selects (`r a b`: `b` replaces `a`). -/
def better (N : Num α) : PoolType → α → α → Bool
  | .min => fun a b => N.lt b a
  | _ => fun a b => N.lt a b

/-- The comparison with which a pool type selects is a strict weak order among the entries of the input (no NaN). -/
def Ordered (N : Num α) (t : PoolType) (X Y Z : Nat) (x : Nat → Nat → Nat → α) : Prop :=
  ∃ S : α → Prop, MExpr.WeakOn (better N t) S ∧ ∀ i < X, ∀ j < Y, ∀ k < Z, S (x i j k)

omit [Zero α] [Add α] [Div α] in
theorem _root_.Cnn.MExpr.WeakOrd.ordered {N : Num α} {t : PoolType} (h : MExpr.WeakOrd (better N t)) (X Y Z : Nat) (x : Nat → Nat → Nat → α) :
    Ordered N t X Y Z x := ⟨fun _ => True, h.on _, fun _ _ _ _ _ _ => trivial⟩

/-- The result of a MIN or MAX layer: where each output came from (the first of the best entries, in storage order). -/
theorem forward_select (N : Num α) (P : Pooling) (M : Matrix α) (x : Nat → Nat → Nat → α) (b : Nat)
    (hM : M.Shows X Y Z x) (hd : P.dim = ⟨px, py⟩) (hs : P.stride = ⟨sx, sy⟩) (hf : PoolFits X Y px py sx sy)
    (hb : b < P.indices.length) (ht : P.type ≠ .avg) :
    ∃ out ind, ∃ u v : Nat → Nat → Nat → Nat,
      P.forward N M b = .ok (out, { P with indices := P.indices.set b ind }) ∧
      out.Shows (windows X px sx) (windows Y py sy) Z (fun i j k => x (u i j k) (v i j k) k) ∧
      ind.Shows (windows X px sx) (windows Y py sy) Z (fun i j k => dimN (u i j k) (v i j k) k) ∧
      ∀ i < windows X px sx, ∀ j < windows Y py sy, ∀ k < Z,
        (i * sx ≤ u i j k ∧ u i j k < i * sx + px) ∧ (j * sy ≤ v i j k ∧ v i j k < j * sy + py) ∧
        (Ordered N P.type X Y Z x →
          ∀ a < px, ∀ c < py, better N P.type (x (u i j k) (v i j k) k) (x (i * sx + a) (j * sy + c) k) = false) ∧
        (Ordered N P.type X Y Z x →
          ∀ a < px, ∀ c < py, a + c * px < (u i j k - i * sx) + (v i j k - j * sy) * px →
            better N P.type (x (i * sx + a) (j * sy + c) k) (x (u i j k) (v i j k) k) = true) := by
  have g := hM.good
  have go := good_out g hf
  -- the selected entry of each window
  have hsel : ∀ i j k, ∃ p q, i < windows X px sx → j < windows Y py sy → k < Z → p < px ∧ q < py ∧
      MExpr.bestElem (better N P.type) ((⟨dimN (i * sx) (j * sy) k, dimN px py 1⟩ : View).expr M) =
        .ok ⟨dimN p q 0, dimN px py 1, fl px py p q 0⟩ ∧
      (Ordered N P.type X Y Z x → ∀ a < px, ∀ c < py,
        better N P.type (x (i * sx + p) (j * sy + q) k) (x (i * sx + a) (j * sy + c) k) = false) ∧
      (Ordered N P.type X Y Z x → ∀ a < px, ∀ c < py, a + c * px < p + q * px →
        better N P.type (x (i * sx + a) (j * sy + c) k) (x (i * sx + p) (j * sy + q) k) = true) := by
    intro i j k
    by_cases hi : i < windows X px sx
    · by_cases hj : j < windows Y py sy
      · by_cases hk : k < Z
        · have hv := View.expr_shows hM (box hf hi hj hk) hf.px0 hf.py0 (by omega)
          by_cases hr : Ordered N P.type X Y Z x
          · obtain ⟨S, hr, hS⟩ := hr
            have bx := box (Z := Z) hf hi hj hk
            obtain ⟨p, q, l, hp, hq, hl, e, h1, h2⟩ := MExpr.bestElem_idx_on _ hr hv (by
              intro a ha c hc l hl
              have := bx.x
              have := bx.y
              exact hS _ (by omega) _ (by omega) _ (by omega))
            obtain rfl : l = 0 := by omega
            refine ⟨p, q, fun _ _ _ => ⟨hp, hq, e, ?_, ?_⟩⟩
            · intro _ a ha c hc
              exact h1 a ha c hc 0 (by omega)
            · intro _ a ha c hc hlt
              exact h2 a ha c hc 0 (by omega) (by simpa [fl] using hlt)
          · obtain ⟨n, hn, e⟩ := MExpr.bestElem_inside (better N P.type) hv
            obtain ⟨h1, h2, h3⟩ := unflat_lt hf.px0 hf.py0 hn
            refine ⟨n % px, n / px % py, fun _ _ _ => ⟨h1, h2, ?_, fun h => absurd h hr, fun h => absurd h hr⟩⟩
            have hz : n / px / py = 0 := Nat.lt_one_iff.mp h3
            have hfl := fl_unflat px py n
            rw [hz] at hfl
            rw [e, iterAt_dimN hf.px0 hf.py0, unflat_eq, hz, hfl]
        · exact ⟨0, 0, fun _ _ h => absurd h hk⟩
      · exact ⟨0, 0, fun _ h => absurd h hj⟩
    · exact ⟨0, 0, fun h => absurd h hi⟩
  choose p q hpq using hsel
  obtain ⟨out0, eo, so⟩ := Matrix.ofDim_shows go (0 : α)
  obtain ⟨old, hold⟩ : ∃ old, P.indices[b]? = some old := ⟨_, List.getElem?_eq_getElem hb⟩
  have : Inhabited Dim3 := ⟨0⟩
  obtain ⟨ind0, f0, ei, si⟩ := Matrix.resize_shows old go (0 : Dim3)
  obtain ⟨⟨out, ind⟩, el, s1, s2⟩ := forRange_inv (σ := Matrix α × Matrix Dim3) go.x go.y (Z := Z)
    (fun n s => s.1.Shows (windows X px sx) (windows Y py sy) Z
        (fun i j k => if fl (windows X px sx) (windows Y py sy) i j k < n then
          x (i * sx + p i j k) (j * sy + q i j k) k else 0) ∧
      s.2.Shows (windows X px sx) (windows Y py sy) Z
        (fun i j k => if fl (windows X px sx) (windows Y py sy) i j k < n then
          dimN (i * sx + p i j k) (j * sy + q i j k) k else f0 i j k))
    (P.forwardStep N M) (out0, ind0)
    ⟨so.congr (by intros; simp), si.congr (by intros; simp)⟩ (by
      rintro i hi j hj k hk ⟨o, d⟩ ⟨ho, hd'⟩
      obtain ⟨hp, hq, e, _⟩ := hpq i j k hi hj hk
      have hb := box (Z := Z) hf hi hj hk
      have bx := hb.x
      have by' := hb.y
      obtain ⟨o', e1, s1⟩ := write_upto (g := fun i j k => x (i * sx + p i j k) (j * sy + q i j k) k) ho hi hj hk
      obtain ⟨d', e2, s2⟩ := write_upto (g := fun i j k => dimN (i * sx + p i j k) (j * sy + q i j k) k) hd' hi hj hk
      refine ⟨(o', d'), ?_, s1, s2⟩
      have hx := hM.entry (i * sx + p i j k) (by omega) (j * sy + q i j k) (by omega) k hk
      have hadd : dimN (i * sx) (j * sy) k + dimN (p i j k) (q i j k) 0 =
          dimN (i * sx + p i j k) (j * sy + q i j k) k := by rw [dimN_add]; rfl
      unfold forwardStep
      simp only [corner_eq g hf hs hi hj, Res.bind_ok]
      rw [show P.window = dimN px py 1 by simp [window, hd], hM.dim, View.create_ok g hb, Res.bind_ok]
      cases htt : P.type with
      | avg => exact absurd htt ht
      | min =>
        rw [htt] at e
        have e' : MExpr.minIndex N.lt ((⟨dimN (i * sx) (j * sy) k, dimN px py 1⟩ : View).expr M) =
            .ok (dimN (p i j k) (q i j k) 0) := by
          unfold MExpr.minIndex
          simp only [better] at e
          rw [e]; rfl
        simp only [e', Res.bind_ok, hadd, e1, e2, hx]
      | max =>
        rw [htt] at e
        have e' : MExpr.maxIndex N.lt ((⟨dimN (i * sx) (j * sy) k, dimN px py 1⟩ : View).expr M) =
            .ok (dimN (p i j k) (q i j k) 0) := by
          unfold MExpr.maxIndex
          simp only [better] at e
          rw [e]; rfl
        simp only [e', Res.bind_ok, hadd, e1, e2, hx])
  refine ⟨out, ind, fun i j k => i * sx + p i j k, fun i j k => j * sy + q i j k, ?_, ?_, ?_, ?_⟩
  · unfold forward
    rw [hM.dim, outputSize_eq g hf hd hs, Res.bind_ok, eo, Res.bind_ok, hold, Res.ofOption_some, Res.bind_ok, ei,
      Res.bind_ok, el]
    rfl
  · exact s1.congr fun i hi j hj k hk => if_pos (fl_lt hi hj hk)
  · exact s2.congr fun i hi j hj k hk => if_pos (fl_lt hi hj hk)
  · intro i hi j hj k hk
    obtain ⟨hp, hq, _, h, h'⟩ := hpq i j k hi hj hk
    refine ⟨⟨Nat.le_add_right _ _, Nat.add_lt_add_left hp _⟩, ⟨Nat.le_add_right _ _, Nat.add_lt_add_left hq _⟩, h, ?_⟩
    simpa using h'

/-- A sum over a window in storage order. -/
theorem sum_window {β : Type} [AddCommMonoid β] (hp : 0 < px) (x : Nat → Nat → β) (u v : Nat) :
    ∑ n ∈ Finset.range (px * py), x (u + n % px) (v + n / px) = ∑ a ∈ Finset.range px, ∑ c ∈ Finset.range py, x (u + a) (v + c) := by
  rw [sum_range_mul, Finset.sum_comm]
  refine Finset.sum_congr rfl fun a ha => Finset.sum_congr rfl fun c _ => ?_
  have ha := Finset.mem_range.1 ha
  rw [Nat.add_mul_mod_self_right, Nat.mod_eq_of_lt ha, Nat.add_mul_div_right _ _ hp, Nat.div_eq_of_lt ha, zero_add]

/-- The result of an AVG layer, with the sum in the order in which the code adds; the recorded indices are resized but not written. -/
theorem forward_avg_ordered {α : Type} [Zero α] [Add α] [Div α] (N : Num α) (P : Pooling) (M : Matrix α)
    (x : Nat → Nat → Nat → α) (b : Nat)
    (hM : M.Shows X Y Z x) (hd : P.dim = ⟨px, py⟩) (hs : P.stride = ⟨sx, sy⟩) (hf : PoolFits X Y px py sx sy)
    (hb : b < P.indices.length) (ht : P.type = .avg) :
    ∃ out ind, P.forward N M b = .ok (out, { P with indices := P.indices.set b ind }) ∧
      out.Shows (windows X px sx) (windows Y py sy) Z (fun i j k =>
        sumTo (px * py) (fun n => x (i * sx + n % px) (j * sy + n / px) k) / N.ofNat (px * py)) := by
  have g := hM.good
  have go := good_out g hf
  obtain ⟨out0, eo, so⟩ := Matrix.ofDim_shows go (0 : α)
  obtain ⟨old, hold⟩ : ∃ old, P.indices[b]? = some old := ⟨_, List.getElem?_eq_getElem hb⟩
  have : Inhabited Dim3 := ⟨0⟩
  obtain ⟨ind0, f0, ei, si⟩ := Matrix.resize_shows old go (0 : Dim3)
  obtain ⟨⟨out, ind⟩, el, s1⟩ := forRange_inv (σ := Matrix α × Matrix Dim3) go.x go.y (Z := Z)
    (fun n s => s.1.Shows (windows X px sx) (windows Y py sy) Z
        (fun i j k => if fl (windows X px sx) (windows Y py sy) i j k < n then
          sumTo (px * py) (fun n => x (i * sx + n % px) (j * sy + n / px) k) / N.ofNat (px * py) else 0))
    (P.forwardStep N M) (out0, ind0)
    (so.congr (by intros; simp)) (by
      rintro i hi j hj k hk ⟨o, d⟩ ho
      have hb := box (Z := Z) hf hi hj hk
      obtain ⟨o', e1, s1⟩ := write_upto (g := fun i j k =>
        sumTo (px * py) (fun n => x (i * sx + n % px) (j * sy + n / px) k) / N.ofNat (px * py)) ho hi hj hk
      refine ⟨(o', d), ?_, s1⟩
      have hv := View.expr_shows hM hb hf.px0 hf.py0 (by omega)
      have hmean : MExpr.mean N.ofNat ((⟨dimN (i * sx) (j * sy) k, dimN px py 1⟩ : View).expr M) = .ok
          (sumTo (px * py) (fun n => x (i * sx + n % px) (j * sy + n / px) k) / N.ofNat (px * py)) := by
        unfold MExpr.mean
        rw [MExpr.sum_eq_sumTo hv, Res.bind_ok, hv.dim, MExpr.sizeD_dimN hv.good, Res.bind_ok, mul_one]
        have hsum : sumTo (px * py) (fun n => x (i * sx + n % px) (j * sy + n / px % py) (k + n / px / py)) =
            sumTo (px * py) (fun n => x (i * sx + n % px) (j * sy + n / px) k) := ?_
        · rw [hsum]
        refine sumTo_congr fun n hn => ?_
        have h4 : n / px < py := Nat.div_lt_of_lt_mul hn
        rw [Nat.mod_eq_of_lt h4, Nat.div_eq_of_lt h4, add_zero]
      unfold forwardStep
      simp only [corner_eq g hf hs hi hj, Res.bind_ok]
      rw [show P.window = dimN px py 1 by simp [window, hd], hM.dim, View.create_ok g hb, Res.bind_ok]
      simp only [ht, hmean, Res.bind_ok, e1])
  refine ⟨out, ind, ?_, ?_⟩
  · unfold forward
    rw [hM.dim, outputSize_eq g hf hd hs, Res.bind_ok, eo, Res.bind_ok, hold, Res.ofOption_some, Res.bind_ok, ei,
      Res.bind_ok, el]
    rfl
  · exact s1.congr fun i hi j hj k hk => if_pos (fl_lt hi hj hk)

/-- The result of an AVG layer. -/
theorem forward_avg {α : Type} [AddCommMonoid α] [Div α] (N : Num α) (P : Pooling) (M : Matrix α)
    (x : Nat → Nat → Nat → α) (b : Nat)
    (hM : M.Shows X Y Z x) (hd : P.dim = ⟨px, py⟩) (hs : P.stride = ⟨sx, sy⟩) (hf : PoolFits X Y px py sx sy)
    (hb : b < P.indices.length) (ht : P.type = .avg) :
    ∃ out ind, P.forward N M b = .ok (out, { P with indices := P.indices.set b ind }) ∧
      out.Shows (windows X px sx) (windows Y py sy) Z (fun i j k =>
        (∑ a ∈ Finset.range px, ∑ c ∈ Finset.range py, x (i * sx + a) (j * sy + c) k) / N.ofNat (px * py)) := by
  obtain ⟨out, ind, e, s⟩ := forward_avg_ordered N P M x b hM hd hs hf hb ht
  refine ⟨out, ind, e, s.congr fun i _ j _ k _ => ?_⟩
  rw [sumTo_eq, sum_window hf.px0 (fun a c => x a c k)]

/-- The sum of a table over the outputs processed in the first `n` steps. -/
theorem step_sum {β : Type} [AddCommMonoid β] {X Y : Nat} (T : Nat → Nat → Nat → β) {i j k : Nat} (hi : i < X) (hj : j < Y) :
    ∑ m ∈ Finset.range (fl X Y i j k + 1), T (m % X) (m / X % Y) (m / X / Y) =
      ∑ m ∈ Finset.range (fl X Y i j k), T (m % X) (m / X % Y) (m / X / Y) + T i j k := by
  rw [Finset.sum_range_succ, fl_mod hi, fl_div_mod hi hj, fl_div_div hi hj]

/-- MIN and MAX: the gradient of each output is added at the recorded index. -/
theorem backward_select {α : Type} [AddCommMonoid α] [Div α] (N : Num α) (P : Pooling) (M Q G : Matrix α) (b : Nat)
    (ind : Matrix Dim3) {W H : Nat} (hM : M.dim = dimN X Y Z) (g : Good X Y Z) (ht : P.type ≠ .avg)
    (hi : P.indices[b]? = some ind) (u v w : Nat → Nat → Nat → Nat)
    (hind : ind.Shows W H Z (fun i j k => dimN (u i j k) (v i j k) (w i j k)))
    (hin : ∀ i < W, ∀ j < H, ∀ k < Z, u i j k < X ∧ v i j k < Y ∧ w i j k < Z) (d : Nat → Nat → Nat → α)
    (hG : G.Shows W H Z d) :
    ∃ D, P.backward N M Q G b = .ok D ∧ D.Shows X Y Z (fun i j k =>
      total W H Z (fun p q l => if u p q l = i ∧ v p q l = j ∧ w p q l = k then d p q l else 0)) := by
  have go := hind.good
  obtain ⟨D0, e0, s0⟩ := Matrix.ofDim_shows g (0 : α)
  obtain ⟨D, el, sD⟩ := forRange_inv (σ := Matrix α) go.x go.y (Z := Z)
    (fun n D => D.Shows X Y Z (fun i j k => ∑ m ∈ Finset.range n,
      (fun p q l => if u p q l = i ∧ v p q l = j ∧ w p q l = k then d p q l else 0) (m % W) (m / W % H) (m / W / H)))
    (fun (D : Matrix α) it => do
      let p ← ind.flat it.scalar
      let g ← G.read it.idx
      let a ← D.read p
      D.write p (a + g)) D0 (s0.congr (by intros; simp)) (by
      intro p hp q hq l hl D hD
      obtain ⟨h1, h2, h3⟩ := hin p hp q hq l hl
      have hfl : ind.flat (fl W H p q l) = _ := hind.flat_fl hp hq hl
      obtain ⟨D', e', s'⟩ := hD.write h1 h2 h3
        (∑ m ∈ Finset.range (fl W H p q l), (fun p' q' l' => if u p' q' l' = u p q l ∧ v p' q' l' = v p q l ∧
          w p' q' l' = w p q l then d p' q' l' else 0) (m % W) (m / W % H) (m / W / H) + d p q l)
      refine ⟨D', ?_, s'.congr ?_⟩
      · simp only [hfl, Res.bind_ok, hG.entry p hp q hq l hl, hD.entry _ h1 _ h2 _ h3]
        exact e'
      · intro i _ j _ k _
        rw [step_sum (fun p q l => if u p q l = i ∧ v p q l = j ∧ w p q l = k then d p q l else 0) hp hq]
        by_cases c : i = u p q l ∧ j = v p q l ∧ k = w p q l
        · obtain ⟨rfl, rfl, rfl⟩ := c
          simp
        · rw [if_neg c, if_neg (fun h => c ⟨h.1.symm, h.2.1.symm, h.2.2.symm⟩), add_zero])
  refine ⟨D, ?_, sD.congr ?_⟩
  · unfold backward getdLdX
    rw [hM, e0, Res.bind_ok, hi, Res.ofOption_some, Res.bind_ok]
    cases htt : P.type with
    | avg => exact absurd htt ht
    | min => simp only [hind.dim]; exact el
    | max => simp only [hind.dim]; exact el
  · intro i _ j _ k _
    exact sum_flat W H Z (fun p q l => if u p q l = i ∧ v p q l = j ∧ w p q l = k then d p q l else 0)

/-- AVG: the gradient of each output is spread over its window. -/
theorem backward_avg {α : Type} [AddCommMonoid α] [Div α] (N : Num α) (P : Pooling) (M Q G : Matrix α) (b : Nat)
    (hM : M.dim = dimN X Y Z) (g : Good X Y Z) (hd : P.dim = ⟨px, py⟩) (hs : P.stride = ⟨sx, sy⟩)
    (hf : PoolFits X Y px py sx sy) (hb : b < P.indices.length) (ht : P.type = .avg) (d : Nat → Nat → Nat → α)
    (hG : G.Shows (windows X px sx) (windows Y py sy) Z d) :
    ∃ D, P.backward N M Q G b = .ok D ∧ D.Shows X Y Z (fun i j k =>
      total (windows X px sx) (windows Y py sy) Z (fun p q l =>
        if inBox (p * sx) (q * sy) l px py 1 i j k then d p q l / N.ofNat (px * py) else 0)) := by
  have go := good_out g hf
  have hxy : px * py < 2147483648 := lt_of_le_of_lt (Nat.mul_le_mul hf.x hf.y) g.bounds.1
  obtain ⟨D0, e0, s0⟩ := Matrix.ofDim_shows g (0 : α)
  obtain ⟨D, el, sD⟩ := forRange_inv (σ := Matrix α) go.x go.y (Z := Z)
    (fun n D => D.Shows X Y Z (fun i j k => ∑ m ∈ Finset.range n,
      (fun p q l => if inBox (p * sx) (q * sy) l px py 1 i j k then d p q l / N.ofNat (px * py) else 0)
        (m % windows X px sx) (m / windows X px sx % windows Y py sy) (m / windows X px sx / windows Y py sy)))
    (fun (D : Matrix α) it => do
      let inIdx ← P.corner it.idx
      let v ← View.create D.dim inIdx P.window
      let g ← G.flat it.scalar
      v.opScalar (· + ·) D (fun _ => .ok (g / N.ofNat (u64 (P.dim.x * P.dim.y))))) D0 (s0.congr (by intros; simp)) (by
      intro p hp q hq l hl D hD
      have hb := box (Z := Z) hf hp hq hl
      obtain ⟨D', e', s'⟩ := View.opScalar_shows (· + ·) hD hb hf.px0 hf.py0 (d p q l / N.ofNat (px * py))
      refine ⟨D', ?_, s'.congr ?_⟩
      · rw [hD.dim] 
        simp only [corner_eq g hf hs hp hq, Res.bind_ok]
        rw [show P.window = dimN px py 1 by simp [window, hd], View.create_ok g hb, Res.bind_ok]
        simp only [hG.flat_fl hp hq hl, Res.bind_ok]
        rw [hd, show ((px : Int) * (py : Int)) = ((px * py : Nat) : Int) by push_cast; rfl, u64_nat (by omega)]
        exact e'
      · intro i _ j _ k _
        rw [step_sum (fun p q l => if inBox (p * sx) (q * sy) l px py 1 i j k then d p q l / N.ofNat (px * py) else 0) hp hq]
        split_ifs <;> simp)
  refine ⟨D, ?_, sD.congr ?_⟩
  · unfold backward getdLdX
    rw [hM, e0, Res.bind_ok, List.getElem?_eq_getElem hb, Res.ofOption_some, Res.bind_ok]
    simp only [ht, hG.dim]
    exact el
  · intro i _ j _ k _
    exact sum_flat _ _ Z (fun p q l => if inBox (p * sx) (q * sy) l px py 1 i j k then d p q l / N.ofNat (px * py) else 0)

/-- What a loop body preserves, the loop preserves. -/
theorem _root_.Cnn.forRange_pres {σ : Type} (d : Dim3) (body : σ → Iter → Res σ) (P : σ → Prop)
    (hb : ∀ s it s', body s it = .ok s' → P s → P s') {s s' : σ} (h : forRange d body s = .ok s') (hs : P s) : P s' := by
  have : ∀ (n : Nat) (it : Iter) (s : σ), Iter.loop (Iter.fin d) body n it s = .ok s' → P s → P s' := by
    intro n
    induction n with
    | zero =>
      intro it s h hs
      simp only [Iter.loop] at h
      split_ifs at h
      simp only [Res.ok.injEq] at h
      exact h ▸ hs
    | succ n ih =>
      intro it s h hs
      simp only [Iter.loop] at h
      split_ifs at h
      · simp only [Res.ok.injEq] at h
        exact h ▸ hs
      · cases hbs : body s it with
        | ok s1 => rw [hbs, Res.bind_ok] at h; exact ih _ _ h (hb _ _ _ hbs hs)
        | throw e => rw [hbs] at h; simp at h
        | ub => rw [hbs] at h; simp at h
        | abort => rw [hbs] at h; simp at h
  exact this _ _ _ h hs

theorem _root_.Cnn.Matrix.write_dim {β : Type} {M M' : Matrix β} {i : Dim3} {a : β} (h : M.write i a = .ok M') : M'.dim = M.dim := by
  unfold Matrix.write Matrix.setFlat at h
  split_ifs at h
  simp only [Res.ok.injEq] at h
  rw [← h]

/-- The output has the dimensions `outputSize` computes; only slot `b` of the recorded indices changes. -/
theorem forward_frame {N : Num α} {P P' : Pooling} {M out : Matrix α} {b : Nat} (h : P.forward N M b = .ok (out, P')) :
    P.outputSize M.dim = .ok out.dim ∧ ∃ ind, P' = { P with indices := P.indices.set b ind } := by
  unfold forward at h
  obtain ⟨od, e1, h⟩ := Res.bind_eq_ok h
  obtain ⟨o0, e2, h⟩ := Res.bind_eq_ok h
  obtain ⟨i0, e3, h⟩ := Res.bind_eq_ok h
  obtain ⟨i1, e4, h⟩ := Res.bind_eq_ok h
  obtain ⟨r, e5, h⟩ := Res.bind_eq_ok h
  simp only [Res.ok.injEq, Prod.mk.injEq] at h
  refine ⟨?_, r.2, h.2.symm⟩
  have h0 : o0.dim = od := by
    unfold Matrix.ofDim at e2
    obtain ⟨n, _, e2⟩ := Res.bind_eq_ok e2
    simp only [Res.ok.injEq] at e2
    rw [← e2]
  have h1 : r.1.dim = od := by
    refine forRange_pres od _ (fun s => s.1.dim = od) ?_ e5 h0
    intro s it s' hb hs
    unfold forwardStep at hb
    obtain ⟨c, _, hb⟩ := Res.bind_eq_ok hb
    obtain ⟨v, _, hb⟩ := Res.bind_eq_ok hb
    cases ht : P.type with
    | avg =>
      simp only [ht] at hb
      obtain ⟨a, _, hb⟩ := Res.bind_eq_ok hb
      obtain ⟨o, e, hb⟩ := Res.bind_eq_ok hb
      simp only [Res.ok.injEq] at hb
      rw [← hb]; exact (Matrix.write_dim e).trans hs
    | min =>
      simp only [ht] at hb
      obtain ⟨m, _, hb⟩ := Res.bind_eq_ok hb
      obtain ⟨i, _, hb⟩ := Res.bind_eq_ok hb
      obtain ⟨a, _, hb⟩ := Res.bind_eq_ok hb
      obtain ⟨o, e, hb⟩ := Res.bind_eq_ok hb
      simp only [Res.ok.injEq] at hb
      rw [← hb]; exact (Matrix.write_dim e).trans hs
    | max =>
      simp only [ht] at hb
      obtain ⟨m, _, hb⟩ := Res.bind_eq_ok hb
      obtain ⟨i, _, hb⟩ := Res.bind_eq_ok hb
      obtain ⟨a, _, hb⟩ := Res.bind_eq_ok hb
      obtain ⟨o, e, hb⟩ := Res.bind_eq_ok hb
      simp only [Res.ok.injEq] at hb
      rw [← hb]; exact (Matrix.write_dim e).trans hs
  rw [← h.1, h1, e1]

/-- A loop that runs at least once and whose first step throws. -/
theorem _root_.Cnn.forRange_throw {σ : Type} (d : Dim3) (hz : 0 < d.z) (body : σ → Iter → Res σ) (s : σ) (e : Exc)
    (h : body s (Iter.beg d) = .throw e) : forRange d body s = .throw e := by
  have hfuel : 0 < Iter.fuel d := by
    unfold Iter.fuel
    exact Nat.mul_pos (Nat.mul_pos (by omega) (by omega)) (by omega)
  rw [forRange_eq_fold d (by omega)]
  refine foldlM_range_fail (fun _ t => t = s) _ 0 hfuel _ s _ (fun f => rfl) rfl (by omega) ?_
  rintro t rfl
  rw [iterAt_zero]; exact h

end Pooling
end Cnn
