import Verif.Lemmas.Pooling
import Verif.Spec.Local
/-! Helper lemmas: which entry of a window MIN and MAX pooling choose, whatever the comparison (C102, C103). -/
namespace Cnn

theorem scan_congr {α : Type} (r : α → α → Bool) {F G : Nat → α} {n : Nat} (h : ∀ m < n, F m = G m) : scan r F n = scan r G n ∧ (0 < n → scan r F n < n) := by
  induction n with
  | zero => exact ⟨rfl, fun h => absurd h (lt_irrefl _)⟩
  | succ n ih =>
    obtain ⟨h1, h2⟩ := ih fun m hm => h m (by omega)
    unfold scan
    have hk : F (scan r F n) = G (scan r G n) := by
      rw [← h1]
      rcases Nat.eq_zero_or_pos n with rfl | hn
      · exact h 0 (by omega)
      · exact h _ (by have := h2 hn; omega)
    rw [hk, h n (by omega), h1]
    refine ⟨rfl, fun _ => ?_⟩
    split_ifs
    · omega
    · rcases Nat.eq_zero_or_pos n with rfl | hn
      · simp [scan]
      · have := h2 hn; omega

theorem scan_lt {α : Type} (r : α → α → Bool) (F : Nat → α) {n : Nat} (hn : 0 < n) : scan r F n < n := (scan_congr r fun _ _ => rfl).2 hn

theorem scan_one {α : Type} (r : α → α → Bool) (F : Nat → α) : scan r F 1 = 0 := by
  have := scan_lt r F (n := 1) (by omega)
  omega

namespace MExpr
variable {α : Type} {X Y Z : Nat}

theorem bestElem_scan (r : α → α → Bool) {A : MExpr α} {f : Nat → Nat → Nat → α} (hA : A.Shows X Y Z f) :
    bestElem r A = .ok (iterAt (dimN X Y Z) (scan r (fun n => f (n % X) (n / X % Y) (n / X / Y)) (X * Y * Z))) := by
  have g := hA.good
  have hpos : 0 < X * Y * Z := Nat.mul_pos (Nat.mul_pos g.x g.y) g.z
  have hf : Iter.fuel (dimN X Y Z) = X * Y * Z := fuel_dimN g.x g.y
  have hz := Matrix.dimN_z_nonneg X Y Z
  unfold bestElem
  rw [hA.dim]
  have hne : ¬ (Iter.beg (dimN X Y Z)).same (Iter.fin (dimN X Y Z)) = true := by
    rw [← iterAt_zero, same_fin _ hz (by omega)]; omega
  rw [if_neg hne, ← iterAt_zero, iterAt_next, loop_eq_fold _ hz _ ⟨rfl, rfl⟩ _ _ (0 + 1) (by omega), hf]
  generalize hF : (fun n : Nat => f (n % X) (n / X % Y) (n / X / Y)) = F
  have hF' : ∀ n, f (n % X) (n / X % Y) (n / X / Y) = F n := fun n => by rw [← hF]
  obtain ⟨it, e, h⟩ := foldlM_range'_inv
    (fun k it => 1 ≤ k ∧ it = iterAt (dimN X Y Z) (scan r F k)) 1 (X * Y * Z - 1)
    (fun (result : Iter) m => do
      let a ← A.deref result
      let b ← A.deref (iterAt (dimN X Y Z) m)
      .ok (if r a b then iterAt (dimN X Y Z) m else result)) (iterAt (dimN X Y Z) 0)
    ⟨le_rfl, by rw [scan_one]⟩
    (by
      rintro k h1k hk it ⟨h1, rfl⟩
      have := scan_lt r F (n := k) (by omega)
      rw [hA.deref_flat (n := scan r F k) (by omega), hA.deref_flat (n := k) (by omega), hF', hF']
      refine ⟨_, rfl, by omega, ?_⟩
      rw [scan]
      split_ifs <;> rfl)
  rw [e, h.2, show 1 + (X * Y * Z - 1) = X * Y * Z by omega]

end MExpr

namespace Pooling
variable {α : Type} [Zero α] [Add α] [Div α] {X Y Z px py sx sy : Nat}

/-- The entry of the window which a MIN or MAX layer chooses. -/
theorem forward_scan (N : Num α) (P : Pooling) (M : Matrix α) (x : Nat → Nat → Nat → α) (b : Nat)
    (hM : M.Shows X Y Z x) (hd : P.dim = ⟨px, py⟩) (hs : P.stride = ⟨sx, sy⟩) (hf : PoolFits X Y px py sx sy)
    (hb : b < P.indices.length) (ht : P.type ≠ .avg) :
    ∃ out ind, ∃ p : Nat → Nat → Nat → Nat,
      P.forward N M b = .ok (out, { P with indices := P.indices.set b ind }) ∧
      (∀ i j k, p i j k = scan (better N P.type) (fun n => x (i * sx + n % px) (j * sy + n / px) k) (px * py)) ∧
      out.Shows (windows X px sx) (windows Y py sy) Z (fun i j k => x (i * sx + p i j k % px) (j * sy + p i j k / px) k) ∧
      ind.Shows (windows X px sx) (windows Y py sy) Z (fun i j k => dimN (i * sx + p i j k % px) (j * sy + p i j k / px) k) := by
  have g := hM.good
  have go := good_out g hf
  generalize hp : (fun i j k => scan (better N P.type) (fun n => x (i * sx + n % px) (j * sy + n / px) k) (px * py)) = p
  have hp' : ∀ i j k, p i j k = scan (better N P.type) (fun n => x (i * sx + n % px) (j * sy + n / px) k) (px * py) := fun i j k => by rw [← hp]
  have hn0 : 0 < px * py := Nat.mul_pos hf.px0 hf.py0
  have hlt : ∀ i j k, p i j k < px * py := fun i j k => by rw [hp']; exact scan_lt _ _ hn0
  have hsel : ∀ i j k, i < windows X px sx → j < windows Y py sy → k < Z →
      MExpr.bestElem (better N P.type) ((⟨dimN (i * sx) (j * sy) k, dimN px py 1⟩ : View).expr M) =
        .ok ⟨dimN (p i j k % px) (p i j k / px) 0, dimN px py 1, fl px py (p i j k % px) (p i j k / px) 0⟩ := by
    intro i j k hi hj hk
    have hv := View.expr_shows hM (box hf hi hj hk) hf.px0 hf.py0 (by omega)
    have hq : p i j k / px < py := Nat.div_lt_of_lt_mul (hlt i j k)
    have e : scan (better N P.type) (fun n => x (i * sx + n % px) (j * sy + n / px % py) (k + n / px / py)) (px * py * 1) = p i j k := by
      rw [mul_one, hp']
      refine (scan_congr _ fun m hm => ?_).1
      have h4 : m / px < py := Nat.div_lt_of_lt_mul hm
      rw [Nat.mod_eq_of_lt h4, Nat.div_eq_of_lt h4, add_zero]
    rw [MExpr.bestElem_scan (better N P.type) hv, e, iterAt_dimN hf.px0 hf.py0, unflat_eq, Nat.mod_eq_of_lt hq, Nat.div_eq_of_lt hq]
    have := fl_unflat px py (p i j k)
    rw [Nat.mod_eq_of_lt hq, Nat.div_eq_of_lt hq] at this
    rw [this]
  obtain ⟨out0, eo, so⟩ := Matrix.ofDim_shows go (0 : α)
  obtain ⟨old, hold⟩ : ∃ old, P.indices[b]? = some old := ⟨_, List.getElem?_eq_getElem hb⟩
  have : Inhabited Dim3 := ⟨0⟩
  obtain ⟨ind0, f0, ei, si⟩ := Matrix.resize_shows old go (0 : Dim3)
  obtain ⟨⟨out, ind⟩, el, s1, s2⟩ := forRange_inv (σ := Matrix α × Matrix Dim3) go.x go.y (Z := Z)
    (fun n s => s.1.Shows (windows X px sx) (windows Y py sy) Z
        (fun i j k => if fl (windows X px sx) (windows Y py sy) i j k < n then
          x (i * sx + p i j k % px) (j * sy + p i j k / px) k else 0) ∧
      s.2.Shows (windows X px sx) (windows Y py sy) Z
        (fun i j k => if fl (windows X px sx) (windows Y py sy) i j k < n then
          dimN (i * sx + p i j k % px) (j * sy + p i j k / px) k else f0 i j k))
    (P.forwardStep N M) (out0, ind0)
    ⟨so.congr (by intros; simp), si.congr (by intros; simp)⟩ (by
      rintro i hi j hj k hk ⟨o, d⟩ ⟨ho, hd'⟩
      have e := hsel i j k hi hj hk
      have hp1 : p i j k % px < px := Nat.mod_lt _ hf.px0
      have hq1 : p i j k / px < py := Nat.div_lt_of_lt_mul (hlt i j k)
      have hb := box (Z := Z) hf hi hj hk
      have bx := hb.x
      have by' := hb.y
      obtain ⟨o', e1, s1⟩ := write_upto (g := fun i j k => x (i * sx + p i j k % px) (j * sy + p i j k / px) k) ho hi hj hk
      obtain ⟨d', e2, s2⟩ := write_upto (g := fun i j k => dimN (i * sx + p i j k % px) (j * sy + p i j k / px) k) hd' hi hj hk
      refine ⟨(o', d'), ?_, s1, s2⟩
      have hx := hM.entry (i * sx + p i j k % px) (by omega) (j * sy + p i j k / px) (by omega) k hk
      have hadd : dimN (i * sx) (j * sy) k + dimN (p i j k % px) (p i j k / px) 0 =
          dimN (i * sx + p i j k % px) (j * sy + p i j k / px) k := by rw [dimN_add]; rfl
      unfold forwardStep
      simp only [corner_eq g hf hs hi hj, Res.bind_ok]
      rw [show P.window = dimN px py 1 by simp [window, hd], hM.dim, View.create_ok g hb, Res.bind_ok]
      cases htt : P.type with
      | avg => exact absurd htt ht
      | min =>
        rw [htt] at e
        have e' : MExpr.minIndex N.lt ((⟨dimN (i * sx) (j * sy) k, dimN px py 1⟩ : View).expr M) =
            .ok (dimN (p i j k % px) (p i j k / px) 0) := by
          unfold MExpr.minIndex
          simp only [better] at e
          rw [e]; rfl
        simp only [e', Res.bind_ok, hadd, e1, e2, hx]
      | max =>
        rw [htt] at e
        have e' : MExpr.maxIndex N.lt ((⟨dimN (i * sx) (j * sy) k, dimN px py 1⟩ : View).expr M) =
            .ok (dimN (p i j k % px) (p i j k / px) 0) := by
          unfold MExpr.maxIndex
          simp only [better] at e
          rw [e]; rfl
        simp only [e', Res.bind_ok, hadd, e1, e2, hx])
  refine ⟨out, ind, p, ?_, hp', ?_, ?_⟩
  · unfold forward
    rw [hM.dim, outputSize_eq g hf hd hs, Res.bind_ok, eo, Res.bind_ok, hold, Res.ofOption_some, Res.bind_ok, ei,
      Res.bind_ok, el]
    rfl
  · exact s1.congr fun i hi j hj k hk => if_pos (fl_lt hi hj hk)
  · exact s2.congr fun i hi j hj k hk => if_pos (fl_lt hi hj hk)

end Pooling
end Cnn
