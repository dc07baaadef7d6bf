import Verif.Lemmas.Kernel
/-! Helper lemmas: initialisation and update of weights and biases. -/
namespace Cnn
variable {α : Type} {X Y Z : Nat}

theorem Matrix.fillDraws_shows {M : Matrix α} {f : Nat → Nat → Nat → α} (hM : M.Shows X Y Z f) (draws : Nat → α) (off : Nat) :
    ∃ M', M.fillDraws draws off = .ok M' ∧ M'.Shows X Y Z (fun i j k => draws (off + fl X Y i j k)) := by
  unfold Matrix.fillDraws
  rw [hM.dim]
  refine Matrix.forRange_shows hM _ _ ?_
  intro i hi j hj k hk M' _
  rfl

theorem MExpr.l2Norm_eq [Zero α] [Add α] [Mul α] (sqrt : α → α) {E : MExpr α} {f : Nat → Nat → Nat → α} (hE : E.Shows X Y Z f) :
    E.l2Norm sqrt = .ok (sqrt (sumTo (X * Y * Z) (fun n =>
      f (n % X) (n / X % Y) (n / X / Y) * f (n % X) (n / X % Y) (n / X / Y)))) := by
  obtain ⟨E', e, s⟩ := MExpr.bin_shows (· * ·) hE hE
  rw [MExpr.l2Norm, e, Res.bind_ok, MExpr.sum_eq_sumTo s]
  rfl

/-- The norm the code divides by. -/
def normOf [Zero α] [Add α] [Mul α] (N : Num α) (n : Nat) (d : Nat → α) : α := N.sqrt (sumTo n (fun k => d k * d k))

theorem Matrix.normalise_shows [Zero α] [Add α] [Mul α] [Div α] (N : Num α) {M : Matrix α} {d : Nat → α}
    (hM : M.Shows X Y Z (fun i j k => d (fl X Y i j k))) :
    ∃ M', M.normalise N = .ok M' ∧
      M'.Shows X Y Z (fun i j k => d (fl X Y i j k) / normOf N (X * Y * Z) d) := by
  unfold Matrix.normalise
  rw [MExpr.l2Norm_eq N.sqrt hM.expr, Res.bind_ok]
  have : sumTo (X * Y * Z) (fun n => d (fl X Y (n % X) (n / X % Y) (n / X / Y)) * d (fl X Y (n % X) (n / X % Y) (n / X / Y))) =
      sumTo (X * Y * Z) (fun k => d k * d k) := sumTo_congr fun n _ => by rw [fl_unflat]
  rw [this]
  exact Matrix.opScalar_shows (· / ·) hM _

theorem initParams_shows [Zero α] [Add α] [Mul α] [Div α] (N : Num α) (draws : Nat → α) {W B : Matrix α} {F : Nat}
    {w : Nat → Nat → Nat → α} {b : Nat → Nat → Nat → α} (hW : W.Shows X Y Z w) (hB : B.Shows F 1 1 b) :
    ∃ W' B', initParams N draws W B = .ok (W', B') ∧
      W'.Shows X Y Z (fun i j k => draws (fl X Y i j k) / normOf N (X * Y * Z) draws) ∧
      B'.Shows F 1 1 (fun f _ _ => draws (X * Y * Z + f) / normOf N F (fun n => draws (X * Y * Z + n))) := by
  obtain ⟨W1, e1, s1⟩ := Matrix.fillDraws_shows hW draws 0
  obtain ⟨B1, e2, s2⟩ := Matrix.fillDraws_shows hB draws (X * Y * Z)
  have s1 : W1.Shows X Y Z (fun i j k => draws (fl X Y i j k)) := s1.congr (by simp)
  obtain ⟨W2, e3, s3⟩ := Matrix.normalise_shows N s1
  obtain ⟨B2, e4, s4⟩ := Matrix.normalise_shows N (d := fun n => draws (X * Y * Z + n)) s2
  refine ⟨W2, B2, ?_, s3, s4.congr ?_⟩
  · unfold initParams
    rw [e1, Res.bind_ok, s1.length, e2, Res.bind_ok, e3, Res.bind_ok, e4]; rfl
  · intro f hf j hj k hk
    obtain rfl : j = 0 := by omega
    obtain rfl : k = 0 := by omega
    have : fl F 1 f 0 0 = f := by unfold fl; omega
    rw [this, Nat.mul_one, Nat.mul_one]

theorem Matrix.Shows.reads {M : Matrix α} {f : Nat → Nat → Nat → α} (h : M.Shows X Y Z f) : M.Reads X Y Z f := ⟨h.dim, h.entry⟩

/-- One averaged gradient step, in the order of the code. -/
theorem applyGrads_reads [Zero α] [Add α] [Sub α] [Mul α] [Div α] (N : Num α) (lr : α) {W B : Matrix α} {F n : Nat}
    {w : Nat → Nat → Nat → α} {b : Nat → α} (hW : W.Shows X Y Z w) (hB : B.Shows F 1 1 (fun f _ _ => b f))
    (wG bG : List (Matrix α)) (gw : Nat → Nat → Nat → Nat → α) (gb : Nat → Nat → α) (hn : wG.length = n) (hn' : bG.length = n)
    (hw : ∀ i (M : Matrix α), wG[i]? = some M → M.Reads X Y Z (gw i)) (hb : ∀ i (M : Matrix α), bG[i]? = some M → M.Reads F 1 1 (fun f _ _ => gb i f)) :
    ∃ W' B', applyGrads N lr W B wG bG = .ok (W', B') ∧
      W'.Shows X Y Z (fun i j k => w i j k - lr * (sumTo n (fun s => gw s i j k) / N.ofNat n)) ∧
      B'.Shows F 1 1 (fun f _ _ => b f - lr * (sumTo n (fun s => gb s f) / N.ofNat n)) := by
  obtain ⟨aw0, e1, s1⟩ := Matrix.ofDim_shows hW.good (0 : α)
  obtain ⟨ab0, e2, s2⟩ := Matrix.ofDim_shows hB.good (0 : α)
  obtain ⟨⟨aw, ab⟩, e3, s3⟩ := foldlM_range_inv (fun m (s : Matrix α × Matrix α) => m ≤ n →
      s.1.Shows X Y Z (fun i j k => sumTo m (fun s => gw s i j k)) ∧ s.2.Shows F 1 1 (fun f _ _ => sumTo m (fun s => gb s f))) n
    (fun (s : Matrix α × Matrix α) (i : Nat) => do
      let g ← Res.ofOption wG[i]?
      let aw ← s.1.opAssign (· + ·) g.dim (fun _ => g.read)
      let h ← Res.ofOption bG[i]?
      let ab ← s.2.opAssign (· + ·) h.dim (fun _ => h.read)
      .ok (aw, ab)) (aw0, ab0) (fun _ => ⟨s1.congr (by simp [sumTo]), s2.congr (by simp [sumTo])⟩) (by
      intro m hm s hs
      obtain ⟨h1, h2⟩ := hs (by omega)
      obtain ⟨g, eg⟩ : ∃ g, wG[m]? = some g := ⟨_, List.getElem?_eq_getElem (by omega)⟩
      obtain ⟨h, eh⟩ : ∃ h, bG[m]? = some h := ⟨_, List.getElem?_eq_getElem (by omega)⟩
      have sg := hw m g eg
      have sh := hb m h eh
      obtain ⟨a', ea, sa⟩ := Matrix.opAssign_shows (· + ·) h1 (fun _ => g.read)
        (fun i hi j hj k hk M' _ => sg.entry i hi j hj k hk)
      obtain ⟨b', eb, sb⟩ := Matrix.opAssign_shows (· + ·) h2 (fun _ => h.read)
        (fun i hi j hj k hk M' _ => sh.entry i hi j hj k hk)
      refine ⟨(a', b'), ?_, fun _ => ⟨sa.congr ?_, sb.congr ?_⟩⟩
      · simp only [eg, eh, Res.ofOption, Res.bind_ok, sg.dim, sh.dim, ea, eb]
      · intro i _ j _ k _; rw [sumTo_succ]
      · intro i _ j _ k _; rw [sumTo_succ])
  obtain ⟨h1, h2⟩ := s3 (le_refl _)
  obtain ⟨aw', e4, s4⟩ := Matrix.opScalar_shows (· / ·) h1 (N.ofNat n)
  obtain ⟨ab', e5, s5⟩ := Matrix.opScalar_shows (· / ·) h2 (N.ofNat n)
  have s6 := MExpr.scal_shows (lr * ·) s4.expr
  have s7 := MExpr.scal_shows (lr * ·) s5.expr
  obtain ⟨W', e8, s8⟩ := Matrix.opAssign_shows (· - ·) hW (fun _ => (MExpr.scal (lr * ·) aw'.expr).get)
    (fun i hi j hj k hk M' _ => s6.entry i hi j hj k hk)
  obtain ⟨B', e9, s9⟩ := Matrix.opAssign_shows (· - ·) hB (fun _ => (MExpr.scal (lr * ·) ab'.expr).get)
    (fun i hi j hj k hk M' _ => s7.entry i hi j hj k hk)
  refine ⟨W', B', ?_, s8, s9⟩
  unfold applyGrads
  rw [hW.dim, e1, Res.bind_ok, hB.dim, e2, Res.bind_ok, hn, e3, Res.bind_ok, e4, Res.bind_ok, hn', e5, Res.bind_ok, s4.dim,
    e8, Res.bind_ok, s5.dim, e9, Res.bind_ok]

theorem applyGrads_shows [Zero α] [Add α] [Sub α] [Mul α] [Div α] (N : Num α) (lr : α) {W B : Matrix α} {F n : Nat}
    {w : Nat → Nat → Nat → α} {b : Nat → α} (hW : W.Shows X Y Z w) (hB : B.Shows F 1 1 (fun f _ _ => b f))
    (wG bG : List (Matrix α)) (gw : Nat → Nat → Nat → Nat → α) (gb : Nat → Nat → α) (hn : wG.length = n) (hn' : bG.length = n)
    (hw : ∀ i (M : Matrix α), wG[i]? = some M → M.Shows X Y Z (gw i)) (hb : ∀ i (M : Matrix α), bG[i]? = some M → M.Shows F 1 1 (fun f _ _ => gb i f)) :
    ∃ W' B', applyGrads N lr W B wG bG = .ok (W', B') ∧
      W'.Shows X Y Z (fun i j k => w i j k - lr * (sumTo n (fun s => gw s i j k) / N.ofNat n)) ∧
      B'.Shows F 1 1 (fun f _ _ => b f - lr * (sumTo n (fun s => gb s f) / N.ofNat n)) :=
  applyGrads_reads N lr hW hB wG bG gw gb hn hn' (fun i M h => (hw i M h).reads) (fun i M h => (hb i M h).reads)

/-- A stored weight gradient of another size makes `applyBatch` throw (the earlier ones being in order). -/
theorem applyGrads_mismatch [Zero α] [Add α] [Sub α] [Mul α] [Div α] (N : Num α) (lr : α) {W B : Matrix α} {F n m : Nat}
    {w : Nat → Nat → Nat → α} {b : Nat → α} (hW : W.Shows X Y Z w) (hB : B.Shows F 1 1 (fun f _ _ => b f))
    (wG bG : List (Matrix α)) (gw : Nat → Nat → Nat → Nat → α) (gb : Nat → Nat → α) (hn : wG.length = n) (hn' : bG.length = n)
    (hw : ∀ i < m, ∀ M : Matrix α, wG[i]? = some M → M.Shows X Y Z (gw i))
    (hb : ∀ i < m, ∀ M : Matrix α, bG[i]? = some M → M.Shows F 1 1 (fun f _ _ => gb i f))
    (bad : Matrix α) (hbad : wG[m]? = some bad) (hd : bad.dim ≠ dimN X Y Z) :
    applyGrads N lr W B wG bG = .throw .matrixSize := by
  obtain ⟨aw0, e1, s1⟩ := Matrix.ofDim_shows hW.good (0 : α)
  obtain ⟨ab0, e2, s2⟩ := Matrix.ofDim_shows hB.good (0 : α)
  have hmn : m < n := by
    rw [← hn]
    exact (List.getElem?_eq_some_iff.1 hbad).1
  have e3 := foldlM_range_fail (fun m' (s : Matrix α × Matrix α) => m' ≤ m →
      s.1.Shows X Y Z (fun i j k => sumTo m' (fun s => gw s i j k)) ∧ s.2.Shows F 1 1 (fun f _ _ => sumTo m' (fun s => gb s f)))
    n m hmn
    (fun (s : Matrix α × Matrix α) (i : Nat) => do
      let g ← Res.ofOption wG[i]?
      let aw ← s.1.opAssign (· + ·) g.dim (fun _ => g.read)
      let h ← Res.ofOption bG[i]?
      let ab ← s.2.opAssign (· + ·) h.dim (fun _ => h.read)
      .ok (aw, ab)) (aw0, ab0) (.throw .matrixSize) (fun _ => rfl)
    (fun _ => ⟨s1.congr (by simp [sumTo]), s2.congr (by simp [sumTo])⟩) (by
      intro m' hm s hs
      obtain ⟨h1, h2⟩ := hs (by omega)
      obtain ⟨g, eg⟩ : ∃ g, wG[m']? = some g := ⟨_, List.getElem?_eq_getElem (by omega)⟩
      obtain ⟨h, eh⟩ : ∃ h, bG[m']? = some h := ⟨_, List.getElem?_eq_getElem (by omega)⟩
      have sg := hw m' hm g eg
      have sh := hb m' hm h eh
      obtain ⟨a', ea, sa⟩ := Matrix.opAssign_shows (· + ·) h1 (fun _ => g.read)
        (fun i hi j hj k hk M' _ => sg.entry i hi j hj k hk)
      obtain ⟨b', eb, sb⟩ := Matrix.opAssign_shows (· + ·) h2 (fun _ => h.read)
        (fun i hi j hj k hk M' _ => sh.entry i hi j hj k hk)
      refine ⟨(a', b'), ?_, fun _ => ⟨sa.congr ?_, sb.congr ?_⟩⟩
      · simp only [eg, eh, Res.ofOption, Res.bind_ok, sg.dim, sh.dim, ea, eb]
      · intro i _ j _ k _; rw [sumTo_succ]
      · intro i _ j _ k _; rw [sumTo_succ]) (by
      intro s hs
      obtain ⟨h1, _⟩ := hs (le_refl _)
      simp only [hbad, Res.ofOption, Res.bind_ok, Matrix.opAssign, Matrix.checkSize]
      rw [h1.dim, if_pos (Ne.symm hd)]
      rfl)
  unfold applyGrads
  rw [hW.dim, e1, Res.bind_ok, hB.dim, e2, Res.bind_ok, hn, e3]
  rfl

end Cnn
