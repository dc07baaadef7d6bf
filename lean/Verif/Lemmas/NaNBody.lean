import Verif.Lemmas.NaNLayer
/-! Helper lemmas: NaN gradients through the layers, backwards (C97). -/
set_option linter.unusedSectionVars false
namespace Cnn
variable {α : Type} {nan : α → Prop}

/-- The kind of gradient a layer passes on. -/
def LayerKind.passes (t : Bool) : LayerKind → Bool
  | .conv .. => true
  | .full _ => true
  | .act _ => t
  | .pool .. => false

/-- What is stored after a NaN gradient. -/
def SpoiltPair (nan : α → Prop) (t : Bool) (s : Shape) (W B : Matrix α) : LayerKind → Prop
  | .conv p q C F => W.Lost nan ⟨p, q, C * F⟩ ∧ B.Lost nan ⟨F, 1, 1⟩
  | .full n => (∃ r < n, NeuronLost nan n (s.X * s.Y * s.Z) r W B) ∧ (t = true → W.Lost nan ⟨n, s.X * s.Y * s.Z, 1⟩ ∧ B.Lost nan ⟨n, 1, 1⟩)
  | _ => True

section
variable [Zero α] [One α] [Add α] [Sub α] [Mul α] [Div α] [Neg α] {E : Env α} (A : Absorbs E nan)
include A

theorem Kernel.getdLdB_nan {K : Kernel α} {a b C F : Nat} {w : Nat → Nat → Nat → α} {β : Nat → α}
    (hK : K.Is a b C F 1 w β) {W H : Nat} {G : Matrix α} (hG : G.Weak nan ⟨W, H, F⟩) :
    ∃ D, K.getdLdB G = .ok D ∧ D.Lost nan ⟨F, 1, 1⟩ := by
  obtain ⟨g, hG, hn⟩ := hG
  dsimp only at hG hn
  obtain ⟨D0, e0, s0⟩ := Matrix.ofDim_shows hK.biases.good (0 : α)
  obtain ⟨D, e1, m, s1, hD⟩ := foldlM_range_inv (fun n (M' : Matrix α) => ∃ m, M'.Shows F 1 1 m ∧ ∀ f < F, f < n → nan (m f 0 0)) F
    (fun (dLdB : Matrix α) (f : Nat) => do
      let v ← View.slice G.dim f
      let s ← (v.expr G).sum
      dLdB.setFlat f s) D0 ⟨_, s0, fun _ _ h => absurd h (by omega)⟩ (by
      rintro f hf M' ⟨m, hM', hm⟩
      obtain ⟨eg, sg⟩ := Kernel.slice_shows hG hf
      obtain ⟨M2, e2, s2⟩ := hM'.setFlat (n := f) (by show f < F * 1 * 1; omega) (sumTo (W * H * 1) (fun n => g (n % W) (n / W % H) f))
      refine ⟨M2, ?_, _, s2, ?_⟩
      · rw [eg, Res.bind_ok, MExpr.sum_eq_sumTo sg, Res.bind_ok]; exact e2
      · intro f' hf' hlt
        have hfl : fl F 1 f' 0 0 = f' := by simp [fl]
        simp only [hfl]
        split
        · obtain ⟨i, hi, j, hj, hn⟩ := hn f hf
          refine A.sumTo (k := fl W H i j 0) (fl_lt hi hj Nat.one_pos) ?_
          rw [fl_mod hi, fl_div_mod hi hj]
          exact hn
        · exact hm f' hf' (by omega))
  refine ⟨D, ?_, m, s1, ?_⟩
  · unfold getdLdB
    rw [hK.biases.dim, e0, Res.bind_ok, hK.num]
    exact e1
  · intro i hi j hj k hk
    obtain rfl : j = 0 := Nat.lt_one_iff.1 hj
    obtain rfl : k = 0 := Nat.lt_one_iff.1 hk
    exact hD i hi hi

theorem Kernel.getdLdW_nan {K : Kernel α} {a b C F X Y : Nat} {w : Nat → Nat → Nat → α} {β : Nat → α} (hK : K.Is a b C F 1 w β) {M G : Matrix α}
    {x : Nat → Nat → Nat → α} (hM : M.Shows X Y C x) (hf : ConvFits X Y a b F) (hG : G.Weak nan ⟨X - a + 1, Y - b + 1, F⟩) :
    ∃ D, K.getdLdW M G = .ok D ∧ D.Lost nan ⟨a, b, C * F⟩ := by
  obtain ⟨g, hG, hn⟩ := hG
  obtain ⟨D, e, hD⟩ := Kernel.getdLdW_shows hK hM hf hG
  refine ⟨D, e, _, hD, ?_⟩
  intro i _ j _ k hk
  obtain ⟨_, _, hC0, _⟩ := Kernel.sizes hK
  obtain ⟨p, hp, q, hq, hn⟩ := hn (k / C) ((Nat.div_lt_iff_lt_mul hC0).2 (by rwa [Nat.mul_comm] at hk))
  exact A.sumTo2 hp hq (A.mul_right _ _ hn)

theorem Kernel.getdLdX_nan {K : Kernel α} {a b C F X Y : Nat} {w : Nat → Nat → Nat → α} {β : Nat → α} (hK : K.Is a b C F 1 w β) {M G : Matrix α}
    {x : Nat → Nat → Nat → α} (hM : M.Shows X Y C x) {S : Nat} (hS : 0 < S) (hX : a + S = X + 1) (hY : b + S = Y + 1)
    (hG : G.Weak nan ⟨S, S, F⟩) (hpad : (a + 2 * (S - 1)) * (b + 2 * (S - 1)) < 2147483648) :
    ∃ D, K.getdLdX M G = .ok D ∧ D.Lost nan ⟨X, Y, C⟩ := by
  obtain ⟨g, hG, hn⟩ := hG
  dsimp only at hG hn
  obtain ⟨D, e, hD⟩ := Kernel.getdLdX_shows hK hM hS hX hY hG hpad
  refine ⟨D, e, _, hD, ?_⟩
  intro i _ j _ k hk
  obtain ⟨_, _, _, hF0, _⟩ := Kernel.sizes hK
  obtain ⟨p, hp, q, hq, hn⟩ := hn 0 hF0
  refine A.sumTo hF0 (A.sumTo2 (i := S - 1 - p) (j := S - 1 - q) (by omega) (by omega) (A.mul_right _ _ ?_))
  rwa [show S - 1 - (S - 1 - p) = p by omega, show S - 1 - (S - 1 - q) = q by omega]

theorem Pooling.backward_nan (P : Pooling) {M Q G : Matrix α} {s : Shape} {px py sx sy : Nat} (b : Nat) (hM : M.Has s) (hd : P.dim = ⟨px, py⟩)
    (hs : P.stride = ⟨sx, sy⟩) (hf : PoolFits s.X s.Y px py sx sy) {ind : Matrix Dim3} (hi : P.indices[b]? = some ind)
    (hind : P.type ≠ .avg → GoodIndices s ⟨windows s.X px sx, windows s.Y py sy, s.Z⟩ ind)
    (hG : G.Weak nan ⟨windows s.X px sx, windows s.Y py sy, s.Z⟩) : ∃ D, P.backward E.num M Q G b = .ok D ∧ D.Weak nan s := by
  obtain ⟨x, hM⟩ := hM
  obtain ⟨d, hG, hn⟩ := hG
  dsimp only at hG hn
  have g := hM.good
  have go := good_out g hf
  obtain ⟨D0, e0, s0⟩ := Matrix.ofDim_shows g (0 : α)
  let Inv : Nat → Matrix α → Prop := fun n D => ∃ f, D.Shows s.X s.Y s.Z f ∧ ∀ p < windows s.X px sx, ∀ q < windows s.Y py sy, ∀ l < s.Z,
    fl (windows s.X px sx) (windows s.Y py sy) p q l < n → nan (d p q l) → ∃ i < s.X, ∃ j < s.Y, nan (f i j l)
  have h0 : Inv 0 D0 := ⟨_, s0, fun _ _ _ _ _ _ h => absurd h (by omega)⟩
  have hend : ∀ D, Inv (windows s.X px sx * windows s.Y py sy * s.Z) D → D.Weak nan s := by
    rintro D ⟨f, hD, h⟩
    refine ⟨f, hD, fun k hk => ?_⟩
    obtain ⟨p, hp, q, hq, hn⟩ := hn k hk
    exact h p hp q hq k hk (fl_lt hp hq hk) hn
  by_cases ht : P.type = .avg
  · obtain ⟨D, el, sD⟩ := forRange_inv (σ := Matrix α) go.x go.y (Z := s.Z) Inv
      (fun (D : Matrix α) it => do
        let inIdx ← P.corner it.idx
        let v ← View.create D.dim inIdx P.window
        let g ← G.flat it.scalar
        v.opScalar (· + ·) D (fun _ => .ok (g / E.num.ofNat (u64 (P.dim.x * P.dim.y))))) D0 h0 (by
        rintro p hp q hq l hl D ⟨f, hD, hInv⟩
        have hb := box (Z := s.Z) hf hp hq hl
        obtain ⟨D', e', s'⟩ := View.opScalar_shows (· + ·) hD hb hf.px0 hf.py0 (d p q l / E.num.ofNat (u64 (P.dim.x * P.dim.y)))
        refine ⟨D', ?_, _, s', ?_⟩
        · rw [hD.dim]
          simp only [corner_eq g hf hs hp hq, Res.bind_ok]
          rw [show P.window = dimN px py 1 by simp [window, hd], View.create_ok g hb, Res.bind_ok]
          simp only [hG.flat_fl hp hq hl, Res.bind_ok]
          exact e'
        · intro p' hp' q' hq' l' hl' hlt hn'
          rcases Nat.lt_or_ge (fl (windows s.X px sx) (windows s.Y py sy) p' q' l') (fl (windows s.X px sx) (windows s.Y py sy) p q l) with h | h
          · obtain ⟨i, hi, j, hj, hn⟩ := hInv p' hp' q' hq' l' hl' h hn'
            refine ⟨i, hi, j, hj, ?_⟩
            split
            · exact A.add_left _ _ hn
            · exact hn
          · have heq : fl (windows s.X px sx) (windows s.Y py sy) p' q' l' = fl (windows s.X px sx) (windows s.Y py sy) p q l := by omega
            obtain ⟨rfl, rfl, rfl⟩ := fl_inj hp' hq' hp hq heq
            have := hb.x
            have := hb.y
            have := hf.px0
            have := hf.py0
            refine ⟨p' * sx, by omega, q' * sy, by omega, ?_⟩
            rw [if_pos ⟨⟨by omega, by omega⟩, ⟨by omega, by omega⟩, ⟨by omega, by omega⟩⟩]
            exact A.add_right _ _ (A.div_left _ _ hn'))
    refine ⟨D, ?_, hend D sD⟩
    unfold backward getdLdX
    rw [hM.dim, e0, Res.bind_ok, hi, Res.ofOption_some, Res.bind_ok]
    simp only [ht, hG.dim]
    exact el
  · obtain ⟨u, v, hshow, hin⟩ := hind ht
    obtain ⟨D, el, sD⟩ := forRange_inv (σ := Matrix α) go.x go.y (Z := s.Z) Inv
      (fun (D : Matrix α) it => do
        let p ← ind.flat it.scalar
        let g ← G.read it.idx
        let a ← D.read p
        D.write p (a + g)) D0 h0 (by
        rintro p hp q hq l hl D ⟨f, hD, hInv⟩
        obtain ⟨h1, h2, h3⟩ := hin p hp q hq l hl
        have hfl : ind.flat (fl (windows s.X px sx) (windows s.Y py sy) p q l) = _ := hshow.flat_fl hp hq hl
        obtain ⟨D', e', s'⟩ := hD.write h1 h2 h3 (f (u p q l) (v p q l) l + d p q l)
        refine ⟨D', ?_, _, s', ?_⟩
        · simp only [hfl, Res.bind_ok, hG.entry p hp q hq l hl, hD.entry _ h1 _ h2 _ h3]
          exact e'
        · intro p' hp' q' hq' l' hl' hlt hn'
          rcases Nat.lt_or_ge (fl (windows s.X px sx) (windows s.Y py sy) p' q' l') (fl (windows s.X px sx) (windows s.Y py sy) p q l) with h | h
          · obtain ⟨i, hi, j, hj, hn⟩ := hInv p' hp' q' hq' l' hl' h hn'
            refine ⟨i, hi, j, hj, ?_⟩
            split
            · next h => obtain ⟨rfl, rfl, rfl⟩ := h; exact A.add_left _ _ hn
            · exact hn
          · have heq : fl (windows s.X px sx) (windows s.Y py sy) p' q' l' = fl (windows s.X px sx) (windows s.Y py sy) p q l := by omega
            obtain ⟨rfl, rfl, rfl⟩ := fl_inj hp' hq' hp hq heq
            refine ⟨_, h1, _, h2, ?_⟩
            rw [if_pos ⟨rfl, rfl, rfl⟩]
            exact A.add_right _ _ hn')
    refine ⟨D, ?_, hend D sD⟩
    have hdim : ind.dim = dimN (windows s.X px sx) (windows s.Y py sy) s.Z := hshow.dim
    unfold backward getdLdX
    rw [hM.dim, e0, Res.bind_ok, hi, Res.ofOption_some, Res.bind_ok]
    cases htt : P.type with
    | avg => exact absurd htt ht
    | min => simp only [hdim]; exact el
    | max => simp only [hdim]; exact el

theorem Activation.backward_nan (Act : Activation) {X Z D : Matrix α} {s : Shape} {t : Bool} (hZ : Z.Has s) (hD : D.Bad nan t s) :
    ∃ P, Act.backward E.num X Z D = .ok P ∧ P.Bad nan t s := by
  have key : ∀ d, D.Shows s.X s.Y s.Z d → ∃ P f, Act.backward E.num X Z D = .ok P ∧ P.Shows s.X s.Y s.Z f ∧ ∀ i j k, nan (d i j k) → nan (f i j k) := by
    intro d hD
    obtain ⟨z, hZ⟩ := hZ
    obtain ⟨G, e1, h1⟩ := Matrix.ofExpr_shows (MExpr.un_shows (Act.gradFn.grad E.num) hZ.expr) (id : α → α)
    obtain ⟨Ex, e2, h2⟩ := MExpr.bin_shows (· * ·) hD.expr h1.expr
    obtain ⟨P, e, h⟩ := Matrix.ofExpr_shows h2 (id : α → α)
    refine ⟨P, _, ?_, h, fun i j k hn => A.mul_left _ _ hn⟩
    unfold Activation.backward Activation.gradient
    rw [e1, Res.bind_ok, e2, Res.bind_ok, e]
  cases t with
  | true =>
    obtain ⟨d, hd, hn⟩ := hD
    obtain ⟨P, f, e, hP, h⟩ := key d hd
    exact ⟨P, e, f, hP, fun i hi j hj k hk => h _ _ _ (hn i hi j hj k hk)⟩
  | false =>
    obtain ⟨d, hd, hn⟩ := hD
    obtain ⟨P, f, e, hP, h⟩ := key d hd
    refine ⟨P, e, f, hP, fun k hk => ?_⟩
    obtain ⟨i, hi, j, hj, hn⟩ := hn k hk
    exact ⟨i, hi, j, hj, h _ _ _ hn⟩

/-- A layer that gets a NaN gradient stores NaNs and passes on a NaN gradient. -/
theorem Body.backward_nan {X Z D : Matrix α} {s : Shape} (hX : X.Has s) {first : Bool} {k : LayerKind}
    (hk : k.Works first s) (hZ : Z.Has (k.out s)) {t : Bool} (hD : D.Bad nan t (k.out s)) {B b : Nat} (hb : b < B) {body : Body α} (h : body.Shaped B first s k)
    (hr : body.Seen b s k) :
    ∃ D' body', body.backward E.num .dimsFirst X Z D b first = .ok (D', body') ∧ (first = false → D'.Bad nan (k.passes t) s) ∧
      ∀ W Bi, body'.stored b = some (W, Bi) → SpoiltPair nan t s W Bi k := by
  match body, k, h with
  | .kernel K, .conv a B' C F, ⟨⟨w, β, hK⟩, h1, h2⟩ =>
    obtain ⟨_, hC, hf, hsq⟩ := hk
    obtain ⟨x, hX⟩ := hX
    have hD := hD.weak
    rw [hC] at hX
    obtain ⟨gw, e1, hw⟩ := Kernel.getdLdW_nan A hK hX hf hD
    obtain ⟨gb, e2, hgb⟩ := Kernel.getdLdB_nan A hK hD
    have e3 : setSlot K.wGrads b gw = .ok (K.wGrads.set b gw) := if_pos (by omega)
    have e4 : setSlot K.bGrads b gb = .ok (K.bGrads.set b gb) := if_pos (by omega)
    obtain ⟨R, e5, hR⟩ : ∃ R, (if first = true then Res.ok Matrix.empty else K.getdLdX X D) = .ok R ∧ (first = false → R.Lost nan s) := by
      cases first with
      | true => exact ⟨_, rfl, by simp⟩
      | false =>
        obtain ⟨q1, q2⟩ := hsq.resolve_left (by simp)
        have hx := hf.x
        have hy := hf.y
        have hD' : D.Weak nan ⟨s.X - a + 1, s.X - a + 1, F⟩ := by
          have : s.Y - B' + 1 = s.X - a + 1 := by omega
          have h := hD
          simp only [LayerKind.out, this] at h
          exact h
        obtain ⟨R, e, hR⟩ := Kernel.getdLdX_nan A hK hX (S := s.X - a + 1) (by omega) (by omega) (by omega) hD'
          (by rw [show s.X - a + 1 - 1 = s.X - a by omega]; rw [← q1] at q2; exact q2)
        refine ⟨R, e, fun _ => ?_⟩
        rw [← hC] at hR
        exact hR
    refine ⟨R, .kernel { K with wGrads := K.wGrads.set b gw, bGrads := K.bGrads.set b gb }, ?_, hR, ?_⟩
    · unfold backward; dsimp only; unfold Kernel.backward; dsimp only
      rw [e1, Res.bind_ok, e3, Res.bind_ok, e2, Res.bind_ok, e4, Res.bind_ok]
      cases first with
      | true =>
        have e5 : Res.ok Matrix.empty = Res.ok R := e5
        rw [if_pos rfl, e5]; rfl
      | false =>
        have e5 : K.getdLdX X D = .ok R := by simpa using e5
        rw [if_neg (by simp), e5]; rfl
    · intro W Bi hst
      simp only [Body.stored, List.getElem?_set, if_true, h1, h2, hb, Option.bind_some, Option.map_some, Option.some.injEq, Prod.mk.injEq] at hst
      obtain ⟨rfl, rfl⟩ := hst
      exact ⟨hw, hgb⟩
  | .pooling P, .pool ty px py sx sy, ⟨⟨ht, hd, hs⟩, h1⟩ =>
    obtain ⟨ind, hi⟩ : ∃ ind, P.indices[b]? = some ind := ⟨_, List.getElem?_eq_getElem (by omega)⟩
    obtain ⟨R, e, hR⟩ := Pooling.backward_nan A P (Q := Z) b hX hd hs hk hi (fun ha => hr ha ind hi) hD.weak
    refine ⟨R, .pooling P, ?_, fun _ => hR, fun _ _ _ => trivial⟩
    unfold backward; dsimp only
    rw [e]; rfl
  | .connected L, .full n, ⟨h0, h1, h2⟩ =>
    obtain ⟨x, hX⟩ := hX
    have hinit : L.initialized = true := hr
    obtain ⟨w, β, hL, hi⟩ := h0.resolve_right (by rintro ⟨h, _⟩; rw [hinit] at h; exact absurd h (by simp))
    obtain ⟨d, hDs, hd⟩ : ∃ d : Nat → α, D.Shows n 1 1 (fun i _ _ => d i) ∧ (∃ r < n, nan (d r)) ∧ (t = true → ∀ r < n, nan (d r)) := by
      have cong : ∀ {f : Nat → Nat → Nat → α}, D.Shows n 1 1 f → D.Shows n 1 1 (fun i _ _ => f i 0 0) := by
        intro f hf
        refine hf.congr ?_
        intro i _ j hj k hk
        obtain rfl : j = 0 := Nat.lt_one_iff.1 hj
        obtain rfl : k = 0 := Nat.lt_one_iff.1 hk
        rfl
      cases t with
      | true =>
        obtain ⟨f, hf, hn⟩ := hD
        exact ⟨fun i => f i 0 0, cong hf, ⟨0, hf.good.x, hn 0 hf.good.x 0 Nat.one_pos 0 Nat.one_pos⟩, fun _ r hr => hn r hr 0 Nat.one_pos 0 Nat.one_pos⟩
      | false =>
        obtain ⟨f, hf, hn⟩ := hD
        obtain ⟨i, hi, j, hj, hn⟩ := hn 0 Nat.one_pos
        obtain rfl : j = 0 := Nat.lt_one_iff.1 hj
        exact ⟨fun i => f i 0 0, cong hf, ⟨i, hi, hn⟩, by simp⟩
    have g := hX.good
    have hg : Good n (s.X * s.Y * s.Z) 1 := hL.weights.good
    obtain ⟨gw, e1, hw⟩ := Connected.getdLdW_shows hX hDs hg
    have hrow : ∀ r, nan (d r) → ∀ k, nan (sumTo 1 (fun _ => d r * flatOf s.X s.Y x k)) := fun r hr k => A.sumTo (k := 0) Nat.one_pos (A.mul_left _ _ hr)
    have e3 : setSlot L.wGrads b gw = .ok (L.wGrads.set b gw) := if_pos (by omega)
    have e4 : setSlot L.bGrads b D = .ok (L.bGrads.set b D) := if_pos (by omega)
    obtain ⟨R, e5, hR⟩ : ∃ R, (if first = true then Res.ok Matrix.empty else L.getdLdX .dimsFirst D) = .ok R ∧ (first = false → R.Lost nan s) := by
      cases first with
      | true => exact ⟨_, rfl, by simp⟩
      | false =>
        obtain ⟨R, e, hR⟩ := Connected.getdLdX_shows hL (hi.resolve_left (by simp)) g.x g.y hDs
        obtain ⟨r, hr, hn⟩ := hd.1
        exact ⟨R, e, fun _ => ⟨_, hR, fun i _ j _ k _ => A.sumTo hr (A.mul_right _ _ hn)⟩⟩
    refine ⟨R, .connected { L with wGrads := L.wGrads.set b gw, bGrads := L.bGrads.set b D }, ?_, hR, ?_⟩
    · unfold backward; dsimp only; unfold Connected.backward; dsimp only
      rw [e1, Res.bind_ok, e3, Res.bind_ok, e4, Res.bind_ok]
      cases first with
      | true =>
        have e5 : Res.ok Matrix.empty = Res.ok R := e5
        rw [if_pos rfl, e5]; rfl
      | false =>
        have e5 : L.getdLdX .dimsFirst D = .ok R := by simpa using e5
        rw [if_neg (by simp), e5]; rfl
    · intro W Bi hst
      simp only [Body.stored, List.getElem?_set, if_true, h1, h2, hb, Option.bind_some, Option.map_some, Option.some.injEq, Prod.mk.injEq] at hst
      obtain ⟨rfl, rfl⟩ := hst
      refine ⟨?_, fun ht => ⟨⟨_, hw, fun i hi j _ k _ => hrow i (hd.2 ht i hi) j⟩, ⟨_, hDs, fun i hi _ _ _ _ => hd.2 ht i hi⟩⟩⟩
      obtain ⟨r, hr, hn⟩ := hd.1
      exact ⟨r, hr, ⟨_, hw, fun j _ => hrow r hn j⟩, ⟨_, hDs, hn⟩⟩
  | .activation Act, .act f, _ =>
    obtain ⟨R, e, hR⟩ := Activation.backward_nan A Act (X := X) hZ hD
    refine ⟨R, .activation Act, ?_, fun _ => hR, fun _ _ _ => trivial⟩
    unfold backward; dsimp only
    rw [e]; rfl

end
end Cnn
