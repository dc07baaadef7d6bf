import Verif.Lemmas.ShapeLayer
/-! Helper lemmas: what a layer call does to the sizes a layer object holds, in any arithmetic (C70). -/
set_option linter.unusedSectionVars false
namespace Cnn
variable {α : Type}

namespace Body

/-- `Runs`, with `B` batch slots. -/
def Shaped (B : Nat) (first : Bool) (s : Shape) : Body α → LayerKind → Prop
  | .kernel K, .conv A B' C F => (∃ w β, K.Is A B' C F 1 w β) ∧ K.wGrads.length = B ∧ K.bGrads.length = B
  | .pooling P, .pool t px py sx sy => (P.type = t ∧ P.dim = ⟨px, py⟩ ∧ P.stride = ⟨sx, sy⟩) ∧ P.indices.length = B
  | .connected L, .full n => ((∃ w β, L.Is n (s.X * s.Y * s.Z) w β ∧ (first = true ∨ L.inputDim = dimN s.X s.Y s.Z)) ∨
      (L.initialized = false ∧ L.biases.Has ⟨n, 1, 1⟩)) ∧ L.wGrads.length = B ∧ L.bGrads.length = B
  | .activation _, .act _ => True
  | _, _ => False

/-- The layer has processed an input in slot `b`. -/
def Seen (b : Nat) (s : Shape) : Body α → LayerKind → Prop
  | .pooling P, k => P.type ≠ .avg → ∀ ind, P.indices[b]? = some ind → GoodIndices s (k.out s) ind
  | .connected L, _ => L.initialized = true
  | _, _ => True

/-- The layer has stored gradients in slot `b`. -/
def Filled (b : Nat) (s : Shape) : Body α → LayerKind → Prop
  | .kernel K, .conv A B C F => (∀ g, K.wGrads[b]? = some g → g.Has ⟨A, B, C * F⟩) ∧ ∀ g, K.bGrads[b]? = some g → g.Has ⟨F, 1, 1⟩
  | .connected L, .full n => (∀ g, L.wGrads[b]? = some g → g.Has ⟨n, s.X * s.Y * s.Z, 1⟩) ∧ ∀ g, L.bGrads[b]? = some g → g.Has ⟨n, 1, 1⟩
  | _, _ => True

/-- What the second layer object has kept of the first. -/
structure Keeps (s : Shape) (k : LayerKind) (b b' : Body α) : Prop where
  seen : ∀ j, b.Seen j s k → b'.Seen j s k
  filled : ∀ j, b.Filled j s k → b'.Filled j s k

theorem Keeps.refl (s : Shape) (k : LayerKind) (b : Body α) : Keeps s k b b := ⟨fun _ h => h, fun _ h => h⟩

end Body

theorem setSlot_get {β : Type} {l : List β} {b : Nat} {x g : β} {j : Nat} (h : (l.set b x)[j]? = some g) : g = x ∨ l[j]? = some g := by
  rw [List.getElem?_set] at h
  split_ifs at h with h1 h2
  · left; exact (Option.some.inj h).symm
  · right; exact h

section
variable [Zero α] [One α] [Add α] [Sub α] [Mul α] [Div α] [Neg α]

theorem Connected.forward_later {N : Num α} {draws : Nat → α} {L : Connected α} {n X Y Z : Nat} {w : Nat → Nat → α} {β : Nat → α} {M : Matrix α}
    {x : Nat → Nat → Nat → α} (hL : L.Is n (X * Y * Z) w β) (hM : M.Shows X Y Z x) :
    ∃ Y', L.forward N draws M = (.ok Y', L) ∧ Y'.Has ⟨n, 1, 1⟩ := by
  obtain ⟨out, e, h⟩ := Connected.compute_shows hL hM
  refine ⟨out, ?_, h.has⟩
  unfold Connected.forward
  rw [Connected.later_check N draws hL hM]
  simp [e]

theorem Connected.forward_first {N : Num α} {draws : Nat → α} {L : Connected α} {n X Y Z : Nat} {M : Matrix α}
    {x : Nat → Nat → Nat → α} (hi : L.initialized = false) (hL : L.biases.Has ⟨n, 1, 1⟩) (hM : M.Shows X Y Z x)
    (hn : n * (X * Y * Z) < 2147483648) :
    ∃ (Y' : Matrix α) (L' : Connected α) (w : Nat → Nat → α) (β : Nat → α), L.forward N draws M = (.ok Y', L') ∧ Y'.Has ⟨n, 1, 1⟩ ∧ L'.Is n (X * Y * Z) w β ∧
      L'.inputDim = dimN X Y Z ∧ L'.wGrads = L.wGrads ∧ L'.bGrads = L.bGrads := by
  obtain ⟨β, hL⟩ := hL.col
  have g := hM.good
  have hg : Good n (X * Y * Z) 1 := ⟨hL.good.x, Nat.mul_pos (Nat.mul_pos g.x g.y) g.z, by decide, by omega⟩
  obtain ⟨L', e, h1, h2, h3, h4⟩ := Connected.first_shows N draws hi hL hM hg
  obtain ⟨out, e2, h⟩ := Connected.compute_shows h4 hM
  refine ⟨out, L', _, _, ?_, h.has, h4, h1, h2, h3⟩
  unfold Connected.forward
  rw [e]
  simp [e2]

namespace Body

theorem forward_shaped (N : Num α) (draws : Nat → α) {X : Matrix α} {s : Shape} (hX : X.Has s) {first : Bool} {k : LayerKind}
    (hk : k.Works first s) {B b : Nat} (hb : b < B) {body : Body α} (h : body.Shaped B first s k) :
    ∃ Y body', body.forward N draws X b = .ok (Y, body') ∧ Y.Has (k.out s) ∧ body'.Shaped B first s k ∧ body'.Seen b s k ∧
      Keeps s k body body' := by
  match body, k, h with
  | .kernel K, .conv A B' C F, ⟨⟨w, β, hK⟩, h1, h2⟩ =>
    obtain ⟨_, hZ, hf, _⟩ := hk
    obtain ⟨x, hX⟩ := hX
    rw [hZ] at hX
    obtain ⟨out, e, ho⟩ := Kernel.forward_shows hK hX hf
    refine ⟨out, .kernel K, ?_, ho.has, ⟨⟨w, β, hK⟩, h1, h2⟩, trivial, Keeps.refl _ _ _⟩
    unfold forward; dsimp only
    rw [e]; rfl
  | .pooling P, .pool t px py sx sy, ⟨⟨ht, hd, hs⟩, h1⟩ =>
    obtain ⟨out, ind, e, ho, hi⟩ := Pooling.forward_has N P b hX hd hs hk (by omega)
    refine ⟨out, .pooling { P with indices := P.indices.set b ind }, ?_, ho, ⟨⟨ht, hd, hs⟩, by simpa using h1⟩, ?_, ?_, ?_⟩
    · unfold forward; dsimp only
      rw [e]; rfl
    · intro ha i hi'
      simp only [List.getElem?_set, if_true] at hi'
      split_ifs at hi' 
      obtain rfl := Option.some.inj hi'
      exact hi ha
    · intro j hj ha i hi'
      rcases setSlot_get hi' with rfl | hi'
      · exact hi ha
      · exact hj ha i hi'
    · intro j _; trivial
  | .connected L, .full n, ⟨h0, h1, h2⟩ =>
    obtain ⟨x, hX⟩ := hX
    rcases h0 with ⟨w, β, hL, hi⟩ | ⟨hi, hL⟩
    · obtain ⟨Y, e, hY⟩ := Connected.forward_later (N := N) (draws := draws) hL hX
      refine ⟨Y, .connected L, ?_, hY, ⟨Or.inl ⟨w, β, hL, hi⟩, h1, h2⟩, hL.initialized, Keeps.refl _ _ _⟩
      unfold forward; dsimp only
      rw [e]; rfl
    · obtain ⟨Y, L', w, β, e, hY, hL', hd, hw, hb'⟩ := Connected.forward_first (N := N) (draws := draws) hi hL hX hk.2
      refine ⟨Y, .connected L', ?_, hY, ⟨Or.inl ⟨w, β, hL', Or.inr hd⟩, by rw [hw]; exact h1, by rw [hb']; exact h2⟩, hL'.initialized, ?_, ?_⟩
      · unfold forward; dsimp only
        rw [e]; rfl
      · intro j _; exact hL'.initialized
      · rintro j ⟨a1, a2⟩
        refine ⟨?_, ?_⟩
        · rw [hw]; exact a1
        · rw [hb']; exact a2
  | .activation A, .act f, _ =>
    obtain ⟨Y, e, hY⟩ := Activation.forward_has N A hX
    refine ⟨Y, .activation A, ?_, hY, trivial, trivial, Keeps.refl _ _ _⟩
    unfold forward; dsimp only
    rw [e]; rfl

theorem backward_shaped (N : Num α) {X Z D : Matrix α} {s : Shape} (hX : X.Has s) {first : Bool} {k : LayerKind}
    (hk : k.Works first s) (hZ : Z.Has (k.out s)) (hD : D.Has (k.out s)) {B b : Nat} (hb : b < B) {body : Body α} (h : body.Shaped B first s k)
    (hr : body.Seen b s k) :
    ∃ D' body', body.backward N .dimsFirst X Z D b first = .ok (D', body') ∧ (first = false → D'.Has s) ∧ body'.Shaped B first s k ∧
      body'.Filled b s k ∧ Keeps s k body body' := by
  match body, k, h with
  | .kernel K, .conv A B' C F, ⟨⟨w, β, hK⟩, h1, h2⟩ =>
    obtain ⟨_, hC, hf, hsq⟩ := hk
    obtain ⟨x, hX⟩ := hX
    obtain ⟨d, hD⟩ := hD
    rw [hC] at hX
    obtain ⟨gw, e1, hw⟩ := Kernel.getdLdW_shows hK hX hf hD
    obtain ⟨gb, e2, hgb⟩ := Kernel.getdLdB_has hK hD
    have e3 : setSlot K.wGrads b gw = .ok (K.wGrads.set b gw) := if_pos (by omega)
    have e4 : setSlot K.bGrads b gb = .ok (K.bGrads.set b gb) := if_pos (by omega)
    obtain ⟨R, e5, hR⟩ : ∃ R, (if first = true then Res.ok Matrix.empty else K.getdLdX X D) = .ok R ∧ (first = false → R.Has s) := by
      cases first with
      | true => exact ⟨_, rfl, by simp⟩
      | false =>
        obtain ⟨q1, q2⟩ := hsq.resolve_left (by simp)
        have hx := hf.x
        have hy := hf.y
        have hD' : D.Shows (s.X - A + 1) (s.X - A + 1) F d := by
          have : s.Y - B' + 1 = s.X - A + 1 := by omega
          have h := hD
          simp only [LayerKind.out, this] at h
          exact h
        obtain ⟨R, e, hR⟩ := Kernel.getdLdX_shows hK hX (S := s.X - A + 1) (by omega) (by omega) (by omega) hD'
          (by rw [show s.X - A + 1 - 1 = s.X - A by omega]; rw [← q1] at q2; exact q2)
        refine ⟨R, e, fun _ => ?_⟩
        have := hR.has
        rw [← hC] at this
        exact this
    refine ⟨R, .kernel { K with wGrads := K.wGrads.set b gw, bGrads := K.bGrads.set b gb }, ?_, hR,
      ⟨⟨w, β, ⟨hK.dim, hK.num, hK.stride, hK.weights, hK.biases⟩⟩, by simpa using h1, by simpa using h2⟩, ⟨?_, ?_⟩, ?_, ?_⟩
    · unfold backward; dsimp only; unfold Kernel.backward; dsimp only
      rw [e1, Res.bind_ok, e3, Res.bind_ok, e2, Res.bind_ok, e4, Res.bind_ok]
      cases first with
      | true =>
        have e5 : Res.ok Matrix.empty = Res.ok R := e5
        rw [if_pos rfl, e5]; rfl
      | false =>
        have e5 : K.getdLdX X D = .ok R := by simpa using e5
        rw [if_neg (by simp), e5]; rfl
    · intro g hg
      simp only [List.getElem?_set, if_true] at hg
      split_ifs at hg
      obtain rfl := Option.some.inj hg
      exact hw.has
    · intro g hg
      simp only [List.getElem?_set, if_true] at hg
      split_ifs at hg
      obtain rfl := Option.some.inj hg
      exact hgb
    · intro j _; trivial
    · rintro j ⟨a1, a2⟩
      refine ⟨fun g hg => ?_, fun g hg => ?_⟩
      · rcases setSlot_get hg with rfl | hg
        · exact hw.has
        · exact a1 g hg
      · rcases setSlot_get hg with rfl | hg
        · exact hgb
        · exact a2 g hg
  | .pooling P, .pool t px py sx sy, ⟨⟨ht, hd, hs⟩, h1⟩ =>
    obtain ⟨ind, hi⟩ : ∃ ind, P.indices[b]? = some ind := ⟨_, List.getElem?_eq_getElem (by omega)⟩
    obtain ⟨R, e, hR⟩ := Pooling.backward_has N P (Q := Z) b hX hd hs hk hi (fun ha => hr ha ind hi) hD
    refine ⟨R, .pooling P, ?_, fun _ => hR, ⟨⟨ht, hd, hs⟩, h1⟩, trivial, Keeps.refl _ _ _⟩
    unfold backward; dsimp only
    rw [e]; rfl
  | .connected L, .full n, ⟨h0, h1, h2⟩ =>
    obtain ⟨x, hX⟩ := hX
    have hinit : L.initialized = true := hr
    obtain ⟨w, β, hL, hi⟩ := h0.resolve_right (by rintro ⟨h, _⟩; rw [hinit] at h; exact absurd h (by simp))
    have hDcol := hD
    obtain ⟨d, hD⟩ := Matrix.Has.col hD
    have g := hX.good
    have hg : Good n (s.X * s.Y * s.Z) 1 := hL.weights.good
    obtain ⟨gw, e1, hw⟩ := Connected.getdLdW_shows hX hD hg
    have e3 : setSlot L.wGrads b gw = .ok (L.wGrads.set b gw) := if_pos (by omega)
    have e4 : setSlot L.bGrads b D = .ok (L.bGrads.set b D) := if_pos (by omega)
    obtain ⟨R, e5, hR⟩ : ∃ R, (if first = true then Res.ok Matrix.empty else L.getdLdX .dimsFirst D) = .ok R ∧ (first = false → R.Has s) := by
      cases first with
      | true => exact ⟨_, rfl, by simp⟩
      | false =>
        obtain ⟨R, e, hR⟩ := Connected.getdLdX_shows hL (hi.resolve_left (by simp)) g.x g.y hD
        exact ⟨R, e, fun _ => hR.has⟩
    refine ⟨R, .connected { L with wGrads := L.wGrads.set b gw, bGrads := L.bGrads.set b D }, ?_, hR,
      ⟨Or.inl ⟨w, β, ⟨hL.weights, hL.biases, hL.initialized⟩, hi⟩, by simpa using h1, by simpa using h2⟩, ⟨?_, ?_⟩, ?_, ?_⟩
    · unfold backward; dsimp only; unfold Connected.backward; dsimp only
      rw [e1, Res.bind_ok, e3, Res.bind_ok, e4, Res.bind_ok]
      cases first with
      | true =>
        have e5 : Res.ok Matrix.empty = Res.ok R := e5
        rw [if_pos rfl, e5]; rfl
      | false =>
        have e5 : L.getdLdX .dimsFirst D = .ok R := by simpa using e5
        rw [if_neg (by simp), e5]; rfl
    · intro g hg
      simp only [List.getElem?_set, if_true] at hg
      split_ifs at hg
      obtain rfl := Option.some.inj hg
      exact hw.has
    · intro g hg
      simp only [List.getElem?_set, if_true] at hg
      split_ifs at hg
      obtain rfl := Option.some.inj hg
      exact hDcol
    · intro j h; exact h
    · rintro j ⟨a1, a2⟩
      refine ⟨fun g hg => ?_, fun g hg => ?_⟩
      · rcases setSlot_get hg with rfl | hg
        · exact hw.has
        · exact a1 g hg
      · rcases setSlot_get hg with rfl | hg
        · exact hDcol
        · exact a2 g hg
  | .activation A, .act f, _ =>
    obtain ⟨R, e, hR⟩ := Activation.backward_has N A (X := X) hZ hD
    refine ⟨R, .activation A, ?_, fun _ => hR, trivial, trivial, Keeps.refl _ _ _⟩
    unfold backward; dsimp only
    rw [e]; rfl

/-- The update after a batch whose slots are all filled. -/
theorem applyBatch_shaped (N : Num α) (lr : α) {s : Shape} {first : Bool} {k : LayerKind} {B : Nat} (hB : 0 < B) {body : Body α}
    (h : body.Shaped B first s k) (hr : ∀ b < B, body.Seen b s k) (hf : ∀ b < B, body.Filled b s k) :
    ∃ body', body.applyBatch N lr = .ok body' ∧ body'.Shaped B first s k ∧ Keeps s k body body' := by
  have slots : ∀ {sh : Shape} (l : List (Matrix α)), (∀ b < l.length, ∀ g, l[b]? = some g → g.Has sh) →
      ∃ G : Nat → Nat → Nat → Nat → α, ∀ (i : Nat) (M : Matrix α), l[i]? = some M → M.Shows sh.X sh.Y sh.Z (G i) := by
    intro sh l hl
    have : ∀ i : Nat, ∃ f : Nat → Nat → Nat → α, ∀ M : Matrix α, l[i]? = some M → M.Shows sh.X sh.Y sh.Z f := by
      intro i
      by_cases hi : i < l.length
      · obtain ⟨f, hf⟩ := hl i hi _ (List.getElem?_eq_getElem hi)
        refine ⟨f, fun M hM => ?_⟩
        rw [List.getElem?_eq_getElem hi] at hM
        obtain rfl := Option.some.inj hM
        exact hf
      · exact ⟨fun _ _ _ => 0, fun M hM => absurd hM (by rw [List.getElem?_eq_none (by omega)]; simp)⟩
    choose G hG using this
    exact ⟨G, hG⟩
  have cols : ∀ {F : Nat} (G : Nat → Nat → Nat → Nat → α) (l : List (Matrix α)), (∀ (i : Nat) (M : Matrix α), l[i]? = some M → M.Shows F 1 1 (G i)) →
      ∀ (i : Nat) (M : Matrix α), l[i]? = some M → M.Shows F 1 1 (fun f _ _ => G i f 0 0) := by
    intro F G l hl i M hM
    refine (hl i M hM).congr ?_
    intro a _ b hb c hc
    obtain rfl : b = 0 := by omega
    obtain rfl : c = 0 := by omega
    rfl
  match body, k, h with
  | .kernel K, .conv A B' C F, ⟨⟨w, β, hK⟩, h1, h2⟩ =>
    obtain ⟨Gw, hGw⟩ := slots K.wGrads (fun b hb => (hf b (by omega)).1)
    obtain ⟨Gb, hGb⟩ := slots K.bGrads (fun b hb => (hf b (by omega)).2)
    obtain ⟨W', B'', e, s1, s2⟩ := applyGrads_shows N lr hK.weights hK.biases K.wGrads K.bGrads Gw (fun i f => Gb i f 0 0) h1 h2 hGw
      (cols Gb K.bGrads hGb)
    refine ⟨.kernel { K with weights := W', biases := B'' }, ?_, ⟨⟨_, _, ⟨hK.dim, hK.num, hK.stride, s1, s2⟩⟩, h1, h2⟩, ⟨fun _ h => h, fun _ h => h⟩⟩
    unfold applyBatch; dsimp only; unfold Kernel.applyBatch
    rw [e]; rfl
  | .pooling P, .pool t px py sx sy, h => exact ⟨_, rfl, h, Keeps.refl _ _ _⟩
  | .connected L, .full n, ⟨h0, h1, h2⟩ =>
    have hinit : L.initialized = true := hr 0 hB
    obtain ⟨w, β, hL, hi⟩ := h0.resolve_right (by rintro ⟨h, _⟩; rw [hinit] at h; exact absurd h (by simp))
    obtain ⟨Gw, hGw⟩ := slots L.wGrads (fun b hb => (hf b (by omega)).1)
    obtain ⟨Gb, hGb⟩ := slots L.bGrads (fun b hb => (hf b (by omega)).2)
    obtain ⟨W', B'', e, s1, s2⟩ := applyGrads_shows N lr hL.weights hL.biases L.wGrads L.bGrads Gw (fun i f => Gb i f 0 0) h1 h2 hGw
      (cols Gb L.bGrads hGb)
    have s1' : W'.Shows n (s.X * s.Y * s.Z) 1 (fun i k _ => w i k - lr * (sumTo B (fun q => Gw q i k 0) / N.ofNat B)) := by
      refine s1.congr ?_
      intro i _ j _ k hk
      obtain rfl : k = 0 := by omega
      rfl
    refine ⟨.connected { L with weights := W', biases := B'' }, ?_, ⟨Or.inl ⟨_, _, ⟨s1', s2, hinit⟩, hi⟩, h1, h2⟩, ⟨fun _ h => h, fun _ h => h⟩⟩
    unfold applyBatch; dsimp only; unfold Connected.applyBatch
    rw [e]; rfl
  | .activation A, .act f, _ => exact ⟨_, rfl, trivial, Keeps.refl _ _ _⟩

theorem setBatchSize_shaped {s : Shape} {first : Bool} {k : LayerKind} (B : Nat) {body : Body α} (h : body.Runs first s k) :
    (body.setBatchSize B).Shaped B first s k := by
  match body, k, h with
  | .kernel K, .conv A B' C F, ⟨w, β, hK⟩ =>
    exact ⟨⟨w, β, ⟨hK.dim, hK.num, hK.stride, hK.weights, hK.biases⟩⟩, List.length_replicate, List.length_replicate⟩
  | .pooling P, .pool t px py sx sy, h =>
    refine ⟨h, ?_⟩
    show (Matrix.vecResize P.indices B Matrix.empty).length = B
    simp [Matrix.vecResize]; omega
  | .connected L, .full n, h =>
    refine ⟨?_, List.length_replicate, List.length_replicate⟩
    rcases h with ⟨w, β, hL, hi⟩ | h
    · exact Or.inl ⟨w, β, ⟨hL.weights, hL.biases, hL.initialized⟩, hi⟩
    · exact Or.inr h
  | .activation A, .act f, _ => trivial

end Body
end
end Cnn
