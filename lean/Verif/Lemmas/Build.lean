import Verif.Spec.Build
import Verif.Lemmas.NetFresh
/-! Helper lemmas: models built with the `add…` functions (C69). -/
namespace Cnn
open Finset

theorem Kernel.new_is (draws : Nat → ℝ) {A B C F : Nat} (hA : 0 < A) (hB : 0 < B) (hC : 0 < C) (hF : 0 < F)
    (h : A * B * (C * F) < 2147483648) : ∃ K : Kernel ℝ, Kernel.new Num.real draws ⟨A, B, C⟩ F 1 = .ok K ∧
      K.Is A B C F 1 (fun i j k => unitDraws (A * B * (C * F)) draws (i + A * (j + B * k)))
        (fun f => unitDraws F (fun r => draws (A * B * (C * F) + r)) f) := by
  have hCF : 0 < C * F := Nat.mul_pos hC hF
  have g : Good A B (C * F) := ⟨hA, hB, hCF, h⟩
  have hlt : C * F < 2147483648 := lt_of_le_of_lt (Nat.le_mul_of_pos_left _ (Nat.mul_pos hA hB)) h
  have hFlt : F < 2147483648 := lt_of_le_of_lt (Nat.le_mul_of_pos_left _ hC) hlt
  have gF : Good F 1 1 := ⟨hF, by decide, by decide, by omega⟩
  obtain ⟨W, e1, s1⟩ := Matrix.ofDim_shows g (0 : ℝ)
  obtain ⟨Bi, e2, s2⟩ := Matrix.ofDim_shows gF (0 : ℝ)
  obtain ⟨W', B', e3, s3, s4⟩ := initParams_shows Num.real draws s1 s2
  refine ⟨⟨dimN A B C, F, 1, W', B', [], []⟩, ?_, ⟨rfl, rfl, rfl, s3.congr ?_, s4.congr ?_⟩⟩
  · have e1' : Matrix.ofDim ⟨(A : Int), (B : Int), wrap32 ((C : Int) * (F : Int))⟩ (0 : ℝ) = .ok W := by
      rw [← e1, ← Nat.cast_mul, wrap32_nat hlt]
    have e2' : Matrix.ofDim ⟨wrap32 (F : Int), 1, 1⟩ (0 : ℝ) = .ok Bi := by
      rw [← e2, wrap32_nat hFlt]; rfl
    unfold Kernel.new
    rw [e1', Res.bind_ok, e2', Res.bind_ok, e3]; rfl
  · intro i _ j _ k _
    rw [normOf_real]
    unfold unitDraws fl
    rw [show i + j * A + k * (A * B) = i + A * (j + B * k) by ring]
  · intro f _ _ _ _ _
    rw [normOf_real]; rfl

theorem Connected.new_shows {n : Nat} (hn : 0 < n) (h : n < 2147483648) : ∃ L : Connected ℝ, Connected.new (u32 n) = .ok L ∧
    L.initialized = false ∧ ∃ f, L.biases.Shows n 1 1 f := by
  obtain ⟨Bi, e2, s2⟩ := Matrix.ofDim_shows (X := n) (Y := 1) (Z := 1) ⟨hn, by decide, by decide, by omega⟩ (0 : ℝ)
  have hu : u32 n = n := Nat.mod_eq_of_lt (by omega)
  have e1 : ∃ W, Matrix.ofDim (0 : Dim3) (0 : ℝ) = .ok W := ⟨_, rfl⟩
  obtain ⟨W, e1⟩ := e1
  refine ⟨⟨W, Bi, 0, false, [], []⟩, ?_, rfl, _, s2⟩
  have e2' : Matrix.ofDim ⟨wrap32 (n : Int), 1, 1⟩ (0 : ℝ) = .ok Bi := by
    rw [← e2, wrap32_nat h]; rfl
  unfold Connected.new
  rw [hu, e1, Res.bind_ok, e2']; rfl

/-- One call adds one layer, which starts as the layer with random weights. -/
theorem LayerKind.add_starts (draws : Nat → ℝ) (M : Model ℝ) (k : LayerKind) {s : Shape} (h : k.Sized s) (first : Bool) :
    ∃ M' L, k.add Num.real draws M = .ok M' ∧ M'.layers = M.layers ++ [L] ∧ L.body.Starts draws first s (k.drawn draws s) := by
  cases k with
  | conv A B C F =>
    obtain ⟨h1, h2, h3, h4, h5⟩ := h
    have hlt : C * F < 2147483648 := lt_of_le_of_lt (Nat.le_mul_of_pos_left _ (Nat.mul_pos h1 h2)) h5
    have hFlt : F < 2147483648 := lt_of_le_of_lt (Nat.le_mul_of_pos_left _ h3) hlt
    obtain ⟨K, e, hK⟩ := Kernel.new_is draws h1 h2 h3 h4 h5
    have hu : u32 F = F := Nat.mod_eq_of_lt (by omega)
    have he : (LayerKind.conv A B C F).add Num.real draws M = .ok { M.append (Model.layerName "Kernel" (M.kernels + 1)) (.kernel K) with kernels := M.kernels + 1 } := by
      show M.addKernel Num.real draws ⟨A, B, C⟩ F = _
      unfold Model.addKernel
      rw [hu, e]; rfl
    exact ⟨_, ⟨_, .kernel K⟩, he, rfl, hK⟩
  | pool t px py sx sy => exact ⟨_, _, rfl, rfl, rfl, rfl, rfl⟩
  | full n =>
    obtain ⟨h1, h2, h3⟩ := h
    obtain ⟨L, e, hi, hb⟩ := Connected.new_shows h1 (lt_of_le_of_lt (Nat.le_mul_of_pos_right _ h2) h3)
    have he : (LayerKind.full n).add Num.real draws M =
        .ok { M.append (Model.layerName "FullyConnected" (M.connecteds + 1)) (.connected L) with connecteds := M.connecteds + 1 } := by
      show M.addConnected n = _
      unfold Model.addConnected
      rw [e]; rfl
    exact ⟨_, ⟨_, .connected L⟩, he, rfl, Or.inr ⟨hi, hb, h2, h3, fun _ _ _ _ => rfl, fun _ _ => rfl⟩⟩
  | act f => exact ⟨_, _, rfl, rfl, rfl⟩

theorem addLayers_starts (draws : Nat → Nat → ℝ) (ks : List LayerKind) (i : Nat) (s : Shape) (M : Model ℝ) (hi : M.layers.length = i)
    (h : AllSized draws i s ks) : ∃ (M' : Model ℝ) (Ls : List (Layer ℝ)), addLayers Num.real draws i ks M = .ok M' ∧ M'.layers = M.layers ++ Ls ∧
      Ls.length = ks.length ∧ ∀ (j : Nat) (L : Layer ℝ) (l : NetLayer), Ls[j]? = some L → (drawnNet draws i s ks)[j]? = some l →
        ∀ first, L.body.Starts (draws (i + j)) first (netOut ((drawnNet draws i s ks).take j) s) l := by
  induction ks generalizing i s M with
  | nil => exact ⟨M, [], rfl, by simp, rfl, by simp⟩
  | cons k ks ih =>
    obtain ⟨M1, L1, e1, hL1, _⟩ := k.add_starts (draws i) M h.1 true
    obtain ⟨M', Ls, e, hLs, hlen, hget⟩ := ih (i + 1) _ M1 (by rw [hL1]; simp [hi]) h.2
    refine ⟨M', L1 :: Ls, ?_, by rw [hLs, hL1]; simp, by simp [hlen], ?_⟩
    · unfold addLayers; rw [e1, Res.bind_ok, e]
    · intro j L l hL hl first
      cases j with
      | zero =>
        obtain rfl : L1 = L := by simpa using hL
        obtain rfl : k.drawn (draws i) s = l := by simpa [drawnNet] using hl
        obtain ⟨M2, L2, e2, hL2, hst⟩ := k.add_starts (draws i) M h.1 first
        rw [e1] at e2
        obtain rfl := Res.ok.inj e2
        rw [hL1] at hL2
        obtain rfl : L1 = L2 := by simpa using hL2
        simpa [netOut] using hst
      | succ j =>
        have := hget j L l (by simpa using hL) (by simpa [drawnNet] using hl) first
        rw [show i + (j + 1) = i + 1 + j by omega]
        simpa [drawnNet, netOut] using this

theorem drawnNet_length (draws : Nat → Nat → ℝ) (i : Nat) (s : Shape) (ks : List LayerKind) : (drawnNet draws i s ks).length = ks.length := by
  induction ks generalizing i s with
  | nil => rfl
  | cons k ks ih => simp [drawnNet, ih]

/-- A built model starts as the network with random weights. -/
theorem buildModel_starts (draws : Nat → Nat → ℝ) (ks : List LayerKind) (labels : List (List Char)) {s : Shape}
    (h : AllSized draws 0 s ks) (hout : netOut (drawnNet draws 0 s ks) s = ⟨labels.length, 1, 1⟩ ∨ netOut (drawnNet draws 0 s ks) s = ⟨1, labels.length, 1⟩) :
    ∃ M, buildModel Num.real draws ks labels = .ok M ∧ M.labels = labels ∧ M.Starts draws s (drawnNet draws 0 s ks) labels.length := by
  obtain ⟨M, Ls, e, hLs, hlen, hget⟩ := addLayers_starts draws ks 0 s Model.new rfl h
  have hLs : M.layers = Ls := by rw [hLs]; rfl
  have hd := drawnNet_length draws 0 s ks
  refine ⟨M.setOutputLabels labels true, ?_, rfl, ?_, ?_, ?_, rfl, hout⟩
  · unfold buildModel; rw [e, Res.bind_ok]
  · simp [Model.setOutputLabels, Model.append, hLs, hlen, hd]
  · intro i L l hL hl
    have hi : i < ks.length := by rw [← hd]; exact (List.getElem?_eq_some_iff.1 hl).1
    have hL : Ls[i]? = some L := by
      simpa [Model.setOutputLabels, Model.append, hLs, List.getElem?_append_left (show i < Ls.length by omega)] using hL
    have := hget i L l hL hl (decide (i = 0))
    rwa [Nat.zero_add] at this
  · refine ⟨⟨"SoftmaxOutput".toList, .softmax (Softmax.new labels.length)⟩, Softmax.new labels.length, ?_, rfl, rfl⟩
    simp only [Model.setOutputLabels, Model.append, hLs, hd, ← hlen, if_true]
    simp

end Cnn
