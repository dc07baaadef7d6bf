import Verif.Lemmas.ShapeModel
import Verif.Lemmas.Params
/-! Helper lemmas: building a model in any arithmetic (C70). -/
set_option linter.unusedSectionVars false
namespace Cnn
variable {α : Type} [Zero α] [One α] [Add α] [Sub α] [Mul α] [Div α] [Neg α]

theorem Kernel.new_any (N : Num α) (draws : Nat → α) {A B C F : Nat} (hA : 0 < A) (hB : 0 < B) (hC : 0 < C) (hF : 0 < F)
    (h : A * B * (C * F) < 2147483648) : ∃ (K : Kernel α) (w : Nat → Nat → Nat → α) (β : Nat → α), Kernel.new N draws ⟨A, B, C⟩ F 1 = .ok K ∧ K.Is A B C F 1 w β := by
  have hCF : 0 < C * F := Nat.mul_pos hC hF
  have g : Good A B (C * F) := ⟨hA, hB, hCF, h⟩
  have hlt : C * F < 2147483648 := lt_of_le_of_lt (Nat.le_mul_of_pos_left _ (Nat.mul_pos hA hB)) h
  have hFlt : F < 2147483648 := lt_of_le_of_lt (Nat.le_mul_of_pos_left _ hC) hlt
  have gF : Good F 1 1 := ⟨hF, by decide, by decide, by omega⟩
  obtain ⟨W, e1, s1⟩ := Matrix.ofDim_shows g (0 : α)
  obtain ⟨Bi, e2, s2⟩ := Matrix.ofDim_shows gF (0 : α)
  obtain ⟨W', B', e3, s3, s4⟩ := initParams_shows N draws s1 s2
  obtain ⟨β, s4⟩ := s4.has.col
  refine ⟨⟨dimN A B C, F, 1, W', B', [], []⟩, _, β, ?_, ⟨rfl, rfl, rfl, s3, s4⟩⟩
  have e1' : Matrix.ofDim ⟨(A : Int), (B : Int), wrap32 ((C : Int) * (F : Int))⟩ (0 : α) = .ok W := by
    rw [← e1, ← Nat.cast_mul, wrap32_nat hlt]
  have e2' : Matrix.ofDim ⟨wrap32 (F : Int), 1, 1⟩ (0 : α) = .ok Bi := by
    rw [← e2, wrap32_nat hFlt]; rfl
  unfold Kernel.new
  rw [e1', Res.bind_ok, e2', Res.bind_ok, e3]; rfl

theorem Connected.new_any {n : Nat} (hn : 0 < n) (h : n < 2147483648) : ∃ L : Connected α, Connected.new (u32 n) = .ok L ∧
    L.initialized = false ∧ L.biases.Has ⟨n, 1, 1⟩ := by
  obtain ⟨Bi, e2, s2⟩ := Matrix.ofDim_shows (X := n) (Y := 1) (Z := 1) ⟨hn, by decide, by decide, by omega⟩ (0 : α)
  have hu : u32 n = n := Nat.mod_eq_of_lt (by omega)
  have e1 : ∃ W, Matrix.ofDim (0 : Dim3) (0 : α) = .ok W := ⟨_, rfl⟩
  obtain ⟨W, e1⟩ := e1
  refine ⟨⟨W, Bi, 0, false, [], []⟩, ?_, rfl, s2.has⟩
  have e2' : Matrix.ofDim ⟨wrap32 (n : Int), 1, 1⟩ (0 : α) = .ok Bi := by
    rw [← e2, wrap32_nat h]; rfl
  unfold Connected.new
  rw [hu, e1, Res.bind_ok, e2']; rfl

theorem LayerKind.out_pos {k : LayerKind} {first : Bool} {s : Shape} (h : k.Works first s) (hs : 0 < s.X * s.Y * s.Z) :
    0 < (k.out s).X * (k.out s).Y * (k.out s).Z := by
  cases k with
  | conv A B C F => exact Nat.mul_pos (Nat.mul_pos (Nat.succ_pos _) (Nat.succ_pos _)) h.1.2.2.2.1
  | pool t px py sx sy =>

    refine Nat.mul_pos (Nat.mul_pos ?_ ?_) (Nat.pos_of_mul_pos_left hs)
    · exact windows_pos _ _ _
    · exact windows_pos _ _ _
  | full n => simpa [LayerKind.out] using h.1
  | act f => exact hs

theorem LayerKind.add_runs (N : Num α) (draws : Nat → α) (M : Model α) {k : LayerKind} {first : Bool} {s : Shape} (h : k.Works first s) (hs : 0 < s.X * s.Y * s.Z) :
    ∃ M' L, k.add N draws M = .ok M' ∧ M'.layers = M.layers ++ [L] ∧ L.body.Runs first s k := by
  cases k with
  | conv A B C F =>
    obtain ⟨h1, h2, h3, h4, h5⟩ := h.1
    have hlt : C * F < 2147483648 := lt_of_le_of_lt (Nat.le_mul_of_pos_left _ (Nat.mul_pos h1 h2)) h5
    have hFlt : F < 2147483648 := lt_of_le_of_lt (Nat.le_mul_of_pos_left _ h3) hlt
    obtain ⟨K, w, β, e, hK⟩ := Kernel.new_any N draws h1 h2 h3 h4 h5
    have hu : u32 F = F := Nat.mod_eq_of_lt (by omega)
    have he : (LayerKind.conv A B C F).add N draws M = .ok { M.append (Model.layerName "Kernel" (M.kernels + 1)) (.kernel K) with kernels := M.kernels + 1 } := by
      show M.addKernel N draws ⟨A, B, C⟩ F = _
      unfold Model.addKernel
      rw [hu, e]; rfl
    exact ⟨_, ⟨_, .kernel K⟩, he, rfl, w, β, hK⟩
  | pool t px py sx sy => exact ⟨_, _, rfl, rfl, rfl, rfl, rfl⟩
  | full n =>
    obtain ⟨L, e, hi, hb⟩ := Connected.new_any (α := α) h.1 (lt_of_le_of_lt (Nat.le_mul_of_pos_right _ hs) h.2)
    have he : (LayerKind.full n).add N draws M =
        .ok { M.append (Model.layerName "FullyConnected" (M.connecteds + 1)) (.connected L) with connecteds := M.connecteds + 1 } := by
      show M.addConnected n = _
      unfold Model.addConnected
      rw [e]; rfl
    exact ⟨_, ⟨_, .connected L⟩, he, rfl, Or.inr ⟨hi, hb⟩⟩
  | act f => exact ⟨_, _, rfl, rfl, trivial⟩

theorem addLayers_runs (N : Num α) (draws : Nat → Nat → α) (ks : List LayerKind) (i : Nat) (first : Bool) (s : Shape) (M : Model α)
    (h : KindsWork first s ks) (hs : 0 < s.X * s.Y * s.Z) : ∃ (M' : Model α) (Ls : List (Layer α)), addLayers N draws i ks M = .ok M' ∧ M'.layers = M.layers ++ Ls ∧
      Ls.length = ks.length ∧ ∀ (j : Nat) (L : Layer α) (k : LayerKind), Ls[j]? = some L → ks[j]? = some k →
        L.body.Runs (first && decide (j = 0)) (kindsOut (ks.take j) s) k := by
  induction ks generalizing i first s M with
  | nil => exact ⟨M, [], rfl, by simp, rfl, by simp⟩
  | cons k ks ih =>
    obtain ⟨M1, L1, e1, hL1, hr⟩ := LayerKind.add_runs N (draws i) M h.1 hs
    obtain ⟨M', Ls, e, hLs, hlen, hget⟩ := ih (i + 1) false _ M1 h.2 (LayerKind.out_pos h.1 hs)
    refine ⟨M', L1 :: Ls, ?_, by rw [hLs, hL1]; simp, by simp [hlen], ?_⟩
    · unfold addLayers; rw [e1, Res.bind_ok, e]
    · intro j L l hL hl
      cases j with
      | zero =>
        obtain rfl : L1 = L := by simpa using hL
        obtain rfl : k = l := by simpa using hl
        simpa [kindsOut] using hr
      | succ j =>
        have := hget j L l (by simpa using hL) (by simpa using hl)
        simpa [kindsOut] using this

theorem buildModel_runs (N : Num α) (draws : Nat → Nat → α) (ks : List LayerKind) (labels : List (List Char)) {s : Shape} (h : KindsWork true s ks)
    (hs : 0 < s.X * s.Y * s.Z) (hout : kindsOut ks s = ⟨labels.length, 1, 1⟩ ∨ kindsOut ks s = ⟨1, labels.length, 1⟩) :
    ∃ M, buildModel N draws ks labels = .ok M ∧ M.labels = labels ∧ M.Runs s ks := by
  obtain ⟨M, Ls, e, hLs, hlen, hget⟩ := addLayers_runs N draws ks 0 true s Model.new h hs
  have hLs : M.layers = Ls := by rw [hLs]; rfl
  refine ⟨M.setOutputLabels labels true, ?_, rfl, ?_, ?_, ?_, hout⟩
  · unfold buildModel; rw [e, Res.bind_ok]
  · simp [Model.setOutputLabels, Model.append, hLs, hlen]
  · intro i L l hL hl
    have hi : i < ks.length := (List.getElem?_eq_some_iff.1 hl).1
    have hL : Ls[i]? = some L := by
      simpa [Model.setOutputLabels, Model.append, hLs, List.getElem?_append_left (show i < Ls.length by omega)] using hL
    simpa using hget i L l hL hl
  · refine ⟨⟨"SoftmaxOutput".toList, .softmax (Softmax.new labels.length)⟩, Softmax.new labels.length, ?_, rfl, rfl⟩
    simp only [Model.setOutputLabels, Model.append, hLs, ← hlen, if_true]
    simp

end Cnn
