import Verif.Lemmas.Connected
import Verif.Lemmas.Real
import Mathlib.Algebra.BigOperators.Ring.Finset
import Mathlib.Tactic.Ring
/-!
# C37, C38: the fully connected layer
-/
namespace Cnn
variable {α : Type} {X Y Z n m : Nat}

/-! ## C37 -/

/-- One call on a layer that has fixed its size: the formula for inputs of the fixed entry count, `ModelLayerException` for
all others; in both cases the layer is unchanged. -/
theorem C37_forward [Zero α] [Add α] [Mul α] [Div α] (N : Num α) (draws : Nat → α) (L : Connected α) (w : Nat → Nat → α)
    (β : Nat → α) (M : Matrix α) (x : Nat → Nat → Nat → α) (hL : L.Is n m w β) (hM : M.Shows X Y Z x) :
    if X * Y * Z = m then
      ∃ out, L.forward N draws M = (.ok out, L) ∧ out.Shows n 1 1 (fun i _ _ =>
        sumTo m (fun k => w i k * x (k % X) (k / X % Y) (k / X / Y)) + β i)
    else L.forward N draws M = (.throw .modelLayer, L) := by
  unfold Connected.forward
  rw [Connected.later_check N draws hL hM]
  split
  · rename_i h
    subst h
    obtain ⟨out, e, s⟩ := Connected.compute_shows hL hM
    exact ⟨out, by simp [e], s⟩
  · rename_i h
    simp [h]

/-- The first call: the layer takes its size from the input, of whatever shape. -/
theorem C37_first [Zero α] [Add α] [Mul α] [Div α] (N : Num α) (draws : Nat → α) (L : Connected α)
    (β₀ : Nat → α) (M : Matrix α) (x : Nat → Nat → Nat → α) (hi : L.initialized = false)
    (hL : L.biases.Shows n 1 1 (fun i _ _ => β₀ i)) (hM : M.Shows X Y Z x) (hs : n * (X * Y * Z) < 2147483648) :
    ∃ out w L', ∃ β : Nat → α, L.forward N draws M = (.ok out, L') ∧ L'.Is n (X * Y * Z) w β ∧
      L'.weights.dim = dimN n (X * Y * Z) 1 ∧ L'.inputDim = dimN X Y Z ∧
      out.Shows n 1 1 (fun i _ _ => sumTo (X * Y * Z) (fun k => w i k * x (k % X) (k / X % Y) (k / X / Y)) + β i) := by
  have g := hM.good
  obtain ⟨L', e, hd, _, _, hL'⟩ := Connected.first_shows N draws hi hL hM
    ⟨hL.good.x, Nat.mul_pos (Nat.mul_pos g.x g.y) g.z, by decide, by omega⟩
  obtain ⟨out, e', s⟩ := Connected.compute_shows hL' hM
  refine ⟨out, _, L', _, ?_, hL', hL'.weights.dim, hd, s⟩
  unfold Connected.forward
  rw [e]
  simp [e']

/-- All calls on a layer in turn: their outcomes and the final state. The generator may draw anything in each call. -/
def Connected.run [Zero α] [Add α] [Mul α] [Div α] (N : Num α) (draws : Nat → Nat → α) (L : Connected α) :
    List (Input α) → List (Res (Matrix α)) × Connected α
  | [] => ([], L)
  | i :: is =>
    let (r, L') := L.forward N (draws is.length) i.mat
    let (rs, L'') := L'.run N draws is
    (r :: rs, L'')

/-- C37 for every history: a new layer with `n` outputs receives any first input and then any list of inputs. There are
weights `w` and biases `β` such that every input with as many entries as the first gives `w·v + β` and every other
throws `ModelLayerException`; the layer ends in the state the first call left it in. -/
theorem C37_history [Zero α] [Add α] [Mul α] [Div α] (N : Num α) (draws : Nat → Nat → α) (L : Connected α) (hn : 0 < n)
    (hL : Connected.new n = .ok L) (i₀ : Input α) (is : List (Input α)) (hs : n * i₀.count < 2147483648) :
    ∃ L' w, ∃ β : Nat → α, (L.forward N (draws is.length) i₀.mat).2 = L' ∧ L'.Is n i₀.count w β ∧
      (L.run N draws (i₀ :: is)).2 = L' ∧
      List.Forall₂ (fun (i : Input α) (r : Res (Matrix α)) =>
          if i.count = i₀.count then
            ∃ out, r = .ok out ∧ out.Shows n 1 1 (fun p _ _ =>
              sumTo i₀.count (fun k => w p k * i.entry (k % i.X) (k / i.X % i.Y) (k / i.X / i.Y)) + β p)
          else r = .throw .modelLayer)
        (i₀ :: is) (L.run N draws (i₀ :: is)).1 := by
  have g := i₀.shows'.good
  have hpos : 0 < i₀.count := Nat.mul_pos (Nat.mul_pos g.x g.y) g.z
  have hn' : n < 2147483648 := lt_of_le_of_lt (Nat.le_mul_of_pos_right _ hpos) hs
  obtain ⟨B, eB, sB⟩ := Matrix.ofDim_shows (X := n) (Y := 1) (Z := 1) ⟨hn, by decide, by decide, by omega⟩ (0 : α)
  have hnew : L.initialized = false ∧ L.biases = B := by
    unfold Connected.new at hL
    obtain ⟨W, _, hL⟩ := Res.bind_eq_ok hL
    obtain ⟨B', e, hL⟩ := Res.bind_eq_ok hL
    rw [wrap32_nat hn'] at e
    have : B' = B := by
      have h2 : Matrix.ofDim (dimN n 1 1) (0 : α) = .ok B' := e
      exact (Res.ok.inj (eB.symm.trans h2)).symm
    have hL := Res.ok.inj hL
    subst hL
    exact ⟨rfl, this⟩
  obtain ⟨out, w, L', β, e, hI, _, _, s⟩ := C37_first N (draws is.length) L _ i₀.mat i₀.entry hnew.1 (hnew.2 ▸ sB) i₀.shows' hs
  refine ⟨L', w, β, by rw [e], hI, ?_, ?_⟩
  all_goals
    have key : ∀ js : List (Input α), (L'.run N draws js).2 = L' ∧
        List.Forall₂ (fun (i : Input α) (r : Res (Matrix α)) =>
          if i.count = i₀.count then
            ∃ out, r = .ok out ∧ out.Shows n 1 1 (fun p _ _ =>
              sumTo i₀.count (fun k => w p k * i.entry (k % i.X) (k / i.X % i.Y) (k / i.X / i.Y)) + β p)
          else r = .throw .modelLayer) js (L'.run N draws js).1 := by
      intro js
      induction js with
      | nil => exact ⟨rfl, .nil⟩
      | cons i js ih =>
        have h := C37_forward N (draws js.length) L' w β i.mat i.entry hI i.shows'
        have hc0 : i₀.X * i₀.Y * i₀.Z = i₀.count := rfl
        rw [hc0] at h
        simp only [Connected.run]
        by_cases hc : i.X * i.Y * i.Z = i₀.count
        · rw [if_pos hc] at h
          obtain ⟨o, e, so⟩ := h
          rw [e]
          refine ⟨ih.1, .cons ?_ ih.2⟩
          rw [if_pos (show i.count = i₀.count from hc)]; exact ⟨o, rfl, so⟩
        · rw [if_neg hc] at h
          rw [h]
          refine ⟨ih.1, .cons ?_ ih.2⟩
          rw [if_neg (show i.count ≠ i₀.count from hc)]
    simp only [Connected.run, e]
  · exact (key is).1
  · refine .cons ?_ (key is).2
    rw [if_pos rfl]; exact ⟨out, rfl, s⟩

/-- A layer of two outputs and three inputs that has fixed its size with a `3 × 1 × 1` input. -/
def exampleConnected : Connected Int :=
  ⟨⟨dimN 2 3 1, [1, 2, 3, 4, 5, 6]⟩, ⟨dimN 2 1 1, [10, 20]⟩, dimN 3 1 1, true, [Matrix.empty], [Matrix.empty]⟩

theorem exampleConnected_is : exampleConnected.Is 2 3 (fun i k => 1 + i + 2 * k) (fun i => 10 + 10 * i) :=
  ⟨Matrix.Shows.of_vals ⟨by decide, by decide, by decide, by decide⟩ rfl (by decide),
    Matrix.Shows.of_vals ⟨by decide, by decide, by decide, by decide⟩ rfl (by decide), rfl⟩

/-- Division and root play no part once the layer has its size. -/
example (N : Num Int) : exampleConnected.forward N (fun _ => 0) ⟨dimN 1 3 1, [1, -1, 2]⟩ =
    (.ok ⟨dimN 2 1 1, [18, 30]⟩, exampleConnected) := by rfl

example (N : Num Int) : exampleConnected.forward N (fun _ => 0) ⟨dimN 2 2 1, [1, 2, 3, 4]⟩ =
    (.throw .modelLayer, exampleConnected) := by rfl

/-- A history with an accepted and a rejected second input. -/
example (N : Num Int) (draws : Nat → Nat → Int) : ∃ L, Connected.new 2 = .ok L ∧
    ∃ L' w, ∃ β : Nat → Int, L'.Is 2 2 w β ∧ ∃ a b, (L.run N draws
      [⟨2, 1, 1, fun i _ _ => i, ⟨dimN 2 1 1, [0, 1]⟩, Matrix.Shows.of_vals ⟨by decide, by decide, by decide, by decide⟩ rfl (by decide)⟩,
       ⟨1, 2, 1, fun _ j _ => j, ⟨dimN 1 2 1, [0, 1]⟩, Matrix.Shows.of_vals ⟨by decide, by decide, by decide, by decide⟩ rfl (by decide)⟩,
       ⟨1, 1, 1, fun _ _ _ => 7, ⟨dimN 1 1 1, [7]⟩, Matrix.Shows.of_vals ⟨by decide, by decide, by decide, by decide⟩ rfl (by decide)⟩]) =
      ([.ok a, .ok b, .throw .modelLayer], L') := by
  refine ⟨_, rfl, ?_⟩
  obtain ⟨L', w, β, _, hI, h2, h3⟩ := C37_history (n := 2) N draws _ (by decide) rfl
    ⟨2, 1, 1, fun i _ _ => i, ⟨dimN 2 1 1, [0, 1]⟩, Matrix.Shows.of_vals ⟨by decide, by decide, by decide, by decide⟩ rfl (by decide)⟩
    [⟨1, 2, 1, fun _ j _ => j, ⟨dimN 1 2 1, [0, 1]⟩, Matrix.Shows.of_vals ⟨by decide, by decide, by decide, by decide⟩ rfl (by decide)⟩,
       ⟨1, 1, 1, fun _ _ _ => 7, ⟨dimN 1 1 1, [7]⟩, Matrix.Shows.of_vals ⟨by decide, by decide, by decide, by decide⟩ rfl (by decide)⟩]
    (by decide)
  refine ⟨L', w, β, hI, ?_⟩
  generalize Connected.run N draws _ _ = R at h2 h3
  obtain ⟨rs, Lf⟩ := R
  cases h3 with
  | cons p1 q1 => cases q1 with
    | cons p2 q2 => cases q2 with
      | cons p3 q3 =>
        cases q3
        rw [if_pos (by decide)] at p1 p2
        rw [if_neg (by decide)] at p3
        obtain ⟨a, rfl, _⟩ := p1
        obtain ⟨b, rfl, _⟩ := p2
        subst p3 h2
        exact ⟨a, b, rfl⟩

/-! ## C38 -/

/-- C38, the full claim: for every order of argument evaluation and every input the layer accepts. -/
def C38_claim : Prop :=
  ∀ (o : ArgOrder) (n X Y Z : Nat) (L : Connected Int) (w : Nat → Nat → Int) (β g : Nat → Int) (x : Nat → Nat → Nat → Int)
    (M Q G : Matrix Int) (b : Nat),
    L.Is n (X * Y * Z) w β → M.Shows X Y Z x → G.Shows n 1 1 (fun i _ _ => g i) → b < L.wGrads.length → b < L.bGrads.length →
    ∃ L' D r, L.backward o M Q G b false = .ok (D, L') ∧ D.Shows X Y Z r ∧
      ∀ (N : Num Int) (draws : Nat → Int) (M₁ : Matrix Int) (x₁ : Nat → Nat → Nat → Int), M₁.Shows X Y Z x₁ →
        ∃ out out₁, ∃ p p₁ : Nat → Int, L.forward N draws M = (.ok out, L) ∧ L.forward N draws M₁ = (.ok out₁, L) ∧
          out.Shows n 1 1 (fun i _ _ => p i) ∧ out₁.Shows n 1 1 (fun i _ _ => p₁ i) ∧
          ∑ i ∈ Finset.range n, g i * (p₁ i - p i) = total X Y Z (fun i j k => r i j k * (x₁ i j k - x i j k))

/-- C38 when the dimensions are evaluated before the temporaries are moved and the input has the shape of the layer's first
input: the stored gradients are the adjoint of the forward map in weights and biases, the returned matrix is its adjoint
in the input; the other slots, weights and biases are unchanged.
Missing: the other argument order and inputs of another shape, both refuted below. -/
theorem C38_gradients_partial [CommRing α] [Div α] (L : Connected α) (w : Nat → Nat → α) (β g : Nat → α)
    (x : Nat → Nat → Nat → α) (M Q G : Matrix α) (b : Nat) (hL : L.Is n (X * Y * Z) w β) (hM : M.Shows X Y Z x)
    (hd : L.inputDim = dimN X Y Z) (hG : G.Shows n 1 1 (fun i _ _ => g i)) (hw : b < L.wGrads.length)
    (hb : b < L.bGrads.length) :
    ∃ L' D r, ∃ dw : Nat → Nat → α, ∃ db : Nat → α, ∃ DW DB, L.backward .dimsFirst M Q G b false = .ok (D, L') ∧
      L'.wGrads = L.wGrads.set b DW ∧ L'.bGrads = L.bGrads.set b DB ∧ L'.Is n (X * Y * Z) w β ∧ L'.inputDim = L.inputDim ∧
      DW.Shows n (X * Y * Z) 1 (fun i k _ => dw i k) ∧ DB.Shows n 1 1 (fun i _ _ => db i) ∧ D.Shows X Y Z r ∧
      (∀ (N : Num α) (draws : Nat → α) (L₁ : Connected α) (w₁ : Nat → Nat → α) (β₁ : Nat → α), L₁.Is n (X * Y * Z) w₁ β₁ →
        ∃ out out₁, ∃ p p₁ : Nat → α, L.forward N draws M = (.ok out, L) ∧ L₁.forward N draws M = (.ok out₁, L₁) ∧
          out.Shows n 1 1 (fun i _ _ => p i) ∧ out₁.Shows n 1 1 (fun i _ _ => p₁ i) ∧
          ∑ i ∈ Finset.range n, g i * (p₁ i - p i) =
            (∑ i ∈ Finset.range n, ∑ k ∈ Finset.range (X * Y * Z), dw i k * (w₁ i k - w i k)) +
            ∑ i ∈ Finset.range n, db i * (β₁ i - β i)) ∧
      (∀ (N : Num α) (draws : Nat → α) (M₁ : Matrix α) (x₁ : Nat → Nat → Nat → α), M₁.Shows X Y Z x₁ →
        ∃ out out₁, ∃ p p₁ : Nat → α, L.forward N draws M = (.ok out, L) ∧ L.forward N draws M₁ = (.ok out₁, L) ∧
          out.Shows n 1 1 (fun i _ _ => p i) ∧ out₁.Shows n 1 1 (fun i _ _ => p₁ i) ∧
          ∑ i ∈ Finset.range n, g i * (p₁ i - p i) = total X Y Z (fun i j k => r i j k * (x₁ i j k - x i j k))) := by
  obtain ⟨DW, eW, sW⟩ := Connected.getdLdW_shows hM hG hL.weights.good
  obtain ⟨D, eD, sD⟩ := Connected.getdLdX_shows hL hd hM.good.x hM.good.y hG
  refine ⟨{ L with wGrads := L.wGrads.set b DW, bGrads := L.bGrads.set b G }, D, _, _, g, DW, G, ?_, rfl, rfl,
    ⟨hL.weights, hL.biases, hL.initialized⟩, rfl, sW, hG, sD, ?_, ?_⟩
  · unfold Connected.backward
    rw [eW, Res.bind_ok, setSlot, if_pos hw, Res.bind_ok, setSlot, if_pos hb, Res.bind_ok]
    simp only [Bool.false_eq_true, if_false]
    rw [eD]; rfl
  · intro N draws L₁ w₁ β₁ hL₁
    have h := C37_forward N draws L w β M x hL hM
    have h₁ := C37_forward N draws L₁ w₁ β₁ M x hL₁ hM
    rw [if_pos rfl] at h h₁
    obtain ⟨out, e, s⟩ := h
    obtain ⟨out₁, e₁, s₁⟩ := h₁
    refine ⟨out, out₁, _, _, e, e₁, s, s₁, ?_⟩
    rw [← Finset.sum_add_distrib]
    refine Finset.sum_congr rfl fun i _ => ?_
    simp only [sumTo_eq, Finset.sum_range_one, flatOf]
    have : ∑ k ∈ Finset.range (X * Y * Z), g i * x (k % X) (k / X % Y) (k / X / Y) * (w₁ i k - w i k) =
        g i * (∑ k ∈ Finset.range (X * Y * Z), w₁ i k * x (k % X) (k / X % Y) (k / X / Y) -
          ∑ k ∈ Finset.range (X * Y * Z), w i k * x (k % X) (k / X % Y) (k / X / Y)) := by
      rw [← Finset.sum_sub_distrib, Finset.mul_sum]
      exact Finset.sum_congr rfl fun k _ => by ring
    rw [this]; ring
  · intro N draws M₁ x₁ hM₁
    have h := C37_forward N draws L w β M x hL hM
    have h₁ := C37_forward N draws L w β M₁ x₁ hL hM₁
    rw [if_pos rfl] at h h₁
    obtain ⟨out, e, s⟩ := h
    obtain ⟨out₁, e₁, s₁⟩ := h₁
    refine ⟨out, out₁, _, _, e, e₁, s, s₁, ?_⟩
    rw [← sum_flat]
    simp only [sumTo_eq, fl_unflat]
    have : ∀ k, (∑ i ∈ Finset.range n, w i k * g i) * (x₁ (k % X) (k / X % Y) (k / X / Y) - x (k % X) (k / X % Y) (k / X / Y)) =
        ∑ i ∈ Finset.range n, g i * (w i k * x₁ (k % X) (k / X % Y) (k / X / Y) - w i k * x (k % X) (k / X % Y) (k / X / Y)) := by
      intro k
      rw [Finset.sum_mul]
      exact Finset.sum_congr rfl fun i _ => by ring
    simp only [this]
    rw [Finset.sum_comm]
    refine Finset.sum_congr rfl fun i _ => ?_
    rw [← Finset.mul_sum, Finset.sum_sub_distrib]
    ring

/-- For every layer, input and gradient: if the compiler moves the operands first, `propagateBackward` writes outside an
empty vector. -/
theorem C38_order [Zero α] [Add α] [Mul α] (L : Connected α) (g : Nat → α) (x : Nat → Nat → Nat → α) (M Q G : Matrix α)
    (b : Nat) (last : Bool) (hM : M.Shows X Y Z x) (hG : G.Shows n 1 1 (fun i _ _ => g i)) :
    L.backward .operandsFirst M Q G b last = .ub := by
  obtain ⟨v, e1, s1⟩ := Matrix.reshape_column hM
  have e := Matrix.store_moved_ub hG.expr (MExpr.transpose_shows s1.expr)
  unfold Connected.backward Connected.getdLdW
  rw [hM.dim, MExpr.sizeD_dimN hM.good, Res.bind_ok, e1, Res.bind_ok]
  have : (MExpr.matMulP .kept ArgOrder.operandsFirst.pass G.expr v.expr.transpose >>= fun E => Matrix.ofExpr id E) = .ub := e
  rw [this]; rfl

/-- The returned gradient has the shape of the layer's *first* input, whatever the shape of the input it belongs to. -/
theorem C38_stored_shape [Zero α] [Add α] [Mul α] (L : Connected α) (w : Nat → Nat → α) (β g : Nat → α)
    (x : Nat → Nat → Nat → α) (M Q G : Matrix α) (b X' Y' Z' : Nat) (hc : X' * Y' * Z' = X * Y * Z) (hX : 0 < X') (hY : 0 < Y')
    (hL : L.Is n (X * Y * Z) w β) (hM : M.Shows X Y Z x) (hd : L.inputDim = dimN X' Y' Z')
    (hG : G.Shows n 1 1 (fun i _ _ => g i)) (hw : b < L.wGrads.length) (hb : b < L.bGrads.length) :
    ∃ D L', L.backward .dimsFirst M Q G b false = .ok (D, L') ∧ D.dim = dimN X' Y' Z' := by
  obtain ⟨DW, eW, sW⟩ := Connected.getdLdW_shows hM hG hL.weights.good
  rw [← hc] at hL
  obtain ⟨D, eD, sD⟩ := Connected.getdLdX_shows hL hd hX hY hG
  refine ⟨D, { L with wGrads := L.wGrads.set b DW, bGrads := L.bGrads.set b G }, ?_, sD.dim⟩
  unfold Connected.backward
  rw [eW, Res.bind_ok, setSlot, if_pos hw, Res.bind_ok, setSlot, if_pos hb, Res.bind_ok]
  simp only [Bool.false_eq_true, if_false]
  rw [eD]; rfl

private theorem exG : (⟨dimN 2 1 1, [1, 2]⟩ : Matrix Int).Shows 2 1 1 (fun i _ _ => i + 1) :=
  Matrix.Shows.of_vals ⟨by decide, by decide, by decide, by decide⟩ rfl (by decide)

private theorem exM : (⟨dimN 1 3 1, [1, 2, 3]⟩ : Matrix Int).Shows 1 3 1 (fun _ j _ => j + 1) :=
  Matrix.Shows.of_vals ⟨by decide, by decide, by decide, by decide⟩ rfl (by decide)

private theorem exM' : (⟨dimN 3 1 1, [1, 2, 3]⟩ : Matrix Int).Shows 3 1 1 (fun i _ _ => i + 1) :=
  Matrix.Shows.of_vals ⟨by decide, by decide, by decide, by decide⟩ rfl (by decide)

/-- The claim fails through the argument order … -/
theorem C38_violated : ¬ C38_claim := by
  intro h
  obtain ⟨L', D, r, e, _⟩ := h .operandsFirst 2 3 1 1 exampleConnected _ _ _ _ _ Matrix.empty _ 0 exampleConnected_is exM' exG
    (by decide) (by decide)
  rw [C38_order (n := 2) exampleConnected _ _ _ _ _ 0 false exM' exG] at e
  exact absurd e (by simp)

/-- … and, for the favourable order, through the shape: a `1 × 3` input to a layer first used with `3 × 1`. -/
theorem C38_shape_violated : ¬ ∀ (n X Y Z : Nat) (L : Connected Int) (w : Nat → Nat → Int) (β g : Nat → Int)
    (x : Nat → Nat → Nat → Int) (M Q G : Matrix Int) (b : Nat),
    L.Is n (X * Y * Z) w β → M.Shows X Y Z x → G.Shows n 1 1 (fun i _ _ => g i) → b < L.wGrads.length → b < L.bGrads.length →
    ∃ L' D r, L.backward .dimsFirst M Q G b false = .ok (D, L') ∧ D.Shows X Y Z r := by
  intro h
  obtain ⟨L', D, r, e, s⟩ := h 2 1 3 1 exampleConnected _ _ _ _ _ Matrix.empty _ 0 exampleConnected_is exM exG
    (by decide) (by decide)
  obtain ⟨D₁, L₁, e₁, d⟩ := C38_stored_shape exampleConnected _ _ _ _ _ Matrix.empty _ 0 3 1 1 (by decide) (by decide) (by decide)
    exampleConnected_is exM rfl exG (by decide) (by decide)
  rw [e] at e₁
  injection e₁ with e₁
  injection e₁ with e₁ _
  rw [← e₁, s.dim] at d
  exact absurd d (by decide)

example : exampleConnected.backward .dimsFirst ⟨dimN 3 1 1, [1, 2, 3]⟩ Matrix.empty ⟨dimN 2 1 1, [1, 2]⟩ 0 false =
    .ok (⟨dimN 3 1 1, [5, 11, 17]⟩,
      { exampleConnected with wGrads := [⟨dimN 2 3 1, [1, 2, 2, 4, 3, 6]⟩], bGrads := [⟨dimN 2 1 1, [1, 2]⟩] }) := by decide

end Cnn
