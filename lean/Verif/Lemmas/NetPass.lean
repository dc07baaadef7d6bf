import Verif.Lemmas.NetLayer
import Verif.Lemmas.Network
/-! Forward and backward through all layers of a network. -/
namespace Cnn
open Finset

/-- `dw`, `db` are the gradient of the loss with respect to the parameters of layer `i`. -/
def NetParamGrad (ls : List NetLayer) (i : Nat) (s : Shape) (n t : Nat) (x dw : Tensor) (db : Nat → ℝ) : Prop :=
  ∀ l w β, ls[i]? = some l → l.params = some (w, β) → ∀ θ W W' (B : ℝ → Nat → ℝ) (B' : Nat → ℝ),
    Curve (l.weightShape (netOut (ls.take i) s)) w W W' θ → B θ = β →
    (∀ f < l.biasCount, HasDerivAt (fun τ => B τ f) (B' f) θ) →
    HasDerivAt (fun τ => netLoss (ls.set i (l.withParams (W τ) (B τ))) s n t x)
      (total (l.weightShape (netOut (ls.take i) s)).X (l.weightShape (netOut (ls.take i) s)).Y
        (l.weightShape (netOut (ls.take i) s)).Z (fun a b c => dw a b c * W' a b c) + ∑ f ∈ range l.biasCount, db f * B' f) θ

/-- The matrix shows the table in the shape. -/
def Matrix.Is3 (M : Matrix ℝ) (s : Shape) (x : Tensor) : Prop := M.Shows s.X s.Y s.Z x

theorem net_pass {b : Nat} (draws : Nat → Nat → ℝ) (ls : List NetLayer) (Bs : List (Body ℝ)) (first : Bool) (s : Shape)
    (X : Matrix ℝ) (x : Tensor) (hd : DenotesAll b first s Bs ls) (hf : NetFits ls s) (hX : X.Is3 s x) :
    Bs.length = ls.length ∧ ∃ (outs : Nat → Matrix ℝ) (bodies : Nat → Body ℝ), outs 0 = X ∧
      (∀ (i : Nat) (B : Body ℝ), Bs[i]? = some B → B.forward Num.real (draws i) (outs i) b = .ok (outs (i + 1), bodies i)) ∧
      (∀ i ≤ ls.length, (outs i).Is3 (netOut (ls.take i) s) (netEval (ls.take i) s x)) ∧
      (NetTrains first ls s → ∀ ls', NetStands ls s x ls' → ∀ (n t : Nat) (recs : Nat → Matrix ℝ) (G : Matrix ℝ) (g : Tensor),
        (∀ i ≤ ls.length, (recs i).Is3 (netOut (ls.take i) s) (netEval (ls.take i) s x)) →
        G.Is3 (netOut ls s) g → IsGrad [] (netOut ls s) n t (netEval ls s x) g →
        ∃ (Ds : Nat → Matrix ℝ) (bodies' : Nat → Body ℝ), Ds ls.length = G ∧
          (∀ i < ls.length, (bodies i).backward Num.real .dimsFirst (recs i) (recs (i + 1)) (Ds (i + 1)) b (first && decide (i = 0)) =
            .ok (Ds i, bodies' i)) ∧
          (first = false → ∃ d, (Ds 0).Is3 s d ∧ IsGrad ls' s n t x d) ∧
          ∀ i l, ls[i]? = some l → l.params ≠ none → ∃ DW DB dw, ∃ db : Nat → ℝ, (bodies' i).stored b = some (DW, DB) ∧
            DW.Is3 (l.weightShape (netOut (ls.take i) s)) dw ∧ DB.Shows l.biasCount 1 1 (fun f _ _ => db f) ∧
            NetParamGrad ls' i s n t x dw db) := by
  induction ls generalizing Bs first s X x draws with
  | nil =>
    match Bs, hd with
    | [], _ =>
      refine ⟨rfl, fun _ => X, fun _ => .softmax (Softmax.new 0), rfl, by simp, ?_, ?_⟩
      · intro i _
        simpa [netOut, netEval] using hX
      · rintro _ ls' rfl n t recs G g _ hG hg
        refine ⟨fun _ => G, fun _ => .softmax (Softmax.new 0), rfl, by simp, fun _ => ⟨g, hG, hg⟩, by simp⟩
  | cons l ls ih =>
    match Bs, hd with
    | B :: Bs, hd =>
    obtain ⟨hd1, hd2⟩ := hd
    obtain ⟨hf1, hf2⟩ := hf
    obtain ⟨out, body, e, so, hback⟩ := layer_pass (draws 0) hd1 hf1 hX
    obtain ⟨hlen, outs, bodies, h0, h1, h2, h3⟩ := ih (fun i => draws (i + 1)) Bs false (l.out s) out (l.eval s x) hd2 hf2 so
    refine ⟨by simp [hlen], fun i => Nat.casesOn i X outs, fun i => Nat.casesOn i body bodies, rfl, ?_, ?_, ?_⟩
    · intro i C hC
      cases i with
      | zero =>
        obtain rfl : B = C := by simpa using hC
        show B.forward Num.real (draws 0) X b = .ok (outs 0, body)
        rw [h0]; exact e
      | succ i => exact h1 i C (by simpa using hC)
    · intro i hi
      cases i with
      | zero => simpa [netOut, netEval] using hX
      | succ i =>
        have := h2 i (by simpa using hi)
        simpa [netOut, netEval] using this
    · intro ht ls' hs n t recs G g hrecs hG hg
      obtain ⟨ht1, ht2⟩ := ht
      obtain ⟨m, r, rfl, hs1, hs2⟩ := hs
      have ho := hs1.out
      have he := hs1.eval hf1
      obtain ⟨Ds, bodies', k0, k1, k2, k3⟩ := h3 ht2 r hs2 n t (fun i => recs (i + 1)) G g (by
        intro i hi
        have := hrecs (i + 1) (by simpa using hi)
        simpa [netOut, netEval] using this) hG hg
      obtain ⟨d, sd, hd⟩ := k2 rfl
      rw [← ho, ← he] at hd
      have r0 := hrecs 0 (by simp)
      have r1 := hrecs 1 (by simp)
      simp only [List.take_zero, netOut, netEval] at r0
      simp only [List.take_succ_cons, List.take_zero, netOut, netEval] at r1
      obtain ⟨D, body', eb, m1, m2⟩ := hback ht1 m hs1 (Ds 0) (recs 0) (recs 1) d sd r0 r1
      refine ⟨fun i => Nat.casesOn i D Ds, fun i => Nat.casesOn i body' bodies', by simpa using k0, ?_, ?_, ?_⟩
      · intro i hi
        cases i with
        | zero => simpa using eb
        | succ i =>
          have := k1 i (by simpa using hi)
          simpa using this
      · intro hfirst
        obtain ⟨d', sd', ha⟩ := m1 hfirst
        exact ⟨d', sd', hd.cons ha⟩
      · intro i l' hl' hp
        cases i with
        | zero =>
          obtain rfl : l = l' := by simpa using hl'
          obtain ⟨DW, DB, dw, db, q1, q2, q3, q4⟩ := m2 hp
          refine ⟨DW, DB, dw, db, q1, q2, q3, ?_⟩
          intro l2 w β hl2 hp2 θ W W' C C' hW hC hC'
          obtain rfl : m = l2 := by simpa using hl2
          exact IsParamGrad.of hd q4 w β hp2 θ W W' C C' hW hC hC'
        | succ i =>
          obtain ⟨DW, DB, dw, db, q1, q2, q3, q4⟩ := k3 i l' (by simpa using hl') hp
          refine ⟨DW, DB, dw, db, q1, by simpa [netOut] using q2, q3, ?_⟩
          rw [← ho, ← he] at q4
          intro l2 w β hl2 hp2 θ W W' C C' hW hC hC'
          exact q4 l2 w β (by simpa using hl2) hp2 θ W W' C C' hW hC hC'

namespace Model
variable {α : Type} [Zero α] [One α] [Add α] [Sub α] [Mul α] [Div α] [Neg α]

/-- The loop from the last layer to the first, if all layers succeed. -/
theorem backward_fold {E : Env α} {M : Model α} {b : Nat} {r : Results α} {recs Ds : Nat → Matrix α} {bodies : Nat → Body α}
    (hrec : ∀ i ≤ M.layers.length, ∃ R, r.inputs[i]? = some R ∧ Matrix.ofExpr id R.expr = .ok (recs i)) (n : Nat) (hn : n ≤ M.layers.length)
    (hl : ∀ (i : Nat) (l : Layer α), i < n → M.layers[i]? = some l →
      l.body.backward E.num E.order (recs i) (recs (i + 1)) (Ds (i + 1)) b (decide (i = 0)) = .ok (Ds i, bodies i)) (M' : Model α)
    (hM' : ∀ i < n, M'.layers[i]? = M.layers[i]?) :
    (List.range n).reverse.foldlM (backwardStep E r b) (Ds n, M') = .ok (Ds 0, M'.upTo bodies n) := by
  induction n generalizing M' with
  | zero => simp [upTo_zero]
  | succ n ih =>
    rw [List.range_succ, List.reverse_append]
    simp only [List.reverse_cons, List.reverse_nil, List.nil_append, List.cons_append, List.foldlM_cons]
    have hg : M.layers[n]? = some M.layers[n] := List.getElem?_eq_getElem (by omega)
    obtain ⟨R, g1, g2⟩ := hrec n (by omega)
    obtain ⟨R', g3, g4⟩ := hrec (n + 1) (by omega)
    have hs : backwardStep E r b (Ds (n + 1), M') n = .ok (Ds n, M'.setBody n (bodies n)) := by
      unfold backwardStep recordAt
      simp only [g1, g3, Res.bind_ok, hM' n (by omega), hg, Res.ofOption_some, g2, g4, hl n _ (by omega) hg]
    rw [hs, Res.bind_ok, ih (by omega) (fun i l hi => hl i l (by omega)) _ (by
      intro i hi
      rw [← hM' i (by omega), setBody]
      simp only [List.getElem?_modify]
      simp [show ¬ n = i by omega])]
    congr 2
    simp only [upTo, setBody]
    congr 1
    apply List.ext_getElem?
    intro i
    rw [List.getElem?_mapIdx, List.getElem?_modify, List.getElem?_mapIdx]
    rcases M'.layers[i]? with _ | l
    · simp
    · by_cases h : n = i
      · subst h; simp
      · have : (i < n + 1) ↔ i < n := by omega
        by_cases h2 : i < n <;> simp [h, this, h2]

end Model
end Cnn
