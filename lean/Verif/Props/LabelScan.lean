import Verif.Lemmas.Scan
import Verif.Props.Network
import Verif.Props.Rounding
import Verif.Model.Binary64
/-!
# Property C57: the label in any arithmetic
-/
namespace Cnn
open Model
variable {α : Type} [Zero α] [One α] [Add α] [Sub α] [Mul α] [Div α] [Neg α]

/-- C57 in any arithmetic, with any comparison: `label_idx` is what a scan from the left keeps that moves on to an output if the
one kept compares less. -/
theorem C57_scan (E : Env α) (M M' : Model α) (X : Matrix α) (b : Nat) (r : Results α) (h : M.forwardPropagation E X b = .ok (r, M'))
    (outs : Nat → Matrix α) (bodies : Nat → Body α) (hp : Pass E M b X outs bodies) (A B C : Nat) (f : Nat → Nat → Nat → α)
    (hf : (outs M.layers.length).Shows A B C f) : r.labelIdx = scan E.num.lt (flatOf A B f) M.labels.length := by
  unfold forwardPropagation at h
  obtain ⟨s, hs, h⟩ := Res.bind_eq_ok h
  obtain ⟨t, ht, h⟩ := Res.bind_eq_ok h
  obtain ⟨u, hu, h⟩ := Res.bind_eq_ok h
  obtain ⟨rfl, rfl⟩ := Prod.mk.inj (Res.ok.inj h)
  obtain ⟨A0, hA, hs⟩ := Res.bind_eq_ok hs
  obtain ⟨R, hR, hs⟩ := Res.bind_eq_ok hs
  obtain rfl := Res.ok.inj hs
  obtain ⟨outs2, recs, bodies2, h0, h1, h2, h3, rfl⟩ := forward_fold_inv M.layers.length le_rfl ht
  have heq2 : ∀ n, n ≤ M.layers.length → outs2 n = outs n := by
    intro n
    induction n with
    | zero => exact fun _ => h0.trans (Res.ok.inj (hA.symm.trans hp.start))
    | succ n ih =>
      intro hn
      have hg : M.layers[n]? = some M.layers[n] := List.getElem?_eq_getElem (by omega)
      have e1 := h2 n (by omega) _ hg
      have e2 := hp.layer n _ hg
      rw [ih (by omega)] at e1
      exact congrArg Prod.fst (Res.ok.inj (e1.symm.trans e2))
  obtain ⟨hn, m, c, hm, hc, rfl⟩ := forwardEnd_inv hu
  simp only [upTo] at hn hm
  rw [heq2 _ le_rfl] at hn hm
  rw [hf.dim, MExpr.sizeD_dimN hf.good] at hn
  have hnl' : A * B * C = M.labels.length := Res.ok.inj hn
  have e := MExpr.bestElem_scan (fun a b => E.num.lt a b) hf.expr
  rw [MExpr.maxIndexFlat, e, Res.bind_ok, hf.expr.dim, MExpr.iterAt_diff hf.good.x hf.good.y] at hm
  have hlt : scan (fun a b => E.num.lt a b) (fun n => f (n % A) (n / A % B) (n / A / B)) (A * B * C) < A * B * C :=
    scan_lt _ _ (Nat.mul_pos (Nat.mul_pos hf.good.x hf.good.y) hf.good.z)
  have := hf.good.small
  rw [u64_nat (by omega)] at hm
  obtain rfl := Res.ok.inj hm
  rw [← hnl']
  rfl

/-- C57 with any comparison that is a strict order, total or not: no output compares greater than the one of the label. So it
is for doubles, NaN included. -/
theorem C57_unbeaten (E : Env α) (hirr : ∀ a, E.num.lt a a = false) (htr : ∀ a b c, E.num.lt a b = true → E.num.lt b c = true → E.num.lt a c = true)
    (M M' : Model α) (X : Matrix α) (b : Nat) (r : Results α) (h : M.forwardPropagation E X b = .ok (r, M'))
    (outs : Nat → Matrix α) (bodies : Nat → Body α) (hp : Pass E M b X outs bodies) (A B C : Nat) (f : Nat → Nat → Nat → α)
    (hf : (outs M.layers.length).Shows A B C f) : ∀ n < M.labels.length, E.num.lt (flatOf A B f r.labelIdx) (flatOf A B f n) = false := by
  rw [C57_scan E M M' X b r h outs bodies hp A B C f hf]
  generalize M.labels.length = k
  induction k with
  | zero => intro n hn; omega
  | succ k ih =>
    intro n hn
    unfold scan
    split
    · rename_i hlt
      rcases Nat.lt_succ_iff_lt_or_eq.1 hn with h | rfl
      · cases hc : E.num.lt (flatOf A B f k) (flatOf A B f n)
        · rfl
        · exact absurd (htr _ _ _ hlt hc) (by simp [ih n h])
      · exact hirr _
    · rename_i hlt
      rcases Nat.lt_succ_iff_lt_or_eq.1 hn with h | rfl
      · exact ih n h
      · simpa using hlt

/-- If the first output compares with none of the others (NaN), the label is the first. -/
theorem C57_first (E : Env α) (M M' : Model α) (X : Matrix α) (b : Nat) (r : Results α) (h : M.forwardPropagation E X b = .ok (r, M'))
    (outs : Nat → Matrix α) (bodies : Nat → Body α) (hp : Pass E M b X outs bodies) (A B C : Nat) (f : Nat → Nat → Nat → α)
    (hf : (outs M.layers.length).Shows A B C f) (h0 : ∀ n < M.labels.length, E.num.lt (flatOf A B f 0) (flatOf A B f n) = false) : r.labelIdx = 0 := by
  rw [C57_scan E M M' X b r h outs bodies hp A B C f hf]
  revert h0
  generalize M.labels.length = k
  intro h0
  induction k with
  | zero => rfl
  | succ k ih =>
    unfold scan
    rw [ih fun n hn => h0 n (by omega), h0 k (by omega)]
    rfl

/-- The comparison of doubles is such an order. -/
theorem Double.lt_order : (∀ a : Double, Double.lt a a = false) ∧ ∀ a b c, Double.lt a b = true → Double.lt b c = true → Double.lt a c = true := by
  refine ⟨?_, ?_⟩
  · intro a
    cases a with
    | num x => simp [Double.lt]
    | inf s => cases s <;> rfl
    | nan => rfl
  · intro a b c h1 h2
    cases a with
    | nan => simp [Double.lt] at h1
    | num x =>
      cases b with
      | nan => simp [Double.lt] at h1
      | num y =>
        cases c with
        | nan => simp [Double.lt] at h2
        | num z => simp only [Double.lt, decide_eq_true_eq] at *; exact h1.trans h2
        | inf s => exact h2
      | inf s =>
        cases c with
        | nan => simp [Double.lt] at h2
        | num z => simp_all [Double.lt]
        | inf t => simp_all [Double.lt]
    | inf s =>
      cases b with
      | nan => simp [Double.lt] at h1
      | num y =>
        cases c with
        | nan => simp [Double.lt] at h2
        | num z => exact h1
        | inf t => simp_all [Double.lt]
      | inf s' =>
        cases c with
        | nan => simp [Double.lt] at h2
        | num z => simp_all [Double.lt]
        | inf t => simp_all [Double.lt]

/-- They apply: a model of two labels without layers. The outputs are NaN and 1 and the label is the first. So the index is not
that of a largest number among the outputs; with a softmax layer at the end NaN is in all outputs (C97). -/
theorem C57_nan (M : Model Double) (hM : M.layers = []) (hl : M.labels.length = 2) (b : Nat) :
    ∃ r M', M.forwardPropagation doubleEnv ⟨dimN 2 1 1, [.nan, 1]⟩ b = .ok (r, M') ∧ r.labelIdx = 0 := by
  have hX : (⟨dimN 2 1 1, [.nan, 1]⟩ : Matrix Double).Shows 2 1 1 (fun i _ _ => if i = 0 then .nan else 1) := by
    refine Matrix.Shows.of_vals ⟨by omega, by omega, by omega, by omega⟩ rfl ?_
    simp [List.range_succ]
  obtain ⟨X', e0, s0⟩ := Matrix.ofExpr_shows hX.expr (id : Double → Double)
  have hp : Pass doubleEnv M b ⟨dimN 2 1 1, [.nan, 1]⟩ (fun _ => X') (fun _ => .softmax (Softmax.new 2)) := by
    refine ⟨e0, ?_⟩
    intro i l hl
    rw [hM] at hl
    simp at hl
  obtain ⟨r, h⟩ := C57_returns doubleEnv M _ b _ _ hp (fun i _ => ⟨2, 1, 1, _, s0⟩) 2 1 1 _ s0 hl.symm
  exact ⟨r, _, h, C57_first doubleEnv M _ _ b r h _ _ hp 2 1 1 _ s0 (fun n _ => rfl)⟩

example : ((Model.new : Model Double).setOutputLabels ["a".toList, "b".toList] false).layers = [] ∧
    ((Model.new : Model Double).setOutputLabels ["a".toList, "b".toList] false).labels.length = 2 := ⟨rfl, rfl⟩

/-- It applies to all models in binary64. -/
example (M M' : Model Double) (X : Matrix Double) (b : Nat) (r : Results Double) (h : M.forwardPropagation doubleEnv X b = .ok (r, M'))
    (outs : Nat → Matrix Double) (bodies : Nat → Body Double) (hp : Pass doubleEnv M b X outs bodies) (A B C : Nat) (f : Nat → Nat → Nat → Double)
    (hf : (outs M.layers.length).Shows A B C f) : ∀ n < M.labels.length, Double.lt (flatOf A B f r.labelIdx) (flatOf A B f n) = false :=
  C57_unbeaten doubleEnv Double.lt_order.1 Double.lt_order.2 M M' X b r h outs bodies hp A B C f hf

/-- The first of three outputs is NaN: the label is the first although the others are numbers. -/
example (a b : Double) : scan Double.lt (fun n => if n = 0 then .nan else if n = 1 then a else b) 3 = 0 := by
  simp [scan, Double.lt]

/-- A later NaN is passed over. -/
example : scan Double.lt (fun n => if n = 0 then .num 1 else if n = 1 then .nan else .num 2) 3 = 2 := by
  simp [scan, Double.lt]

end Cnn
