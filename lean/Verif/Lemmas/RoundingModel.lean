import Verif.Lemmas.RoundingSoftmax
import Verif.Lemmas.NetModel
/-! A network in rounded arithmetic (C84). -/
namespace Cnn
open Finset Model

variable {α : Type} [Zero α] [One α] [Add α] [Sub α] [Mul α] [Div α] [Neg α]

/-- `forwardPropagation` if all layers succeed: the label is one whose output nothing exceeds, if the outputs can be compared. -/
theorem forward_result (E : Env α) (M : Model α) (X : Matrix α) (b : Nat) (outs : Nat → Matrix α) (bodies : Nat → Body α)
    (hp : Pass E M b X outs bodies) (hs : ∀ i ≤ M.layers.length, ∃ A B C f, (outs i).Shows A B C f) {n : Nat} {f : Nat → α}
    (hf : (outs M.layers.length).IsVec n f) (hsize : n = M.labels.length) {S : α → Prop} (hw : MExpr.WeakOn E.num.lt S) (hS : ∀ i < n, S (f i)) :
    ∃ r P, M.forwardPropagation E X b = .ok (r, M.withBodies bodies) ∧ r.inputs.getLast? = some P ∧ P.IsVec n (fun i => E.toFloat (f i)) ∧
      r.labelIdx < n ∧ r.confidence = E.toFloat (f r.labelIdx) ∧ (∀ i < n, E.num.lt (f r.labelIdx) (f i) = false) ∧
      ∀ i < r.labelIdx, E.num.lt (f i) (f r.labelIdx) = true := by
  have hr : ∀ i, ∃ R, i ≤ M.layers.length → record E (outs i) = .ok R := by
    intro i
    by_cases hi : i ≤ M.layers.length
    · obtain ⟨A, B, C, f, hf⟩ := hs i hi
      obtain ⟨R, e, _⟩ := Matrix.ofExpr_shows hf.expr E.toFloat
      exact ⟨R, fun _ => e⟩
    · exact ⟨Matrix.empty, fun h => absurd h hi⟩
  choose recs hrec using hr
  have key : ∃ q < n, MExpr.maxIndexFlat E.num.lt (outs M.layers.length).expr = .ok q ∧ (∀ i < n, E.num.lt (f q) (f i) = false) ∧
      ∀ i < q, E.num.lt (f i) (f q) = true := by
    have gen : ∀ {X Y Z : Nat} {x : Nat → Nat → Nat → α}, (outs M.layers.length).Shows X Y Z x → (∀ i < X, ∀ j < Y, ∀ k < Z, S (x i j k)) →
        ∃ q < X * Y * Z, MExpr.maxIndexFlat E.num.lt (outs M.layers.length).expr = .ok q ∧
          (∀ m < X * Y * Z, E.num.lt (x (q % X) (q / X % Y) (q / X / Y)) (x (m % X) (m / X % Y) (m / X / Y)) = false) ∧
          ∀ m < q, E.num.lt (x (m % X) (m / X % Y) (m / X / Y)) (x (q % X) (q / X % Y) (q / X / Y)) = true := by
      intro A B C x hx hS
      have g := hx.good
      obtain ⟨q, hq, e, h1, h2⟩ := MExpr.bestElem_spec (fun a b => E.num.lt a b) hw hx.expr hS
      have hd := MExpr.iterAt_diff (X := A) (Y := B) (Z := C) (n := q) g.x g.y
      refine ⟨q, hq, ?_, h1, h2⟩
      rw [MExpr.maxIndexFlat, e, Res.bind_ok, show (outs M.layers.length).expr.dim = dimN A B C from hx.dim, hd,
        u64_nat (by have := g.small; omega)]
    rcases hf with hf | hf
    · obtain ⟨q, hq, e, h1, h2⟩ := gen hf (fun i _ j hj k _ => hS j hj)
      have hn : 1 * n * 1 = n := by omega
      rw [hn] at hq h1
      have hmod : ∀ m < n, m / 1 % n = m := fun m hm => by rw [Nat.div_one, Nat.mod_eq_of_lt hm]
      rw [hmod q hq] at h1 h2
      exact ⟨q, hq, e, fun i hi => by have := h1 i hi; rwa [hmod i hi] at this, fun i hi => by have := h2 i hi; rwa [hmod i (by omega)] at this⟩
    · obtain ⟨q, hq, e, h1, h2⟩ := gen hf (fun i hi j _ k _ => hS i hi)
      have hn : n * 1 * 1 = n := by omega
      rw [hn] at hq h1
      rw [Nat.mod_eq_of_lt hq] at h1 h2
      exact ⟨q, hq, e, fun i hi => by have := h1 i hi; rwa [Nat.mod_eq_of_lt hi] at this,
        fun i hi => by have := h2 i hi; rwa [Nat.mod_eq_of_lt (show i < n by omega)] at this⟩
  obtain ⟨q, hq, hmax, k1, k2⟩ := key
  obtain ⟨_, _, hsz, _, _⟩ := hf.facts
  refine ⟨⟨none, q, none, -1, E.toFloat (f q), (List.range (M.layers.length + 1)).map recs⟩, recs M.layers.length, ?_, ?_, ?_, hq, rfl, k1, k2⟩
  · unfold forwardPropagation forwardBegin
    simp only [hp.start, Res.bind_ok, hrec 0 (by omega)]
    rw [forward_fold hp.layer M.layers.length le_rfl (fun i _ hi => hrec i hi), Res.bind_ok, upTo_all]
    rw [forwardEnd_eq (by rw [hsz, hsize]; rfl) hmax (hf.flat hq)]
    rfl
  · simp [List.range_succ]
  · have h := hrec M.layers.length le_rfl
    rcases hf with hf | hf
    · obtain ⟨R, e, s⟩ := Matrix.ofExpr_shows hf.expr E.toFloat
      exact Or.inl ((Res.ok.inj (e.symm.trans h)) ▸ s)
    · obtain ⟨R, e, s⟩ := Matrix.ofExpr_shows hf.expr E.toFloat
      exact Or.inr ((Res.ok.inj (e.symm.trans h)) ▸ s)

section
variable {N : Num α} {p : Precision} {F : Floating N p}

/-- All layers before softmax. -/
theorem net_near (hp : p.Ok) {b : Nat} (draws : Nat → Nat → α) (ls : List NetLayer) (Bs : List (Body α)) (s : Shape) (X : Matrix α) (x e : Tensor)
    (hd : HoldsAll F b s Bs ls) (hf : NetFits ls s) (hX : X.Near F s x e) (hr : NetInRange p ls s x e) :
    Bs.length = ls.length ∧ ∃ (outs : Nat → Matrix α) (bodies : Nat → Body α), outs 0 = X ∧
      (∀ (i : Nat) (B : Body α), Bs[i]? = some B → B.forward N (draws i) (outs i) b = .ok (outs (i + 1), bodies i)) ∧
      (∀ i ≤ ls.length, ∃ A B C f, (outs i).Shows A B C f) ∧
      (outs ls.length).Near F (netOut ls s) (netEval ls s x) (netErr p ls s x e) := by
  induction ls generalizing Bs s X x e draws with
  | nil =>
    match Bs, hd with
    | [], _ =>
      refine ⟨rfl, fun _ => X, fun _ => .softmax (Softmax.new 0), rfl, by simp, ?_, hX⟩
      obtain ⟨f, h, _⟩ := hX
      exact fun i _ => ⟨_, _, _, _, h⟩
  | cons l ls ih =>
    match Bs, hd with
    | B :: Bs, hd =>
    obtain ⟨hd1, hd2⟩ := hd
    obtain ⟨hf1, hf2⟩ := hf
    obtain ⟨hr1, hr2⟩ := hr
    obtain ⟨out, body, eo, so⟩ := layer_near hp (draws 0) hd1 hf1 hX hr1
    obtain ⟨hlen, outs, bodies, h0, h1, h2, h3⟩ := ih (fun i => draws (i + 1)) Bs (l.out s) out (l.eval s x) (l.err p s x e) hd2 hf2 so hr2
    refine ⟨by simp [hlen], fun i => Nat.casesOn i X outs, fun i => Nat.casesOn i body bodies, rfl, ?_, ?_, h3⟩
    · intro i C hC
      cases i with
      | zero =>
        obtain rfl : B = C := by simpa using hC
        show B.forward N (draws 0) X b = .ok (outs 0, body)
        rw [h0]; exact eo
      | succ i => exact h1 i C (by simpa using hC)
    · intro i hi
      cases i with
      | zero =>
        obtain ⟨f, h, _⟩ := hX
        exact ⟨_, _, _, _, h⟩
      | succ i => exact h2 i (by simpa using hi)

end

/-- The whole of `forwardPropagation`. -/
theorem model_near {E : Env α} {p : Precision} {F : Floating E.num p} (hp : p.Ok) {M : Model α} {b : Nat} {s : Shape} {ls : List NetLayer} {n : Nat}
    (hM : M.Holds F b s ls n) (hfit : NetFits ls s) {X : Matrix α} {x e : Tensor} (hX : X.Near F s x e) (hr : NetInRange p ls s x e) {ε : ℝ}
    (hε : ∀ t < n, flatOf (netOut ls s).X (netOut ls s).Y (netErr p ls s x e) t ≤ ε)
    (hΩ : ∀ t < n, 2 * (|flatOf (netOut ls s).X (netOut ls s).Y (netEval ls s x) t| + ε) ≤ p.Ω) (hn : (n : ℝ) + 1 ≤ p.Ω) (hs : p.sumErr n ≤ 1 / 2) :
    ∃ r M₁ P, ∃ f : Nat → α, M.forwardPropagation E X b = .ok (r, M₁) ∧ r.inputs.getLast? = some P ∧ P.IsVec n (fun t => E.toFloat (f t)) ∧
      r.labelIdx < n ∧ r.confidence = E.toFloat (f r.labelIdx) ∧
      (∀ t < n, F.Fin (f t) ∧ |F.val (f t) - netProb ls s n x t| ≤ netProb ls s n x t * (Real.exp (2 * ε) - 1) + p.softmaxErr n ∧
        |F.val (f t)| ≤ 1 + p.softmaxErr n) ∧
      ∀ t < n, F.val (f t) ≤ F.val (f r.labelIdx) := by
  obtain ⟨⟨Bs, S, hlay, hden, hcount⟩, hlab, hout⟩ := hM
  obtain ⟨x', hX, hx'⟩ := hX
  obtain ⟨X1, e1, s1⟩ := Matrix.ofExpr_shows hX.expr (id : α → α)
  obtain ⟨hlen, outs, bodies, h0, h1, h2, h3⟩ := net_near hp E.draws ls Bs s X1 x e hden hfit ⟨x', s1, hx'⟩ hr
  have hml : M.layers.length = ls.length + 1 := by
    rw [← List.length_map (as := M.layers) (f := (·.body)), hlay]
    simp [hlen]
  obtain ⟨y, hY, hy⟩ := h3
  have hvec := isVec_of_shape hout hY
  have hpos := hvec.facts.1
  obtain ⟨P, f, eP, dP, sP, hf⟩ := softmax_layer_near (F := F) (x := flatOf (netOut ls s).X (netOut ls s).Y (netEval ls s x)) (ε := ε) hp hvec hcount (by
    intro t ht
    have hin : t % (netOut ls s).X < (netOut ls s).X ∧ t / (netOut ls s).X % (netOut ls s).Y < (netOut ls s).Y ∧
        t / (netOut ls s).X / (netOut ls s).Y < (netOut ls s).Z := by
      apply unflat_lt hY.good.x hY.good.y
      rcases hout with h | h <;> rw [h] <;> simpa using ht
    obtain ⟨a, c⟩ := hy _ hin.1 _ hin.2.1 _ hin.2.2
    exact ⟨a, c.trans (hε t ht)⟩) hΩ hn hs
  have hbody : ∀ (i : Nat) (l : Layer α), M.layers[i]? = some l → (Bs ++ [Body.softmax S])[i]? = some l.body := by
    intro i l hl
    rw [← hlay, List.getElem?_map, hl]; rfl
  have hpass : Pass E M b X (fun i => if i ≤ ls.length then outs i else P) (fun i => if i < ls.length then bodies i else .softmax S) := by
    refine ⟨by simpa [h0] using e1, ?_⟩
    intro i l hl
    have hi : i < ls.length + 1 := hml ▸ (List.getElem?_eq_some_iff.1 hl).1
    have hb := hbody i l hl
    by_cases h : i < ls.length
    · rw [List.getElem?_append_left (by omega)] at hb
      have := h1 i _ hb
      simpa [h, h.le, Nat.succ_le_of_lt h] using this
    · obtain rfl : i = ls.length := by omega
      rw [List.getElem?_append_right (by omega), hlen] at hb
      simp only [Nat.sub_self, List.getElem?_cons_zero, Option.some.injEq] at hb
      rw [← hb]
      simp [Body.forward, eP]
  have hshow : ∀ i ≤ M.layers.length, ∃ A B C f, (if i ≤ ls.length then outs i else P).Shows A B C f := by
    intro i hi
    by_cases h : i ≤ ls.length
    · rw [if_pos h]; exact h2 i h
    · rw [if_neg h]
      rcases sP with sP | sP <;> exact ⟨_, _, _, _, sP⟩
  obtain ⟨r, R, k1, k2, k3, k4, k5, k6, _⟩ := forward_result E M X b _ _ hpass hshow (n := n) (f := f)
    (by rw [hml, if_neg (by omega)]; exact sP) hlab.symm (Floating.weakOn_lt (F := F)) (fun i hi => (hf i hi).1)
  refine ⟨r, _, R, f, k1, k2, k3, k4, k5, hf, ?_⟩
  intro t ht
  have h : ¬ E.num.lt (f r.labelIdx) (f t) = true := by rw [k6 t ht]; simp
  rwa [F.lt _ _ (hf _ k4).1 (hf t ht).1, not_lt] at h

end Cnn
