import Verif.Lemmas.NetPass
import Verif.Props.Network
import Verif.Props.SoftmaxLoss
/-! A network as a model: both passes. -/
namespace Cnn
open Finset Model

theorem Pass.unique {α : Type} [Zero α] [One α] [Add α] [Sub α] [Mul α] [Div α] [Neg α] {E : Env α} {M : Model α} {b : Nat}
    {X : Matrix α} {o o' : Nat → Matrix α} {B B' : Nat → Body α} (h : Pass E M b X o B) (h' : Pass E M b X o' B') (i : Nat)
    (hi : i ≤ M.layers.length) : o i = o' i := by
  induction i with
  | zero => exact Res.ok.inj (h.start.symm.trans h'.start)
  | succ n ih =>
    have hg : M.layers[n]? = some M.layers[n] := List.getElem?_eq_getElem (by omega)
    have e1 := h.layer n _ hg
    have e2 := h'.layer n _ hg
    rw [ih (by omega)] at e1
    exact congrArg Prod.fst (Res.ok.inj (e1.symm.trans e2))

/-- A row or a column as a vector. -/
theorem isVec_of_shape {α : Type} {M : Matrix α} {s : Shape} {n : Nat} {x : Nat → Nat → Nat → α} (hs : s = ⟨n, 1, 1⟩ ∨ s = ⟨1, n, 1⟩)
    (h : M.Shows s.X s.Y s.Z x) : M.IsVec n (flatOf s.X s.Y x) := by
  rcases hs with rfl | rfl
  · refine Or.inr (Matrix.Shows.congr h ?_)
    intro i hi j hj k hk
    obtain rfl : j = 0 := by omega
    obtain rfl : k = 0 := by omega
    simp [flatOf, Nat.mod_eq_of_lt hi, Nat.div_eq_of_lt hi]
  · refine Or.inl (Matrix.Shows.congr h ?_)
    intro i hi j hj k hk
    obtain rfl : i = 0 := by omega
    obtain rfl : k = 0 := by omega
    simp [flatOf, Nat.mod_eq_of_lt hj, Nat.div_eq_of_lt hj, Nat.mod_one]

/-- A vector as a row or a column. -/
theorem shape_of_isVec {α : Type} {M : Matrix α} {s : Shape} {n : Nat} {v : Nat → α} (hs : s = ⟨n, 1, 1⟩ ∨ s = ⟨1, n, 1⟩)
    (hd : M.dim = dimN s.X s.Y s.Z) (h : M.IsVec n v) : M.Shows s.X s.Y s.Z (fun i j _ => v (i + j)) := by
  have hn := h.facts.1
  rcases hs with rfl | rfl
  · rcases h with h | h
    · have := h.dim.symm.trans hd
      rw [dimN_inj] at this
      dsimp only at this
      obtain rfl : n = 1 := by omega
      exact Matrix.Shows.congr h (by intro i hi j hj k hk; dsimp only at hi hj hk; congr 1; omega)
    · exact Matrix.Shows.congr h (by intro i hi j hj k hk; dsimp only at hi hj hk; congr 1; omega)
  · rcases h with h | h
    · exact Matrix.Shows.congr h (by intro i hi j hj k hk; dsimp only at hi hj hk; congr 1; omega)
    · have := h.dim.symm.trans hd
      rw [dimN_inj] at this
      dsimp only at this
      obtain rfl : n = 1 := by omega
      exact Matrix.Shows.congr h (by intro i hi j hj k hk; dsimp only at hi hj hk; congr 1; omega)

theorem model_pass {E : Env ℝ} (hE : E.Exact) {M : Model ℝ} {b : Nat} {s : Shape} {ls : List NetLayer} {n : Nat}
    (hM : M.Denotes b s ls n) (hf : NetFits ls s) {X : Matrix ℝ} {x : Tensor} (hX : X.Is3 s x) :
    ∃ r M₁, M.forwardPropagation E X b = .ok (r, M₁) ∧
      (∃ P, r.inputs.getLast? = some P ∧ P.IsVec n (netProb ls s n x)) ∧
      (NetTrains true ls s → ∀ ls', NetStands ls s x ls' → ∀ label ∈ M.labels, ∃ t r' M₂, t < n ∧ M.labels[t]? = some label ∧
        (∀ t' < t, M.labels[t']? ≠ some label) ∧ M₁.backwardsPropagation E r label b = .ok (r', M₂) ∧
        ∀ i l, ls[i]? = some l → l.params ≠ none → ∃ DW DB dw, ∃ db : Nat → ℝ, M₂.stored i b = some (DW, DB) ∧
            DW.Is3 (l.weightShape (netOut (ls.take i) s)) dw ∧ DB.Shows l.biasCount 1 1 (fun f _ _ => db f) ∧
            NetParamGrad ls' i s n t x dw db) := by
  obtain ⟨⟨Bs, S, hlay, hden, hcount⟩, hlab, hout⟩ := hM
  obtain ⟨X1, e1, s1⟩ := Matrix.ofExpr_shows hX.expr (id : ℝ → ℝ)
  obtain ⟨hlen, outs, bodies, h0, h1, h2, h3⟩ := net_pass E.draws ls Bs true s X1 x hden hf s1
  have hml : M.layers.length = ls.length + 1 := by
    rw [← List.length_map (as := M.layers) (f := (·.body)), hlay]
    simp [hlen]
  have hlast := h2 ls.length le_rfl
  rw [List.take_length] at hlast
  have hvec := isVec_of_shape hout hlast
  obtain ⟨P, eP, dP, sP⟩ := softmax_forward hvec hcount
  have hP3 : P.Is3 (netOut ls s) (fun i j _ => netProb ls s n x (i + j)) := shape_of_isVec hout (dP.trans hlast.dim) sP
  -- the layers of the model
  have hbody : ∀ (i : Nat) (l : Layer ℝ), M.layers[i]? = some l → (Bs ++ [Body.softmax S])[i]? = some l.body := by
    intro i l hl
    rw [← hlay, List.getElem?_map, hl]; rfl
  have hpass : Pass E M b X (fun i => if i ≤ ls.length then outs i else P)
      (fun i => if i < ls.length then bodies i else .softmax S) := by
    refine ⟨by simpa [h0] using e1, ?_⟩
    intro i l hl
    have hi : i < ls.length + 1 := hml ▸ (List.getElem?_eq_some_iff.1 hl).1
    have hb := hbody i l hl
    by_cases h : i < ls.length
    · rw [List.getElem?_append_left (by omega)] at hb
      have := h1 i _ hb
      rw [hE.num]
      simpa [h, h.le, Nat.succ_le_of_lt h] using this
    · obtain rfl : i = ls.length := by omega
      rw [List.getElem?_append_right (by omega), hlen] at hb
      simp only [Nat.sub_self, List.getElem?_cons_zero, Option.some.injEq] at hb
      rw [← hb, hE.num]
      simp [Body.forward, eP]
  have hshow : ∀ i ≤ M.layers.length, ∃ A B C f, (if i ≤ ls.length then outs i else P).Shows A B C f := by
    intro i hi
    by_cases h : i ≤ ls.length
    · rw [if_pos h]; exact ⟨_, _, _, _, h2 i h⟩
    · rw [if_neg h]; exact ⟨_, _, _, _, hP3⟩
  have hsize : (netOut ls s).X * (netOut ls s).Y * (netOut ls s).Z = M.labels.length := by
    rw [hlab]; rcases hout with h | h <;> rw [h] <;> simp
  obtain ⟨r, hr⟩ := C57_returns E M X b _ _ hpass hshow _ _ _ _ (by rw [hml, if_neg (by omega)]; exact hP3) hsize
  obtain ⟨outs2, bodies2, hp2, _, hrl, hrec, _⟩ := C57_consistent E M _ X b r hr
  -- the records
  have hrecs : ∀ i ≤ ls.length, ∃ R, r.inputs[i]? = some R ∧ R.Is3 (netOut (ls.take i) s) (netEval (ls.take i) s x) := by
    intro i hi
    obtain ⟨R, g1, g2⟩ := hrec i (by omega)
    refine ⟨R, g1, ?_⟩
    have := g2 _ _ _ _ (by rw [← hpass.unique hp2 i (by omega), if_pos hi]; exact h2 i hi)
    rw [hE.toFloat] at this
    exact this
  obtain ⟨Rl, hRl, hRs⟩ : ∃ R, r.inputs[ls.length + 1]? = some R ∧ R.Is3 (netOut ls s) (fun i j _ => netProb ls s n x (i + j)) := by
    obtain ⟨R, g1, g2⟩ := hrec (ls.length + 1) (by omega)
    refine ⟨R, g1, ?_⟩
    have := g2 _ _ _ _ (by rw [← hpass.unique hp2 _ (by omega), if_neg (by omega)]; exact hP3)
    rw [hE.toFloat] at this
    exact this
  have hgl : r.inputs.getLast? = some Rl := by rw [List.getLast?_eq_getElem?, hrl, hml]; exact hRl
  have hpv : ∀ R : Matrix ℝ, R.Is3 (netOut ls s) (fun i j _ => netProb ls s n x (i + j)) → R.IsVec n (netProb ls s n x) := by
    intro R hR
    refine (isVec_of_shape hout hR).congr ?_
    intro i hi
    rcases hout with h | h <;> rw [h] <;> simp [flatOf, Nat.mod_eq_of_lt hi, Nat.mod_one]
  refine ⟨r, _, hr, ⟨Rl, hgl, hpv _ hRs⟩, ?_⟩
  intro htr ls' hsm label hlabel
  set M₁ := M.withBodies (fun i => if i < ls.length then bodies i else .softmax S) with hM₁
  have hl1 : M₁.layers.length = ls.length + 1 := by simp [hM₁, withBodies, hml]
  have hget1 : ∀ i < ls.length + 1, ∃ nm, M₁.layers[i]? = some ⟨nm, if i < ls.length then bodies i else .softmax S⟩ := by
    intro i hi
    refine ⟨(M.layers[i]'(by omega)).name, ?_⟩
    rw [hM₁, withBodies]
    simp only [List.getElem?_mapIdx, List.getElem?_eq_getElem (show i < M.layers.length by omega), Option.map_some]
  obtain ⟨nm, hnm⟩ := hget1 ls.length (by omega)
  rw [if_neg (lt_irrefl _)] at hnm
  obtain ⟨t, ht, ht1, ht2, hbeg⟩ := C58_known_partial E M₁ r label Rl hgl _ _ _ _ hRs hsize hlabel ⟨nm, .softmax S⟩ S
    (by rw [List.getLast?_eq_getElem?, hl1]; exact hnm) rfl (by rw [hcount]; exact hlab.symm)
  have ht : t < M.labels.length := ht
  have htn : t < n := by omega
  -- the records as the backward pass reads them
  have hr2 : ∀ i, ∃ R R', i ≤ ls.length + 1 → r.inputs[i]? = some R ∧ Matrix.ofExpr id R.expr = .ok R' ∧
      (i ≤ ls.length → R'.Is3 (netOut (ls.take i) s) (netEval (ls.take i) s x)) ∧
      (i = ls.length + 1 → R'.Is3 (netOut ls s) (fun i j _ => netProb ls s n x (i + j))) := by
    intro i
    by_cases h : i ≤ ls.length
    · obtain ⟨R, g1, g2⟩ := hrecs i h
      obtain ⟨R', g3, g4⟩ := Matrix.ofExpr_shows g2.expr (id : ℝ → ℝ)
      exact ⟨R, R', fun _ => ⟨g1, g3, fun _ => g4, fun h' => by omega⟩⟩
    · by_cases h' : i = ls.length + 1
      · subst h'
        obtain ⟨R', g3, g4⟩ := Matrix.ofExpr_shows hRs.expr (id : ℝ → ℝ)
        exact ⟨Rl, R', fun _ => ⟨hRl, g3, fun h' => by omega, fun _ => g4⟩⟩
      · exact ⟨Matrix.empty, Matrix.empty, fun hh => by omega⟩
  choose R recs hRR using hr2
  -- softmax
  have hZ := hpv _ ((hRR (ls.length + 1) le_rfl).2.2.2 rfl)
  obtain ⟨G, eG, dG, sG⟩ := hZ.setFlat htn (netProb ls s n x t - 1)
  have hZd : (recs (ls.length + 1)).dim = dimN (netOut ls s).X (netOut ls s).Y (netOut ls s).Z :=
    ((hRR (ls.length + 1) le_rfl).2.2.2 rfl).dim
  have hG3 := shape_of_isVec hout (dG.trans hZd) sG
  have hgood := hlast.good
  have hgrad : IsGrad [] (netOut ls s) n t (netEval ls s x) (fun i j _ =>
      Function.update (netProb ls s n x) t (netProb ls s n x t - 1) (i + j)) := by
    refine IsGrad.nil htn (by rw [hsize, hlab]) hgood.x hgood.y _ _ ?_
    intro i hi
    have : flatOf (netOut ls s).X (netOut ls s).Y (fun i j _ => Function.update (netProb ls s n x) t (netProb ls s n x t - 1) (i + j)) i =
        Function.update (netProb ls s n x) t (netProb ls s n x t - 1) i := by
      rcases hout with h | h <;> rw [h] <;> simp [flatOf, Nat.mod_eq_of_lt hi, Nat.mod_one]
    rw [this]
    by_cases h : i = t
    · subst h; simp [netProb]
    · simp [h, netProb]
  obtain ⟨Ds, bodies', k0, k1, _, k3⟩ := h3 htr ls' hsm n t recs G _ (fun i hi => (hRR i (by omega)).2.2.1 hi) hG3 hgrad
  -- the loop
  set M₂ := M₁.setBody (M₁.layers.length - 1) (.softmax ⟨S.count, t, true⟩) with hM₂
  have hl2 : M₂.layers.length = ls.length + 1 := by simp [hM₂, setBody, hl1]
  have hget2 : ∀ i < ls.length + 1, ∃ nm, M₂.layers[i]? = some ⟨nm, if i < ls.length then bodies i else .softmax ⟨S.count, t, true⟩⟩ := by
    intro i hi
    obtain ⟨nm, h⟩ := hget1 i hi
    refine ⟨nm, ?_⟩
    rw [hM₂, setBody]
    simp only [List.getElem?_modify, h, hl1, Nat.add_sub_cancel]
    by_cases h' : i < ls.length
    · simp [h', show ¬ ls.length = i by omega]
    · simp [show i = ls.length by omega]
  let r2 : Results ℝ := ⟨some label, r.labelIdx, some t, E.toFloat (E.num.max (-1 * E.num.log2 (flatOf (netOut ls s).X (netOut ls s).Y (fun i j _ => netProb ls s n x (i + j)) t + E.num.eps)) 0), r.confidence, r.inputs⟩
  have hfold := backward_fold (E := E) (M := M₂) (b := b) (r := r2)
    (recs := recs) (Ds := fun i => if i ≤ ls.length then Ds i else Matrix.empty)
    (bodies := fun i => if i < ls.length then bodies' i else .softmax ⟨S.count, t, true⟩)
    (fun i hi => ⟨R i, (hRR i (by omega)).1, (hRR i (by omega)).2.1⟩) (ls.length + 1) (by omega) (by
      intro i l hi hl
      obtain ⟨nm, h⟩ := hget2 i hi
      rw [hl] at h
      obtain rfl := Option.some.inj h
      rw [hE.num, hE.order]
      by_cases h' : i < ls.length
      · have := k1 i h'
        simpa [h', h'.le, Nat.succ_le_of_lt h'] using this
      · obtain rfl : i = ls.length := by omega
        simp [Body.backward, Softmax.backward, Softmax.getdLdX, hZ.flat htn, eG, k0]) M₂ (fun _ _ => rfl)
  refine ⟨t, r2, M₂.upTo (fun i => if i < ls.length then bodies' i else .softmax ⟨S.count, t, true⟩) (ls.length + 1), htn, ht1, ht2, ?_, ?_⟩
  · unfold backwardsPropagation
    rw [hbeg, Res.bind_ok, hl1]
    simp only [Nat.not_succ_le_self, if_false] at hfold
    have : (List.range (ls.length + 1)).reverse.foldlM (backwardStep E r2 b) (Matrix.empty, M₂) = _ := hfold
    show (List.foldlM (backwardStep E r2 b) (Matrix.empty, M₂) (List.range (ls.length + 1)).reverse >>= fun s => Res.ok (r2, s.2)) = _
    rw [this]
    rfl
  · intro i l hl hp
    obtain ⟨DW, DB, dw, db, q1, q2⟩ := k3 i l hl hp
    refine ⟨DW, DB, dw, db, ?_, q2⟩
    have hi : i < ls.length := (List.getElem?_eq_some_iff.1 hl).1
    obtain ⟨nm, h⟩ := hget2 i (by omega)
    simp only [Model.stored, upTo, List.getElem?_mapIdx, h, Option.map_some, Option.bind_some, show i < ls.length + 1 by omega, if_true, hi]
    exact q1

theorem NetParamGrad.weight {ls : List NetLayer} {i : Nat} {s : Shape} {n t : Nat} {x dw : Tensor} {db : Nat → ℝ}
    (h : NetParamGrad ls i s n t x dw db) {l : NetLayer} {w : Tensor} {β : Nat → ℝ} (hl : ls[i]? = some l)
    (hp : l.params = some (w, β)) {a b c : Nat} (ha : a < (l.weightShape (netOut (ls.take i) s)).X)
    (hb : b < (l.weightShape (netOut (ls.take i) s)).Y) (hc : c < (l.weightShape (netOut (ls.take i) s)).Z) :
    HasDerivAt (fun v => netLoss (ls.set i (l.withParams (w.update a b c v) β)) s n t x) (dw a b c) (w a b c) := by
  have := h l w β hl hp (w a b c) (fun v => w.update a b c v) (fun i j k => if a = i ∧ b = j ∧ c = k then 1 else 0)
    (fun _ => β) (fun _ => 0) ⟨?_, ?_⟩ rfl (fun f _ => hasDerivAt_const _ _)
  · refine this.congr_deriv ?_
    simp only [mul_ite, mul_one, mul_zero, sum_const_zero, add_zero]
    have e : (fun i j k => if a = i ∧ b = j ∧ c = k then dw i j k else 0) =
        fun i j k => if a = i ∧ b = j ∧ c = k then dw a b c else 0 := by
      funext i j k
      split
      · rename_i h; obtain ⟨rfl, rfl, rfl⟩ := h; rfl
      · rfl
    rw [e, total_single ha hb hc]
  · funext i j k
    unfold Tensor.update
    split
    · rename_i h; obtain ⟨rfl, rfl, rfl⟩ := h; rfl
    · rfl
  · intro i _ j _ k _
    unfold Tensor.update
    by_cases h : i = a ∧ j = b ∧ k = c
    · obtain ⟨rfl, rfl, rfl⟩ := h
      simpa using hasDerivAt_id' (w i j k)
    · have h' : ¬ (a = i ∧ b = j ∧ c = k) := fun ⟨h1, h2, h3⟩ => h ⟨h1.symm, h2.symm, h3.symm⟩
      simp only [h, h', if_false]
      exact hasDerivAt_const _ _

theorem NetParamGrad.bias {ls : List NetLayer} {i : Nat} {s : Shape} {n t : Nat} {x dw : Tensor} {db : Nat → ℝ}
    (h : NetParamGrad ls i s n t x dw db) {l : NetLayer} {w : Tensor} {β : Nat → ℝ} (hl : ls[i]? = some l)
    (hp : l.params = some (w, β)) {f : Nat} (hf : f < l.biasCount) :
    HasDerivAt (fun v => netLoss (ls.set i (l.withParams w (Function.update β f v))) s n t x) (db f) (β f) := by
  have := h l w β hl hp (β f) (fun _ => w) (fun _ _ _ => 0) (fun v => Function.update β f v) (fun k => if k = f then 1 else 0)
    ⟨rfl, fun i _ j _ k _ => hasDerivAt_const _ _⟩ (Function.update_eq_self _ _) ?_
  · refine this.congr_deriv ?_
    simp [total, hf]
  · intro k _
    by_cases h : k = f
    · subst h; simpa using hasDerivAt_id' (β k)
    · simp only [h, if_false, Function.update_of_ne h]
      exact hasDerivAt_const _ _

/-! ## Another batch size -/

theorem Body.Denotes.setBatchSize {B : Body ℝ} {b : Nat} {first : Bool} {s : Shape} {l : NetLayer} (h : B.Denotes b first s l)
    {m c : Nat} (hc : c < m) : (B.setBatchSize m).Denotes c first s l := by
  match B, l, h with
  | .kernel K, .conv .., h =>
    exact ⟨⟨h.1.dim, h.1.num, h.1.stride, h.1.weights, h.1.biases⟩, by simp [Kernel.setBatchSize, emptyGrads, hc],
      by simp [Kernel.setBatchSize, emptyGrads, hc]⟩
  | .pooling P, .pool .., h =>
    refine ⟨h.1, h.2.1, h.2.2.1, ?_⟩
    show c < (Matrix.vecResize _ _ _).length
    simp only [Matrix.vecResize, List.length_append, List.length_take, List.length_replicate]
    omega
  | .connected L, .full .., h =>
    exact ⟨⟨h.1.weights, h.1.biases, h.1.initialized⟩, by simp [Connected.setBatchSize, emptyGrads, hc],
      by simp [Connected.setBatchSize, emptyGrads, hc], h.2.2.2⟩
  | .activation A, .act _, h => exact h

theorem DenotesAll.setBatchSize {b m c : Nat} (hc : c < m) {first : Bool} {s : Shape} {Bs : List (Body ℝ)} {ls : List NetLayer}
    (h : DenotesAll b first s Bs ls) : DenotesAll c first s (Bs.map (Body.setBatchSize m)) ls := by
  induction ls generalizing Bs first s with
  | nil =>
    match Bs, h with
    | [], _ => trivial
  | cons l ls ih =>
    match Bs, h with
    | B :: Bs, h => exact ⟨h.1.setBatchSize hc, ih h.2⟩

theorem Model.Denotes.setBatchSize {M : Model ℝ} {b m c : Nat} (hc : c < m) {s : Shape} {ls : List NetLayer} {n : Nat}
    (h : M.Denotes b s ls n) : (M.setBatchSize m).Denotes c s ls n := by
  obtain ⟨⟨Bs, S, h1, h2, h3⟩, h4, h5⟩ := h
  refine ⟨⟨Bs.map (Body.setBatchSize m), S, ?_, h2.setBatchSize hc, h3⟩, h4, h5⟩
  have : (M.setBatchSize m).layers.map (·.body) = (M.layers.map (·.body)).map (Body.setBatchSize m) := by
    simp [Model.setBatchSize]
  rw [this, h1]
  simp [Body.setBatchSize]

end Cnn
