import Verif.Lemmas.GradLayer
import Verif.Lemmas.GradTruth
/-! Back-propagation through a network in rounded arithmetic (C98). -/
namespace Cnn
open Finset Model

variable {α : Type} [Zero α] [One α] [Add α] [Sub α] [Mul α] [Div α] [Neg α] {E : Env α} {p : Precision} {F : Floating E.num p} {q : Conversion}

theorem NetBackRoom.recs {n t : Nat} {ε : ℝ} {first : Bool} {ls : List NetLayer} {s : Shape} {x e : Tensor} (h : NetBackRoom p q n t ε first ls s x e) :
    NetLayer.RecRoom q s x e := by
  cases ls with
  | nil => exact h.1
  | cons l ls => exact h.1

theorem SlottedAll.left {α : Type} {b : Nat} {first : Bool} {s : Shape} {Bs Cs : List (Body α)} {ls : List NetLayer} (h : SlottedAll b first s (Bs ++ Cs) ls) :
    SlottedAll b first s Bs ls := by
  induction ls generalizing Bs first s with
  | nil => cases Bs <;> trivial
  | cons l ls ih =>
    cases Bs with
    | nil => trivial
    | cons B Bs => exact ⟨h.1, ih h.2⟩

theorem HoldsAll.plain {b : Nat} {s : Shape} {Bs : List (Body α)} {ls : List NetLayer} (h : HoldsAll F b s Bs ls) : NetPlain ls := by
  induction ls generalizing Bs s with
  | nil => intro l hl; simp at hl
  | cons l ls ih =>
    match Bs, h with
    | B :: Bs, ⟨h1, h2⟩ =>
      intro l' hl'
      rcases List.mem_cons.1 hl' with rfl | hl'
      · rintro X Y U V S D rfl
        cases B <;> exact h1
      · exact ih h2 l' hl'

/-- All layers before softmax. -/
theorem net_backs (hp : p.Ok) (hE : E.Rounds F q) {b : Nat} (draws : Nat → Nat → α) (ls : List NetLayer) (Bs : List (Body α)) (first : Bool) (s : Shape)
    (X : Matrix α) (x e : Tensor) (y : Nat → Nat → Nat → α) (hd : HoldsAll F b s Bs ls) (hR : SlottedAll b first s Bs ls) (hf : NetFits ls s)
    (hX : X.Shows s.X s.Y s.Z y) (hy : ∀ i < s.X, ∀ j < s.Y, ∀ k < s.Z, F.Fin (y i j k) ∧ |F.val (y i j k) - x i j k| ≤ e i j k)
    (hr : NetInRange p ls s x e) :
    Bs.length = ls.length ∧ ∃ (outs : Nat → Matrix α) (bodies : Nat → Body α) (ys : Nat → Nat → Nat → Nat → α), outs 0 = X ∧
      (∀ (i : Nat) (B : Body α), Bs[i]? = some B → B.forward E.num (draws i) (outs i) b = .ok (outs (i + 1), bodies i)) ∧
      (∀ i ≤ ls.length, (outs i).Shows (netOut (ls.take i) s).X (netOut (ls.take i) s).Y (netOut (ls.take i) s).Z (ys i)) ∧
      (∀ i < (netOut ls s).X, ∀ j < (netOut ls s).Y, ∀ k < (netOut ls s).Z, F.Fin (ys ls.length i j k) ∧
        |F.val (ys ls.length i j k) - netEval ls s x i j k| ≤ netErr p ls s x e i j k) ∧
      (NetTrains first ls s → ∀ (n t : Nat) (ε : ℝ) (recs : Nat → Matrix α) (G : Matrix α),
        (∀ i ≤ ls.length, (recs i).Shows (netOut (ls.take i) s).X (netOut (ls.take i) s).Y (netOut (ls.take i) s).Z (fun a b c => E.toFloat (ys i a b c))) →
        G.Near F (netOut ls s) (lossGrad (netOut ls s) n t (netEval ls s x)) (lossErr p q (netOut ls s) n t ε (netEval ls s x)) →
        NetBackRoom p q n t ε first ls s x e →
        ∃ (Ds : Nat → Matrix α) (bodies' : Nat → Body α), Ds ls.length = G ∧
          (∀ i < ls.length, (bodies i).backward E.num .dimsFirst (recs i) (recs (i + 1)) (Ds (i + 1)) b (first && decide (i = 0)) =
            .ok (Ds i, bodies' i)) ∧
          (first = false → (Ds 0).Near F s (netGrad n t ls s x) (netGradErr p q n t ε ls s x e)) ∧
          ∀ i l, ls[i]? = some l → l.params ≠ none → ∃ DW DB, (bodies' i).stored b = some (DW, DB) ∧
            DW.Near F (l.weightShape (netOut (ls.take i) s)) (netWeightGrad n t i ls s x) (netWeightErr p q n t ε i ls s x e) ∧
            DB.Near F ⟨l.biasCount, 1, 1⟩ (fun f _ _ => netBiasGrad n t i ls s x f) (fun f _ _ => netBiasErr p q n t ε i ls s x e f)) := by
  induction ls generalizing Bs first s X x e y draws with
  | nil =>
    match Bs, hd with
    | [], _ =>
      refine ⟨rfl, fun _ => X, fun _ => .softmax (Softmax.new 0), fun _ => y, rfl, by simp, ?_, hy, ?_⟩
      · intro i _
        simpa [netOut, netEval] using hX
      · intro _ n t ε recs G _ hG hg
        exact ⟨fun _ => G, fun _ => .softmax (Softmax.new 0), rfl, by simp, fun _ => hG, by simp⟩
  | cons l ls ih =>
    match Bs, hd with
    | B :: Bs, hd =>
    obtain ⟨hd1, hd2⟩ := hd
    obtain ⟨hR1, hR2⟩ := hR
    obtain ⟨hf1, hf2⟩ := hf
    obtain ⟨hr1, hr2⟩ := hr
    obtain ⟨out, body, yo, eo, so, hyo, hback⟩ := layer_backs hp hE (draws 0) hd1 hR1 hf1 hX hy hr1
    obtain ⟨hlen, outs, bodies, ys, h0, h1, h2, h3, h4⟩ := ih (fun i => draws (i + 1)) Bs false (l.out s) out (l.eval s x) (l.err p s x e) yo
      hd2 hR2 hf2 so hyo hr2
    refine ⟨by simp [hlen], fun i => Nat.casesOn i X outs, fun i => Nat.casesOn i body bodies, fun i => Nat.casesOn i y ys, rfl, ?_, ?_, ?_, ?_⟩
    · intro i C hC
      cases i with
      | zero =>
        obtain rfl : B = C := by simpa using hC
        show B.forward E.num (draws 0) X b = .ok (outs 0, body)
        rw [h0]; exact eo
      | succ i => exact h1 i C (by simpa using hC)
    · intro i hi
      cases i with
      | zero => simpa [netOut] using hX
      | succ i =>
        have := h2 i (by simpa using hi)
        simpa [netOut] using this
    · exact h3
    · intro ht n t ε recs G hrecs hG hroom
      obtain ⟨ht1, ht2⟩ := ht
      obtain ⟨hm1, hm2, hm3, hm4⟩ := hroom
      obtain ⟨Ds, bodies', k0, k1, k2, k3⟩ := h4 ht2 n t ε (fun i => recs (i + 1)) G (by
        intro i hi
        have := hrecs (i + 1) (by simpa using hi)
        simpa [netOut] using this) hG hm4
      have r0 := hrecs 0 (by simp)
      have r1 := hrecs 1 (by simp)
      simp only [List.take_zero, netOut] at r0
      simp only [List.take_succ_cons, List.take_zero, netOut] at r1
      have hys : (∀ i < (l.out s).X, ∀ j < (l.out s).Y, ∀ k < (l.out s).Z, ys 0 i j k = yo i j k) := by
        intro i hi j hj k hk
        have a := h2 0 (by simp)
        simp only [List.take_zero, netOut] at a
        rw [h0] at a
        exact Res.ok.inj ((a.entry i hi j hj k hk).symm.trans (so.entry i hi j hj k hk))
      obtain ⟨D, body', eb, m1, m2⟩ := hback ht1 (Ds 0) (recs 0) (recs 1) _ _ (k2 rfl) r0 (r1.congr fun i hi j hj k hk => by
        show E.toFloat (ys 0 i j k) = _
        rw [hys i hi j hj k hk]) hm1 hm4.recs hm2 hm3
      refine ⟨fun i => Nat.casesOn i D Ds, fun i => Nat.casesOn i body' bodies', by simpa using k0, ?_, m1, ?_⟩
      · intro i hi
        cases i with
        | zero => simpa using eb
        | succ i =>
          have := k1 i (by simpa using hi)
          simpa using this
      · intro i l' hl' hp
        cases i with
        | zero =>
          obtain rfl : l = l' := by simpa using hl'
          exact m2 hp
        | succ i =>
          obtain ⟨DW, DB, q1, q2, q3⟩ := k3 i l' (by simpa using hl') hp
          exact ⟨DW, DB, q1, by simpa [netOut, netWeightGrad, netWeightErr] using q2, q3⟩

/-- Both passes of a model. -/
theorem model_backs (hp : p.Ok) (hE : E.Rounds F q) {M : Model α} {b : Nat} {s : Shape} {ls : List NetLayer} {n : Nat}
    (hM : M.Holds F b s ls n) (hR : SlottedAll b true s (M.layers.map (·.body)) ls) (hfit : NetFits ls s) {X : Matrix α} {x e : Tensor}
    (hX : X.Near F s x e) (hr : NetInRange p ls s x e) {ε : ℝ} (hε : ∀ t < n, flatOf (netOut ls s).X (netOut ls s).Y (netErr p ls s x e) t ≤ ε)
    (hΩ : ∀ t < n, 2 * (|flatOf (netOut ls s).X (netOut ls s).Y (netEval ls s x) t| + ε) ≤ p.Ω) (hn : (n : ℝ) + 1 ≤ p.Ω) (hs : p.sumErr n ≤ 1 / 2)
    (htr : NetTrains true ls s) {label : List Char} (hlabel : label ∈ M.labels)
    (hroom : ∀ t < n, M.labels[t]? = some label → (∀ t' < t, M.labels[t']? ≠ some label) → NetBackRoom p q n t ε true ls s x e) :
    ∃ r M₁ t r' M₂, M.forwardPropagation E X b = .ok (r, M₁) ∧ t < n ∧ M.labels[t]? = some label ∧
      (∀ t' < t, M.labels[t']? ≠ some label) ∧ M₁.backwardsPropagation E r label b = .ok (r', M₂) ∧ NetPlain ls ∧ NetShapes s ls ∧
      ∀ i l, ls[i]? = some l → l.params ≠ none → ∃ DW DB, M₂.stored i b = some (DW, DB) ∧
        DW.Near F (l.weightShape (netOut (ls.take i) s)) (netWeightGrad n t i ls s x) (netWeightErr p q n t ε i ls s x e) ∧
        DB.Near F ⟨l.biasCount, 1, 1⟩ (fun f _ _ => netBiasGrad n t i ls s x f) (fun f _ _ => netBiasErr p q n t ε i ls s x e f) := by
  obtain ⟨⟨Bs, S, hlay, hden, hcount⟩, hlab, hout⟩ := hM
  obtain ⟨x', hX, hx'⟩ := hX
  obtain ⟨X1, e1, s1⟩ := Matrix.ofExpr_shows hX.expr (id : α → α)
  rw [hlay] at hR
  obtain ⟨hlen, outs, bodies, ys, h0, h1, h2, hy, h3⟩ := net_backs hp hE E.draws ls Bs true s X1 x e x' hden hR.left hfit s1 hx' hr
  have hml : M.layers.length = ls.length + 1 := by
    rw [← List.length_map (as := M.layers) (f := (·.body)), hlay]
    simp [hlen]
  have hlast := h2 ls.length le_rfl
  rw [List.take_length] at hlast
  have hvec := isVec_of_shape hout hlast
  have hpos := hvec.facts.1
  obtain ⟨P, f, eP, dP, sP, hf⟩ := softmax_layer_near (F := F) (x := flatOf (netOut ls s).X (netOut ls s).Y (netEval ls s x)) (ε := ε) hp hvec hcount (by
    intro t ht
    have hin : t % (netOut ls s).X < (netOut ls s).X ∧ t / (netOut ls s).X % (netOut ls s).Y < (netOut ls s).Y ∧
        t / (netOut ls s).X / (netOut ls s).Y < (netOut ls s).Z := by
      apply unflat_lt hlast.good.x hlast.good.y
      rcases hout with h | h <;> rw [h] <;> simpa using ht
    obtain ⟨a, c⟩ := hy _ hin.1 _ hin.2.1 _ hin.2.2
    exact ⟨a, c.trans (hε t ht)⟩) hΩ hn hs
  have hP3 : P.Shows (netOut ls s).X (netOut ls s).Y (netOut ls s).Z (fun i j _ => f (i + j)) := shape_of_isVec hout (dP.trans hlast.dim) sP
  have hbody : ∀ (i : Nat) (l : Layer α), M.layers[i]? = some l → (Bs ++ [Body.softmax S])[i]? = some l.body := by
    intro i l hl
    rw [← hlay, List.getElem?_map, hl]; rfl
  have hpass : Pass E M b X (fun i => if i ≤ ls.length then outs i else P) (fun i => if i < ls.length then bodies i else .softmax S) := by
    refine ⟨by simpa [h0] using e1, ?_⟩
    intro i l hl
    have hi : i < ls.length + 1 := hml ▸ (List.getElem?_eq_some_iff.1 hl).1
    have hb := hbody i l hl
    by_cases h : i < ls.length
    · rw [List.getElem?_append_left (by omega)] at hb
      have := h1 i _ hb
      simpa [h, h.le, Nat.succ_le_of_lt h] using this
    · obtain rfl : i = ls.length := by omega
      rw [List.getElem?_append_right (by omega), hlen] at hb
      simp only [Nat.sub_self, List.getElem?_cons_zero, Option.some.injEq] at hb
      rw [← hb]
      simp [Body.forward, eP]
  have hshow : ∀ i ≤ M.layers.length, ∃ A B C f, (if i ≤ ls.length then outs i else P).Shows A B C f := by
    intro i hi
    by_cases h : i ≤ ls.length
    · rw [if_pos h]; exact ⟨_, _, _, _, h2 i h⟩
    · rw [if_neg h]; exact ⟨_, _, _, _, hP3⟩
  have hsize : (netOut ls s).X * (netOut ls s).Y * (netOut ls s).Z = M.labels.length := by
    rw [hlab]; rcases hout with h | h <;> rw [h] <;> simp
  obtain ⟨r, hr⟩ := C57_returns E M X b _ _ hpass hshow _ _ _ _ (by rw [hml, if_neg (by omega)]; exact hP3) hsize
  obtain ⟨outs2, bodies2, hp2, _, hrl, hrec, _⟩ := C57_consistent E M _ X b r hr
  -- the records
  have hrecs : ∀ i ≤ ls.length, ∃ R, r.inputs[i]? = some R ∧
      R.Shows (netOut (ls.take i) s).X (netOut (ls.take i) s).Y (netOut (ls.take i) s).Z (fun a b c => E.toFloat (ys i a b c)) := by
    intro i hi
    obtain ⟨R, g1, g2⟩ := hrec i (by omega)
    exact ⟨R, g1, g2 _ _ _ _ (by rw [← hpass.unique hp2 i (by omega), if_pos hi]; exact h2 i hi)⟩
  obtain ⟨Rl, hRl, hRs⟩ : ∃ R, r.inputs[ls.length + 1]? = some R ∧
      R.Shows (netOut ls s).X (netOut ls s).Y (netOut ls s).Z (fun i j _ => E.toFloat (f (i + j))) := by
    obtain ⟨R, g1, g2⟩ := hrec (ls.length + 1) (by omega)
    exact ⟨R, g1, g2 _ _ _ _ (by rw [← hpass.unique hp2 _ (by omega), if_neg (by omega)]; exact hP3)⟩
  have hgl : r.inputs.getLast? = some Rl := by rw [List.getLast?_eq_getElem?, hrl, hml]; exact hRl
  have hpv : ∀ R : Matrix α, R.Shows (netOut ls s).X (netOut ls s).Y (netOut ls s).Z (fun i j _ => E.toFloat (f (i + j))) →
      R.IsVec n (fun t => E.toFloat (f t)) := by
    intro R hR
    refine (isVec_of_shape hout hR).congr ?_
    intro i hi
    rcases hout with h | h <;> rw [h] <;> simp [flatOf, Nat.mod_eq_of_lt hi, Nat.mod_one]
  set M₁ := M.withBodies (fun i => if i < ls.length then bodies i else .softmax S) with hM₁
  have hl1 : M₁.layers.length = ls.length + 1 := by simp [hM₁, withBodies, hml]
  have hget1 : ∀ i < ls.length + 1, ∃ nm, M₁.layers[i]? = some ⟨nm, if i < ls.length then bodies i else .softmax S⟩ := by
    intro i hi
    refine ⟨(M.layers[i]'(by omega)).name, ?_⟩
    rw [hM₁, withBodies]
    simp only [List.getElem?_mapIdx, List.getElem?_eq_getElem (show i < M.layers.length by omega), Option.map_some]
  obtain ⟨nm, hnm⟩ := hget1 ls.length (by omega)
  rw [if_neg (lt_irrefl _)] at hnm
  obtain ⟨t, ht, ht1, ht2, hbeg⟩ := C58_known_partial E M₁ r label Rl hgl _ _ _ _ hRs hsize hlabel ⟨nm, .softmax S⟩ S
    (by rw [List.getLast?_eq_getElem?, hl1]; exact hnm) rfl (by rw [hcount]; exact hlab.symm)
  have ht : t < M.labels.length := ht
  have htn : t < n := by omega
  have hroom := hroom t htn ht1 ht2
  have hr2 : ∀ i, ∃ R R', i ≤ ls.length + 1 → r.inputs[i]? = some R ∧ Matrix.ofExpr id R.expr = .ok R' ∧
      (i ≤ ls.length → R'.Shows (netOut (ls.take i) s).X (netOut (ls.take i) s).Y (netOut (ls.take i) s).Z (fun a b c => E.toFloat (ys i a b c))) ∧
      (i = ls.length + 1 → R'.Shows (netOut ls s).X (netOut ls s).Y (netOut ls s).Z (fun i j _ => E.toFloat (f (i + j)))) := by
    intro i
    by_cases h : i ≤ ls.length
    · obtain ⟨R, g1, g2⟩ := hrecs i h
      obtain ⟨R', g3, g4⟩ := Matrix.ofExpr_shows g2.expr (id : α → α)
      exact ⟨R, R', fun _ => ⟨g1, g3, fun _ => g4, fun h' => by omega⟩⟩
    · by_cases h' : i = ls.length + 1
      · subst h'
        obtain ⟨R', g3, g4⟩ := Matrix.ofExpr_shows hRs.expr (id : α → α)
        exact ⟨Rl, R', fun _ => ⟨hRl, g3, fun h' => by omega, fun _ => g4⟩⟩
      · exact ⟨Matrix.empty, Matrix.empty, fun hh => by omega⟩
  choose R recs hRR using hr2
  -- softmax
  have hZ := hpv _ ((hRR (ls.length + 1) le_rfl).2.2.2 rfl)
  obtain ⟨G, eG, dG, sG⟩ := hZ.setFlat htn (E.toFloat (f t) - 1)
  have hZd : (recs (ls.length + 1)).dim = dimN (netOut ls s).X (netOut ls s).Y (netOut ls s).Z :=
    ((hRR (ls.length + 1) le_rfl).2.2.2 rfl).dim
  have hG3 := shape_of_isVec hout (dG.trans hZd) sG
  have hend : ∀ (ls : List NetLayer) (first : Bool) (s : Shape) (x e : Tensor), NetBackRoom p q n t ε first ls s x e →
      (∀ i < n, softmax n (flatOf (netOut ls s).X (netOut ls s).Y (netEval ls s x)) i +
        (softmax n (flatOf (netOut ls s).X (netOut ls s).Y (netEval ls s x)) i * (Real.exp (2 * ε) - 1) + p.softmaxErr n) ≤ q.Ω) ∧
      |softmax n (flatOf (netOut ls s).X (netOut ls s).Y (netEval ls s x)) t - 1| +
        probErr p q n ε (flatOf (netOut ls s).X (netOut ls s).Y (netEval ls s x)) t ≤ p.Ω := by
    intro ls
    induction ls with
    | nil => exact fun _ _ _ _ h => h.2
    | cons l ls ih => exact fun _ s x e h => ih _ _ _ _ h.2.2.2
  obtain ⟨hq, ht3⟩ := hend ls true s x e hroom
  have hrf : ∀ i < n, F.Fin (E.toFloat (f i)) ∧ |F.val (E.toFloat (f i)) - softmax n (flatOf (netOut ls s).X (netOut ls s).Y (netEval ls s x)) i| ≤
      probErr p q n ε (flatOf (netOut ls s).X (netOut ls s).Y (netEval ls s x)) i := by
    intro i hi
    obtain ⟨f1, f2, _⟩ := hf i hi
    refine Floating.rec_near hE f1 f2 ?_
    have h0 : 0 ≤ softmax n (flatOf (netOut ls s).X (netOut ls s).Y (netEval ls s x)) i :=
      div_nonneg (Real.exp_pos _).le (sum_nonneg fun _ _ => (Real.exp_pos _).le)
    rw [abs_of_nonneg h0]
    exact hq i hi
  have hGn : G.Near F (netOut ls s) (lossGrad (netOut ls s) n t (netEval ls s x)) (lossErr p q (netOut ls s) n t ε (netEval ls s x)) := by
    refine ⟨_, hG3, ?_⟩
    intro i hi j hj k hk
    have hij : i + j < n := by
      rcases hout with h | h <;> rw [h] at hi hj <;> dsimp only at hi hj <;> omega
    simp only [lossGrad, lossErr]
    by_cases h : i + j = t
    · rw [if_pos h, if_pos h, h, Function.update_self]
      obtain ⟨f1, f2⟩ := hrf t htn
      have := Floating.sub_near (F := F) (b := (1 : α)) (x := 1) (e := 0) hp f1 f2 F.one.1 (by rw [F.one.2]; simp) (by rw [add_zero]; exact ht3)
      simpa only [add_zero] using this
    · rw [if_neg h, if_neg h, Function.update_of_ne h, sub_zero]
      exact hrf _ hij
  obtain ⟨Ds, bodies', k0, k1, _, k3⟩ := h3 htr n t ε recs G (fun i hi => (hRR i (by omega)).2.2.1 hi) hGn hroom
  -- the loop
  set M₂ := M₁.setBody (M₁.layers.length - 1) (.softmax ⟨S.count, t, true⟩) with hM₂
  have hl2 : M₂.layers.length = ls.length + 1 := by simp [hM₂, setBody, hl1]
  have hget2 : ∀ i < ls.length + 1, ∃ nm, M₂.layers[i]? = some ⟨nm, if i < ls.length then bodies i else .softmax ⟨S.count, t, true⟩⟩ := by
    intro i hi
    obtain ⟨nm, h⟩ := hget1 i hi
    refine ⟨nm, ?_⟩
    rw [hM₂, setBody]
    simp only [List.getElem?_modify, h, hl1, Nat.add_sub_cancel]
    by_cases h' : i < ls.length
    · simp [h', show ¬ ls.length = i by omega]
    · simp [show i = ls.length by omega]
  let r2 : Results α := ⟨some label, r.labelIdx, some t, E.toFloat (E.num.max (-1 * E.num.log2 (flatOf (netOut ls s).X (netOut ls s).Y (fun i j _ => E.toFloat (f (i + j))) t + E.num.eps)) 0), r.confidence, r.inputs⟩
  have hfold := backward_fold (E := E) (M := M₂) (b := b) (r := r2)
    (recs := recs) (Ds := fun i => if i ≤ ls.length then Ds i else Matrix.empty)
    (bodies := fun i => if i < ls.length then bodies' i else .softmax ⟨S.count, t, true⟩)
    (fun i hi => ⟨R i, (hRR i (by omega)).1, (hRR i (by omega)).2.1⟩) (ls.length + 1) (by omega) (by
      intro i l hi hl
      obtain ⟨nm, h⟩ := hget2 i hi
      rw [hl] at h
      obtain rfl := Option.some.inj h
      rw [hE.order]
      by_cases h' : i < ls.length
      · have := k1 i h'
        simpa [h', h'.le, Nat.succ_le_of_lt h'] using this
      · obtain rfl : i = ls.length := by omega
        simp [Body.backward, Softmax.backward, Softmax.getdLdX, hZ.flat htn, eG, k0]) M₂ (fun _ _ => rfl)
  refine ⟨r, _, t, r2, M₂.upTo (fun i => if i < ls.length then bodies' i else .softmax ⟨S.count, t, true⟩) (ls.length + 1), hr, htn, ht1, ht2, ?_, hden.plain, fun i hi => (h2 i hi).good, ?_⟩
  · unfold backwardsPropagation
    rw [hbeg, Res.bind_ok, hl1]
    simp only [Nat.not_succ_le_self, if_false] at hfold
    have : (List.range (ls.length + 1)).reverse.foldlM (backwardStep E r2 b) (Matrix.empty, M₂) = _ := hfold
    show (List.foldlM (backwardStep E r2 b) (Matrix.empty, M₂) (List.range (ls.length + 1)).reverse >>= fun s => Res.ok (r2, s.2)) = _
    rw [this]
    rfl
  · intro i l hl hp
    obtain ⟨DW, DB, q1, q2⟩ := k3 i l hl hp
    refine ⟨DW, DB, ?_, q2⟩
    have hi : i < ls.length := (List.getElem?_eq_some_iff.1 hl).1
    obtain ⟨nm, h⟩ := hget2 i (by omega)
    simp only [Model.stored, upTo, List.getElem?_mapIdx, h, Option.map_some, Option.bind_some, show i < ls.length + 1 by omega, if_true, hi]
    exact q1

end Cnn
