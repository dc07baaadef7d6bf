import Verif.Spec.StepRounding
import Verif.Lemmas.GradModel
import Verif.Lemmas.BatchOrder
import Verif.Lemmas.NetDescent
/-! Helper lemmas: a rounded training step (C99). -/
namespace Cnn
open Finset Model

/-! ## One parameter -/

theorem list_sum_range (gs : List (ℝ × ℝ)) (f : ℝ × ℝ → ℝ) : (gs.map f).sum = ∑ i ∈ range gs.length, f (gs.getD i (0, 0)) := by
  induction gs with
  | nil => simp
  | cons g gs ih =>
    rw [List.map_cons, List.sum_cons, List.length_cons, sum_range_succ', ih, add_comm]
    simp

namespace Precision

theorem mean_perm {gs hs : List (ℝ × ℝ)} (h : gs.Perm hs) : mean gs = mean hs := by
  unfold mean
  rw [(h.map _).sum_eq, h.length_eq]

theorem totalErr_perm (p : Precision) {gs hs : List (ℝ × ℝ)} (h : gs.Perm hs) : p.totalErr gs = p.totalErr hs := by
  unfold totalErr
  rw [(h.map fun g => |g.1| + g.2).sum_eq, (h.map fun g => |g.1|).sum_eq, h.length_eq]

theorem meanErr_perm (p : Precision) {gs hs : List (ℝ × ℝ)} (h : gs.Perm hs) : p.meanErr gs = p.meanErr hs := by
  unfold meanErr
  rw [p.totalErr_perm h, mean_perm h, h.length_eq]

theorem shiftErr_perm (p : Precision) (r : ℝ) {gs hs : List (ℝ × ℝ)} (h : gs.Perm hs) : p.shiftErr r gs = p.shiftErr r hs := by
  unfold shiftErr
  rw [p.meanErr_perm h, mean_perm h]

theorem stepErr_perm (p : Precision) (r w : ℝ) {gs hs : List (ℝ × ℝ)} (h : gs.Perm hs) : p.stepErr r w gs = p.stepErr r w hs := by
  unfold stepErr
  rw [p.shiftErr_perm r h, mean_perm h]

theorem StepRoom.perm {p : Precision} {r w : ℝ} {gs hs : List (ℝ × ℝ)} (h : gs.Perm hs) (hr : p.StepRoom r w gs) : p.StepRoom r w hs := by
  unfold StepRoom at hr ⊢
  rwa [p.shiftErr_perm r h, p.meanErr_perm h, p.totalErr_perm h, mean_perm h, (h.map fun g => |g.1| + g.2).sum_eq, h.length_eq] at hr

end Precision

namespace Floating
variable {α : Type} [Zero α] [One α] [Add α] [Sub α] [Mul α] [Div α] [Neg α] {N : Num α} {p : Precision} {F : Floating N p}

theorem step_near (hp : p.Ok) {gs : List (ℝ × ℝ)} (h0 : 0 < gs.length) (h1 : gs.length < 2147483648) {t : Nat → α}
    (ht : ∀ k g, gs[k]? = some g → F.Fin (t k) ∧ |F.val (t k) - g.1| ≤ g.2) {r w : α} (hr : F.Fin r) (hw : F.Fin w)
    (hroom : p.StepRoom (F.val r) (F.val w) gs) :
    F.Fin (w - r * (sumTo gs.length t / N.ofNat gs.length)) ∧
    |F.val (w - r * (sumTo gs.length t / N.ofNat gs.length)) - (F.val w - F.val r * Precision.mean gs)| ≤ p.stepErr (F.val r) (F.val w) gs := by
  obtain ⟨r1, r2, r3, r4⟩ := hroom
  have hN : (0 : ℝ) < gs.length := Nat.cast_pos.2 h0
  obtain ⟨o1, o2⟩ := F.ofNat gs.length h1
  -- the sum
  have hs : Appr F (0 + gs.length) (∑ i ∈ range gs.length, (|(gs.getD i (0, 0)).1| + (gs.getD i (0, 0)).2)) (∑ i ∈ range gs.length, |(gs.getD i (0, 0)).1|)
      (sumTo gs.length t) (∑ i ∈ range gs.length, (gs.getD i (0, 0)).1) := by
    refine Appr.sumTo hp gs.length ?_ ?_
    · intro i hi
      have e : gs[i]? = some (gs.getD i (0, 0)) := by rw [List.getD_eq_getElem?_getD, List.getElem?_eq_getElem hi]; rfl
      obtain ⟨a, b⟩ := ht i _ e
      exact Appr.of a b
    · rw [← list_sum_range gs fun g => |g.1| + g.2, Nat.zero_add]
      unfold Precision.Room at r1
      simpa using r1
  rw [← list_sum_range gs fun g => |g.1| + g.2, ← list_sum_range gs fun g => |g.1|, ← list_sum_range gs fun g => g.1, Nat.zero_add] at hs
  obtain ⟨s1, s2⟩ : F.Fin (sumTo gs.length t) ∧ |F.val (sumTo gs.length t) - (gs.map (·.1)).sum| ≤ p.totalErr gs :=
    Appr.grown (n := 0) (by simpa using hs)
  -- the mean
  have d1 : |F.val (sumTo gs.length t) / F.val (N.ofNat gs.length) - Precision.mean gs| ≤ p.totalErr gs / gs.length := by
    rw [o2, Precision.mean, ← sub_div, abs_div, abs_of_pos hN]
    exact div_le_div_of_nonneg_right s2 hN.le
  have d2 := abs_le_of_near d1
  obtain ⟨d3, d4⟩ := F.div (sumTo gs.length t) (N.ofNat gs.length) s1 o1 (by rw [o2]; exact hN.ne') (d2.trans r2)
  have d5 : |F.val (sumTo gs.length t / N.ofNat gs.length) - Precision.mean gs| ≤ p.meanErr gs := by
    have a := abs_sub_le (F.val (sumTo gs.length t / N.ofNat gs.length)) (F.val (sumTo gs.length t) / F.val (N.ofNat gs.length)) (Precision.mean gs)
    have b := mul_le_mul_of_nonneg_left d2 hp.u0
    unfold Precision.meanErr
    linarith
  -- the rest
  obtain ⟨m1, m2⟩ := mul_near (d := 0) hp hr (show |F.val r - F.val r| ≤ 0 by simp) d3 d5 (by rw [add_zero]; exact r3)
  rw [add_zero] at m2
  obtain ⟨n1, n2⟩ := sub_near (d := 0) hp hw (show |F.val w - F.val w| ≤ 0 by simp) m1 m2 (by rw [zero_add]; exact r4)
  rw [zero_add] at n2
  exact ⟨n1, n2⟩

end Floating

/-! ## Layers and models -/

variable {α : Type} [Zero α] [One α] [Add α] [Sub α] [Mul α] [Div α] [Neg α] {E : Env α} {p : Precision} {F : Floating E.num p} {q : Conversion}

/-- The layer object holds the layer and has the slot. -/
def Body.Carries (F : Floating E.num p) (b : Nat) (first : Bool) (s : Shape) (B : Body α) (l : NetLayer) : Prop := B.Holds F b s l ∧ B.Slotted b first s

theorem carriesAll_get {b : Nat} {first : Bool} {s : Shape} {Bs : List (Body α)} {ls : List NetLayer} (h : HoldsAll F b s Bs ls)
    (h' : SlottedAll b first s Bs ls) :
    Bs.length = ls.length ∧ ∀ (i : Nat) (B : Body α) (l : NetLayer), Bs[i]? = some B → ls[i]? = some l →
      B.Carries F b (first && decide (i = 0)) (netOut (ls.take i) s) l := by
  induction ls generalizing Bs first s with
  | nil =>
    match Bs, h with
    | [], _ => exact ⟨rfl, by simp⟩
  | cons l ls ih =>
    match Bs, h with
    | B :: Bs, h =>
      obtain ⟨h1, h2⟩ := ih h.2 h'.2
      refine ⟨by simp [h1], ?_⟩
      intro i B' l' hB hl
      cases i with
      | zero =>
        simp only [List.getElem?_cons_zero, Option.some.injEq] at hB hl
        subst hB; subst hl
        exact ⟨h.1, by simpa [netOut] using h'.1⟩
      | succ i =>
        simp only [List.getElem?_cons_succ] at hB hl
        have := h2 i B' l' hB hl
        simpa [netOut] using this

theorem carriesAll_of_get {b : Nat} {first : Bool} {s : Shape} {Bs : List (Body α)} {ls : List NetLayer} (h1 : Bs.length = ls.length)
    (h2 : ∀ (i : Nat) (B : Body α) (l : NetLayer), Bs[i]? = some B → ls[i]? = some l →
      B.Carries F b (first && decide (i = 0)) (netOut (ls.take i) s) l) : HoldsAll F b s Bs ls ∧ SlottedAll b first s Bs ls := by
  induction ls generalizing Bs first s with
  | nil =>
    match Bs, h1 with
    | [], _ => exact ⟨trivial, trivial⟩
  | cons l ls ih =>
    match Bs, h1 with
    | B :: Bs, h1 =>
      obtain ⟨k1, k2⟩ := ih (Bs := Bs) (s := l.out s) (first := false) (by simpa using h1) (by
        intro i B' l' hB hl
        have := h2 (i + 1) B' l' (by simpa using hB) (by simpa using hl)
        simpa [netOut] using this)
      obtain ⟨a, c⟩ := h2 0 B l rfl rfl
      exact ⟨⟨a, k1⟩, by simpa [netOut] using c, k2⟩

theorem Body.Carries.of_bare {B B' : Body α} {b : Nat} {first : Bool} {s : Shape} {l : NetLayer} (h : B.Carries F b first s l)
    (hb : B'.bare = B.bare) : B'.Carries F b first s l := by
  obtain ⟨h, h'⟩ := h
  match B, l, h with
  | .kernel K, .conv .., ⟨w', β', h1, h2⟩ =>
    match B', hb with
    | .kernel K', hb =>
      simp only [Body.bare, Body.kernel.injEq, Kernel.mk.injEq, emptyGrads] at hb
      obtain ⟨g1, g2, g3, g4, g5, g6, g7⟩ := hb
      have g6 := congrArg List.length g6
      have g7 := congrArg List.length g7
      simp only [List.length_replicate] at g6 g7
      exact ⟨⟨w', β', ⟨g1.trans h1.dim, g2.trans h1.num, g3.trans h1.stride, by rw [g4]; exact h1.weights, by rw [g5]; exact h1.biases⟩, h2⟩,
        by rw [g6]; exact h'.1, by rw [g7]; exact h'.2⟩
  | .connected L, .full .., ⟨w', β', h1, h2⟩ =>
    match B', hb with
    | .connected L', hb =>
      simp only [Body.bare, Body.connected.injEq, Connected.mk.injEq, emptyGrads] at hb
      obtain ⟨g1, g2, g3, g4, g6, g7⟩ := hb
      have g6 := congrArg List.length g6
      have g7 := congrArg List.length g7
      simp only [List.length_replicate] at g6 g7
      exact ⟨⟨w', β', ⟨by rw [g1]; exact h1.weights, by rw [g2]; exact h1.biases, g4.trans h1.initialized⟩, h2⟩, by rw [g6]; exact h'.1,
        by rw [g7]; exact h'.2.1, by rw [g3]; exact h'.2.2⟩
  | .pooling P, .pool .., h =>
    match B', hb with
    | .pooling P', hb =>
      simp only [Body.bare, Body.pooling.injEq, Pooling.mk.injEq] at hb
      obtain ⟨h1, h2, h3, h4⟩ := hb
      have h4 := congrArg List.length h4
      simp only [List.length_replicate] at h4
      exact ⟨⟨h3.trans h.1, h1.trans h.2.1, h2.trans h.2.2.1, by rw [h4]; exact h.2.2.2⟩, trivial⟩
  | .activation A, .act _, h =>
    match B', hb with
    | .activation A', hb =>
      simp only [Body.bare, Body.activation.injEq] at hb
      exact ⟨hb.trans h, trivial⟩

theorem Body.Carries.setBatchSize {B : Body α} {b : Nat} {first : Bool} {s : Shape} {l : NetLayer} (h : B.Carries F b first s l)
    {m c : Nat} (hc : c < m) : (B.setBatchSize m).Carries F c first s l := by
  obtain ⟨h, h'⟩ := h
  match B, l, h with
  | .kernel K, .conv .., ⟨w', β', h1, h2⟩ =>
    exact ⟨⟨w', β', ⟨h1.dim, h1.num, h1.stride, h1.weights, h1.biases⟩, h2⟩, by simp [Kernel.setBatchSize, emptyGrads, hc],
      by simp [Kernel.setBatchSize, emptyGrads, hc]⟩
  | .pooling P, .pool .., h =>
    refine ⟨⟨h.1, h.2.1, h.2.2.1, ?_⟩, trivial⟩
    show c < (Matrix.vecResize _ _ _).length
    simp only [Matrix.vecResize, List.length_append, List.length_take, List.length_replicate]
    omega
  | .connected L, .full .., ⟨w', β', h1, h2⟩ =>
    exact ⟨⟨w', β', ⟨h1.weights, h1.biases, h1.initialized⟩, h2⟩, by simp [Connected.setBatchSize, emptyGrads, hc],
      by simp [Connected.setBatchSize, emptyGrads, hc], h'.2.2⟩
  | .activation A, .act _, h => exact ⟨h, trivial⟩

/-- The parameters of the object. -/
theorem Body.Carries.params {B : Body α} {b : Nat} {first : Bool} {s : Shape} {l : NetLayer} (h : B.Carries F b first s l) :
    (∀ w β, l.params = some (w, β) → ∃ W Bi, ∃ w' : Nat → Nat → Nat → α, ∃ β' : Nat → α, B.params = some (W, Bi) ∧
      W.Shows (l.weightShape s).X (l.weightShape s).Y (l.weightShape s).Z w' ∧ Bi.Shows l.biasCount 1 1 (fun f _ _ => β' f) ∧
      (∀ i < (l.weightShape s).X, ∀ j < (l.weightShape s).Y, ∀ k < (l.weightShape s).Z, F.Fin (w' i j k) ∧ F.val (w' i j k) = w i j k) ∧
      ∀ f < l.biasCount, F.Fin (β' f) ∧ F.val (β' f) = β f) ∧
    (l.params = none → B.params = none) := by
  obtain ⟨h, h'⟩ := h
  match B, l, h with
  | .kernel K, .conv .., ⟨w', β', h1, h2, h3⟩ =>
    refine ⟨?_, by simp [NetLayer.params]⟩
    intro w β hp
    simp only [NetLayer.params, Option.some.injEq, Prod.mk.injEq] at hp
    obtain ⟨rfl, rfl⟩ := hp
    exact ⟨_, _, w', β', rfl, h1.weights, h1.biases, h2, h3⟩
  | .connected L, .full .., ⟨w', β', h1, h2, h3⟩ =>
    refine ⟨?_, by simp [NetLayer.params]⟩
    intro w β hp
    simp only [NetLayer.params, Option.some.injEq, Prod.mk.injEq] at hp
    obtain ⟨rfl, rfl⟩ := hp
    refine ⟨_, _, fun i k _ => w' i k, β', rfl, h1.weights, h1.biases, ?_, h3⟩
    intro i hi j hj k hk
    obtain rfl : k = 0 := Nat.lt_one_iff.1 hk
    exact h2 i hi j hj
  | .pooling P, .pool .., h => exact ⟨by simp [NetLayer.params], fun _ => rfl⟩
  | .activation A, .act _, h => exact ⟨by simp [NetLayer.params], fun _ => rfl⟩

/-- After an update the object holds the parameters that it has then. -/
theorem Body.Carries.applyBatch {N : Num α} {lr : α} {B B' : Body α} {b : Nat} {first : Bool} {s : Shape} {l : NetLayer}
    (h : B.Carries F b first s l) (hb : B.applyBatch N lr = .ok B') (w : Tensor) (β : Nat → ℝ)
    (hp : ∀ v, l.params = some v → ∃ W Bi, ∃ w' : Nat → Nat → Nat → α, ∃ β' : Nat → α, B'.params = some (W, Bi) ∧
      W.Shows (l.weightShape s).X (l.weightShape s).Y (l.weightShape s).Z w' ∧ Bi.Shows l.biasCount 1 1 (fun f _ _ => β' f) ∧
      (∀ i < (l.weightShape s).X, ∀ j < (l.weightShape s).Y, ∀ k < (l.weightShape s).Z, F.Fin (w' i j k) ∧ F.val (w' i j k) = w i j k) ∧
      ∀ f < l.biasCount, F.Fin (β' f) ∧ F.val (β' f) = β f) :
    B'.Carries F b first s (l.withParams w β) := by
  obtain ⟨h, h'⟩ := h
  match B, l, h with
  | .kernel K, .conv .., ⟨_, _, h1, _⟩ =>
    obtain ⟨K', hK, hb⟩ := Res.bind_eq_ok hb
    obtain rfl := Res.ok.inj hb
    obtain ⟨r, hr, hK⟩ := Res.bind_eq_ok hK
    obtain rfl := Res.ok.inj hK
    obtain ⟨W, Bi, w', β', e, k1, k2, k3, k4⟩ := hp _ rfl
    simp only [Body.params, Option.some.injEq, Prod.mk.injEq] at e
    obtain ⟨rfl, rfl⟩ := e
    exact ⟨⟨w', β', ⟨h1.dim, h1.num, h1.stride, k1, k2⟩, k3, k4⟩, h'⟩
  | .connected L, .full .., ⟨_, _, h1, _⟩ =>
    obtain ⟨L', hL, hb⟩ := Res.bind_eq_ok hb
    obtain rfl := Res.ok.inj hb
    obtain ⟨r, hr, hL⟩ := Res.bind_eq_ok hL
    obtain rfl := Res.ok.inj hL
    obtain ⟨W, Bi, w', β', e, k1, k2, k3, k4⟩ := hp _ rfl
    simp only [Body.params, Option.some.injEq, Prod.mk.injEq] at e
    obtain ⟨rfl, rfl⟩ := e
    refine ⟨⟨fun i k => w' i k 0, β', ⟨?_, k2, h1.initialized⟩, fun i hi k hk => k3 i hi k hk 0 one_pos, k4⟩, h'⟩
    refine Matrix.Shows.congr k1 ?_
    intro i _ j _ k hk
    obtain rfl : k = 0 := Nat.lt_one_iff.1 hk
    rfl
  | .pooling P, .pool .., h =>
    obtain rfl := Res.ok.inj hb
    exact ⟨h, h'⟩
  | .activation A, .act _, h =>
    obtain rfl := Res.ok.inj hb
    exact ⟨h, h'⟩

/-- A model that holds the network and has the slot. -/
def Model.Carries (F : Floating E.num p) (M : Model α) (b : Nat) (s : Shape) (ls : List NetLayer) (n : Nat) : Prop :=
  M.Holds F b s ls n ∧ SlottedAll b true s (M.layers.map (·.body)) ls

theorem SlottedAll.append {α : Type} {b : Nat} {first : Bool} {s : Shape} {Bs Cs : List (Body α)} {ls : List NetLayer} (hl : Bs.length = ls.length)
    (h : SlottedAll b first s Bs ls) : SlottedAll b first s (Bs ++ Cs) ls := by
  induction ls generalizing Bs first s with
  | nil =>
    obtain rfl := List.eq_nil_of_length_eq_zero hl
    cases Cs <;> trivial
  | cons l ls ih =>
    match Bs, hl with
    | B :: Bs, hl => exact ⟨h.1, ih (by simpa using hl) h.2⟩

theorem Model.Carries.get {M : Model α} {b : Nat} {s : Shape} {ls : List NetLayer} {n : Nat} (h : M.Carries F b s ls n) :
    M.layers.length = ls.length + 1 ∧
    (∀ (i : Nat) (L : Layer α) (l : NetLayer), M.layers[i]? = some L → ls[i]? = some l →
      L.body.Carries F b (decide (i = 0)) (netOut (ls.take i) s) l) ∧
    ∃ L S, M.layers[ls.length]? = some L ∧ L.body = .softmax S ∧ S.count = n := by
  obtain ⟨⟨⟨Bs, S, h1, h2, h3⟩, h4, h5⟩, h6⟩ := h
  rw [h1] at h6
  obtain ⟨g1, g2⟩ := carriesAll_get h2 h6.left
  have hlen : M.layers.length = ls.length + 1 := by
    rw [← List.length_map (as := M.layers) (f := (·.body)), h1]
    simp [g1]
  refine ⟨hlen, ?_, ?_⟩
  · intro i L l hL hl
    have hi : i < ls.length := (List.getElem?_eq_some_iff.1 hl).1
    have := congrArg (·[i]?) h1
    simp only [List.getElem?_map, hL, Option.map_some] at this
    rw [List.getElem?_append_left (by omega)] at this
    simpa using g2 i L.body l this.symm hl
  · have := congrArg (·[ls.length]?) h1
    simp only [List.getElem?_map] at this
    rw [List.getElem?_append_right (by omega), g1, Nat.sub_self, List.getElem?_cons_zero, Option.map_eq_some_iff] at this
    obtain ⟨L, hL, hS⟩ := this
    exact ⟨L, S, hL, hS, h3⟩

theorem Model.Carries.of_get {M : Model α} {b : Nat} {s : Shape} {ls : List NetLayer} {n : Nat} (h1 : M.layers.length = ls.length + 1)
    (h2 : ∀ (i : Nat) (L : Layer α) (l : NetLayer), M.layers[i]? = some L → ls[i]? = some l →
      L.body.Carries F b (decide (i = 0)) (netOut (ls.take i) s) l)
    (h3 : ∃ L S, M.layers[ls.length]? = some L ∧ L.body = .softmax S ∧ S.count = n) (h4 : M.labels.length = n)
    (h5 : netOut ls s = ⟨n, 1, 1⟩ ∨ netOut ls s = ⟨1, n, 1⟩) : M.Carries F b s ls n := by
  obtain ⟨L, S, e1, e2, e3⟩ := h3
  have hlay : M.layers.map (·.body) = (M.layers.take ls.length).map (·.body) ++ [.softmax S] := by
    have : M.layers = M.layers.take ls.length ++ [L] := by
      conv_lhs => rw [← List.take_append_drop ls.length M.layers]
      rw [List.drop_eq_getElem_cons (by omega), List.drop_of_length_le (by omega)]
      rw [List.getElem?_eq_getElem (by omega)] at e1
      rw [Option.some.inj e1]
    conv_lhs => rw [this]
    simp [e2]
  obtain ⟨k1, k2⟩ := carriesAll_of_get (F := F) (b := b) (first := true) (s := s) (Bs := (M.layers.take ls.length).map (·.body)) (ls := ls) (by simp [h1]) (by
    intro i B l hB hl
    have hi : i < ls.length := (List.getElem?_eq_some_iff.1 hl).1
    rw [List.getElem?_map, List.getElem?_take_of_lt hi, Option.map_eq_some_iff] at hB
    obtain ⟨L', hL', rfl⟩ := hB
    simpa using h2 i L' l hL' hl)
  refine ⟨⟨⟨_, S, hlay, k1, e3⟩, h4, h5⟩, ?_⟩
  rw [hlay]
  exact k2.append (by simp [h1])

theorem Model.Carries.setBatchSize {M : Model α} {b m c : Nat} (hc : c < m) {s : Shape} {ls : List NetLayer} {n : Nat}
    (h : M.Carries F b s ls n) : (M.setBatchSize m).Carries F c s ls n := by
  obtain ⟨g1, g2, L, S, g3, g4, g5⟩ := h.get
  refine Model.Carries.of_get (by simp [Model.setBatchSize, g1]) ?_ ?_ h.1.labels h.1.output
  · intro i L' l hL' hl
    simp only [Model.setBatchSize, List.getElem?_map, Option.map_eq_some_iff] at hL'
    obtain ⟨L₀, k1, rfl⟩ := hL'
    exact (g2 i L₀ l k1 hl).setBatchSize hc
  · refine ⟨⟨L.name, .softmax S⟩, S, ?_, rfl, g5⟩
    simp only [Model.setBatchSize, List.getElem?_map, g3, Option.map_some, g4, Body.setBatchSize]

theorem Model.Carries.params {M : Model α} {b : Nat} {s : Shape} {ls : List NetLayer} {n : Nat} (h : M.Carries F b s ls n) {i : Nat}
    {l : NetLayer} {w : Tensor} {β : Nat → ℝ} (hl : ls[i]? = some l) (hp : l.params = some (w, β)) :
    ∃ W Bi, ∃ w' : Nat → Nat → Nat → α, ∃ β' : Nat → α, M.params i = some (W, Bi) ∧
      W.Shows (l.weightShape (netOut (ls.take i) s)).X (l.weightShape (netOut (ls.take i) s)).Y (l.weightShape (netOut (ls.take i) s)).Z w' ∧
      Bi.Shows l.biasCount 1 1 (fun f _ _ => β' f) ∧
      (∀ a < (l.weightShape (netOut (ls.take i) s)).X, ∀ j < (l.weightShape (netOut (ls.take i) s)).Y, ∀ k < (l.weightShape (netOut (ls.take i) s)).Z,
        F.Fin (w' a j k) ∧ F.val (w' a j k) = w a j k) ∧
      ∀ f < l.biasCount, F.Fin (β' f) ∧ F.val (β' f) = β f := by
  obtain ⟨g1, g2, _⟩ := h.get
  have hi : i < ls.length := (List.getElem?_eq_some_iff.1 hl).1
  have hL : M.layers[i]? = some M.layers[i] := List.getElem?_eq_getElem (by omega)
  obtain ⟨W, Bi, w', β', e1, e⟩ := (g2 i _ l hL hl).params.1 w β hp
  exact ⟨W, Bi, w', β', by rw [Model.params, hL, Option.bind_some, e1], e⟩

theorem Model.Carries.has_params {M : Model α} {b : Nat} {s : Shape} {ls : List NetLayer} {n : Nat} (h : M.Carries F b s ls n) {i : Nat}
    {v : Matrix α × Matrix α} (hp : M.params i = some v) : ∃ l w β, ls[i]? = some l ∧ l.params = some (w, β) := by
  obtain ⟨g1, g2, L, S, g3, g4, _⟩ := h.get
  unfold Model.params at hp
  cases hL : M.layers[i]? with
  | none => rw [hL] at hp; simp at hp
  | some L' =>
    rw [hL, Option.bind_some] at hp
    have hi : i < ls.length + 1 := by rw [← g1]; exact (List.getElem?_eq_some_iff.1 hL).1
    by_cases hi' : i = ls.length
    · subst hi'
      rw [g3] at hL
      obtain rfl := Option.some.inj hL
      rw [g4] at hp
      simp [Body.params] at hp
    · have hl : ls[i]? = some (ls[i]'(by omega)) := List.getElem?_eq_getElem (by omega)
      have hd := g2 i L' _ hL hl
      cases hq : (ls[i]'(by omega)).params with
      | none => rw [hd.params.2 hq] at hp; simp at hp
      | some v => exact ⟨_, v.1, v.2, hl, hq⟩

theorem Model.Carries.update {N : Num α} {lr : α} {M M₁ M' : Model α} {b : Nat} {s : Shape} {ls ls' : List NetLayer} {n : Nat}
    (h : M.Carries F b s ls n) (hb : M₁.bare = M.bare) (ha : M₁.applyBatch N lr = .ok M') (hlen : ls'.length = ls.length)
    (hp : ∀ i l, ls[i]? = some l → ∃ w β, ls'[i]? = some (l.withParams w β) ∧ (∀ v, l.params = some v → ∃ W Bi, ∃ w' : Nat → Nat → Nat → α, ∃ β' : Nat → α,
      M'.params i = some (W, Bi) ∧
      W.Shows (l.weightShape (netOut (ls.take i) s)).X (l.weightShape (netOut (ls.take i) s)).Y (l.weightShape (netOut (ls.take i) s)).Z w' ∧
      Bi.Shows l.biasCount 1 1 (fun f _ _ => β' f) ∧
      (∀ a < (l.weightShape (netOut (ls.take i) s)).X, ∀ j < (l.weightShape (netOut (ls.take i) s)).Y, ∀ k < (l.weightShape (netOut (ls.take i) s)).Z,
        F.Fin (w' a j k) ∧ F.val (w' a j k) = w a j k) ∧
      ∀ f < l.biasCount, F.Fin (β' f) ∧ F.val (β' f) = β f)) : M'.Carries F b s ls' n := by
  obtain ⟨g1, g2, L, S, g3, g4, g5⟩ := h.get
  obtain ⟨m1, m2, m3⟩ := Model.applyBatch_get ha
  have hsame : SameNet ls ls' := by
    rw [SameNet, List.forall₂_iff_get]
    refine ⟨hlen.symm, ?_⟩
    intro i hi hi'
    obtain ⟨w, β, e, _⟩ := hp i ls[i] (List.getElem?_eq_getElem hi)
    refine ⟨w, β, ?_⟩
    rw [List.getElem?_eq_getElem (by omega)] at e
    exact Option.some.inj e
  have hlb := bare_len hb
  have bodies : ∀ (i : Nat) (L' : Layer α), M'.layers[i]? = some L' → ∃ (L₁ L : Layer α), M.layers[i]? = some L ∧ L₁.body.bare = L.body.bare ∧
      L₁.body.applyBatch N lr = .ok L'.body := by
    intro i L' hL'
    have hi : i < M.layers.length := by rw [← hlb, ← m1]; exact (List.getElem?_eq_some_iff.1 hL').1
    have hL : M.layers[i]? = some M.layers[i] := List.getElem?_eq_getElem hi
    have hL1 : M₁.layers[i]? = some (M₁.layers[i]'(by omega)) := List.getElem?_eq_getElem (by omega)
    have hg := bare_get hb i
    rw [hL, hL1] at hg
    simp only [Option.map_some, Option.some.injEq] at hg
    obtain ⟨c, e1, e2⟩ := m3 i _ hL1
    rw [hL'] at e2
    obtain rfl := Option.some.inj e2
    exact ⟨_, _, hL, hg, e1⟩
  refine Model.Carries.of_get (by rw [m1, hlb, g1, hlen]) ?_ ?_ ?_ ?_
  · intro i L' l' hL' hl'
    have hi : i < ls.length := by rw [← hlen]; exact (List.getElem?_eq_some_iff.1 hl').1
    have hl : ls[i]? = some ls[i] := List.getElem?_eq_getElem hi
    obtain ⟨w, β, e, hv⟩ := hp i _ hl
    rw [hl'] at e
    obtain rfl := Option.some.inj e
    obtain ⟨L₁, L, k1, k2, k3⟩ := bodies i L' hL'
    have hd := (g2 i L _ k1 hl).of_bare k2
    rw [hsame.netOut]
    refine hd.applyBatch k3 w β ?_
    intro v hv'
    obtain ⟨W, Bi, w', β', q1, q2⟩ := hv v hv'
    rw [Model.params, hL', Option.bind_some] at q1
    exact ⟨W, Bi, w', β', q1, q2⟩
  · have hL' : M'.layers[ls.length]? = some (M'.layers[ls.length]'(by omega)) := List.getElem?_eq_getElem (by omega)
    obtain ⟨L₁, L2, k1, k2, k3⟩ := bodies _ _ hL'
    rw [g3] at k1
    obtain rfl := Option.some.inj k1
    rw [g4] at k2
    rw [hlen]
    cases hS : L₁.body with
    | softmax S1 =>
      rw [hS] at k2 k3
      refine ⟨_, S1, hL', (Res.ok.inj k3).symm, ?_⟩
      simp only [Body.bare, Body.softmax.injEq, Softmax.mk.injEq] at k2
      rw [k2.1, g5]
    | _ => rw [hS] at k2; simp [Body.bare] at k2
  · rw [Model.applyBatch_labels ha, bare_labels hb]; exact h.1.labels
  · rw [hsame.out]; exact h.1.output

end Cnn
