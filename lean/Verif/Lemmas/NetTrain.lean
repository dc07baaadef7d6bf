import Verif.Spec.Descent
import Verif.Lemmas.NetModel
import Verif.Props.TrainUpdate
/-! Helper lemmas: training a model that computes a network (C65). -/
namespace Cnn
open Finset Model

/-! ## The layers one by one -/

theorem DenotesAll.get {b : Nat} {first : Bool} {s : Shape} {Bs : List (Body ℝ)} {ls : List NetLayer} (h : DenotesAll b first s Bs ls) :
    Bs.length = ls.length ∧ ∀ (i : Nat) (B : Body ℝ) (l : NetLayer), Bs[i]? = some B → ls[i]? = some l →
      B.Denotes b (first && decide (i = 0)) (netOut (ls.take i) s) l := by
  induction ls generalizing Bs first s with
  | nil =>
    match Bs, h with
    | [], _ => exact ⟨rfl, by simp⟩
  | cons l ls ih =>
    match Bs, h with
    | B :: Bs, h =>
      obtain ⟨h1, h2⟩ := ih h.2
      refine ⟨by simp [h1], ?_⟩
      intro i B' l' hB hl
      cases i with
      | zero =>
        simp only [List.getElem?_cons_zero, Option.some.injEq] at hB hl
        subst hB; subst hl
        simpa [netOut] using h.1
      | succ i =>
        simp only [List.getElem?_cons_succ] at hB hl
        have := h2 i B' l' hB hl
        simpa [netOut] using this

theorem DenotesAll.of_get {b : Nat} {first : Bool} {s : Shape} {Bs : List (Body ℝ)} {ls : List NetLayer} (h1 : Bs.length = ls.length)
    (h2 : ∀ (i : Nat) (B : Body ℝ) (l : NetLayer), Bs[i]? = some B → ls[i]? = some l →
      B.Denotes b (first && decide (i = 0)) (netOut (ls.take i) s) l) : DenotesAll b first s Bs ls := by
  induction ls generalizing Bs first s with
  | nil =>
    match Bs, h1 with
    | [], _ => trivial
  | cons l ls ih =>
    match Bs, h1 with
    | B :: Bs, h1 =>
      refine ⟨by simpa [netOut] using h2 0 B l rfl rfl, ih (by simpa using h1) ?_⟩
      intro i B' l' hB hl
      have := h2 (i + 1) B' l' (by simpa using hB) (by simpa using hl)
      simpa [netOut] using this

theorem Body.Denotes.params {B : Body ℝ} {b : Nat} {first : Bool} {s : Shape} {l : NetLayer} (h : B.Denotes b first s l) :
    (∀ w β, l.params = some (w, β) → ∃ W Bi, B.params = some (W, Bi) ∧ W.Is3 (l.weightShape s) w ∧ Bi.Shows l.biasCount 1 1 (fun f _ _ => β f)) ∧
    (l.params = none → B.params = none) := by
  match B, l, h with
  | .kernel K, .conv .., h =>
    refine ⟨?_, by simp [NetLayer.params]⟩
    intro w β hp
    simp only [NetLayer.params, Option.some.injEq, Prod.mk.injEq] at hp
    obtain ⟨rfl, rfl⟩ := hp
    exact ⟨_, _, rfl, h.1.weights, h.1.biases⟩
  | .connected L, .full .., h =>
    refine ⟨?_, by simp [NetLayer.params]⟩
    intro w β hp
    simp only [NetLayer.params, Option.some.injEq, Prod.mk.injEq] at hp
    obtain ⟨rfl, rfl⟩ := hp
    refine ⟨_, _, rfl, h.1.weights.congr ?_, h.1.biases⟩
    intro i _ j _ k hk
    obtain rfl : k = 0 := by omega
    rfl
  | .pooling P, .pool .., h => exact ⟨by simp [NetLayer.params], fun _ => rfl⟩
  | .activation A, .act _, h => exact ⟨by simp [NetLayer.params], fun _ => rfl⟩

theorem Body.Denotes.of_bare {B B' : Body ℝ} {b : Nat} {first : Bool} {s : Shape} {l : NetLayer} (h : B.Denotes b first s l)
    (hb : B'.bare = B.bare) : B'.Denotes b first s l := by
  match B, l, h with
  | .kernel K, .conv .., h =>
    match B', hb with
    | .kernel K', hb =>
      simp only [Body.bare, Body.kernel.injEq, Kernel.mk.injEq, emptyGrads] at hb
      obtain ⟨h1, h2, h3, h4, h5, h6, h7⟩ := hb
      have h6 := congrArg List.length h6
      have h7 := congrArg List.length h7
      simp only [List.length_replicate] at h6 h7
      exact ⟨⟨h1.trans h.1.dim, h2.trans h.1.num, h3.trans h.1.stride, by rw [h4]; exact h.1.weights, by rw [h5]; exact h.1.biases⟩,
        by rw [h6]; exact h.2.1, by rw [h7]; exact h.2.2⟩
  | .connected L, .full .., h =>
    match B', hb with
    | .connected L', hb =>
      simp only [Body.bare, Body.connected.injEq, Connected.mk.injEq, emptyGrads] at hb
      obtain ⟨h1, h2, h3, h4, h6, h7⟩ := hb
      have h6 := congrArg List.length h6
      have h7 := congrArg List.length h7
      simp only [List.length_replicate] at h6 h7
      exact ⟨⟨by rw [h1]; exact h.1.weights, by rw [h2]; exact h.1.biases, h4.trans h.1.initialized⟩, by rw [h6]; exact h.2.1,
        by rw [h7]; exact h.2.2.1, by rw [h3]; exact h.2.2.2⟩
  | .pooling P, .pool .., h =>
    match B', hb with
    | .pooling P', hb =>
      simp only [Body.bare, Body.pooling.injEq, Pooling.mk.injEq] at hb
      obtain ⟨h1, h2, h3, h4⟩ := hb
      have h4 := congrArg List.length h4
      simp only [List.length_replicate] at h4
      exact ⟨h3.trans h.1, h1.trans h.2.1, h2.trans h.2.2.1, by rw [h4]; exact h.2.2.2⟩
  | .activation A, .act _, h =>
    match B', hb with
    | .activation A', hb =>
      simp only [Body.bare, Body.activation.injEq] at hb
      exact hb.trans h

/-- After an update the layer computes the same kind of layer with the parameters it has then. -/
theorem Body.Denotes.applyBatch {N : Num ℝ} {lr : ℝ} {B B' : Body ℝ} {b : Nat} {first : Bool} {s : Shape} {l : NetLayer}
    (h : B.Denotes b first s l) (hb : B.applyBatch N lr = .ok B') (w : Tensor) (β : Nat → ℝ)
    (hp : ∀ v, l.params = some v → ∃ W Bi, B'.params = some (W, Bi) ∧ W.Is3 (l.weightShape s) w ∧ Bi.Shows l.biasCount 1 1 (fun f _ _ => β f)) :
    B'.Denotes b first s (l.withParams w β) := by
  match B, l, h with
  | .kernel K, .conv .., h =>
    obtain ⟨K', hK, hb⟩ := Res.bind_eq_ok hb
    obtain rfl := Res.ok.inj hb
    obtain ⟨r, hr, hK⟩ := Res.bind_eq_ok hK
    obtain rfl := Res.ok.inj hK
    obtain ⟨W, Bi, e, h1, h2⟩ := hp _ rfl
    simp only [Body.params, Option.some.injEq, Prod.mk.injEq] at e
    obtain ⟨rfl, rfl⟩ := e
    exact ⟨⟨h.1.dim, h.1.num, h.1.stride, h1, h2⟩, h.2⟩
  | .connected L, .full .., h =>
    obtain ⟨L', hL, hb⟩ := Res.bind_eq_ok hb
    obtain rfl := Res.ok.inj hb
    obtain ⟨r, hr, hL⟩ := Res.bind_eq_ok hL
    obtain rfl := Res.ok.inj hL
    obtain ⟨W, Bi, e, h1, h2⟩ := hp _ rfl
    simp only [Body.params, Option.some.injEq, Prod.mk.injEq] at e
    obtain ⟨rfl, rfl⟩ := e
    refine ⟨⟨?_, h2, h.1.initialized⟩, h.2⟩
    refine Matrix.Shows.congr h1 ?_
    intro i _ j _ k hk
    obtain rfl : k = 0 := by
      have : k < 1 := hk
      omega
    rfl
  | .pooling P, .pool .., h =>
    obtain rfl := Res.ok.inj hb
    exact h
  | .activation A, .act _, h =>
    obtain rfl := Res.ok.inj hb
    exact h

/-! ## Networks that differ in their parameters -/

/-- The same layers with other parameters. -/
def SameNet (ls ls' : List NetLayer) : Prop := List.Forall₂ (fun l l' => ∃ w β, l' = l.withParams w β) ls ls'

namespace NetLayer

@[simp] theorem withParams_out (l : NetLayer) (w : Tensor) (β : Nat → ℝ) (s : Shape) : (l.withParams w β).out s = l.out s := by
  cases l <;> rfl

theorem withParams_fits {l : NetLayer} {s : Shape} (h : l.Fits s) (w : Tensor) (β : Nat → ℝ) : (l.withParams w β).Fits s := by
  cases l <;> exact h

theorem withParams_trains {l : NetLayer} {s : Shape} {first : Bool} (h : l.Trains first s) (w : Tensor) (β : Nat → ℝ) :
    (l.withParams w β).Trains first s := by
  cases l <;> exact h

theorem withParams_self {l : NetLayer} {w : Tensor} {β : Nat → ℝ} (h : l.params = none) : l.withParams w β = l := by
  cases l <;> simp_all [params, withParams]

end NetLayer

theorem SameNet.netOut {ls ls' : List NetLayer} (h : SameNet ls ls') (i : Nat) (s : Shape) :
    Cnn.netOut (ls'.take i) s = Cnn.netOut (ls.take i) s := by
  induction h generalizing s i with
  | nil => simp
  | cons h _ ih =>
    obtain ⟨w, β, rfl⟩ := h
    cases i with
    | zero => rfl
    | succ i => simp only [List.take_succ_cons, Cnn.netOut, NetLayer.withParams_out]; exact ih _ _

theorem SameNet.out {ls ls' : List NetLayer} (h : SameNet ls ls') (s : Shape) : Cnn.netOut ls' s = Cnn.netOut ls s := by
  have := h.netOut ls.length s
  rwa [List.take_length, List.Forall₂.length_eq h, List.take_length] at this

theorem SameNet.fits {ls ls' : List NetLayer} (h : SameNet ls ls') : ∀ {s : Shape}, NetFits ls s → NetFits ls' s := by
  induction h with
  | nil => exact fun h => h
  | cons h _ ih =>
    obtain ⟨w, β, rfl⟩ := h
    intro s hf
    exact ⟨NetLayer.withParams_fits hf.1 w β, by rw [NetLayer.withParams_out]; exact ih hf.2⟩

theorem SameNet.trains {ls ls' : List NetLayer} (h : SameNet ls ls') : ∀ {s : Shape} {first : Bool}, NetTrains first ls s → NetTrains first ls' s := by
  induction h with
  | nil => exact fun h => h
  | cons h _ ih =>
    obtain ⟨w, β, rfl⟩ := h
    intro s first hf
    exact ⟨NetLayer.withParams_trains hf.1 w β, by rw [NetLayer.withParams_out]; exact ih hf.2⟩

theorem descend_same (rate : ℝ) (f : List NetLayer → ℝ) (ls : List NetLayer) : SameNet ls (descend rate f ls) := by
  rw [SameNet, List.forall₂_iff_get]
  refine ⟨by simp [descend], ?_⟩
  intro i hi hi'
  simp only [descend, List.get_eq_getElem, List.getElem_mapIdx]
  cases hp : (ls[i]).params with
  | none => exact ⟨fun _ _ _ => 0, fun _ => 0, (NetLayer.withParams_self hp).symm⟩
  | some v => exact ⟨_, _, rfl⟩

/-! ## A sample on its own -/

theorem alone_net {E : Env ℝ} (hE : E.Exact) {M : Model ℝ} {b : Nat} {s : Shape} {ls : List NetLayer} {n : Nat} (hM : M.Denotes b s ls n)
    (hfit : NetFits ls s) (htr : NetTrains true ls s) {X : Matrix ℝ} {d : Tensor} (hX : X.Shows s.X s.Y s.Z d) {ls' : List NetLayer} (hst : NetStands ls s d ls')
    {label : List Char} (hl : label ∈ M.labels) :
    (∃ m, alone E M ⟨X, label⟩ = .ok m) ∧ ∃ t, M.labels[t]? = some label ∧ (∀ t' < t, M.labels[t']? ≠ some label) ∧
      ∀ (i : Nat) (l : NetLayer), ls[i]? = some l → l.params ≠ none → ∃ DW DB dw, ∃ db : Nat → ℝ, ownGrads E M ⟨X, label⟩ i = some (DW, DB) ∧
        DW.Is3 (l.weightShape (netOut (ls.take i) s)) dw ∧ DB.Shows l.biasCount 1 1 (fun f _ _ => db f) ∧
        NetParamGrad ls' i s n t d dw db := by
  have hM' : (M.setBatchSize 1).Denotes 0 s ls n := hM.setBatchSize (by omega)
  obtain ⟨r, M₁, h1, h2, h3⟩ := model_pass hE hM' hfit hX
  obtain ⟨t, r', M₂, ht, ht1, ht2, h4, h5⟩ := h3 htr ls' hst label hl
  have ha : alone E M ⟨X, label⟩ = .ok M₂ := by
    unfold alone
    simp only [h1, h4, Res.bind_ok]
  refine ⟨⟨M₂, ha⟩, t, ht1, ht2, ?_⟩
  intro i l hl hp
  obtain ⟨DW, DB, dw, db, k1, k2, k3, k4⟩ := h5 i l hl hp
  exact ⟨DW, DB, dw, db, by rw [ownGrads, ha]; exact k1, k2, k3, k4⟩

/-! ## The model layer by layer -/

theorem Model.Denotes.get {M : Model ℝ} {b : Nat} {s : Shape} {ls : List NetLayer} {n : Nat} (h : M.Denotes b s ls n) :
    M.layers.length = ls.length + 1 ∧
    (∀ (i : Nat) (L : Layer ℝ) (l : NetLayer), M.layers[i]? = some L → ls[i]? = some l →
      L.body.Denotes b (decide (i = 0)) (netOut (ls.take i) s) l) ∧
    ∃ L S, M.layers[ls.length]? = some L ∧ L.body = .softmax S ∧ S.count = n := by
  obtain ⟨⟨Bs, S, h1, h2, h3⟩, h4, h5⟩ := h
  obtain ⟨g1, g2⟩ := h2.get
  have hlen : M.layers.length = ls.length + 1 := by
    rw [← List.length_map (as := M.layers) (f := (·.body)), h1]
    simp [g1]
  refine ⟨hlen, ?_, ?_⟩
  · intro i L l hL hl
    have hi : i < ls.length := (List.getElem?_eq_some_iff.1 hl).1
    have := congrArg (·[i]?) h1
    simp only [List.getElem?_map, hL, Option.map_some] at this
    rw [List.getElem?_append_left (by omega)] at this
    simpa using g2 i L.body l this.symm hl
  · have := congrArg (·[ls.length]?) h1
    simp only [List.getElem?_map] at this
    rw [List.getElem?_append_right (by omega), g1, Nat.sub_self, List.getElem?_cons_zero, Option.map_eq_some_iff] at this
    obtain ⟨L, hL, hS⟩ := this
    exact ⟨L, S, hL, hS, h3⟩

theorem Model.Denotes.of_get {M : Model ℝ} {b : Nat} {s : Shape} {ls : List NetLayer} {n : Nat} (h1 : M.layers.length = ls.length + 1)
    (h2 : ∀ (i : Nat) (L : Layer ℝ) (l : NetLayer), M.layers[i]? = some L → ls[i]? = some l →
      L.body.Denotes b (decide (i = 0)) (netOut (ls.take i) s) l)
    (h3 : ∃ L S, M.layers[ls.length]? = some L ∧ L.body = .softmax S ∧ S.count = n) (h4 : M.labels.length = n)
    (h5 : netOut ls s = ⟨n, 1, 1⟩ ∨ netOut ls s = ⟨1, n, 1⟩) : M.Denotes b s ls n := by
  obtain ⟨L, S, e1, e2, e3⟩ := h3
  refine ⟨⟨(M.layers.take ls.length).map (·.body), S, ?_, DenotesAll.of_get (by simp [h1]) ?_, e3⟩, h4, h5⟩
  · have : M.layers = M.layers.take ls.length ++ [L] := by
      conv_lhs => rw [← List.take_append_drop ls.length M.layers]
      rw [List.drop_eq_getElem_cons (by omega), List.drop_of_length_le (by omega)]
      rw [List.getElem?_eq_getElem (by omega)] at e1
      rw [Option.some.inj e1]
    conv_lhs => rw [this]
    simp [e2]
  · intro i B l hB hl
    have hi : i < ls.length := (List.getElem?_eq_some_iff.1 hl).1
    rw [List.getElem?_map, List.getElem?_take_of_lt hi, Option.map_eq_some_iff] at hB
    obtain ⟨L', hL', rfl⟩ := hB
    simpa using h2 i L' l hL' hl

theorem Model.Denotes.params {M : Model ℝ} {b : Nat} {s : Shape} {ls : List NetLayer} {n : Nat} (h : M.Denotes b s ls n) {i : Nat}
    {l : NetLayer} {w : Tensor} {β : Nat → ℝ} (hl : ls[i]? = some l) (hp : l.params = some (w, β)) :
    ∃ W Bi, M.params i = some (W, Bi) ∧ W.Is3 (l.weightShape (netOut (ls.take i) s)) w ∧ Bi.Shows l.biasCount 1 1 (fun f _ _ => β f) := by
  obtain ⟨g1, g2, _⟩ := h.get
  have hi : i < ls.length := (List.getElem?_eq_some_iff.1 hl).1
  have hL : M.layers[i]? = some M.layers[i] := List.getElem?_eq_getElem (by omega)
  obtain ⟨W, Bi, e1, e2, e3⟩ := (g2 i _ l hL hl).params.1 w β hp
  exact ⟨W, Bi, by rw [Model.params, hL, Option.bind_some, e1], e2, e3⟩

theorem Model.Denotes.has_params {M : Model ℝ} {b : Nat} {s : Shape} {ls : List NetLayer} {n : Nat} (h : M.Denotes b s ls n) {i : Nat}
    {v : Matrix ℝ × Matrix ℝ} (hp : M.params i = some v) : ∃ l w β, ls[i]? = some l ∧ l.params = some (w, β) := by
  obtain ⟨g1, g2, L, S, g3, g4, _⟩ := h.get
  unfold Model.params at hp
  cases hL : M.layers[i]? with
  | none => rw [hL] at hp; simp at hp
  | some L' =>
    rw [hL, Option.bind_some] at hp
    have hi : i < ls.length + 1 := by rw [← g1]; exact (List.getElem?_eq_some_iff.1 hL).1
    by_cases hi' : i = ls.length
    · subst hi'
      rw [g3] at hL
      obtain rfl := Option.some.inj hL
      rw [g4] at hp
      simp [Body.params] at hp
    · have hl : ls[i]? = some (ls[i]'(by omega)) := List.getElem?_eq_getElem (by omega)
      have hd := g2 i L' _ hL hl
      cases hq : (ls[i]'(by omega)).params with
      | none => rw [hd.params.2 hq] at hp; simp at hp
      | some v => exact ⟨_, v.1, v.2, hl, hq⟩

/-- A model that has been updated computes the network with the new parameters. -/
theorem Model.Denotes.update {N : Num ℝ} {lr : ℝ} {M M₁ M' : Model ℝ} {b : Nat} {s : Shape} {ls ls' : List NetLayer} {n : Nat}
    (h : M.Denotes b s ls n) (hb : M₁.bare = M.bare) (ha : M₁.applyBatch N lr = .ok M') (hlen : ls'.length = ls.length)
    (hp : ∀ i l, ls[i]? = some l → ∃ w β, ls'[i]? = some (l.withParams w β) ∧ (∀ v, l.params = some v → ∃ W Bi, M'.params i = some (W, Bi) ∧
      W.Is3 (l.weightShape (netOut (ls.take i) s)) w ∧ Bi.Shows l.biasCount 1 1 (fun f _ _ => β f))) : M'.Denotes b s ls' n := by
  obtain ⟨g1, g2, L, S, g3, g4, g5⟩ := h.get
  obtain ⟨m1, m2, m3⟩ := Model.applyBatch_get ha
  have hsame : SameNet ls ls' := by
    rw [SameNet, List.forall₂_iff_get]
    refine ⟨hlen.symm, ?_⟩
    intro i hi hi'
    obtain ⟨w, β, e, _⟩ := hp i ls[i] (List.getElem?_eq_getElem hi)
    refine ⟨w, β, ?_⟩
    rw [List.getElem?_eq_getElem (by omega)] at e
    exact Option.some.inj e
  have hlb := bare_len hb
  have bodies : ∀ (i : Nat) (L' : Layer ℝ), M'.layers[i]? = some L' → ∃ (L₁ L : Layer ℝ), M.layers[i]? = some L ∧ L₁.body.bare = L.body.bare ∧
      L₁.body.applyBatch N lr = .ok L'.body := by
    intro i L' hL'
    have hi : i < M.layers.length := by rw [← hlb, ← m1]; exact (List.getElem?_eq_some_iff.1 hL').1
    have hL : M.layers[i]? = some M.layers[i] := List.getElem?_eq_getElem hi
    have hL1 : M₁.layers[i]? = some (M₁.layers[i]'(by omega)) := List.getElem?_eq_getElem (by omega)
    have hg := bare_get hb i
    rw [hL, hL1] at hg
    simp only [Option.map_some, Option.some.injEq] at hg
    obtain ⟨c, e1, e2⟩ := m3 i _ hL1
    rw [hL'] at e2
    obtain rfl := Option.some.inj e2
    exact ⟨_, _, hL, hg, e1⟩
  refine Model.Denotes.of_get (by rw [m1, hlb, g1, hlen]) ?_ ?_ ?_ ?_
  · intro i L' l' hL' hl'
    have hi : i < ls.length := by rw [← hlen]; exact (List.getElem?_eq_some_iff.1 hl').1
    have hl : ls[i]? = some ls[i] := List.getElem?_eq_getElem hi
    obtain ⟨w, β, e, hv⟩ := hp i _ hl
    rw [hl'] at e
    obtain rfl := Option.some.inj e
    obtain ⟨L₁, L, k1, k2, k3⟩ := bodies i L' hL'
    have hd := (g2 i L _ k1 hl).of_bare k2
    rw [hsame.netOut]
    refine hd.applyBatch k3 w β ?_
    intro v hv'
    obtain ⟨W, Bi, q1, q2, q3⟩ := hv v hv'
    rw [Model.params, hL', Option.bind_some] at q1
    exact ⟨W, Bi, q1, q2, q3⟩
  · have hL' : M'.layers[ls.length]? = some (M'.layers[ls.length]'(by omega)) := List.getElem?_eq_getElem (by omega)
    obtain ⟨L₁, L2, k1, k2, k3⟩ := bodies _ _ hL'
    rw [g3] at k1
    obtain rfl := Option.some.inj k1
    rw [g4] at k2
    rw [hlen]
    cases hS : L₁.body with
    | softmax S1 =>
      rw [hS] at k2 k3
      refine ⟨_, S1, hL', (Res.ok.inj k3).symm, ?_⟩
      simp only [Body.bare, Body.softmax.injEq, Softmax.mk.injEq] at k2
      rw [k2.1, g5]
    | _ => rw [hS] at k2; simp [Body.bare] at k2
  · rw [Model.applyBatch_labels ha, bare_labels hb]; exact h.labels
  · rw [hsame.out]; exact h.output

/-! ## Derivatives of the mean loss -/

theorem hasDerivAt_sum {β γ : Type} {R : β → γ → Prop} {F : γ → ℝ → ℝ} {G : β → ℝ} {θ : ℝ} {xs : List β} {ds : List γ}
    (h : List.Forall₂ R xs ds) (hR : ∀ x ∈ xs, ∀ d, R x d → HasDerivAt (F d) (G x) θ) :
    HasDerivAt (fun v => (ds.map fun d => F d v).sum) (xs.map G).sum θ := by
  induction h with
  | nil => simpa using hasDerivAt_const θ (0 : ℝ)
  | @cons x d xs ds h _ ih =>
    simp only [List.map_cons, List.sum_cons]
    exact (hR x (by simp) d h).fun_add (ih fun x hx => hR x (List.mem_cons_of_mem _ hx))

theorem Sample.Is.index {labels : List (List Char)} {s : Shape} {x : Sample ℝ} {d : Tensor × Nat} (h : x.Is labels s d) {t : Nat}
    (h1 : labels[t]? = some x.label) (h2 : ∀ t' < t, labels[t']? ≠ some x.label) : t = d.2 := by
  rcases Nat.lt_trichotomy t d.2 with hlt | he | hlt
  · exact absurd h1 (h.first t hlt)
  · exact he
  · exact absurd h.label (h2 _ hlt)

/-- What an update by the mean of the gradients of some samples is for the network. -/
theorem descend_update {E : Env ℝ} (hE : E.Exact) {M M₁ M' : Model ℝ} {b : Nat} {s : Shape} {ls : List NetLayer} {n : Nat}
    (h : M.Denotes b s ls n) (hfit : NetFits ls s) (htr : NetTrains true ls s) (hb : M₁.bare = M.bare) {rate : ℝ}
    (ha : M₁.applyBatch E.num rate = .ok M') {used : List (Sample ℝ)} {data : List (Tensor × Nat)}
    (hd : List.Forall₂ (Sample.Is M.labels s) used data) (hsm : ∀ d ∈ data, NetSmooth ls s d.1)
    (hu : ∀ (i : Nat) (W Bi : Matrix ℝ) (X Y Z F : Nat) (w : Nat → Nat → Nat → ℝ) (β : Nat → ℝ), M.params i = some (W, Bi) →
        W.Shows X Y Z w → Bi.Shows F 1 1 (fun f _ _ => β f) →
        ∃ (g : Sample ℝ → Nat → Nat → Nat → ℝ) (c : Sample ℝ → Nat → ℝ),
          (∀ u ∈ used, ∃ G H, ownGrads E M u i = some (G, H) ∧ G.Reads X Y Z (g u) ∧ H.Reads F 1 1 (fun f _ _ => c u f)) ∧
          ∃ W' B', M'.params i = some (W', B') ∧
            W'.Shows X Y Z (fun a b d => w a b d - rate * ((used.map (g · a b d)).sum / E.num.ofNat used.length)) ∧
            B'.Shows F 1 1 (fun f _ _ => β f - rate * ((used.map (c · f)).sum / E.num.ofNat used.length))) :
    M'.Denotes b s (descend rate (meanLoss s n data) ls) n ∧ HasPartials s (meanLoss s n data) ls := by
  have key : ∀ i l w β, ls[i]? = some l → l.params = some (w, β) →
      ∃ W' B', ∃ dw : Tensor, ∃ db : Nat → ℝ, M'.params i = some (W', B') ∧
        W'.Is3 (l.weightShape (netOut (ls.take i) s)) (fun a b c => w a b c - rate * dw a b c) ∧
        B'.Shows l.biasCount 1 1 (fun f _ _ => β f - rate * db f) ∧
        (∀ a < (l.weightShape (netOut (ls.take i) s)).X, ∀ b < (l.weightShape (netOut (ls.take i) s)).Y,
          ∀ c < (l.weightShape (netOut (ls.take i) s)).Z,
          HasDerivAt (fun v => meanLoss s n data (ls.set i (l.withParams (w.update a b c v) β))) (dw a b c) (w a b c)) ∧
        ∀ k < l.biasCount, HasDerivAt (fun v => meanLoss s n data (ls.set i (l.withParams w (Function.update β k v)))) (db k) (β k) := by
    intro i l w β hl hp
    obtain ⟨W, Bi, e1, e2, e3⟩ := h.params hl hp
    obtain ⟨g, c, k1, W', B', k2, k3, k4⟩ := hu i W Bi _ _ _ _ w β e1 e2 e3
    have hone : ∀ u ∈ used, ∀ d, Sample.Is M.labels s u d ∧ d ∈ data →
        (∀ a < (l.weightShape (netOut (ls.take i) s)).X, ∀ b < (l.weightShape (netOut (ls.take i) s)).Y,
          ∀ k < (l.weightShape (netOut (ls.take i) s)).Z,
          HasDerivAt (fun v => netLoss (ls.set i (l.withParams (w.update a b k v) β)) s n d.2 d.1) (g u a b k) (w a b k)) ∧
        ∀ k < l.biasCount, HasDerivAt (fun v => netLoss (ls.set i (l.withParams w (Function.update β k v))) s n d.2 d.1) (c u k) (β k) := by
      rintro u hu d ⟨hd, hdm⟩
      obtain ⟨-, t, t1, t2, t3⟩ := alone_net hE h hfit htr hd.data (.self (hsm d hdm)) (label := u.label) (List.mem_of_getElem? hd.label)
      obtain rfl := hd.index t1 t2
      obtain ⟨DW, DB, dw, db, q1, q2, q3, q4⟩ := t3 i l hl (by rw [hp]; simp)
      obtain ⟨G, H, r1, r2, r3⟩ := k1 u hu
      have : some (DW, DB) = some (G, H) := q1.symm.trans r1
      simp only [Option.some.injEq, Prod.mk.injEq] at this
      obtain ⟨rfl, rfl⟩ := this
      constructor
      · intro a ha b hb k hk
        have := q4.weight hl hp ha hb hk
        have e : dw a b k = g u a b k := Res.ok.inj ((q2.entry a ha b hb k hk).symm.trans (r2.entry a ha b hb k hk))
        rw [← e]; exact this
      · intro k hk
        have := q4.bias hl hp hk
        have e : db k = c u k := Res.ok.inj ((q3.entry k hk 0 (by omega) 0 (by omega)).symm.trans (r3.entry k hk 0 (by omega) 0 (by omega)))
        rw [← e]; exact this
    have hd' : List.Forall₂ (fun u d => Sample.Is M.labels s u d ∧ d ∈ data) used data := by
      have : ∀ {us : List (Sample ℝ)} {ds : List (Tensor × Nat)}, List.Forall₂ (Sample.Is M.labels s) us ds → (∀ d ∈ ds, d ∈ data) →
          List.Forall₂ (fun u d => Sample.Is M.labels s u d ∧ d ∈ data) us ds := by
        intro us ds hh
        induction hh with
        | nil => exact fun _ => .nil
        | cons h1 _ ih => exact fun hm => .cons ⟨h1, hm _ (by simp)⟩ (ih fun d hd => hm d (List.mem_cons_of_mem _ hd))
      exact this hd fun d hd => hd
    have hlen : E.num.ofNat used.length = (data.length : ℝ) := by
      rw [hE.num, real_ofNat, hd.length_eq]
    refine ⟨W', B', fun a b k => (used.map (g · a b k)).sum / data.length, fun k => (used.map (c · k)).sum / data.length, k2, ?_, ?_, ?_, ?_⟩
    · rw [hlen] at k3; exact k3
    · rw [hlen] at k4; exact k4
    · intro a ha b hb k hk
      exact (hasDerivAt_sum (F := fun d v => netLoss (ls.set i (l.withParams (w.update a b k v) β)) s n d.2 d.1) (G := fun u => g u a b k)
        hd' fun u hu d hR => (hone u hu d hR).1 a ha b hb k hk).div_const _
    · intro k hk
      exact (hasDerivAt_sum (F := fun d v => netLoss (ls.set i (l.withParams w (Function.update β k v))) s n d.2 d.1) (G := fun u => c u k)
        hd' fun u hu d hR => (hone u hu d hR).2 k hk).div_const _
  constructor
  · refine h.update hb ha (by simp [descend]) ?_
    intro i l hl
    simp only [descend, List.getElem?_mapIdx, hl, Option.map_some, Option.some.injEq]
    cases hp : l.params with
    | none => exact ⟨fun _ _ _ => 0, fun _ => 0, (NetLayer.withParams_self hp).symm, by simp⟩
    | some v =>
      obtain ⟨w, β⟩ := v
      refine ⟨_, _, rfl, ?_⟩
      intro _ _
      obtain ⟨W', B', dw, db, k1, k2, k3, k4, k5⟩ := key i l w β hl hp
      refine ⟨W', B', k1, Matrix.Shows.congr k2 ?_, k3.congr ?_⟩
      · intro a ha b hb c hc
        rw [(k4 a ha b hb c hc).deriv]
      · intro k hk _ _ _ _
        rw [(k5 k hk).deriv]
  · intro i l w β hl hp
    obtain ⟨W', B', dw, db, k1, k2, k3, k4, k5⟩ := key i l w β hl hp
    exact ⟨fun a ha b hb c hc => (k4 a ha b hb c hc).differentiableAt, fun k hk => (k5 k hk).differentiableAt⟩

end Cnn
