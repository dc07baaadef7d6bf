import Verif.Spec.Fresh
import Verif.Lemmas.FreshRun
import Verif.Lemmas.NetDescent
/-! Helper lemmas: training of a model with unused layers (C67, C68). -/
namespace Cnn
open Finset Model

theorem Connected.checkSize_dim {α : Type} [Zero α] [Add α] [Sub α] [Mul α] [Div α] (N : Num α) (draws : Nat → α) (L : Connected α) {X X' : Matrix α}
    (h : X.dim = X'.dim) : L.checkSize N draws X = L.checkSize N draws X' := by
  unfold checkSize expected
  rw [h]

theorem normOf_real (n : Nat) (d : Nat → ℝ) : normOf Num.real n d = √(∑ r ∈ range n, d r * d r) := by
  unfold normOf
  rw [sumTo_eq]
  rfl

/-- A layer made ready: it computes the layer, and the unused layer treats its first input like this one. -/
theorem Body.Starts.fill {B : Body ℝ} {draws : Nat → ℝ} {first : Bool} {s : Shape} {l : NetLayer} (h : B.Starts draws first s l)
    (hf : l.Fits s) (m : Nat) : ∃ B' : Body ℝ, B'.Prepared m ∧ (∀ c < m, B'.Denotes c first s l) ∧
      ∀ (X : Matrix ℝ) (x : Tensor) (b : Nat), X.Is3 s x →
        (B.setBatchSize m).forward Num.real draws X b = B'.forward Num.real draws X b := by
  match B, l, h with
  | .kernel K, .conv .., h =>
    refine ⟨(Body.kernel K).setBatchSize m, ?_, ?_, fun _ _ _ _ => rfl⟩
    · exact ⟨by simp [Kernel.setBatchSize, emptyGrads], by simp [Kernel.setBatchSize, emptyGrads], ⟨_, _, _, _, h.weights⟩, _, _, h.biases⟩
    · intro c hc
      exact ⟨⟨h.dim, h.num, h.stride, h.weights, h.biases⟩, by simp [Kernel.setBatchSize, emptyGrads, hc],
        by simp [Kernel.setBatchSize, emptyGrads, hc]⟩
  | .pooling P, .pool .., h =>
    have hlen : (P.setBatchSize m).indices.length = m := by
      show (Matrix.vecResize _ _ _).length = m
      simp only [Matrix.vecResize, List.length_append, List.length_take, List.length_replicate]
      omega
    refine ⟨(Body.pooling P).setBatchSize m, ?_, ?_, fun _ _ _ _ => rfl⟩
    · refine ⟨hlen, ?_, ?_⟩
      · show 0 < P.stride.x
        rw [h.2.2]
        exact Int.natCast_pos.2 hf.sx0
      · show 0 < P.stride.y
        rw [h.2.2]
        exact Int.natCast_pos.2 hf.sy0
    · intro c hc
      exact ⟨h.1, h.2.1, h.2.2, by rw [hlen]; exact hc⟩
  | .activation A, .act _, h => exact ⟨.activation A, trivial, fun c _ => h, fun _ _ _ _ => rfl⟩
  | .connected L, .full n w β, h =>
    rcases h with h | ⟨h1, ⟨f, h2⟩, h3, h4, h5, h6⟩
    · refine ⟨(Body.connected L).setBatchSize m, ?_, ?_, fun _ _ _ _ => rfl⟩
      · exact ⟨h.1.initialized, by simp [Connected.setBatchSize, emptyGrads], by simp [Connected.setBatchSize, emptyGrads], ⟨_, _, _, _, h.1.weights⟩, _, _, h.1.biases⟩
      · intro c hc
        exact ⟨⟨h.1.weights, h.1.biases, h.1.initialized⟩, by simp [Connected.setBatchSize, emptyGrads, hc],
          by simp [Connected.setBatchSize, emptyGrads, hc], h.2⟩
    · have hn : 0 < n := h2.good.x
      have hX : 0 < s.X := Nat.pos_of_ne_zero fun e => by simp [e] at h3
      have hY : 0 < s.Y := Nat.pos_of_ne_zero fun e => by simp [e] at h3
      have hZ : 0 < s.Z := Nat.pos_of_ne_zero fun e => by simp [e] at h3
      have g : Good n (s.X * s.Y * s.Z) 1 := ⟨hn, h3, by decide, by omega⟩
      have hle : s.X * s.Y * s.Z ≤ n * (s.X * s.Y * s.Z) := Nat.le_mul_of_pos_left _ hn
      obtain ⟨X0, _, hX0⟩ := Matrix.ofDim_shows (α := ℝ) (X := s.X) (Y := s.Y) (Z := s.Z) ⟨hX, hY, hZ, by omega⟩ 0
      have h1' : (L.setBatchSize m).initialized = false := h1
      have hb : ∀ i < n, ∀ j < 1, ∀ k < 1, f i j k = f i 0 0 := by
        intro i _ j hj k hk
        obtain rfl : j = 0 := by omega
        obtain rfl : k = 0 := by omega
        rfl
      have h2' : (L.setBatchSize m).biases.Shows n 1 1 (fun i _ _ => f i 0 0) := h2.congr hb
      obtain ⟨L', e1, e2, e3, e4, e5⟩ := Connected.first_shows Num.real draws h1' h2' hX0 g
      have e5' : L'.Is n (s.X * s.Y * s.Z) (fun i k => w i k 0) β := by
        refine ⟨e5.weights.congr ?_, e5.biases.congr ?_, e5.initialized⟩
        · intro i hi k hk j _
          rw [h5 i hi k hk, normOf_real]; rfl
        · intro i hi _ _ _ _
          rw [h6 i hi, normOf_real]; rfl
      have l1 : L'.wGrads.length = m := by rw [e3]; simp [Connected.setBatchSize, emptyGrads]
      have l2 : L'.bGrads.length = m := by rw [e4]; simp [Connected.setBatchSize, emptyGrads]
      refine ⟨.connected L', ⟨e5.initialized, l1, l2, ⟨_, _, _, _, e5.weights⟩, _, _, e5.biases⟩, ?_, ?_⟩
      · intro c hc
        exact ⟨e5', by omega, by omega, Or.inr e2⟩
      · intro X x b hX
        have k1 : (L.setBatchSize m).checkSize Num.real draws X = (.ok true, L') := by
          rw [Connected.checkSize_dim Num.real draws _ (hX.dim.trans hX0.dim.symm)]; exact e1
        have k2 : L'.checkSize Num.real draws X = (.ok true, L') := by
          rw [Connected.later_check Num.real draws e5 hX]; simp
        have k3 : (L.setBatchSize m).forward Num.real draws X = L'.forward Num.real draws X := by
          unfold Connected.forward
          rw [k1, k2]
        simp only [Body.setBatchSize, Body.forward, k3]

theorem Body.Denotes.see {B : Body ℝ} {first : Bool} {s : Shape} {l : NetLayer} {c : Nat} (h : B.Denotes c first s l) :
    (B.see c).Denotes 0 first s l := by
  match B, l, h with
  | .kernel K, .conv .., h =>
    exact ⟨⟨h.1.dim, h.1.num, h.1.stride, h.1.weights, h.1.biases⟩, by simp [List.getElem?_eq_getElem h.2.1],
      by simp [List.getElem?_eq_getElem h.2.2]⟩
  | .pooling P, .pool .., h => exact ⟨h.1, h.2.1, h.2.2.1, by simp [List.getElem?_eq_getElem h.2.2.2]⟩
  | .connected L, .full .., h =>
    exact ⟨⟨h.1.weights, h.1.biases, h.1.initialized⟩, by simp [List.getElem?_eq_getElem h.2.1],
      by simp [List.getElem?_eq_getElem h.2.2.1], h.2.2.2⟩
  | .activation A, .act _, h => exact h

theorem netOut_take_succ (ls : List NetLayer) (s : Shape) (i : Nat) (l : NetLayer) (h : ls[i]? = some l) :
    netOut (ls.take (i + 1)) s = l.out (netOut (ls.take i) s) := by
  induction ls generalizing s i with
  | nil => simp at h
  | cons a ls ih =>
    cases i with
    | zero =>
      obtain rfl : a = l := by simpa using h
      simp [netOut]
    | succ i =>
      have := ih (a.out s) i (by simpa using h)
      simpa [netOut] using this

theorem Model.Denotes.norm {M : Model ℝ} {c : Nat} {s : Shape} {ls : List NetLayer} {n : Nat} (h : M.Denotes c s ls n) :
    (M.norm c).Denotes 0 s ls n := by
  obtain ⟨g1, g2, L, S, g3, g4, g5⟩ := h.get
  have hlen : (M.norm c).layers.length = ls.length + 1 := by rw [norm_length, g1]
  have hs : (M.see c).layers.length = ls.length + 1 := by rw [show (M.see c).layers.length = M.layers.length by simp [see], g1]
  refine Model.Denotes.of_get hlen ?_ ?_ h.labels h.output
  · intro i L' l hL' hl
    have hi : i < ls.length := (List.getElem?_eq_some_iff.1 hl).1
    rw [Model.norm, tell_get_ne _ _ _ (by omega), see_get, Option.map_eq_some_iff] at hL'
    obtain ⟨K, hK, rfl⟩ := hL'
    exact (g2 i K l hK hl).see
  · refine ⟨⟨L.name, (L.body.see c).tell 0⟩, { S with trueLabel := 0, knows := true }, ?_, ?_, g5⟩
    · rw [Model.norm, tell_get_last _ _ _ (by omega), see_get, g3]; rfl
    · simp only [g4, Body.see, Body.tell]

namespace Train
open Model

/-- The data that reaches layer `i`. -/
theorem soloF_is3 {E : Env ℝ} (hE : E.Exact) {M : Model ℝ} {s : Shape} {ls : List NetLayer} {n : Nat} (hM : M.Denotes 0 s ls n) (hf : NetFits ls s)
    {x : Sample ℝ} {xt : Tensor} (hx : x.data.Is3 s xt) (i : Nat) (hi : i ≤ ls.length) {st : Matrix ℝ × List (Matrix ℝ)} {m : Model ℝ}
    (h : soloF E M x i = .ok (st, m)) :
    (∃ y, st.1.Is3 (netOut (ls.take i) s) y) ∧ ∀ j ≥ i, m.layers[j]? = M.layers[j]? := by
  obtain ⟨g1, g2, _⟩ := hM.get
  induction i generalizing st m with
  | zero =>
    unfold soloF at h
    obtain ⟨a, ha, h⟩ := Res.bind_eq_ok h
    obtain ⟨rfl, rfl⟩ := Prod.mk.inj (Res.ok.inj h)
    unfold forwardBegin at ha
    obtain ⟨A, hA, ha⟩ := Res.bind_eq_ok ha
    obtain ⟨R, _, ha⟩ := Res.bind_eq_ok ha
    obtain rfl := Res.ok.inj ha
    obtain ⟨X1, e1, s1⟩ := Matrix.ofExpr_shows hx.expr (id : ℝ → ℝ)
    obtain rfl := Res.ok.inj (e1.symm.trans hA)
    exact ⟨⟨_, s1⟩, fun _ _ => rfl⟩
  | succ i ih =>
    rw [soloF_succ] at h
    obtain ⟨⟨st1, m1⟩, h1, h⟩ := Res.bind_eq_ok h
    obtain ⟨⟨y, hy⟩, hm1⟩ := ih (by omega) h1
    unfold forwardStep forwardLayer at h
    simp only at h
    obtain ⟨u, hu, h⟩ := Res.bind_eq_ok h
    obtain ⟨L, hL, hu⟩ := Res.bind_eq_ok hu
    obtain ⟨v, hv, hu⟩ := Res.bind_eq_ok hu
    obtain rfl := Res.ok.inj hu
    obtain ⟨R, _, h⟩ := Res.bind_eq_ok h
    obtain ⟨rfl, rfl⟩ := Prod.mk.inj (Res.ok.inj h)
    have hg : M.layers[i]? = some M.layers[i] := List.getElem?_eq_getElem (by omega)
    have hl : ls[i]? = some ls[i] := List.getElem?_eq_getElem (by omega)
    rw [hm1 i le_rfl, hg] at hL
    obtain rfl := Res.ok.inj hL
    obtain ⟨out, body', e, so, _⟩ := layer_pass (E.draws i) (g2 i _ _ hg hl) (hf.get hl) hy
    rw [hE.num, e] at hv
    obtain rfl := Res.ok.inj hv
    refine ⟨⟨_, by rw [netOut_take_succ ls s i _ hl]; exact so⟩, ?_⟩
    intro j hj
    show (m1.setBody i body').layers[j]? = _
    rw [← hm1 j (by omega)]
    simp only [Model.setBody, List.getElem?_modify, show i ≠ j by omega, if_false]
    cases m1.layers[j]? <;> rfl

/-- A model with unused layers and the model with the layers made ready. -/
theorem filled {E : Env ℝ} (hE : E.Exact) {M : Model ℝ} {s : Shape} {ls : List NetLayer} {n : Nat} (h : M.Starts E.draws s ls n)
    (hf : NetFits ls s) (htr : NetTrains true ls s) {B : Nat} (hB : 0 < B) : ∃ M', Trainee M.labels s n B M' ls ∧
      (M.setBatchSize B).outline = M'.outline ∧
      ∀ src : List (Sample ℝ), (∀ x ∈ src, ∃ xt : Tensor, x.data.Is3 s xt) → SameStart E (M.setBatchSize B) M' B src := by
  have hfill : ∀ i, ∃ C : Body ℝ, (∀ (L : Layer ℝ) (l : NetLayer), M.layers[i]? = some L → ls[i]? = some l → C.Prepared B ∧
      (∀ c < B, C.Denotes c (decide (i = 0)) (netOut (ls.take i) s) l) ∧
      ∀ (X : Matrix ℝ) (x : Tensor) (b : Nat), X.Is3 (netOut (ls.take i) s) x →
        (L.body.setBatchSize B).forward Num.real (E.draws i) X b = C.forward Num.real (E.draws i) X b) ∧
      ∀ L : Layer ℝ, M.layers[i]? = some L → ls[i]? = none → C = L.body := by
    intro i
    cases hL : M.layers[i]? with
    | none => exact ⟨.softmax (Softmax.new 0), by simp, by simp⟩
    | some L =>
      cases hl : ls[i]? with
      | none => exact ⟨L.body, by simp, by simp⟩
      | some l =>
        obtain ⟨C, k1, k2, k3⟩ := (h.layers i L l hL hl).fill (hf.get hl) B
        refine ⟨C, ?_, by simp⟩
        intro L' l' e1 e2
        obtain rfl := Option.some.inj e1
        obtain rfl := Option.some.inj e2
        exact ⟨k1, k2, k3⟩
  choose C hC hC' using hfill
  obtain ⟨L, S, g1, g2, g3⟩ := h.last
  have hlast : C ls.length = .softmax S := by rw [hC' ls.length L g1 (by simp), g2]
  have hget : ∀ (i : Nat) (K : Layer ℝ), (M.withBodies C).layers[i]? = some K → ∃ K0, M.layers[i]? = some K0 ∧ K = ⟨K0.name, C i⟩ := by
    intro i K hK
    simp only [withBodies, List.getElem?_mapIdx, Option.map_eq_some_iff] at hK
    obtain ⟨K0, e, rfl⟩ := hK
    exact ⟨K0, e, rfl⟩
  have hden : ∀ c < B, (M.withBodies C).Denotes c s ls n := by
    intro c hc
    refine Model.Denotes.of_get (by simp [withBodies, h.count]) ?_ ?_ h.labels h.output
    · intro i K l hK hl
      obtain ⟨K0, e, rfl⟩ := hget i K hK
      exact (hC i K0 l e hl).2.1 c hc
    · exact ⟨⟨L.name, C ls.length⟩, S, by simp [withBodies, g1], hlast, g3⟩
  refine ⟨M.withBodies C, ⟨?_, hden 0 hB, hf, htr, rfl⟩, ?_, ?_⟩
  · intro K hm
    obtain ⟨i, hi⟩ := List.mem_iff_getElem?.1 hm
    obtain ⟨K0, e, rfl⟩ := hget i K hi
    cases hl : ls[i]? with
    | some l => exact (hC i K0 l e hl).1
    | none =>
      have hlt := (List.getElem?_eq_some_iff.1 e).1
      have hge := List.getElem?_eq_none_iff.1 hl
      rw [h.count] at hlt
      obtain rfl : i = ls.length := by omega
      show (C ls.length).Prepared B
      rw [hlast]; trivial
  · unfold outline
    simp only [Model.setBatchSize, withBodies, List.map_map]
    congr 1
    refine List.ext_getElem? fun i => ?_
    simp only [List.getElem?_map, List.getElem?_mapIdx, Option.map_map]
    rfl
  · intro src hsrc slot hslot x hx i st m hsolo b b' hb hb'
    obtain ⟨xt, hxt⟩ := hsrc x hx
    simp only [bodyAt, Option.map_eq_some_iff] at hb hb'
    obtain ⟨K', e', rfl⟩ := hb'
    obtain ⟨K0, e0, rfl⟩ := hget i K' e'
    obtain ⟨K, e, rfl⟩ := hb
    have eK : K = ⟨K0.name, K0.body.setBatchSize B⟩ := by
      simp only [Model.setBatchSize, List.getElem?_map, e0, Option.map_some, Option.some.injEq] at e
      exact e.symm
    subst eK
    have hlt := (List.getElem?_eq_some_iff.1 e0).1
    rw [h.count] at hlt
    cases hl : ls[i]? with
    | some l =>
      have hi : i < ls.length := (List.getElem?_eq_some_iff.1 hl).1
      obtain ⟨⟨y, hy⟩, _⟩ := soloF_is3 hE (hden slot hslot).norm hf hxt i hi.le hsolo
      rw [hE.num]
      exact (hC i K0 l e0 hl).2.2 st.1 y slot hy
    | none =>
      have hge := List.getElem?_eq_none_iff.1 hl
      obtain rfl : i = ls.length := by omega
      rw [g1] at e0
      obtain rfl := Option.some.inj e0
      simp only [hlast, g2, Body.setBatchSize]

/-- The first epoch of a training: it makes no difference whether the layers are ready. -/
theorem epochLoop_first {E : Env ℝ} (hE : E.Exact) {p : Hyper ℝ} {B T size : Nat} (hp : p.batch = B) (hq : p.threads = T) (hB : B < 2 ^ 24)
    (h0 : 0 < B) (hT0 : 0 < T) (hT : T < 2147483648) (hs0 : 0 < size) (hsz : size < 2 ^ 24) {M M' : Model ℝ} {labels : List (List Char)} {s : Shape} {n : Nat} {ls : List NetLayer}
    (hM' : Trainee labels s n B M' ls) (hout : M.outline = M'.outline)
    (hS : ∀ src : List (Sample ℝ), (∀ x ∈ src, ∃ xt : Tensor, x.data.Is3 s xt) → SameStart E M M' B src)
    {d : List (Tensor × Nat)} {e : List (List Nat) × List (Sample ℝ)} (hne : e.2 ≠ [])
    (he : List.Forall₂ (Sample.Is labels s) (e.2.take B) d) (es : List (List (List Nat) × List (Sample ℝ))) :
    epochLoop E p size (e :: es) (some M) = epochLoop E p size (e :: es) (some M') := by
  have hnum : 0 < (size + B - 1) / B := Nat.div_pos (by omega) h0
  rw [epochLoop_cons, epochLoop_cons, runEpoch_eq hp hq hB h0 hT0 hsz, runEpoch_eq hp hq hB h0 hT0 hsz]
  by_cases hl : e.1.length = (size + B - 1) / B
  · rw [if_pos hl, if_pos hl]
    cases hs : e.1 with
    | nil => rw [hs] at hl; simp only [List.length_nil] at hl; omega
    | cons c cs =>
      have := runBatch_sim (E := E) (sh := ⟨M', e.2, 0⟩) hp hq hB hT0 hT hM'.prepared (hM'.alone hE he) h0 hne hout
        (hS _ fun x hx => by
          obtain ⟨f, _, hf⟩ := mem_take_is he hx
          exact ⟨f.1, hf.data⟩) c
      simp only [runBatches, this]
  · rw [if_neg hl, if_neg hl]

theorem epochLoop_fresh {E : Env ℝ} (hE : E.Exact) {p : Hyper ℝ} {B T k : Nat} (hp : p.batch = B) (hq : p.threads = T) (hB : B < 2 ^ 24)
    (h0 : 0 < B) (hT0 : 0 < T) (hT : T < 2147483648) (hk : 0 < k) (hsz : B * k < 2 ^ 24) {M M' : Model ℝ} {labels : List (List Char)} {s : Shape} {n : Nat} {ls : List NetLayer}
    (hM' : Trainee labels s n B M' ls) (hout : M.outline = M'.outline)
    (hS : ∀ src : List (Sample ℝ), (∀ x ∈ src, ∃ xt : Tensor, x.data.Is3 s xt) → SameStart E M M' B src)
    {d : List (Tensor × Nat)} {ds : List (List (Tensor × Nat))} {e : List (List Nat) × List (Sample ℝ)}
    (he : Serves labels s B e.2 (d :: ds)) (es : List (List (List Nat) × List (Sample ℝ))) :
    epochLoop E p (B * k) (e :: es) (some M) = epochLoop E p (B * k) (e :: es) (some M') := by
  obtain ⟨s1, s2, _⟩ := he
  refine epochLoop_first hE hp hq hB h0 hT0 hT (Nat.mul_pos h0 hk) hsz hM' hout hS ?_ s2 es
  intro h
  have := s2.length_eq
  rw [h] at this
  simp at this
  omega

/-- Training starts as if the model had its weights already. -/
theorem train_fresh {E : Env ℝ} (hE : E.Exact) {p : Hyper ℝ} {B T k : Nat} (hp : p.batch = B) (hq : p.threads = T) (hB : B < 2 ^ 24)
    (h0 : 0 < B) (hT0 : 0 < T) (hT : T < 2147483648) (hk : 0 < k) (hsz : B * k < 2 ^ 24) {M : Model ℝ} {s : Shape} {n : Nat} {ls : List NetLayer}
    (h : M.Starts E.draws s ls n) (hf : NetFits ls s) (htr : NetTrains true ls s) : ∃ M', Trainee M.labels s n B M' ls ∧
      ∀ (dss : List (List (List (Tensor × Nat)))) (epochs : List (List (List Nat) × List (Sample ℝ))), dss ≠ [] → (∀ ds ∈ dss, ds.length = k) →
        List.Forall₂ (fun e ds => Serves M.labels s B e.2 ds) epochs dss →
        train E p (B * k) epochs M = if epochs.length = p.epochs.toNat then epochLoop E p (B * k) epochs (some M') else .ok none := by
  obtain ⟨M', h1, h2, h3⟩ := filled hE h hf htr h0
  refine ⟨M', h1, ?_⟩
  intro dss epochs hne hlen he
  have hu : u64 p.batch = B := by
    rw [hp]; unfold u64; omega
  rw [train_eq (p := p) (by omega), hu]
  cases he with
  | nil => exact absurd rfl hne
  | @cons e ds es dss he hes =>
    have hl := hlen ds (by simp)
    cases ds with
    | nil => simp at hl; omega
    | cons d ds =>
      rw [epochLoop_fresh hE hp hq hB h0 hT0 hT hk hsz h1 h2 h3 he es]

theorem _root_.Cnn.SmoothAlong.head {rate : ℝ} {s : Shape} {n : Nat} {ds : List (List (Tensor × Nat))} {ls : List NetLayer} (h : SmoothAlong rate s n ds ls) :
    ∀ d, ds.head? = some d → ∀ e ∈ d, NetSmooth ls s e.1 := by
  intro d hd
  cases ds with
  | nil => simp at hd
  | cons a ds =>
    obtain rfl : a = d := by simpa using hd
    exact h.1

end Train
end Cnn
