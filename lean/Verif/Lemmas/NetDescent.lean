import Verif.Lemmas.Room
import Verif.Lemmas.NetTrain
/-! Helper lemmas: training is gradient descent (C67, C68). -/
namespace Cnn
open Finset Model

theorem NetFits.get {ls : List NetLayer} {s : Shape} (h : NetFits ls s) {i : Nat} {l : NetLayer} (hl : ls[i]? = some l) :
    l.Fits (netOut (ls.take i) s) := by
  induction ls generalizing i s with
  | nil => simp at hl
  | cons a ls ih =>
    cases i with
    | zero =>
      simp only [List.getElem?_cons_zero, Option.some.injEq] at hl
      subst hl
      exact h.1
    | succ i => exact ih h.2 (by simpa using hl)

theorem Body.Denotes.prepared {B : Body ℝ} {b : Nat} {first : Bool} {s : Shape} {l : NetLayer} (h : B.Denotes b first s l)
    (hf : l.Fits s) (m : Nat) : (B.setBatchSize m).Prepared m := by
  match B, l, h with
  | .kernel K, .conv .., h =>
    exact ⟨by simp [Kernel.setBatchSize, emptyGrads], by simp [Kernel.setBatchSize, emptyGrads], ⟨_, _, _, _, h.1.weights⟩, _, _, h.1.biases⟩
  | .connected L, .full .., h =>
    exact ⟨h.1.initialized, by simp [Connected.setBatchSize, emptyGrads], by simp [Connected.setBatchSize, emptyGrads], ⟨_, _, _, _, h.1.weights⟩, _, _, h.1.biases⟩
  | .pooling P, .pool .., h =>
    refine ⟨?_, ?_, ?_⟩
    · show (Matrix.vecResize _ _ _).length = m
      simp only [Matrix.vecResize, List.length_append, List.length_take, List.length_replicate]
      omega
    · show 0 < P.stride.x
      rw [h.2.2.1]
      exact Int.natCast_pos.2 hf.sx0
    · show 0 < P.stride.y
      rw [h.2.2.1]
      exact Int.natCast_pos.2 hf.sy0
  | .activation A, .act _, h => trivial

theorem Model.Denotes.prepared {M : Model ℝ} {b : Nat} {s : Shape} {ls : List NetLayer} {n : Nat} (h : M.Denotes b s ls n)
    (hf : NetFits ls s) (m : Nat) : (M.setBatchSize m).Prepared m := by
  obtain ⟨g1, g2, L, S, g3, g4, _⟩ := h.get
  intro l hl
  obtain ⟨k, hk, rfl⟩ := List.mem_map.1 hl
  obtain ⟨i, hi⟩ := List.mem_iff_getElem?.1 hk
  have hlt : i < ls.length + 1 := by rw [← g1]; exact (List.getElem?_eq_some_iff.1 hi).1
  by_cases he : i = ls.length
  · subst he
    rw [g3] at hi
    obtain rfl := Option.some.inj hi
    simp only [g4]
    trivial
  · have hl : ls[i]? = some (ls[i]'(by omega)) := List.getElem?_eq_getElem (by omega)
    exact (g2 i k _ hi hl).prepared (hf.get hl) m

theorem descents_append (rate : ℝ) (s : Shape) (n : Nat) (a b : List (List (Tensor × Nat))) (ls : List NetLayer) :
    descents rate s n (a ++ b) ls = descents rate s n b (descents rate s n a ls) := by
  induction a generalizing ls with
  | nil => rfl
  | cons d a ih => exact ih _

theorem SmoothAlong.append {rate : ℝ} {s : Shape} {n : Nat} {a b : List (List (Tensor × Nat))} {ls : List NetLayer}
    (h : SmoothAlong rate s n (a ++ b) ls) : SmoothAlong rate s n a ls ∧ SmoothAlong rate s n b (descents rate s n a ls) := by
  induction a generalizing ls with
  | nil => exact ⟨trivial, h⟩
  | cons d a ih => exact ⟨⟨h.1, (ih h.2).1⟩, (ih h.2).2⟩

theorem Relabels.refl (d : List (Tensor × Nat)) : Relabels d d := ⟨rfl, fun e he => ⟨e, he, rfl⟩⟩

/-- Samples that have the inputs of some samples and labels of them. -/
theorem relabel {labels : List (List Char)} {s : Shape} {used xs : List (Sample ℝ)} {d : List (Tensor × Nat)}
    (h : List.Forall₂ (Sample.Is labels s) xs d) (h1 : used.map (·.data) = xs.map (·.data))
    (h2 : ∀ u ∈ used, ∃ y ∈ xs, u.label = y.label) : ∃ d', Relabels d d' ∧ List.Forall₂ (Sample.Is labels s) used d' := by
  have hlab : ∀ y ∈ xs, ∃ f ∈ d, labels[f.2]? = some y.label ∧ ∀ t < f.2, labels[t]? ≠ some y.label := by
    intro y hy
    obtain ⟨i, hi⟩ := List.mem_iff_getElem?.1 hy
    have hlt := (List.getElem?_eq_some_iff.1 hi).1
    have hlt' : i < d.length := h.length_eq ▸ hlt
    have := (List.forall₂_iff_get.1 h).2 i hlt hlt'
    rw [show xs.get ⟨i, hlt⟩ = y from (List.getElem?_eq_some_iff.1 hi).2] at this
    exact ⟨d.get ⟨i, hlt'⟩, List.get_mem _ _, this.label, this.first⟩
  suffices hs : ∀ (xs' : List (Sample ℝ)) (d' : List (Tensor × Nat)) (us : List (Sample ℝ)), List.Forall₂ (Sample.Is labels s) xs' d' →
      us.map (·.data) = xs'.map (·.data) → (∀ u ∈ us, ∃ y ∈ xs, u.label = y.label) →
      ∃ d'', d''.map Prod.fst = d'.map Prod.fst ∧ (∀ e ∈ d'', ∃ f ∈ d, e.2 = f.2) ∧ List.Forall₂ (Sample.Is labels s) us d'' by
    obtain ⟨d'', k1, k2, k3⟩ := hs xs d used h h1 h2
    exact ⟨d'', ⟨k1, k2⟩, k3⟩
  intro xs' d' us hf
  induction hf generalizing us with
  | nil =>
    intro he _
    obtain rfl : us = [] := by simpa using he
    exact ⟨[], rfl, by simp, .nil⟩
  | @cons x e xs' d' hx _ ih =>
    intro he hl
    cases us with
    | nil => simp at he
    | cons u us =>
      simp only [List.map_cons, List.cons.injEq] at he
      obtain ⟨d'', k1, k2, k3⟩ := ih us he.2 fun v hv => hl v (List.mem_cons_of_mem _ hv)
      obtain ⟨y, hy, hyl⟩ := hl u (by simp)
      obtain ⟨f, hf, q1, q2⟩ := hlab y hy
      refine ⟨(e.1, f.2) :: d'', by simp [k1], ?_, .cons ⟨by rw [he.1]; exact hx.data, by rw [hyl]; exact q1, by rw [hyl]; exact q2⟩ k3⟩
      intro e' he'
      rcases List.mem_cons.1 he' with rfl | he'
      · exact ⟨f, hf, rfl⟩
      · exact k2 e' he'

namespace Train

/-- A model that computes a network and is ready to be trained in batches of `B`. -/
structure Trainee (labels : List (List Char)) (s : Shape) (n B : Nat) (M : Model ℝ) (ls : List NetLayer) : Prop where
  prepared : M.Prepared B
  denotes : M.Denotes 0 s ls n
  fits : NetFits ls s
  trains : NetTrains true ls s
  labels : M.labels = labels

variable {E : Env ℝ} {p : Hyper ℝ} {B T : Nat} {labels : List (List Char)} {s : Shape} {n : Nat}

theorem mem_take_is {xs : List (Sample ℝ)} {d : List (Tensor × Nat)} (h : List.Forall₂ (Sample.Is labels s) xs d) {x : Sample ℝ}
    (hx : x ∈ xs) : ∃ e ∈ d, x.Is labels s e := by
  obtain ⟨i, hi⟩ := List.mem_iff_getElem?.1 hx
  have hlt := (List.getElem?_eq_some_iff.1 hi).1
  have hlt' : i < d.length := h.length_eq ▸ hlt
  have := (List.forall₂_iff_get.1 h).2 i hlt hlt'
  rw [show xs.get ⟨i, hlt⟩ = x from (List.getElem?_eq_some_iff.1 hi).2] at this
  exact ⟨d.get ⟨i, hlt'⟩, List.get_mem _ _, this⟩

theorem Trainee.alone (hE : E.Exact) {M : Model ℝ} {ls : List NetLayer} (h : Trainee labels s n B M ls) {xs : List (Sample ℝ)}
    {d : List (Tensor × Nat)} (hd : List.Forall₂ (Sample.Is labels s) xs d) :
    ∀ x ∈ xs, ∀ y ∈ xs, ∃ m, Cnn.alone E M ⟨x.data, y.label⟩ = .ok m := by
  intro x hx y hy
  obtain ⟨e, he, hxe⟩ := mem_take_is hd hx
  obtain ⟨f, hf, hyf⟩ := mem_take_is hd hy
  exact (alone_net hE h.denotes h.fits h.trains hxe.data (.surrogate ls s e.1) (label := y.label)
    (by rw [h.labels]; exact List.mem_of_getElem? hyf.label)).1

/-- The samples give gradients of the sizes of the parameters. -/
theorem Trainee.sizes (hE : E.Exact) {M : Model ℝ} {ls : List NetLayer} (h : Trainee labels s n B M ls) {xs : List (Sample ℝ)}
    {d : List (Tensor × Nat)} (hd : List.Forall₂ (Sample.Is labels s) xs d) :
    ∀ i W Bi, M.params i = some (W, Bi) → ∃ X Y Z F w, ∃ β : Nat → ℝ, W.Shows X Y Z w ∧ Bi.Shows F 1 1 (fun f _ _ => β f) ∧
      ∀ x ∈ xs, ∀ y ∈ xs, ∃ G H u v, Cnn.ownGrads E M ⟨x.data, y.label⟩ i = some (G, H) ∧ G.Reads X Y Z u ∧ H.Reads F 1 1 v := by
  intro i W Bi hpar
  obtain ⟨l, w, β, e1, e2⟩ := h.denotes.has_params hpar
  obtain ⟨W', Bi', e3, e4, e5⟩ := h.denotes.params e1 e2
  rw [hpar] at e3
  simp only [Option.some.injEq, Prod.mk.injEq] at e3
  obtain ⟨rfl, rfl⟩ := e3
  refine ⟨_, _, _, _, w, β, e4, e5, ?_⟩
  intro x hx y hy
  obtain ⟨e, he, hxe⟩ := mem_take_is hd hx
  obtain ⟨f, hf, hyf⟩ := mem_take_is hd hy
  obtain ⟨-, t, -, -, t3⟩ := alone_net hE h.denotes h.fits h.trains hxe.data (.surrogate ls s e.1) (label := y.label)
    (by rw [h.labels]; exact List.mem_of_getElem? hyf.label)
  obtain ⟨DW, DB, dw, db, q1, q2, q3, _⟩ := t3 i l e1 (by rw [e2]; simp)
  exact ⟨DW, DB, dw, _, q1, Matrix.Shows.reads q2, q3.reads⟩

/-- No schedule of a batch fails, and some schedule completes it. -/
theorem Trainee.progress (hE : E.Exact) (hp : p.batch = B) (hq : p.threads = T) (hB : B < 2 ^ 24) (hT0 : 0 < T) (hT : T < 2147483648)
    {sh : Shared ℝ} {ls : List NetLayer} (h : Trainee labels s n B sh.model ls) {d : List (Tensor × Nat)} (hl : d.length = B)
    (hd : List.Forall₂ (Sample.Is labels s) (sh.source.take B) d) :
    (∀ sched, ∃ o, runBatch E p sched sh = .ok o) ∧ ∃ sched q, runBatch E p sched sh = .ok (some q) := by
  refine runBatch_progress hp hq hB hT0 hT h.prepared (h.alone hE hd) (h.sizes hE hd) (Or.inl ?_)
  have := hd.length_eq
  rw [List.length_take] at this
  omega

/-- Some schedule completes it with the right labels. -/
theorem Trainee.own (hE : E.Exact) (hp : p.batch = B) (hq : p.threads = T) (hB : B < 2 ^ 24) (hT0 : 0 < T) (hT : T < 2147483648)
    {sh : Shared ℝ} {ls : List NetLayer} (h : Trainee labels s n B sh.model ls) {d : List (Tensor × Nat)} (hl : d.length = B)
    (hd : List.Forall₂ (Sample.Is labels s) (sh.source.take B) d) :
    ∃ sched q, runBatch E p sched sh = .ok (some q) ∧ OwnLabels sh.model q.2 := by
  refine runBatch_own hp hq hB hT0 hT h.prepared (h.alone hE hd) (h.sizes hE hd) (Or.inl ?_)
  have := hd.length_eq
  rw [List.length_take] at this
  omega

/-- One batch with the right labels. -/
theorem Trainee.step_own (hE : E.Exact) (hp : p.batch = B) (hq : p.threads = T) (hB : B < 2 ^ 24)
    {sh : Shared ℝ} {ls : List NetLayer} (h : Trainee labels s n B sh.model ls) {d : List (Tensor × Nat)} (hl : d.length = B)
    (hd : List.Forall₂ (Sample.Is labels s) (sh.source.take B) d) (hsm : ∀ e ∈ d, NetSmooth ls s e.1) {sched : List Nat}
    {q : Shared ℝ × List (Event ℝ)} (hr : runBatch E p sched sh = .ok (some q)) (hown : OwnLabels sh.model q.2) :
    Trainee labels s n B q.1.model (descend p.rate (meanLoss s n d) ls) ∧ HasPartials s (meanLoss s n d) ls ∧
      q.1.source = sh.source.drop B := by
  obtain ⟨M₁, m1, m2, _, _, _, _, _, m3⟩ := runBatch_end hp hq hB h.prepared hr
  have hlen := hd.length_eq
  have hfull : B ≤ sh.source.length := by rw [List.length_take] at hlen; omega
  have hu := C53_update_partial E p B T hp hq hB sh h.prepared hfull sched q hr hown
  have hlu : (sh.source.take B).length = B := by omega
  obtain ⟨k1, k2⟩ := descend_update hE h.denotes h.fits h.trains m1 m2 (by rw [h.labels]; exact hd) hsm
    (fun i W Bi X Y Z F w β a b c => by rw [hlu]; exact hu i W Bi X Y Z F w β a b c)
  have hsame := descend_same p.rate (meanLoss s n d) ls
  exact ⟨⟨(h.prepared.of_bare m1).applyBatch m2, k1, hsame.fits h.fits, hsame.trains h.trains,
    (Model.applyBatch_labels m2).trans ((bare_labels m1).trans h.labels)⟩, k2, m3⟩

/-- One batch under any schedule. -/
theorem Trainee.step_any (hE : E.Exact) (hp : p.batch = B) (hq : p.threads = T) (hB : B < 2 ^ 24)
    {sh : Shared ℝ} {ls : List NetLayer} (h : Trainee labels s n B sh.model ls) {d : List (Tensor × Nat)} (hl : d.length = B)
    (hd : List.Forall₂ (Sample.Is labels s) (sh.source.take B) d) (hsm : ∀ e ∈ d, NetSmooth ls s e.1) {sched : List Nat}
    {q : Shared ℝ × List (Event ℝ)} (hr : runBatch E p sched sh = .ok (some q)) :
    ∃ d', Relabels d d' ∧ Trainee labels s n B q.1.model (descend p.rate (meanLoss s n d') ls) ∧ HasPartials s (meanLoss s n d') ls ∧
      q.1.source = sh.source.drop B := by
  obtain ⟨M₁, m1, m2, _, _, _, _, _, m3⟩ := runBatch_end hp hq hB h.prepared hr
  have hlen := hd.length_eq
  have hfull : B ≤ sh.source.length := by rw [List.length_take] at hlen; omega
  obtain ⟨used, u1, u2, hu⟩ := C53_any_labels_partial E p B T hp hq hB sh h.prepared hfull (h.alone hE hd) sched q hr
  have hlu : used.length = B := by
    have := congrArg List.length u1
    rw [List.length_map, List.length_map] at this
    omega
  obtain ⟨d', r1, r2⟩ := relabel hd u1 u2
  have hsm' : ∀ e ∈ d', NetSmooth ls s e.1 := by
    intro e he
    have : e.1 ∈ d.map Prod.fst := by rw [← r1.1]; exact List.mem_map.2 ⟨e, he, rfl⟩
    obtain ⟨f, hf, hfe⟩ := List.mem_map.1 this
    rw [← hfe]; exact hsm f hf
  obtain ⟨k1, k2⟩ := descend_update hE h.denotes h.fits h.trains m1 m2 (by rw [h.labels]; exact r2) hsm'
    (fun i W Bi X Y Z F w β a b c => by rw [hlu]; exact hu i W Bi X Y Z F w β a b c)
  have hsame := descend_same p.rate (meanLoss s n d') ls
  exact ⟨d', r1, ⟨(h.prepared.of_bare m1).applyBatch m2, k1, hsame.fits h.fits, hsame.trains h.trains,
    (Model.applyBatch_labels m2).trans ((bare_labels m1).trans h.labels)⟩, k2, m3⟩

/-- With one thread all labels are right. -/
theorem own_one {α : Type} [Zero α] [One α] [Add α] [Sub α] [Mul α] [Div α] [Neg α] {E : Env α} {p : Hyper α} (hB : B < 2 ^ 24) (hp : p.batch = B) (hq : p.threads = (1 : Nat)) {sh : Shared α} {sched : List Nat}
    {q : Shared α × List (Event α)} (hr : runBatch E p sched sh = .ok (some q)) : OwnLabels sh.model q.2 := by
  obtain ⟨b, r, h1, h2, _, _, h3, _⟩ := runBatch_split hr
  rw [hp, hq] at h1
  rw [h3]
  exact C52_one_thread_partial E B (by omega) sh b h1 sched r h2

/-! ## Several batches -/

/-- A relation between the samples of a batch and the samples a step of the descent uses. -/
structure Steps (E : Env ℝ) (p : Hyper ℝ) (labels : List (List Char)) (s : Shape) (n B : Nat)
    (R : List (Tensor × Nat) → List (Tensor × Nat) → Prop) : Prop where
  refl : ∀ d, R d d
  inputs : ∀ d d', R d d' → d'.map Prod.fst = d.map Prod.fst
  progress : ∀ {sh : Shared ℝ} {ls : List NetLayer} {d : List (Tensor × Nat)}, Trainee labels s n B sh.model ls → d.length = B →
    List.Forall₂ (Sample.Is labels s) (sh.source.take B) d →
    (∀ sched, ∃ o, runBatch E p sched sh = .ok o) ∧ ∃ sched q, runBatch E p sched sh = .ok (some q)
  step : ∀ {sh : Shared ℝ} {ls : List NetLayer} {d : List (Tensor × Nat)}, Trainee labels s n B sh.model ls → d.length = B →
    List.Forall₂ (Sample.Is labels s) (sh.source.take B) d → (∀ e ∈ d, NetSmooth ls s e.1) →
    ∀ {sched : List Nat} {q : Shared ℝ × List (Event ℝ)}, runBatch E p sched sh = .ok (some q) →
    ∃ d', R d d' ∧ Trainee labels s n B q.1.model (descend p.rate (meanLoss s n d') ls) ∧ q.1.source = sh.source.drop B

theorem Steps.one (hE : E.Exact) (hp : p.batch = B) (hq : p.threads = (1 : Nat)) (hB : B < 2 ^ 24) : Steps E p labels s n B Eq where
  refl _ := rfl
  inputs _ _ h := by rw [h]
  progress h hl hd := h.progress hE hp hq hB (by omega) (by omega) hl hd
  step h hl hd hsm _ _ hr := by
    obtain ⟨k1, _, k3⟩ := h.step_own hE hp hq hB hl hd hsm hr (own_one hB hp hq hr)
    exact ⟨_, rfl, k1, k3⟩

theorem Steps.many (hE : E.Exact) (hp : p.batch = B) (hq : p.threads = T) (hB : B < 2 ^ 24) (hT0 : 0 < T) (hT : T < 2147483648) :
    Steps E p labels s n B Relabels where
  refl := Relabels.refl
  inputs _ _ h := h.1
  progress h hl hd := h.progress hE hp hq hB hT0 hT hl hd
  step h hl hd hsm _ _ hr := by
    obtain ⟨d', k0, k1, _, k3⟩ := h.step_any hE hp hq hB hl hd hsm hr
    exact ⟨d', k0, k1, k3⟩

variable {R : List (Tensor × Nat) → List (Tensor × Nat) → Prop}

/-- The descent is smooth for all samples that can be used. -/
def Smooth (R : List (Tensor × Nat) → List (Tensor × Nat) → Prop) (rate : ℝ) (s : Shape) (n : Nat) (ds : List (List (Tensor × Nat)))
    (ls : List NetLayer) : Prop := ∀ ds', List.Forall₂ R ds ds' → SmoothAlong rate s n ds' ls

theorem forall₂_self (hR : ∀ d, R d d) (ds : List (List (Tensor × Nat))) : List.Forall₂ R ds ds := by
  induction ds with
  | nil => exact .nil
  | cons d ds ih => exact .cons (hR d) ih

theorem Smooth.head {rate : ℝ} {d : List (Tensor × Nat)} {ds : List (List (Tensor × Nat))} {ls : List NetLayer} (hR : ∀ d, R d d)
    (h : Smooth R rate s n (d :: ds) ls) : ∀ e ∈ d, NetSmooth ls s e.1 := (h _ (forall₂_self hR _)).1

theorem Smooth.tail {rate : ℝ} {d d' : List (Tensor × Nat)} {ds : List (List (Tensor × Nat))} {ls : List NetLayer} (hd : R d d')
    (h : Smooth R rate s n (d :: ds) ls) : Smooth R rate s n ds (descend rate (meanLoss s n d') ls) :=
  fun ds' hds => (h (d' :: ds') (.cons hd hds)).2

theorem Smooth.left {rate : ℝ} {a b : List (List (Tensor × Nat))} {ls : List NetLayer} (hR : ∀ d, R d d)
    (h : Smooth R rate s n (a ++ b) ls) : Smooth R rate s n a ls :=
  fun a' ha => (h (a' ++ b) (List.rel_append ha (forall₂_self hR b))).append.1

theorem Smooth.right {rate : ℝ} {a a' b : List (List (Tensor × Nat))} {ls : List NetLayer} (ha : List.Forall₂ R a a')
    (h : Smooth R rate s n (a ++ b) ls) : Smooth R rate s n b (descents rate s n a' ls) :=
  fun b' hb => (h (a' ++ b') (List.rel_append ha hb)).append.2

theorem Steps.batches (hS : Steps E p labels s n B R) (ds : List (List (Tensor × Nat))) : ∀ {sh : Shared ℝ} {ls : List NetLayer},
    Trainee labels s n B sh.model ls → Serves labels s B sh.source ds → Smooth R p.rate s n ds ls →
    (∀ scheds : List (List Nat), scheds.length = ds.length → ∃ o, runBatches E p scheds sh = .ok o) ∧
    (∃ (scheds : List (List Nat)) (q : Shared ℝ × List (Event ℝ)), scheds.length = ds.length ∧ runBatches E p scheds sh = .ok (some q)) ∧
    ∀ (scheds : List (List Nat)) (q : Shared ℝ × List (Event ℝ)), scheds.length = ds.length → runBatches E p scheds sh = .ok (some q) →
      ∃ ds', List.Forall₂ R ds ds' ∧ Trainee labels s n B q.1.model (descents p.rate s n ds' ls) := by
  induction ds with
  | nil =>
    intro sh ls hM _ _
    refine ⟨?_, ⟨[], (sh, []), rfl, rfl⟩, ?_⟩
    · intro scheds hl
      obtain rfl : scheds = [] := List.eq_nil_of_length_eq_zero (by simpa using hl)
      exact ⟨_, rfl⟩
    · intro scheds q hl h
      obtain rfl : scheds = [] := List.eq_nil_of_length_eq_zero (by simpa using hl)
      obtain rfl := Option.some.inj (Res.ok.inj h)
      exact ⟨[], .nil, hM⟩
  | cons d ds ih =>
    intro sh ls hM hsrc hsm
    obtain ⟨s1, s2, s3⟩ := hsrc
    have hsm1 := hsm.head hS.refl
    obtain ⟨p1, p2⟩ := hS.progress hM s1 s2
    have hstep : ∀ sched q, runBatch E p sched sh = .ok (some q) → ∃ d', R d d' ∧
        Trainee labels s n B q.1.model (descend p.rate (meanLoss s n d') ls) ∧ Serves labels s B q.1.source ds ∧
        Smooth R p.rate s n ds (descend p.rate (meanLoss s n d') ls) := by
      intro sched q hr
      obtain ⟨d', k1, k2, k3⟩ := hS.step hM s1 s2 hsm1 hr
      exact ⟨d', k1, k2, by rw [k3]; exact s3, hsm.tail k1⟩
    refine ⟨?_, ?_, ?_⟩
    · intro scheds hl
      cases scheds with
      | nil => simp at hl
      | cons c cs =>
        obtain ⟨o, ho⟩ := p1 c
        cases o with
        | none => exact ⟨none, by simp only [runBatches, ho, Res.bind_ok]⟩
        | some q =>
          obtain ⟨d', k1, k2, k3, k4⟩ := hstep c q ho
          obtain ⟨o', ho'⟩ := (ih k2 k3 k4).1 cs (by simpa using hl)
          cases o' with
          | none => exact ⟨none, by simp only [runBatches, ho, ho', Res.bind_ok]⟩
          | some u => exact ⟨some (u.1, q.2 ++ u.2), by simp only [runBatches, ho, ho', Res.bind_ok]⟩
    · obtain ⟨c, q, hc⟩ := p2
      obtain ⟨d', k1, k2, k3, k4⟩ := hstep c q hc
      obtain ⟨cs, u, hl, hu⟩ := (ih k2 k3 k4).2.1
      exact ⟨c :: cs, (u.1, q.2 ++ u.2), by simp [hl], by simp only [runBatches, hc, hu, Res.bind_ok]⟩
    · intro scheds q hl h
      cases scheds with
      | nil => simp at hl
      | cons c cs =>
        simp only [runBatches] at h
        obtain ⟨o, e, h⟩ := Res.bind_eq_ok h
        cases o with
        | none => exact absurd h (by simp)
        | some r =>
          simp only at h
          obtain ⟨u, f, h⟩ := Res.bind_eq_ok h
          cases u with
          | none => exact absurd h (by simp)
          | some u =>
            obtain rfl := Option.some.inj (Res.ok.inj h)
            obtain ⟨d', k1, k2, k3, k4⟩ := hstep c r e
            obtain ⟨ds', j1, j2⟩ := (ih k2 k3 k4).2.2 cs u (by simpa using hl) f
            exact ⟨d' :: ds', .cons k1 j1, j2⟩

/-! ## Several epochs -/

theorem runEpoch_eq {α : Type} [Zero α] [One α] [Add α] [Sub α] [Mul α] [Div α] [Neg α] {E : Env α} {p : Hyper α} (hp : p.batch = B) (hq : p.threads = T) (hB : B < 2 ^ 24) (h0 : 0 < B) (hT0 : 0 < T) {size : Nat}
    (hsz : size < 2 ^ 24) (scheds : List (List Nat)) (sh : Shared α) :
    runEpoch E p size scheds sh = if scheds.length = (size + B - 1) / B then runBatches E p scheds { sh with hits := 0 } else .ok none := by
  unfold runEpoch
  rw [hp, hq, if_neg (by omega), workCount_eq B T hB hT0, Res.bind_ok, if_neg (by omega), numBatches_eq size B hsz h0, Res.bind_ok]
  rfl

/-- The loop over the epochs. -/
def epochLoop {α : Type} [Zero α] [One α] [Add α] [Sub α] [Mul α] [Div α] [Neg α] (E : Env α) (p : Hyper α) (size : Nat) (epochs : List (List (List Nat) × List (Sample α))) (M : Option (Model α)) :
    Res (Option (Model α)) :=
  epochs.foldlM (fun (M : Option (Model α)) e =>
    match M with
    | none => .ok none
    | some M => do
      let r ← runEpoch E p size e.1 ⟨M, e.2, 0⟩
      .ok (r.map fun q => q.1.model)) M

theorem train_eq {α : Type} [Zero α] [One α] [Add α] [Sub α] [Mul α] [Div α] [Neg α] {E : Env α} {p : Hyper α} (hb : 0 ≤ p.batch) {size : Nat} {epochs : List (List (List Nat) × List (Sample α))} {M : Model α} :
    train E p size epochs M =
      if epochs.length = p.epochs.toNat then epochLoop E p size epochs (some (M.setBatchSize (u64 p.batch))) else .ok none := by
  unfold train epochLoop
  rw [Model.room_nonneg hb, Res.bind_ok]
  congr 2

theorem epochLoop_none {α : Type} [Zero α] [One α] [Add α] [Sub α] [Mul α] [Div α] [Neg α] (E : Env α) (p : Hyper α) (size : Nat) (epochs : List (List (List Nat) × List (Sample α))) :
    epochLoop E p size epochs none = .ok none := by
  induction epochs with
  | nil => rfl
  | cons e es ih => simpa only [epochLoop, List.foldlM_cons, Res.bind_ok] using ih

theorem epochLoop_cons {α : Type} [Zero α] [One α] [Add α] [Sub α] [Mul α] [Div α] [Neg α] (E : Env α) (p : Hyper α) (size : Nat) (e : List (List Nat) × List (Sample α))
    (es : List (List (List Nat) × List (Sample α))) (M : Model α) :
    epochLoop E p size (e :: es) (some M) =
      (do let r ← runEpoch E p size e.1 ⟨M, e.2, 0⟩; epochLoop E p size es (r.map fun q => q.1.model)) := by
  simp only [epochLoop, List.foldlM_cons]
  cases runEpoch E p size e.1 ⟨M, e.2, 0⟩ <;> simp

theorem Steps.epochs (hS : Steps E p labels s n B R) (hp : p.batch = B) (hq : p.threads = T) (hB : B < 2 ^ 24) (h0 : 0 < B) (hT0 : 0 < T)
    {k : Nat} (hsz : B * k < 2 ^ 24) (dss : List (List (List (Tensor × Nat)))) : (∀ ds ∈ dss, ds.length = k) →
    ∀ {M : Model ℝ} {ls : List NetLayer}, Trainee labels s n B M ls → Smooth R p.rate s n dss.flatten ls →
    (∀ epochs : List (List (List Nat) × List (Sample ℝ)), List.Forall₂ (fun e ds => Serves labels s B e.2 ds) epochs dss →
      (∃ o, epochLoop E p (B * k) epochs (some M) = .ok o) ∧
      ∀ M', epochLoop E p (B * k) epochs (some M) = .ok (some M') →
        ∃ ds', List.Forall₂ R dss.flatten ds' ∧ Trainee labels s n B M' (descents p.rate s n ds' ls)) ∧
    ∀ srcs : List (List (Sample ℝ)), List.Forall₂ (Serves labels s B) srcs dss →
      ∃ (epochs : List (List (List Nat) × List (Sample ℝ))) (M' : Model ℝ), epochs.map Prod.snd = srcs ∧
        epochLoop E p (B * k) epochs (some M) = .ok (some M') := by
  have hnum : (B * k + B - 1) / B = k := by
    rw [show B * k + B - 1 = (B - 1) + B * k by omega, Nat.add_mul_div_left _ _ h0, Nat.div_eq_of_lt (by omega), Nat.zero_add]
  induction dss with
  | nil =>
    intro _ M ls hM _
    refine ⟨?_, ?_⟩
    · intro epochs he
      cases he
      refine ⟨⟨_, rfl⟩, ?_⟩
      intro M' h
      obtain rfl := Option.some.inj (Res.ok.inj h)
      exact ⟨[], .nil, hM⟩
    · intro srcs he
      cases he
      exact ⟨[], M, rfl, rfl⟩
  | cons ds dss ih =>
    intro hk M ls hM hsm
    rw [List.flatten_cons] at hsm
    have hds := hk ds (by simp)
    have hk' : ∀ ds ∈ dss, ds.length = k := fun d hd => hk d (List.mem_cons_of_mem _ hd)
    refine ⟨?_, ?_⟩
    · intro epochs he
      cases he with
      | @cons e _ es _ hse hes =>
        obtain ⟨b1, _, b3⟩ := hS.batches ds (sh := ⟨M, e.2, 0⟩) hM hse (hsm.left hS.refl)
        rw [epochLoop_cons, runEpoch_eq hp hq hB h0 hT0 hsz, hnum]
        by_cases hl : e.1.length = k
        · rw [if_pos hl]
          obtain ⟨o, ho⟩ := b1 e.1 (by omega)
          simp only [ho, Res.bind_ok]
          cases o with
          | none =>
            simp only [Option.map_none, epochLoop_none]
            exact ⟨⟨_, rfl⟩, fun M' h => absurd (Res.ok.inj h) (by simp)⟩
          | some q =>
            obtain ⟨ds', k1, k2⟩ := b3 e.1 q (by omega) ho
            simp only [Option.map_some]
            obtain ⟨i1, _⟩ := ih hk' k2 (hsm.right k1)
            obtain ⟨i2, i3⟩ := i1 es hes
            refine ⟨i2, ?_⟩
            intro M' h
            obtain ⟨dss', j1, j2⟩ := i3 M' h
            exact ⟨ds' ++ dss', by rw [List.flatten_cons]; exact List.rel_append k1 j1, by rw [descents_append]; exact j2⟩
        · rw [if_neg hl, Res.bind_ok]
          simp only [Option.map_none, epochLoop_none]
          exact ⟨⟨_, rfl⟩, fun M' h => absurd (Res.ok.inj h) (by simp)⟩
    · intro srcs he
      cases he with
      | @cons src _ srcs _ hse hes =>
        obtain ⟨_, b2, b3⟩ := hS.batches ds (sh := ⟨M, src, 0⟩) hM hse (hsm.left hS.refl)
        obtain ⟨scheds, q, hl, hq'⟩ := b2
        obtain ⟨ds', k1, k2⟩ := b3 scheds q hl hq'
        obtain ⟨_, i2⟩ := ih hk' k2 (hsm.right k1)
        obtain ⟨es, M', j1, j2⟩ := i2 srcs hes
        refine ⟨(scheds, src) :: es, M', by simp [j1], ?_⟩
        rw [epochLoop_cons, runEpoch_eq hp hq hB h0 hT0 hsz, hnum, if_pos (hl.trans hds)]
        simp only [hq', Res.bind_ok, Option.map_some, j2]

/-! ## Schedules with the right labels -/

theorem batches_own (hE : E.Exact) (hp : p.batch = B) (hq : p.threads = T) (hB : B < 2 ^ 24) (hT0 : 0 < T) (hT : T < 2147483648)
    (ds : List (List (Tensor × Nat))) : ∀ {sh : Shared ℝ} {ls : List NetLayer},
    Trainee labels s n B sh.model ls → Serves labels s B sh.source ds → SmoothAlong p.rate s n ds ls →
    ∃ (scheds : List (List Nat)) (q : Shared ℝ × List (Event ℝ)), scheds.length = ds.length ∧ runBatches E p scheds sh = .ok (some q) ∧
      Trainee labels s n B q.1.model (descents p.rate s n ds ls) := by
  induction ds with
  | nil =>
    intro sh ls hM _ _
    exact ⟨[], (sh, []), rfl, rfl, hM⟩
  | cons d ds ih =>
    intro sh ls hM hsrc hsm
    obtain ⟨s1, s2, s3⟩ := hsrc
    obtain ⟨c, q, hc, hown⟩ := hM.own hE hp hq hB hT0 hT s1 s2
    obtain ⟨k1, _, k2⟩ := hM.step_own hE hp hq hB s1 s2 hsm.1 hc hown
    obtain ⟨cs, u, hl, hu, hd⟩ := ih k1 (by rw [k2]; exact s3) hsm.2
    exact ⟨c :: cs, (u.1, q.2 ++ u.2), by simp [hl], by simp only [runBatches, hc, hu, Res.bind_ok], hd⟩

theorem epochs_own (hE : E.Exact) (hp : p.batch = B) (hq : p.threads = T) (hB : B < 2 ^ 24) (h0 : 0 < B) (hT0 : 0 < T) (hT : T < 2147483648)
    {k : Nat} (hsz : B * k < 2 ^ 24) (dss : List (List (List (Tensor × Nat)))) : (∀ ds ∈ dss, ds.length = k) →
    ∀ {M : Model ℝ} {ls : List NetLayer}, Trainee labels s n B M ls → SmoothAlong p.rate s n dss.flatten ls →
    ∀ srcs : List (List (Sample ℝ)), List.Forall₂ (Serves labels s B) srcs dss →
      ∃ (epochs : List (List (List Nat) × List (Sample ℝ))) (M' : Model ℝ), epochs.map Prod.snd = srcs ∧
        epochLoop E p (B * k) epochs (some M) = .ok (some M') ∧ Trainee labels s n B M' (descents p.rate s n dss.flatten ls) := by
  have hnum : (B * k + B - 1) / B = k := by
    rw [show B * k + B - 1 = (B - 1) + B * k by omega, Nat.add_mul_div_left _ _ h0, Nat.div_eq_of_lt (by omega), Nat.zero_add]
  induction dss with
  | nil =>
    intro _ M ls hM _ srcs he
    cases he
    exact ⟨[], M, rfl, rfl, hM⟩
  | cons ds dss ih =>
    intro hk M ls hM hsm srcs he
    rw [List.flatten_cons] at hsm
    cases he with
    | @cons src _ srcs _ hse hes =>
      obtain ⟨scheds, q, hl, hq', hT'⟩ := batches_own hE hp hq hB hT0 hT ds (sh := ⟨M, src, 0⟩) hM hse hsm.append.1
      obtain ⟨es, M', j1, j2, j3⟩ := ih (fun d hd => hk d (List.mem_cons_of_mem _ hd)) hT' hsm.append.2 srcs hes
      refine ⟨(scheds, src) :: es, M', by simp [j1], ?_, by rw [List.flatten_cons, descents_append]; exact j3⟩
      rw [epochLoop_cons, runEpoch_eq hp hq hB h0 hT0 hsz, hnum, if_pos (hl.trans (hk ds (by simp)))]
      simp only [hq', Res.bind_ok, Option.map_some, j2]

end Train
end Cnn
