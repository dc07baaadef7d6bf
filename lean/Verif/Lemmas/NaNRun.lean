import Verif.Lemmas.NaNPass
import Verif.Spec.Accuracy
import Verif.Lemmas.ShapeRun
/-! Helper lemmas: NaNs in a batch and in a whole training (C97). -/
set_option linter.unusedSectionVars false
namespace Cnn
variable {α : Type} {nan : α → Prop}

namespace Model
variable {B : Nat} {s : Shape} {ks : List LayerKind} {labels : List (List Char)} {M : Model α}

theorem bodyAt_mem {i : Nat} {b : Body α} (h : M.bodyAt i = some b) : ∃ l ∈ M.layers, l.body = b := by
  unfold bodyAt at h
  obtain ⟨l, hl, rfl⟩ := Option.map_eq_some_iff.1 h
  exact ⟨l, List.mem_of_getElem? hl, rfl⟩

theorem mem_bodyAt {l : Layer α} (h : l ∈ M.layers) : ∃ i, i < M.layers.length ∧ M.bodyAt i = some l.body := by
  obtain ⟨i, hi⟩ := List.mem_iff_getElem?.1 h
  exact ⟨i, (List.getElem?_eq_some_iff.1 hi).1, by unfold bodyAt; rw [hi]; rfl⟩

theorem Full.used (hB : 0 < B) (h : M.Shaped B s ks labels) (hf : Full B s ks M) : M.Used := by
  rintro l hl L rfl'
  obtain ⟨i, hi, hb⟩ := mem_bodyAt hl
  rw [rfl'] at hb
  rw [h.count] at hi
  rcases Nat.lt_or_ge i ks.length with hlt | hge
  · obtain ⟨_, k, _, _, hk⟩ := h.get hlt
    exact (hf 0 hB).1 i _ k (by omega) hb hk
  · obtain rfl : i = ks.length := by omega
    obtain ⟨S, hS, _⟩ := h.last
    rw [hb] at hS
    simp at hS

theorem Shaped.prepared (h : M.Shaped B s ks labels) (hW : KindsWork true s ks) (hu : M.Used) : M.Prepared B := by
  intro l hl
  obtain ⟨i, hi, hb⟩ := mem_bodyAt hl
  rw [h.count] at hi
  rcases Nat.lt_or_ge i ks.length with hlt | hge
  · obtain ⟨_, k, _, _, hk⟩ := h.get hlt
    have hs := h.layers i _ k hb hk
    have hw := hW.at hk
    cases hbody : l.body with
    | kernel K =>
      rw [hbody] at hs
      cases k with
      | conv p q C F =>
        obtain ⟨⟨w, β, hK⟩, h1, h2⟩ := hs
        exact ⟨h1, h2, ⟨_, _, _, _, hK.weights⟩, _, _, hK.biases⟩
      | _ => exact hs.elim
    | pooling P =>
      rw [hbody] at hs
      cases k with
      | pool t px py sx sy =>
        obtain ⟨⟨_, _, h1⟩, h2⟩ := hs
        have hw : PoolFits _ _ px py sx sy := hw
        refine ⟨h2, ?_, ?_⟩
        · rw [h1]; have := hw.sx0; show (0 : Int) < (sx : Int); omega
        · rw [h1]; have := hw.sy0; show (0 : Int) < (sy : Int); omega
      | _ => exact hs.elim
    | connected L =>
      rw [hbody] at hs
      have hinit := hu l hl L hbody
      cases k with
      | full n =>
        obtain ⟨h0, h1, h2⟩ := hs
        obtain ⟨w, β, hL, _⟩ := h0.resolve_right (by rintro ⟨h, _⟩; rw [hinit] at h; exact absurd h (by simp))
        exact ⟨hinit, h1, h2, ⟨_, _, _, _, hL.weights⟩, _, _, hL.biases⟩
      | _ => exact hs.elim
    | activation _ => trivial
    | softmax _ => trivial
  · obtain rfl : i = ks.length := by omega
    obtain ⟨S, hS, _⟩ := h.last
    rw [hb] at hS
    rw [Option.some.inj hS]
    trivial

theorem Shaped.params (h : M.Shaped B s ks labels) (hu : M.Used) {i : Nat} {k : LayerKind} (hk : ks[i]? = some k) (hl : k.learns = true) :
    ∃ W Bi, M.params i = some (W, Bi) ∧ W.Has (k.wShape (shapeAt ks s i)) ∧ Bi.Has ⟨k.bSize, 1, 1⟩ := by
  obtain ⟨L, k', _, hbody, hk'⟩ := h.get (List.getElem?_eq_some_iff.1 hk).1
  rw [hk] at hk'
  obtain rfl := Option.some.inj hk'
  obtain ⟨l, hl', hlb⟩ := bodyAt_mem hbody
  obtain ⟨W, Bi, e, h1, h2⟩ := (h.layers i _ k hbody hk).params hl (fun C hC => hu l hl' C (hlb.trans hC))
  exact ⟨W, Bi, by rw [params_bodyAt, hbody]; exact e, h1, h2⟩

end Model

/-- A sample can be propagated in both directions. -/
theorem alone_shaped [Zero α] [One α] [Add α] [Sub α] [Mul α] [Div α] [Neg α] {E : Env α} (hE : E.order = .dimsFirst) {M : Model α} {s : Shape} {ks : List LayerKind} (hM : M.Runs s ks)
    (hW : KindsWork true s ks) {x : Sample α} (hx : x.Fits s M.labels) : ∃ m, alone E M x = .ok m := by
  have h := Model.setBatchSize_shaped (B := 1) hM
  obtain ⟨A0, rec0, e0, hA0, hR0⟩ := Model.forwardBegin_shaped (ks := ks) E hx.1
  obtain ⟨st, e1, hA, hR, hS, hrd⟩ := foldlM_range_inv
    (fun n (st : (Matrix α × List (Matrix α)) × Model α) => st.1.1.Has (shapeAt ks s n) ∧ Model.Records s ks st.1.2 n ∧ st.2.Shaped 1 s ks M.labels ∧
      Model.ReadyTo s ks st.2 0 n)
    (ks.length + 1) (Model.forwardStep E 0) ((A0, rec0), M.setBatchSize 1) ⟨hA0, hR0, h, fun j _ _ hj => absurd hj (by omega)⟩ (by
      rintro n hn ⟨⟨A, rec⟩, M1⟩ ⟨h1, h2, h3, h4⟩
      obtain ⟨A', rec', M', e, g1, g2, g3, g4, g5⟩ := Model.forwardStep_shaped E h3 hW Nat.one_pos hn h1 h2
      exact ⟨_, e, g1, g2, g3, g5 h4⟩)
  rw [shapeAt_end (Nat.le_succ _)] at hA
  have hl := hS.labelled
  obtain ⟨r, e2, hr, hi⟩ := Model.forwardEnd_has E st.2 hA (by rw [hl]; exact h.output) st.1.2
  have ef' : (M.setBatchSize 1).forwardPropagation E x.data 0 = .ok (r, st.2) := by
    unfold Model.forwardPropagation
    rw [e0, Res.bind_ok, h.count, e1, Res.bind_ok, e2, Res.bind_ok]
  have hRr : Model.Records s ks r.inputs (ks.length + 1) := by rw [hr]; exact hR
  obtain ⟨r', M1, eb, hin, hS1, hK1, hT1⟩ := Model.backwardBegin_shaped E hS hRr hx.2
  rw [← hin] at hRr
  obtain ⟨st1, e7, _⟩ := foldlM_reverse_inv
    (fun n (st : Matrix α × Model α) => st.2.Shaped 1 s ks M.labels ∧ Model.ReadyTo s ks st.2 0 (ks.length + 1) ∧
      (0 < n → n ≤ ks.length → st.1.Has (shapeAt ks s n)) ∧ Model.Told ks st.2) (ks.length + 1) (Model.backwardStep E r' 0) (Matrix.empty, M1)
    ⟨hS1, hK1.ready 0 _ hrd, fun _ h => absurd h (by omega), hT1⟩ (by
      rintro n hn ⟨d, M2⟩ ⟨k1, k2, k3, k4⟩
      obtain ⟨d2, M3, e9, w1, w2, w3, _⟩ := Model.backwardStep_shaped E hE k1 hW Nat.one_pos hn hRr (d := d) (fun h => k3 (by omega) (by omega)) k2 k4
      exact ⟨_, e9, w2, w3.ready 0 _ k2, fun h0 _ => w1 h0, w3.told k4⟩)
  refine ⟨st1.2, ?_⟩
  unfold alone
  rw [ef', Res.bind_ok]
  unfold Model.backwardsPropagation
  rw [eb, Res.bind_ok, hS.count, e7]
  rfl

section
variable [Zero α] [One α] [Add α] [Sub α] [Mul α] [Div α] [Neg α] {E : Env α} (A : Absorbs E nan)
include A

/-- The update of the model. -/
theorem Model.applyBatch_nan {lr : α} {B : Nat} {s : Shape} {ks : List LayerKind} {labels : List (List Char)} {M M' : Model α} (h : M.Shaped B s ks labels)
    (hf : Full B s ks M) (hP : M.Prepared B) (hu : M.Used) (hM' : M.applyBatch E.num lr = .ok M') {i : Nat} {k : LayerKind} (hk : ks[i]? = some k)
    (hl : k.learns = true) : ∃ W Bi W' Bi', M.params i = some (W, Bi) ∧ M'.params i = some (W', Bi') ∧ W.StillNaN nan W' ∧ Bi.StillNaN nan Bi' ∧
      ∀ t, (∃ b < B, ∀ G H, M.stored i b = some (G, H) → SpoiltPair nan t (shapeAt ks s i) G H k) → SpoiltPair nan t (shapeAt ks s i) W' Bi' k := by
  obtain ⟨W, Bi, e1, h1, h2⟩ := h.params hu hk hl
  obtain ⟨gs, ⟨W', Bi'⟩, e2, e3, e4⟩ := Model.applyBatch_params hP hM' e1
  have hmem : ∀ g ∈ gs, ∃ b < B, M.stored i b = some g := by
    intro g hg
    have : some g ∈ (List.range B).map (M.stored i ·) := by rw [e2]; exact List.mem_map.2 ⟨g, hg, rfl⟩
    obtain ⟨b, hb, e⟩ := List.mem_map.1 this
    exact ⟨b, List.mem_range.1 hb, e⟩
  obtain ⟨L, k', _, hbody, hk'⟩ := h.get (List.getElem?_eq_some_iff.1 hk).1
  obtain ⟨s1, s2, s3⟩ := applyGrads_nan A h1 h2 (gs := gs) (by
    intro g hg
    obtain ⟨b, hb, e⟩ := hmem g hg
    rw [Model.stored_bodyAt, hbody] at e
    exact ((hf b hb).2 i _ k (Nat.zero_le _) hbody hk).stored (h.layers i _ k hbody hk) e) e3
  refine ⟨W, Bi, W', Bi', e1, e4, s1, s2, ?_⟩
  rintro t ⟨b, hb, hsp⟩
  apply s3 t
  have : M.stored i b ∈ gs.map some := by rw [← e2]; exact List.mem_map.2 ⟨b, List.mem_range.2 hb, rfl⟩
  obtain ⟨g, hg, e⟩ := List.mem_map.1 this
  exact ⟨g, hg, hsp _ _ e.symm⟩

namespace Train
open Model
variable {p : Hyper α} {T B : Nat} {s : Shape} {ks : List LayerKind} {labels : List (List Char)}

/-- The parameters of the learning layers in the second model: NaN where they were NaN in the first. -/
def NaNsStay (nan : α → Prop) (ks : List LayerKind) (M M' : Model α) : Prop :=
  ∀ i k, ks[i]? = some k → k.learns = true → ∃ W Bi W' Bi', M.params i = some (W, Bi) ∧ M'.params i = some (W', Bi') ∧ W.StillNaN nan W' ∧ Bi.StillNaN nan Bi'

/-- All layers that learn are ruined. -/
def AllRuined (nan : α → Prop) (s : Shape) (ks : List LayerKind) (M : Model α) : Prop :=
  ∀ i k, ks[i]? = some k → k.learns = true → ∃ W Bi, M.params i = some (W, Bi) ∧ Ruined nan (shapeAt ks s i) (ks.drop (i + 1)) W Bi k

omit A [Zero α] [One α] [Add α] [Sub α] [Mul α] [Div α] [Neg α] in
theorem NaNsStay.refl {M : Model α} (h : M.Shaped B s ks labels) (hu : M.Used) : NaNsStay nan ks M M := by
  intro i k hk hl
  obtain ⟨W, Bi, e, h1, h2⟩ := h.params hu hk hl
  exact ⟨W, Bi, W, Bi, e, e, .refl h1, .refl h2⟩

omit A [Zero α] [One α] [Add α] [Sub α] [Mul α] [Div α] [Neg α] in
theorem NaNsStay.trans {M M' M'' : Model α} (h : NaNsStay nan ks M M') (h' : NaNsStay nan ks M' M'') : NaNsStay nan ks M M'' := by
  intro i k hk hl
  obtain ⟨W, Bi, W', Bi', e1, e2, s1, s2⟩ := h i k hk hl
  obtain ⟨_, _, W'', Bi'', e3, e4, s3, s4⟩ := h' i k hk hl
  rw [e2] at e3
  obtain ⟨rfl, rfl⟩ := Prod.mk.inj (Option.some.inj e3)
  exact ⟨W, Bi, W'', Bi'', e1, e4, s1.trans s3, s2.trans s4⟩

omit A [Zero α] [One α] [Add α] [Sub α] [Mul α] [Div α] [Neg α] in
theorem AllRuined.stay {M M' : Model α} (h : AllRuined nan s ks M) (h' : NaNsStay nan ks M M') : AllRuined nan s ks M' := by
  intro i k hk hl
  obtain ⟨W, Bi, e1, hr⟩ := h i k hk hl
  obtain ⟨_, _, W', Bi', e2, e3, s1, s2⟩ := h' i k hk hl
  rw [e1] at e2
  obtain ⟨rfl, rfl⟩ := Prod.mk.inj (Option.some.inj e2)
  exact ⟨W', Bi', e3, hr.still s1 s2⟩

theorem runBatch_nan (hE : E.order = .dimsFirst) (hW : KindsWork true s ks) (hp : p.batch = B) (hq : p.threads = T) (h0 : 0 < B) (hB : B < 2 ^ 24)
    (hT0 : 0 < T) (hT : T < 2147483648) {sh : Shared α} (h : Between B s ks labels sh) (hu : sh.model.Used) {sched : List Nat}
    {q : Shared α × List (Event α)} (hr : runBatch E p sched sh = .ok (some q)) :
    NaNsStay nan ks sh.model q.1.model ∧
      ((∃ x ∈ sh.source.take B, (sh.model.setBatchSize 1).AnswersNaN nan E x.data 0) → AllRuined nan s ks q.1.model) := by
  have hPrep := h.model.prepared hW hu
  have hst := startBatch_eq B T hB hT0 hT sh
  obtain ⟨r, er, hS⟩ := (SInv.init (T := T) h).run hE hW sched
  have hI : BInv T B (share B T) sh.source r.1 r.2 := by
    have := (Inv.init T (fun t => t * share B T) (fun t => min ((t + 1) * share B T) B) sh).run er
    simpa using this
  rw [List.nil_append] at hS
  obtain ⟨s0, r0, es, er0, ho, hM', _, _⟩ := runBatch_split hr
  rw [hp, hq, hst] at es
  obtain rfl := Res.ok.inj es
  rw [er] at er0
  obtain rfl := Res.ok.inj er0
  have hfull := batch_full hT0 h hI hS ho
  have hu1 := Full.used h0 hS.model hfull
  have hP1 := hS.model.prepared hW hu1
  obtain ⟨e1, e3, e4, e5, e6, e7, e8⟩ := run_end hB hPrep.ready hst er ho
  have hlab := h.model.labelled
  have hRuns := h.model.runs
  have hfit : ∀ x ∈ sh.source.take B, x.Fits s sh.model.labels := by
    intro x hx
    rw [hlab]
    exact h.source x (List.mem_of_mem_take hx)
  obtain ⟨U, hU⟩ := run_used hB hPrep hst er ho (by
    intro x hx y hy
    exact alone_shaped hE hRuns hW ⟨(hfit x hx).1, (hfit y hy).2⟩)
  refine ⟨fun i k hk hl => ?_, fun hx i k hk hl => ?_⟩
  · obtain ⟨W, Bi, W', Bi', g1, g2, g3, g4, _⟩ := Model.applyBatch_nan A hS.model hfull hP1 hu1 hM' hk hl
    exact ⟨W, Bi, W', Bi', by rw [← Model.bare_params e1]; exact g1, g2, g3, g4⟩
  · obtain ⟨W, Bi, W', Bi', g1, g2, g3, g4, g5⟩ := Model.applyBatch_nan A hS.model hfull hP1 hu1 hM' hk hl
    refine ⟨W', Bi', g2, SpoiltPair.ruined (g5 _ ?_)⟩
    obtain ⟨x, hx, hn⟩ := hx
    rw [← e7] at hx
    obtain ⟨e, he, rfl⟩ := List.mem_map.1 hx
    obtain ⟨u1, u2, u3, y, hy, u4⟩ := hU e he
    obtain ⟨m, em, hm⟩ := alone_nan A hE hRuns hW (x := U e) ⟨by rw [u3]; exact (hfit _ (by rw [← e7]; exact List.mem_map.2 ⟨e, he, rfl⟩)).1, by
      rw [u4]; exact (hfit y hy).2⟩ (by rw [u3]; exact hn)
    refine ⟨e.2.1, u1, fun G H hGH => ?_⟩
    rw [← u2 i] at hGH
    unfold ownGrads at hGH
    rw [em] at hGH
    exact hm i k G H hk hGH

theorem runBatches_nan (hE : E.order = .dimsFirst) (hW : KindsWork true s ks) (hp : p.batch = B) (hq : p.threads = T) (h0 : 0 < B) (hB : B < 2 ^ 24)
    (hT0 : 0 < T) (hT : T < 2147483648) (scheds : List (List Nat)) : ∀ {sh : Shared α}, Between B s ks labels sh → sh.model.Used →
    ∀ {q : Shared α × List (Event α)}, runBatches E p scheds sh = .ok (some q) → NaNsStay nan ks sh.model q.1.model ∧
      (scheds ≠ [] → (∃ x ∈ sh.source.take B, (sh.model.setBatchSize 1).AnswersNaN nan E x.data 0) → AllRuined nan s ks q.1.model) := by
  induction scheds with
  | nil =>
    intro sh h hu q hq
    obtain rfl := Option.some.inj (Res.ok.inj hq)
    exact ⟨.refl h.model hu, fun h => absurd rfl h⟩
  | cons c cs ih =>
    intro sh h hu q hq'
    obtain ⟨o, e, ho⟩ := runBatch_shaped hE hW hp hq h0 hB hT0 hT h c
    unfold runBatches at hq'
    rw [e, Res.bind_ok] at hq'
    cases o with
    | none => exact absurd (Res.ok.inj hq') (by simp)
    | some r =>
      obtain ⟨h1, h2, h3⟩ := ho r rfl
      obtain ⟨b1, b2⟩ := runBatch_nan A hE hW hp hq h0 hB hT0 hT h hu e
      dsimp only at hq'
      obtain ⟨o', e', hq'⟩ := Res.bind_eq_ok hq'
      cases o' with
      | none => exact absurd (Res.ok.inj hq') (by simp)
      | some q1 =>
        obtain rfl := Option.some.inj (Res.ok.inj hq')
        obtain ⟨c1, _⟩ := ih (sh := r.1) ⟨h1, h3, Or.inl h2⟩ (Full.used h0 h1 h2) e'
        exact ⟨b1.trans c1, fun _ hx => (b2 hx).stay c1⟩

theorem epochs_nan (hE : E.order = .dimsFirst) (hW : KindsWork true s ks) (hp : p.batch = B) (hq : p.threads = T) (h0 : 0 < B) (hB : B < 2 ^ 24)
    (hT0 : 0 < T) (hT : T < 2147483648) {size : Nat} (hs0 : 0 < size) (hsz : size < 2 ^ 24) (epochs : List (List (List Nat) × List (Sample α))) :
    ∀ {M M' : Model α}, M.Shaped B s ks labels → M.Used → (∀ e ∈ epochs, ∀ x ∈ e.2, x.Fits s labels) → (Full B s ks M ∨ ∀ e ∈ epochs.head?, B ≤ e.2.length) →
    epochs.foldlM (epochStep E p size) (some M) = .ok (some M') → NaNsStay nan ks M M' ∧
      ∀ e, epochs.head? = some e → (∃ x ∈ e.2.take B, (M.setBatchSize 1).AnswersNaN nan E x.data 0) → AllRuined nan s ks M' := by
  induction epochs with
  | nil =>
    intro M M' h hu _ _ hM'
    obtain rfl := Option.some.inj (Res.ok.inj hM')
    exact ⟨.refl h hu, by simp⟩
  | cons e es ih =>
    intro M M' h hu hx hf hM'
    have hb : Between B s ks labels (⟨M, e.2, 0⟩ : Shared α) := ⟨h, hx e (by simp), hf.imp id (fun h => h e (by simp))⟩
    obtain ⟨o, eo, ho⟩ := runEpoch_shaped hE hW hp hq h0 hB hT0 hT hs0 hsz e.1 hb
    rw [List.foldlM_cons] at hM'
    unfold epochStep at hM'
    dsimp only at hM'
    rw [eo, Res.bind_ok, Res.bind_ok] at hM'
    cases o with
    | none =>
      have := train_none E p size es
      unfold epochStep at this
      rw [Option.map_none, this] at hM'
      exact absurd (Res.ok.inj hM') (by simp)
    | some r =>
      rw [runEpoch_if hp hq h0 hB hT0 hsz] at eo
      by_cases hl : e.1.length = (size + B - 1) / B
      · rw [if_pos hl] at eo
        obtain ⟨b1, b2⟩ := runBatches_nan A hE hW hp hq h0 hB hT0 hT e.1 (sh := ⟨M, e.2, 0⟩) hb hu eo
        obtain ⟨h1, h2⟩ := ho r rfl
        obtain ⟨c1, _⟩ := ih h1 (Full.used h0 h1 h2) (fun e he => hx e (by simp [he])) (Or.inl h2) hM'
        refine ⟨b1.trans c1, fun e' he' hx' => ?_⟩
        obtain rfl : e = e' := by simpa using he'
        refine (b2 ?_ hx').stay c1
        intro hnil
        have := ceilDiv_pos hs0 h0
        rw [hnil] at hl
        simp at hl
        omega
      · rw [if_neg hl] at eo
        exact absurd (Res.ok.inj eo) (by simp)

end Train

omit A in
theorem Model.forwardStep_model {b i : Nat} {st st' : (Matrix α × List (Matrix α)) × Model α} (h : forwardStep E b st i = .ok st') :
    ∃ body', st'.2 = st.2.setBody i body' := by
  unfold forwardStep at h
  obtain ⟨q, e, h⟩ := Res.bind_eq_ok h
  obtain ⟨R, _, h⟩ := Res.bind_eq_ok h
  obtain rfl := Res.ok.inj h
  unfold forwardLayer at e
  obtain ⟨L, _, e⟩ := Res.bind_eq_ok e
  obtain ⟨Y, _, e⟩ := Res.bind_eq_ok e
  obtain rfl := Res.ok.inj e
  exact ⟨_, rfl⟩

/-- A layer with a NaN among its parameters puts a NaN out. -/
theorem Body.forward_hurt {draws : Nat → α} {X : Matrix α} {s : Shape} (hX : X.Has s) {first : Bool} {k : LayerKind} (hk : k.Works first s) {B b : Nat}
    {body : Body α} (h : body.Shaped B first s k) {W Bi : Matrix α} (hp : body.params = some (W, Bi)) (hu : ∀ L, body = .connected L → L.initialized = true)
    (hn : W.Hurt nan (k.wShape s) ∨ Bi.Hurt nan ⟨k.bSize, 1, 1⟩) : ∃ Y body', body.forward E.num draws X b = .ok (Y, body') ∧ Y.Hurt nan (k.out s) := by
  match body, k, h with
  | .kernel K, .conv p q C F, ⟨⟨w, β, hK⟩, h1, h2⟩ =>
    obtain ⟨_, hZ, hf, _⟩ := hk
    obtain ⟨x, hX⟩ := hX
    rw [hZ] at hX
    obtain ⟨rfl, rfl⟩ := Prod.mk.inj (Option.some.inj hp)
    obtain ⟨out, e, ho⟩ := Kernel.forward_nan A hK hX hf (by
      rcases hn with ⟨f, hf, i, hi, j, hj, k, hk, hn⟩ | ⟨f, hf, i, hi, j, hj, k, hk, hn⟩
      · exact Or.inl ⟨i, hi, j, hj, k, hk, by rw [← hf.same hK.weights hi hj hk]; exact hn⟩
      · refine Or.inr ⟨i, hi, ?_⟩
        have := hf.same hK.biases hi hj hk
        rw [← this]
        exact hn)
    refine ⟨out, .kernel K, ?_, ho⟩
    unfold forward; dsimp only
    rw [e]; rfl
  | .connected L, .full n, ⟨h0, _, _⟩ =>
    have hinit : L.initialized = true := hu L rfl
    obtain ⟨w, β, hL, hi⟩ := h0.resolve_right (by rintro ⟨h, _⟩; rw [hinit] at h; exact absurd h (by simp))
    obtain ⟨x, hX⟩ := hX
    obtain ⟨rfl, rfl⟩ := Prod.mk.inj (Option.some.inj hp)
    obtain ⟨out, e, ho⟩ := Connected.forward_nan A (draws := draws) hL hX (by
      rcases hn with ⟨f, hf, i, hi, j, hj, k, hk, hn⟩ | ⟨f, hf, i, hi, j, hj, k, hk, hn⟩
      · refine Or.inl ⟨i, hi, j, hj, ?_⟩
        have := hf.same hL.weights hi hj hk
        rw [← this]
        exact hn
      · refine Or.inr ⟨i, hi, ?_⟩
        have := hf.same hL.biases hi hj hk
        rw [← this]
        exact hn)
    refine ⟨out, .connected L, ?_, ho⟩
    unfold forward; dsimp only
    rw [e]; rfl
  | .pooling _, .pool .., _ => simp [Body.params] at hp
  | .activation _, .act _, _ => simp [Body.params] at hp

/-- A NaN in the last layer before the output makes every answer NaN. -/
theorem Model.forward_useless {B : Nat} {s : Shape} {ks : List LayerKind} {labels : List (List Char)} {M : Model α} (h : M.Shaped B s ks labels)
    (hW : KindsWork true s ks) {j : Nat} (hj : ks.length = j + 1) {k : LayerKind} (hk : ks[j]? = some k) {W Bi : Matrix α} (hp : M.params j = some (W, Bi))
    (hu : M.Used) (hn : W.Hurt nan (k.wShape (shapeAt ks s j)) ∨ Bi.Hurt nan ⟨k.bSize, 1, 1⟩) {b : Nat} (hb : b < B) {X : Matrix α} (hX : X.Has s) :
    M.Useless nan E X b := by
  obtain ⟨A0, rec0, e0, hA0, hR0⟩ := forwardBegin_shaped (ks := ks) E hX
  obtain ⟨st, e1, hA, hR, hS, _, _, hlast⟩ := foldlM_range_inv
    (fun n (st : (Matrix α × List (Matrix α)) × Model α) => st.1.1.Has (shapeAt ks s n) ∧ Records s ks st.1.2 n ∧ st.2.Shaped B s ks labels ∧
      (n ≤ j → st.2.bodyAt j = M.bodyAt j) ∧ (n = j + 1 → st.1.1.Hurt nan (shapeAt ks s (j + 1))) ∧
      (n = j + 2 → st.1.1.Lost nan (shapeAt ks s (j + 1)) ∧ ∃ P, st.1.2.getLast? = some P ∧ P.Lost nan (shapeAt ks s (j + 1))))
    (ks.length + 1) (forwardStep E b) ((A0, rec0), M) ⟨hA0, hR0, h, fun _ => rfl, fun h => absurd h (by omega), fun h => absurd h (by omega)⟩ (by
      rintro n hn' ⟨⟨A1, rec⟩, M1⟩ ⟨h1, h2, h3, h4, h5, h6⟩
      obtain ⟨A', rec', M', e, g1, g2, g3, _⟩ := forwardStep_shaped E h3 hW hb hn' h1 h2
      obtain ⟨body', hb'⟩ := forwardStep_model e
      refine ⟨_, e, g1, g2, g3, fun hle => ?_, fun heq => ?_, fun heq => ?_⟩
      · dsimp only at hb' h4 ⊢
        rw [hb', setBody_bodyAt, if_neg (by omega)]
        exact h4 (by omega)
      · obtain rfl : n = j := by omega
        obtain ⟨L, k', hL, hbody, hk'⟩ := h3.get (show n < ks.length by omega)
        rw [hk] at hk'
        obtain rfl := Option.some.inj hk'
        have h4 := h4 (le_refl _)
        dsimp only at h4
        rw [params_bodyAt, ← h4, hbody] at hp
        rw [h4] at hbody
        obtain ⟨l, hl, hlb⟩ := bodyAt_mem hbody
        obtain ⟨Y, body2, ef, hY⟩ := Body.forward_hurt A (draws := E.draws n) h1 (by simpa using hW.at hk) (b := b) (h.layers n _ k hbody hk) hp
          (fun C hC => hu l hl C (hlb.trans hC)) hn
        unfold forwardStep forwardLayer record at e
        dsimp only at e
        rw [hL] at e
        change (((Res.ok L >>= fun l => _) >>= fun r => _ : Res _)) = _ at e
        rw [Res.bind_ok, ef, Res.bind_ok, Res.bind_ok] at e
        obtain ⟨R, _, e⟩ := Res.bind_eq_ok e
        have := Res.ok.inj e
        simp only [Prod.mk.injEq] at this
        obtain ⟨⟨rfl, _⟩, _⟩ := this
        rw [shapeAt_succ hk]
        exact hY
      · obtain rfl : n = ks.length := by omega
        obtain ⟨L, S, hL, hbody, hLS, hc⟩ := h3.getLast
        have hs : shapeAt ks s (j + 1) = ⟨S.count, 1, 1⟩ ∨ shapeAt ks s (j + 1) = ⟨1, S.count, 1⟩ := by
          rw [shapeAt_end (by omega), hc]; exact h.output
        obtain ⟨Y, ef, hY⟩ := Softmax.forward_nan A (h5 hj) hs
        obtain ⟨R, er, hR⟩ := Matrix.ofExpr_lost hY (c := E.toFloat) (fun a h => A.toFloat a h)
        unfold forwardStep forwardLayer record at e
        dsimp only at e
        rw [hL] at e
        change (((Res.ok L >>= fun l => _) >>= fun r => _ : Res _)) = _ at e
        rw [Res.bind_ok, hLS] at e
        change (((Softmax.forward E.num S A1 >>= fun Y => Res.ok (Y, Body.softmax S)) >>= fun r => _) >>= fun r => _ : Res _) = _ at e
        rw [ef, Res.bind_ok, Res.bind_ok, Res.bind_ok, er, Res.bind_ok] at e
        have := Res.ok.inj e
        simp only [Prod.mk.injEq] at this
        obtain ⟨⟨rfl, rfl⟩, _⟩ := this
        exact ⟨hY, R, by simp, hR⟩)
  obtain ⟨hl, P, eP, hP⟩ := hlast (by omega)
  have hlab := hS.labelled
  have hs : shapeAt ks s (j + 1) = ⟨labels.length, 1, 1⟩ ∨ shapeAt ks s (j + 1) = ⟨1, labels.length, 1⟩ := by
    rw [shapeAt_end (by omega)]; exact h.output
  obtain ⟨c, e2, hc⟩ := Model.forwardEnd_nan A st.2 hl (by rw [hlab]; exact hs) st.1.2
  obtain ⟨v, hv, hnv⟩ := hP.vec hs
  refine ⟨⟨none, 0, none, -1, c, st.1.2⟩, st.2, P, v, ?_, rfl, hc, eP, by rw [h.labelled]; exact hv, by rw [h.labelled]; exact hnv⟩
  unfold forwardPropagation
  rw [e0, Res.bind_ok, h.count, e1, Res.bind_ok, e2, Res.bind_ok]

end

theorem setBatchSize_params (M : Model α) (n i : Nat) : (M.setBatchSize n).params i = M.params i := by
  unfold Model.params Model.setBatchSize
  simp only [List.getElem?_map]
  cases M.layers[i]? with
  | none => rfl
  | some l => obtain ⟨_, b⟩ := l; cases b <;> rfl

theorem setBatchSize_used {M : Model α} (h : M.Used) (n : Nat) : (M.setBatchSize n).Used := by
  intro l hl L hL
  obtain ⟨⟨nm, b⟩, hl', rfl⟩ := List.mem_map.1 hl
  cases b with
  | connected C =>
    have := h _ hl' C rfl
    obtain rfl : C.setBatchSize n = L := by simpa [Body.setBatchSize] using hL
    exact this
  | _ => simp [Body.setBatchSize] at hL

end Cnn
