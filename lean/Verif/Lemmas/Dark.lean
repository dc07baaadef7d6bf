import Verif.Lemmas.NaNRun
import Verif.Lemmas.SlotUpdate
import Verif.Spec.Dark
/-! Helper lemmas: a pixel that is 0 gives no gradient, in any arithmetic (C108). -/
set_option linter.unusedSectionVars false
namespace Cnn
variable {α : Type} {nan : α → Prop}

theorem Sample.Dark.flat [Zero α] {x : Sample α} {s : Shape} {a c e : Nat} (h : x.Dark s a c e) (ha : a < s.X) (hc : c < s.Y) :
    ∃ g, x.data.Shows s.X s.Y s.Z g ∧ flatOf s.X s.Y g (fl s.X s.Y a c e) = 0 := by
  obtain ⟨g, h1, h2⟩ := h
  refine ⟨g, h1, ?_⟩
  unfold flatOf
  rw [fl_mod ha, fl_div_mod ha hc, fl_div_div ha hc, h2]

section
variable [Zero α] [One α] [Add α] [Sub α] [Mul α] [Div α] [Neg α] {E : Env α} {rate : α} {B : Nat}

/-- Zero or NaN. -/
def Dead (nan : α → Prop) (a : α) : Prop := a = 0 ∨ nan a

theorem Dead.add (A : Absorbs E nan) (Z : ZeroKept E nan rate B) {a b : α} (ha : Dead nan a) (hb : Dead nan b) : Dead nan (a + b) := by
  rcases ha with rfl | ha
  · rcases hb with rfl | hb
    · exact Or.inl Z.add
    · exact Or.inr (A.add_right _ _ hb)
  · exact Or.inr (A.add_left _ _ ha)

theorem Dead.sumTo (A : Absorbs E nan) (Z : ZeroKept E nan rate B) {m : Nat} {t : Nat → α} (h : ∀ q < m, Dead nan (t q)) : Dead nan (sumTo m t) := by
  induction m with
  | zero => exact Or.inl rfl
  | succ m ih =>
    rw [sumTo_succ]
    exact Dead.add A Z (ih fun q hq => h q (by omega)) (h m (by omega))

theorem Dead.update (A : Absorbs E nan) (Z : ZeroKept E nan rate B) {w a : α} (h : Dead nan a) :
    w - rate * (a / E.num.ofNat B) = w ∨ nan (w - rate * (a / E.num.ofNat B)) := by
  rcases h with rfl | h
  · rw [Z.div, Z.rate]
    exact Or.inl (Z.sub w)
  · exact Or.inr (A.sub_right _ _ (A.mul_right _ _ (A.div_left _ _ h)))

theorem Dead.mul (A : Absorbs E nan) (Z : ZeroKept E nan rate B) (a : α) : Dead nan (Cnn.sumTo 1 (fun _ => a * 0)) :=
  Dead.sumTo A Z fun _ _ => Z.mul a

/-- The gradients of the first layer, fully connected, that one sample leaves. -/
theorem alone_dead (A : Absorbs E nan) (Z : ZeroKept E nan rate B) (hE : E.order = .dimsFirst) {M : Model α} {s : Shape} {n : Nat} {ks : List LayerKind}
    (hM : M.Runs s (.full n :: ks)) (hW : KindsWork true s (.full n :: ks)) {x : Sample α} (hx : x.Fits s M.labels) {a c e : Nat} (ha : a < s.X) (hc : c < s.Y)
    (he : e < s.Z) (hd : x.Dark s a c e) :
    ∃ m, alone E M x = .ok m ∧ ∀ G H f, m.stored 0 0 = some (G, H) → G.Reads n (s.X * s.Y * s.Z) 1 f → ∀ i < n, Dead nan (f i (fl s.X s.Y a c e) 0) := by
  obtain ⟨g, hg, hg0⟩ := hd.flat ha hc
  have h := Model.setBatchSize_shaped (B := 1) hM
  obtain ⟨A1, e1, s1⟩ := Matrix.ofExpr_shows hg.expr (id : α → α)
  obtain ⟨R1, e2, s2⟩ := Matrix.ofExpr_shows s1.expr E.toFloat
  obtain ⟨A0, rec0, e0, hA0, hR0⟩ := Model.forwardBegin_shaped (ks := LayerKind.full n :: ks) E hx.1
  have hrec : rec0[0]? = some R1 := by
    unfold Model.forwardBegin Model.record at e0
    rw [e1, Res.bind_ok, e2, Res.bind_ok] at e0
    obtain ⟨_, rfl⟩ := Prod.mk.inj (Res.ok.inj e0)
    rfl
  obtain ⟨st, e3, hA, hR, hS, hrd, hfirst⟩ := foldlM_range_inv
    (fun m (st : (Matrix α × List (Matrix α)) × Model α) => st.1.1.Has (shapeAt (LayerKind.full n :: ks) s m) ∧ Model.Records s (.full n :: ks) st.1.2 m ∧
      st.2.Shaped 1 s (.full n :: ks) M.labels ∧ Model.ReadyTo s (.full n :: ks) st.2 0 m ∧ st.1.2[0]? = some R1)
    ((LayerKind.full n :: ks).length + 1) (Model.forwardStep E 0) ((A0, rec0), M.setBatchSize 1) ⟨hA0, hR0, h, fun j _ _ hj => absurd hj (by omega), hrec⟩ (by
      rintro m hm ⟨⟨A2, rec⟩, M1⟩ ⟨h1, h2, h3, h4, h5⟩
      obtain ⟨A', rec', M', e, g1, g2, g3, g4, g5⟩ := Model.forwardStep_shaped E h3 hW Nat.one_pos hm h1 h2
      refine ⟨_, e, g1, g2, g3, g5 h4, ?_⟩
      unfold Model.forwardStep at e
      obtain ⟨r, _, e⟩ := Res.bind_eq_ok e
      obtain ⟨R, _, e⟩ := Res.bind_eq_ok e
      have e := Res.ok.inj e
      simp only [Prod.mk.injEq] at e
      obtain ⟨⟨_, rfl⟩, _⟩ := e
      dsimp only at h5 ⊢
      rw [List.getElem?_append_left (by
        have := (List.getElem?_eq_some_iff.1 h5).1
        exact this), h5])
  rw [shapeAt_end (Nat.le_succ _)] at hA
  have hl := hS.labelled
  obtain ⟨r, e4, hr, hi⟩ := Model.forwardEnd_has E st.2 hA (by rw [hl]; exact h.output) st.1.2
  have ef' : (M.setBatchSize 1).forwardPropagation E x.data 0 = .ok (r, st.2) := by
    unfold Model.forwardPropagation
    rw [e0, Res.bind_ok, h.count, e3, Res.bind_ok, e4, Res.bind_ok]
  have hRr : Model.Records s (.full n :: ks) r.inputs ((LayerKind.full n :: ks).length + 1) := by rw [hr]; exact hR
  have hfr : r.inputs[0]? = some R1 := by rw [hr]; exact hfirst
  obtain ⟨r', M1, eb, hin, hS1, hK1, hT1⟩ := Model.backwardBegin_shaped E hS hRr hx.2
  rw [← hin] at hRr hfr
  obtain ⟨X', eX, sX⟩ := Matrix.ofExpr_shows s2.expr (id : α → α)
  have hX0 : flatOf s.X s.Y (fun i j k => id (E.toFloat (id (g i j k)))) (fl s.X s.Y a c e) = 0 := by
    unfold flatOf at hg0 ⊢
    simp only [id]
    rw [hg0, Z.toFloat]
  obtain ⟨st1, e7, _, _, _, _, hdead⟩ := foldlM_reverse_inv
    (fun m (st : Matrix α × Model α) => st.2.Shaped 1 s (.full n :: ks) M.labels ∧ Model.ReadyTo s (.full n :: ks) st.2 0 ((LayerKind.full n :: ks).length + 1) ∧
      (0 < m → m ≤ (LayerKind.full n :: ks).length → st.1.Has (shapeAt (LayerKind.full n :: ks) s m)) ∧ Model.Told (.full n :: ks) st.2 ∧
      (m = 0 → ∀ G H f, st.2.stored 0 0 = some (G, H) → G.Reads n (s.X * s.Y * s.Z) 1 f → ∀ i < n, Dead nan (f i (fl s.X s.Y a c e) 0)))
    ((LayerKind.full n :: ks).length + 1) (Model.backwardStep E r' 0) (Matrix.empty, M1)
    ⟨hS1, hK1.ready 0 _ hrd, fun _ h => absurd h (by omega), hT1, fun h => absurd h (by omega)⟩ (by
      rintro m hm ⟨d, M2⟩ ⟨k1, k2, k3, k4, _⟩
      obtain ⟨d2, M3, e9, w1, w2, w3, _⟩ := Model.backwardStep_shaped E hE k1 hW Nat.one_pos hm hRr (d := d) (fun h => k3 (by omega) (by omega)) k2 k4
      refine ⟨_, e9, w2, w3.ready 0 _ k2, fun h0 _ => w1 h0, w3.told k4, ?_⟩
      rintro rfl G H f hst hf i hi
      -- the last step is that of the first layer
      obtain ⟨L, k', hL, hbody, hk'⟩ := k1.get (show 0 < (LayerKind.full n :: ks).length by simp)
      obtain rfl : LayerKind.full n = k' := by simpa using hk'
      have hs0 := k1.layers 0 _ _ hbody hk'
      have hsh : shapeAt (LayerKind.full n :: ks) s 0 = s := rfl
      have hD := k3 Nat.one_pos (by simp)
      rw [shapeAt_succ hk'] at hD
      match hB : L.body, hs0 with
      | .connected C, hs0 =>
        obtain ⟨hI, l1, l2⟩ := hs0
        have hini := k2 0 _ _ (by simp) hbody hk'
        rw [hB] at hini
        obtain ⟨w, β, hC, _⟩ := hI.resolve_right (by rintro ⟨h, _⟩; have hini : C.initialized = true := hini; rw [hini] at h; exact absurd h (by simp))
        obtain ⟨δ, hδ⟩ := hD.col
        obtain ⟨gw, e10, hw⟩ := Connected.getdLdW_shows sX hδ hC.weights.good
        unfold Model.backwardStep at e9
        obtain ⟨Xr, q1, e9⟩ := Res.bind_eq_ok e9
        unfold Model.recordAt at q1
        rw [hfr] at q1
        obtain rfl := Res.ok.inj q1
        obtain ⟨Zr, _, e9⟩ := Res.bind_eq_ok e9
        obtain ⟨L', q3, e9⟩ := Res.bind_eq_ok e9
        dsimp only at q3
        rw [hL] at q3
        obtain rfl : L = L' := Res.ok.inj q3
        rw [eX, Res.bind_ok] at e9
        obtain ⟨Z', _, e9⟩ := Res.bind_eq_ok e9
        obtain ⟨q, q5, e9⟩ := Res.bind_eq_ok e9
        obtain ⟨rfl, rfl⟩ := Prod.mk.inj (Res.ok.inj e9)
        rw [hB, hE] at q5
        unfold Body.backward at q5
        dsimp only at q5
        unfold Connected.backward at q5
        rw [e10, Res.bind_ok] at q5
        have e3 : setSlot C.wGrads 0 gw = .ok (C.wGrads.set 0 gw) := if_pos (by omega)
        have e4 : setSlot C.bGrads 0 d = .ok (C.bGrads.set 0 d) := if_pos (by omega)
        rw [e3, Res.bind_ok, e4, Res.bind_ok] at q5
        obtain ⟨q', q6, q5⟩ := Res.bind_eq_ok q5
        obtain ⟨R, _, q6⟩ := Res.bind_eq_ok q6
        obtain rfl := Res.ok.inj q6
        obtain rfl := Res.ok.inj q5
        rw [Model.stored_bodyAt, Model.setBody_bodyAt, if_pos rfl, hbody] at hst
        simp only [Body.stored, List.getElem?_set, if_true, l1, l2, Nat.one_pos, Option.bind_some, Option.map_some, Option.some.injEq, Prod.mk.injEq] at hst
        obtain ⟨rfl, rfl⟩ := hst
        have hk := fl_lt (Z := s.Z) ha hc he
        have h1 := hf.entry i hi _ hk 0 Nat.one_pos
        rw [hw.entry i hi _ hk 0 Nat.one_pos] at h1
        rw [← Res.ok.inj h1, hX0]
        exact Dead.mul A Z _)
  refine ⟨st1.2, ?_, hdead rfl⟩
  unfold alone
  rw [ef', Res.bind_ok]
  unfold Model.backwardsPropagation
  rw [eb, Res.bind_ok, hS.count, e7]
  rfl

/-- Column `k` of the stored gradients of the first layer is dead in all slots. -/
def DeadSlots (nan : α → Prop) (B n K k : Nat) (M : Model α) : Prop :=
  ∀ b < B, ∀ G H f, M.stored 0 b = some (G, H) → G.Reads n K 1 f → ∀ i < n, Dead nan (f i k 0)

omit [Zero α] [One α] [Add α] [Sub α] [Mul α] [Div α] [Neg α] in
theorem KeptColumn.trans {n K k : Nat} {M M' M'' : Model α} (hk : k < K) (hstay : ∀ i < n, ∀ W Bi W' Bi' w w', M'.params 0 = some (W, Bi) →
    M''.params 0 = some (W', Bi') → W.Shows n K 1 w → W'.Shows n K 1 w' → nan (w i k 0) → nan (w' i k 0))
    (h : KeptColumn nan n K k M M') (h' : KeptColumn nan n K k M' M'') : KeptColumn nan n K k M M'' := by
  obtain ⟨W, Bi, W', Bi', w, w', e1, e2, s1, s2, hw⟩ := h
  obtain ⟨_, _, W'', Bi'', v, v', e3, e4, s3, s4, hv⟩ := h'
  refine ⟨W, Bi, W'', Bi'', w, v', e1, e4, s1, s4, fun i hi => ?_⟩
  have e5 := e3
  rw [e2] at e3
  obtain ⟨rfl, rfl⟩ := Prod.mk.inj (Option.some.inj e3)
  have hvw : v i k 0 = w' i k 0 := by
    have h1 := s3.entry i hi k hk 0 Nat.one_pos
    rw [s2.entry i hi k hk 0 Nat.one_pos] at h1
    exact (Res.ok.inj h1).symm
  rcases hw i hi with h1 | h1
  · rcases hv i hi with h2 | h2
    · exact Or.inl (by rw [h2, hvw, h1])
    · exact Or.inr h2
  · exact Or.inr (hstay i hi _ _ _ _ v v' e5 e4 s3 s4 (by rw [hvw]; exact h1))

namespace Train
open Model
variable {p : Hyper α} {T : Nat} {s : Shape} {n : Nat} {ks : List LayerKind} {labels : List (List Char)}

/-- NaNs of the first layer stay, as a statement about one column. -/
theorem NaNsStay.column {M M' : Model α} {K k : Nat} (hk : k < K) (h : NaNsStay nan (.full n :: ks) M M') :
    ∀ i < n, ∀ W Bi W' Bi' w w', M.params 0 = some (W, Bi) → M'.params 0 = some (W', Bi') → W.Shows n K 1 w → W'.Shows n K 1 w' → nan (w i k 0) → nan (w' i k 0) := by
  intro i hi W Bi W' Bi' w w' e1 e2 s1 s2 hn
  obtain ⟨_, _, _, _, e3, e4, hs, _⟩ := h 0 _ rfl rfl
  rw [e1] at e3
  rw [e2] at e4
  obtain ⟨rfl, rfl⟩ := Prod.mk.inj (Option.some.inj e3)
  obtain ⟨rfl, rfl⟩ := Prod.mk.inj (Option.some.inj e4)
  obtain ⟨X, Y, Z, u, u', s3, s4, hu⟩ := hs
  obtain ⟨rfl, rfl, rfl⟩ := s1.shape s3
  have h1 := s1.entry i hi k hk 0 Nat.one_pos
  rw [s3.entry i hi k hk 0 Nat.one_pos] at h1
  have h2 := s2.entry i hi k hk 0 Nat.one_pos
  rw [s4.entry i hi k hk 0 Nat.one_pos] at h2
  rw [← Res.ok.inj h2]
  exact hu i hi k hk 0 Nat.one_pos (by rw [Res.ok.inj h1]; exact hn)

theorem KeptColumn.refl {k : Nat} {M : Model α} (h : M.Shaped B s (.full n :: ks) labels) (hu : M.Used) : KeptColumn nan n (s.X * s.Y * s.Z) k M M := by
  obtain ⟨W, Bi, g1, ⟨w, hw⟩, _⟩ := h.params hu (i := 0) rfl rfl
  exact ⟨W, Bi, W, Bi, w, w, g1, g1, hw, hw, fun _ _ => Or.inl rfl⟩

theorem runBatch_dead (A : Absorbs E nan) (Z : ZeroKept E nan p.rate B) (hE : E.order = .dimsFirst) (hW : KindsWork true s (.full n :: ks)) (hp : p.batch = B)
    (hq : p.threads = T) (h0 : 0 < B) (hB : B < 2 ^ 24) (hT0 : 0 < T) (hT : T < 2147483648) {sh : Shared α} (h : Between B s (.full n :: ks) labels sh)
    (hu : sh.model.Used) {a c e : Nat} (ha : a < s.X) (hc : c < s.Y) (he : e < s.Z) (hd : ∀ x ∈ sh.source, x.Dark s a c e)
    (hs : DeadSlots nan B n (s.X * s.Y * s.Z) (fl s.X s.Y a c e) sh.model ∨ B ≤ sh.source.length) {sched : List Nat}
    {q : Shared α × List (Event α)} (hr : runBatch E p sched sh = .ok (some q)) :
    DeadSlots nan B n (s.X * s.Y * s.Z) (fl s.X s.Y a c e) q.1.model ∧ KeptColumn nan n (s.X * s.Y * s.Z) (fl s.X s.Y a c e) sh.model q.1.model ∧
      q.1.source = sh.source.drop B := by
  have hPrep := h.model.prepared hW hu
  have hst := startBatch_eq B T hB hT0 hT sh
  obtain ⟨_, hslot, _⟩ := runBatch_contents hp hq hB hPrep hr
  have hr' := hr
  obtain ⟨s0, r, es, er, ho, hM', hev, hsrc⟩ := runBatch_split hr
  rw [hp, hq] at es
  obtain ⟨e1, e3, e4, e5, e6, e7, e8⟩ := run_end hB hPrep.ready es er ho
  have hlab := h.model.labelled
  have hRuns := h.model.runs
  have hfit : ∀ x ∈ sh.source.take B, x.Fits s sh.model.labels := by
    intro x hx
    rw [hlab]
    exact h.source x (List.mem_of_mem_take hx)
  obtain ⟨U, hU⟩ := run_used hB hPrep es er ho (by
    intro x hx y hy
    exact alone_shaped hE hRuns hW ⟨(hfit x hx).1, (hfit y hy).2⟩)
  have hdead : DeadSlots nan B n (s.X * s.Y * s.Z) (fl s.X s.Y a c e) q.1.model := by
    intro b hb G H f hst hf
    by_cases hex : ∃ t x, (t, b, x) ∈ fetches r.2
    · obtain ⟨t, x, hx⟩ := hex
      obtain ⟨u1, u2, u3, y, hy, u4⟩ := hU _ hx
      have hxm : x ∈ sh.source.take B := by rw [← e7]; exact List.mem_map.2 ⟨_, hx, rfl⟩
      obtain ⟨m, em, hm⟩ := alone_dead A Z hE hRuns hW (x := U (t, b, x)) ⟨by rw [u3]; exact (hfit _ hxm).1, by rw [u4]; exact (hfit y hy).2⟩ ha hc he (by
        obtain ⟨g, g1, g2⟩ := hd x (List.mem_of_mem_take hxm)
        exact ⟨g, by rw [u3]; exact g1, g2⟩)
      rw [Model.applyBatch_stored hM', ← u2 0] at hst
      unfold ownGrads at hst
      rw [em] at hst
      exact hm G H f hst hf
    · rcases hs with hs | hl
      · rw [hslot b (by rw [hev]; exact fun t x hx => hex ⟨t, x, hx⟩) 0] at hst
        exact hs b hb G H f hst hf
      · exfalso
        rw [Nat.min_eq_left hl] at e6
        have hsub : (fetches r.2).map (fun e => e.2.1) ⊆ List.range B := by
          intro c hc
          obtain ⟨⟨t, c, x⟩, m, rfl⟩ := List.mem_map.1 hc
          exact List.mem_range.2 (e3 t c x m).1
        have hpm : (fetches r.2).map (fun e => e.2.1) |>.Perm (List.range B) :=
          (List.subperm_of_subset e5 hsub).perm_of_length_le (by simp [e6])
        obtain ⟨⟨t, b', x⟩, m, rfl⟩ := List.mem_map.1 (hpm.mem_iff.2 (List.mem_range.2 hb))
        exact hex ⟨t, x, m⟩
  refine ⟨hdead, ?_, hsrc.trans e8⟩
  obtain ⟨W, Bi, g1, h1, h2⟩ := h.model.params hu (i := 0) rfl rfl
  obtain ⟨w, hw⟩ := h1
  obtain ⟨β, hβ⟩ := h2.col
  obtain ⟨gw, gb, W', B', k1, k2, k3, _⟩ := runBatch_entries hp hq hB hPrep hr' g1 hw hβ
  refine ⟨W, Bi, W', B', w, _, g1, k2, hw, k3, fun i hi => ?_⟩
  refine Dead.update A Z (Dead.sumTo A Z fun b hb => ?_)
  obtain ⟨G, H, m1, m2, _⟩ := k1 b hb
  exact hdead b hb G H _ m1 m2 i hi

theorem runBatches_dead (A : Absorbs E nan) (Z : ZeroKept E nan p.rate B) (hE : E.order = .dimsFirst) (hW : KindsWork true s (.full n :: ks)) (hp : p.batch = B)
    (hq : p.threads = T) (h0 : 0 < B) (hB : B < 2 ^ 24) (hT0 : 0 < T) (hT : T < 2147483648) {a c e : Nat} (ha : a < s.X) (hc : c < s.Y) (he : e < s.Z)
    (scheds : List (List Nat)) : ∀ {sh : Shared α}, Between B s (.full n :: ks) labels sh → sh.model.Used → (∀ x ∈ sh.source, x.Dark s a c e) →
    (DeadSlots nan B n (s.X * s.Y * s.Z) (fl s.X s.Y a c e) sh.model ∨ B ≤ sh.source.length) → ∀ {q : Shared α × List (Event α)},
    runBatches E p scheds sh = .ok (some q) → KeptColumn nan n (s.X * s.Y * s.Z) (fl s.X s.Y a c e) sh.model q.1.model ∧
      (scheds ≠ [] → DeadSlots nan B n (s.X * s.Y * s.Z) (fl s.X s.Y a c e) q.1.model) := by
  induction scheds with
  | nil =>
    intro sh h hu _ _ q hq
    obtain rfl := Option.some.inj (Res.ok.inj hq)
    exact ⟨KeptColumn.refl h.model hu, fun h => absurd rfl h⟩
  | cons c' cs ih =>
    intro sh h hu hd hs q hq'
    obtain ⟨o, eo, ho⟩ := runBatch_shaped hE hW hp hq h0 hB hT0 hT h c'
    unfold runBatches at hq'
    rw [eo, Res.bind_ok] at hq'
    cases o with
    | none => exact absurd (Res.ok.inj hq') (by simp)
    | some r =>
      obtain ⟨h1, h2, h3⟩ := ho r rfl
      obtain ⟨b1, b2, b3⟩ := runBatch_dead A Z hE hW hp hq h0 hB hT0 hT h hu ha hc he hd hs eo
      dsimp only at hq'
      obtain ⟨o', e', hq'⟩ := Res.bind_eq_ok hq'
      cases o' with
      | none => exact absurd (Res.ok.inj hq') (by simp)
      | some q1 =>
        obtain rfl := Option.some.inj (Res.ok.inj hq')
        have hbe : Between B s (.full n :: ks) labels r.1 := ⟨h1, h3, Or.inl h2⟩
        have hu1 := Full.used h0 h1 h2
        obtain ⟨c1, c2⟩ := ih hbe hu1 (fun x hx => hd x (List.mem_of_mem_drop (by rw [← b3]; exact hx))) (Or.inl b1) e'
        obtain ⟨n1, _⟩ := runBatches_nan A hE hW hp hq h0 hB hT0 hT cs hbe hu1 e'
        refine ⟨KeptColumn.trans (fl_lt ha hc he) (n1.column (fl_lt ha hc he)) b2 c1, fun _ => ?_⟩
        cases cs with
        | nil =>
          obtain rfl := Option.some.inj (Res.ok.inj e')
          exact b1
        | cons _ _ => exact c2 (by simp)

theorem epochs_dead (A : Absorbs E nan) (Z : ZeroKept E nan p.rate B) (hE : E.order = .dimsFirst) (hW : KindsWork true s (.full n :: ks)) (hp : p.batch = B)
    (hq : p.threads = T) (h0 : 0 < B) (hB : B < 2 ^ 24) (hT0 : 0 < T) (hT : T < 2147483648) {a c e : Nat} (ha : a < s.X) (hc : c < s.Y) (he : e < s.Z)
    {size : Nat} (hs0 : 0 < size) (hsz : size < 2 ^ 24) (epochs : List (List (List Nat) × List (Sample α))) :
    ∀ {M M' : Model α}, M.Shaped B s (.full n :: ks) labels → M.Used → (∀ e ∈ epochs, ∀ x ∈ e.2, x.Fits s labels) →
    (∀ ep ∈ epochs, ∀ x ∈ ep.2, x.Dark s a c e) →
    (Full B s (.full n :: ks) M ∧ DeadSlots nan B n (s.X * s.Y * s.Z) (fl s.X s.Y a c e) M ∨ ∀ e ∈ epochs.head?, B ≤ e.2.length) →
    epochs.foldlM (epochStep E p size) (some M) = .ok (some M') → KeptColumn nan n (s.X * s.Y * s.Z) (fl s.X s.Y a c e) M M' := by
  induction epochs with
  | nil =>
    intro M M' h hu _ _ _ hM'
    obtain rfl := Option.some.inj (Res.ok.inj hM')
    exact KeptColumn.refl h hu
  | cons ep es ih =>
    intro M M' h hu hx hd hf hM'
    have hb : Between B s (.full n :: ks) labels (⟨M, ep.2, 0⟩ : Shared α) := ⟨h, hx ep (by simp), hf.imp And.left (fun h => h ep (by simp))⟩
    obtain ⟨o, eo, ho⟩ := runEpoch_shaped hE hW hp hq h0 hB hT0 hT hs0 hsz ep.1 hb
    have hall := hM'
    rw [List.foldlM_cons] at hM'
    unfold epochStep at hM'
    dsimp only at hM'
    rw [eo, Res.bind_ok, Res.bind_ok] at hM'
    cases o with
    | none =>
      have := train_none E p size es
      unfold epochStep at this
      rw [Option.map_none, this] at hM'
      exact absurd (Res.ok.inj hM') (by simp)
    | some r =>
      rw [runEpoch_if hp hq h0 hB hT0 hsz] at eo
      by_cases hl : ep.1.length = (size + B - 1) / B
      · rw [if_pos hl] at eo
        have hne : ep.1 ≠ [] := by
          intro hnil
          have := ceilDiv_pos hs0 h0
          rw [hnil] at hl
          simp at hl
          omega
        obtain ⟨b1, b2⟩ := runBatches_dead A Z hE hW hp hq h0 hB hT0 hT ha hc he ep.1 (sh := ⟨M, ep.2, 0⟩) hb hu (hd ep (by simp))
          (hf.imp And.right (fun h => h ep (by simp))) eo
        obtain ⟨h1, h2⟩ := ho r rfl
        have hu1 := Full.used h0 h1 h2
        have hx1 : ∀ e ∈ es, ∀ x ∈ e.2, x.Fits s labels := fun e he => hx e (by simp [he])
        have c1 := ih h1 hu1 hx1 (fun e he => hd e (by simp [he])) (Or.inl ⟨h2, b2 hne⟩) hM'
        obtain ⟨n1, _⟩ := epochs_nan A hE hW hp hq h0 hB hT0 hT hs0 hsz es h1 hu1 hx1 (Or.inl h2) hM'
        exact KeptColumn.trans (fl_lt ha hc he) (n1.column (fl_lt ha hc he)) b1 c1
      · rw [if_neg hl] at eo
        exact absurd (Res.ok.inj eo) (by simp)

end Train

end
end Cnn
