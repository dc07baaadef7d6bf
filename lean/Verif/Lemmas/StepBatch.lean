import Verif.Lemmas.StepRounding
/-! Helper lemmas: a batch in rounded arithmetic (C99). -/
namespace Cnn
open Finset Model Train

variable {α : Type} [Zero α] [One α] [Add α] [Sub α] [Mul α] [Div α] [Neg α] {E : Env α} {p : Precision} {F : Floating E.num p} {q : Conversion}

/-- A sample on its own. -/
theorem alone_near (hp : p.Ok) (hE : E.Rounds F q) {M : Model α} {b : Nat} {s : Shape} {ls : List NetLayer} {n : Nat} (hM : M.Carries F b s ls n)
    (hfit : NetFits ls s) (htr : NetTrains true ls s) (hn : (n : ℝ) + 1 ≤ p.Ω) (hs : p.sumErr n ≤ 1 / 2) {ε : ℝ} {u : Sample α} {d : Datum}
    (hu : u.Near F M.labels s d) (hd : d.Passes p q ls s n ε) :
    (∃ m, alone E M u = .ok m) ∧ NetPlain ls ∧ NetShapes s ls ∧ d.label < n ∧
      ∀ (i : Nat) (l : NetLayer), ls[i]? = some l → l.params ≠ none → ∃ DW DB, ownGrads E M u i = some (DW, DB) ∧
        DW.Near F (l.weightShape (netOut (ls.take i) s)) (netWeightGrad n d.label i ls s d.x) (netWeightErr p q n d.label ε i ls s d.x d.err) ∧
        DB.Near F ⟨l.biasCount, 1, 1⟩ (fun f _ _ => netBiasGrad n d.label i ls s d.x f) (fun f _ _ => netBiasErr p q n d.label ε i ls s d.x d.err f) := by
  obtain ⟨d1, d2, d3, d4⟩ := hd
  have hM' : (M.setBatchSize 1).Carries F 0 s ls n := hM.setBatchSize (by omega)
  have hidx : ∀ t, M.labels[t]? = some u.label → (∀ t' < t, M.labels[t']? ≠ some u.label) → t = d.label := by
    intro t h1 h2
    rcases Nat.lt_trichotomy t d.label with hlt | he | hlt
    · exact absurd h1 (hu.first t hlt)
    · exact he
    · exact absurd hu.label (h2 _ hlt)
  have hlt : d.label < n := by
    rw [← hM.1.labels]
    exact (List.getElem?_eq_some_iff.1 hu.label).1
  -- the label that is found is the first one
  obtain ⟨r, M₁, t, r', M₂, h1, h2, h3, h4, h5, h6, h7, h8⟩ := model_backs hp hE hM'.1 hM'.2 hfit hu.data d1 d2 d3 hn hs htr
    (label := u.label) (List.mem_of_getElem? hu.label) (fun t _ e1 e2 => by rw [hidx t e1 e2]; exact d4)
  obtain rfl := hidx t h3 h4
  have ha : alone E M u = .ok M₂ := by
    unfold alone
    simp only [h1, h5, Res.bind_ok]
  refine ⟨⟨M₂, ha⟩, h6, h7, hlt, ?_⟩
  intro i l hl hp'
  obtain ⟨DW, DB, k1, k2, k3⟩ := h8 i l hl hp'
  exact ⟨DW, DB, by rw [ownGrads, ha]; exact k1, k2, k3⟩

theorem Datum.Relabels.refl (d : List Datum) : Datum.Relabels d d := ⟨rfl, fun e he => ⟨e, he, rfl⟩⟩

theorem Datum.Relabels.length {d d' : List Datum} (h : Datum.Relabels d d') : d'.length = d.length := by
  have := congrArg List.length h.1
  simpa using this

/-- Samples that have the inputs of some samples and labels of them. -/
theorem relabel_near {labels : List (List Char)} {s : Shape} {used xs : List (Sample α)} {d : List Datum}
    (h : List.Forall₂ (Sample.Near F labels s) xs d) (h1 : used.map (·.data) = xs.map (·.data))
    (h2 : ∀ u ∈ used, ∃ y ∈ xs, u.label = y.label) : ∃ d', Datum.Relabels d d' ∧ List.Forall₂ (Sample.Near F labels s) used d' := by
  have hlab : ∀ y ∈ xs, ∃ f ∈ d, labels[f.label]? = some y.label ∧ ∀ t < f.label, labels[t]? ≠ some y.label := by
    intro y hy
    obtain ⟨i, hi⟩ := List.mem_iff_getElem?.1 hy
    have hlt := (List.getElem?_eq_some_iff.1 hi).1
    have hlt' : i < d.length := h.length_eq ▸ hlt
    have := (List.forall₂_iff_get.1 h).2 i hlt hlt'
    rw [show xs.get ⟨i, hlt⟩ = y from (List.getElem?_eq_some_iff.1 hi).2] at this
    exact ⟨d.get ⟨i, hlt'⟩, List.get_mem _ _, this.label, this.first⟩
  suffices hs : ∀ (xs' : List (Sample α)) (d' : List Datum) (us : List (Sample α)), List.Forall₂ (Sample.Near F labels s) xs' d' →
      us.map (·.data) = xs'.map (·.data) → (∀ u ∈ us, ∃ y ∈ xs, u.label = y.label) →
      ∃ d'' : List Datum, d''.map (fun d => (d.x, d.err)) = d'.map (fun d => (d.x, d.err)) ∧ (∀ e ∈ d'', ∃ f ∈ d, e.label = f.label) ∧
        List.Forall₂ (Sample.Near F labels s) us d'' by
    obtain ⟨d'', k1, k2, k3⟩ := hs xs d used h h1 h2
    exact ⟨d'', ⟨k1, k2⟩, k3⟩
  intro xs' d' us hf
  induction hf generalizing us with
  | nil =>
    intro he _
    obtain rfl : us = [] := by simpa using he
    exact ⟨[], rfl, by simp, .nil⟩
  | @cons x e xs' d' hx _ ih =>
    intro he hl
    cases us with
    | nil => simp at he
    | cons u us =>
      simp only [List.map_cons, List.cons.injEq] at he
      obtain ⟨d'', k1, k2, k3⟩ := ih us he.2 fun v hv => hl v (List.mem_cons_of_mem _ hv)
      obtain ⟨y, hy, hyl⟩ := hl u (by simp)
      obtain ⟨f, hf, q1, q2⟩ := hlab y hy
      refine ⟨⟨e.x, e.err, f.label⟩ :: d'', by simp [k1], ?_, .cons ⟨by rw [he.1]; exact hx.data, by rw [hyl]; exact q1, by rw [hyl]; exact q2⟩ k3⟩
      intro e' he'
      rcases List.mem_cons.1 he' with rfl | he'
      · exact ⟨f, hf, rfl⟩
      · exact k2 e' he'

theorem near_mem {labels : List (List Char)} {s : Shape} {xs : List (Sample α)} {d : List Datum} (h : List.Forall₂ (Sample.Near F labels s) xs d)
    {x : Sample α} (hx : x ∈ xs) : ∃ e ∈ d, x.Near F labels s e := by
  obtain ⟨i, hi⟩ := List.mem_iff_getElem?.1 hx
  have hlt := (List.getElem?_eq_some_iff.1 hi).1
  have hlt' : i < d.length := h.length_eq ▸ hlt
  have := (List.forall₂_iff_get.1 h).2 i hlt hlt'
  rw [show xs.get ⟨i, hlt⟩ = x from (List.getElem?_eq_some_iff.1 hi).2] at this
  exact ⟨d.get ⟨i, hlt'⟩, List.get_mem _ _, this⟩

/-- An update carries a model prepared, whatever the arithmetic. -/
theorem Body.Prepared.apply {N : Num α} {lr : α} {n : Nat} {B B' : Body α} (hB : B.Prepared n)
    (h : B.applyBatch N lr = .ok B') : B'.Prepared n := by
  have step : ∀ {W Bi : Matrix α} {w b : List (Matrix α)} {r : Matrix α × Matrix α}, w.length = n → b.length = n → Sound W Bi →
      applyGrads N lr W Bi w b = .ok r → Sound r.1 r.2 := by
    intro W Bi w b r h1 h2 hs hr
    obtain ⟨⟨X, Y, Z, f, s1⟩, F, k, s2⟩ := hs
    have hi := applyGrads_inv s1 s2 hr
    obtain ⟨r', w', b', a1, a2, a3⟩ := applyGrads_of_reads (N := N) (lr := lr) s1 s2 h1 h2 (fun s hs => hi s (by omega))
    rw [hr] at a1
    obtain rfl := Res.ok.inj a1
    exact ⟨⟨_, _, _, _, a2⟩, _, _, a3⟩
  cases B with
  | kernel K =>
    obtain ⟨h1, h2, h3⟩ := hB
    obtain ⟨K', e, h⟩ := Res.bind_eq_ok h
    obtain rfl := Res.ok.inj h
    unfold Kernel.applyBatch at e
    obtain ⟨r, e1, e⟩ := Res.bind_eq_ok e
    obtain rfl := Res.ok.inj e
    exact ⟨h1, h2, step h1 h2 h3 e1⟩
  | connected L =>
    obtain ⟨h0, h1, h2, h3⟩ := hB
    obtain ⟨K', e, h⟩ := Res.bind_eq_ok h
    obtain rfl := Res.ok.inj h
    unfold Connected.applyBatch at e
    obtain ⟨r, e1, e⟩ := Res.bind_eq_ok e
    obtain rfl := Res.ok.inj e
    exact ⟨h0, h1, h2, step h1 h2 h3 e1⟩
  | pooling P => obtain rfl := Res.ok.inj h; exact hB
  | activation A => obtain rfl := Res.ok.inj h; exact hB
  | softmax S => obtain rfl := Res.ok.inj h; exact hB

theorem Model.Prepared.apply {N : Num α} {lr : α} {n : Nat} {M M' : Model α} (hM : M.Prepared n)
    (h : M.applyBatch N lr = .ok M') : M'.Prepared n := by
  obtain ⟨h1, _, h3⟩ := applyBatch_get h
  intro l hl
  obtain ⟨i, hi⟩ := List.mem_iff_getElem?.1 hl
  have hlt := (List.getElem?_eq_some_iff.1 hi).1
  have hm : M.layers[i]? = some M.layers[i] := List.getElem?_eq_getElem (by omega)
  obtain ⟨b, e1, e2⟩ := h3 i _ hm
  rw [hi] at e2
  obtain rfl := Option.some.inj e2
  exact (hM _ (List.getElem_mem _)).apply e1

/-- A model that is ready to be trained in batches of `B`. -/
structure Trains (F : Floating E.num p) (labels : List (List Char)) (s : Shape) (n B : Nat) (M : Model α) (ls : List NetLayer) : Prop where
  prepared : M.Prepared B
  carries : M.Carries F 0 s ls n
  fits : NetFits ls s
  trains : NetTrains true ls s
  labels : M.labels = labels
  count : (n : ℝ) + 1 ≤ p.Ω
  sum : p.sumErr n ≤ 1 / 2

variable {labels : List (List Char)} {s : Shape} {n B T : Nat} {ls : List NetLayer}

theorem Trains.alone (hp : p.Ok) (hE : E.Rounds F q) {M : Model α} (h : Trains F labels s n B M ls) {xs : List (Sample α)} {ds : List Datum}
    (hd : List.Forall₂ (Sample.Near F labels s) xs ds) {ε : ℝ} (hpass : ∀ ds', Datum.Relabels ds ds' → ∀ d ∈ ds', d.Passes p q ls s n ε) :
    ∀ x ∈ xs, ∀ y ∈ xs, ∃ m, Cnn.alone E M ⟨x.data, y.label⟩ = .ok m := by
  intro x hx y hy
  obtain ⟨e, he, hxe⟩ := near_mem hd hx
  obtain ⟨f, hf, hyf⟩ := near_mem hd hy
  have hrel : Datum.Relabels ds (ds.map fun d => ⟨d.x, d.err, f.label⟩) := by
    refine ⟨by simp, ?_⟩
    intro g hg
    obtain ⟨g', _, rfl⟩ := List.mem_map.1 hg
    exact ⟨f, hf, rfl⟩
  exact (alone_near hp hE h.carries h.fits h.trains h.count h.sum (u := ⟨x.data, y.label⟩) (d := ⟨e.x, e.err, f.label⟩)
    (by rw [h.labels]; exact ⟨hxe.data, hyf.label, hyf.first⟩) (hpass _ hrel _ (List.mem_map.2 ⟨e, he, rfl⟩))).1

/-- The parameters after a batch. -/
theorem Trains.params_step (hp : p.Ok) (hE : E.Rounds F q) {h : Hyper α} (h0 : 0 < B) (hB : B < 2 ^ 24)
    (hr : F.Fin h.rate) {M M' : Model α} (hM : Trains F labels s n B M ls) {ε : ℝ} {used : List (Sample α)} {zs ds' : List Datum}
    (u1 : used.length = B) (hzl : zs.length = B) (z2 : zs.Perm ds') (g2 : NetStepRoom p q (F.val h.rate) n ε ls s ds')
    (hz : ∀ k < B, ∃ u d, used[k]? = some u ∧ zs[k]? = some d ∧ u.Near F labels s d ∧ d.Passes p q ls s n ε)
    (u6 : ∀ i W Bi, M.params i = some (W, Bi) → ∃ (gs : List (Matrix α × Matrix α)) (r : Matrix α × Matrix α),
        used.map (ownGrads E M · i) = gs.map some ∧
        applyGrads E.num h.rate W Bi (gs.map (·.1)) (gs.map (·.2)) = .ok r ∧ M'.params i = some r) :
    ∀ i : Nat, ∃ w' : Tensor, ∃ β' : Nat → ℝ, ∀ l, ls[i]? = some l → ∀ w β, l.params = some (w, β) →
      (∃ W Bi, ∃ wa : Nat → Nat → Nat → α, ∃ βa : Nat → α, M'.params i = some (W, Bi) ∧
        W.Shows (l.weightShape (netOut (ls.take i) s)).X (l.weightShape (netOut (ls.take i) s)).Y (l.weightShape (netOut (ls.take i) s)).Z wa ∧
        Bi.Shows l.biasCount 1 1 (fun f _ _ => βa f) ∧
        (∀ a < (l.weightShape (netOut (ls.take i) s)).X, ∀ j < (l.weightShape (netOut (ls.take i) s)).Y, ∀ k < (l.weightShape (netOut (ls.take i) s)).Z,
          F.Fin (wa a j k) ∧ F.val (wa a j k) = w' a j k) ∧
        ∀ f < l.biasCount, F.Fin (βa f) ∧ F.val (βa f) = β' f) ∧
      (∀ a < (l.weightShape (netOut (ls.take i) s)).X, ∀ b < (l.weightShape (netOut (ls.take i) s)).Y, ∀ c < (l.weightShape (netOut (ls.take i) s)).Z,
        |w' a b c - (w a b c - F.val h.rate * Precision.mean (weightTerms p q n ε i ls s ds' a b c))| ≤
          p.stepErr (F.val h.rate) (w a b c) (weightTerms p q n ε i ls s ds' a b c)) ∧
      ∀ f < l.biasCount, |β' f - (β f - F.val h.rate * Precision.mean (biasTerms p q n ε i ls s ds' f))| ≤
        p.stepErr (F.val h.rate) (β f) (biasTerms p q n ε i ls s ds' f) := by
  intro i
  by_cases hex : ∃ l w β, ls[i]? = some l ∧ l.params = some (w, β)
  swap
  · exact ⟨fun _ _ _ => 0, fun _ => 0, fun l hl w β hp' => absurd ⟨l, w, β, hl, hp'⟩ hex⟩
  obtain ⟨l, w, β, hli, hpa⟩ := hex
  have hpn : l.params ≠ none := by rw [hpa]; simp
  obtain ⟨W, Bi, wo, βo, e1, e2, e3, e4, e5⟩ := hM.carries.params hli hpa
  obtain ⟨gs, r, f1, f2, f3⟩ := u6 i W Bi e1
  have hgl : gs.length = B := by
    have := congrArg List.length f1
    rw [List.length_map, List.length_map] at this
    omega
  have hone : ∀ k, ∃ gw : Nat → Nat → Nat → α, ∃ gb : Nat → α, k < B → ∃ G d, gs[k]? = some G ∧ zs[k]? = some d ∧
      G.1.Reads (l.weightShape (netOut (ls.take i) s)).X (l.weightShape (netOut (ls.take i) s)).Y (l.weightShape (netOut (ls.take i) s)).Z gw ∧
      G.2.Reads l.biasCount 1 1 (fun f _ _ => gb f) ∧
      (∀ a < (l.weightShape (netOut (ls.take i) s)).X, ∀ b < (l.weightShape (netOut (ls.take i) s)).Y, ∀ c < (l.weightShape (netOut (ls.take i) s)).Z,
        F.Fin (gw a b c) ∧ |F.val (gw a b c) - netWeightGrad n d.label i ls s d.x a b c| ≤ netWeightErr p q n d.label ε i ls s d.x d.err a b c) ∧
      ∀ f < l.biasCount, F.Fin (gb f) ∧ |F.val (gb f) - netBiasGrad n d.label i ls s d.x f| ≤ netBiasErr p q n d.label ε i ls s d.x d.err f := by
    intro k
    by_cases hk : k < B
    swap
    · exact ⟨fun _ _ _ => 0, fun _ => 0, fun h => absurd h hk⟩
    obtain ⟨u, d, hu, hzd, hud, hdp⟩ := hz k hk
    obtain ⟨_, _, _, _, hg⟩ := alone_near hp hE hM.carries hM.fits hM.trains hM.count hM.sum (u := u) (d := d) (by rw [hM.labels]; exact hud) hdp
    obtain ⟨DW, DB, q1, ⟨dw, q2, q3⟩, db, q4, q5⟩ := hg i l hli hpn
    refine ⟨dw, fun f => db f 0 0, fun _ => ⟨(DW, DB), d, ?_, hzd, q2.reads, (q4.congr ?_).reads, q3, fun f hf => q5 f hf 0 one_pos 0 one_pos⟩⟩
    · have := congrArg (·[k]?) f1
      simp only [List.getElem?_map, hu, Option.map_some, q1] at this
      cases hgk : gs[k]? with
      | none => rw [hgk] at this; simp at this
      | some G =>
        rw [hgk] at this
        simpa using this.symm
    · intro i hi j hj k hk
      obtain rfl : j = 0 := Nat.lt_one_iff.1 hj
      obtain rfl : k = 0 := Nat.lt_one_iff.1 hk
      rfl
  choose gw gb hone using hone
  obtain ⟨W', B', a1, a2, a3⟩ := applyGrads_reads E.num h.rate e2 e3 (gs.map (·.1)) (gs.map (·.2)) gw gb (n := B) (by simp [hgl]) (by simp [hgl])
    (by
      intro k M hk
      rw [List.getElem?_map, Option.map_eq_some_iff] at hk
      obtain ⟨G, hG, rfl⟩ := hk
      have hkB : k < B := by rw [← hgl]; exact (List.getElem?_eq_some_iff.1 hG).1
      obtain ⟨G', d, c1, _, c2, _⟩ := hone k hkB
      rw [hG] at c1
      obtain rfl := Option.some.inj c1
      exact c2)
    (by
      intro k M hk
      rw [List.getElem?_map, Option.map_eq_some_iff] at hk
      obtain ⟨G, hG, rfl⟩ := hk
      have hkB : k < B := by rw [← hgl]; exact (List.getElem?_eq_some_iff.1 hG).1
      obtain ⟨G', d, c1, _, _, c2, _⟩ := hone k hkB
      rw [hG] at c1
      obtain rfl := Option.some.inj c1
      exact c2)
  rw [f2] at a1
  obtain rfl := Res.ok.inj a1
  have hw : ∀ a < (l.weightShape (netOut (ls.take i) s)).X, ∀ b < (l.weightShape (netOut (ls.take i) s)).Y, ∀ c < (l.weightShape (netOut (ls.take i) s)).Z,
      F.Fin (wo a b c - h.rate * (sumTo B (fun s => gw s a b c) / E.num.ofNat B)) ∧
      |F.val (wo a b c - h.rate * (sumTo B (fun s => gw s a b c) / E.num.ofNat B)) -
        (w a b c - F.val h.rate * Precision.mean (weightTerms p q n ε i ls s ds' a b c))| ≤
        p.stepErr (F.val h.rate) (w a b c) (weightTerms p q n ε i ls s ds' a b c) := by
    intro a ha b hb c hc
    obtain ⟨w1, w2⟩ := e4 a ha b hb c hc
    have hperm : (weightTerms p q n ε i ls s zs a b c).Perm (weightTerms p q n ε i ls s ds' a b c) := z2.map _
    have hlt : (weightTerms p q n ε i ls s zs a b c).length = B := by simp [weightTerms, hzl]
    have := Floating.step_near (F := F) hp (gs := weightTerms p q n ε i ls s zs a b c) (by omega) (by omega) (t := fun k => gw k a b c) (by
      intro k g hg
      have hkB : k < B := by rw [← hlt]; exact (List.getElem?_eq_some_iff.1 hg).1
      obtain ⟨_, d, _, c1, _, _, c2, _⟩ := hone k hkB
      rw [weightTerms, List.getElem?_map, c1, Option.map_some] at hg
      obtain rfl := Option.some.inj hg
      exact c2 a ha b hb c hc) hr w1 (by rw [w2]; exact ((g2 i l w β hli hpa).1 a ha b hb c hc).perm hperm.symm)
    rw [hlt, w2, Precision.mean_perm hperm, p.stepErr_perm _ _ hperm] at this
    exact this
  have hbb : ∀ f < l.biasCount,
      F.Fin (βo f - h.rate * (sumTo B (fun s => gb s f) / E.num.ofNat B)) ∧
      |F.val (βo f - h.rate * (sumTo B (fun s => gb s f) / E.num.ofNat B)) - (β f - F.val h.rate * Precision.mean (biasTerms p q n ε i ls s ds' f))| ≤
        p.stepErr (F.val h.rate) (β f) (biasTerms p q n ε i ls s ds' f) := by
    intro f hf
    obtain ⟨w1, w2⟩ := e5 f hf
    have hperm : (biasTerms p q n ε i ls s zs f).Perm (biasTerms p q n ε i ls s ds' f) := z2.map _
    have hlt : (biasTerms p q n ε i ls s zs f).length = B := by simp [biasTerms, hzl]
    have := Floating.step_near (F := F) hp (gs := biasTerms p q n ε i ls s zs f) (by omega) (by omega) (t := fun k => gb k f) (by
      intro k g hg
      have hkB : k < B := by rw [← hlt]; exact (List.getElem?_eq_some_iff.1 hg).1
      obtain ⟨_, d, _, c1, _, _, _, c2⟩ := hone k hkB
      rw [biasTerms, List.getElem?_map, c1, Option.map_some] at hg
      obtain rfl := Option.some.inj hg
      exact c2 f hf) hr w1 (by rw [w2]; exact ((g2 i l w β hli hpa).2 f hf).perm hperm.symm)
    rw [hlt, w2, Precision.mean_perm hperm, p.stepErr_perm _ _ hperm] at this
    exact this
  refine ⟨fun a b c => F.val (wo a b c - h.rate * (sumTo B (fun s => gw s a b c) / E.num.ofNat B)),
    fun f => F.val (βo f - h.rate * (sumTo B (fun s => gb s f) / E.num.ofNat B)), ?_⟩
  intro l' hl' w2 β2 hp2
  rw [hli] at hl'
  obtain rfl := Option.some.inj hl'
  rw [hpa] at hp2
  obtain ⟨rfl, rfl⟩ := Prod.mk.inj (Option.some.inj hp2)
  exact ⟨⟨W', B', _, _, f3, a2, a3, fun a ha b hb c hc => ⟨(hw a ha b hb c hc).1, rfl⟩, fun f hf => ⟨(hbb f hf).1, rfl⟩⟩,
    fun a ha b hb c hc => (hw a ha b hb c hc).2, fun f hf => (hbb f hf).2⟩

/-- One batch. -/
theorem Trains.step (hp : p.Ok) (hE : E.Rounds F q) {h : Hyper α} (hb : h.batch = B) (ht : h.threads = T) (h0 : 0 < B) (hB : B < 2 ^ 24)
    (hr : F.Fin h.rate) {sh : Shared α} (hM : Trains F labels s n B sh.model ls) {ds : List Datum} (hl : ds.length = B)
    (hd : List.Forall₂ (Sample.Near F labels s) (sh.source.take B) ds) {ε : ℝ} (hroom : RoomFor p q (F.val h.rate) n ε s ds ls)
    {sched : List Nat} {o : Shared α × List (Event α)} (hrun : runBatch E h sched sh = .ok (some o)) :
    ∃ ds' ls', Datum.Relabels ds ds' ∧ (OwnLabels sh.model o.2 → ds' = ds) ∧ NetStep p q (F.val h.rate) n ε s ds' ls ls' ∧
      Trains F labels s n B o.1.model ls' ∧ o.1.source = sh.source.drop B := by
  have hlen := hd.length_eq
  have hfull : B ≤ sh.source.length := by rw [List.length_take] at hlen; omega
  obtain ⟨M₁, m1, m2, _, _, _, _, _, m3⟩ := runBatch_end hb ht hB hM.prepared hrun
  obtain ⟨us, used, u1, u2, u3, u4, u5, u6⟩ := runBatch_ordered hb ht hB hM.prepared hfull (hM.alone hp hE hd fun _ h => (hroom _ h).1) hrun
  obtain ⟨ds', r1, r2, r3⟩ : ∃ ds', Datum.Relabels ds ds' ∧ List.Forall₂ (Sample.Near F labels s) us ds' ∧ (OwnLabels sh.model o.2 → ds' = ds) := by
    by_cases hown : OwnLabels sh.model o.2
    · exact ⟨ds, .refl ds, by rw [u5 hown]; exact hd, fun _ => rfl⟩
    · obtain ⟨d', k1, k2⟩ := relabel_near hd u3 u4
      exact ⟨d', k1, k2, fun h => absurd h hown⟩
  obtain ⟨g1, g2⟩ := hroom ds' r1
  obtain ⟨zs, z1, z2⟩ := List.perm_comp_forall₂ u2 r2
  have hzl : zs.length = B := by rw [← z1.length_eq, u1]
  have hz : ∀ k < B, ∃ u d, used[k]? = some u ∧ zs[k]? = some d ∧ u.Near F labels s d ∧ d.Passes p q ls s n ε := by
    intro k hk
    have hk1 : k < used.length := by omega
    have hk2 : k < zs.length := by omega
    refine ⟨used[k], zs[k], List.getElem?_eq_getElem hk1, List.getElem?_eq_getElem hk2, (List.forall₂_iff_get.1 z1).2 k hk1 hk2, ?_⟩
    exact g1 _ (z2.subset (List.getElem_mem hk2))
  have key := hM.params_step hp hE h0 hB hr u1 hzl z2 g2 hz u6
  choose w' β' key using key
  have hget : ∀ (i : Nat) (l : NetLayer), ls[i]? = some l → (ls.mapIdx fun i l => l.withParams (w' i) (β' i))[i]? = some (l.withParams (w' i) (β' i)) := by
    intro i l hl
    simp only [List.getElem?_mapIdx, hl, Option.map_some]
  have hsame : SameNet ls (ls.mapIdx fun i l => l.withParams (w' i) (β' i)) := by
    rw [SameNet, List.forall₂_iff_get]
    refine ⟨by simp, ?_⟩
    intro i hi hi'
    exact ⟨w' i, β' i, by simp⟩
  have hkeep : o.1.model.Carries F 0 s (ls.mapIdx fun i l => l.withParams (w' i) (β' i)) n := by
    have hl' : (ls.mapIdx fun i l => l.withParams (w' i) (β' i)).length = ls.length := by simp
    refine Model.Carries.update hM.carries m1 m2 hl' ?_
    intro i l hl
    refine ⟨w' i, β' i, hget i l hl, ?_⟩
    rintro ⟨w, β⟩ hp'
    obtain ⟨k, _⟩ := key i l hl w β hp'
    exact k
  refine ⟨ds', ls.mapIdx fun i l => l.withParams (w' i) (β' i), r1, r3, ⟨by simp, ?_⟩, ?_, m3⟩
  · intro i l hl
    refine ⟨w' i, β' i, hget i l hl, ?_⟩
    intro w β hp'
    obtain ⟨_, k1, k2⟩ := key i l hl w β hp'
    exact ⟨k1, k2⟩
  · exact ⟨(hM.prepared.of_bare m1).apply m2, hkeep, hsame.fits hM.fits, hsame.trains hM.trains,
      (Model.applyBatch_labels m2).trans ((bare_labels m1).trans hM.labels), hM.count, hM.sum⟩

end Cnn
