import Verif.Lemmas.StepBatch
import Verif.Lemmas.NetDescent
import Verif.Props.Surrogate
/-! Helper lemmas: training in rounded arithmetic (C99). -/
namespace Cnn
open Finset Model Train

/-! ## Derivatives of the mean loss -/

theorem forall₂_mem {β : Type} (ds : List β) : List.Forall₂ (fun a b => a = b ∧ b ∈ ds) ds ds := by
  suffices h : ∀ l : List β, (∀ x ∈ l, x ∈ ds) → List.Forall₂ (fun a b => a = b ∧ b ∈ ds) l l from h ds fun _ h => h
  intro l
  induction l with
  | nil => exact fun _ => .nil
  | cons x l ih => exact fun h => .cons ⟨rfl, h x (by simp)⟩ (ih fun y hy => h y (List.mem_cons_of_mem _ hy))

theorem weightTerms_mean (p : Precision) (q : Conversion) (n : Nat) (ε : ℝ) (i : Nat) (ls : List NetLayer) (s : Shape) (ds : List Datum) (a b c : Nat) :
    Precision.mean (weightTerms p q n ε i ls s ds a b c) = (ds.map fun d => netWeightGrad n d.label i ls s d.x a b c).sum / ds.length := by
  simp only [Precision.mean, weightTerms, List.map_map, List.length_map]
  rfl

theorem biasTerms_mean (p : Precision) (q : Conversion) (n : Nat) (ε : ℝ) (i : Nat) (ls : List NetLayer) (s : Shape) (ds : List Datum) (f : Nat) :
    Precision.mean (biasTerms p q n ε i ls s ds f) = (ds.map fun d => netBiasGrad n d.label i ls s d.x f).sum / ds.length := by
  simp only [Precision.mean, biasTerms, List.map_map, List.length_map]
  rfl

/-- The means of the terms are partial derivatives. `m d` is the network that stands for `ls` at the sample `d`. -/
theorem mean_true {p : Precision} {q : Conversion} {ε : ℝ} {ls : List NetLayer} {s : Shape} {n : Nat} {ds : List Datum} (hlab : ∀ d ∈ ds, d.label < n)
    {m : Datum → List NetLayer} (hm : ∀ d ∈ ds, NetStands ls s d.x (m d)) (hf : NetFits ls s) (htr : NetTrains true ls s) (hg : NetPlain ls)
    (hsh : NetShapes s ls) (hout : netOut ls s = ⟨n, 1, 1⟩ ∨ netOut ls s = ⟨1, n, 1⟩) {i : Nat} {l : NetLayer} {w : Tensor} {β : Nat → ℝ}
    (hl : ls[i]? = some l) (hl' : ∀ d ∈ ds, (m d)[i]? = some l) (hp : l.params = some (w, β)) :
    (∀ a < (l.weightShape (netOut (ls.take i) s)).X, ∀ b < (l.weightShape (netOut (ls.take i) s)).Y, ∀ c < (l.weightShape (netOut (ls.take i) s)).Z,
      HasDerivAt (fun v => (ds.map fun d => netLoss ((m d).set i (l.withParams (w.update a b c v) β)) s n d.label d.x).sum / ds.length)
        (Precision.mean (weightTerms p q n ε i ls s ds a b c)) (w a b c)) ∧
    ∀ f < l.biasCount,
      HasDerivAt (fun v => (ds.map fun d => netLoss ((m d).set i (l.withParams w (Function.update β f v))) s n d.label d.x).sum / ds.length)
        (Precision.mean (biasTerms p q n ε i ls s ds f)) (β f) := by
  have hone : ∀ d ∈ ds, NetParamGrad (m d) i s n d.label d.x (netWeightGrad n d.label i ls s d.x) (netBiasGrad n d.label i ls s d.x) :=
    fun d hd => (net_true (hlab d hd) true (hm d hd) hf htr hg hsh hout).2 i l hl (by rw [hp]; simp)
  constructor
  · intro a ha b hb c hc
    rw [weightTerms_mean]
    refine (hasDerivAt_sum (F := fun (d : Datum) v => netLoss ((m d).set i (l.withParams (w.update a b c v) β)) s n d.label d.x)
      (G := fun d => netWeightGrad n d.label i ls s d.x a b c) (forall₂_mem ds) ?_).div_const _
    rintro d hd _ ⟨rfl, _⟩
    have hto := (hm d hd).netOut_take i
    exact (hone d hd).weight (hl' d hd) hp (by rwa [hto]) (by rwa [hto]) (by rwa [hto])
  · intro f hf
    rw [biasTerms_mean]
    refine (hasDerivAt_sum (F := fun (d : Datum) v => netLoss ((m d).set i (l.withParams w (Function.update β f v))) s n d.label d.x)
      (G := fun d => netBiasGrad n d.label i ls s d.x f) (forall₂_mem ds) ?_).div_const _
    rintro d hd _ ⟨rfl, _⟩
    exact (hone d hd).bias (hl' d hd) hp hf

variable {α : Type} [Zero α] [One α] [Add α] [Sub α] [Mul α] [Div α] [Neg α] {E : Env α} {p : Precision} {F : Floating E.num p} {q : Conversion}
variable {labels : List (List Char)} {s : Shape} {n B T : Nat} {ls : List NetLayer}

theorem Body.Carries.prepared {B : Body α} {b : Nat} {first : Bool} {s : Shape} {l : NetLayer} (h : B.Carries F b first s l)
    (hf : l.Fits s) (m : Nat) : (B.setBatchSize m).Prepared m := by
  obtain ⟨h, h'⟩ := h
  match B, l, h with
  | .kernel K, .conv .., ⟨_, _, h, _⟩ =>
    exact ⟨by simp [Kernel.setBatchSize, emptyGrads], by simp [Kernel.setBatchSize, emptyGrads], ⟨_, _, _, _, h.weights⟩, _, _, h.biases⟩
  | .connected L, .full .., ⟨_, _, h, _⟩ =>
    exact ⟨h.initialized, by simp [Connected.setBatchSize, emptyGrads], by simp [Connected.setBatchSize, emptyGrads], ⟨_, _, _, _, h.weights⟩, _, _, h.biases⟩
  | .pooling P, .pool .., h =>
    refine ⟨?_, ?_, ?_⟩
    · show (Matrix.vecResize _ _ _).length = m
      simp only [Matrix.vecResize, List.length_append, List.length_take, List.length_replicate]
      omega
    · show 0 < P.stride.x
      rw [h.2.2.1]
      exact Int.natCast_pos.2 hf.sx0
    · show 0 < P.stride.y
      rw [h.2.2.1]
      exact Int.natCast_pos.2 hf.sy0
  | .activation A, .act _, h => trivial

theorem Model.Carries.prepared {M : Model α} {b : Nat} {s : Shape} {ls : List NetLayer} {n : Nat} (h : M.Carries F b s ls n)
    (hf : NetFits ls s) (m : Nat) : (M.setBatchSize m).Prepared m := by
  obtain ⟨g1, g2, L, S, g3, g4, _⟩ := h.get
  intro l hl
  obtain ⟨k, hk, rfl⟩ := List.mem_map.1 hl
  obtain ⟨i, hi⟩ := List.mem_iff_getElem?.1 hk
  have hlt : i < ls.length + 1 := by rw [← g1]; exact (List.getElem?_eq_some_iff.1 hi).1
  by_cases he : i = ls.length
  · subst he
    rw [g3] at hi
    obtain rfl := Option.some.inj hi
    simp only [g4]
    trivial
  · have hl : ls[i]? = some (ls[i]'(by omega)) := List.getElem?_eq_getElem (by omega)
    exact (g2 i k _ hi hl).prepared (hf.get hl) m

/-- The gradients have the sizes of the parameters. -/
theorem Trains.sizes (hp : p.Ok) (hE : E.Rounds F q) {M : Model α} (h : Trains F labels s n B M ls) {xs : List (Sample α)} {ds : List Datum}
    (hd : List.Forall₂ (Sample.Near F labels s) xs ds) {ε : ℝ} (hpass : ∀ ds', Datum.Relabels ds ds' → ∀ d ∈ ds', d.Passes p q ls s n ε) :
    ∀ i W Bi, M.params i = some (W, Bi) → ∃ X Y Z F w, ∃ β : Nat → α, W.Shows X Y Z w ∧ Bi.Shows F 1 1 (fun f _ _ => β f) ∧
      ∀ x ∈ xs, ∀ y ∈ xs, ∃ G H u v, Cnn.ownGrads E M ⟨x.data, y.label⟩ i = some (G, H) ∧ G.Reads X Y Z u ∧ H.Reads F 1 1 v := by
  intro i W Bi hpar
  obtain ⟨l, w, β, e1, e2⟩ := h.carries.has_params hpar
  obtain ⟨W', Bi', wo, βo, e3, e4, e5, _⟩ := h.carries.params e1 e2
  rw [hpar] at e3
  simp only [Option.some.injEq, Prod.mk.injEq] at e3
  obtain ⟨rfl, rfl⟩ := e3
  refine ⟨_, _, _, _, wo, βo, e4, e5, ?_⟩
  intro x hx y hy
  obtain ⟨e, he, hxe⟩ := near_mem hd hx
  obtain ⟨f, hf, hyf⟩ := near_mem hd hy
  have hrel : Datum.Relabels ds (ds.map fun d => ⟨d.x, d.err, f.label⟩) := by
    refine ⟨by simp, ?_⟩
    intro g hg
    obtain ⟨g', _, rfl⟩ := List.mem_map.1 hg
    exact ⟨f, hf, rfl⟩
  obtain ⟨_, _, _, _, hg⟩ := alone_near hp hE h.carries h.fits h.trains h.count h.sum (u := ⟨x.data, y.label⟩) (d := ⟨e.x, e.err, f.label⟩)
    (by rw [h.labels]; exact ⟨hxe.data, hyf.label, hyf.first⟩) (hpass _ hrel _ (List.mem_map.2 ⟨e, he, rfl⟩))
  obtain ⟨DW, DB, q1, ⟨dw, q2, _⟩, db, q4, _⟩ := hg i l e1 (by rw [e2]; simp)
  exact ⟨DW, DB, dw, db, q1, q2.reads, q4.reads⟩

/-- What the samples of a batch that can be processed say about the network. -/
theorem Trains.uses (hp : p.Ok) (hE : E.Rounds F q) {M : Model α} (h : Trains F labels s n B M ls) {xs : List (Sample α)} {ds ds' : List Datum}
    (h0 : 0 < B) (hl : ds.length = B) (hd : List.Forall₂ (Sample.Near F labels s) xs ds) {ε r : ℝ} (hroom : RoomFor p q r n ε s ds ls)
    (hrel : Datum.Relabels ds ds') : NetPlain ls ∧ NetShapes s ls ∧ ∀ d ∈ ds', d.label < n := by
  have hone : ∀ e ∈ ds, NetPlain ls ∧ NetShapes s ls ∧ e.label < n := by
    intro e he
    obtain ⟨i, hi⟩ := List.mem_iff_getElem?.1 he
    have hlt := (List.getElem?_eq_some_iff.1 hi).1
    have hlt' : i < xs.length := hd.length_eq ▸ hlt
    have hn := (List.forall₂_iff_get.1 hd).2 i hlt' hlt
    rw [show ds.get ⟨i, hlt⟩ = e from (List.getElem?_eq_some_iff.1 hi).2] at hn
    obtain ⟨_, k1, k2, k3, _⟩ := alone_near hp hE h.carries h.fits h.trains h.count h.sum (by rw [h.labels]; exact hn) ((hroom _ (.refl ds)).1 e he)
    exact ⟨k1, k2, k3⟩
  have hne : ds ≠ [] := by
    rintro rfl
    simp at hl
    omega
  obtain ⟨e, he⟩ := List.exists_mem_of_ne_nil _ hne
  refine ⟨(hone e he).1, (hone e he).2.1, ?_⟩
  intro d hd'
  obtain ⟨f, hf, e⟩ := hrel.2 d hd'
  rw [e]
  exact (hone f hf).2.2

/-- No schedule of a batch fails, and some schedule completes it. -/
theorem Trains.progress (hp : p.Ok) (hE : E.Rounds F q) {h : Hyper α} (hb : h.batch = B) (ht : h.threads = T) (hB : B < 2 ^ 24) (hT0 : 0 < T)
    (hT : T < 2147483648) {sh : Shared α} (hM : Trains F labels s n B sh.model ls) {ds : List Datum} (hl : ds.length = B)
    (hd : List.Forall₂ (Sample.Near F labels s) (sh.source.take B) ds) {ε r : ℝ} (hroom : RoomFor p q r n ε s ds ls) :
    (∀ sched, ∃ o, runBatch E h sched sh = .ok o) ∧ ∃ sched o, runBatch E h sched sh = .ok (some o) := by
  refine runBatch_progress hb ht hB hT0 hT hM.prepared (hM.alone hp hE hd fun _ h => (hroom _ h).1) (hM.sizes hp hE hd fun _ h => (hroom _ h).1) (Or.inl ?_)
  have := hd.length_eq
  rw [List.length_take] at this
  omega

theorem NetSteps.append {r ε : ℝ} {a b : List (List Datum)} {ls m ls' : List NetLayer} (h1 : NetSteps p q r n ε s a ls m)
    (h2 : NetSteps p q r n ε s b m ls') : NetSteps p q r n ε s (a ++ b) ls ls' := by
  induction a generalizing ls with
  | nil => obtain rfl : m = ls := h1; exact h2
  | cons d a ih =>
    obtain ⟨k, k1, k2⟩ := h1
    exact ⟨k, k1, ih k2⟩

theorem RoomAlong.left {r ε : ℝ} {a b : List (List Datum)} {ls : List NetLayer} (h : RoomAlong p q r n ε s (a ++ b) ls) :
    RoomAlong p q r n ε s a ls := by
  induction a generalizing ls with
  | nil => trivial
  | cons d a ih => exact ⟨h.1, fun d' m h1 h2 => ih (h.2 d' m h1 h2)⟩

theorem RoomAlong.right {r ε : ℝ} {a a' b : List (List Datum)} {ls m : List NetLayer} (h : RoomAlong p q r n ε s (a ++ b) ls)
    (h1 : List.Forall₂ Datum.Relabels a a') (h2 : NetSteps p q r n ε s a' ls m) : RoomAlong p q r n ε s b m := by
  induction h1 generalizing ls with
  | nil => obtain rfl : m = ls := h2; exact h
  | cons hd _ ih =>
    obtain ⟨k, k1, k2⟩ := h2
    exact ih (h.2 _ _ hd k1) k2

/-- Several batches. -/
theorem Trains.batches (hp : p.Ok) (hE : E.Rounds F q) {h : Hyper α} (hb : h.batch = B) (ht : h.threads = T) (h0 : 0 < B) (hB : B < 2 ^ 24) (hT0 : 0 < T)
    (hT : T < 2147483648) (hr : F.Fin h.rate) {ε : ℝ} (ds : List (List Datum)) : ∀ {sh : Shared α} {ls : List NetLayer},
    Trains F labels s n B sh.model ls → ServesNear F labels s B sh.source ds → RoomAlong p q (F.val h.rate) n ε s ds ls →
    (∀ scheds : List (List Nat), scheds.length = ds.length → ∃ o, runBatches E h scheds sh = .ok o) ∧
    (∃ (scheds : List (List Nat)) (o : Shared α × List (Event α)), scheds.length = ds.length ∧ runBatches E h scheds sh = .ok (some o)) ∧
    ∀ (scheds : List (List Nat)) (o : Shared α × List (Event α)), scheds.length = ds.length → runBatches E h scheds sh = .ok (some o) →
      ∃ ds' ls', List.Forall₂ Datum.Relabels ds ds' ∧ (T = 1 → ds' = ds) ∧ NetSteps p q (F.val h.rate) n ε s ds' ls ls' ∧
        Trains F labels s n B o.1.model ls' := by
  induction ds with
  | nil =>
    intro sh ls hM _ _
    refine ⟨?_, ⟨[], (sh, []), rfl, rfl⟩, ?_⟩
    · intro scheds hl
      obtain rfl : scheds = [] := List.eq_nil_of_length_eq_zero (by simpa using hl)
      exact ⟨_, rfl⟩
    · intro scheds o hl hrun
      obtain rfl : scheds = [] := List.eq_nil_of_length_eq_zero (by simpa using hl)
      obtain rfl := Option.some.inj (Res.ok.inj hrun)
      exact ⟨[], ls, .nil, fun _ => rfl, rfl, hM⟩
  | cons d ds ih =>
    intro sh ls hM hsrc hroom
    obtain ⟨s1, s2, s3⟩ := hsrc
    obtain ⟨p1, p2⟩ := hM.progress hp hE hb ht hB hT0 hT s1 s2 hroom.1
    have hstep : ∀ sched o, runBatch E h sched sh = .ok (some o) → ∃ d' m, Datum.Relabels d d' ∧ (T = 1 → d' = d) ∧
        NetStep p q (F.val h.rate) n ε s d' ls m ∧ Trains F labels s n B o.1.model m ∧ ServesNear F labels s B o.1.source ds ∧
        RoomAlong p q (F.val h.rate) n ε s ds m := by
      intro sched o hrun
      obtain ⟨d', m, k1, k2, k3, k4, k5⟩ := hM.step hp hE hb ht h0 hB hr s1 s2 hroom.1 hrun
      refine ⟨d', m, k1, ?_, k3, k4, by rw [k5]; exact s3, hroom.2 _ _ k1 k3⟩
      intro hT1
      exact k2 (own_one hB hb (by rw [ht, hT1]) hrun)
    refine ⟨?_, ?_, ?_⟩
    · intro scheds hl
      cases scheds with
      | nil => simp at hl
      | cons c cs =>
        obtain ⟨o, ho⟩ := p1 c
        cases o with
        | none => exact ⟨none, by simp only [runBatches, ho, Res.bind_ok]⟩
        | some r =>
          obtain ⟨d', m, k1, k2, k3, k4, k5, k6⟩ := hstep c r ho
          obtain ⟨o', ho'⟩ := (ih k4 k5 k6).1 cs (by simpa using hl)
          cases o' with
          | none => exact ⟨none, by simp only [runBatches, ho, ho', Res.bind_ok]⟩
          | some u => exact ⟨some (u.1, r.2 ++ u.2), by simp only [runBatches, ho, ho', Res.bind_ok]⟩
    · obtain ⟨c, r, hc⟩ := p2
      obtain ⟨d', m, k1, k2, k3, k4, k5, k6⟩ := hstep c r hc
      obtain ⟨cs, u, hl, hu⟩ := (ih k4 k5 k6).2.1
      exact ⟨c :: cs, (u.1, r.2 ++ u.2), by simp [hl], by simp only [runBatches, hc, hu, Res.bind_ok]⟩
    · intro scheds o hl hrun
      cases scheds with
      | nil => simp at hl
      | cons c cs =>
        simp only [runBatches] at hrun
        obtain ⟨o', e, hrun⟩ := Res.bind_eq_ok hrun
        cases o' with
        | none => exact absurd hrun (by simp)
        | some r =>
          simp only at hrun
          obtain ⟨u, f, hrun⟩ := Res.bind_eq_ok hrun
          cases u with
          | none => exact absurd hrun (by simp)
          | some u =>
            obtain rfl := Option.some.inj (Res.ok.inj hrun)
            obtain ⟨d', m, k1, k2, k3, k4, k5, k6⟩ := hstep c r e
            obtain ⟨ds', ls', j1, j2, j3, j4⟩ := (ih k4 k5 k6).2.2 cs u (by simpa using hl) f
            exact ⟨d' :: ds', ls', .cons k1 j1, fun hT1 => by rw [k2 hT1, j2 hT1], ⟨m, k3, j3⟩, j4⟩

/-- Several epochs. -/
theorem Trains.epochs (hp : p.Ok) (hE : E.Rounds F q) {h : Hyper α} (hb : h.batch = B) (ht : h.threads = T) (h0 : 0 < B) (hB : B < 2 ^ 24) (hT0 : 0 < T)
    (hT : T < 2147483648) (hr : F.Fin h.rate) {ε : ℝ} {k : Nat} (hsz : B * k < 2 ^ 24) (dss : List (List (List Datum))) : (∀ ds ∈ dss, ds.length = k) →
    ∀ {M : Model α} {ls : List NetLayer}, Trains F labels s n B M ls → RoomAlong p q (F.val h.rate) n ε s dss.flatten ls →
    (∀ epochs : List (List (List Nat) × List (Sample α)), List.Forall₂ (fun e ds => ServesNear F labels s B e.2 ds) epochs dss →
      (∃ o, epochLoop E h (B * k) epochs (some M) = .ok o) ∧
      ∀ M', epochLoop E h (B * k) epochs (some M) = .ok (some M') →
        ∃ ds' ls', List.Forall₂ Datum.Relabels dss.flatten ds' ∧ (T = 1 → ds' = dss.flatten) ∧ NetSteps p q (F.val h.rate) n ε s ds' ls ls' ∧
          Trains F labels s n B M' ls') ∧
    ∀ srcs : List (List (Sample α)), List.Forall₂ (ServesNear F labels s B) srcs dss →
      ∃ (epochs : List (List (List Nat) × List (Sample α))) (M' : Model α), epochs.map Prod.snd = srcs ∧
        epochLoop E h (B * k) epochs (some M) = .ok (some M') := by
  have hnum : (B * k + B - 1) / B = k := by
    rw [show B * k + B - 1 = (B - 1) + B * k by omega, Nat.add_mul_div_left _ _ h0, Nat.div_eq_of_lt (by omega), Nat.zero_add]
  induction dss with
  | nil =>
    intro _ M ls hM _
    refine ⟨?_, ?_⟩
    · intro epochs he
      cases he
      refine ⟨⟨_, rfl⟩, ?_⟩
      intro M' h
      obtain rfl := Option.some.inj (Res.ok.inj h)
      exact ⟨[], ls, .nil, fun _ => rfl, rfl, hM⟩
    · intro srcs he
      cases he
      exact ⟨[], M, rfl, rfl⟩
  | cons ds dss ih =>
    intro hk M ls hM hroom
    rw [List.flatten_cons] at hroom
    have hds := hk ds (by simp)
    have hk' : ∀ ds ∈ dss, ds.length = k := fun d hd => hk d (List.mem_cons_of_mem _ hd)
    refine ⟨?_, ?_⟩
    · intro epochs he
      cases he with
      | @cons e _ es _ hse hes =>
        obtain ⟨b1, _, b3⟩ := Trains.batches hp hE hb ht h0 hB hT0 hT hr ds (sh := ⟨M, e.2, 0⟩) hM hse hroom.left
        rw [epochLoop_cons, runEpoch_eq hb ht hB h0 hT0 hsz, hnum]
        by_cases hl : e.1.length = k
        · rw [if_pos hl]
          obtain ⟨o, ho⟩ := b1 e.1 (by omega)
          simp only [ho, Res.bind_ok]
          cases o with
          | none =>
            simp only [Option.map_none, epochLoop_none]
            exact ⟨⟨_, rfl⟩, fun M' h => absurd (Res.ok.inj h) (by simp)⟩
          | some o =>
            obtain ⟨ds', m, k1, k2, k3, k4⟩ := b3 e.1 o (by omega) ho
            simp only [Option.map_some]
            obtain ⟨i1, _⟩ := ih hk' k4 (hroom.right k1 k3)
            obtain ⟨i2, i3⟩ := i1 es hes
            refine ⟨i2, ?_⟩
            intro M' h
            obtain ⟨dss', ls', j1, j2, j3, j4⟩ := i3 M' h
            exact ⟨ds' ++ dss', ls', by rw [List.flatten_cons]; exact List.rel_append k1 j1, fun hT1 => by rw [k2 hT1, j2 hT1, List.flatten_cons],
              k3.append j3, j4⟩
        · rw [if_neg hl, Res.bind_ok]
          simp only [Option.map_none, epochLoop_none]
          exact ⟨⟨_, rfl⟩, fun M' h => absurd (Res.ok.inj h) (by simp)⟩
    · intro srcs he
      cases he with
      | @cons src _ srcs _ hse hes =>
        obtain ⟨_, b2, b3⟩ := Trains.batches hp hE hb ht h0 hB hT0 hT hr ds (sh := ⟨M, src, 0⟩) hM hse hroom.left
        obtain ⟨scheds, o, hl, ho⟩ := b2
        obtain ⟨ds', m, k1, _, k3, k4⟩ := b3 scheds o hl ho
        obtain ⟨_, i2⟩ := ih hk' k4 (hroom.right k1 k3)
        obtain ⟨es, M', j1, j2⟩ := i2 srcs hes
        refine ⟨(scheds, src) :: es, M', by simp [j1], ?_⟩
        rw [epochLoop_cons, runEpoch_eq hb ht hB h0 hT0 hsz, hnum, if_pos (hl.trans hds)]
        simp only [ho, Res.bind_ok, Option.map_some, j2]

end Cnn
