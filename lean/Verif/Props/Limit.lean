import Verif.Lemmas.Limit
import Verif.Lemmas.LimitNet
import Verif.Lemmas.LimitBuild
import Verif.Lemmas.Sharp
import Verif.Props.Safe
import Verif.Props.Surrogate
import Mathlib.Order.Filter.Ultrafilter.Basic
/-!
# Property C87: training as the precision grows
-/
namespace Cnn.Train
open Filter Topology

/-- Both runs are complete, with models whose numbers differ by at most `ε`, or neither is. -/
def Agree (A : Arith) (ε : ℝ) : Option (Model A.carrier) → Option (Model ℝ) → Prop
  | none, none => True
  | some M, some M' => M.Rel (A.Near ε) M'
  | _, _ => False

/-- C87: a trained model is arbitrarily close to one trained without rounding, provided that the roundings are small enough.
Whatever the schedules, for every ε there is a δ: if roundings are within δ, and the model, the samples, the learning rate and
the random numbers are within δ of real ones, then training ends like a run without rounding, in which only the outcome of
comparing equal numbers is left open (a different one for each arithmetic), and all parameters are within ε of its parameters. -/
theorem C87_limit_partial (d : Nat → Nat → ℝ) (p : Hyper ℝ) (B T : Nat) (hp : p.batch = B) (hq : p.threads = T)
    (h0 : 0 < B) (hB : B < 2 ^ 24) (hT0 : 0 < T) (hT : T < 2147483648) (size : Nat) (hs0 : 0 < size) (hsz : size < 2 ^ 24)
    (M : Model ℝ) (s : Shape) (ks : List LayerKind) (hM : M.Runs s ks) (hk : KindsWork true s ks) (ha : KindsAvg ks) (hd : M.Drawn d)
    (epochs : List (List (List Nat) × List (Sample ℝ))) (hx : ∀ e ∈ epochs, ∀ x ∈ e.2, x.Fits s M.labels)
    (hfull : ∀ e ∈ epochs.head?, B ≤ e.2.length) (ε : ℝ) (hε : 0 < ε) :
    ∃ δ > 0, ∀ (A : Arith) (p' : Hyper A.carrier) (epochs' : List (List (List Nat) × List (Sample A.carrier))) (M' : Model A.carrier),
      A.Sharp δ → (∀ i n, A.Near δ (A.env.draws i n) (d i n)) → p'.Rel (A.Near δ) p →
      List.Forall₂ (EpochRel (A.Near δ)) epochs' epochs → M'.Rel (A.Near δ) M →
      ∃ o' o, train A.env p' size epochs' M' = .ok o' ∧ IdealRun d p size epochs M o ∧ Agree A ε o' o := by
  by_contra hne
  push Not at hne
  have hpos : ∀ k : ℕ, (0 : ℝ) < 1 / (k + 1) := fun k => by positivity
  have hbad := fun k : ℕ => hne (1 / (k + 1)) (hpos k)
  choose A p' epochs' M' h1 h2 h3 h4 h5 h6 using hbad
  let F : Family := ⟨A, fun k => 1 / ((k : ℝ) + 1), hyperfilter ℕ, h1, hpos,
    tendsto_one_div_add_atTop_nhds_zero_nat.mono_left (Nat.hyperfilter_le_atTop), d, h2⟩
  obtain ⟨tp, tp1, tp2⟩ := Family.hyper_lift (F := F) p' p h3
  obtain ⟨te, te1, te2⟩ := Family.list_lift (fun k (e : List (List Nat) × List (Sample F.Lim)) => (e.1, e.2.map (Sample.map (Family.Lim.at' (F := F) k))))
    (fun (e : List (List Nat) × List (Sample F.Lim)) => (e.1, e.2.map (Sample.map Family.Lim.val))) Family.epoch_lift epochs' epochs h4
  obtain ⟨tM, tM1, tM2⟩ := Family.model_lift (F := F) M' M h5
  have e1 : tp.batch = p.batch := by rw [← tp2]; rfl
  have e2 : tp.threads = p.threads := by rw [← tp2]; rfl
  have hlab : tM.labels = M.labels := by rw [← tM2]; rfl
  have hMT : tM.Runs s ks := Model.runs_of_map (φ := Family.Lim.val) (by rw [tM2]; exact hM)
  obtain ⟨o, ho⟩ := C70_train_partial (Family.Lim.env F) rfl tp B T (e1.trans hp) (e2.trans hq) h0 hB hT0 hT size hs0 hsz tM s ks hMT hk te
    (by
      intro e he x hxe
      have he' : (e.1, e.2.map (Sample.map Family.Lim.val)) ∈ epochs := by rw [← te2]; exact List.mem_map_of_mem he
      have := hx _ he' (x.map Family.Lim.val) (List.mem_map_of_mem hxe)
      rw [hlab]
      exact ⟨Matrix.has_of_map this.1, this.2⟩)
    (by
      intro e he
      have he' : (e.1, e.2.map (Sample.map Family.Lim.val)) ∈ epochs.head? := by
        rw [← te2, List.head?_map, Option.mem_def.1 he]; rfl
      simpa using hfull _ he')
  have hu : u64 tp.batch ≠ 0 := by
    rw [e1, hp]
    unfold u64
    omega
  have hS := Model.sane_of hMT hk ha (D := fun i => ∀ n, d i n ≠ 0) (fun i l L hl hL => by
    refine hd i (l.map Family.Lim.val) (L.map Family.Lim.val) ?_ ?_
    · rw [← tM2, Model.map_layers, hl]; rfl
    · show l.body.map _ = _
      rw [hL]; rfl) hu
  have key := (Family.follow F).train te tM hS ho
  have hnear : ∀ᶠ k in F.U, ∀ q, o = some q → (q.map (Family.Lim.at' k)).Rel ((F.arith k).Near ε) (q.map Family.Lim.val) := by
    cases o with
    | none => exact .of_forall fun k q h => by cases h
    | some q => filter_upwards [Family.model_near hε q] with k h q' h'; cases h'; exact h
  obtain ⟨k, hk1, hk2⟩ := (key.and hnear).exists
  obtain ⟨o', ho'⟩ := hk1.total trivial
  have hrel := hk1.rel o' ho'
  rw [tp1, te1, tM1] at ho'
  refine h6 k o' (o.map (Model.map Family.Lim.val)) ho' ?_ ?_
  · exact ⟨F.Lim, inferInstance, inferInstance, inferInstance, inferInstance, inferInstance, inferInstance, inferInstance, Family.Lim.env F,
      Family.Lim.val, tp, te, tM, o, Family.Lim.ideal F, rfl, fun i n => Family.Lim.val_mk (Family.conv_near fun k => F.draws k i n), tp2, te2, tM2, ho, rfl⟩
  · cases o with
    | none => cases o' with
      | none => trivial
      | some _ => exact hrel.elim
    | some q => cases o' with
      | none => exact hrel.elim
      | some q' =>
        have : q' = q.map (Family.Lim.at' k) := hrel
        subst this
        exact hk2 q rfl

/-- Without comparisons there is only one run without rounding. -/
theorem idealRun_exact {d : Nat → Nat → ℝ} {p : Hyper ℝ} {size : Nat} {epochs : List (List (List Nat) × List (Sample ℝ))} {M : Model ℝ}
    {o : Option (Model ℝ)} (h : IdealRun d p size epochs M o) {s : Shape} {ks : List LayerKind} (hM : M.Runs s ks) (hk : KindsWork true s ks)
    (ha : KindsAvg ks) (hd : M.Drawn d) (hS : M.Smooth) (hu : u64 p.batch ≠ 0) {r : Option (Model ℝ)}
    (hr : train (exactWith d) p size epochs M = .ok r) : r = o := by
  obtain ⟨α, _, _, _, _, _, _, _, E, val, p', epochs', M', o', hI, hE, hd', rfl, rfl, rfl, ho, rfl⟩ := h
  have hs := Model.sane_of (Model.runs_of_map hM) hk ha (D := fun i => ∀ n, d i n ≠ 0) (fun i l L hl hL => by
    refine hd i (l.map val) (L.map val) ?_ ?_
    · rw [Model.map_layers, hl]; rfl
    · show l.body.map _ = _
      rw [hL]; rfl) hu
  have hs' : M'.Smooth := by
    intro i l hl
    have := hS i (l.map val) (by rw [Model.map_layers, hl]; rfl)
    cases l with | mk name b => cases b <;> first | trivial | exact this
  have key := (follow_val hI hE hd').train epochs' M' ?_ ho
  · have hrel := (Filter.eventually_pure.1 key).rel r hr
    cases o' with
    | none => cases r with
      | none => rfl
      | some _ => exact hrel.elim
    | some q => cases r with
      | none => exact hrel.elim
      | some q' => exact congrArg some hrel
  · refine fun i l hl => ⟨hs i l hl, ?_⟩
    unfold Model.setBatchSize at hl
    simp only [List.getElem?_map] at hl
    cases e : M'.layers[i]? with
    | none => rw [e] at hl; cases hl
    | some l' =>
      rw [e] at hl
      cases hl
      have := hs' i l' e
      cases l' with | mk name b => cases b <;> first | trivial | exact this

theorem exact_eq {E : Env ℝ} (hE : E.Exact) : E = exactWith E.draws := by
  obtain ⟨h1, h2, h3⟩ := hE
  cases E
  simp only at h1 h2 h3
  subst h1 h2 h3
  rfl

theorem served {labels : List (List Char)} {s : Shape} {ess : List (List (Tensor × Nat))} {epochs : List (List (List Nat) × List (Sample ℝ))}
    (he : List.Forall₂ (fun e es => List.Forall₂ (Sample.Is labels s) e.2 es) epochs ess) :
    ∀ e ∈ epochs, (∃ es ∈ ess, e.2.length = es.length) ∧ ∀ x ∈ e.2, x.Fits s labels := by
  have hfits : ∀ (xs : List (Sample ℝ)) (es : List (Tensor × Nat)), List.Forall₂ (Sample.Is labels s) xs es → ∀ x ∈ xs, x.Fits s labels := by
    intro xs es h
    induction h with
    | nil => simp
    | cons h _ ih =>
      intro x hx
      rcases List.mem_cons.1 hx with rfl | hx
      · exact ⟨⟨_, h.data⟩, List.mem_of_getElem? h.label⟩
      · exact ih x hx
  induction he with
  | nil => simp
  | cons h _ ih =>
    intro e he
    rcases List.mem_cons.1 he with rfl | he
    · exact ⟨⟨_, by simp, h.length_eq⟩, hfits _ _ h⟩
    · obtain ⟨⟨es, h1, h2⟩, h3⟩ := ih e he
      exact ⟨⟨es, List.mem_cons_of_mem _ h1, h2⟩, h3⟩

/-- C87: without MAX pooling and with sigmoid, linear or tangent activations only, the trained model is arbitrarily close to the
one that exact arithmetic gives. -/
theorem C87_smooth_partial (E : Env ℝ) (hE : E.Exact) (p : Hyper ℝ) (B T : Nat) (hp : p.batch = B) (hq : p.threads = T)
    (h0 : 0 < B) (hB : B < 2 ^ 24) (hT0 : 0 < T) (hT : T < 2147483648) (size : Nat) (hs0 : 0 < size) (hsz : size < 2 ^ 24)
    (M : Model ℝ) (s : Shape) (ks : List LayerKind) (hM : M.Runs s ks) (hk : KindsWork true s ks) (ha : KindsAvg ks) (hd : M.Drawn E.draws)
    (hS : M.Smooth) (epochs : List (List (List Nat) × List (Sample ℝ))) (hx : ∀ e ∈ epochs, ∀ x ∈ e.2, x.Fits s M.labels)
    (hfull : ∀ e ∈ epochs.head?, B ≤ e.2.length) (ε : ℝ) (hε : 0 < ε) :
    ∃ δ > 0, ∀ (A : Arith) (p' : Hyper A.carrier) (epochs' : List (List (List Nat) × List (Sample A.carrier))) (M' : Model A.carrier),
      A.Sharp δ → (∀ i n, A.Near δ (A.env.draws i n) (E.draws i n)) → p'.Rel (A.Near δ) p →
      List.Forall₂ (EpochRel (A.Near δ)) epochs' epochs → M'.Rel (A.Near δ) M →
      ∃ o' o, train A.env p' size epochs' M' = .ok o' ∧ train E p size epochs M = .ok o ∧ Agree A ε o' o := by
  have hEq := exact_eq hE
  obtain ⟨r, hr⟩ := C70_train_partial E hE.order p B T hp hq h0 hB hT0 hT size hs0 hsz M s ks hM hk epochs hx hfull
  have hu : u64 p.batch ≠ 0 := by
    rw [hp]
    unfold u64
    omega
  obtain ⟨δ, hδ, key⟩ := C87_limit_partial E.draws p B T hp hq h0 hB hT0 hT size hs0 hsz M s ks hM hk ha hd epochs hx hfull ε hε
  refine ⟨δ, hδ, fun A p' epochs' M' h1 h2 h3 h4 h5 => ?_⟩
  obtain ⟨o', o, k1, k2, k3⟩ := key A p' epochs' M' h1 h2 h3 h4 h5
  obtain rfl : r = o := idealRun_exact k2 hM hk ha hd hS hu (by rw [← hEq]; exact hr)
  exact ⟨o', r, k1, hr, k3⟩

/-- C87: such a network, trained in rounded arithmetic, ends arbitrarily close to where gradient descent takes it (with the
gradients that the code remembers, C82, and the derivatives that it computes, C83; several threads: some outcome of C82). -/
theorem C87_descent_partial (E : Env ℝ) (hE : E.Exact) (p : Hyper ℝ) (B T size : Nat) (hp : p.batch = B) (hq : p.threads = T)
    (h0 : 0 < B) (hT0 : 0 < T) (hT : T < 2147483648) (hBs : B ≤ size) (hsz : size < 2 ^ 24) (M : Model ℝ) (b : Nat) (s : Shape)
    (ls : List NetLayer) (n : Nat) (hD : M.Denotes b s ls n) (hfit : NetFits ls s) (htr : NetTrains true ls s) (hev : ∀ l ∈ ls, l.Even)
    (ess : List (List (Tensor × Nat))) (hk : ∀ es ∈ ess, es.length = size) (epochs : List (List (List Nat) × List (Sample ℝ)))
    (he : List.Forall₂ (fun e es => List.Forall₂ (Sample.Is M.labels s) e.2 es) epochs ess) (ε : ℝ) (hε : 0 < ε) :
    ∃ δ > 0, ∀ (A : Arith) (p' : Hyper A.carrier) (epochs' : List (List (List Nat) × List (Sample A.carrier))) (M' : Model A.carrier),
      A.Sharp δ → (∀ i n, A.Near δ (A.env.draws i n) (E.draws i n)) → p'.Rel (A.Near δ) p →
      List.Forall₂ (EpochRel (A.Near δ)) epochs' epochs → M'.Rel (A.Near δ) M →
      ∃ o', train A.env p' size epochs' M' = .ok o' ∧ ∀ q', o' = some q' → ∃ q, q'.Rel (A.Near ε) q ∧
        (∃ out, StaleLeads (fun ls x => netSurrogate ls s x) p.rate s n (ess.flatMap (batchesOf B)) [] ls out ∧ q.Denotes 0 s out n) ∧
        (T = 1 → q.Denotes 0 s (staleDescents (fun ls x => netSurrogate ls s x) p.rate s n (ess.flatMap (batchesOf B)) [] ls) n) := by
  obtain ⟨hR, hW⟩ := hD.runs hfit htr
  obtain ⟨δ, hδ, key⟩ := C87_smooth_partial E hE p B T hp hq h0 (by omega) hT0 hT size (by omega) hsz M s _ hR hW (kindsAvg_of_even hev)
    (hD.drawn _) (hD.smooth hev) epochs
    (fun e h => (served he e h).2)
    (fun e h => by
      obtain ⟨⟨es, h1, h2⟩, _⟩ := served he e (List.mem_of_mem_head? h)
      rw [h2, hk es h1]
      exact hBs) ε hε
  refine ⟨δ, hδ, fun A p' epochs' M' h1 h2 h3 h4 h5 => ?_⟩
  obtain ⟨o', o, k1, k2, k3⟩ := key A p' epochs' M' h1 h2 h3 h4 h5
  refine ⟨o', k1, ?_⟩
  rintro q' rfl
  cases o with
  | none => exact k3.elim
  | some q =>
    refine ⟨q, k3, ((C83_threads_partial E hE p B T size hp hq h0 hT0 hT hBs hsz M b s ls n hD hfit htr ess hk).1 epochs he).2 q k2, ?_⟩
    rintro rfl
    exact ((C83_train_partial E hE p B size hp hq h0 hBs hsz M b s ls n hD hfit htr ess hk).1 epochs he).2 q k2

/-- C87, from building on: the `add…` calls in rounded arithmetic with random numbers close to `d`, then training. -/
theorem C87_build_partial (d : Nat → Nat → ℝ) (hd : ∀ i n, d i n ≠ 0) (ks : List LayerKind) (labels : List (List Char)) (s : Shape)
    (hs : 0 < s.X * s.Y * s.Z) (hk : KindsWork true s ks) (ha : KindsAvg ks)
    (hout : kindsOut ks s = ⟨labels.length, 1, 1⟩ ∨ kindsOut ks s = ⟨1, labels.length, 1⟩)
    (p : Hyper ℝ) (B T : Nat) (hp : p.batch = B) (hq : p.threads = T)
    (h0 : 0 < B) (hB : B < 2 ^ 24) (hT0 : 0 < T) (hT : T < 2147483648) (size : Nat) (hs0 : 0 < size) (hsz : size < 2 ^ 24)
    (epochs : List (List (List Nat) × List (Sample ℝ))) (hx : ∀ e ∈ epochs, ∀ x ∈ e.2, x.Fits s labels)
    (hfull : ∀ e ∈ epochs.head?, B ≤ e.2.length) (ε : ℝ) (hε : 0 < ε) :
    ∃ δ > 0, ∀ (A : Arith) (p' : Hyper A.carrier) (epochs' : List (List (List Nat) × List (Sample A.carrier))),
      A.Sharp δ → (∀ i n, A.Near δ (A.env.draws i n) (d i n)) → p'.Rel (A.Near δ) p → List.Forall₂ (EpochRel (A.Near δ)) epochs' epochs →
      ∃ M' M o' o, buildModel A.env.num A.env.draws ks labels = .ok M' ∧ buildModel Num.real d ks labels = .ok M ∧
        train A.env p' size epochs' M' = .ok o' ∧ IdealRun d p size epochs M o ∧ Agree A ε o' o := by
  obtain ⟨M, e, hl, hR⟩ := buildModel_runs Num.real d ks labels hk hs hout
  obtain ⟨δ₁, h₁, key⟩ := C87_limit_partial d p B T hp hq h0 hB hT0 hT size hs0 hsz M s ks hR hk ha (fun i _ _ _ _ => .inr (hd i)) epochs
    (by rw [hl]; exact hx) hfull ε hε
  obtain ⟨δ₂, h₂, build⟩ := build_near d hd ks labels s hs hk hout δ₁ h₁
  refine ⟨min δ₁ δ₂, lt_min h₁ h₂, fun A p' epochs' hA hA' hp' he' => ?_⟩
  have hpos := lt_min h₁ h₂
  have m₁ := min_le_left δ₁ δ₂
  have m₂ := min_le_right δ₁ δ₂
  obtain ⟨M', N, b1, b2, b3⟩ := build A (hA.mono hpos m₂) fun i n => (hA' i n).mono m₂
  obtain rfl : M = N := Res.ok.inj (e.symm.trans b2)
  obtain ⟨o', o, k1, k2, k3⟩ := key A p' epochs' M' (hA.mono hpos m₁) (fun i n => (hA' i n).mono m₁) (hp'.mono fun _ _ h => h.mono m₁)
    (he'.imp fun _ _ h => h.mono fun _ _ h => h.mono m₁) b3
  exact ⟨M', M, o', o, b1, b2, k1, k2, k3⟩

/-- C87: a network that compares no numbers, built and trained in rounded arithmetic, ends arbitrarily close to where gradient
descent takes the network with the exact random weights. -/
theorem C87_build_descent_partial (E : Env ℝ) (hE : E.Exact) (hd : ∀ i n, E.draws i n ≠ 0) (ks : List LayerKind)
    (labels : List (List Char)) (s : Shape) (hs : 0 < s.X * s.Y * s.Z) (hks : AllSized E.draws 0 s ks)
    (hfit : NetFits (drawnNet E.draws 0 s ks) s) (htr : NetTrains true (drawnNet E.draws 0 s ks) s)
    (hev : ∀ l ∈ drawnNet E.draws 0 s ks, l.Even)
    (hout : netOut (drawnNet E.draws 0 s ks) s = ⟨labels.length, 1, 1⟩ ∨ netOut (drawnNet E.draws 0 s ks) s = ⟨1, labels.length, 1⟩)
    (p : Hyper ℝ) (B T size : Nat) (hp : p.batch = B) (hq : p.threads = T)
    (h0 : 0 < B) (hT0 : 0 < T) (hT : T < 2147483648) (hBs : B ≤ size) (hsz : size < 2 ^ 24)
    (ess : List (List (Tensor × Nat))) (hne : ess ≠ []) (hk : ∀ es ∈ ess, es.length = size) (epochs : List (List (List Nat) × List (Sample ℝ)))
    (he : List.Forall₂ (fun e es => List.Forall₂ (Sample.Is labels s) e.2 es) epochs ess) (ε : ℝ) (hε : 0 < ε) :
    ∃ δ > 0, ∀ (A : Arith) (p' : Hyper A.carrier) (epochs' : List (List (List Nat) × List (Sample A.carrier))),
      A.Sharp δ → (∀ i n, A.Near δ (A.env.draws i n) (E.draws i n)) → p'.Rel (A.Near δ) p → List.Forall₂ (EpochRel (A.Near δ)) epochs' epochs →
      ∃ M' o', buildModel A.env.num A.env.draws ks labels = .ok M' ∧ train A.env p' size epochs' M' = .ok o' ∧
        ∀ q', o' = some q' → ∃ q, q'.Rel (A.Near ε) q ∧
          (∃ out, StaleLeads (fun ls x => netSurrogate ls s x) p.rate s labels.length (ess.flatMap (batchesOf B)) [] (drawnNet E.draws 0 s ks) out ∧
            q.Denotes 0 s out labels.length) ∧
          (T = 1 → q.Denotes 0 s (staleDescents (fun ls x => netSurrogate ls s x) p.rate s labels.length (ess.flatMap (batchesOf B)) []
            (drawnNet E.draws 0 s ks)) labels.length) := by
  obtain ⟨hW, ho⟩ := kinds_of_drawn E.draws ks 0 true s hks hfit htr
  have ha := kindsAvg_of_drawn hev
  obtain ⟨M, bM, hc, _⟩ := C83_build_partial E hE p B T size hp hq h0 hT0 hT hBs hsz ks labels s hks hfit htr hout ess hne hk
  rw [hE.num] at bM
  obtain ⟨c1, c2⟩ := hc epochs he
  obtain ⟨δ, hδ, key⟩ := C87_build_partial E.draws hd ks labels s hs hW ha (by rw [ho]; exact hout) p B T hp hq h0 (by omega) hT0 hT size (by omega) hsz
    epochs
    (fun e h => (served he e h).2)
    (fun e h => by
      obtain ⟨⟨es, h1, h2⟩, _⟩ := served he e (List.mem_of_mem_head? h)
      rw [h2, hk es h1]
      exact hBs) ε hε
  refine ⟨δ, hδ, fun A p' epochs' h1 h2 h3 h4 => ?_⟩
  obtain ⟨M', N, o', o, k1, k2, k3, k4, k5⟩ := key A p' epochs' h1 h2 h3 h4
  obtain rfl : M = N := Res.ok.inj (bM.symm.trans k2)
  obtain ⟨N, b, _, hR⟩ := buildModel_runs Num.real E.draws ks labels hW hs (by rw [ho]; exact hout)
  obtain rfl : M = N := Res.ok.inj (bM.symm.trans b)
  refine ⟨M', o', k1, k3, ?_⟩
  rintro q' rfl
  obtain ⟨r, hr⟩ := c1
  have hEq := exact_eq hE
  have hu : u64 p.batch ≠ 0 := by
    rw [hp]
    unfold u64
    omega
  obtain rfl : r = o := idealRun_exact k4 hR hW ha (fun i _ _ _ _ => .inr (hd i)) (build_smooth hev bM) hu (by rw [← hEq]; exact hr)
  cases r with
  | none => exact k5.elim
  | some q => exact ⟨q, k5, c2 q hr⟩

/-! ### Examples -/

theorem shortSource_sigmoid : List.Forall₂ (Sample.Is sigmoidModel.labels ⟨1, 1, 1⟩) shortSource shortData := shortSource_is

/-- The assumptions can be met for every δ, by fixed-point arithmetic with enough digits: training the SIGMOID network there
ends, and if the schedule is complete, the parameters are as close to those of gradient descent as desired. -/
example (ε : ℝ) (hε : 0 < ε) (sch : List (List Nat)) : ∃ (k : Nat) (hk : 27 ≤ k),
    ∃ o', train (Fixed.machine hk fun _ _ => Fixed.of k 0).env ((⟨1, 2, 1, 1⟩ : Hyper ℝ).map (Fixed.of k)) 3
        [(sch, shortSource.map (Sample.map (Fixed.of k)))] (sigmoidModel.map (Fixed.of k)) = .ok o' ∧
      ∀ q', o' = some q' → ∃ q, q'.Rel ((Fixed.machine hk fun _ _ => Fixed.of k 0).Near ε) q ∧
        q.Denotes 0 ⟨1, 1, 1⟩ (staleDescents (fun ls x => netSurrogate ls ⟨1, 1, 1⟩ x) 1 ⟨1, 1, 1⟩ 2 ([shortData].flatMap (batchesOf 2)) [] sigmoidNet) 2 := by
  obtain ⟨δ, hδ, key⟩ := C87_descent_partial exactEnv ⟨rfl, rfl, rfl⟩ ⟨1, 2, 1, 1⟩ 2 1 3 rfl rfl (by omega) (by omega) (by omega) (by omega) (by omega)
    sigmoidModel 0 ⟨1, 1, 1⟩ sigmoidNet 2 sigmoidModel_denotes sigmoidNet_fits sigmoidNet_trains
    (by simp [sigmoidNet, NetLayer.Even]) [shortData] (by simp [shortData]) [(sch, shortSource)] (.cons shortSource_sigmoid .nil) ε hε
  obtain ⟨k, hk⟩ : ∃ k : Nat, (1 / 2 ^ k : ℝ) < δ := by
    obtain ⟨k, hk⟩ := exists_pow_lt_of_lt_one hδ (show (1 / 2 : ℝ) < 1 by norm_num)
    exact ⟨k, by rwa [one_div_pow] at hk⟩
  have hle : (1 / 2 ^ (k + 27) : ℝ) ≤ δ :=
    (one_div_le_one_div_of_le (by positivity) (pow_le_pow_right₀ (by norm_num) (by omega))).trans hk.le
  have hn : ∀ x, (Fixed.machine (k := k + 27) (by omega) fun _ _ => Fixed.of _ 0).Near δ (Fixed.of (k + 27) x) x :=
    fun x => ⟨Fixed.of_fin x, (Fixed.of_near x).trans hle⟩
  obtain ⟨o', h1, h2⟩ := key (Fixed.machine (k := k + 27) (by omega) fun _ _ => Fixed.of _ 0) _ _ _
    ((Fixed.machine_sharp _ _).mono (by positivity) hle) (fun i n => hn 0) (Hyper.rel_map hn _) (epochs_rel_map hn _) (Model.rel_map hn _)
  refine ⟨k + 27, by omega, o', h1, fun q' hq => ?_⟩
  obtain ⟨q, h3, _, h4⟩ := h2 q' hq
  exact ⟨q, h3, h4 rfl⟩

/-- A sample for the network `safeKinds` of Props/Safe.lean, which has RELU and MAX layers. -/
def safeSample : Sample ℝ := ⟨⟨dimN 8 8 1, (List.range 64).map fun n => (n : ℝ)⟩, "a".toList⟩

theorem safeSample_fits : safeSample.Fits ⟨8, 8, 1⟩ ["a".toList, "b".toList] := by
  refine ⟨⟨fun i j k => ((i + 8 * (j + 8 * k) : Nat) : ℝ), Matrix.Shows.of_vals ⟨by decide, by decide, by decide, by decide⟩ rfl ?_⟩, by simp [safeSample]⟩
  simp [safeSample, List.range_succ]
  norm_num

/-- The assumptions of `C87_build_partial` can be met by a network of all kinds of layers, in fixed-point arithmetic. -/
example (ε : ℝ) (hε : 0 < ε) (sch : List (List Nat)) : ∃ (k : Nat) (hk : 27 ≤ k), ∃ M' M o' o,
    buildModel (Fixed.machine hk fun _ _ => Fixed.of k 1).env.num (Fixed.machine hk fun _ _ => Fixed.of k 1).env.draws safeKinds
      ["a".toList, "b".toList] = .ok M' ∧
    buildModel Num.real (fun _ _ => 1) safeKinds ["a".toList, "b".toList] = .ok M ∧
    train (Fixed.machine hk fun _ _ => Fixed.of k 1).env ((⟨1, 1, 4, 1⟩ : Hyper ℝ).map (Fixed.of k)) 1
      [(sch, [safeSample.map (Fixed.of k)])] M' = .ok o' ∧
    IdealRun (fun _ _ => 1) ⟨1, 1, 4, 1⟩ 1 [(sch, [safeSample])] M o ∧ Agree (Fixed.machine hk fun _ _ => Fixed.of k 1) ε o' o := by
  obtain ⟨δ, hδ, key⟩ := C87_build_partial (fun _ _ => 1) (by simp) safeKinds ["a".toList, "b".toList] ⟨8, 8, 1⟩ (by decide)
    ⟨⟨by decide, rfl, ⟨by decide, by decide, by decide⟩, Or.inl rfl⟩, trivial, ⟨by decide, by decide, by decide, by decide, by decide, by decide, by decide, by decide⟩,
      ⟨by decide, rfl, ⟨by decide, by decide, by decide⟩, Or.inr ⟨by decide, by decide⟩⟩, ⟨by decide, by decide⟩, trivial⟩
    (by intro px py sx sy h; simp [safeKinds] at h) (Or.inl rfl) ⟨1, 1, 4, 1⟩ 1 4 rfl rfl (by omega) (by omega) (by omega) (by omega) 1 (by omega) (by omega)
    [(sch, [safeSample])] (by simpa using safeSample_fits) (by simp) ε hε
  obtain ⟨k, hk⟩ : ∃ k : Nat, (1 / 2 ^ k : ℝ) < δ := by
    obtain ⟨k, hk⟩ := exists_pow_lt_of_lt_one hδ (show (1 / 2 : ℝ) < 1 by norm_num)
    exact ⟨k, by rwa [one_div_pow] at hk⟩
  have hle : (1 / 2 ^ (k + 27) : ℝ) ≤ δ :=
    (one_div_le_one_div_of_le (by positivity) (pow_le_pow_right₀ (by norm_num) (by omega))).trans hk.le
  have hn : ∀ x, (Fixed.machine (k := k + 27) (by omega) fun _ _ => Fixed.of _ 1).Near δ (Fixed.of (k + 27) x) x :=
    fun x => ⟨Fixed.of_fin x, (Fixed.of_near x).trans hle⟩
  obtain ⟨M', M, o', o, h⟩ := key (Fixed.machine (k := k + 27) (by omega) fun _ _ => Fixed.of _ 1) _ _
    ((Fixed.machine_sharp _ _).mono (by positivity) hle) (fun i n => hn 1) (Hyper.rel_map hn _) (epochs_rel_map hn _)
  exact ⟨k + 27, by omega, M', M, o', o, h⟩

/-- The precision of binary64, with the conversion of records to `float`. -/
example : (Double.machine fun _ _ => 0).Sharp (1 / 2 ^ 23) := Double.machine_sharp _

end Cnn.Train
