import Verif.Lemmas.Reproduce
import Verif.Lemmas.FullAlone
import Verif.Lemmas.DoubleExact
import Verif.Props.StepRounding
import Verif.Props.NotANumber
/-!
# Property C101: training again gives the same parameters
-/
namespace Cnn
open Model Train
variable {α : Type} [Zero α] [One α] [Add α] [Sub α] [Mul α] [Div α] [Neg α]

/-- C101 with one thread: two calls of `train` with the same model, samples and hyperparameters that both end give the same
model, whatever the arithmetic does. -/
theorem C101_one_thread (E : Env α) (p : Hyper α) (hT : p.threads = 1) (size : Nat) (M : Model α) (es es' : List (List (List Nat) × List (Sample α)))
    (hs : es.map Prod.snd = es'.map Prod.snd) (N N' : Model α) (h : train E p size es M = .ok (some N)) (h' : train E p size es' M = .ok (some N')) :
    N = N' := train_determined hT hs h h'

/-- It applies: training of a small model in binary64 with one thread ends, and always with the same model. -/
example : ∃ es N, es.map Prod.snd = [[roundSample]] ∧ train doubleEnv roundHyper 1 es (roundModel (bigDouble 900)) = .ok (some N) ∧
    ∀ es' N', es'.map Prod.snd = [[roundSample]] → train doubleEnv roundHyper 1 es' (roundModel (bigDouble 900)) = .ok (some N') → N' = N := by
  obtain ⟨es, N, h1, h2⟩ := C70_train_ends doubleEnv rfl roundHyper 1 1 rfl rfl (by decide) (by decide) (by decide) (by decide) 1 (by decide) (by decide)
    (roundModel (bigDouble 900)) ⟨1, 1, 1⟩ [.full 2] (roundModel_runs _) roundKinds_work [[roundSample]] rfl
    (by simpa using roundSample_fits _) (by simp)
  exact ⟨es, N, h1, h2, fun es' N' h3 h4 => C101_one_thread doubleEnv roundHyper rfl 1 _ es' es (h3.trans h1.symm) N' N h4 h2⟩

/-- C101 with one thread, for an epoch: the same samples are used in the same order with the same answers. -/
theorem C101_one_thread_epoch (E : Env α) (p : Hyper α) (hT : p.threads = 1) (size : Nat) (sh : Shared α) (cs cs' : List (List Nat))
    (q q' : Shared α × List (Event α)) (h : runEpoch E p size cs sh = .ok (some q)) (h' : runEpoch E p size cs' sh = .ok (some q')) : q = q' :=
  runEpoch_determined hT h h'

/-- C101 in general: with a thread for each sample of the batch, every order of the samples is the order of the slots in some
run in which each sample is used with its own label; and whenever the samples are in the slots in an order `used`, the
parameters are those of `applyGrads` on the gradients of the samples on their own in this order. -/
theorem C101_orders (E : Env α) (p : Hyper α) (B T : Nat) (hp : p.batch = B) (hq : p.threads = T) (hB : B < 2 ^ 24) (h0 : 0 < B)
    (hT : T < 2147483648) (sh : Shared α) (hM : sh.model.Prepared B) (hfull : B ≤ sh.source.length)
    (hal : ∀ x ∈ sh.source.take B, ∀ y ∈ sh.source.take B, ∃ m, alone E sh.model ⟨x.data, y.label⟩ = .ok m)
    (hsize : ∀ i W Bi, sh.model.params i = some (W, Bi) → ∃ X Y Z F w, ∃ β : Nat → α, W.Shows X Y Z w ∧ Bi.Shows F 1 1 (fun f _ _ => β f) ∧
      ∀ x ∈ sh.source.take B, ∀ y ∈ sh.source.take B, ∃ G H u v, ownGrads E sh.model ⟨x.data, y.label⟩ i = some (G, H) ∧ G.Reads X Y Z u ∧ H.Reads F 1 1 v) :
    (B ≤ T → ∀ used : List (Sample α), used.Perm (sh.source.take B) →
      ∃ sched q, runBatch E p sched sh = .ok (some q) ∧ OwnLabels sh.model q.2 ∧ ∀ e ∈ fetches q.2, used[e.2.1]? = some e.2.2) ∧
    ∀ (sched : List Nat) (q : Shared α × List (Event α)) (used : List (Sample α)), runBatch E p sched sh = .ok (some q) → OwnLabels sh.model q.2 →
      used.length = B → (∀ e ∈ fetches q.2, used[e.2.1]? = some e.2.2) → ∀ i W Bi, sh.model.params i = some (W, Bi) →
      ∃ (gs : List (Matrix α × Matrix α)) (r : Matrix α × Matrix α), used.map (ownGrads E sh.model · i) = gs.map some ∧
        applyGrads E.num p.rate W Bi (gs.map (·.1)) (gs.map (·.2)) = .ok r ∧ q.1.model.params i = some r :=
  ⟨fun hBT _ hu => runBatch_arranged hp hq hB h0 hBT hT hM hfull hal hsize hu,
    fun _ _ _ h hown hlen hu _ _ _ hpar => runBatch_slots hp hq hB hM hfull h hown hlen hu hpar⟩

/-- C101 up to rounding: two runs of a batch in which each sample is used with its own label end with parameters that differ
by at most twice the error of a step (C99). -/
theorem C101_close_partial (E : Env α) (p : Precision) (hp : p.Ok) (F : Floating E.num p) (q : Conversion) (hE : E.Rounds F q) (h : Hyper α) (B T : Nat)
    (hb : h.batch = B) (ht : h.threads = T) (h0 : 0 < B) (hB : B < 2 ^ 24) (hT0 : 0 < T) (hT : T < 2147483648) (hr : F.Fin h.rate) (sh : Shared α)
    (hM : sh.model.Prepared B) (s : Shape) (ls : List NetLayer) (n : Nat) (hH : sh.model.Holds F 0 s ls n)
    (hR : SlottedAll 0 true s (sh.model.layers.map (·.body)) ls) (hfit : NetFits ls s) (htr : NetTrains true ls s) (hn : (n : ℝ) + 1 ≤ p.Ω)
    (hs : p.sumErr n ≤ 1 / 2) (ds : List Datum) (hl : ds.length = B) (hd : List.Forall₂ (Sample.Near F sh.model.labels s) (sh.source.take B) ds)
    (ε : ℝ) (hroom : RoomFor p q (F.val h.rate) n ε s ds ls) (sched sched' : List Nat) (o o' : Shared α × List (Event α))
    (ho : runBatch E h sched sh = .ok (some o)) (ho' : runBatch E h sched' sh = .ok (some o')) (hown : OwnLabels sh.model o.2)
    (hown' : OwnLabels sh.model o'.2) :
    ∃ ls₁ ls₂, o.1.model.Holds F 0 s ls₁ n ∧ o'.1.model.Holds F 0 s ls₂ n ∧ ls₁.length = ls.length ∧ ls₂.length = ls.length ∧
      ∀ i l, ls[i]? = some l → ∃ w₁ β₁ w₂ β₂, ls₁[i]? = some (l.withParams w₁ β₁) ∧ ls₂[i]? = some (l.withParams w₂ β₂) ∧ ∀ w β, l.params = some (w, β) →
        (∀ a < (l.weightShape (netOut (ls.take i) s)).X, ∀ b < (l.weightShape (netOut (ls.take i) s)).Y, ∀ c < (l.weightShape (netOut (ls.take i) s)).Z,
          |w₁ a b c - w₂ a b c| ≤ 2 * p.stepErr (F.val h.rate) (w a b c) (weightTerms p q n ε i ls s ds a b c)) ∧
        ∀ f < l.biasCount, |β₁ f - β₂ f| ≤ 2 * p.stepErr (F.val h.rate) (β f) (biasTerms p q n ε i ls s ds f) := by
  obtain ⟨_, _, hc⟩ := C99_batch_partial E p hp F q hE h B T hb ht h0 hB hT0 hT hr sh hM s ls n hH hR hfit htr hn hs ds hl hd ε hroom
  obtain ⟨d1, ls₁, _, e1, ⟨l1, s1⟩, m1, _⟩ := hc sched o ho
  obtain ⟨d2, ls₂, _, e2, ⟨l2, s2⟩, m2, _⟩ := hc sched' o' ho'
  obtain rfl := e1 hown
  obtain rfl := e2 hown'
  have near : ∀ {a b c e : ℝ}, |a - c| ≤ e → |b - c| ≤ e → |a - b| ≤ 2 * e := by
    intro a b c e h1 h2
    rw [abs_le] at *
    constructor <;> linarith [h1.1, h1.2, h2.1, h2.2]
  refine ⟨ls₁, ls₂, m1, m2, l1, l2, ?_⟩
  intro i l hi
  obtain ⟨w₁, β₁, g1, k1⟩ := s1 i l hi
  obtain ⟨w₂, β₂, g2, k2⟩ := s2 i l hi
  refine ⟨w₁, β₁, w₂, β₂, g1, g2, ?_⟩
  intro w β hpar
  obtain ⟨j1, j2⟩ := k1 w β hpar
  obtain ⟨j3, j4⟩ := k2 w β hpar
  exact ⟨fun a ha b hb c hc => near (j1 a ha b hb c hc) (j3 a ha b hb c hc), fun f hf => near (j2 f hf) (j4 f hf)⟩

/-- It applies: a batch of one sample and two threads in binary64; whichever thread takes the sample, the weights differ by
at most 1/25. -/
example (sched sched' : List Nat) (o o' : Shared Double × List (Event Double))
    (ho : runBatch doubleEnv ⟨1, 1, 2, 1⟩ sched ⟨(roundModel 1).setBatchSize 1, [⟨⟨dimN 1 1 1, [1]⟩, "b".toList⟩], 0⟩ = .ok (some o))
    (ho' : runBatch doubleEnv ⟨1, 1, 2, 1⟩ sched' ⟨(roundModel 1).setBatchSize 1, [⟨⟨dimN 1 1 1, [1]⟩, "b".toList⟩], 0⟩ = .ok (some o'))
    (hown : OwnLabels ((roundModel 1).setBatchSize 1) o.2) (hown' : OwnLabels ((roundModel 1).setBatchSize 1) o'.2) :
    ∃ w₁ β₁ w₂ β₂, o.1.model.Holds Double.floating 0 ⟨1, 1, 1⟩ [.full 2 w₁ β₁] 2 ∧ o'.1.model.Holds Double.floating 0 ⟨1, 1, 1⟩ [.full 2 w₂ β₂] 2 ∧
      |w₁ 1 0 0 - w₂ 1 0 0| ≤ 1 / 25 := by
  obtain ⟨_, _, _, hΩ⟩ := double_consts
  obtain ⟨f1, f2, f3, f4, f5⟩ := round_facts
  have h1 : (1 : Double).val = 1 := Double.floating.one.2
  have hrate : Double.floating.val (1 : Double) = 1 := Double.floating.one.2
  have hc : (roundModel 1).Carries (E := doubleEnv) Double.floating 0 ⟨1, 1, 1⟩ (roundNet 1) 2 :=
    ⟨by have := roundModel_holds Double.floating.one.1; rw [h1] at this; exact this, by have := slotted_round 1; rw [h1] at this; exact this⟩
  have hfit : NetFits (roundNet 1) ⟨1, 1, 1⟩ := ⟨trivial, trivial⟩
  have hn : List.Forall₂ (Sample.Near Double.floating ((roundModel 1).setBatchSize 1).labels ⟨1, 1, 1⟩)
      (List.take 1 [⟨⟨dimN 1 1 1, [1]⟩, "b".toList⟩]) [roundDatum 1] :=
    .cons ⟨by have := roundInput_near Double.floating.one.1; rw [h1] at this; exact this, rfl,
      by intro t ht; obtain rfl : t = 0 := Nat.lt_one_iff.1 ht; simp [roundModel, Model.setBatchSize]⟩ .nil
  obtain ⟨ls₁, ls₂, m1, m2, l1, l2, k⟩ := C101_close_partial doubleEnv Double.precision Double.precision_ok Double.floating _ double_rounds ⟨1, 1, 2, 1⟩ 1 2 rfl rfl
    (by omega) (by norm_num) (by omega) (by omega) Double.floating.one.1 ⟨(roundModel 1).setBatchSize 1, [⟨⟨dimN 1 1 1, [1]⟩, "b".toList⟩], 0⟩
    (hc.prepared hfit 1) ⟨1, 1, 1⟩ (roundNet 1) 2 (hc.setBatchSize (by omega)).1 (hc.setBatchSize (by omega)).2 hfit ⟨trivial, trivial⟩
    (le_trans (by norm_num) hΩ) f5 [roundDatum 1] rfl hn (1 / 2 ^ 20) (by rw [hrate]; exact round_roomFor) sched sched' o o' ho ho' hown hown'
  obtain ⟨w₁, β₁, w₂, β₂, e1, e2, e3⟩ := k 0 _ rfl
  obtain ⟨e4, _⟩ := e3 _ _ rfl
  have h3 := e4 1 (by decide) 0 (by decide) 0 (by decide)
  simp only [weightTerms, List.map_cons, List.map_nil, roundDatum] at h3
  obtain ⟨_, t2, _⟩ := step_single (w := 1) (by simp) (f2 1 1 (by omega)).1 (f2 1 1 (by omega)).2
  rw [hrate, Nat.cast_one, one_mul] at h3
  have one : ∀ {l : List NetLayer} {m : NetLayer}, l.length = (roundNet 1).length → l[0]? = some m → l = [m] := by
    intro l m h h0
    match l, h, h0 with
    | [_], _, h0 => exact congrArg (fun l => [l]) (Option.some.inj h0)
  refine ⟨w₁, β₁, w₂, β₂, ?_, ?_, by linarith⟩
  · rw [one l1 e1] at m1; exact m1
  · rw [one l2 e2] at m2; exact m2

/-! ### Two runs in binary64 that end differently -/

/-- The claim, in binary64 and only for runs in which each sample is used with its own label: the parameters after a batch do
not depend on the schedule. -/
def C101_claim : Prop := ∀ (p : Hyper Double) (B T : Nat), p.batch = B → p.threads = T → 0 < B → B < 2 ^ 24 → 0 < T → T < 2147483648 →
  ∀ sh : Shared Double, sh.model.Prepared B → B ≤ sh.source.length → ∀ sched sched' o o', runBatch doubleEnv p sched sh = .ok (some o) →
  runBatch doubleEnv p sched' sh = .ok (some o') → OwnLabels sh.model o.2 → OwnLabels sh.model o'.2 → ∀ i, o.1.model.params i = o'.1.model.params i

/-- A sample with one value. -/
noncomputable def oneValue (v : ℝ) : Sample Double := ⟨⟨dimN 1 1 1, [.num v]⟩, "a".toList⟩

noncomputable def orderModel : Model Double := (roundModel 0).setBatchSize 4

theorem orderModel_prepared : orderModel.Prepared 4 := (setBatchSize_shaped (roundModel_runs 0)).prepared roundKinds_work (setBatchSize_used (roundModel_used 0) 4)

/-- The gradients of the weights: half the value, down for "a" and up for "b". -/
theorem orderModel_grads {v : ℝ} (m e : ℤ) (hv : v = m * 2 ^ e) (hm : |m| < 2 ^ 24) (h1 : -100 ≤ e) (h2 : e ≤ 100) :
    (∃ m', alone doubleEnv orderModel (oneValue v) = .ok m') ∧ ∃ G H, ownGrads doubleEnv orderModel (oneValue v) 0 = some (G, H) ∧
      G.Shows 2 1 1 (fun i _ _ => if i = 0 then .num (-(v / 2)) else .num (v / 2)) ∧
      H.Shows 2 1 1 (fun i _ _ => if i = 0 then .num (-(1 / 2)) else .num (1 / 2)) := by
  have hm53 : |m| < 2 ^ 53 := hm.trans (by norm_num)
  have hhalf : v / 2 = m * 2 ^ (e - 1) := by rw [hv, zpow_sub_one₀ (by norm_num)]; ring
  have hof : Double.of (v / 2) = .num (v / 2) := Double.of_exact m (e - 1) hhalf hm53 (by omega) (by omega)
  have hofn : Double.of (-(v / 2)) = .num (-(v / 2)) :=
    Double.of_exact (-m) (e - 1) (by rw [hhalf]; push_cast; ring) (by rwa [abs_neg]) (by omega) (by omega)
  have c0 : Double.of 0 = .num 0 := Double.of_exact 0 0 (by simp) (by norm_num) (by norm_num) (by norm_num)
  have c1 : Double.of 1 = .num 1 := Double.of_exact 1 0 (by simp) (by norm_num) (by norm_num) (by norm_num)
  have c2 : Double.of 2 = .num 2 := Double.of_exact 2 0 (by simp) (by norm_num) (by norm_num) (by norm_num)
  have ch : Double.of (1 / 2) = .num (1 / 2) := Double.of_exact 1 (-1) (by norm_num) (by norm_num) (by norm_num) (by norm_num)
  have cn : Double.of (-(1 / 2)) = .num (-(1 / 2)) := Double.of_exact (-1) (-1) (by norm_num) (by norm_num) (by norm_num) (by norm_num)
  have cf : Double.toFloat (.num (1 / 2)) = .num (1 / 2) := Double.toFloat_exact 1 (-1) (by norm_num) (by norm_num) (by norm_num) (by norm_num)
  have cv : Double.toFloat (.num v) = .num v := Double.toFloat_exact m e hv hm (by omega) (by omega)
  have z : (0 : Double) = .num 0 := rfl
  have t1 : ∀ f : Nat → Double, sumTo 1 f = 0 + f 0 := fun _ => rfl
  have t2 : ∀ f : Nat → Double, sumTo 2 f = 0 + f 0 + f 1 := fun _ => rfl
  have logit : sumTo 1 (fun _ => (0 : Double) * .num v) + 0 = .num 0 := by
    rw [t1]
    simp only [z, Double.num_mul, zero_mul, c0, Double.num_add, add_zero]
  obtain ⟨m', q, t, DW, DB, p, _, _, ht, hp, ha, hst, sW, sB⟩ := full_alone (E := doubleEnv) rfl (M := orderModel) (L := (roundLayer 0).setBatchSize 4)
    (S := Softmax.new 2) (nm := []) (nm' := []) rfl (n := 2) (X := 1) (Y := 1) (Z := 1) (w := fun _ _ => 0) (β := fun _ => 0)
    ⟨Matrix.Shows.of_vals ⟨by omega, by decide, by omega, by decide⟩ rfl (by simp [roundLayer, Connected.setBatchSize, List.range_succ]),
      Matrix.Shows.of_vals ⟨by omega, by omega, by omega, by omega⟩ rfl (by simp [roundLayer, Connected.setBatchSize, List.range_succ]), rfl⟩ rfl rfl
    (D := (oneValue v).data) (x := fun _ _ _ => .num v) (Matrix.Shows.of_vals ⟨by decide, by decide, by decide, by decide⟩ rfl (by simp [oneValue]))
    (label := "a".toList) (by simp [orderModel, roundModel, Model.setBatchSize]) Double.weakOn_lt (by
      intro i _
      rw [logit]
      exact fun h => by cases h)
  have hpv : ∀ i, p i = .num (1 / 2) := by
    intro i
    have he : Double.arith.exp (sumTo 1 (fun _ => (0 : Double) * .num v) + 0 - (sumTo 1 (fun _ => (0 : Double) * .num v) + 0)) = .num 1 := by
      rw [logit, Double.num_sub, sub_zero, c0]
      show Double.of (Real.exp 0) = _
      rw [Real.exp_zero, c1]
    have hs : sumTo 2 (fun _ => Double.arith.exp (sumTo 1 (fun _ => (0 : Double) * .num v) + 0 -
        (sumTo 1 (fun _ => (0 : Double) * .num v) + 0))) = .num 2 := by
      rw [t2, he, z, Double.num_add, zero_add, c1, Double.num_add, one_add_one_eq_two, c2]
    rw [hp]
    refine (congrArg₂ (· / ·) he hs).trans ?_
    show Double.num 1 / Double.num 2 = _
    rw [Double.num_div _ two_ne_zero, ch]
  have ht0 : t = 0 := by
    have ht : ["a".toList, "b".toList][t]? = some "a".toList := ht
    match t, ht with
    | 0, _ => rfl
    | 1, h => simp at h
    | n + 2, h => simp at h
  subst ht0
  have hd : (.num (1 / 2) : Double) - 1 = .num (-(1 / 2)) := by
    rw [show (1 : Double) = .num 1 from rfl, Double.num_sub, show (1 / 2 - 1 : ℝ) = -(1 / 2) by norm_num, cn]
  have hE : ∀ a, doubleEnv.toFloat a = Double.toFloat a := fun _ => rfl
  have hx : (⟨(oneValue v).data, "a".toList⟩ : Sample Double) = oneValue v := rfl
  rw [hx] at ha
  have key : ∀ i, (if i = 0 then doubleEnv.toFloat (p 0) - 1 else doubleEnv.toFloat (p i)) = if i = 0 then .num (-(1 / 2)) else .num (1 / 2) := by
    intro i
    rw [hpv, hpv, hE, cf, hd]
  have hO : ownGrads doubleEnv orderModel (oneValue v) 0 = some (DW, DB) := (ownGrads_of ha 0).trans hst
  refine ⟨⟨m', ha⟩, DW, DB, hO, ?_, ?_⟩
  · rw [Nat.mul_one, Nat.mul_one] at sW
    refine sW.congr ?_
    intro i hi k hk c hc
    rw [t1, key]
    unfold flatOf
    rw [hE, cv]
    by_cases h : i = 0
    · rw [if_pos h, if_pos h, Double.num_mul, show -(1 / 2) * v = -(v / 2) by ring, hofn, z, Double.num_add, zero_add, hofn]
    · rw [if_neg h, if_neg h, Double.num_mul, show 1 / 2 * v = v / 2 by ring, hof, z, Double.num_add, zero_add, hof]
  · refine sB.congr ?_
    intro i hi k hk c hc
    exact key i

theorem orderModel_params : orderModel.params 0 = some (⟨dimN 2 1 1, [0, 0]⟩, ⟨dimN 2 1 1, [0, 0]⟩) := rfl

/-- The values of the four samples. -/
noncomputable def orderValues : List ℝ := [1, 2 ^ 60, -2 ^ 60, 0]

theorem orderValues_few {v : ℝ} (hv : v ∈ orderValues) : ∃ m e : ℤ, v = m * 2 ^ e ∧ |m| < 2 ^ 24 ∧ -100 ≤ e ∧ e ≤ 100 := by
  simp only [orderValues, List.mem_cons, List.not_mem_nil, or_false] at hv
  rcases hv with rfl | rfl | rfl | rfl
  · exact ⟨1, 0, by norm_num, by norm_num, by norm_num, by norm_num⟩
  · exact ⟨1, 60, by norm_num, by norm_num, by norm_num, by norm_num⟩
  · exact ⟨-1, 60, by norm_num, by norm_num, by norm_num, by norm_num⟩
  · exact ⟨0, 0, by norm_num, by norm_num, by norm_num, by norm_num⟩

noncomputable def orderHyper : Hyper Double := { batch := 4, epochs := 1, rate := 1, threads := 4 }

noncomputable def orderShared : Shared Double := ⟨orderModel, orderValues.map oneValue, 0⟩

theorem mem_orderSource {x : Sample Double} (hx : x ∈ orderShared.source.take 4) : ∃ v ∈ orderValues, x = oneValue v := by
  obtain ⟨v, hv, rfl⟩ := List.mem_map.1 (List.mem_of_mem_take hx)
  exact ⟨v, hv, rfl⟩

theorem order_params {i : Nat} {W Bi : Matrix Double} (h : orderModel.params i = some (W, Bi)) : i = 0 ∧ W = ⟨dimN 2 1 1, [0, 0]⟩ ∧ Bi = ⟨dimN 2 1 1, [0, 0]⟩ := by
  match i, h with
  | 0, h =>
    obtain ⟨rfl, rfl⟩ := Prod.mk.inj (Option.some.inj (orderModel_params.symm.trans h))
    exact ⟨rfl, rfl, rfl⟩
  | 1, h => exact absurd h (by simp [Model.params, orderModel, Model.setBatchSize, roundModel, Body.setBatchSize, Body.params])
  | n + 2, h => exact absurd h (by simp [Model.params, orderModel, Model.setBatchSize, roundModel])

theorem zeros_show : (⟨dimN 2 1 1, [0, 0]⟩ : Matrix Double).Shows 2 1 1 (fun _ _ _ => 0) :=
  Matrix.Shows.of_vals ⟨by omega, by omega, by omega, by omega⟩ rfl (by simp [List.range_succ])

/-- For each order of the samples there is a run with the right labels that sums the gradients in this order. -/
theorem order_run {v0 v1 v2 v3 : ℝ} (hv : [v0, v1, v2, v3].Perm orderValues) : ∃ sched o W Bi w, runBatch doubleEnv orderHyper sched orderShared = .ok (some o) ∧
    OwnLabels orderModel o.2 ∧ o.1.model.params 0 = some (W, Bi) ∧ W.Shows 2 1 1 w ∧
    w 1 0 0 = 0 - 1 * (((((0 + .num (v0 / 2)) + .num (v1 / 2)) + .num (v2 / 2)) + .num (v3 / 2)) / Double.arith.ofNat 4) := by
  have hg : ∀ v ∈ orderValues, (∃ m', alone doubleEnv orderModel (oneValue v) = .ok m') ∧ ∃ G H, ownGrads doubleEnv orderModel (oneValue v) 0 = some (G, H) ∧
      G.Shows 2 1 1 (fun i _ _ => if i = 0 then .num (-(v / 2)) else .num (v / 2)) ∧
      H.Shows 2 1 1 (fun i _ _ => if i = 0 then .num (-(1 / 2)) else .num (1 / 2)) := fun v hv => by
    obtain ⟨m, e, h1, h2, h3, h4⟩ := orderValues_few hv
    exact orderModel_grads m e h1 h2 h3 h4
  have htk : orderShared.source.take 4 = orderValues.map oneValue := rfl
  have hob := C101_orders doubleEnv orderHyper 4 4 rfl rfl (by decide) (by decide) (by decide) orderShared orderModel_prepared (by simp [orderShared, orderValues]) (by
    intro x hx y hy
    obtain ⟨v, hv, rfl⟩ := mem_orderSource hx
    obtain ⟨v', _, rfl⟩ := mem_orderSource hy
    exact (hg v hv).1) (by
    intro i W Bi hp
    obtain ⟨rfl, rfl, rfl⟩ := order_params hp
    refine ⟨2, 1, 1, 2, _, fun _ => 0, zeros_show, zeros_show, ?_⟩
    intro x hx y hy
    obtain ⟨v, hv, rfl⟩ := mem_orderSource hx
    obtain ⟨v', _, rfl⟩ := mem_orderSource hy
    obtain ⟨G, H, g1, g2, g3⟩ := (hg v hv).2
    exact ⟨G, H, _, _, g1, g2.reads, g3.reads⟩)
  obtain ⟨sched, o, r1, r2, r3⟩ := hob.1 le_rfl ([v0, v1, v2, v3].map oneValue) (by rw [htk]; exact hv.map _)
  obtain ⟨gs, ⟨W, Bi⟩, g1, g2, g3⟩ := hob.2 sched o ([v0, v1, v2, v3].map oneValue) r1 r2 rfl r3 0 _ _ orderModel_params
  have hlen : gs.length = 4 := by
    have := congrArg List.length g1
    simpa using this.symm
  have hgs : ∀ (k : Nat) (v : ℝ), [v0, v1, v2, v3][k]? = some v → ∃ G H : Matrix Double, gs[k]? = some (G, H) ∧
      G.Shows 2 1 1 (fun i _ _ => if i = 0 then .num (-(v / 2)) else .num (v / 2)) ∧
      H.Shows 2 1 1 (fun i _ _ => if i = 0 then .num (-(1 / 2)) else .num (1 / 2)) := by
    intro k v hk
    obtain ⟨G, H, e1, e2, e3⟩ := (hg v (hv.mem_iff.1 (List.mem_of_getElem? hk))).2
    have := congrArg (fun l => l[k]?) g1
    simp only [List.getElem?_map, hk, Option.map_some] at this
    obtain ⟨x, hx, hx'⟩ := Option.map_eq_some_iff.1 this.symm
    refine ⟨G, H, ?_, e2, e3⟩
    rw [hx]
    have e1 : ownGrads doubleEnv orderShared.model (oneValue v) 0 = some (G, H) := e1
    exact hx'.trans e1
  obtain ⟨W', B', a1, a2, _⟩ := applyGrads_reads Double.arith (1 : Double) (W := ⟨dimN 2 1 1, [0, 0]⟩) (B := ⟨dimN 2 1 1, [0, 0]⟩) (n := 4) zeros_show
    (b := fun _ => 0) zeros_show
    (gs.map (·.1)) (gs.map (·.2)) (fun s i _ _ => if i = 0 then .num (-([v0, v1, v2, v3].getD s 0 / 2)) else .num ([v0, v1, v2, v3].getD s 0 / 2))
    (fun _ i => if i = 0 then .num (-(1 / 2)) else .num (1 / 2)) (by simpa using hlen) (by simpa using hlen) (by
      intro k M hM
      have hk : k < 4 := by have := (List.getElem?_eq_some_iff.1 hM).1; simpa [hlen] using this
      obtain ⟨G, H, e1, e2, e3⟩ := hgs k _ (List.getElem?_eq_getElem (by simpa using hk))
      rw [List.getElem?_map, e1] at hM
      obtain rfl := Option.some.inj hM
      have : [v0, v1, v2, v3].getD k 0 = [v0, v1, v2, v3][k]'(by simpa using hk) := by simp [List.getD, List.getElem?_eq_getElem (show k < [v0, v1, v2, v3].length by simpa using hk)]
      rw [this]
      exact e2.reads) (by
      intro k M hM
      have hk : k < 4 := by have := (List.getElem?_eq_some_iff.1 hM).1; simpa [hlen] using this
      obtain ⟨G, H, e1, e2, e3⟩ := hgs k _ (List.getElem?_eq_getElem (by simpa using hk))
      rw [List.getElem?_map, e1] at hM
      obtain rfl := Option.some.inj hM
      exact e3.reads)
  obtain ⟨rfl, rfl⟩ := Prod.mk.inj (Res.ok.inj (a1.symm.trans g2))
  exact ⟨sched, o, _, _, _, r1, r2, g3, a2, rfl⟩

/-- Two runs of the same batch, in both of which each sample is used with its own label: one leaves the weight 0, the other
takes it to -1/8. -/
theorem order_matters : ∃ sched sched' o o' W Bi W' Bi', runBatch doubleEnv orderHyper sched orderShared = .ok (some o) ∧
    runBatch doubleEnv orderHyper sched' orderShared = .ok (some o') ∧ OwnLabels orderModel o.2 ∧ OwnLabels orderModel o'.2 ∧
    o.1.model.params 0 = some (W, Bi) ∧ o'.1.model.params 0 = some (W', Bi') ∧
    ∃ w w', W.Shows 2 1 1 w ∧ W'.Shows 2 1 1 w' ∧ w 1 0 0 = .num 0 ∧ w' 1 0 0 = .num (-(1 / 8)) := by
  have exact' : ∀ (m e : ℤ) {x : ℝ}, x = m * 2 ^ e → |m| < 2 ^ 53 → -1074 ≤ e → e ≤ 970 → Double.of x = .num x := fun m e _ => Double.of_exact m e
  have z : (0 : Double) = .num 0 := rfl
  have o1 : (1 : Double) = .num 1 := rfl
  have c0 : Double.of 0 = .num 0 := exact' 0 0 (by simp) (by norm_num) (by norm_num) (by norm_num)
  have ch : Double.of (1 / 2) = .num (1 / 2) := exact' 1 (-1) (by norm_num) (by norm_num) (by norm_num) (by norm_num)
  have cb : Double.of (2 ^ 59) = .num (2 ^ 59) := exact' 1 59 (by norm_num) (by norm_num) (by norm_num) (by norm_num)
  have c8 : Double.of (1 / 8) = .num (1 / 8) := exact' 1 (-3) (by norm_num) (by norm_num) (by norm_num) (by norm_num)
  have cn : Double.of (-(1 / 8)) = .num (-(1 / 8)) := exact' (-1) (-3) (by norm_num) (by norm_num) (by norm_num) (by norm_num)
  have c4 : Double.arith.ofNat 4 = .num 4 := Double.of_nat (n := 4) (by norm_num)
  have d1 : (2 : ℝ) ^ 60 / 2 = 2 ^ 59 := by norm_num
  have d2 : -(2 : ℝ) ^ 60 / 2 = -2 ^ 59 := by norm_num
  obtain ⟨sched, o, W, Bi, w, a1, a2, a3, a4, a5⟩ := order_run (v0 := 1) (v1 := 2 ^ 60) (v2 := -2 ^ 60) (v3 := 0) (List.Perm.refl _)
  obtain ⟨sched', o', W', Bi', w', b1, b2, b3, b4, b5⟩ := order_run (v0 := 2 ^ 60) (v1 := -2 ^ 60) (v2 := 0) (v3 := 1) (by
    exact List.perm_append_comm (l₁ := [2 ^ 60, -2 ^ 60, 0]) (l₂ := [1]))
  refine ⟨sched, sched', o, o', W, Bi, W', Bi', a1, b1, a2, b2, a3, b3, w, w', a4, b4, ?_, ?_⟩
  · rw [a5, d1, d2, zero_div, z, o1, c4, Double.num_add, zero_add, ch, Double.num_add, Double.of_lost, Double.num_add, add_neg_cancel, c0, Double.num_add, add_zero, c0,
      Double.num_div _ (by norm_num), zero_div, c0, Double.num_mul, mul_zero, c0, Double.num_sub, sub_zero, c0]
  · rw [b5, d1, d2, zero_div, z, o1, c4, Double.num_add, zero_add, cb, Double.num_add, add_neg_cancel, c0, Double.num_add, add_zero, c0, Double.num_add, zero_add, ch,
      Double.num_div _ (by norm_num), show (1 / 2 / 4 : ℝ) = 1 / 8 by norm_num, c8, Double.num_mul, one_mul, c8, Double.num_sub, zero_sub, cn]

/-- C101 The claim is false: the order in which the threads take the samples decides about the rounding of the sum. -/
theorem C101_violated : ¬ C101_claim := by
  intro hc
  obtain ⟨sched, sched', o, o', W, Bi, W', Bi', a1, b1, a2, b2, a3, b3, w, w', a4, b4, h1, h2⟩ := order_matters
  have h := hc orderHyper 4 4 rfl rfl (by decide) (by decide) (by decide) (by decide) orderShared orderModel_prepared (by simp [orderShared, orderValues])
    sched sched' o o' a1 b1 a2 b2 0
  rw [a3, b3] at h
  obtain ⟨rfl, rfl⟩ := Prod.mk.inj (Option.some.inj h)
  have := a4.same b4 (i := 1) (j := 0) (k := 0) (by omega) (by omega) (by omega)
  rw [h1, h2] at this
  have := Double.num.inj this
  norm_num at this

/-- C101 for `train`: two calls on the same model, samples and hyperparameters that end with different weights. -/
theorem C101_train_violated : ∃ (es es' : List (List (List Nat) × List (Sample Double))) (N N' : Model Double),
    es.map Prod.snd = [orderValues.map oneValue] ∧ es'.map Prod.snd = [orderValues.map oneValue] ∧
    train doubleEnv orderHyper 4 es (roundModel 0) = .ok (some N) ∧ train doubleEnv orderHyper 4 es' (roundModel 0) = .ok (some N') ∧
    N.params 0 ≠ N'.params 0 := by
  obtain ⟨sched, sched', o, o', W, Bi, W', Bi', a1, b1, _, _, a3, b3, w, w', a4, b4, h1, h2⟩ := order_matters
  have tr : ∀ sched o, runBatch doubleEnv orderHyper sched orderShared = .ok (some o) →
      train doubleEnv orderHyper 4 [([sched], orderValues.map oneValue)] (roundModel 0) = .ok (some o.1.model) := by
    intro sched o h
    have hep : runEpoch doubleEnv orderHyper 4 [sched] orderShared = .ok (some (o.1, o.2 ++ [])) := by
      unfold runEpoch
      have : runBatches doubleEnv orderHyper [sched] { orderShared with hits := 0 } = .ok (some (o.1, o.2 ++ [])) := by
        have h : runBatch doubleEnv orderHyper sched { orderShared with hits := 0 } = .ok (some o) := h
        simp only [runBatches, h, Res.bind_ok]
      have hw : workCount orderHyper.batch orderHyper.threads = _ := workCount_eq 4 4 (by decide) (by decide)
      have hk : numBatches 4 orderHyper.batch = _ := numBatches_eq 4 4 (by decide) (by decide)
      rw [if_neg (by decide), hw, Res.bind_ok, if_neg (by decide), hk, Res.bind_ok, if_pos (by rfl), this]
    unfold train
    have hroom : (roundModel 0).room orderHyper.batch = .ok () := if_neg (by rintro ⟨h, _⟩; exact absurd h (by decide))
    rw [hroom, Res.bind_ok, if_pos (by rfl)]
    have hep : runEpoch doubleEnv orderHyper 4 [sched] ⟨(roundModel 0).setBatchSize (u64 orderHyper.batch), orderValues.map oneValue, 0⟩ = .ok (some (o.1, o.2 ++ [])) := hep
    simp only [List.foldlM_cons, List.foldlM_nil, hep, Res.bind_ok, Option.map_some]
    rfl
  refine ⟨[([sched], _)], [([sched'], _)], _, _, rfl, rfl, tr _ _ a1, tr _ _ b1, ?_⟩
  rw [a3, b3]
  intro h
  obtain ⟨rfl, rfl⟩ := Prod.mk.inj (Option.some.inj h)
  have := a4.same b4 (i := 1) (j := 0) (k := 0) (by omega) (by omega) (by omega)
  rw [h1, h2] at this
  have := Double.num.inj this
  norm_num at this

end Cnn
