import Verif.Lemmas.NaNRun
import Verif.Props.Safe
import Verif.Props.Rounding
import Verif.Lemmas.Accuracy
import Verif.Lemmas.Map
/-!
# Property C97: a NaN ruins the network for good
-/
namespace Cnn
open Model Train
variable {α : Type} [Zero α] [One α] [Add α] [Sub α] [Mul α] [Div α] [Neg α]

/-- Any object with shapes as `Runs` says that is prepared for batches of `B`. -/
theorem shaped_of_prepared {M : Model α} {s : Shape} {ks : List LayerKind} {B : Nat} (hM : M.Runs s ks) (hP : M.Prepared B) : M.Shaped B s ks M.labels := by
  refine ⟨hM.count, ?_, ?_, rfl, hM.output⟩
  · intro i y k hy hk
    unfold bodyAt at hy
    obtain ⟨L, hL, rfl⟩ := Option.map_eq_some_iff.1 hy
    have h1 := hM.layers i L k hL hk
    have h2 := hP L (List.mem_of_getElem? hL)
    revert h1 h2
    generalize L.body = y
    cases y <;> cases k <;> intro h1 h2 <;> first | exact h1.elim | exact ⟨h1, h2.1, h2.2.1⟩ | exact ⟨h1, h2.1⟩ | exact ⟨h1, h2.2.1, h2.2.2.1⟩ | trivial
  · obtain ⟨L, S, hL, hLS, hc⟩ := hM.last
    exact ⟨S, by unfold bodyAt; rw [hL, Option.map_some, hLS], hc⟩

/-- The slot does not matter, nor the number of slots. -/
theorem answersNaN_alone {E : Env α} {nan : α → Prop} {M : Model α} {B b : Nat} {s : Shape} {ks : List LayerKind} {labels : List (List Char)} (h : M.Shaped B s ks labels)
    (hW : KindsWork true s ks) (hu : M.Used) {X : Matrix α} (hX : X.Has s) (hn : M.AnswersNaN nan E X b) : (M.setBatchSize 1).AnswersNaN nan E X 0 := by
  obtain ⟨r, M', P, v, e, h1, h2, h3⟩ := hn
  obtain ⟨r', M'', e', _⟩ := forwardPropagation_shaped E (setBatchSize_shaped (B := 1) h.runs) hW Nat.one_pos hX
  have hlike : M.Like (M.setBatchSize 1) := by
    intro i
    unfold Model.setBatchSize
    simp only [List.getElem?_map]
    cases M.layers[i]? with
    | none => rfl
    | some l => obtain ⟨_, y⟩ := l; cases y <;> rfl
  obtain rfl := forwardPropagation_like hlike rfl (by simp [Model.setBatchSize]) (h.prepared hW hu).ready e e'
  exact ⟨r, M'', P, v, e', h1, h2, h3⟩

/-- C97 A parameter that is NaN stays NaN: whatever is trained, with whatever samples, threads and schedules, each entry of the
weights and biases of a layer that is NaN before the training is NaN after it. -/
theorem C97_stay (E : Env α) (nan : α → Prop) (hnan : Absorbs E nan) (hE : E.order = .dimsFirst) (p : Hyper α) (B T : Nat) (hp : p.batch = B) (hq : p.threads = T)
    (h0 : 0 < B) (hB : B < 2 ^ 24) (hT0 : 0 < T) (hT : T < 2147483648) (size : Nat) (hs0 : 0 < size) (hsz : size < 2 ^ 24)
    (M : Model α) (s : Shape) (ks : List LayerKind) (hM : M.Runs s ks) (hk : KindsWork true s ks) (hu : M.Used)
    (epochs : List (List (List Nat) × List (Sample α))) (hx : ∀ e ∈ epochs, ∀ x ∈ e.2, x.Fits s M.labels)
    (hfull : ∀ e ∈ epochs.head?, B ≤ e.2.length) (M' : Model α) (h : train E p size epochs M = .ok (some M')) :
    ∀ i k, ks[i]? = some k → k.learns = true → ∃ W Bi W' Bi', M.params i = some (W, Bi) ∧ M'.params i = some (W', Bi') ∧
      W.StillNaN nan W' ∧ Bi.StillNaN nan Bi' := by
  rw [train_if (p := p) (by omega)] at h
  have hub : u64 p.batch = B := by rw [hp]; exact u64_nat (by omega)
  by_cases hl : epochs.length = p.epochs.toNat
  · rw [if_pos hl, hub] at h
    obtain ⟨h1, _⟩ := epochs_nan hnan hE hk hp hq h0 hB hT0 hT hs0 hsz epochs (setBatchSize_shaped hM) (setBatchSize_used hu B) hx (Or.inr hfull) h
    intro i k hk hl
    obtain ⟨W, Bi, W', Bi', e1, e2⟩ := h1 i k hk hl
    rw [setBatchSize_params] at e1
    exact ⟨W, Bi, W', Bi', e1, e2⟩
  · rw [if_neg hl] at h
    exact absurd (Res.ok.inj h) (by simp)

/-- C97 One NaN among the parameters of the last layer, if that is a convolution or fully connected, and the model is useless:
whatever it is asked, it names the first label, with probabilities and a confidence that are NaN. -/
theorem C97_useless (E : Env α) (nan : α → Prop) (hnan : Absorbs E nan) (M : Model α) (s : Shape) (ks : List LayerKind) (hM : M.Runs s ks) (hk : KindsWork true s ks)
    (hu : M.Used) (B : Nat) (hP : M.Prepared B) (W Bi : Matrix α) (hp : M.params (ks.length - 1) = some (W, Bi)) (hks : ks ≠ [])
    (hn : (∃ s', W.Hurt nan s') ∨ ∃ s', Bi.Hurt nan s') (X : Matrix α) (hX : X.Has s) (b : Nat) (hb : b < B) : M.Useless nan E X b := by
  have hS := shaped_of_prepared hM hP
  have hlen := List.length_pos_iff.2 hks
  obtain ⟨L, k, hL, hbody, hkk⟩ := hS.get (show ks.length - 1 < ks.length by omega)
  have hl : k.learns = true := by
    have h1 := hS.layers _ _ k hbody hkk
    rw [params_bodyAt, hbody] at hp
    have hp : L.body.params = some (W, Bi) := hp
    revert h1 hp
    generalize L.body = y
    cases y <;> cases k <;> intro h1 hp <;> first | rfl | exact h1.elim | simp [Body.params] at hp
  obtain ⟨W2, B2, e2, s1, s2⟩ := hS.params hu hkk hl
  rw [hp] at e2
  obtain ⟨rfl, rfl⟩ := Prod.mk.inj (Option.some.inj e2)
  refine Model.forward_useless hnan hS hk (j := ks.length - 1) (by omega) hkk hp hu ?_ hb hX
  have shape_eq : ∀ {V : Matrix α} {u v : Shape}, V.Has u → V.Hurt nan v → V.Hurt nan u := by
    rintro V ⟨a, b, c⟩ ⟨a', b', c'⟩ ⟨f, hf⟩ ⟨g, hg, hn⟩
    obtain ⟨h1, h2, h3⟩ := hf.shape hg
    dsimp only at h1 h2 h3
    subst h1 h2 h3
    exact ⟨g, hg, hn⟩
  rcases hn with ⟨s', hn⟩ | ⟨s', hn⟩
  · exact Or.inl (shape_eq s1 hn)
  · exact Or.inr (shape_eq s2 hn)

/-- C97 One sample answered with NaN in a full batch, and every layer with parameters is ruined after it – whatever the other samples, the
labels, the number of threads and the schedule. -/
theorem C97_batch (E : Env α) (nan : α → Prop) (hnan : Absorbs E nan) (hE : E.order = .dimsFirst) (p : Hyper α) (B T : Nat) (hp : p.batch = B) (hq : p.threads = T)
    (h0 : 0 < B) (hB : B < 2 ^ 24) (hT0 : 0 < T) (hT : T < 2147483648) (sh : Shared α) (s : Shape) (ks : List LayerKind) (hM : sh.model.Runs s ks)
    (hk : KindsWork true s ks) (hP : sh.model.Prepared B) (hx : ∀ x ∈ sh.source, x.Fits s sh.model.labels) (hfull : B ≤ sh.source.length)
    (x : Sample α) (hmem : x ∈ sh.source.take B) (b : Nat) (hn : sh.model.AnswersNaN nan E x.data b) (sched : List Nat)
    (q : Shared α × List (Event α)) (h : runBatch E p sched sh = .ok (some q)) :
    ∀ i k, ks[i]? = some k → k.learns = true → ∃ W Bi, q.1.model.params i = some (W, Bi) ∧ Ruined nan (kindsOut (ks.take i) s) (ks.drop (i + 1)) W Bi k := by
  have hS := shaped_of_prepared hM hP
  have hu : sh.model.Used := by
    intro l hl L hL
    have := hP l hl
    rw [hL] at this
    exact this.1
  exact (runBatch_nan hnan hE hk hp hq h0 hB hT0 hT (labels := sh.model.labels) ⟨hS, hx, Or.inr hfull⟩ hu h).2
    ⟨x, hmem, answersNaN_alone hS hk hu (hx x (List.mem_of_mem_take hmem)).1 hn⟩

/-- C97 One sample that is answered with NaN in the first batch ruins the whole training: however long it goes on, afterwards all layers with
parameters are ruined, and if the last one before softmax is such a layer, the model answers NaN and the first label whatever it is
asked. -/
theorem C97_train (E : Env α) (nan : α → Prop) (hnan : Absorbs E nan) (hE : E.order = .dimsFirst) (p : Hyper α) (B T : Nat) (hp : p.batch = B) (hq : p.threads = T)
    (h0 : 0 < B) (hB : B < 2 ^ 24) (hT0 : 0 < T) (hT : T < 2147483648) (size : Nat) (hs0 : 0 < size) (hsz : size < 2 ^ 24)
    (M : Model α) (s : Shape) (ks : List LayerKind) (hM : M.Runs s ks) (hk : KindsWork true s ks) (hu : M.Used)
    (epochs : List (List (List Nat) × List (Sample α))) (hx : ∀ e ∈ epochs, ∀ x ∈ e.2, x.Fits s M.labels)
    (hfull : ∀ e ∈ epochs.head?, B ≤ e.2.length) (e : List (List Nat) × List (Sample α)) (he : epochs.head? = some e)
    (x : Sample α) (hmem : x ∈ e.2.take B) (b : Nat) (hn : (M.setBatchSize B).AnswersNaN nan E x.data b)
    (M' : Model α) (h : train E p size epochs M = .ok (some M')) :
    (∀ i k, ks[i]? = some k → k.learns = true → ∃ W Bi, M'.params i = some (W, Bi) ∧ Ruined nan (kindsOut (ks.take i) s) (ks.drop (i + 1)) W Bi k) ∧
    ∀ k, ks.getLast? = some k → k.learns = true → ∀ X : Matrix α, X.Has s → ∀ b < B, M'.Useless nan E X b := by
  rw [train_if (p := p) (by omega)] at h
  have hub : u64 p.batch = B := by rw [hp]; exact u64_nat (by omega)
  by_cases hl : epochs.length = p.epochs.toNat
  · rw [if_pos hl, hub] at h
    have hxx := hx
    obtain ⟨_, h2⟩ := epochs_nan hnan hE hk hp hq h0 hB hT0 hT hs0 hsz epochs (setBatchSize_shaped hM) (setBatchSize_used hu B) hx (Or.inr hfull) h
    have h2 := h2 e he ⟨x, hmem, answersNaN_alone (setBatchSize_shaped hM) hk (setBatchSize_used hu B) (hx e (List.mem_of_mem_head? he) x (List.mem_of_mem_take hmem)).1 hn⟩
    refine ⟨h2, fun k hkl hlk X hX b hb => ?_⟩
    obtain ⟨o, eo, ho⟩ := epochs_shaped hE hk hp hq h0 hB hT0 hT hs0 hsz epochs (setBatchSize_shaped hM) hxx (Or.inr hfull)
    rw [h] at eo
    obtain ⟨hS, hF⟩ := ho M' (Res.ok.inj eo).symm
    have hF := hF (Or.inl (by rintro rfl; simp at he))
    rw [List.getLast?_eq_getElem?] at hkl
    have hlen := (List.getElem?_eq_some_iff.1 hkl).1
    obtain ⟨W, Bi, e1, hr⟩ := h2 _ k hkl hlk
    refine Model.forward_useless hnan hS hk (j := ks.length - 1) (by omega) hkl e1 (Full.used h0 hS hF) (Or.inr ?_) hb hX
    cases k with
    | conv a b C F =>
      obtain ⟨_, f, hf, hn⟩ := hr
      have g := hf.good
      exact ⟨f, hf, 0, g.x, 0, g.y, 0, g.z, hn 0 g.x 0 g.y 0 g.z⟩
    | full n =>
      obtain ⟨⟨r, hr, _, β, hβ, hn⟩, _⟩ := hr
      exact ⟨β, hβ, r, hr, 0, Nat.one_pos, 0, Nat.one_pos, hn⟩
    | pool => simp [LayerKind.learns] at hlk
    | act => simp [LayerKind.learns] at hlk
  · rw [if_neg hl] at h
    exact absurd (Res.ok.inj h) (by simp)

/-! ## binary64 -/

/-- C97 NaN of binary64 is such a number. -/
theorem C97_double : Absorbs doubleEnv (fun a : Double => a = .nan) := by
  constructor
  · rintro a b rfl; cases b <;> rfl
  · rintro a b rfl; cases a <;> rfl
  · rintro a b rfl; cases b <;> rfl
  · rintro a b rfl; cases a <;> rfl
  · rintro a b rfl; cases b <;> rfl
  · rintro a b rfl; cases a <;> rfl
  · rintro a b rfl; cases b <;> rfl
  · rintro a b rfl; cases a <;> rfl
  · rintro a rfl; rfl
  · rintro a rfl; rfl
  · rintro a b rfl; cases b <;> rfl
  · rintro a b rfl; cases a <;> rfl

/-- All entries are (finite) numbers. -/
def Matrix.Finite (W : Matrix Double) : Prop := ∀ v ∈ W.vals, v.Fin

/-- All parameters are. -/
def Model.Finite (M : Model Double) : Prop := ∀ i W Bi, M.params i = some (W, Bi) → W.Finite ∧ Bi.Finite

/-- C97 The claim: training a network of finite parameters on finite samples, with a finite learning rate, gives finite parameters. -/
def C97_claim : Prop := ∀ (p : Hyper Double) (B T : Nat), p.batch = B → p.threads = T → 0 < B → B < 2 ^ 24 → 0 < T → T < 2147483648 →
  p.rate.Fin → ∀ size, 0 < size → size < 2 ^ 24 → ∀ (M : Model Double) (s : Shape) (ks : List LayerKind), M.Runs s ks → KindsWork true s ks → M.Used → M.Finite →
  ∀ (epochs : List (List (List Nat) × List (Sample Double))), (∀ e ∈ epochs, ∀ x ∈ e.2, x.Fits s M.labels ∧ x.data.Finite) →
  (∀ e ∈ epochs.head?, B ≤ e.2.length) → ∀ M', train doubleEnv p size epochs M = .ok (some M') → M'.Finite

theorem roundModel_runs (w : Double) : (roundModel w).Runs ⟨1, 1, 1⟩ [.full 2] := by
  refine ⟨rfl, ?_, ⟨_, _, rfl, rfl, rfl⟩, Or.inl rfl⟩
  intro i L k hL hk
  have hi : i < 1 := (List.getElem?_eq_some_iff.1 hk).1
  obtain rfl : i = 0 := by omega
  obtain rfl : LayerKind.full 2 = k := by simpa using hk
  obtain rfl : _ = L := by simpa [roundModel] using hL
  refine Or.inl ⟨fun i _ => if i = 0 then 0 else w, fun _ => 0, ⟨?_, ?_, rfl⟩, Or.inl rfl⟩
  · refine Matrix.Shows.of_vals ⟨by omega, by decide, by omega, by decide⟩ rfl ?_
    simp [roundLayer, List.range_succ, kindsOut]
  · refine Matrix.Shows.of_vals ⟨by omega, by omega, by omega, by omega⟩ rfl ?_
    simp [roundLayer, List.range_succ]

theorem roundModel_used (w : Double) : (roundModel w).Used := by
  intro l hl L hL
  simp only [roundModel, List.mem_cons, List.not_mem_nil, or_false] at hl
  rcases hl with rfl | rfl
  · obtain rfl : roundLayer w = L := by simpa using hL
    rfl
  · simp at hL

theorem roundKinds_work : KindsWork true ⟨1, 1, 1⟩ [.full 2] := ⟨⟨by decide, by decide⟩, trivial⟩

theorem roundModel_overflows : ((roundModel (bigDouble 900)).setBatchSize 1).AnswersNaN (· = .nan) doubleEnv ⟨dimN 1 1 1, [bigDouble 900]⟩ 0 := by
  obtain ⟨⟨r, M₁, P, e, _, _, eP, hP⟩, _⟩ := C85_overflow
  exact ⟨r, M₁, P, _, e, eP, hP, fun _ _ => rfl⟩

/-- The sample of the example. -/
noncomputable def roundSample : Sample Double := ⟨⟨dimN 1 1 1, [bigDouble 900]⟩, "b".toList⟩

theorem roundSample_fits (w : Double) : roundSample.Fits ⟨1, 1, 1⟩ (roundModel w).labels := by
  refine ⟨⟨fun _ _ _ => bigDouble 900, ?_⟩, by simp [roundModel, roundSample]⟩
  exact Matrix.Shows.of_vals ⟨by decide, by decide, by decide, by decide⟩ rfl (by simp [roundSample])

noncomputable def roundHyper : Hyper Double := { batch := 1, epochs := 1, rate := 1, threads := 1 }

/-- C97 The claim is false: a weight and an input of 2^900 turn all parameters into NaN in one batch of one sample. -/
theorem C97_violated : ¬ C97_claim := by
  intro hc
  obtain ⟨epochs, M', h1, h2⟩ := C70_train_ends doubleEnv rfl roundHyper 1 1 rfl rfl (by decide) (by decide) (by decide) (by decide) 1 (by decide) (by decide)
    (roundModel (bigDouble 900)) ⟨1, 1, 1⟩ [.full 2] (roundModel_runs _) roundKinds_work [[roundSample]] rfl
    (by simpa using roundSample_fits _) (by simp)
  have hx : ∀ e ∈ epochs, e.2 = [roundSample] := by
    intro e he
    have : e.2 ∈ epochs.map Prod.snd := List.mem_map.2 ⟨e, he, rfl⟩
    rw [h1] at this
    simpa using this
  obtain ⟨e, he⟩ : ∃ e, epochs.head? = some e := by
    cases epochs with
    | nil => simp at h1
    | cons e es => exact ⟨e, rfl⟩
  have hem : e ∈ epochs := List.mem_of_mem_head? he
  have hfull : ∀ e ∈ epochs.head?, 1 ≤ e.2.length := by
    intro e he
    rw [hx e (List.mem_of_mem_head? he)]
    simp
  obtain ⟨hr, _⟩ := C97_train doubleEnv _ C97_double rfl roundHyper 1 1 rfl rfl (by decide) (by decide) (by decide) (by decide) 1 (by decide) (by decide)
    (roundModel (bigDouble 900)) ⟨1, 1, 1⟩ [.full 2] (roundModel_runs _) roundKinds_work (roundModel_used _) epochs
    (fun e he x hx' => by rw [hx e he] at hx'; obtain rfl : x = _ := by simpa using hx'
                          exact roundSample_fits _) hfull e he roundSample (by rw [hx e hem]; simp) 0 roundModel_overflows M' h2
  obtain ⟨W, Bi, e1, hR⟩ := hr 0 (.full 2) rfl rfl
  obtain ⟨⟨r, hr, _, β, hβ, hn⟩, _⟩ := hR
  have hfin := hc roundHyper 1 1 rfl rfl (by decide) (by decide) (by decide) (by decide) Double.floating.one.1 1 (by decide) (by decide)
    (roundModel (bigDouble 900)) ⟨1, 1, 1⟩ [.full 2] (roundModel_runs _) roundKinds_work (roundModel_used _) (by
      intro i W Bi hp
      have hi : i < 2 := by
        by_contra h
        unfold Model.params at hp
        rw [List.getElem?_eq_none (by simp [roundModel]; omega)] at hp
        simp at hp
      obtain rfl | rfl : i = 0 ∨ i = 1 := by omega
      · obtain ⟨rfl, rfl⟩ := Prod.mk.inj (Option.some.inj hp)
        refine ⟨fun v hv => ?_, fun v hv => ?_⟩
        · have : v = 0 ∨ v = bigDouble 900 := by simpa [roundLayer] using hv
          rcases this with rfl | rfl
          · exact Double.floating.zero.1
          · exact bigDouble_fin (by norm_num) (by norm_num)
        · have : v = 0 := by simpa [roundLayer] using hv
          rw [this]
          exact Double.floating.zero.1
      · simp [Model.params, roundModel, Body.params] at hp) epochs
    (fun e he x hx' => by
      rw [hx e he] at hx'
      obtain rfl : x = _ := by simpa using hx'
      refine ⟨roundSample_fits _, fun v hv => ?_⟩
      obtain rfl : v = _ := by simpa [roundSample] using hv
      exact bigDouble_fin (by norm_num) (by norm_num)) hfull M' h2
  have hf := (hfin 0 W Bi e1).2
  have hmem : β r 0 0 ∈ Bi.vals := Matrix.mem_of_read (hβ.entry r hr 0 Nat.one_pos 0 Nat.one_pos)
  obtain ⟨x, hx2, _⟩ := hf _ hmem
  rw [hn] at hx2
  cases hx2

/-! The hypotheses of the other theorems are met: the same network with a NaN among its weights. -/

example : ∃ s', (roundLayer .nan).weights.Hurt (· = .nan) s' := by
  refine ⟨⟨2, 1, 1⟩, fun i _ _ => if i = 0 then 0 else .nan, ?_, 1, by decide, 0, by decide, 0, by decide, rfl⟩
  exact Matrix.Shows.of_vals ⟨by decide, by decide, by decide, by decide⟩ rfl (by simp [roundLayer, List.range_succ])

theorem roundModel_prepared (w : Double) : (roundModel w).Prepared 1 := (setBatchSize_shaped (roundModel_runs w)).prepared roundKinds_work (roundModel_used w)

example (X : Matrix Double) (hX : X.Has ⟨1, 1, 1⟩) : (roundModel .nan).Useless (· = .nan) doubleEnv X 0 := by
  refine C97_useless doubleEnv _ C97_double (roundModel .nan) ⟨1, 1, 1⟩ [.full 2] (roundModel_runs _) roundKinds_work (roundModel_used _) 1 (roundModel_prepared _)
    _ _ rfl (by simp) (Or.inl ⟨⟨2, 1, 1⟩, fun i _ _ => if i = 0 then 0 else .nan, ?_, 1, by decide, 0, by decide, 0, by decide, rfl⟩) X hX 0 (by decide)
  exact Matrix.Shows.of_vals ⟨by decide, by decide, by decide, by decide⟩ rfl (by simp [roundLayer, List.range_succ])

example (sched : List Nat) (q : Shared Double × List (Event Double))
    (h : runBatch doubleEnv roundHyper sched ⟨roundModel (bigDouble 900), [roundSample], 0⟩ = .ok (some q)) :
    ∃ W Bi, q.1.model.params 0 = some (W, Bi) ∧ W.Lost (· = .nan) ⟨2, 1, 1⟩ ∧ Bi.Lost (· = .nan) ⟨2, 1, 1⟩ := by
  obtain ⟨W, Bi, e, _, hr⟩ := C97_batch doubleEnv _ C97_double rfl roundHyper 1 1 rfl rfl (by decide) (by decide) (by decide) (by decide) _ ⟨1, 1, 1⟩ [.full 2]
    (roundModel_runs _) roundKinds_work (roundModel_prepared _) (by simpa using roundSample_fits _) (by simp) roundSample (by simp) 0 roundModel_overflows
    sched q h 0 (.full 2) rfl rfl
  exact ⟨W, Bi, e, hr rfl⟩

end Cnn
