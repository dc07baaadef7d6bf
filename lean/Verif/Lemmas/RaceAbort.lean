import Verif.Lemmas.RaceTrain
import Verif.Lemmas.ShapeBuild
/-! Helper lemmas: two threads in the first call of a fully connected layer end the program (C80). -/
set_option linter.unusedSectionVars false
namespace Cnn
variable {α : Type} [Zero α] [One α] [Add α] [Sub α] [Mul α] [Div α] [Neg α]

namespace Race
open Train Model

/-- A step inside a call. -/
theorem call_step (E : Env α) (rnd : Nat → Nat → Nat → α) {t cut slot i : Nat} {x : Sample α} {st : Matrix α × List (Matrix α)} {c : Option (FirstUse.Pc α)}
    {f : Batch α} {L L' : Connected α} {pc : FirstUse.Pc α} (hw : f.workers[t]? = some ⟨cut, .forward slot x i st, c⟩) (hL : f.shared.model.bodyAt i = some (.connected L))
    (hs : FirstUse.step E.num L ⟨c.getD .size, st.1, rnd t i⟩ = (pc, L')) (hpc : ∀ r, pc ≠ .done r) :
    f.step E rnd t = .ok (⟨{ f.shared with model := f.shared.model.setBody i (.connected L') }, f.workers.set t ⟨cut, .forward slot x i st, some pc⟩⟩, []) := by
  unfold Batch.step
  rw [hw]
  dsimp only
  unfold Worker.step
  rw [callOf_eq hL]
  dsimp only
  unfold callStep
  dsimp only
  rw [hs]
  cases pc <;> first | (exact absurd rfl (hpc _)) | rfl

/-- Thread `a` announces that the layer is initialised, thread `b` finds that the weights do not have the expected size. -/
theorem clash (E : Env α) (rnd : Nat → Nat → Nat → α) {a b i ca sa cb sb : Nat} {xa xb : Sample α} {sta stb : Matrix α × List (Matrix α)} {f : Batch α} {L : Connected α}
    (hab : a ≠ b) (ha : f.workers[a]? = some ⟨ca, .forward sa xa i sta, none⟩) (hb : f.workers[b]? = some ⟨cb, .forward sb xb i stb, none⟩)
    (hL : f.shared.model.bodyAt i = some (.connected L)) (hi : L.initialized = false) {ea eb : Dim3} (hea : L.expected sta.1 = .ok ea)
    (heb : L.expected stb.1 = .ok eb) (hne : L.weights.dim ≠ eb) : f.run E rnd [a, a, a, b, b, b] = .abort := by
  have la := (List.getElem?_eq_some_iff.1 ha).1
  have lb := (List.getElem?_eq_some_iff.1 hb).1
  have e1 := call_step E rnd (pc := .test ea) (L' := L) ha hL (by simp [FirstUse.step, hea, FirstUse.next]) (by simp)
  rw [run_cons, e1, Res.bind_ok, Overlap.setBody_self hL]
  have e2 := call_step E rnd (f := ⟨f.shared, f.workers.set a ⟨ca, .forward sa xa i sta, some (.test ea)⟩⟩) (pc := .claim ea) (L' := L)
    (List.getElem?_set_self la) hL (by simp [FirstUse.step, hi]) (by simp)
  rw [run_cons, e2, Res.bind_ok, Overlap.setBody_self hL, List.set_set]
  have e3 := call_step E rnd (f := ⟨f.shared, f.workers.set a ⟨ca, .forward sa xa i sta, some (.claim ea)⟩⟩) (pc := .inputDim ea) (L' := { L with initialized := true })
    (List.getElem?_set_self la) hL (by simp [FirstUse.step]) (by simp)
  rw [run_cons, e3, Res.bind_ok, List.set_set]
  have hL' : (f.shared.model.setBody i (.connected { L with initialized := true })).bodyAt i = some (.connected { L with initialized := true }) := bodyAt_setBody hL
  have hb' : ∀ w : Worker α, (f.workers.set a w)[b]? = some ⟨cb, .forward sb xb i stb, none⟩ := fun w => by rw [List.getElem?_set_ne hab]; exact hb
  have e4 := call_step E rnd (f := ⟨{ f.shared with model := f.shared.model.setBody i (.connected { L with initialized := true }) },
    f.workers.set a ⟨ca, .forward sa xa i sta, some (.inputDim ea)⟩⟩) (pc := .test eb) (L' := { L with initialized := true })
    (hb' _) hL' (by
      have : Connected.expected { L with initialized := true } stb.1 = .ok eb := heb
      simp [FirstUse.step, this, FirstUse.next]) (by simp)
  rw [run_cons, e4, Res.bind_ok]
  dsimp only
  rw [Overlap.setBody_self hL']
  have e5 := call_step E rnd (f := ⟨{ f.shared with model := f.shared.model.setBody i (.connected { L with initialized := true }) },
    (f.workers.set a ⟨ca, .forward sa xa i sta, some (.inputDim ea)⟩).set b ⟨cb, .forward sb xb i stb, some (.test eb)⟩⟩) (pc := .compare eb) (L' := { L with initialized := true })
    (List.getElem?_set_self (by simpa using lb)) hL' (by simp [FirstUse.step]) (by simp)
  rw [run_cons, e5, Res.bind_ok]
  dsimp only
  rw [Overlap.setBody_self hL', List.set_set, run_cons]
  unfold Batch.step
  dsimp only
  rw [List.getElem?_set_self (by simpa using lb)]
  dsimp only
  unfold Worker.step
  dsimp only
  rw [callOf_eq hL']
  dsimp only
  unfold callStep
  simp only [FirstUse.step, Option.getD_some]
  rw [if_neg hne]
  rfl

theorem share_lt {B T : Nat} (hB : 2 ≤ B) (hT : 2 ≤ T) : 0 < share B T ∧ share B T < B := by
  obtain ⟨h1, h2⟩ := share_bounds B T (by omega)
  generalize share B T = S at *
  constructor
  · rcases Nat.eq_zero_or_pos S with h | h
    · subst h; omega
    · exact h
  · by_contra hn
    have h3 : B ≤ S := by omega
    have : T * B ≤ T * S := Nat.mul_le_mul_left _ h3
    have h4 : T * B < B + T := by omega
    obtain ⟨t, rfl⟩ : ∃ t, T = t + 2 := ⟨T - 2, by omega⟩
    obtain ⟨b, rfl⟩ : ∃ b, B = b + 2 := ⟨B - 2, by omega⟩
    have h5 : (t + 2) * (b + 2) = t * b + 2 * t + 2 * b + 4 := by ring
    rw [h5] at h4
    have := Nat.zero_le (t * b)
    omega

variable {B : Nat} {s : Shape} {ks : List LayerKind} {labels : List (List Char)}

/-- A thread fetches a sample and goes through the layers before layer `i`. -/
theorem arrive (E : Env α) (rnd : Nat → Nat → Nat → α) {f : Batch α} (h : f.shared.model.Shaped B s ks labels) (hW : KindsWork true s ks) {t cut slot : Nat}
    (hw : f.workers[t]? = some ⟨cut, .fetch slot, none⟩) (hs : slot < cut) (hb : slot < B) {x : Sample α} {rest : List (Sample α)} (hsrc : f.shared.source = x :: rest)
    (hx : x.data.Has s) (i : Nat) (hi : i ≤ ks.length) : ∃ sched st M' ev, M'.Shaped B s ks labels ∧ (∀ j, i ≤ j → M'.bodyAt j = f.shared.model.bodyAt j) ∧ st.1.Has (shapeAt ks s i) ∧
      f.run E rnd sched = .ok (⟨{ f.shared with model := M', source := rest }, f.workers.set t ⟨cut, .forward slot x i st, none⟩⟩, ev) := by
  obtain ⟨st0, e0, st, M', e1, h1, h2, _⟩ := forwardSteps_shaped { E with draws := rnd t } h hW hb hx i (by omega)
  have hf : f.step E rnd t = .ok (⟨{ f.shared with source := rest }, f.workers.set t ⟨cut, .forward slot x 0 st0, none⟩⟩, [.fetch t slot x]) := by
    unfold Batch.step
    rw [hw]
    have e0' : forwardBegin E x.data = .ok st0 := e0
    simp only [Worker.step, callOf, Pc.step]
    rw [if_pos hs, hsrc]
    simp only [e0', Res.bind_ok, terminate]
  have lt := (List.getElem?_eq_some_iff.1 hw).1
  obtain ⟨sched, hr⟩ := solo_forward E rnd (f := ⟨{ f.shared with source := rest }, f.workers.set t ⟨cut, .forward slot x 0 st0, none⟩⟩)
    (List.getElem?_set_self lt) i e1
  refine ⟨t :: sched, st, M', [.fetch t slot x] ++ [], h1, (forwardSteps_later i e1).2.2, h2, ?_⟩
  rw [run_cons, hf, Res.bind_ok, hr, Res.bind_ok, List.set_set]

/-- With two threads, a batch of at least two samples can end the program. -/
theorem abort_batch (E : Env α) (rnd : Nat → Nat → Nat → α) {p : Hyper α} {T : Nat} (hp : p.batch = B) (hq : p.threads = T) (h2 : 2 ≤ B) (hB : B < 2 ^ 24) (hT2 : 2 ≤ T)
    (hT : T < 2147483648) (hW : KindsWork true s ks) {M : Model α} (h : M.Shaped B s ks labels) {i n : Nat} (hk : ks[i]? = some (.full n)) {L : Connected α}
    (hL : M.bodyAt i = some (.connected L)) (hi : L.initialized = false) (hd : L.weights.dim = 0) {x y : Sample α} {rest : List (Sample α)} (hx : x.data.Has s)
    (hy : y.data.Has s) (hits : Nat) : ∃ sched, runBatch E rnd p sched ⟨M, x :: y :: rest, hits⟩ = .abort := by
  obtain ⟨hS0, hS1⟩ := share_lt h2 hT2
  have hik : i < ks.length := (List.getElem?_eq_some_iff.1 hk).1
  unfold runBatch
  rw [hp, hq]
  simp only [startBatch_eq B T hB (by omega) hT, Res.bind_ok]
  have hget : ∀ t, t < T → (start (⟨⟨M, x :: y :: rest, hits⟩, (List.range T).map (fun t => (min ((t + 1) * share B T) B, (Pc.fetch (t * share B T) : Pc α)))⟩ : Train.Batch α)).workers[t]? =
      some ⟨min ((t + 1) * share B T) B, .fetch (t * share B T), none⟩ := by
    intro t ht
    simp [start, ht]
  generalize hf : start (⟨⟨M, x :: y :: rest, hits⟩, (List.range T).map (fun t => (min ((t + 1) * share B T) B, (Pc.fetch (t * share B T) : Pc α)))⟩ : Train.Batch α) = f at hget ⊢
  have hsh : f.shared = ⟨M, x :: y :: rest, hits⟩ := by rw [← hf]; rfl
  obtain ⟨s1, st1, M1, ev1, a1, a2, a3, a4⟩ := arrive E rnd (f := f) (by rw [hsh]; exact h) hW (hget 0 (by omega)) (by
    rw [Nat.zero_mul, Nat.zero_add, Nat.one_mul]; omega) (by omega) (x := x) (rest := y :: rest) (by rw [hsh]) hx i (by omega)
  have l0 := (List.getElem?_eq_some_iff.1 (hget 0 (by omega))).1
  have l1 := (List.getElem?_eq_some_iff.1 (hget 1 (by omega))).1
  obtain ⟨s2, st2, M2, ev2, b1, b2, b3, b4⟩ := arrive E rnd (f := ⟨{ f.shared with model := M1, source := y :: rest },
      f.workers.set 0 ⟨min ((0 + 1) * share B T) B, .forward (0 * share B T) x i st1, none⟩⟩) a1 hW (t := 1)
    (by rw [List.getElem?_set_ne (by decide)]; exact hget 1 (by omega)) (by omega) (by omega) rfl hy i (by omega)
  have hM2 : M2.bodyAt i = some (.connected L) := by
    rw [b2 i (le_refl _)]
    show M1.bodyAt i = _
    rw [a2 i (le_refl _), hsh]
    exact hL
  have hbias : L.biases.Has ⟨n, 1, 1⟩ := by
    have := h.layers i _ _ hL hk
    obtain ⟨h1 | ⟨_, h1⟩, _⟩ := this
    · obtain ⟨w, β, h1, _⟩ := h1
      rw [h1.initialized] at hi
      cases hi
    · exact h1
  obtain ⟨β, hβ⟩ := hbias
  obtain ⟨v1, hv1⟩ := a3
  obtain ⟨v2, hv2⟩ := b3
  have c := clash E rnd (a := 0) (b := 1) (f := ⟨{ f.shared with model := M2, source := rest },
      (f.workers.set 0 ⟨min ((0 + 1) * share B T) B, .forward (0 * share B T) x i st1, none⟩).set 1 ⟨min ((1 + 1) * share B T) B, .forward (1 * share B T) y i st2, none⟩⟩)
    (by decide) (by rw [List.getElem?_set_ne (by decide), List.getElem?_set_self l0]) (List.getElem?_set_self (by simpa using l1)) hM2 hi
    (Connected.expected_eq hβ hv1) (Connected.expected_eq hβ hv2) (by
      rw [hd]
      intro hh
      have h3 := congrArg Dim3.x hh
      have h4 : 0 < n := hβ.good.x
      change (0 : Int) = (n : Int) at h3
      omega)
  refine ⟨s1 ++ (s2 ++ [0, 0, 0, 1, 1, 1]), ?_⟩
  rw [run_append, a4, Res.bind_ok, run_append, b4, Res.bind_ok, c]
  rfl

theorem abort_train (E : Env α) (rnd : Nat → Nat → Nat → α) {p : Hyper α} {T : Nat} (hp : p.batch = B) (hq : p.threads = T) (h2 : 2 ≤ B) (hB : B < 2 ^ 24) (hT2 : 2 ≤ T)
    (hT : T < 2147483648) (hep : 0 < p.epochs) {size : Nat} (hz : 0 < size) (hz' : size < 2 ^ 24) (hW : KindsWork true s ks) {M : Model α} (h : M.Runs s ks) {i n : Nat}
    (hk : ks[i]? = some (.full n)) {L : Connected α}
    (hL : M.bodyAt i = some (.connected L)) (hi : L.initialized = false) (hd : L.weights.dim = 0) {x y : Sample α} {rest : List (Sample α)} (hx : x.data.Has s)
    (hy : y.data.Has s) (more : List (List (Sample α))) (hmore : more.length + 1 = p.epochs.toNat) :
    ∃ epochs : List (List (List Nat) × List (Sample α)), epochs.map Prod.snd = (x :: y :: rest) :: more ∧ train E rnd p size epochs M = .abort := by
  have hu : u64 p.batch = B := by rw [hp]; show B % _ = B; exact Nat.mod_eq_of_lt (by omega)
  have hL' : (M.setBatchSize B).bodyAt i = some (.connected (L.setBatchSize B)) := by
    unfold bodyAt at hL ⊢
    obtain ⟨l, hl, hb⟩ := Option.map_eq_some_iff.1 hL
    simp [Model.setBatchSize, hl, hb, Body.setBatchSize]
  obtain ⟨sched, hs⟩ := abort_batch E rnd hp hq h2 hB hT2 hT hW (setBatchSize_shaped h) hk hL' hi hd (rest := rest) hx hy 0
  refine ⟨(sched :: List.replicate ((size + B - 1) / B - 1) [], x :: y :: rest) :: more.map fun m => ([], m), by simp, ?_⟩
  rw [train_room, Model.room_nonneg (by omega), Res.bind_ok, if_pos (by simp; omega), List.foldlM_cons, hu]
  have : runEpoch E rnd p size (sched :: List.replicate ((size + B - 1) / B - 1) []) ⟨M.setBatchSize B, x :: y :: rest, 0⟩ = .abort := by
    unfold runEpoch
    rw [hp, hq, if_neg (by omega), workCount_eq B T hB (by omega), Res.bind_ok, if_neg (by omega), numBatches_eq size B hz' (by omega), Res.bind_ok]
    have hpos : 0 < (size + B - 1) / B := Nat.div_pos (by omega) (by omega)
    rw [if_pos (by rw [Int.toNat_natCast, List.length_cons, List.length_replicate]; omega)]
    unfold runBatches
    rw [hs]
    rfl
  unfold epochStep
  dsimp only
  rw [this]
  rfl

/-- A fully connected layer of a new model has no weights. -/
theorem addLayers_new (N : Num α) (draws : Nat → Nat → α) (ks : List LayerKind) (i : Nat) (M M' : Model α) (h : addLayers N draws i ks M = .ok M') :
    ∃ Ls, M'.layers = M.layers ++ Ls ∧ Ls.length = ks.length ∧ ∀ (j : Nat) n, ks[j]? = some (.full n) →
      ∃ l L, Ls[j]? = some l ∧ l.body = .connected L ∧ L.initialized = false ∧ L.weights.dim = 0 := by
  induction ks generalizing i M with
  | nil =>
    obtain rfl := Res.ok.inj h
    exact ⟨[], by simp, rfl, by simp⟩
  | cons k ks ih =>
    obtain ⟨M1, h1, h⟩ := Res.bind_eq_ok h
    obtain ⟨Ls, k1, k2, k3⟩ := ih _ _ h
    have : ∃ l, M1.layers = M.layers ++ [l] ∧ ∀ n, k = .full n → ∃ L, l.body = .connected L ∧ L.initialized = false ∧ L.weights.dim = 0 := by
      cases k with
      | conv A B C F =>
        change M.addKernel N (draws i) ⟨A, B, C⟩ F = _ at h1
        unfold Model.addKernel at h1
        obtain ⟨K, _, h1⟩ := Res.bind_eq_ok h1
        obtain rfl := Res.ok.inj h1
        exact ⟨_, rfl, by simp⟩
      | pool t px py sx sy =>
        obtain rfl := Res.ok.inj h1
        exact ⟨_, rfl, by simp⟩
      | full n =>
        change M.addConnected n = _ at h1
        unfold Model.addConnected at h1
        obtain ⟨L, hL, h1⟩ := Res.bind_eq_ok h1
        obtain rfl := Res.ok.inj h1
        refine ⟨_, rfl, fun _ _ => ⟨L, rfl, ?_⟩⟩
        unfold Connected.new at hL
        obtain ⟨W, hW, hL⟩ := Res.bind_eq_ok hL
        obtain ⟨b, _, hL⟩ := Res.bind_eq_ok hL
        obtain rfl := Res.ok.inj hL
        obtain ⟨z, _, hW⟩ := Res.bind_eq_ok hW
        obtain rfl := Res.ok.inj hW
        exact ⟨rfl, rfl⟩
      | act f =>
        obtain rfl := Res.ok.inj h1
        exact ⟨_, rfl, by simp⟩
    obtain ⟨l, hl, hl'⟩ := this
    refine ⟨l :: Ls, by rw [k1, hl]; simp, by simp [k2], fun j n hj => ?_⟩
    cases j with
    | zero =>
      obtain ⟨L, hL⟩ := hl' n (by simpa using hj)
      exact ⟨l, L, rfl, hL⟩
    | succ j =>
      obtain ⟨l', L, h2, h3⟩ := k3 j n (by simpa using hj)
      exact ⟨l', L, by simpa using h2, h3⟩

theorem buildModel_new {N : Num α} {draws : Nat → Nat → α} {ks : List LayerKind} {labels : List (List Char)} {M : Model α} (h : buildModel N draws ks labels = .ok M)
    {i n : Nat} (hk : ks[i]? = some (.full n)) : ∃ L, M.bodyAt i = some (.connected L) ∧ L.initialized = false ∧ L.weights.dim = 0 := by
  obtain ⟨M1, h1, h⟩ := Res.bind_eq_ok h
  obtain rfl := Res.ok.inj h
  obtain ⟨Ls, k1, k2, k3⟩ := addLayers_new N draws ks 0 _ _ h1
  obtain ⟨l, L, e1, e2, e3⟩ := k3 i n hk
  refine ⟨L, ?_, e3⟩
  have hi : i < Ls.length := (List.getElem?_eq_some_iff.1 e1).1
  have k1' : M1.layers = Ls := by rw [k1]; rfl
  unfold bodyAt
  simp [Model.setOutputLabels, Model.append, k1', List.getElem?_append_left hi, e1, e2]

end Race
end Cnn
