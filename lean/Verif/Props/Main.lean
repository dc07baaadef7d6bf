import Verif.Spec.Main
import Verif.Props.Safe
import Verif.Props.Validate
import Verif.Props.Feed
import Verif.Lemmas.MatrixText
/-!
# Property C71: the program as a whole
-/
set_option linter.unusedSectionVars false
namespace Cnn.Main
open Model Mnist Train
variable {α : Type} [Zero α] [One α] [Add α] [Sub α] [Mul α] [Div α] [Neg α]

theorem network_eq (N : Num α) (draws : Nat → Nat → α) : network N draws = buildModel N draws kinds labels := by
  unfold network buildModel kinds
  simp only [addLayers, LayerKind.add, Nat.cast_ofNat, Nat.cast_one, Res.bind_ok, Nat.zero_add, Nat.reduceAdd, bind_assoc]

theorem kinds_work : KindsWork true image kinds := by
  refine ⟨⟨by decide, rfl, ⟨by decide, by decide, by decide⟩, Or.inl rfl⟩, trivial, ⟨by decide, by decide, by decide, by decide, by decide, by decide, by decide, by decide⟩,
    ⟨by decide, rfl, ⟨by decide, by decide, by decide⟩, Or.inr ⟨by decide, by decide⟩⟩, trivial,
    ⟨by decide, by decide, by decide, by decide, by decide, by decide, by decide, by decide⟩, ⟨by decide, by decide⟩, trivial⟩

theorem kinds_out : kindsOut kinds image = ⟨labels.length, 1, 1⟩ := rfl

theorem digit_label {n : Nat} (h : n ≤ 9) : natText n ∈ labels := by
  have : ∀ n : Fin 10, natText n.1 ∈ labels := by decide
  exact this ⟨n, by omega⟩

/-- The training samples of the records `i`. -/
def IsTrainSample (conv : F32 → α) (f : Content) (i : Nat) (x : Sample α) : Prop :=
  ∃ im, f.IsRecord i im ∧ x.data = Validate.input conv im.data ∧ x.label = natText (f.label i).toNat

theorem IsTrainSample.unique {conv : F32 → α} {f : Content} {i : Nat} {x y : Sample α} (hx : IsTrainSample conv f i x) (hy : IsTrainSample conv f i y) : x = y := by
  obtain ⟨im, h1, h2, h3⟩ := hx
  obtain ⟨im', h4, h5, h6⟩ := hy
  have : im.data = im'.data := h1.2.unique h4.2
  cases x; cases y
  simp only at h2 h3 h5 h6
  rw [h2, h3, h5, h6, this]

theorem exists_samples (conv : F32 → α) {f : Content} {lim cur : Nat} (ok : f.Ok lim) {R : Reader} (h : R.On f cur) :
    ∀ k i, i + k ≤ f.n → ∃ l, List.Forall₂ (IsTrainSample conv f) (List.range' i k) l := by
  intro k
  induction k with
  | zero => intro i _; exact ⟨[], .nil⟩
  | succ k ih =>
    intro i hi
    obtain ⟨l, hl⟩ := ih (i + 1) (by omega)
    obtain ⟨im, _, _, hr, _⟩ := ((h.seek ok i (C59_records f lim ok i (by omega))).next true ok).1 (by omega)
    exact ⟨⟨Validate.input conv im.data, natText (f.label i).toNat⟩ :: l, by rw [List.range'_succ]; exact .cons ⟨im, hr, rfl, rfl⟩ hl⟩

/-- The source serves the records from the next one on. -/
theorem serves_on {conv : F32 → α} {big : Bool} {f : Content} {lim : Nat} (ok : f.Ok lim) {Q : Reader → Prop} (hQ : ∀ R c, R.On f c → Q R) :
    ∀ (k cur : Nat) (l : List (Sample α)) (R : Reader), R.On f cur → cur + k = f.n → List.Forall₂ (IsTrainSample conv f) (List.range' cur k) l →
      Feed.Serves (source conv big lim) Q l R := by
  have hnum : ∀ {R : Reader} {c}, R.On f c → R.numImages = f.n := by
    intro R c h; unfold Reader.numImages; rw [h.num]; exact u64_nat (by have := ok.n; omega)
  intro k
  induction k with
  | zero =>
    intro cur l R h hk hl
    cases hl
    exact ⟨hQ R cur h, by show hasData R = false; simp [hasData, hnum h, h.cur]; omega⟩
  | succ k ih =>
    intro cur l R h hk hl
    rw [List.range'_succ] at hl
    cases hl with
    | cons hx hl =>
      obtain ⟨im, R', e, hr, h'⟩ := (h.next big ok).1 (by omega)
      have eg : (source conv big lim).next R = (.ok ⟨Validate.input conv im.data, natText im.label⟩, R') := by
        show Exec.bind (getNext big) _ R = _
        simp [getNext, Exec.bind, e, Exec.pure]
      refine ⟨hQ R cur h, by show hasData R = true; simp [hasData, hnum h, h.cur]; omega, R', ?_, ih (cur + 1) _ R' h' (by omega) hl⟩
      rw [eg, hr.1, IsTrainSample.unique hx (y := ⟨Validate.input conv im.data, natText (f.label cur).toNat⟩) ⟨im, hr, rfl, rfl⟩]

theorem size_on {f : Content} {lim : Nat} (ok : f.Ok lim) (hn : 0 < f.n) {R : Reader} {c : Nat} (h : R.On f c) : size R = f.n - 1 := by
  have : R.numImages = f.n := by unfold Reader.numImages; rw [h.num]; exact u64_nat (by have := ok.n; omega)
  unfold size
  rw [this]
  have : ((f.n : Int) - 1) = ((f.n - 1 : Nat) : Int) := by omega
  rw [this]
  exact u64_nat (by have := ok.n; omega)

theorem feeds_on {conv : F32 → α} {big : Bool} {f : Content} {lim : Nat} (ok : f.Ok lim) (hn : 0 < f.n) {l : List (Sample α)}
    (hl : List.Forall₂ (IsTrainSample conv f) (List.range' 1 (f.n - 1)) l) : ∀ (k : Nat) (R : Reader), R.On f 1 →
    Feed.Feeds (source conv big lim) (f.n - 1) (List.replicate k l) R := by
  intro k
  induction k with
  | zero => intro R _; trivial
  | succ k ih =>
    intro R h
    refine serves_on ok (fun R' c h' => ⟨size_on ok hn h', ?_⟩) (f.n - 1) 1 l R h (by omega) hl
    obtain ⟨R'', e, h''⟩ := reset_on big ok hn h'
    exact ⟨R'', e, ih R'' h''⟩

/-- C81 for the data source of main.cpp: opened on well-formed files it serves the records 1, …, n-1 in every epoch and reports the size n-1, so the training uses exactly these. -/
theorem C81_mnist (conv : F32 → α) (big : Bool) (f : Content) (lim : Nat) (ok : f.Ok lim) (hn : 0 < f.n) :
    ∃ R l, newGenerator big lim (some f.images) (some f.labels) = .ok R ∧ List.Forall₂ (IsTrainSample conv f) (List.range' 1 (f.n - 1)) l ∧
      ∀ (E : Env α) (p : Hyper α) (scheds : List (List (List Nat))) (M : Model α),
        (do let r ← Feed.train (source conv big lim) E p scheds M R; Res.ok (r.map Prod.fst)) =
          train E p (f.n - 1) (scheds.zip (List.replicate scheds.length l)) M := by
  obtain ⟨R0, e0, h0⟩ := new_on big ok
  obtain ⟨R, e1, h1⟩ := reset_on big ok hn h0
  obtain ⟨l, hl⟩ := exists_samples conv ok h1 (f.n - 1) 1 (by omega)
  refine ⟨R, l, by unfold newGenerator; rw [e0, Res.bind_ok, e1], hl, fun E p scheds M => ?_⟩
  exact Feed.C81_model (source conv big lim) E p (f.n - 1) _ scheds (by simp) M R (feeds_on ok hn hl _ R h1)

theorem full_ready {B : Nat} {s : Shape} {ks : List LayerKind} {ls : List (List Char)} {M : Model α} (hB : 0 < B) (h : M.Shaped B s ks ls) (hf : Full B s ks M) : M.Ready := by
  intro l hl
  obtain ⟨i, hi⟩ := List.mem_iff_getElem?.1 hl
  have hb : M.bodyAt i = some l.body := by
    unfold bodyAt
    rw [hi]; rfl
  have hlt : i < ks.length + 1 := by rw [← h.count]; exact (List.getElem?_eq_some_iff.1 hi).1
  rcases Nat.lt_or_ge i ks.length with h1 | h1
  · have h3 := (hf 0 hB).1 i _ _ hlt hb (List.getElem?_eq_getElem h1)
    revert h3
    generalize l.body = y
    cases y <;> intro h3 <;> first | exact h3 | trivial
  · obtain rfl : i = ks.length := by omega
    obtain ⟨S, h2, _⟩ := h.last
    rw [hb] at h2
    rw [Option.some.inj h2]
    trivial

/-- A trained model can be saved. -/
theorem saveLayers_ok (C : Codec α) : ∀ (ls : List (Layer α)) (i : Nat) (os : List Char), (∀ l ∈ ls, ∃ t, l.body.serialize C = .ok t) →
    ∃ T, saveLayers C i ls os = (.ok (), T) := by
  intro ls
  induction ls with
  | nil => intro i os _; exact ⟨os, rfl⟩
  | cons l ls ih =>
    intro i os h
    obtain ⟨t, e⟩ := h l (by simp)
    rw [saveLayers, e]
    exact ih _ _ (fun l hl => h l (by simp [hl]))

theorem saveModel_ok (C : Codec α) {M : Model α} {s : Shape} {ks : List LayerKind} {B : Nat} (h : M.Trained B s ks) (opened : Bool) :
    ∃ t, M.saveModel C opened = (.ok true, if opened then some t else none) := by
  obtain ⟨T, e⟩ := saveLayers_ok C M.layers 0 [] (by
    intro l hl
    obtain ⟨i, hi⟩ := List.mem_iff_getElem?.1 hl
    have hlt : i < ks.length + 1 := by rw [← h.runs.count]; exact (List.getElem?_eq_some_iff.1 hi).1
    rcases Nat.lt_or_ge i ks.length with h1 | h1
    · have h2 := h.runs.layers i l _ hi (List.getElem?_eq_getElem h1)
      have h3 := h.settled l hl
      revert h2 h3
      generalize l.body = y
      generalize ks[i] = k
      cases y <;> cases k <;> intro h2 h3 <;> first | exact h2.elim | skip
      · obtain ⟨w, β, hK⟩ := h2
        exact ⟨_, by unfold Body.serialize Kernel.serialize; dsimp only; rw [hK.weights.serialize C, Res.bind_ok, hK.biases.serialize C, Res.bind_ok]⟩
      · exact ⟨_, rfl⟩
      · rcases h2 with ⟨w, β, hL, _⟩ | ⟨h4, _⟩
        · exact ⟨_, by unfold Body.serialize Connected.serialize; dsimp only; rw [hL.weights.serialize C, Res.bind_ok, hL.biases.serialize C, Res.bind_ok]⟩
        · rw [h3.1] at h4; exact absurd h4 (by simp)
      · exact ⟨_, rfl⟩
    · obtain rfl : i = ks.length := by omega
      obtain ⟨L, S, h2, h3, _⟩ := h.runs.last
      rw [hi] at h2
      obtain rfl := Option.some.inj h2
      rw [h3]
      exact ⟨_, rfl⟩)
  refine ⟨T ++ labelText M.labels, ?_⟩
  unfold saveModel
  rw [e]

/-- The steps up to the training. -/
theorem before_training (H : Host α) (f g : Content) (hs : Suits H.lim H.cores f g) :
    ∃ G M l, newGenerator H.big H.lim (some f.images) (some f.labels) = .ok G ∧ network H.env.num H.env.draws = .ok M ∧ M.labels = labels ∧ M.Runs image kinds ∧
      (∀ k, Feed.Feeds (source H.conv H.big H.lim) (f.n - 1) (List.replicate k l) G) ∧ List.Forall₂ (IsTrainSample H.conv f) (List.range' 1 (f.n - 1)) l ∧
      (∀ x ∈ l, x.Fits image labels) ∧ l.length = f.n - 1 := by
  have hn : 0 < f.n := by have := hs.enough; omega
  obtain ⟨R0, e0, h0⟩ := new_on H.big hs.train
  obtain ⟨G, e1, h1⟩ := reset_on H.big hs.train hn h0
  obtain ⟨M, e2, hl, hR⟩ := buildModel_runs H.env.num H.env.draws kinds labels kinds_work (by decide) (Or.inl kinds_out)
  obtain ⟨l, hF⟩ := exists_samples H.conv hs.train h1 (f.n - 1) 1 (by omega)
  refine ⟨G, M, l, by unfold newGenerator; rw [e0, Res.bind_ok, e1], by rw [network_eq]; exact e2, hl, hR, fun k => feeds_on hs.train hn hF k G h1, hF, ?_, ?_⟩
  · intro x hx
    obtain ⟨i, hi⟩ := List.mem_iff_getElem?.1 hx
    have hil : i < l.length := (List.getElem?_eq_some_iff.1 hi).1
    have hlen := hF.length_eq
    rw [List.length_range'] at hlen
    have := List.Forall₂.get hF (i := i) (by rw [List.length_range']; omega) hil
    simp only [List.get_eq_getElem, List.getElem_range'] at this
    have hxi : l[i] = x := (List.getElem?_eq_some_iff.1 hi).2
    rw [hxi] at this
    obtain ⟨im, hr, hd, hlab⟩ := this
    refine ⟨?_, ?_⟩
    · rw [hd]
      have := Validate.input_shows H.conv hr.2
      rw [hs.trainSize.1, hs.trainSize.2] at this
      exact ⟨_, this⟩
    · rw [hlab]
      exact digit_label (by have := hs.digits (1 + 1 * i) (by omega); exact UInt8.le_iff_toNat_le.mp this)
  · rw [← hF.length_eq, List.length_range']

theorem hyper_threads {rate : α} {cores n : Nat} (h : n + threads cores < 2147483648) : (hyper rate cores).threads = (threads cores : Nat) := by
  show wrap32 _ = _
  exact wrap32_nat (by unfold threads at h; omega)

/-- C71. Whatever the files contain (within `Suits`), whatever the random weights, the arithmetic, the learning rate, the number of cores and the schedules: `main` does
not throw, abort or reach undefined behaviour. When it ends it has trained the network on the records 1, …, n-1 of the training files in two epochs, the count is the number of test
images the trained network classifies correctly, five images have been shown, each with its label and the one the trained network gives it, and a model to be saved has been written.
What is missing: a call of a layer is one step of a thread (C73 and `C56_throws` say what else can happen with several threads), and the random number
`RAND_MAX` (`C74_throws`). -/
theorem C71_program_partial (H : Host α) (C : Codec α) (rate : α) (f g : Content) (hs : Suits H.lim H.cores f g) (hE : H.env.order = .dimsFirst)
    (h32 : Rounding H.chance.r32) (h64 : Rounding H.chance.r64) (hh : H.chance.r32 (1 / 2) ≠ 0)
    (herr : ∀ q, 0 ≤ q → H.chance.r64 q ≤ q * (1 + 1 / 9007199254740992)) (hm : H.chance.randMax ≤ 2147483647)
    (hr : ∀ r ∈ H.rands, r < H.chance.randMax) (hr5 : 5 ≤ H.rands.length) (save : Option Bool) :
    ∃ o, program H C rate (files f g) save = .ok o ∧ ∀ r, o = some r →
      (∃ M l, network H.env.num H.env.draws = .ok M ∧ List.Forall₂ (IsTrainSample H.conv f) (List.range' 1 (f.n - 1)) l ∧
        train H.env (hyper rate H.cores) (f.n - 1) (H.trainScheds.zip [l, l]) M = .ok (some r.trained) ∧
        report H.env (hyper rate H.cores) (f.n - 1) (H.trainScheds.zip [l, l]) M = .ok (some (r.trained, r.epochs.map Prod.fst))) ∧
      r.epochs.map Prod.snd = [f.n - 1, f.n - 1] ∧
      r.trained.Trained 32 image kinds ∧ r.trained.labels = labels ∧
      (∀ p : Nat → Bool, (∀ i < g.n, p i = true ↔ Validate.Right H.env H.conv g r.trained i) → r.correct = ((List.range g.n).countP p : Nat)) ∧
      r.shown.length = 5 ∧ List.Forall₂ (Validate.Reports H.env H.conv H.chance g r.trained) (H.rands.take 5) r.shown ∧ r.model.Trained 32 image kinds ∧ r.model.labels = labels ∧
      (save = none → r.saved = none) ∧ ∀ opened, save = some opened → r.saved = some (r.model.saveModel C opened) ∧ ∃ t, r.saved = some (.ok true, if opened then some t else none) := by
  obtain ⟨G, M, l, e0, e1, hl, hR, e2, h3, h4, h5⟩ := before_training H f g hs
  have hthr := hyper_threads (rate := rate) hs.threads
  have ht0 : 0 < threads H.cores := by unfold threads; omega
  have ht1 : threads H.cores < 2147483648 := by have := hs.threads; omega
  have hep : ∀ e ∈ H.trainScheds.zip [l, l], e.2 = l := fun e he => by simpa using (List.of_mem_zip he).2
  have hx : ∀ e ∈ H.trainScheds.zip [l, l], ∀ x ∈ e.2, x.Fits image M.labels := fun e he => by rw [hl, hep e he]; exact h4
  have hfull : ∀ e ∈ (H.trainScheds.zip [l, l]).head?, 32 ≤ e.2.length := by
    intro e he
    rw [hep e (List.mem_of_mem_head? he), h5]
    have := hs.enough
    omega
  have hu : u64 (hyper rate H.cores).batch = 32 := rfl
  unfold program files
  dsimp only
  rw [e0, Res.bind_ok, e1, Res.bind_ok]
  have key : ∃ o, Feed.train (source H.conv H.big H.lim) H.env (hyper rate H.cores) H.trainScheds M G = .ok o ∧ ∀ q, o = some q →
      (q.1.Trained 32 image kinds ∧ q.1.labels = labels) ∧ train H.env (hyper rate H.cores) (f.n - 1) (H.trainScheds.zip [l, l]) M = .ok (some q.1) ∧
      report H.env (hyper rate H.cores) (f.n - 1) (H.trainScheds.zip [l, l]) M = .ok (some (q.1, q.2.2.map Prod.fst)) ∧ q.2.2.map Prod.snd = [f.n - 1, f.n - 1] := by
    by_cases h2 : H.trainScheds.length = 2
    · have hlen : (H.trainScheds.zip [l, l]).length = (hyper rate H.cores).epochs.toNat := by rw [List.length_zip, h2]; rfl
      obtain ⟨o, e, ho⟩ := epochs_shaped (B := 32) (T := threads H.cores) hE kinds_work rfl hthr (by decide) (by decide) ht0 ht1 (size := f.n - 1)
        (by have := hs.enough; omega) (by have := hs.few; omega) (H.trainScheds.zip [l, l]) (setBatchSize_shaped hR) hx (Or.inr hfull)
      have et : train H.env (hyper rate H.cores) (f.n - 1) (H.trainScheds.zip [l, l]) M = .ok o := by rw [train_if (show (0 : Int) ≤ 32 by decide), if_pos hlen, hu]; exact e
      have er := report_train H.env (hyper rate H.cores) (f.n - 1) (H.trainScheds.zip [l, l]) M
      rw [et] at er
      obtain ⟨q, eq, er⟩ := Res.bind_eq_ok er
      have hq : q.map Prod.fst = o := Res.ok.inj er
      have hlike := Feed.train_like (source H.conv H.big H.lim) H.env (hyper rate H.cores) (f.n - 1) [l, l] [] H.trainScheds h2 M G (e2 2)
      rw [eq] at hlike
      cases ef : Feed.train (source H.conv H.big H.lim) H.env (hyper rate H.cores) H.trainScheds M G with
      | ok w =>
        rw [ef] at hlike
        refine ⟨w, rfl, ?_⟩
        rintro z rfl
        match q, hlike with
        | some q, ⟨k1, k2, _⟩ =>
          obtain ⟨m1, m2⟩ := ho z.1 (by rw [← hq, k1]; rfl)
          have hf := m2 (Or.inl (by intro hc; rw [hc] at hlen; exact absurd (show (0 : Nat) = 2 from hlen) (by decide)))
          refine ⟨⟨m1.trained (full_ready (by decide) m1 hf), by rw [m1.labelled, hl]⟩, by rw [et, ← hq, k1]; rfl, ?_, ?_⟩
          · rw [eq, k1, k2, List.map_map]
            have : (Prod.fst ∘ fun h : Nat => (h, f.n - 1)) = id := rfl
            rw [this, List.map_id]
          · have hrl : q.2.length = 2 := by
              have e' := eq
              unfold report at e'
              rw [Model.room_nonneg (show (0 : Int) ≤ (hyper rate H.cores).batch from (by decide : (0 : Int) ≤ 32)), Res.bind_ok, if_pos hlen] at e'
              rw [reportLoop_length e', hlen]
              rfl
            rw [k2, List.map_map]
            match hq2 : q.2, hrl with
            | [a, b], _ => rfl
      | throw x => rw [ef] at hlike; exact hlike.elim
      | ub => rw [ef] at hlike; exact hlike.elim
      | abort => rw [ef] at hlike; exact hlike.elim
    · refine ⟨none, ?_, by simp⟩
      unfold Feed.train
      rw [Model.room_nonneg (show (0 : Int) ≤ (hyper rate H.cores).batch from (by decide : (0 : Int) ≤ 32)), Res.bind_ok]
      exact if_neg h2
  obtain ⟨o, e3, ho⟩ := key
  rw [e3, Res.bind_ok]
  cases o with
  | none => exact ⟨none, rfl, by simp⟩
  | some q =>
    obtain ⟨⟨k1, k2⟩, et, er, hz⟩ := ho q rfl
    have hsh : (⟨g.h, g.w, 1⟩ : Shape) = image := by rw [hs.testSize.1, hs.testSize.2]; rfl
    obtain ⟨v, e4, hv⟩ := Validate.C74_validate_partial H.env H.conv H.big H.lim H.chance g hs.test hs.some q.1 32 kinds (hsh ▸ k1) (by decide) (hsh ▸ kinds_work) (threads H.cores)
      ht0 hs.threads h32 h64 hh herr hm (H.rands.take 5) (fun r hr' => hr r (List.mem_of_mem_take hr')) H.validScheds
    dsimp only
    rw [hthr, e4, Res.bind_ok]
    cases v with
    | none => exact ⟨none, rfl, by simp⟩
    | some v =>
      obtain ⟨c, os, M''⟩ := v
      obtain ⟨v1, v2, v3, v4⟩ := hv c os M'' rfl
      rw [hsh] at v3
      refine ⟨_, rfl, ?_⟩
      intro r hr'
      obtain rfl := Option.some.inj hr'
      refine ⟨⟨M, l, rfl, h3, et, er⟩, hz, k1, k2, v1, ?_, v2, v3, v4.trans k2, fun h => by rw [h]; rfl, ?_⟩
      · show os.length = 5
        rw [← v2.length_eq, List.length_take]
        omega
      · rintro opened rfl
        obtain ⟨t, et⟩ := saveModel_ok C v3 opened
        exact ⟨rfl, t, congrArg some et⟩

/-- For every host there are schedules under which the training ends. -/
theorem training_ends (H : Host α) (rate : α) (f g : Content) (hs : Suits H.lim H.cores f g) (hE : H.env.order = .dimsFirst) :
    ∃ G M ts q, newGenerator H.big H.lim (some f.images) (some f.labels) = .ok G ∧ network H.env.num H.env.draws = .ok M ∧
      Feed.train (source H.conv H.big H.lim) H.env (hyper rate H.cores) ts M G = .ok (some q) ∧ q.1.Trained 32 image kinds := by
  obtain ⟨G, M, l, e0, e1, hl, hR, e2, h3, h4, h5⟩ := before_training H f g hs
  have hthr := hyper_threads (rate := rate) hs.threads
  have ht0 : 0 < threads H.cores := by unfold threads; omega
  have ht1 : threads H.cores < 2147483648 := by have := hs.threads; omega
  obtain ⟨sources, hsources⟩ : ∃ s, s = [l, l] := ⟨_, rfl⟩
  have h2 : sources.length = 2 := by rw [hsources]; rfl
  have hmem : ∀ e ∈ sources, e = l := by rw [hsources]; simp
  have hx : ∀ e ∈ sources, ∀ x ∈ e, x.Fits image M.labels := by rw [hl]; intro e he; rw [hmem e he]; exact h4
  have h5 : ∀ e ∈ sources, e.length = f.n - 1 := by intro e he; rw [hmem e he]; exact h5
  have hfull : ∀ e ∈ sources.head?, 32 ≤ e.length := by
    intro e he
    rw [h5 e (List.mem_of_mem_head? he)]
    have := hs.enough
    omega
  obtain ⟨epochs, M', hep, e3⟩ := C70_train_ends H.env hE (hyper rate H.cores) 32 (threads H.cores) rfl hthr (by decide) (by decide) ht0 ht1 (f.n - 1)
    (by have := hs.enough; omega) (by have := hs.few; omega) M image kinds hR kinds_work sources h2 hx hfull
  have hzip : (epochs.map Prod.fst).zip sources = epochs := by
    rw [← hep, List.zip_map', List.map_id']
  have hM' : M'.Trained 32 image kinds := by
    have hlen : epochs.length = 2 := by rw [← h2, ← hep, List.length_map]
    have e3' := e3
    rw [train_if (show (0 : Int) ≤ 32 by decide), if_pos (show epochs.length = (hyper rate H.cores).epochs.toNat from hlen)] at e3'
    obtain ⟨o, e, ho⟩ := epochs_shaped (B := 32) (T := threads H.cores) hE kinds_work rfl hthr (by decide) (by decide) ht0 ht1 (size := f.n - 1)
        (by have := hs.enough; omega) (by have := hs.few; omega) epochs (setBatchSize_shaped hR)
        (fun e he => hx e.2 (by rw [← hep]; exact List.mem_map.2 ⟨e, he, rfl⟩))
        (Or.inr (by
          intro e he
          rw [h5 e.2 (by rw [← hep]; exact List.mem_map.2 ⟨e, List.mem_of_mem_head? he, rfl⟩)]
          have := hs.enough
          omega))
    have hu : u64 (hyper rate H.cores).batch = 32 := rfl
    rw [hu] at e3'
    rw [e3'] at e
    obtain ⟨k1, k2⟩ := ho M' (Res.ok.inj e).symm
    have hf := k2 (Or.inl (by rintro rfl; exact absurd (show (0 : Nat) = 2 from hlen) (by decide)))
    exact k1.trained (full_ready (by decide) k1 hf)
  have hF := Feed.C81_model (source H.conv H.big H.lim) H.env (hyper rate H.cores) (f.n - 1) sources (epochs.map Prod.fst)
    (by rw [← hep, List.length_map, List.length_map]) M G (by rw [hsources]; exact e2 2)
  rw [hzip, e3] at hF
  obtain ⟨z, ez, hz⟩ := Res.bind_eq_ok hF
  obtain ⟨z, rfl, rfl⟩ : ∃ y, z = some y ∧ y.1 = M' := by
    cases z with
    | none => exact absurd (Res.ok.inj hz) (by simp)
    | some y => exact ⟨y, rfl, Option.some.inj (Res.ok.inj hz)⟩
  exact ⟨G, M, epochs.map Prod.fst, z, e0, e1, ez, hM'⟩

/-- C71 … and for every host there are schedules under which the program ends. -/
theorem C71_ends (H : Host α) (C : Codec α) (rate : α) (f g : Content) (hs : Suits H.lim H.cores f g) (hE : H.env.order = .dimsFirst)
    (h32 : Rounding H.chance.r32) (h64 : Rounding H.chance.r64) (hh : H.chance.r32 (1 / 2) ≠ 0)
    (herr : ∀ q, 0 ≤ q → H.chance.r64 q ≤ q * (1 + 1 / 9007199254740992)) (hm : H.chance.randMax ≤ 2147483647)
    (hr : ∀ r ∈ H.rands, r < H.chance.randMax) (save : Option Bool) :
    ∃ ts vs r, program { H with trainScheds := ts, validScheds := vs } C rate (files f g) save = .ok (some r) := by
  obtain ⟨G, M, ts, z, e0, e1, ez, hM'⟩ := training_ends H rate f g hs hE
  have hthr := hyper_threads (rate := rate) hs.threads
  have ht0 : 0 < threads H.cores := by unfold threads; omega
  have hsh : (⟨g.h, g.w, 1⟩ : Shape) = image := by rw [hs.testSize.1, hs.testSize.2]; rfl
  obtain ⟨vs, c, e4⟩ := Validate.C72_ends H.env H.conv H.big H.lim g hs.test z.1 32 kinds (hsh ▸ hM') (by decide) (hsh ▸ kinds_work) (threads H.cores) ht0 hs.threads
  obtain ⟨v, e5, _⟩ := Validate.C74_validate_partial H.env H.conv H.big H.lim H.chance g hs.test hs.some z.1 32 kinds (hsh ▸ hM') (by decide) (hsh ▸ kinds_work) (threads H.cores)
      ht0 hs.threads h32 h64 hh herr hm (H.rands.take 5) (fun r hr' => hr r (List.mem_of_mem_take hr')) vs
  have hv : ∃ w, v = some w := by
    unfold Validate.validate at e5
    rw [e4, Res.bind_ok] at e5
    obtain ⟨q, _, e5⟩ := Res.bind_eq_ok e5
    exact ⟨_, (Res.ok.inj e5).symm⟩
  obtain ⟨w, rfl⟩ := hv
  refine ⟨ts, vs, ⟨z.1, z.2.2, w.1, w.2.1, w.2.2, save.map fun opened => w.2.2.saveModel C opened⟩, ?_⟩
  unfold program files
  dsimp only
  rw [e0, Res.bind_ok, e1, Res.bind_ok, ez, Res.bind_ok]
  dsimp only
  rw [hthr, e5, Res.bind_ok]

/-- C71 fails: for all files, weights, arithmetic, learning rates and numbers of cores, if the first number `rand()` gives in
`validate` is `RAND_MAX`, then under some schedules `main` ends with an uncaught exception. (`hr`: the number of test images is
a `double`.) -/
theorem C71_throws (H : Host α) (C : Codec α) (rate : α) (f g : Content) (hs : Suits H.lim H.cores f g) (hE : H.env.order = .dimsFirst)
    (h64 : Rounding H.chance.r64) (hr : H.chance.r64 g.n = g.n) (hm : 0 < H.chance.randMax) (rest : List Nat) (hrands : H.rands = H.chance.randMax :: rest)
    (save : Option Bool) :
    ∃ ts vs, program { H with trainScheds := ts, validScheds := vs } C rate (files f g) save = .throw .runtime := by
  obtain ⟨G, M, ts, z, e0, e1, ez, hM'⟩ := training_ends H rate f g hs hE
  have hthr := hyper_threads (rate := rate) hs.threads
  have ht0 : 0 < threads H.cores := by unfold threads; omega
  have hsh : (⟨g.h, g.w, 1⟩ : Shape) = image := by rw [hs.testSize.1, hs.testSize.2]; rfl
  obtain ⟨vs, e⟩ := Validate.C74_validate_throws H.env H.conv H.big H.lim H.chance g hs.test z.1 32 kinds (hsh ▸ hM') (by decide) (hsh ▸ kinds_work)
    (threads H.cores) ht0 hs.threads h64 hr hm (rest.take 4)
  refine ⟨ts, vs, ?_⟩
  unfold program files
  dsimp only
  rw [e0, Res.bind_ok, e1, Res.bind_ok, ez, Res.bind_ok, hrands]
  dsimp only [List.take_succ_cons]
  rw [hthr, e]
  rfl

/-- Files that suit the program: 33 training images and a test image. -/
def someTrain : Content := ⟨33, 28, 28, fun i r c => UInt8.ofNat (i * r + c), fun i => UInt8.ofNat (i % 10)⟩
def someTest : Content := ⟨1, 28, 28, fun _ r c => UInt8.ofNat (r * c), fun _ => 7⟩

theorem someSuits : Suits 100000 8 someTrain someTest := by
  have hi : someTrain.images.length = 25888 := by rw [Content.length_images]; rfl
  have hi' : someTest.images.length = 800 := by rw [Content.length_images]; rfl
  refine ⟨⟨by decide, ⟨by decide, by decide, by decide, by decide⟩, by decide, by rw [hi]; decide, by decide⟩,
    ⟨by decide, ⟨by decide, by decide, by decide, by decide⟩, by decide, by rw [hi']; decide, by decide⟩, ⟨rfl, rfl⟩, ⟨rfl, rfl⟩, ?_, by decide, by decide, by decide, by decide⟩
  have : ∀ i : Fin 33, someTrain.label i.1 ≤ 9 := by decide
  exact fun i hi => this ⟨i, hi⟩

/-- A machine with eight cores, the rationals as numbers and exact roundings. -/
def someHost : Host ℚ :=
  ⟨Validate.plainEnv, Validate.value, true, 100000, ⟨fun q => q, fun q => q, 2147483647⟩, 8, [], [], [0, 1, 2, 3, 2147483646]⟩

/-- The hypotheses of `C71_program_partial` and `C71_ends` can be met, and then a run that ends shows five images. -/
example (C : Codec ℚ) : ∃ H : Host ℚ, ∃ r, program H C (1 / 10) (files someTrain someTest) (some true) = .ok (some r) ∧ r.shown.length = 5 := by
  have herr : ∀ q : ℚ, 0 ≤ q → q ≤ q * (1 + 1 / 9007199254740992) := fun q hq => le_mul_of_one_le_right hq (by norm_num)
  have hr : ∀ r ∈ someHost.rands, r < 2147483647 := by decide
  obtain ⟨ts, vs, r, e⟩ := C71_ends someHost C (1 / 10) someTrain someTest someSuits rfl Rounding.id Rounding.id (by show (1 / 2 : ℚ) ≠ 0; norm_num) herr
    (Nat.le_refl _) hr (some true)
  obtain ⟨o, e', ho⟩ := C71_program_partial { someHost with trainScheds := ts, validScheds := vs } C (1 / 10) someTrain someTest someSuits rfl Rounding.id Rounding.id
    (by show (1 / 2 : ℚ) ≠ 0; norm_num) herr (Nat.le_refl _) hr (Nat.le_refl 5) (some true)
  rw [e] at e'
  exact ⟨_, r, e, (ho r (Res.ok.inj e').symm).2.2.2.2.2.1⟩

/-- C71, the full claim about failures: whatever the random numbers, `main` does not throw. -/
def C71_claim : Prop :=
  ∀ (H : Host ℚ) (C : Codec ℚ) (rate : ℚ) (f g : Content) (save : Option Bool), Suits H.lim H.cores f g → H.env.order = .dimsFirst →
    Rounding H.chance.r32 → Rounding H.chance.r64 → H.chance.r32 (1 / 2) ≠ 0 → (∀ q, 0 ≤ q → H.chance.r64 q ≤ q * (1 + 1 / 9007199254740992)) →
    H.chance.randMax = 2147483647 → (∀ r ∈ H.rands, r ≤ H.chance.randMax) → 5 ≤ H.rands.length →
    ∃ o, program H C rate (files f g) save = .ok o

/-- C71 is violated: `rand()` may give `RAND_MAX`. -/
theorem C71_violated : ¬ C71_claim := by
  intro h
  have herr : ∀ q : ℚ, 0 ≤ q → q ≤ q * (1 + 1 / 9007199254740992) := fun q hq => le_mul_of_one_le_right hq (by norm_num)
  let C : Codec ℚ := ⟨fun _ => none, fun _ => [], fun _ => (0, false)⟩
  obtain ⟨ts, vs, e⟩ := C71_throws { someHost with rands := [2147483647, 0, 0, 0, 0] } C 1 someTrain someTest someSuits rfl Rounding.id rfl (by decide) [0, 0, 0, 0] rfl none
  obtain ⟨o, e'⟩ := h { someHost with rands := [2147483647, 0, 0, 0, 0], trainScheds := ts, validScheds := vs } C 1 someTrain someTest none (show Suits 100000 8 someTrain someTest from someSuits) rfl Rounding.id Rounding.id (by show (1 / 2 : ℚ) ≠ 0; norm_num) herr rfl
    (show ∀ r ∈ [2147483647, 0, 0, 0, 0], r ≤ 2147483647 by decide) (show 5 ≤ [2147483647, 0, 0, 0, 0].length by decide)
  rw [e] at e'
  exact absurd e' (by simp)

end Cnn.Main
