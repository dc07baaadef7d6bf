import Verif.Lemmas.StaleRounding
import Verif.Lemmas.BoxStep
import Verif.Props.GradRounding
/-!
# Property C99: training in rounded arithmetic, any number of images

`C99_train_partial` is for full batches only. Here the number of images is anything from the batch size on: the last batch of an
epoch may be short, and the update then also uses what the other slots still contain (C54, C82).
-/
namespace Cnn
namespace Train
open Model

variable {α : Type} [Zero α] [One α] [Add α] [Sub α] [Mul α] [Div α] [Neg α]

/-- C99 for `train` with any number of images that is at least the batch size, any number of threads and any schedules. Every epoch serves
`size` samples (`ess`, epoch by epoch). If nothing overflows, then no run fails, and after training the model stores a network reached from `ls` by one
step for each batch: each parameter moves by the rate times the mean of the remembered exact gradients, up to `stepErr`. What a batch
adds to the remembered gradients and what it leaves is `AnyOrder`. That the gradients are derivatives is C98. Missing: convolutions other than the first layer whose output is not square. -/
theorem C99_short_train_partial (E : Env α) (p : Precision) (hp : p.Ok) (F : Floating E.num p) (q : Conversion) (hE : E.Rounds F q) (h : Hyper α)
    (B T size : Nat) (hb : h.batch = B) (ht : h.threads = T) (h0 : 0 < B) (hT0 : 0 < T) (hT : T < 2147483648) (hBs : B ≤ size) (hsz : size < 2 ^ 24)
    (hr : F.Fin h.rate) (M : Model α) (b : Nat) (s : Shape) (ls : List NetLayer) (n : Nat) (hH : M.Holds F b s ls n)
    (hR : SlottedAll b true s (M.layers.map (·.body)) ls) (hfit : NetFits ls s) (htr : NetTrains true ls s) (hn : (n : ℝ) + 1 ≤ p.Ω)
    (hs : p.sumErr n ≤ 1 / 2) (ess : List (List Datum)) (hk : ∀ es ∈ ess, es.length = size) (ε : ℝ)
    (hroom : KeptRoom AnyOrder p q (F.val h.rate) n ε s (ess.flatMap (batchesOf B)) [] ls) (epochs : List (List (List Nat) × List (Sample α)))
    (he : List.Forall₂ (fun e es => List.Forall₂ (Sample.Near F M.labels s) e.2 es) epochs ess) :
    (∃ o, train E h size epochs M = .ok o) ∧
    ∀ M', train E h size epochs M = .ok (some M') → ∃ mem' ls',
      KeptSteps AnyOrder p q (F.val h.rate) n ε s (ess.flatMap (batchesOf B)) [] ls mem' ls' ∧ M'.Holds F 0 s ls' n := by
  have hc : M.Carries F b s ls n := ⟨hH, hR⟩
  have hT' : Trains F M.labels s n B (M.setBatchSize B) ls := ⟨hc.prepared hfit B, hc.setBatchSize h0, hfit, htr, rfl, hn, hs⟩
  have hu : u64 h.batch = B := by
    rw [hb]; unfold u64; omega
  have hS : Refills.Sound F q M.labels s n B ε h AnyOrder := fun a b c d e f _ _ g => a.stale hp hE hb ht h0 (by omega) hr b c d e f g
  obtain ⟨i1, i2⟩ := (hS.epochs hp hE hb ht h0 (by omega) hT0 hT hBs hsz ess hk hT' (Keeps.nil _ _) (Or.inr rfl) hroom).1 epochs he
  rw [train_eq (p := h) (by omega), hu]
  by_cases hl : epochs.length = h.epochs.toNat
  · rw [if_pos hl]
    refine ⟨i1, ?_⟩
    intro M' hrun
    obtain ⟨mem', ls', j1, j2⟩ := i2 M' hrun
    exact ⟨mem', ls', j1, j2.carries.1⟩
  · rw [if_neg hl]
    exact ⟨⟨_, rfl⟩, fun M' h => absurd (Res.ok.inj h) (by simp)⟩

/-- C99 for `train` with one thread: every sample has its own label, and the samples use the slots from the first on. -/
theorem C99_short_one_partial (E : Env α) (p : Precision) (hp : p.Ok) (F : Floating E.num p) (q : Conversion) (hE : E.Rounds F q) (h : Hyper α)
    (B size : Nat) (hb : h.batch = B) (ht : h.threads = (1 : Nat)) (h0 : 0 < B) (hBs : B ≤ size) (hsz : size < 2 ^ 24)
    (hr : F.Fin h.rate) (M : Model α) (b : Nat) (s : Shape) (ls : List NetLayer) (n : Nat) (hH : M.Holds F b s ls n)
    (hR : SlottedAll b true s (M.layers.map (·.body)) ls) (hfit : NetFits ls s) (htr : NetTrains true ls s) (hn : (n : ℝ) + 1 ≤ p.Ω)
    (hs : p.sumErr n ≤ 1 / 2) (ess : List (List Datum)) (hk : ∀ es ∈ ess, es.length = size) (ε : ℝ)
    (hroom : KeptRoom InOrder p q (F.val h.rate) n ε s (ess.flatMap (batchesOf B)) [] ls) (epochs : List (List (List Nat) × List (Sample α)))
    (he : List.Forall₂ (fun e es => List.Forall₂ (Sample.Near F M.labels s) e.2 es) epochs ess) :
    (∃ o, train E h size epochs M = .ok o) ∧
    ∀ M', train E h size epochs M = .ok (some M') → ∃ mem' ls',
      KeptSteps InOrder p q (F.val h.rate) n ε s (ess.flatMap (batchesOf B)) [] ls mem' ls' ∧ M'.Holds F 0 s ls' n := by
  have hc : M.Carries F b s ls n := ⟨hH, hR⟩
  have hT' : Trains F M.labels s n B (M.setBatchSize B) ls := ⟨hc.prepared hfit B, hc.setBatchSize h0, hfit, htr, rfl, hn, hs⟩
  have hu : u64 h.batch = B := by
    rw [hb]; unfold u64; omega
  have hS : Refills.Sound F q M.labels s n B ε h InOrder := fun a b c d e f _ _ g =>
    a.stale_one hp hE hb ht h0 (by omega) hr b c d (e _ ⟨rfl, fun x hx => ⟨x, hx, rfl⟩⟩) f g
  obtain ⟨i1, i2⟩ := (hS.epochs hp hE hb ht h0 (by omega) one_pos (by omega) hBs hsz ess hk hT' (Keeps.nil _ _) (Or.inr rfl) hroom).1 epochs he
  rw [train_eq (p := h) (by omega), hu]
  by_cases hl : epochs.length = h.epochs.toNat
  · rw [if_pos hl]
    refine ⟨i1, ?_⟩
    intro M' hrun
    obtain ⟨mem', ls', j1, j2⟩ := i2 M' hrun
    exact ⟨mem', ls', j1, j2.carries.1⟩
  · rw [if_neg hl]
    exact ⟨⟨_, rfl⟩, fun M' h => absurd (Res.ok.inj h) (by simp)⟩

/-- C99, there are such runs: for every such sequence of sources, one for each epoch, some schedules complete the training. -/
theorem C99_short_completes_partial (E : Env α) (p : Precision) (hp : p.Ok) (F : Floating E.num p) (q : Conversion) (hE : E.Rounds F q) (h : Hyper α)
    (B T size : Nat) (hb : h.batch = B) (ht : h.threads = T) (h0 : 0 < B) (hT0 : 0 < T) (hT : T < 2147483648) (hBs : B ≤ size) (hsz : size < 2 ^ 24)
    (hr : F.Fin h.rate) (M : Model α) (b : Nat) (s : Shape) (ls : List NetLayer) (n : Nat) (hH : M.Holds F b s ls n)
    (hR : SlottedAll b true s (M.layers.map (·.body)) ls) (hfit : NetFits ls s) (htr : NetTrains true ls s) (hn : (n : ℝ) + 1 ≤ p.Ω)
    (hs : p.sumErr n ≤ 1 / 2) (ess : List (List Datum)) (hk : ∀ es ∈ ess, es.length = size) (ε : ℝ)
    (hroom : KeptRoom AnyOrder p q (F.val h.rate) n ε s (ess.flatMap (batchesOf B)) [] ls) (hep : ess.length = h.epochs.toNat)
    (srcs : List (List (Sample α))) (hsrc : List.Forall₂ (List.Forall₂ (Sample.Near F M.labels s)) srcs ess) :
    ∃ epochs M', epochs.map Prod.snd = srcs ∧ train E h size epochs M = .ok (some M') := by
  have hc : M.Carries F b s ls n := ⟨hH, hR⟩
  have hT' : Trains F M.labels s n B (M.setBatchSize B) ls := ⟨hc.prepared hfit B, hc.setBatchSize h0, hfit, htr, rfl, hn, hs⟩
  have hu : u64 h.batch = B := by
    rw [hb]; unfold u64; omega
  have hS : Refills.Sound F q M.labels s n B ε h AnyOrder := fun a b c d e f _ _ g => a.stale hp hE hb ht h0 (by omega) hr b c d e f g
  obtain ⟨epochs, M', h1, h2⟩ := (hS.epochs hp hE hb ht h0 (by omega) hT0 hT hBs hsz ess hk hT' (Keeps.nil _ _) (Or.inr rfl) hroom).2 srcs hsrc
  refine ⟨epochs, M', h1, ?_⟩
  rw [train_eq (p := h) (by omega), if_pos, hu]
  · exact h2
  · rw [← hep, ← hsrc.length_eq, ← h1, List.length_map]

/-! ### The network of C84 in binary64: three samples in batches of two, at rate 1 -/

noncomputable def lateSource : List (Sample Double) :=
  [⟨⟨dimN 1 1 1, [1]⟩, "b".toList⟩, ⟨⟨dimN 1 1 1, [1]⟩, "b".toList⟩, ⟨⟨dimN 1 1 1, [1]⟩, "a".toList⟩]

theorem lateSource_near : List.Forall₂ (Sample.Near Double.floating (roundModel 1).labels ⟨1, 1, 1⟩) lateSource [roundDatum 1, roundDatum 1, roundDatum 0] := by
  have h1 : (1 : Double).val = 1 := Double.floating.one.2
  have hx := roundInput_near Double.floating.one.1
  rw [h1] at hx
  have hb : Sample.Near Double.floating (roundModel 1).labels ⟨1, 1, 1⟩ ⟨⟨dimN 1 1 1, [1]⟩, "b".toList⟩ (roundDatum 1) :=
    ⟨hx, rfl, by intro t ht; obtain rfl : t = 0 := Nat.lt_one_iff.1 ht; simp [roundModel]⟩
  exact .cons hb (.cons hb (.cons ⟨hx, rfl, fun t ht => absurd ht (Nat.not_lt_zero t)⟩ .nil))

theorem late_batches : [[roundDatum 1, roundDatum 1, roundDatum 0]].flatMap (batchesOf 2) = [[roundDatum 1, roundDatum 1], [roundDatum 0]] := rfl

theorem late_room {R : Refilling} (hR : ∀ {ls d mem mem'}, R ls d mem mem' → AnyOrder ls d mem mem') :
    KeptRoom R Double.precision ⟨2 ^ (-24 : ℤ), 2 ^ (-150 : ℤ), 2 ^ (127 : ℤ)⟩ 1 2 (1 / 2 ^ 20) ⟨1, 1, 1⟩
      ([[roundDatum 1, roundDatum 1, roundDatum 0]].flatMap (batchesOf 2)) [] (roundNet 1) := by
  rw [late_batches]
  exact box_room hR rfl rfl (by simpa using ⟨1, le_rfl, rfl⟩) (by simpa using ⟨0, Nat.zero_le _, rfl⟩) roundNet_boxed

/-- `C99_short_completes_partial` and `C99_short_train_partial` apply, here with two threads: some schedules end, and all schedules that end lead
to a network reached by such steps. -/
example : ∃ epochs M' mem' ls', epochs.map Prod.snd = [lateSource] ∧ train doubleEnv ⟨1, 2, 2, 1⟩ 3 epochs (roundModel 1) = .ok (some M') ∧
    KeptSteps AnyOrder Double.precision ⟨2 ^ (-24 : ℤ), 2 ^ (-150 : ℤ), 2 ^ (127 : ℤ)⟩ 1 2 (1 / 2 ^ 20) ⟨1, 1, 1⟩
      [[roundDatum 1, roundDatum 1], [roundDatum 0]] [] (roundNet 1) mem' ls' ∧ M'.Holds Double.floating 0 ⟨1, 1, 1⟩ ls' 2 := by
  obtain ⟨_, _, _, hΩ⟩ := double_consts
  obtain ⟨_, _, _, _, f5⟩ := round_facts
  have h1 : (1 : Double).val = 1 := Double.floating.one.2
  have hrate : Double.floating.val (1 : Double) = 1 := Double.floating.one.2
  have hH := roundModel_holds Double.floating.one.1
  have hR := slotted_round 1
  rw [h1] at hH hR
  obtain ⟨epochs, M', e1, e2⟩ := C99_short_completes_partial doubleEnv Double.precision Double.precision_ok Double.floating _ double_rounds ⟨1, 2, 2, 1⟩ 2 2 3 rfl rfl
    (by omega) (by omega) (by omega) (by omega) (by norm_num) Double.floating.one.1 (roundModel 1) 0 ⟨1, 1, 1⟩ (roundNet 1) 2 hH hR ⟨trivial, trivial⟩
    ⟨trivial, trivial⟩ (le_trans (by norm_num) hΩ) f5 [[roundDatum 1, roundDatum 1, roundDatum 0]] (by simp) (1 / 2 ^ 20)
    (by rw [hrate]; exact late_room id) rfl [lateSource] (.cons lateSource_near .nil)
  obtain ⟨mem', ls', k1, k2⟩ := (C99_short_train_partial doubleEnv Double.precision Double.precision_ok Double.floating _ double_rounds ⟨1, 2, 2, 1⟩ 2 2 3 rfl rfl
    (by omega) (by omega) (by omega) (by omega) (by norm_num) Double.floating.one.1 (roundModel 1) 0 ⟨1, 1, 1⟩ (roundNet 1) 2 hH hR ⟨trivial, trivial⟩
    ⟨trivial, trivial⟩ (le_trans (by norm_num) hΩ) f5 [[roundDatum 1, roundDatum 1, roundDatum 0]] (by simp) (1 / 2 ^ 20)
    (by rw [hrate]; exact late_room id) epochs (by
      have : List.Forall₂ (List.Forall₂ (Sample.Near Double.floating (roundModel 1).labels ⟨1, 1, 1⟩)) (epochs.map Prod.snd)
          [[roundDatum 1, roundDatum 1, roundDatum 0]] := by
        rw [e1]; exact .cons lateSource_near .nil
      exact List.forall₂_map_left_iff.1 this)).2 M' e2
  rw [hrate, late_batches] at k1
  exact ⟨epochs, M', mem', ls', e1, e2, k1, k2⟩

/-- `C99_short_one_partial` applies with one thread: no schedule fails, and the last step uses a gradient of the first batch, of the network at the start. -/
example (c₁ c₂ : List Nat) : (∃ o, train doubleEnv ⟨1, 2, 1, 1⟩ 3 [([c₁, c₂], lateSource)] (roundModel 1) = .ok o) ∧
    ∀ M', train doubleEnv ⟨1, 2, 1, 1⟩ 3 [([c₁, c₂], lateSource)] (roundModel 1) = .ok (some M') → ∃ L₁ ls',
      KeptStep Double.precision ⟨2 ^ (-24 : ℤ), 2 ^ (-150 : ℤ), 2 ^ (127 : ℤ)⟩ 1 2 (1 / 2 ^ 20) ⟨1, 1, 1⟩
        [(L₁, roundDatum 0), (roundNet 1, roundDatum 1)] L₁ ls' ∧ M'.Holds Double.floating 0 ⟨1, 1, 1⟩ ls' 2 := by
  obtain ⟨_, _, _, hΩ⟩ := double_consts
  obtain ⟨_, _, _, _, f5⟩ := round_facts
  have h1 : (1 : Double).val = 1 := Double.floating.one.2
  have hrate : Double.floating.val (1 : Double) = 1 := Double.floating.one.2
  have hH := roundModel_holds Double.floating.one.1
  have hR := slotted_round 1
  rw [h1] at hH hR
  obtain ⟨k1, k2⟩ := C99_short_one_partial doubleEnv Double.precision Double.precision_ok Double.floating _ double_rounds ⟨1, 2, 1, 1⟩ 2 3 rfl rfl
    (by omega) (by omega) (by norm_num) Double.floating.one.1 (roundModel 1) 0 ⟨1, 1, 1⟩ (roundNet 1) 2 hH hR ⟨trivial, trivial⟩
    ⟨trivial, trivial⟩ (le_trans (by norm_num) hΩ) f5 [[roundDatum 1, roundDatum 1, roundDatum 0]] (by simp) (1 / 2 ^ 20)
    (by rw [hrate]; exact late_room InOrder.any) [([c₁, c₂], lateSource)] (.cons lateSource_near .nil)
  refine ⟨k1, ?_⟩
  intro M' hrun
  obtain ⟨mem', ls', j1, j2⟩ := k2 M' hrun
  rw [hrate, late_batches] at j1
  obtain ⟨mem₁, L₁, r1, _, mem₂, L₂, r2, s2, rfl, rfl⟩ := j1
  unfold InOrder at r1 r2
  subst r1
  simp only [List.map_cons, List.map_nil, List.length_cons, List.length_nil, List.drop_nil, List.append_nil, zero_add, List.drop_succ_cons, List.drop_zero,
    List.cons_append, List.nil_append] at r2
  subst r2
  exact ⟨L₁, _, s2, j2⟩

end Train
end Cnn
