import Verif.Lemmas.Console
import Verif.Lemmas.Partition
import Verif.Lemmas.Nearest
import Verif.Props.Main
/-!
# C88: what the terminal shows
-/
namespace Cnn.Console
open Terminal

/-- C88, the bar. At any moment of an epoch of `K` batches, after at least one: the terminal shows a single progress line, without remains of earlier ones, the
finished lines are as before, and the cursor is visible. The bar is never completely filled; its filled part is within rounding error of the part of the
batches before the last one, and the percentage is that part rounded down, plus one. -/
theorem C88_epoch (r32 r64 : ℚ → ℚ) (h32 : Rounding r32) (k32 : KeepsBits r32 24) (h64 : Rounding r64) (k64 : KeepsBits r64 53) (K n : Nat)
    (hK : K ≤ 2 ^ 23) (hn : n < K) :
    ∃ s, ∃ f : Nat, bars r32 r64 K (n + 1) = .ok s ∧ f < 50 ∧ (f : ℚ) ≤ 50 * n / K + 1 / 1000 ∧ 50 * (n : ℚ) / K < f + 1 + 1 / 1000 ∧
      ∀ t : Terminal, t.Fresh → t.write s = { t with line := plain (progress f (100 * n / K + 1)), col := 56 } :=
  write_bars h32 k32 h64 k64 hK n hn

/-- C88 as one expects it: an epoch ends at 100 %. -/
def C88_claim : Prop :=
  ∀ (r32 r64 : ℚ → ℚ) (K : Nat), Rounding r32 → KeepsBits r32 24 → Rounding r64 → KeepsBits r64 53 → 0 < K → K ≤ 2 ^ 23 →
    ∃ s f, bars r32 r64 K K = .ok s ∧ blank.write s = { blank with line := plain (progress f 100), col := 56 }

theorem progress_percent {f g p q : Nat} (hf : f < 50) (hg : g < 50) (h : plain (progress f p) = plain (progress g q)) :
    p = q := by
  have h1 : progress f p = progress g q := by
    have := congrArg (List.map Cell.ch) h
    unfold plain at this
    simpa only [List.map_map, Function.comp_def, List.map_id'] using this
  have split : ∀ f p, f < 50 → (progress f p).drop 52 = List.replicate (3 - (natText p).length) ' ' ++ natText p ++ ['%'] := by
    intro f p hf
    unfold progress
    have : ('[' :: List.replicate f '=' ++ List.replicate (49 - f) ' ').length = 50 := by simp; omega
    rw [List.drop_append, List.drop_eq_nil_of_le (by omega), this]
    rfl
  have h2 := congrArg (List.drop 52) h1
  rw [split f p hf, split g q hg] at h2
  have h3 := List.append_cancel_right h2
  have h4 : ∀ p, number (List.replicate (3 - (natText p).length) ' ' ++ natText p) = p := by
    intro p
    have blanks : ∀ k, number (List.replicate k ' ') = 0 := by
      intro k
      induction k with
      | zero => rfl
      | succ k ih =>
        unfold number at ih ⊢
        rw [List.replicate_succ, List.foldl_cons]
        exact ih
    have h5 := blanks (3 - (natText p).length)
    have h6 := number_natText p
    unfold number at h5 h6 ⊢
    rw [List.foldl_append, h5, h6]
  have h5 := congrArg number h3
  rwa [h4, h4] at h5

/-- The percentage at the end of an epoch is 100 exactly for epochs of at least 100 batches. -/
theorem C88_percent (r32 r64 : ℚ → ℚ) (h32 : Rounding r32) (k32 : KeepsBits r32 24) (h64 : Rounding r64) (k64 : KeepsBits r64 53) (K : Nat)
    (hK0 : 0 < K) (hK : K ≤ 2 ^ 23) (t : Terminal) (ht : t.Fresh) :
    ∃ s, bars r32 r64 K K = .ok s ∧ ((∃ f < 50, (t.write s).line = plain (progress f 100)) ↔ 100 ≤ K) := by
  obtain ⟨n, rfl⟩ : ∃ n, K = n + 1 := ⟨K - 1, by omega⟩
  obtain ⟨s, f, e, hf, _, _, e'⟩ := C88_epoch r32 r64 h32 k32 h64 k64 (n + 1) n hK (by omega)
  refine ⟨s, e, ?_⟩
  rw [e' t ht]
  have hlt : 100 * n / (n + 1) < 100 := Nat.div_lt_of_lt_mul (by omega)
  constructor
  · rintro ⟨g, hg, h⟩
    have := progress_percent hf hg h
    have h99 : 99 ≤ 100 * n / (n + 1) := by omega
    rw [Nat.le_div_iff_mul_le (by omega)] at h99
    omega
  · intro h
    have h99 : 99 ≤ 100 * n / (n + 1) := by
      rw [Nat.le_div_iff_mul_le (by omega)]
      omega
    refine ⟨f, hf, ?_⟩
    show plain (progress f (100 * n / (n + 1) + 1)) = _
    rw [show 100 * n / (n + 1) + 1 = 100 by omega]

theorem keeps_id (p : Nat) : KeepsBits (fun q => q) p := fun _ _ _ _ => rfl

/-- C88 is violated: an epoch of one batch ends at 1 %. -/
theorem C88_violated : ¬ C88_claim := by
  intro h
  obtain ⟨s, f, e, hw⟩ := h (fun q => q) (fun q => q) 1 Rounding.id (keeps_id 24) Rounding.id (keeps_id 53) (by norm_num) (by norm_num)
  obtain ⟨s', g, e', hg, _, _, hw'⟩ := C88_epoch (fun q => q) (fun q => q) Rounding.id (keeps_id 24) Rounding.id (keeps_id 53) 1 0 (by norm_num) (by norm_num)
  rw [show 0 + 1 = 1 from rfl, e] at e'
  obtain rfl := Res.ok.inj e'
  have hw' := hw' blank ⟨⟨rfl, rfl, rfl⟩, rfl, rfl⟩
  rw [hw] at hw'
  have h1 : plain (progress f 100) = plain (progress g (100 * 0 / 1 + 1)) := congrArg Terminal.line hw'
  have hlen : (plain (progress f 100)).length = 56 := by
    rw [h1]
    unfold plain
    rw [List.length_map, progress_length hg (by norm_num)]
  have hf : f < 50 := by
    by_contra hc
    unfold plain at hlen
    rw [List.length_map] at hlen
    have hl : (natText 100).length = 3 := by decide +kernel
    simp [progress, hl] at hlen
    omega
  exact absurd (progress_percent hf hg h1) (by norm_num)

theorem plain_string {s : String} (h : ∀ c ∈ s.toList, c ≠ '\n' ∧ c ≠ '\r' ∧ c ≠ '\t' ∧ c ≠ Char.ofNat 27) {r : List Char} (hr : Plain r) : Plain (s.toList ++ r) :=
  plain_append h hr

theorem epochLine_eq {α : Type} (T : Texts α) (epoch hits size : Nat) :
    epochLine T epoch hits size = '\n' :: ("Epoch ".toList ++ (natText epoch ++ ": Accuracy was ".toList ++ T.accuracy (Train.percent hits size) ++ ['%']) ++ ['\n']) := by
  unfold epochLine
  rw [show "\nEpoch ".toList = '\n' :: "Epoch ".toList by decide, show "%\n".toList = ['%'] ++ ['\n'] by decide]
  simp only [List.cons_append, List.append_assoc, List.nil_append]

/-- C88, training: each epoch adds two lines, what remains of the bar and the accuracy. (An epoch without batches leaves the first of them empty.) The sizes are those the data
source reports. -/
theorem C88_train {α : Type} (T : Texts α) (hT : T.Plain) (r32 r64 : ℚ → ℚ) (h32 : Rounding r32) (k32 : KeepsBits r32 24) (h64 : Rounding r64)
    (k64 : KeepsBits r64 53) (B : Nat) (hB : 0 < B) : ∀ (es : List (Nat × Nat)) (epoch : Nat), (∀ e ∈ es, e.2 ≤ 2 ^ 23) →
    ∃ s, ∃ ls : List (List (List Cell)), train T r32 r64 B epoch es = .ok s ∧ ls.length = es.length ∧
      (∀ i (e : Nat × Nat), es[i]? = some e → ∃ l, ls[i]? = some l ∧ IsEpoch T ((e.2 + B - 1) / B) (epoch + i) e.1 e.2 l) ∧
      ∀ t : Terminal, t.Fresh → t.write s = { t with above := t.above ++ ls.flatten } := by
  intro es
  induction es with
  | nil =>
    intro epoch _
    refine ⟨[], [], rfl, rfl, by simp, fun t _ => ?_⟩
    simp [write_nil]
  | cons e es ih =>
    intro epoch he
    obtain ⟨s, ls, e1, hl, h1, h2⟩ := ih (epoch + 1) (fun x hx => he x (by simp [hx]))
    have he0 := he e (by simp)
    have hk := Train.numBatches_eq e.2 B (by omega) hB
    obtain ⟨K, hKd⟩ : ∃ K, K = (e.2 + B - 1) / B := ⟨_, rfl⟩
    rw [← hKd] at hk
    have hK : K ≤ 2 ^ 23 := by
      rw [hKd]
      refine Nat.div_le_of_le_mul ?_
      norm_num at he0 ⊢
      omega
    have hline : Plain ("Epoch ".toList ++ (natText epoch ++ ": Accuracy was ".toList ++ T.accuracy (Train.percent e.1 e.2) ++ ['%'])) :=
      plain_string (by decide) (plain_append (plain_append (plain_append (natText_plain _) (by unfold Plain; decide)) (hT.accuracy _)) (by unfold Plain; decide))
    have hend := Prints.line hline
    have key : ∃ b first, bars r32 r64 K K = .ok b ∧ (K = 0 → first = []) ∧ (0 < K → ∃ f < 50, first = plain (progress f (100 * (K - 1) / K + 1))) ∧
        Prints (b ++ epochLine T epoch e.1 e.2) [first, reads "Epoch " (natText epoch ++ ": Accuracy was ".toList ++ T.accuracy (Train.percent e.1 e.2) ++ ['%'])] := by
      rcases Nat.eq_zero_or_pos K with h0 | h0
      · refine ⟨[], [], by rw [h0]; rfl, fun _ => rfl, fun h => absurd h (by omega), ?_⟩
        rw [List.nil_append, epochLine_eq]
        exact Prints.newline.append hend
      · obtain ⟨b, f, eb, hf, _, _, hw⟩ := C88_epoch r32 r64 h32 k32 h64 k64 K (K - 1) hK (by omega)
        rw [show K - 1 + 1 = K by omega] at eb
        refine ⟨b, plain (progress f (100 * (K - 1) / K + 1)), eb, fun h => absurd h (by omega), fun _ => ⟨f, hf, rfl⟩, ?_⟩
        intro t ht
        rw [write_append, hw t ht, epochLine_eq, write_newline (Terminal.mk t.above _ 56 t.cursor t.bg t.mode) ht.mode]
        rw [hend (Terminal.mk _ [] 0 t.cursor t.bg t.mode) ⟨⟨ht.cursor, ht.bg, ht.mode⟩, rfl, rfl⟩]
        obtain ⟨a, l, c, u, b, m⟩ := t
        obtain ⟨⟨_, rfl, rfl⟩, rfl, rfl⟩ := ht
        simp [reads]
    obtain ⟨b, first, eb, hf0, hf1, hp⟩ := key
    refine ⟨b ++ epochLine T epoch e.1 e.2 ++ s, [first, reads "Epoch " (natText epoch ++ ": Accuracy was ".toList ++ T.accuracy (Train.percent e.1 e.2) ++ ['%'])] :: ls,
      ?_, by simp [hl], ?_, ?_⟩
    · unfold train
      rw [hk, Res.bind_ok, Int.toNat_natCast, eb, Res.bind_ok, e1, Res.bind_ok]
    · intro i x hx
      match i with
      | 0 =>
        obtain rfl : e = x := Option.some.inj hx
        exact ⟨_, rfl, first, rfl, by rw [← hKd]; exact hf0, by rw [← hKd]; exact hf1⟩
      | i + 1 =>
        obtain ⟨l, hl1, hl2⟩ := h1 i x hx
        exact ⟨l, hl1, by rw [show epoch + (i + 1) = epoch + 1 + i by omega]; exact hl2⟩
    · exact hp.append h2

/-- C88, pictures: `printImage` adds a line for each row, with a coloured square for each place, and leaves the terminal with default colours. -/
theorem C88_image (r32 r64 : ℚ → ℚ) (M : Matrix ℚ) (rows : List (List (List Nat))) (h : Image.print r32 r64 M = .ok rows) (t : Terminal) (ht : t.Fresh) :
    t.write (picture rows) = { t with above := t.above ++ screen rows } := by
  refine Prints.picture ?_ t ht
  have mem : ∀ {β γ : Type} {g : β → Res γ} {l : List β} {k : List γ}, l.mapM g = .ok k → ∀ c ∈ k, ∃ b, g b = .ok c := by
    intro β γ g l
    induction l with
    | nil =>
      intro k hk c hc
      obtain rfl : [] = k := Res.ok.inj hk
      exact absurd hc (by simp)
    | cons b l ih =>
      intro k hk c hc
      rw [List.mapM_cons] at hk
      obtain ⟨x, ex, hk⟩ := Res.bind_eq_ok hk
      obtain ⟨xs, exs, hk⟩ := Res.bind_eq_ok hk
      obtain rfl : x :: xs = k := Res.ok.inj hk
      rcases List.mem_cons.1 hc with rfl | hc
      · exact ⟨b, ex⟩
      · exact ih exs c hc
  unfold Image.print at h
  obtain ⟨m, _, h⟩ := Res.bind_eq_ok h
  split_ifs at h with hz
  · intro row hrow p hp
    unfold Image.printColour at h
    obtain ⟨x, hx⟩ := mem h row hrow
    obtain ⟨y, hy⟩ := mem hx p hp
    rw [show List.range 3 = [0, 1, 2] from rfl, List.mapM_cons] at hy
    obtain ⟨c0, _, hy⟩ := Res.bind_eq_ok hy
    rw [List.mapM_cons] at hy
    obtain ⟨cs, hy1, hy⟩ := Res.bind_eq_ok hy
    obtain ⟨c1, _, hy1⟩ := Res.bind_eq_ok hy1
    rw [List.mapM_cons] at hy1
    obtain ⟨ds, hy2, hy1⟩ := Res.bind_eq_ok hy1
    obtain ⟨c2, _, hy2⟩ := Res.bind_eq_ok hy2
    obtain rfl : [c2] = ds := Res.ok.inj hy2
    obtain rfl : [c1, c2] = cs := Res.ok.inj hy1
    obtain rfl : [c0, c1, c2] = p := Res.ok.inj hy
    exact .inr rfl
  · obtain ⟨q, _, h⟩ := Res.bind_eq_ok h
    obtain rfl := Res.ok.inj h
    intro row hrow p hp
    obtain ⟨r, _, rfl⟩ := List.mem_map.1 hrow
    obtain ⟨c, _, rfl⟩ := List.mem_map.1 hp
    exact .inl rfl

/-! ### The whole program -/

/-- What comes after the images: whether a file name was given. -/
def isEnding {α : Type} (T : Texts α) : Option Bool → List (List Cell)
  | none => [reads "No file provided, model training results will not be saved" []]
  | some _ => [reads "Saving model to \"" (T.file ++ ['"'])]

theorem reads_line {s : String} (h : ∀ c ∈ s.toList, c ≠ '\n' ∧ c ≠ '\r' ∧ c ≠ '\t' ∧ c ≠ Char.ofNat 27) {r : List Char} (hr : Plain r) :
    Prints (s.toList ++ r ++ ['\n']) [reads s r] := Prints.line (plain_string h hr)

theorem opened_prints {images labels : List Char} (h1 : Plain images) (h2 : Plain labels) {R : Mnist.Reader} {n w h : Nat} (hn : R.num = n) (hw : R.width = w)
    (hh : R.height = h) : Prints (opened images labels R) (isOpened images labels n w h) := by
  have e : opened images labels R = ("Opened files \"".toList ++ (images ++ "\" and \"".toList ++ labels ++ ['"']) ++ ['\n']) ++
      (("Files contain ".toList ++ (natText n ++ " images and labels".toList) ++ ['\n']) ++ ("Each image is of size ".toList ++ (natText w ++ 'x' :: natText h) ++ ['\n'])) := by
    unfold opened
    rw [hn, hw, hh, intText_nat, intText_nat, intText_nat, show "\"\n".toList = ['"'] ++ ['\n'] by decide,
      show " images and labels\n".toList = " images and labels".toList ++ ['\n'] by decide]
    simp only [List.append_assoc, List.cons_append, List.nil_append]
  rw [e]
  exact (reads_line (by decide) (plain_append (plain_append (plain_append h1 (by unfold Plain; decide)) h2) (by unfold Plain; decide))).append
    ((reads_line (by decide) (plain_append (natText_plain n) (by unfold Plain; decide))).append
      (reads_line (by decide) (plain_append (natText_plain w) (plain_cons (by decide) (natText_plain h)))))

theorem shown_prints {α : Type} {T : Texts α} (hT : T.Plain) {s : Validate.Shown α} (hf : Plain s.found)
    (hp : ∀ row ∈ s.picture, ∀ p ∈ row, p.length = 1 ∨ p.length = 3) : Prints (shown T s) (isShown T s) := by
  have e : shown T s = ("This image is a ".toList ++ (s.found ++ " (actual label ".toList ++ natText s.actual ++ [')']) ++ ['\n']) ++ (picture s.picture ++
      (("Layer Results:".toList ++ [] ++ ['\n']) ++ (('\t' :: 'L' :: ("abel Index: ".toList ++ natText s.index) ++ ['\n']) ++
      (('\t' :: 'C' :: ("onfidence:  ".toList ++ T.number s.confidence) ++ ['\n']) ++ (['\n'] ++ (['\n'] ++ ['\n'])))))) := by
    unfold shown results
    rw [show ")\n".toList = [')'] ++ ['\n'] by decide, show "Layer Results:\n".toList = "Layer Results:".toList ++ ['\n'] by decide,
      show "\tLabel Index: ".toList = '\t' :: 'L' :: "abel Index: ".toList by decide,
      show "\tConfidence:  ".toList = '\t' :: 'C' :: "onfidence:  ".toList by decide, show "\n\n".toList = ['\n'] ++ ['\n'] by decide]
    simp only [List.append_assoc, List.cons_append, List.nil_append]
  have hidx : reads "        Label Index: " (natText s.index) = plain (List.replicate 8 ' ' ++ 'L' :: ("abel Index: ".toList ++ natText s.index)) := by
    unfold reads
    rw [show "        Label Index: ".toList = List.replicate 8 ' ' ++ 'L' :: "abel Index: ".toList by decide]
    simp only [List.append_assoc, List.cons_append]
  have hconf : reads "        Confidence:  " (T.number s.confidence) =
      plain (List.replicate 8 ' ' ++ 'C' :: ("onfidence:  ".toList ++ T.number s.confidence)) := by
    unfold reads
    rw [show "        Confidence:  ".toList = List.replicate 8 ' ' ++ 'C' :: "onfidence:  ".toList by decide]
    simp only [List.append_assoc, List.cons_append]
  have e2 : isShown T s = [reads "This image is a " (s.found ++ " (actual label ".toList ++ natText s.actual ++ [')'])] ++ (screen s.picture ++
      ([reads "Layer Results:" []] ++ ([plain (List.replicate 8 ' ' ++ 'L' :: ("abel Index: ".toList ++ natText s.index))] ++
        ([plain (List.replicate 8 ' ' ++ 'C' :: ("onfidence:  ".toList ++ T.number s.confidence))] ++ ([[]] ++ ([[]] ++ [[]])))))) := by
    unfold isShown
    rw [hidx, hconf]
    simp only [List.append_assoc, List.cons_append, List.nil_append]
  rw [e, e2]
  exact (reads_line (by decide) (plain_append (plain_append (plain_append hf (by unfold Plain; decide)) (natText_plain _)) (by unfold Plain; decide))).append
    ((Prints.picture hp).append ((reads_line (by decide) plain_nil).append
      ((Prints.tab (plain_cons (by decide) (plain_append (by unfold Plain; decide) (natText_plain _)))).append
        ((Prints.tab (plain_cons (by decide) (plain_append (by unfold Plain; decide) (hT.number _)))).append
          (Prints.newline.append (Prints.newline.append Prints.newline))))))

/-- C88, the whole program: whatever the files contain (within `Main.Suits`, and at most 2²³ training images), the random numbers, weights, arithmetic, number of cores and
schedules: a run that ends leaves these lines on the terminal, and leaves it at the start of a line with default colours and visible cursor. -/
theorem C88_program {α : Type} [Zero α] [One α] [Add α] [Sub α] [Mul α] [Div α] [Neg α] (T : Texts α) (hT : T.Plain) (H : Main.Host α) (C : Codec α) (rate : α)
    (f g : Mnist.Content) (hs : Main.Suits H.lim H.cores f g) (hE : H.env.order = .dimsFirst) (h32 : Rounding H.chance.r32) (h64 : Rounding H.chance.r64)
    (k32 : KeepsBits H.chance.r32 24) (k64 : KeepsBits H.chance.r64 53) (herr : ∀ q, 0 ≤ q → H.chance.r64 q ≤ q * (1 + 1 / 9007199254740992))
    (hm : H.chance.randMax ≤ 2147483647) (hr : ∀ r ∈ H.rands, r < H.chance.randMax) (hr5 : 5 ≤ H.rands.length) (save : Option Bool) (hn : f.n ≤ 2 ^ 23)
    (r : Main.Outcome α) (e : Main.program H C rate (Main.files f g) save = .ok (some r)) :
    ∃ s h₀ h₁ l₀ l₁, r.epochs = [(h₀, f.n - 1), (h₁, f.n - 1)] ∧ program T H (Main.files f g) r = .ok s ∧
      IsEpoch T ((f.n - 1 + 32 - 1) / 32) 0 h₀ (f.n - 1) l₀ ∧ IsEpoch T ((f.n - 1 + 32 - 1) / 32) 1 h₁ (f.n - 1) l₁ ∧
      ∀ t : Terminal, t.Fresh → t.write s = { t with above := t.above ++
        (isOpened T.trainImages T.trainLabels f.n f.w f.h ++ (l₀ ++ l₁) ++
          (isOpened T.testImages T.testLabels g.n g.w g.h ++
            [reads "Running model validation test..." [], [], reads "Validation finished in " (T.milliseconds ++ " milliseconds.".toList),
              reads "Validation accuracy was " (T.accuracy (some (100 * r.correct / g.n)) ++ ['%']), []] ++
            r.shown.flatMap (isShown T)) ++ isEnding T save) } := by
  obtain ⟨o, e', ho⟩ := Main.C71_program_partial H C rate f g hs hE h32 h64 (by
    have := k32 1 1 (by norm_num) (by norm_num)
    rw [show (1 : ℚ) / 2 = ((1 : ℤ) : ℚ) / 2 ^ 1 by norm_num, this]
    norm_num) herr hm hr hr5 save
  rw [e] at e'
  obtain ⟨_, hep, _, hlab, _, _, hrep, _, _, hnone, hsv⟩ := ho r (Res.ok.inj e').symm
  obtain ⟨h₀, h₁, hep'⟩ : ∃ h₀ h₁, r.epochs = [(h₀, f.n - 1), (h₁, f.n - 1)] := by
    match hq : r.epochs with
    | [] => rw [hq] at hep; exact absurd hep (by simp)
    | [_] => rw [hq] at hep; exact absurd hep (by simp)
    | [a, b] =>
      rw [hq] at hep
      simp only [List.map_cons, List.map_nil, List.cons.injEq, and_true] at hep
      exact ⟨a.1, b.1, congrArg₂ (fun x y => [x, y]) (Prod.ext rfl hep.1) (Prod.ext rfl hep.2)⟩
    | _ :: _ :: _ :: _ => rw [hq] at hep; exact absurd hep (by simp)
  obtain ⟨R₁, e1, hR₁⟩ := Mnist.new_on H.big hs.train
  obtain ⟨R₂, e2, hR₂⟩ := Mnist.new_on H.big hs.test
  obtain ⟨s, ls, e3, hl, h1, h2⟩ := C88_train T hT H.chance.r32 H.chance.r64 h32 k32 h64 k64 32 (by norm_num) r.epochs 0 (by
    rw [hep']
    intro e he
    have : e.2 = f.n - 1 := by
      simp only [List.mem_cons, List.not_mem_nil, or_false] at he
      rcases he with rfl | rfl <;> rfl
    omega)
  rw [hep'] at h1 hl
  obtain ⟨l₀, q0, i0⟩ := h1 0 _ rfl
  obtain ⟨l₁, q1, i1⟩ := h1 1 _ rfl
  obtain rfl : ls = [l₀, l₁] := by
    match ls, hl with
    | [a, b], _ =>
      obtain rfl : a = l₀ := Option.some.inj q0
      obtain rfl : b = l₁ := Option.some.inj q1
      rfl
  have hnum : wrap32 (R₂.numImages : Int) = g.n := by
    unfold Mnist.Reader.numImages
    rw [hR₂.num, Mnist.u64_nat (by have := hs.test.n; omega)]
    exact wrap32_nat hs.test.n
  refine ⟨opened T.trainImages T.trainLabels R₁ ++ s ++ validate T R₂ r.correct r.shown ++ ending T (r.saved.map (·.1)), h₀, h₁, l₀, l₁, hep', ?_, i0, i1, ?_⟩
  · unfold program Main.files
    rw [e1, Res.bind_ok, e2, Res.bind_ok]
    exact congrArg (· >>= _) e3
  · have hshown : Prints (r.shown.flatMap (shown T)) (r.shown.flatMap (isShown T)) := by
      refine Prints.flatMap _ fun o ho => ?_
      obtain ⟨i, hi, rfl⟩ := List.mem_iff_getElem.1 ho
      obtain ⟨_, _, _, _, _, _, ⟨q, N, _, _, _, hfound⟩, code, hpic, _⟩ := hrep.get (i := i) (by rw [hrep.length_eq]; exact hi) hi
      refine shown_prints hT ?_ ?_
      · rw [hlab] at hfound
        have : ∀ l ∈ Main.labels, Plain l := by unfold Plain; decide
        exact this _ (List.mem_of_getElem? hfound)
      · intro row hrow p hp
        rw [List.get_eq_getElem] at hpic
        rw [hpic] at hrow
        obtain ⟨x, _, rfl⟩ := List.mem_map.1 hrow
        obtain ⟨y, _, rfl⟩ := List.mem_map.1 hp
        exact .inl rfl
    have hval : Prints (validate T R₂ r.correct r.shown) (isOpened T.testImages T.testLabels g.n g.w g.h ++
            [reads "Running model validation test..." [], [], reads "Validation finished in " (T.milliseconds ++ " milliseconds.".toList),
              reads "Validation accuracy was " (T.accuracy (some (100 * r.correct / g.n)) ++ ['%']), []] ++
            r.shown.flatMap (isShown T)) := by
      have hg : ¬ ((g.n : Int) = 0) := by have := hs.some; omega
      have ev : validate T R₂ r.correct r.shown = opened T.testImages T.testLabels R₂ ++ (("Running model validation test...".toList ++ [] ++ ['\n']) ++ (['\n'] ++
          (("Validation finished in ".toList ++ (T.milliseconds ++ " milliseconds.".toList) ++ ['\n']) ++
          (("Validation accuracy was ".toList ++ (T.accuracy (some (100 * r.correct / g.n)) ++ ['%']) ++ ['\n']) ++ ['\n'])))) ++ r.shown.flatMap (shown T) := by
        unfold validate
        rw [hnum, if_neg hg, show "Running model validation test...\n".toList = "Running model validation test...".toList ++ ['\n'] by decide,
          show "\nValidation finished in ".toList = ['\n'] ++ "Validation finished in ".toList by decide,
          show " milliseconds.\nValidation accuracy was ".toList = " milliseconds.".toList ++ ['\n'] ++ "Validation accuracy was ".toList by decide,
          show "%\n\n".toList = ['%'] ++ ['\n'] ++ ['\n'] by decide]
        simp only [List.append_assoc, List.cons_append, List.nil_append, Int.cast_natCast]
      rw [ev]
      exact ((opened_prints hT.testImages hT.testLabels hR₂.num hR₂.width hR₂.height).append
        ((reads_line (by decide) plain_nil).append (Prints.newline.append ((reads_line (by decide) (plain_append hT.milliseconds (by unfold Plain; decide))).append
          ((reads_line (by decide) (plain_append (hT.accuracy _) (by unfold Plain; decide))).append Prints.newline))))).append hshown
    have hend : Prints (ending T (r.saved.map (·.1))) (isEnding T save) := by
      cases save with
      | none =>
        rw [hnone rfl]
        exact reads_line (s := "No file provided, model training results will not be saved") (by decide) plain_nil
      | some b =>
        obtain ⟨_, t, ht⟩ := hsv b rfl
        rw [ht]
        have ee : ending T ((some ((Res.ok true : Res Bool), if b = true then some t else none)).map (·.1)) =
            "Saving model to \"".toList ++ (T.file ++ ['"']) ++ ['\n'] := by
          show _ ++ _ ++ _ ++ (if (Res.ok true : Res Bool) = .ok false then _ else []) = _
          rw [if_neg (by decide), show "\"\n".toList = ['"'] ++ ['\n'] by decide]
          simp only [List.append_assoc, List.cons_append, List.nil_append, List.append_nil]
        rw [ee]
        exact reads_line (by decide) (plain_append hT.file (by unfold Plain; decide))
    have h2' : Prints s (l₀ ++ l₁) := by
      intro t ht
      rw [h2 t ht]
      simp
    exact (((opened_prints hT.trainImages hT.trainLabels hR₁.num hR₁.width hR₁.height).append h2').append hval).append hend

/-! ### Non-vacuity -/

/-- The roundings of IEEE 754 are as assumed. -/
example : Rounding (nearest 24) ∧ KeepsBits (nearest 24) 24 ∧ Rounding (nearest 53) ∧ KeepsBits (nearest 53) 53 :=
  ⟨nearest_rounding (by norm_num), nearest_keeps (by norm_num), nearest_rounding (by norm_num), nearest_keeps (by norm_num)⟩

/-- Two of three batches. -/
example : (bars (fun q => q) (fun q => q) 3 2 >>= fun s => .ok (blank.write s)) =
    .ok { blank with line := plain "[================                                 ]  34%".toList, col := 56 } := by decide +kernel

/-- Two pixels, a bright one and a dark one, and two coloured ones. -/
example : (Image.print (fun q => q) (fun q => q) ⟨dimN 1 2 1, [1, 0]⟩ >>= fun s => .ok (blank.write (picture s)).above) =
    .ok [[⟨' ', some (255, 255, 255)⟩, ⟨' ', some (255, 255, 255)⟩, ⟨' ', some (0, 0, 0)⟩, ⟨' ', some (0, 0, 0)⟩]] := by decide +kernel

example : (Image.print (fun q => q) (fun q => q) ⟨dimN 1 1 3, [1, 0, 1 / 2]⟩ >>= fun s => .ok (blank.write (picture s)).above) =
    .ok [[⟨' ', some (255, 0, 127)⟩, ⟨' ', some (255, 0, 127)⟩, ⟨' ', some (255, 0, 127)⟩]] := by decide +kernel

/-- Texts without control characters. -/
def someTexts : Texts ℚ := ⟨fun _ => "97.5".toList, fun _ => "0.5".toList, "a".toList, "b".toList, "c".toList, "d".toList, "1234".toList, "m".toList⟩

theorem someTexts_plain : someTexts.Plain :=
  ⟨fun _ => (by unfold Plain; decide : Plain "97.5".toList), fun _ => (by unfold Plain; decide : Plain "0.5".toList), by unfold Plain; decide, by unfold Plain; decide, by unfold Plain; decide,
    by unfold Plain; decide, by unfold Plain; decide, by unfold Plain; decide⟩

/-- Two epochs, the second without batches. -/
example : (train someTexts (fun q => q) (fun q => q) 2 0 [(1, 3), (0, 0)] >>= fun s => .ok (blank.write s).above) =
    .ok [plain "[=========================                        ]  51%".toList, plain "Epoch 0: Accuracy was 97.5%".toList, [],
      plain "Epoch 1: Accuracy was 97.5%".toList] := by decide +kernel

/-- A machine that rounds as IEEE 754 demands. -/
def roundingHost : Main.Host ℚ := { Main.someHost with chance := ⟨nearest 24, nearest 53, 2147483647⟩ }

/-- The hypotheses of `C88_program` can be met by such a machine. -/
example (C : Codec ℚ) : ∃ (ts : List (List (List Nat))) (vs : List Nat) (r : Main.Outcome ℚ) (s : List Char),
    Main.program { roundingHost with trainScheds := ts, validScheds := vs } C (1 / 10) (Main.files Main.someTrain Main.someTest) none = .ok (some r) ∧
    program someTexts { roundingHost with trainScheds := ts, validScheds := vs } (Main.files Main.someTrain Main.someTest) r = .ok s ∧ (blank.write s).Fresh := by
  have hn : Main.someTrain.n ≤ 2 ^ 23 := by
    rw [show Main.someTrain.n = 33 from rfl]
    norm_num
  have h24 : Rounding (nearest 24) := nearest_rounding (by norm_num)
  have h53 : Rounding (nearest 53) := nearest_rounding (by norm_num)
  have k24 : KeepsBits (nearest 24) 24 := nearest_keeps (by norm_num)
  have k53 : KeepsBits (nearest 53) 53 := nearest_keeps (by norm_num)
  have hr : ∀ r ∈ Main.someHost.rands, r < 2147483647 := by decide
  obtain ⟨ts, vs, r, e⟩ := Main.C71_ends roundingHost C (1 / 10) Main.someTrain Main.someTest Main.someSuits rfl
    h24 h53 (by
      show nearest 24 (1 / 2) ≠ 0
      have := k24 1 1 (by norm_num) (by norm_num)
      rw [show (1 : ℚ) / 2 = ((1 : ℤ) : ℚ) / 2 ^ 1 by norm_num, this]
      norm_num) nearest_error_53 (Nat.le_refl _) hr none
  obtain ⟨s, _, _, _, _, _, es, _, _, hw⟩ := C88_program someTexts someTexts_plain { roundingHost with trainScheds := ts, validScheds := vs } C (1 / 10)
    Main.someTrain Main.someTest Main.someSuits rfl h24 h53 k24 k53 nearest_error_53 (Nat.le_refl _) hr (Nat.le_refl 5) none hn r e
  refine ⟨ts, vs, r, s, e, es, ?_⟩
  rw [hw blank ⟨⟨rfl, rfl, rfl⟩, rfl, rfl⟩]
  exact ⟨⟨rfl, rfl, rfl⟩, rfl, rfl⟩

end Cnn.Console
