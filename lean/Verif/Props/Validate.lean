import Verif.Lemmas.ValidateRace
import Verif.Props.Mnist
import Verif.Props.Display
/-!
# Properties C72-C74: the validation run
-/
set_option linter.unusedSectionVars false
namespace Cnn.Validate
open Model Mnist
variable {α : Type} [Zero α] [One α] [Add α] [Sub α] [Mul α] [Div α] [Neg α]

theorem Predicts.unique {E : Env α} {M : Model α} {X : Matrix α} {l l' : List Char} (h : Predicts E M X l) (h' : Predicts E M X l') : l = l' := by
  obtain ⟨r, N, e, hl⟩ := h
  obtain ⟨r', N', e', hl'⟩ := h'
  rw [e] at e'
  obtain ⟨rfl, rfl⟩ := Prod.mk.inj (Res.ok.inj e')
  rw [hl] at hl'
  exact Option.some.inj hl'

theorem count_of_new {E : Env α} {conv : F32 → α} {big : Bool} {lim : Nat} {f : Content} {T : Nat} {sched : List Nat} {M : Model α} {R : Reader}
    (ok : f.Ok lim) (e : Reader.new big (some f.images) (some f.labels) = .ok R) (h : R.On f 0) :
    count E conv big lim (some f.images) (some f.labels) T sched M =
      (start T M R).run ⟨E, conv, big, lim, f.n, T⟩ sched >>= fun r => .ok (if r.1.over then some r else none) := by
  have hn : wrap32 (R.numImages : Int) = f.n := by
    unfold Reader.numImages
    rw [h.num, u64_nat (by have := ok.n; omega)]
    exact wrap32_nat ok.n
  unfold count
  rw [e, Res.bind_ok, if_neg (by omega), Int.toNat_natCast, hn]

/-- C72, with a call of a layer as one step of a thread. What is missing: two threads inside the same call of a pooling layer
(`C73_race`). Validating a model as training leaves it, with any number of threads under any schedule: nothing fails, and when the threads
have ended, every image of the files has been classified exactly once, as the model used alone would classify it; the count is
the number of images the model classifies correctly; and the model still is as it was, up to the indices held by pooling layers. -/
theorem C72_count_partial (E : Env α) (conv : F32 → α) (big : Bool) (lim : Nat) (f : Content) (ok : f.Ok lim) (M : Model α) (B : Nat) (ks : List LayerKind)
    (hM : M.Trained B ⟨f.h, f.w, 1⟩ ks) (hB : 0 < B) (hk : KindsWork true ⟨f.h, f.w, 1⟩ ks) (T : Nat) (hT0 : 0 < T) (hT : f.n + T < 2147483648)
    (sched : List Nat) :
    ∃ o, count E conv big lim (some f.images) (some f.labels) T sched M = .ok o ∧ ∀ b evs, o = some (b, evs) →
      (evs.map Event.image).Perm ((List.range f.n).map fun i : Nat => (i : Int)) ∧
      (∀ e ∈ evs, ∃ i : Nat, i < f.n ∧ e.image = i ∧ f.IsRecord i e.im ∧ Predicts E M (input conv e.im.data) e.label) ∧
      (∀ p : Nat → Bool, (∀ i < f.n, p i = true ↔ Right E conv f M i) → b.shared.correct = ((List.range f.n).countP p : Nat)) ∧
      b.shared.model.Trained B ⟨f.h, f.w, 1⟩ ks ∧ b.shared.model.labels = M.labels ∧
      ∀ X : Matrix α, X.Has ⟨f.h, f.w, 1⟩ → ∀ l, Predicts E b.shared.model X l ↔ Predicts E M X l := by
  obtain ⟨R, e, h⟩ := new_on big ok
  rw [count_of_new ok e h]
  obtain ⟨r, e1, hI⟩ := (Inv.init (E := E) (conv := conv) hT0 hT hM.shaped h).run (big := big) ok hT0 hT hB hM.shaped hM.ready hk sched
  rw [e1, Res.bind_ok]
  refine ⟨_, rfl, ?_⟩
  intro b evs ho
  split_ifs at ho with hov
  obtain rfl := Option.some.inj ho
  rw [List.nil_append] at hI
  have hperm := hI.perm hov
  have hready : b.shared.model.Ready := hM.ready.of_bare hI.bare
  refine ⟨hperm, hI.events, ?_, hI.shaped.trained hready, hI.shaped.labelled, ?_⟩
  · intro p hp
    have hhit : ∀ x ∈ evs, hit x = p x.image.toNat := by
      intro x hx
      obtain ⟨i, hi, hxi, hr, hpd⟩ := hI.events x hx
      rw [hxi, Int.toNat_natCast, Bool.eq_iff_iff, hp i hi]
      unfold hit
      rw [decide_eq_true_iff, hr.1]
      constructor
      · intro hl
        exact ⟨x.im, hr, by rw [← hl]; exact hpd⟩
      · rintro ⟨im, hr', hpd'⟩
        obtain rfl := record_unique hr hr'
        exact hpd.unique hpd'
    have h1 : evs.countP hit = (List.range f.n).countP p := by
      rw [List.countP_congr (fun x hx => by rw [hhit x hx])]
      have : evs.countP (fun x => p x.image.toNat) = (evs.map Event.image).countP (fun z => p z.toNat) := by
        rw [List.countP_map]; rfl
      rw [this, hperm.countP_eq, List.countP_map]
      rfl
    rw [hI.correct, h1]
    refine wrap32_nat ?_
    have := List.countP_le_length (p := p) (l := List.range f.n)
    rw [List.length_range] at this
    omega
  · intro X hX l
    obtain ⟨r₁, N₁, g₁, hl₁, _⟩ := forwardPropagation_shaped E hI.shaped hk hB hX
    obtain ⟨r₂, N₂, g₂, hl₂, _⟩ := forwardPropagation_shaped E hM.shaped hk hB hX
    have hsame : r₁.labelIdx = r₂.labelIdx := by
      have := forwardPropagation_same hI.bare hready g₁ g₂
      simp only at this
      rw [this]
    unfold Predicts
    rw [g₁, g₂, hI.shaped.labelled]
    constructor
    · rintro ⟨r, N, e, hl⟩
      obtain ⟨rfl, rfl⟩ := Prod.mk.inj (Res.ok.inj e)
      exact ⟨r₂, N₂, rfl, by rw [← hsame]; exact hl⟩
    · rintro ⟨r, N, e, hl⟩
      obtain ⟨rfl, rfl⟩ := Prod.mk.inj (Res.ok.inj e)
      exact ⟨r₁, N₁, rfl, by rw [hsame]; exact hl⟩

/-- C72 … and there are schedules under which the threads end. -/
theorem C72_ends (E : Env α) (conv : F32 → α) (big : Bool) (lim : Nat) (f : Content) (ok : f.Ok lim) (M : Model α) (B : Nat) (ks : List LayerKind)
    (hM : M.Trained B ⟨f.h, f.w, 1⟩ ks) (hB : 0 < B) (hk : KindsWork true ⟨f.h, f.w, 1⟩ ks) (T : Nat) (hT0 : 0 < T) (hT : f.n + T < 2147483648) :
    ∃ sched r, count E conv big lim (some f.images) (some f.labels) T sched M = .ok (some r) := by
  obtain ⟨R, e, h⟩ := new_on big ok
  obtain ⟨sched, r, e1, ho⟩ := (Inv.init (E := E) (conv := conv) hT0 hT hM.shaped h).ends (big := big) ok hT0 hT hB hM.shaped hM.ready hk _ (Nat.le_refl _)
  refine ⟨sched, r, ?_⟩
  rw [count_of_new ok e h, e1, Res.bind_ok, if_pos ho]

/-- C72 in full for one thread. -/
theorem C72_one_thread (E : Env α) (conv : F32 → α) (big : Bool) (lim : Nat) (f : Content) (ok : f.Ok lim) (M : Model α) (B : Nat) (ks : List LayerKind)
    (hM : M.Trained B ⟨f.h, f.w, 1⟩ ks) (hB : 0 < B) (hk : KindsWork true ⟨f.h, f.w, 1⟩ ks) (hn : f.n < 2147483647) (sched : List Nat) :
    ∃ o, count E conv big lim (some f.images) (some f.labels) 1 sched M = .ok o ∧ ∀ b evs, o = some (b, evs) →
      (evs.map Event.image).Perm ((List.range f.n).map fun i : Nat => (i : Int)) ∧
      (∀ p : Nat → Bool, (∀ i < f.n, p i = true ↔ Right E conv f M i) → b.shared.correct = ((List.range f.n).countP p : Nat)) ∧
      ∀ X : Matrix α, X.Has ⟨f.h, f.w, 1⟩ → ∀ l, Predicts E b.shared.model X l ↔ Predicts E M X l := by
  obtain ⟨o, e, h⟩ := C72_count_partial E conv big lim f ok M B ks hM hB hk 1 (by decide) (by omega) sched
  refine ⟨o, by exact_mod_cast e, fun b evs ho => ?_⟩
  obtain ⟨h1, _, h3, _, _, h6⟩ := h b evs ho
  exact ⟨h1, h3, h6⟩

/-! ### C73 -/

/-- C73: while the threads run, no two of them are at the call of the same pooling layer, which overwrites the indices of batch slot 0. -/
def C73_claim : Prop :=
  ∀ (E : Env ℚ) (conv : F32 → ℚ) (big : Bool) (lim : Nat) (f : Content) (M : Model ℚ) (B : Nat) (ks : List LayerKind), f.Ok lim →
    M.Trained B ⟨f.h, f.w, 1⟩ ks → 0 < B → KindsWork true ⟨f.h, f.w, 1⟩ ks → ∀ T : Nat, 0 < T → f.n + T < 2147483648 →
    ∀ R, Reader.new big (some f.images) (some f.labels) = .ok R → ∀ sched r, (start T M R).run ⟨E, conv, big, lim, f.n, T⟩ sched = .ok r →
    ∀ t t' k P, t ≠ t' → At r.1 t k → At r.1 t' k → r.1.shared.model.bodyAt k ≠ some (.pooling P)

/-- C73 is violated by every run with at least two threads and two images on a model that has a pooling layer: thread 0 and thread 1
can reach every layer at the same time. -/
theorem C73_race (E : Env α) (conv : F32 → α) (big : Bool) (lim : Nat) (f : Content) (ok : f.Ok lim) (M : Model α) (B : Nat) (ks : List LayerKind)
    (hM : M.Trained B ⟨f.h, f.w, 1⟩ ks) (hB : 0 < B) (hk : KindsWork true ⟨f.h, f.w, 1⟩ ks) (T : Nat) (hT2 : 2 ≤ T) (hT : f.n + T < 2147483648)
    (hn : 2 ≤ f.n) (k : Nat) (hkl : k ≤ ks.length) :
    ∃ R, Reader.new big (some f.images) (some f.labels) = .ok R ∧ ∃ sched r, (start T M R).run ⟨E, conv, big, lim, f.n, T⟩ sched = .ok r ∧
      At r.1 0 k ∧ At r.1 1 k ∧ r.1.shared.model.bare = M.bare := by
  obtain ⟨R, e, h⟩ := new_on big ok
  have hI := Inv.init (E := E) (conv := conv) (T := T) (by omega) hT hM.shaped h
  obtain ⟨r, e1, h1, a1, n1⟩ := hI.drive (big := big) ok (by omega) hT hB hM.shaped hM.ready hk (t := 0) (i := 0) (by omega)
    (start_get (by omega)) k (by omega)
  obtain ⟨q, e2, h2, a2, n2⟩ := h1.drive (big := big) ok (by omega) hT hB hM.shaped hM.ready hk (t := 1) (i := 1) (by omega)
    (by rw [n1 1 (by decide)]; exact start_get (by omega)) k (by omega)
  refine ⟨R, e, _, _, run_append _ _ e1 e2, ?_, a2, h2.bare⟩
  obtain ⟨i, im, s, a1⟩ := a1
  exact ⟨i, im, s, by rw [n2 0 (by decide)]; exact a1⟩

/-- Two images of one pixel. -/
def twoPixels : Content := ⟨2, 1, 1, fun _ _ _ => 200, fun i => UInt8.ofNat i⟩

theorem twoPixels_ok : twoPixels.Ok 1000 :=
  ⟨by decide, ⟨by decide, by decide, by decide, by decide⟩, by decide, by decide, by decide⟩

/-- A model with a pooling layer and one label. -/
def poolModel : Model ℚ := ⟨[⟨"P".toList, .pooling ⟨⟨1, 1⟩, ⟨1, 1⟩, .max, [Matrix.empty]⟩⟩, ⟨"S".toList, .softmax ⟨1, 0, false⟩⟩], ["0".toList], true, 0, 1, 0, 0⟩

theorem poolModel_trained : poolModel.Trained 1 ⟨1, 1, 1⟩ [.pool .max 1 1 1 1] := by
  refine ⟨⟨rfl, ?_, ⟨_, _, rfl, rfl, rfl⟩, Or.inl rfl⟩, ?_⟩
  · intro i L k hL hk
    match i with
    | 0 =>
      obtain rfl := Option.some.inj hL
      obtain rfl := Option.some.inj hk
      exact ⟨rfl, rfl, rfl⟩
    | i + 1 => exact absurd hk (by simp)
  · intro l hl
    simp only [poolModel, List.mem_cons, List.not_mem_nil, or_false] at hl
    rcases hl with rfl | rfl
    · rfl
    · trivial

theorem poolModel_works : KindsWork true ⟨1, 1, 1⟩ [.pool .max 1 1 1 1] :=
  ⟨⟨by decide, by decide, by decide, by decide, by decide, by decide, by decide, by decide⟩, trivial⟩

def plainEnv : Env ℚ := ⟨⟨fun _ => 1, id, id, fun _ => 0, fun n => n, fun a b => a < b, 0, 0, 0⟩, fun _ _ => 0, id, .dimsFirst⟩

theorem C73_violated : ¬ C73_claim := by
  intro h
  obtain ⟨R, e, sched, r, e1, a0, a1, hb⟩ := C73_race plainEnv value true 1000 twoPixels twoPixels_ok poolModel 1 _ poolModel_trained (by decide) poolModel_works
    2 (by decide) (by decide) (by decide) 0 (by decide)
  have hg := bare_get hb 0
  cases hl : r.1.shared.model.layers[0]? with
  | none => rw [hl] at hg; exact absurd hg (by simp [poolModel])
  | some l =>
    rw [hl] at hg
    have hg : l.body.bare = Body.bare (.pooling ⟨⟨1, 1⟩, ⟨1, 1⟩, .max, [Matrix.empty]⟩ : Body ℚ) := Option.some.inj hg
    cases hlb : l.body with
    | pooling P =>
      refine h plainEnv value true 1000 twoPixels poolModel 1 _ twoPixels_ok poolModel_trained (by decide) poolModel_works 2 (by decide) (by decide) R e sched r e1
        0 1 0 P (by decide) a0 a1 ?_
      unfold bodyAt
      rw [hl, Option.map_some, hlb]
    | _ => rw [hlb] at hg; exact absurd hg (by simp [Body.bare])

/-- The hypotheses of C72 are met by these files and this model; of the two images, with labels 0 and 1, one is classified correctly. Here thread 1
works first, and the threads take turns later. -/
example : twoPixels.Ok 1000 ∧ poolModel.Trained 1 ⟨twoPixels.h, twoPixels.w, 1⟩ [.pool .max 1 1 1 1] ∧
    ((count plainEnv value false 1000 (some twoPixels.images) (some twoPixels.labels) 2 [1, 1, 0, 0, 1, 0, 0, 1, 1, 0] poolModel).bind fun o =>
      .ok (o.map fun r => (r.1.shared.correct, r.2.map fun e => (e.thread, e.image)))) =
      .ok (some (1, [(0, 0), (1, 1)])) := by
  refine ⟨twoPixels_ok, poolModel_trained, by decide +kernel⟩

/-! ### C74 -/

/-- C74: whatever `rand()` gives, an image is picked, classified and printed. -/
def C74_claim : Prop :=
  ∀ (E : Env ℚ) (conv : F32 → ℚ) (big : Bool) (lim : Nat) (K : Chance) (f : Content) (M : Model ℚ) (B : Nat) (ks : List LayerKind) (R : Reader) (cur r : Nat),
    f.Ok lim → 0 < f.n → M.Trained B ⟨f.h, f.w, 1⟩ ks → 0 < B → KindsWork true ⟨f.h, f.w, 1⟩ ks → R.On f cur →
    Rounding K.r32 → Rounding K.r64 → K.r32 (1 / 2) = 1 / 2 → K.r64 f.n = f.n → r ≤ K.randMax → 0 < K.randMax →
    ∃ o, inspect E conv big lim K f.n (M, R) r = .ok o

/-- C74 is violated: if `rand()` gives `RAND_MAX`, the number picked is that of the image after the last one, and `getImage` throws. -/
theorem C74_throws (E : Env α) (conv : F32 → α) (big : Bool) (lim : Nat) (K : Chance) (f : Content) (ok : f.Ok lim) (M : Model α) (R : Reader) (cur : Nat)
    (hR : R.On f cur) (h64 : Rounding K.r64) (hn : K.r64 f.n = f.n) (hm : 0 < K.randMax) :
    inspect E conv big lim K f.n (M, R) K.randMax = .throw .runtime := by
  have hq : (K.randMax : ℚ) ≠ 0 := by exact_mod_cast hm.ne'
  have hp : pick K.r64 K.randMax K.randMax f.n = .ok f.n := by
    unfold pick
    have hlt : (f.n : ℚ) < 2147483648 := by exact_mod_cast ok.n
    have h0 : (0 : ℚ) ≤ f.n := Nat.cast_nonneg _
    simp only [Int.cast_natCast]
    rw [div_self hq, h64.one, one_mul, hn, if_pos ⟨by linarith, hlt⟩, if_pos h0]
    exact congrArg _ (Int.floor_natCast (R := ℚ) f.n)
  have hle : 16 + f.n * (f.h * f.w) ≤ lim := by
    have h := ok.img
    rw [Content.length_images] at h
    omega
  unfold inspect
  rw [hp, Res.bind_ok, u64_nat (by have := ok.n; omega)]
  have e := ((hR.seek ok f.n hle).next big ok).2 (by omega)
  unfold Reader.getImage
  rw [e]

theorem C74_violated : ¬ C74_claim := by
  intro h
  obtain ⟨R, e, hR⟩ := new_on true twoPixels_ok
  obtain ⟨o, e⟩ := h plainEnv value true 1000 ⟨fun q => q, fun q => q, 2147483647⟩ twoPixels poolModel 1 _ R 0 2147483647 twoPixels_ok (by decide) poolModel_trained
    (by decide) poolModel_works hR Rounding.id Rounding.id rfl rfl (Nat.le_refl _) (by decide)
  have e' := C74_throws plainEnv value true 1000 ⟨fun q => q, fun q => q, 2147483647⟩ twoPixels twoPixels_ok poolModel R 0 hR Rounding.id rfl (by decide)
  rw [e'] at e
  exact absurd e (by simp)

/-- Every other random number gives the number of an image, if a rounding to `double` has a relative error of at most 2^-53. -/
theorem pick_lt (r64 : ℚ → ℚ) (h64 : Rounding r64) (herr : ∀ q, 0 ≤ q → r64 q ≤ q * (1 + 1 / 9007199254740992)) (randMax r n : Nat) (hm : randMax ≤ 2147483647)
    (hr : r < randMax) (hn : 0 < n) (hn' : n < 2147483648) : ∃ i : Nat, pick r64 randMax r n = .ok (i : Int) ∧ i < n := by
  have hm0 : (0 : ℚ) < randMax := by exact_mod_cast (by omega : 0 < randMax)
  have hm1 : (randMax : ℚ) ≤ 2147483647 := by exact_mod_cast hm
  have hr1 : (r : ℚ) + 1 ≤ randMax := by exact_mod_cast hr
  have hr0 : (0 : ℚ) ≤ r := Nat.cast_nonneg _
  have hn0 : (0 : ℚ) < n := by exact_mod_cast hn
  have hn1 : (n : ℚ) < 2147483648 := by exact_mod_cast hn'
  have h1 : (r : ℚ) / randMax ≤ 2147483646 / 2147483647 := by
    rw [div_le_div_iff₀ hm0 (by norm_num)]
    nlinarith
  have h2 : 0 ≤ r64 (r / randMax) := h64.nonneg (by positivity)
  have h3 : r64 (r / randMax) ≤ 2147483646 / 2147483647 * (1 + 1 / 9007199254740992) :=
    (herr _ (by positivity)).trans (mul_le_mul_of_nonneg_right h1 (by norm_num))
  have h4 : 0 ≤ r64 (r64 (r / randMax) * n) := h64.nonneg (by positivity)
  have h5 : r64 (r64 (r / randMax) * n) < n := by
    refine lt_of_le_of_lt (herr _ (by positivity)) ?_
    have : r64 (r / randMax) * (1 + 1 / 9007199254740992) < 1 :=
      lt_of_le_of_lt (mul_le_mul_of_nonneg_right h3 (by norm_num)) (by norm_num)
    nlinarith
  refine ⟨(r64 (r64 (r / randMax) * n)).floor.toNat, ?_, ?_⟩
  · unfold pick
    simp only [Int.cast_natCast]
    rw [if_pos ⟨by linarith, by linarith⟩, if_pos h4]
    exact congrArg _ (Int.toNat_of_nonneg (Int.floor_nonneg.mpr h4)).symm
  · have : (r64 (r64 (r / randMax) * n)).floor < (n : Int) := Int.floor_lt.mpr (by exact_mod_cast h5)
    have := Int.floor_nonneg.mpr h4
    omega

theorem pixel_half (b : UInt8) : value (pixel b.toNat) ≤ 1 / 2 := by
  have : ∀ b : Fin 256, value (pixel b.1) ≤ 1 / 2 := by decide +kernel
  exact this ⟨b.toNat, b.toNat_lt⟩

/-- What `validate` shows for the random number `r`: an image of the files with its label, the label the model used alone gives it, that label's position and
the confidence, and a picture with a code for every pixel. -/
def Reports (E : Env α) (conv : F32 → α) (K : Chance) (f : Content) (M : Model α) (r : Nat) (o : Shown α) : Prop :=
  ∃ (i : Nat) (im : Image), pick K.r64 K.randMax r f.n = .ok (i : Int) ∧ i < f.n ∧ f.IsRecord i im ∧ o.actual = im.label ∧
    (∃ q N, M.forwardPropagation E (input conv im.data) 0 = .ok (q, N) ∧ o.index = q.labelIdx ∧ o.confidence = q.confidence ∧
      M.labels[q.labelIdx]? = some o.found) ∧
    ∃ code : Nat → Nat → Nat, o.picture = Image.rowsOf f.h f.w (fun x y => [code x y]) ∧ ∀ x < f.h, ∀ y < f.w, code x y ≤ 255

theorem Reports.predicts {E : Env α} {conv : F32 → α} {K : Chance} {f : Content} {M : Model α} {r : Nat} {o : Shown α} (h : Reports E conv K f M r o) :
    ∃ (i : Nat) (im : Image), i < f.n ∧ f.IsRecord i im ∧ o.actual = im.label ∧ Predicts E M (input conv im.data) o.found := by
  obtain ⟨i, im, _, hi, hr, ha, ⟨q, N, e, _, _, hl⟩, _⟩ := h
  exact ⟨i, im, hi, hr, ha, q, N, e, hl⟩

/-- Models that agree up to what their pooling layers hold report the same. -/
theorem Reports.of_bare {E : Env α} {conv : F32 → α} {K : Chance} {f : Content} {M M' : Model α} {B : Nat} {ks : List LayerKind} {r : Nat} {o : Shown α}
    (h : Reports E conv K f M' r o) (hM : M.Trained B ⟨f.h, f.w, 1⟩ ks) (hB : 0 < B) (hk : KindsWork true ⟨f.h, f.w, 1⟩ ks)
    (hb : M'.bare = M.bare) (hl : M'.labels = M.labels) : Reports E conv K f M r o := by
  obtain ⟨i, im, h1, h2, h3, h4, ⟨q, N, e, h5, h6, h7⟩, h8⟩ := h
  obtain ⟨q', N', e', _, _⟩ := forwardPropagation_shaped E hM.shaped hk hB (X := input conv im.data) ⟨_, input_shows conv h3.2⟩
  have hq := forwardPropagation_same hb (hM.ready.of_bare hb) e e'
  simp only at hq
  subst hq
  exact ⟨i, im, h1, h2, h3, h4, ⟨q, N', e', h5, h6, by rw [← hl]; exact h7⟩, h8⟩

/-- C74, the part that holds: any other random number. An image of the files is picked; what is shown of it are its label, the label the model gives
it with the confidence, and a picture with a code for every pixel. Missing: the number `RAND_MAX`, see `C74_throws`. -/
theorem C74_inspect_partial (E : Env α) (conv : F32 → α) (big : Bool) (lim : Nat) (K : Chance) (f : Content) (ok : f.Ok lim) (hn : 0 < f.n) (M : Model α) (B : Nat)
    (ks : List LayerKind) (hM : M.Trained B ⟨f.h, f.w, 1⟩ ks) (hB : 0 < B) (hk : KindsWork true ⟨f.h, f.w, 1⟩ ks) (R : Reader) (cur : Nat) (hR : R.On f cur)
    (h32 : Rounding K.r32) (h64 : Rounding K.r64) (hh : K.r32 (1 / 2) ≠ 0) (herr : ∀ q, 0 ≤ q → K.r64 q ≤ q * (1 + 1 / 9007199254740992))
    (hm : K.randMax ≤ 2147483647) (r : Nat) (hr : r < K.randMax) :
    ∃ o M' R', inspect E conv big lim K f.n (M, R) r = .ok (o, M', R') ∧ Reports E conv K f M r o ∧
      M'.Trained B ⟨f.h, f.w, 1⟩ ks ∧ M'.bare = M.bare ∧ M'.labels = M.labels ∧ ∃ cur', R'.On f cur' := by
  obtain ⟨i, hp, hi⟩ := pick_lt K.r64 h64 herr K.randMax r f.n hm hr hn ok.n
  obtain ⟨im, R', e, him, hR'⟩ := getImage_on (big := big) ok hR hi
  obtain ⟨q, M', e1, hl, hS⟩ := forwardPropagation_shaped E hM.shaped hk hB (X := input conv im.data) ⟨_, input_shows conv him.2⟩
  have hpic := input_shows value him.2
  have hmax : Image.maxVal (input value im.data) = .ok 1 := by
    obtain ⟨m, e, h1, _, h2⟩ := Image.maxVal_spec hpic
    rcases h2 with rfl | ⟨a, b, c, _, _, _, h2⟩
    · exact e
    · have := pixel_half (f.pix i a b)
      rw [h2] at this
      linarith
  have hb := ok.good
  obtain ⟨code, e2, hc⟩ := Image.C63_bw_partial K.r32 K.r64 _ _ h32 h64 hpic (by decide) 1 hmax ⟨0, 0, 0, hb.x, hb.y, hb.z, by
    have h1 : (1 : ℚ) / 2 ≤ 1 - value (pixel (f.pix i 0 0).toNat) := by linarith [pixel_half (f.pix i 0 0)]
    have h2 := h32.mono _ _ h1
    have h3 : 0 ≤ K.r32 (1 / 2) := h32.nonneg (by norm_num)
    intro h0
    rw [h0] at h2
    exact hh (le_antisymm h2 h3)⟩
  have hlab : M'.labels = M.labels := hS.labelled
  refine ⟨⟨M.labels[q.labelIdx], im.label, _, q.labelIdx, q.confidence⟩, M', R', ?_, ⟨i, im, hp, hi, him, rfl,
    ⟨q, M', e1, rfl, rfl, List.getElem?_eq_getElem hl⟩, code, rfl, fun x hx y hy => (hc x hx y hy).1⟩, ?_, forwardPropagation_bare hM.ready e1, hlab, ⟨_, hR'⟩⟩
  · unfold inspect
    rw [hp, Res.bind_ok, e]
    dsimp only
    rw [e1, Res.bind_ok]
    dsimp only
    rw [hlab, List.getElem?_eq_getElem hl, Res.ofOption_some, Res.bind_ok, e2, Res.bind_ok]
    rfl
  · refine hS.trained ?_
    exact hM.ready.of_bare (forwardPropagation_bare hM.ready e1)

/-- The images shown one after the other. -/
theorem inspectAll_ok (E : Env α) (conv : F32 → α) (big : Bool) (lim : Nat) (K : Chance) (f : Content) (ok : f.Ok lim) (hn : 0 < f.n) (B : Nat)
    (ks : List LayerKind) (hB : 0 < B) (hk : KindsWork true ⟨f.h, f.w, 1⟩ ks)
    (h32 : Rounding K.r32) (h64 : Rounding K.r64) (hh : K.r32 (1 / 2) ≠ 0) (herr : ∀ q, 0 ≤ q → K.r64 q ≤ q * (1 + 1 / 9007199254740992))
    (hm : K.randMax ≤ 2147483647) : ∀ (rands : List Nat) (M : Model α) (R : Reader) (cur : Nat), (∀ r ∈ rands, r < K.randMax) → M.Trained B ⟨f.h, f.w, 1⟩ ks →
    R.On f cur → ∃ os M' R', inspectAll E conv big lim K f.n rands (M, R) = .ok (os, M', R') ∧ List.Forall₂ (Reports E conv K f M) rands os ∧
      M'.Trained B ⟨f.h, f.w, 1⟩ ks ∧ M'.labels = M.labels := by
  intro rands
  induction rands with
  | nil => intro M R cur _ hM _; exact ⟨[], M, R, rfl, .nil, hM, rfl⟩
  | cons r rs ih =>
    intro M R cur hr hM hR
    obtain ⟨o, M', R', e, h0, h1, hb, h2, cur', h3⟩ := C74_inspect_partial E conv big lim K f ok hn M B ks hM hB hk R cur hR h32 h64 hh herr hm r (hr r (by simp))
    obtain ⟨os, M'', R'', e', h4, h5, h6⟩ := ih M' R' cur' (fun x hx => hr x (List.mem_cons_of_mem _ hx)) h1 h3
    exact ⟨o :: os, M'', R'', by rw [inspectAll, e, Res.bind_ok, e', Res.bind_ok], .cons h0 (h4.imp fun _ _ h => h.of_bare hM hB hk hb h2), h5,
      by rw [h6, h2]⟩

/-- C74 for the whole of `validate`, under any schedule: it does not fail unless `rand()` gives `RAND_MAX`; the count is that of C72, an image
is shown for each random number, and the model can be used and validated again. With the same restriction as `C72_count_partial`. -/
theorem C74_validate_partial (E : Env α) (conv : F32 → α) (big : Bool) (lim : Nat) (K : Chance) (f : Content) (ok : f.Ok lim) (hn : 0 < f.n) (M : Model α) (B : Nat)
    (ks : List LayerKind) (hM : M.Trained B ⟨f.h, f.w, 1⟩ ks) (hB : 0 < B) (hk : KindsWork true ⟨f.h, f.w, 1⟩ ks) (T : Nat) (hT0 : 0 < T)
    (hT : f.n + T < 2147483648) (h32 : Rounding K.r32) (h64 : Rounding K.r64) (hh : K.r32 (1 / 2) ≠ 0)
    (herr : ∀ q, 0 ≤ q → K.r64 q ≤ q * (1 + 1 / 9007199254740992)) (hm : K.randMax ≤ 2147483647) (rands : List Nat) (hr : ∀ r ∈ rands, r < K.randMax)
    (sched : List Nat) :
    ∃ o, validate E conv big lim K (some f.images) (some f.labels) T sched rands M = .ok o ∧ ∀ c os M', o = some (c, os, M') →
      (∀ p : Nat → Bool, (∀ i < f.n, p i = true ↔ Right E conv f M i) → c = ((List.range f.n).countP p : Nat)) ∧ List.Forall₂ (Reports E conv K f M) rands os ∧
      M'.Trained B ⟨f.h, f.w, 1⟩ ks ∧ M'.labels = M.labels := by
  obtain ⟨o, e, h⟩ := C72_count_partial E conv big lim f ok M B ks hM hB hk T hT0 hT sched
  unfold validate
  rw [e, Res.bind_ok]
  cases o with
  | none => exact ⟨none, rfl, by simp⟩
  | some r =>
    obtain ⟨b, evs⟩ := r
    obtain ⟨_, _, h3, h4, h5, _⟩ := h b evs rfl
    obtain ⟨⟨cur, hdb⟩, hbare⟩ : (∃ cur, b.shared.db.On f cur) ∧ b.shared.model.bare = M.bare := by
      obtain ⟨R, e0, hR⟩ := new_on big ok
      rw [count_of_new ok e0 hR] at e
      obtain ⟨r, e1, hI⟩ := (Inv.init (E := E) (conv := conv) hT0 hT hM.shaped hR).run (big := big) ok hT0 hT hB hM.shaped hM.ready hk sched
      rw [e1, Res.bind_ok] at e
      have e := Res.ok.inj e
      split_ifs at e
      rw [Option.some.inj e] at hI
      exact ⟨hI.db, hI.bare⟩
    have hnum : wrap32 (b.shared.db.numImages : Int) = f.n := by
      unfold Reader.numImages
      rw [hdb.num, u64_nat (by have := ok.n; omega)]
      exact wrap32_nat ok.n
    obtain ⟨os, M', R', e2, h6, h7, h8⟩ := inspectAll_ok E conv big lim K f ok hn B ks hB hk h32 h64 hh herr hm rands b.shared.model b.shared.db cur hr h4 hdb
    dsimp only
    rw [hnum, e2, Res.bind_ok]
    refine ⟨_, rfl, ?_⟩
    intro c os' M'' ho
    simp only [Option.some.injEq, Prod.mk.injEq] at ho
    obtain ⟨rfl, rfl, rfl⟩ := ho
    exact ⟨h3, h6.imp fun _ _ h => h.of_bare hM hB hk hbare h5, h7, h8.trans h5⟩

/-- C74 for the whole of `validate`: if the first random number is `RAND_MAX`, it throws, for some schedules. -/
theorem C74_validate_throws (E : Env α) (conv : F32 → α) (big : Bool) (lim : Nat) (K : Chance) (f : Content) (ok : f.Ok lim) (M : Model α) (B : Nat)
    (ks : List LayerKind) (hM : M.Trained B ⟨f.h, f.w, 1⟩ ks) (hB : 0 < B) (hk : KindsWork true ⟨f.h, f.w, 1⟩ ks) (T : Nat) (hT0 : 0 < T)
    (hT : f.n + T < 2147483648) (h64 : Rounding K.r64) (hr : K.r64 f.n = f.n) (hm : 0 < K.randMax) (rands : List Nat) :
    ∃ sched, validate E conv big lim K (some f.images) (some f.labels) T sched (K.randMax :: rands) M = .throw .runtime := by
  obtain ⟨sched, r, e⟩ := C72_ends E conv big lim f ok M B ks hM hB hk T hT0 hT
  obtain ⟨cur, hdb⟩ : ∃ cur, r.1.shared.db.On f cur := by
    obtain ⟨R, e0, hR⟩ := new_on big ok
    have e' := e
    rw [count_of_new ok e0 hR] at e'
    obtain ⟨r', e1, hI⟩ := (Inv.init (E := E) (conv := conv) hT0 hT hM.shaped hR).run (big := big) ok hT0 hT hB hM.shaped hM.ready hk sched
    rw [e1, Res.bind_ok] at e'
    have e' := Res.ok.inj e'
    split_ifs at e'
    rw [Option.some.inj e'] at hI
    exact hI.db
  have hnum : wrap32 (r.1.shared.db.numImages : Int) = f.n := by
    unfold Reader.numImages
    rw [hdb.num, u64_nat (by have := ok.n; omega)]
    exact wrap32_nat ok.n
  refine ⟨sched, ?_⟩
  unfold validate
  rw [e, Res.bind_ok]
  dsimp only
  unfold inspectAll
  rw [hnum, C74_throws E conv big lim K f ok r.1.shared.model r.1.shared.db cur hdb h64 hr hm]
  rfl

/-- All hypotheses are met: the two images are validated, five are picked (here with exact arithmetic) and shown. -/
example : ((validate plainEnv value false 1000 ⟨fun q => q, fun q => q, 2147483647⟩ (some twoPixels.images) (some twoPixels.labels) 2 [1, 1, 0, 0, 1, 0, 0, 1, 1, 0]
      [0, 1073741823, 1073741824, 2147483646, 5] poolModel).bind fun o => .ok (o.map fun r => (r.1, r.2.1.map fun s => s.actual))) =
      .ok (some (1, [0, 0, 1, 1, 0])) := by decide +kernel

end Cnn.Validate
