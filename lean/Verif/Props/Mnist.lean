import Verif.Lemmas.Mnist
import Mathlib.Data.Rat.Defs
import Mathlib.Tactic.Linarith
import Mathlib.Tactic.NormNum
import Mathlib.Tactic.FieldSimp
import Mathlib.Tactic.Positivity
import Mathlib.Data.UInt
/-!
# C59-C61: the MNIST reader and the data source built on it
-/
namespace Cnn.Mnist

/-- C59, for the files of any content `f`: whatever the host byte order and whatever calls are made, each call answers with
the record it asks for, or throws `std::runtime_error` if there is none. -/
def C59_claim : Prop :=
  ∀ (f : Content) (lim : Nat) (big : Bool) (R : Reader) (calls : List Call), f.Ok lim →
    Reader.new big (some f.images) (some f.labels) = .ok R → f.Answers 0 calls (runCalls big lim calls R).1

theorem answers_of_on {f : Content} {lim : Nat} (big : Bool) (ok : f.Ok lim) : ∀ (calls : List Call) (cur : Nat) (R : Reader),
    R.On f cur → (∀ i, Call.get i ∈ calls → 16 + i * (f.h * f.w) ≤ lim) →
    f.Answers cur calls (runCalls big lim calls R).1 := by
  intro calls
  induction calls with
  | nil => intro cur R _ _; rfl
  | cons c cs ih =>
    intro cur R h hc
    have hcs : ∀ i, Call.get i ∈ cs → 16 + i * (f.h * f.w) ≤ lim := fun i hi => hc i (List.mem_cons_of_mem _ hi)
    have key : ∃ R₁, R₁.On f (c.record cur) ∧ c.exec big lim R = Reader.nextImage big R₁ := by
      cases c with
      | next => exact ⟨R, h, rfl⟩
      | get i => exact ⟨_, h.seek ok i (hc i (by simp)), rfl⟩
    obtain ⟨R₁, h₁, e⟩ := key
    refine ⟨_, _, rfl, ?_⟩
    rw [e]
    obtain ⟨n1, n2⟩ := h₁.next big ok
    split
    · rename_i hlt
      obtain ⟨im, R', e', hi, hR'⟩ := n1 hlt
      rw [e']
      exact ⟨⟨im, rfl, hi⟩, ih _ _ hR' hcs⟩
    · rename_i hlt
      rw [n2 hlt]
      exact ⟨rfl, ih _ _ h₁ hcs⟩

/-- C59 for every list of calls whose `getImage` arguments are offsets the system accepts (all existing records are among
them, and many more). Opening the files succeeds. Missing: larger arguments, see `C59_violated`. -/
theorem C59_history_partial (f : Content) (lim : Nat) (big : Bool) (ok : f.Ok lim) (calls : List Call)
    (hc : ∀ i, Call.get i ∈ calls → 16 + i * (f.h * f.w) ≤ lim) :
    ∃ R, Reader.new big (some f.images) (some f.labels) = .ok R ∧ R.numImages = f.n ∧
      f.Answers 0 calls (runCalls big lim calls R).1 := by
  obtain ⟨R, e, h⟩ := new_on big ok
  refine ⟨R, e, ?_, answers_of_on big ok calls 0 R h hc⟩
  unfold Reader.numImages
  rw [h.num]
  exact u64_nat (by have := ok.n; omega)

/-- Every record of the files is among the arguments covered. -/
theorem C59_records (f : Content) (lim : Nat) (ok : f.Ok lim) (i : Nat) (hi : i < f.n) : 16 + i * (f.h * f.w) ≤ lim := by
  have h := ok.img
  rw [Content.length_images] at h
  have : i * (f.h * f.w) ≤ f.n * (f.h * f.w) := Nat.mul_le_mul_right _ hi.le
  omega

/-- Reading all images in order. -/
theorem C59_in_order (f : Content) (lim : Nat) (big : Bool) (ok : f.Ok lim) :
    ∃ R, Reader.new big (some f.images) (some f.labels) = .ok R ∧
      List.Forall₂ (fun i r => ∃ im, r = Res.ok im ∧ f.IsRecord i im) (List.range f.n)
        (runCalls big lim (List.replicate f.n .next) R).1 := by
  obtain ⟨R, e, _, h⟩ := C59_history_partial f lim big ok (List.replicate f.n .next) (by
    intro i hi; exact absurd (List.eq_of_mem_replicate hi) (by simp))
  refine ⟨R, e, ?_⟩
  have key : ∀ (k cur : Nat) (rs : List (Res Image)), cur + k ≤ f.n → f.Answers cur (List.replicate k .next) rs →
      List.Forall₂ (fun i r => ∃ im, r = Res.ok im ∧ f.IsRecord i im) (List.range' cur k) rs := by
    intro k
    induction k with
    | zero => intro cur rs _ h; rw [show rs = [] from h]; exact .nil
    | succ k ih =>
      intro cur rs hle h
      obtain ⟨r, rs', rfl, h⟩ := h
      rw [if_pos (show Call.record cur .next < f.n by simp only [Call.record]; omega)] at h
      rw [List.range'_succ]
      exact .cons h.1 (ih (cur + 1) rs' (by omega) h.2)
  rw [List.range_eq_range']
  exact key f.n 0 _ (by omega) h

/-- The integers of the header do not depend on the host byte order, whatever four bytes are there. -/
theorem C59_endian (s : FStream) (he : s.eof = false) (hf : s.fail = false) (h : s.pos + 4 ≤ s.bytes.length) :
    readInt32 true s = readInt32 false s ∧
      ∃ v, readInt32 true s = .ok (v, { s with pos := s.pos + 4 }) ∧
        v = wrap32 (((s.bytes.drop s.pos).take 4).foldl (fun n b => 256 * n + b.toNat) 0 : Nat) := by
  obtain ⟨b₁, e₁, v₁⟩ := readBuf_ok true he hf h
  obtain ⟨b₂, e₂, v₂⟩ := readBuf_ok false he hf h
  refine ⟨?_, _, ?_, rfl⟩
  · unfold readInt32; rw [e₁, e₂, Res.bind_ok, Res.bind_ok, v₁, v₂]
  · unfold readInt32; rw [e₁, Res.bind_ok, v₁]; rfl

/-- The number in four bytes of a file, the first byte the most significant. -/
def fileNumber (bytes : List UInt8) (pos : Nat) : Nat := ((bytes.drop pos).take 4).foldl (fun n b => 256 * n + b.toNat) 0

private theorem fileNumber_lt (bytes : List UInt8) (pos : Nat) : fileNumber bytes pos < 4294967296 := by
  have key : ∀ (l : List UInt8) (n : Nat), l.foldl (fun n b => 256 * n + b.toNat) n < (n + 1) * 256 ^ l.length := by
    intro l
    induction l with
    | nil => intro n; simp
    | cons b l ih =>
      intro n
      refine lt_of_lt_of_le (ih _) ?_
      rw [List.length_cons, pow_succ', ← Nat.mul_assoc]
      refine Nat.mul_le_mul_right _ ?_
      have := b.toNat_lt
      show 256 * n + b.toNat + 1 ≤ (n + 1) * 256
      omega
  refine lt_of_lt_of_le (key _ 0) ?_
  have : ((bytes.drop pos).take 4).length ≤ 4 := by simp
  calc (0 + 1) * 256 ^ ((bytes.drop pos).take 4).length ≤ 1 * 256 ^ 4 :=
        Nat.mul_le_mul_left _ (Nat.pow_le_pow_right (by decide) this)
    _ = 4294967296 := by decide

private theorem readInt32_at (big : Bool) (bytes : List UInt8) (pos : Nat) (h : pos + 4 ≤ bytes.length) :
    readInt32 big ⟨bytes, pos, false, false⟩ = .ok (wrap32 (fileNumber bytes pos), ⟨bytes, pos + 4, false, false⟩) := by
  obtain ⟨e, v, h1, h2⟩ := C59_endian ⟨bytes, pos, false, false⟩ rfl rfl h
  cases big with
  | true => rw [h1, h2]; rfl
  | false => rw [← e, h1, h2]; rfl

/-- C59: what is not a pair of MNIST files that belong together is refused by an assertion, whatever else is in the files:
missing files, files that do not start with 2051 and 2049, files with different numbers of records. (With `NDEBUG`
there are no assertions; that case is not modelled.) -/
theorem C59_refused (big : Bool) :
    (∀ labels, Reader.new big none labels = .abort) ∧ (∀ images, Reader.new big (some images) none = .abort) ∧
    (∀ images labels : List UInt8, 8 ≤ images.length → 8 ≤ labels.length →
      fileNumber images 0 ≠ 2051 ∨ fileNumber labels 0 ≠ 2049 ∨ fileNumber images 4 ≠ fileNumber labels 4 →
      Reader.new big (some images) (some labels) = .abort) := by
  refine ⟨fun labels => rfl, fun images => rfl, fun images labels hi hl h => ?_⟩
  have w : ∀ n : Nat, n < 4294967296 → ∀ m : Nat, m < 2147483648 → (wrap32 (n : Int) = m ↔ n = m) := by
    intro n hn m hm; unfold wrap32; omega
  have w' : ∀ n : Nat, n < 4294967296 → ∀ m : Nat, m < 4294967296 → (wrap32 (n : Int) = wrap32 (m : Int) ↔ n = m) := by
    intro n hn m hm; unfold wrap32; omega
  have i0 := readInt32_at big images 0 (by omega)
  have i4 := readInt32_at big images 4 (by omega)
  have l0 := readInt32_at big labels 0 (by omega)
  have l4 := readInt32_at big labels 4 (by omega)
  have c0 : check (decide (wrap32 (fileNumber images 0 : Int) = 2051)) = if fileNumber images 0 = 2051 then .ok () else .abort := by
    unfold check
    have := w _ (fileNumber_lt images 0) 2051 (by decide)
    by_cases h : fileNumber images 0 = 2051
    · rw [if_pos h, if_pos (by simp only [decide_eq_true_eq]; exact this.2 h)]
    · rw [if_neg h, if_neg (by simp only [decide_eq_true_eq]; exact fun h' => h (this.1 h'))]
  have c1 : check (decide (wrap32 (fileNumber labels 0 : Int) = 2049)) = if fileNumber labels 0 = 2049 then .ok () else .abort := by
    unfold check
    have := w _ (fileNumber_lt labels 0) 2049 (by decide)
    by_cases h : fileNumber labels 0 = 2049
    · rw [if_pos h, if_pos (by simp only [decide_eq_true_eq]; exact this.2 h)]
    · rw [if_neg h, if_neg (by simp only [decide_eq_true_eq]; exact fun h' => h (this.1 h'))]
  have c2 : check (decide (wrap32 (fileNumber images 4 : Int) = wrap32 (fileNumber labels 4 : Int))) =
      if fileNumber images 4 = fileNumber labels 4 then .ok () else .abort := by
    unfold check
    have := w' _ (fileNumber_lt images 4) _ (fileNumber_lt labels 4)
    by_cases h : fileNumber images 4 = fileNumber labels 4
    · rw [if_pos h, if_pos (by simp only [decide_eq_true_eq]; exact this.2 h)]
    · rw [if_neg h, if_neg (by simp only [decide_eq_true_eq]; exact fun h' => h (this.1 h'))]
  have s1 : check (some images).isSome = .ok () := rfl
  have s2 : check (some labels).isSome = .ok () := rfl
  unfold Reader.new
  rw [s1, Res.bind_ok, s2, Res.bind_ok]
  show (readInt32 big ⟨images, 0, false, false⟩ >>= _) = _
  rw [i0, Res.bind_ok]
  simp only
  rw [c0]
  by_cases h0 : fileNumber images 0 = 2051
  · rw [if_pos h0, Res.bind_ok]
    show (readInt32 big ⟨labels, 0, false, false⟩ >>= _) = _
    rw [l0, Res.bind_ok]
    simp only
    rw [c1]
    by_cases h1 : fileNumber labels 0 = 2049
    · rw [if_pos h1, Res.bind_ok, Nat.zero_add, i4, Res.bind_ok]
      simp only
      rw [l4, Res.bind_ok]
      simp only
      rw [c2, if_neg (h.resolve_left (not_not_intro h0) |>.resolve_left (not_not_intro h1))]
      rfl
    · rw [if_neg h1]; rfl
  · rw [if_neg h0]; rfl

/-- A label file given as image file; two files of one record and of two. -/
example : fileNumber [0, 0, 8, 1, 0, 0, 0, 1] 0 = 2049 ∧ fileNumber [0, 0, 8, 3, 0, 0, 0, 1] 0 = 2051 ∧
    fileNumber [0, 0, 8, 3, 0, 0, 0, 2] 4 ≠ fileNumber [0, 0, 8, 1, 0, 0, 0, 1] 4 := by decide

/-- One image of one pixel. -/
def onePixel : Content := ⟨1, 1, 1, fun _ _ _ => 200, fun _ => 7⟩

theorem onePixel_ok : onePixel.Ok 1000 :=
  ⟨by decide, ⟨by decide, by decide, by decide, by decide⟩, by decide, by decide, by decide⟩

/-- C59 is violated: asking for an image so far out that the file position is refused throws as it should, but leaves
`failbit` set on the stream, and then no image can be read any more. For every file and every limit of the system
the index 2^63 does it. -/
theorem C59_stuck (f : Content) (lim : Nat) (big : Bool) (ok : f.Ok lim) (hn : 0 < f.n) :
    ∃ R r, Reader.new big (some f.images) (some f.labels) = .ok R ∧
      (runCalls big lim [.get 9223372036854775808, .get 0] R).1 = [.throw .runtime, r] ∧ ∀ im, r ≠ .ok im := by
  obtain ⟨R, e, h⟩ := new_on big ok
  refine ⟨R, (Reader.getImage big lim 0 (Reader.getImage big lim 9223372036854775808 R).2).1, e, ?_⟩
  have hnum : u64 R.num = f.n := by rw [h.num]; exact u64_nat (by have := ok.n; omega)
  have hbig : ¬ (9223372036854775816 : Nat) ≤ lim := by have := ok.off; omega
  have e8 : u64 (8 + ((9223372036854775808 : Nat) : Int)) = 9223372036854775816 := by decide
  have h1 : f.n ≤ 9223372036854775808 := by have := ok.n; omega
  have lab1 : R.lab.seek lim 9223372036854775816 = { R.lab with fail := true, eof := false } := by
    simp [FStream.seek, h.lab, hbig]
  have step1 : ∀ I, Reader.nextImage big
      { R with cur := 9223372036854775808, img := I, lab := { R.lab with fail := true, eof := false } } =
      (.throw .runtime, { R with cur := 9223372036854775808, img := I, lab := { R.lab with fail := true, eof := false } }) := by
    intro I
    unfold Reader.nextImage
    simp only [hnum]
    rw [if_pos h1]
  have step2 : ∀ I im, (Reader.nextImage big
      { R with cur := 0, img := I, lab := { R.lab with fail := true, eof := false } }).1 ≠ .ok im := by
    intro I im
    have hb : readByte big { R.lab with fail := true, eof := false } = .ub := by
      cases big <;> simp [readByte, readBuf, readDown, FStream.get]
    have ht : ∀ r, Reader.take big { R with cur := 0, img := I, lab := { R.lab with fail := true, eof := false } } ≠ .ok r := by
      intro r hr
      unfold Reader.take at hr
      obtain ⟨p, _, hr⟩ := Res.bind_eq_ok hr
      simp only [hb, Res.bind_ub] at hr
      exact absurd hr (by simp)
    unfold Reader.nextImage
    split
    · simp
    · cases hr : Reader.take big { R with cur := 0, img := I, lab := { R.lab with fail := true, eof := false } } with
      | ok r => exact absurd hr (ht r)
      | throw x => simp
      | ub => simp
      | abort => simp
  have hseek : ({ R.lab with fail := true, eof := false } : FStream).seek lim (u64 (8 + ((0 : Nat) : Int))) =
      { R.lab with fail := true, eof := false } := by simp [FStream.seek]
  have g1 : ∃ I, Reader.getImage big lim 9223372036854775808 R =
      (.throw .runtime, { R with cur := 9223372036854775808, img := I, lab := { R.lab with fail := true, eof := false } }) := by
    refine ⟨R.img.seek lim (u64 (16 + ((9223372036854775808 : Nat) : Int) * u64 R.height * u64 R.width)), ?_⟩
    unfold Reader.getImage
    rw [e8, lab1]
    exact step1 _
  obtain ⟨I, g1⟩ := g1
  constructor
  · simp only [runCalls, Call.exec, g1]
  · rw [g1]
    simp only [Reader.getImage, hseek]
    exact step2 _

theorem C59_violated : ¬ C59_claim := by
  intro hc
  obtain ⟨R, r₂, e, h, hno⟩ := C59_stuck onePixel 1000 true onePixel_ok (by decide)
  have := hc onePixel 1000 true R [.get 9223372036854775808, .get 0] onePixel_ok e
  rw [h] at this
  obtain ⟨r, rs', hr, h2⟩ := this
  simp only [List.cons.injEq] at hr
  obtain ⟨rfl, rfl⟩ := hr
  rw [if_neg (by decide)] at h2
  obtain ⟨r', rs'', hr', h3⟩ := h2.2
  simp only [List.cons.injEq] at hr'
  obtain ⟨rfl, rfl⟩ := hr'
  rw [if_pos (by decide)] at h3
  obtain ⟨⟨im, him, _⟩, _⟩ := h3
  exact hno im him

/-! ### C60 -/

/-- The rational value of a float. -/
def val (a : F32) : ℚ := (a.num : ℚ) / a.den

/-- All 256 bytes: the distance from `(b-128)/255` is at most half a unit in the last place (2^-25 for numbers below 1). -/
theorem pixel_near : ∀ b : Fin 256, 0 < (pixel b).den ∧
    ((pixel b).num * 255 - ((b : Nat) - 128 : Int) * (pixel b).den).natAbs * 33554432 ≤ 255 * (pixel b).den := by
  decide +kernel

/-- C60: the entry for a byte is `(byte - 128)/255` up to the rounding of one `float` division, -/
theorem C60_value (b : UInt8) : |val (pixel b.toNat) - ((b.toNat : ℚ) - 128) / 255| ≤ 1 / 2 ^ 25 := by
  obtain ⟨h0, h⟩ := pixel_near ⟨b.toNat, b.toNat_lt⟩
  simp only at h0 h
  have hd : (0 : ℚ) < (pixel b.toNat).den := by exact_mod_cast h0
  have e : val (pixel b.toNat) - ((b.toNat : ℚ) - 128) / 255 =
      ((pixel b.toNat).num * 255 - ((b.toNat : ℚ) - 128) * (pixel b.toNat).den) / (255 * (pixel b.toNat).den) := by
    unfold val; field_simp
  rw [e, abs_div, abs_of_pos (by positivity : (0 : ℚ) < 255 * (pixel b.toNat).den), div_le_div_iff₀ (by positivity) (by positivity)]
  have h' : (((pixel b.toNat).num * 255 - ((b.toNat : Int) - 128) * (pixel b.toNat).den).natAbs : ℚ) * 33554432 ≤
      255 * (pixel b.toNat).den := by exact_mod_cast h
  rw [Nat.cast_natAbs] at h'
  push_cast at h'
  norm_num
  linarith

/-- larger bytes give larger entries, so that an entry determines its byte, -/
theorem C60_monotone (a b : UInt8) (h : a < b) : val (pixel a.toNat) < val (pixel b.toNat) := by
  have h1 := abs_le.mp (C60_value a)
  have h2 := abs_le.mp (C60_value b)
  have h3 : (a.toNat : ℚ) + 1 ≤ b.toNat := by exact_mod_cast (UInt8.lt_iff_toNat_lt.mp h)
  norm_num at h1 h2
  linarith [h1.1, h1.2, h2.1, h2.2]

theorem C60_injective (a b : UInt8) (h : pixel a.toNat = pixel b.toNat) : a = b := by
  rcases Nat.lt_trichotomy a.toNat b.toNat with hlt | he | hlt
  · exact absurd (congrArg val h) (C60_monotone a b (UInt8.lt_iff_toNat_lt.mpr hlt)).ne
  · exact UInt8.toNat_inj.mp he
  · exact absurd (congrArg val h) (C60_monotone b a (UInt8.lt_iff_toNat_lt.mpr hlt)).ne'

/-- and all entries lie between those of the bytes 0 and 255, which are the floats next to -128/255 and 127/255. -/
theorem C60_range (b : UInt8) : val (pixel 0) ≤ val (pixel b.toNat) ∧ val (pixel b.toNat) ≤ val (pixel 255) ∧
    |val (pixel 0) + 128 / 255| ≤ 1 / 2 ^ 25 ∧ |val (pixel 255) - 127 / 255| ≤ 1 / 2 ^ 25 := by
  have h0 := C60_value 0
  have h1 := C60_value 255
  refine ⟨?_, ?_, ?_, ?_⟩
  · rcases Nat.eq_zero_or_pos b.toNat with h | h
    · rw [h]
    · exact (C60_monotone 0 b (UInt8.lt_iff_toNat_lt.mpr (by simpa using h))).le
  · rcases Nat.lt_or_ge b.toNat 255 with h | h
    · exact (C60_monotone b 255 (UInt8.lt_iff_toNat_lt.mpr h)).le
    · have := b.toNat_lt
      rw [show b.toNat = 255 by omega]
  · have e : val (pixel 0) + 128 / 255 = val (pixel (0 : UInt8).toNat) - (((0 : UInt8).toNat : ℚ) - 128) / 255 := by
      norm_num
    rw [e]; exact h0
  · have e : val (pixel 255) - 127 / 255 = val (pixel (255 : UInt8).toNat) - (((255 : UInt8).toNat : ℚ) - 128) / 255 := by
      have : (255 : UInt8).toNat = 255 := rfl
      rw [this]; norm_num
    rw [e]; exact h1

/-- C60 for the images the reader returns: every entry of every image is `pixel` of the file's byte. -/
theorem C60_images (f : Content) (lim : Nat) (big : Bool) (ok : f.Ok lim) (i : Nat) (hi : i < f.n) :
    ∃ R im R', Reader.new big (some f.images) (some f.labels) = .ok R ∧ Reader.getImage big lim i R = (.ok im, R') ∧
      im.data.dim = dimN f.h f.w 1 ∧
      ∀ r < f.h, ∀ c < f.w, ∃ v, im.data.read (dimN r c 0) = .ok v ∧ |val v - (((f.pix i r c).toNat : ℚ) - 128) / 255| ≤ 1 / 2 ^ 25 := by
  obtain ⟨R, e, h⟩ := new_on big ok
  obtain ⟨im, R', e', hr, _⟩ := ((h.seek ok i (C59_records f lim ok i hi)).next big ok).1 hi
  exact ⟨R, im, R', e, e', hr.2.dim, fun r hr' c hc => ⟨_, hr.2.entry r hr' c hc 0 (by decide), C60_value _⟩⟩

/-! ### C61 -/

/-- Any calls a program makes on the data source. -/
inductive GenCall where
  | getNext | reset | hasData | size
  deriving DecidableEq, Repr

/-- The source after a call, exceptions caught. -/
def GenCall.after (big : Bool) (lim : Nat) (R : Reader) : GenCall → Reader
  | .getNext => (Mnist.getNext big R).2
  | .reset => (Mnist.reset big lim R).2
  | .hasData => R
  | .size => R

/-- `while (hasAvailableData()) …getNextDataPoint()…`, at most `fuel` times: the samples obtained (`none` if a call
fails) and whether data remain. -/
def drain (big : Bool) : Nat → Reader → Option (List (Matrix F32 × List Char)) × Bool
  | 0, R => (some [], hasData R)
  | fuel + 1, R =>
    if hasData R then
      match getNext big R with
      | (.ok s, R') => let r := drain big fuel R'; (r.1.map (s :: ·), r.2)
      | (_, _) => (none, true)
    else (some [], false)

/-- Sample number `i` of the source. -/
def Content.IsSample (f : Content) (i : Nat) (s : Matrix F32 × List Char) : Prop :=
  s.2 = natText (f.label i).toNat ∧ s.1.Shows f.h f.w 1 (fun r c _ => pixel (f.pix i r c).toNat)

theorem getNext_on {f : Content} {lim cur : Nat} (big : Bool) (ok : f.Ok lim) {R : Reader} (h : R.On f cur) :
    (cur < f.n → ∃ s R', getNext big R = (.ok s, R') ∧ f.IsSample cur s ∧ R'.On f (cur + 1)) ∧
    (¬ cur < f.n → getNext big R = (.throw .runtime, R)) := by
  obtain ⟨n1, n2⟩ := h.next big ok
  constructor
  · intro hc
    obtain ⟨im, R', e, hr, h'⟩ := n1 hc
    exact ⟨(im.data, natText im.label), R', by simp [getNext, Exec.bind, e, Exec.pure], ⟨by rw [hr.1], hr.2⟩, h'⟩
  · intro hc
    simp [getNext, Exec.bind, n2 hc]

theorem reset_on {f : Content} {lim cur : Nat} (big : Bool) (ok : f.Ok lim) (hn : 0 < f.n) {R : Reader} (h : R.On f cur) :
    ∃ R', Mnist.reset big lim R = (.ok (), R') ∧ R'.On f 1 := by
  obtain ⟨im, R', e, _, h'⟩ := ((h.seek ok 0 (C59_records f lim ok 0 hn)).next big ok).1 hn
  refine ⟨R', ?_, h'⟩
  have : Reader.getImage big lim 0 R = (.ok im, R') := e
  simp [Mnist.reset, Exec.bind, this, Exec.pure]

theorem drain_on {f : Content} {lim : Nat} (big : Bool) (ok : f.Ok lim) : ∀ (k cur : Nat) (R : Reader), R.On f cur → cur + k = f.n →
    ∃ l, drain big (k + 1) R = (some l, false) ∧ List.Forall₂ f.IsSample (List.range' cur k) l := by
  intro k
  have hnum : ∀ {R : Reader} {c}, R.On f c → R.numImages = f.n := by
    intro R c h; unfold Reader.numImages; rw [h.num]; exact u64_nat (by have := ok.n; omega)
  induction k with
  | zero =>
    intro cur R h hk
    refine ⟨[], ?_, .nil⟩
    have : hasData R = false := by simp [hasData, hnum h, h.cur]; omega
    simp [drain, this]
  | succ k ih =>
    intro cur R h hk
    obtain ⟨s, R', e, hs, h'⟩ := (getNext_on big ok h).1 (by omega)
    obtain ⟨l, e', hl⟩ := ih (cur + 1) R' h' (by omega)
    refine ⟨s :: l, ?_, ?_⟩
    · have : hasData R = true := by simp [hasData, hnum h, h.cur]; omega
      rw [drain, if_pos this, e]
      simp only [e', Option.map_some]
    · rw [List.range'_succ]; exact .cons hs hl

/-- C61: on files with at least one record (both files well formed), construction succeeds; after it, and after a `reset`
at the end of any sequence of calls, the source hands out exactly `size()` samples, the records 1, 2, …, n-1 in this order,
before `hasAvailableData` becomes false. -/
theorem C61_epochs (f : Content) (lim : Nat) (big : Bool) (ok : f.Ok lim) (hn : 0 < f.n) (calls : List GenCall) :
    ∃ R R', newGenerator big lim (some f.images) (some f.labels) = .ok R ∧
      Mnist.reset big lim (calls.foldl (GenCall.after big lim) R) = (.ok (), R') ∧
      ∀ G, G = R ∨ G = R' → size G = f.n - 1 ∧
        ∃ l, drain big (size G + 1) G = (some l, false) ∧ l.length = size G ∧
          List.Forall₂ f.IsSample (List.range' 1 (f.n - 1)) l := by
  obtain ⟨R0, e0, h0⟩ := new_on big ok
  obtain ⟨R, e1, h1⟩ := reset_on big ok hn h0
  have hany : ∀ (calls : List GenCall) (cur : Nat) (R : Reader), R.On f cur → ∃ c, (calls.foldl (GenCall.after big lim) R).On f c := by
    intro calls
    induction calls with
    | nil => intro cur R h; exact ⟨cur, h⟩
    | cons c cs ih =>
      intro cur R h
      have : ∃ c', (c.after big lim R).On f c' := by
        cases c with
        | hasData => exact ⟨cur, h⟩
        | size => exact ⟨cur, h⟩
        | reset =>
          obtain ⟨R', e, h'⟩ := reset_on big ok hn h
          exact ⟨1, by simp only [GenCall.after, e]; exact h'⟩
        | getNext =>
          by_cases hc : cur < f.n
          · obtain ⟨s, R', e, _, h'⟩ := (getNext_on big ok h).1 hc
            exact ⟨cur + 1, by simp only [GenCall.after, e]; exact h'⟩
          · have e := (getNext_on big ok h).2 hc
            exact ⟨cur, by simp only [GenCall.after, e]; exact h⟩
      obtain ⟨c', h'⟩ := this
      exact ih c' _ h'
  obtain ⟨c, hc⟩ := hany calls 1 R h1
  obtain ⟨R', e2, h2⟩ := reset_on big ok hn hc
  refine ⟨R, R', ?_, e2, ?_⟩
  · unfold newGenerator; rw [e0, Res.bind_ok, e1]
  · intro G hG
    have hG : G.On f 1 := by rcases hG with rfl | rfl <;> assumption
    have hs : size G = f.n - 1 := by
      have : G.numImages = f.n := by unfold Reader.numImages; rw [hG.num]; exact u64_nat (by have := ok.n; omega)
      unfold size
      rw [this]
      have : ((f.n : Int) - 1) = ((f.n - 1 : Nat) : Int) := by omega
      rw [this]
      exact u64_nat (by have := ok.n; omega)
    obtain ⟨l, e, hl⟩ := drain_on big ok (f.n - 1) 1 G hG (by omega)
    refine ⟨hs, l, by rw [hs]; exact e, ?_, hl⟩
    rw [← hl.length_eq, List.length_range', hs]

/-- A finding beside C61: record 0 is consumed by `reset` and never handed out; with no record at all the construction
throws. -/
theorem C61_empty (f : Content) (lim : Nat) (big : Bool) (ok : f.Ok lim) (hn : f.n = 0) :
    newGenerator big lim (some f.images) (some f.labels) = .throw .runtime := by
  obtain ⟨R, e, h⟩ := new_on big ok
  have hl := ok.img
  rw [Content.length_images] at hl
  have e' := ((h.seek ok 0 (by omega)).next big ok).2 (by omega)
  have : (Reader.getImage big lim 0 R).1 = .throw .runtime := by
    show (Reader.nextImage big _).1 = _
    rw [e']
  unfold newGenerator
  rw [e, Res.bind_ok]
  unfold Mnist.reset Exec.bind
  cases hh : Reader.getImage big lim 0 R with
  | mk a b => rw [hh] at this; simp only at this; subst this; rfl

/-- Non-vacuity: three records of 2×3 pixels. -/
def threeRecords : Content := ⟨3, 2, 3, fun i r c => UInt8.ofNat (100 * i + 10 * r + c), fun i => UInt8.ofNat (i + 5)⟩

example : threeRecords.Ok 1000 :=
  ⟨by decide, ⟨by decide, by decide, by decide, by decide⟩, by decide, by decide, by decide⟩

example : (do let R ← newGenerator false 1000 (some threeRecords.images) (some threeRecords.labels)
              Res.ok ((drain false 3 R).1.map (List.map Prod.snd), size R)) = Res.ok (some [['6'], ['7']], 2) := by decide +kernel

example : (do let R ← Reader.new true (some threeRecords.images) (some threeRecords.labels)
              Res.ok ((runCalls true 1000 [.get 2, .next, .get 0, .next] R).1.map fun (r : Res Image) => match r with
                | .ok i => (some (i.label, i.data.vals.map fun v => decide (v = pixel 110)) : Option (Nat × List Bool))
                | _ => none)) =
    Res.ok [some (7, [false, false, false, false, false, false]), none, some (5, [false, false, false, false, false, false]),
      some (6, [false, true, false, false, false, false])] := by decide +kernel

end Cnn.Mnist
