import Verif.Spec.Mnist
import Verif.Lemmas.Shows
import Verif.Lemmas.Expr
import Verif.Lemmas.Loop
import Verif.Lemmas.Kernel
import Mathlib.Data.Fintype.Basic
import Mathlib.Tactic.IntervalCases
/-! Helper lemmas: the MNIST reader. -/
namespace Cnn.Mnist

theorem get_ok {s : FStream} {n : Nat} (he : s.eof = false) (hf : s.fail = false) (h : s.pos + n ≤ s.bytes.length) :
    s.get n = (some ((s.bytes.drop s.pos).take n), { s with pos := s.pos + n }) := by
  simp [FStream.get, he, hf, h]

theorem readDown_ok (i : Nat) : ∀ (buf : List UInt8) (s : FStream), s.eof = false → s.fail = false →
    s.pos + i ≤ s.bytes.length →
    readDown i buf s = .ok (((s.bytes.drop s.pos).take i).reverse ++ buf, { s with pos := s.pos + i }) := by
  induction i with
  | zero => intro buf s _ _ _; simp [readDown]
  | succ i ih =>
    intro buf s he hf h
    have hlt : s.pos < s.bytes.length := by omega
    rw [readDown, get_ok he hf (by omega), List.drop_eq_getElem_cons hlt]
    simp only [List.take_succ_cons, List.take_zero]
    rw [ih _ { s with pos := s.pos + 1 } he hf (by simp only; omega)]
    simp [Nat.add_assoc, Nat.add_comm 1 i]

/-- The bytes of a value, most significant first, whatever the host. -/
def beValue (l : List UInt8) : Nat := l.foldl (fun n b => 256 * n + b.toNat) 0

theorem readBuf_ok (big : Bool) {n : Nat} {s : FStream} (he : s.eof = false) (hf : s.fail = false)
    (h : s.pos + n ≤ s.bytes.length) :
    ∃ buf, readBuf big n s = .ok (buf, { s with pos := s.pos + n }) ∧
      hostValue big buf = beValue ((s.bytes.drop s.pos).take n) := by
  cases big with
  | true => exact ⟨_, by simp [readBuf, get_ok he hf h], rfl⟩
  | false =>
    refine ⟨_, by simp only [readBuf, Bool.false_eq_true, if_false]; exact readDown_ok n [] s he hf h, ?_⟩
    simp only [hostValue, beValue, Bool.false_eq_true, if_false, List.append_nil, List.foldr_reverse]
    congr 1
    funext n b
    omega

theorem readByte_ok (big : Bool) {s : FStream} (he : s.eof = false) (hf : s.fail = false) {b : UInt8}
    (h : s.bytes[s.pos]? = some b) : readByte big s = .ok (b.toNat, { s with pos := s.pos + 1 }) := by
  obtain ⟨hlt, hb⟩ := List.getElem?_eq_some_iff.mp h
  obtain ⟨buf, e, hv⟩ := readBuf_ok big he hf (n := 1) (by omega)
  have : (s.bytes.drop s.pos).take 1 = [b] := by
    rw [List.drop_eq_getElem_cons hlt, hb]; simp
  unfold readByte
  rw [e, Res.bind_ok, hv, this]
  simp [beValue]

theorem toNat_ofNat (n : Nat) : (UInt8.ofNat n).toNat = n % 256 := by simp

theorem beValue_be32 {v : Nat} (h : v < 4294967296) : beValue (be32 v) = v := by
  simp only [beValue, be32, List.foldl_cons, List.foldl_nil, toNat_ofNat]
  omega

theorem readInt32_ok (big : Bool) {s : FStream} {v : Nat} (he : s.eof = false) (hf : s.fail = false) (hv : v < 2147483648)
    (h : (s.bytes.drop s.pos).take 4 = be32 v) :
    readInt32 big s = .ok ((v : Int), { s with pos := s.pos + 4 }) := by
  have hl : s.pos + 4 ≤ s.bytes.length := by
    have := congrArg List.length h
    simp only [List.length_take, List.length_drop, be32, List.length_cons, List.length_nil] at this
    omega
  obtain ⟨buf, e, hb⟩ := readBuf_ok big he hf hl
  unfold readInt32
  rw [e, Res.bind_ok, hb, h, beValue_be32 (by omega), wrap32_nat hv]

namespace Content
variable {f : Content}

theorem length_images : f.images.length = 16 + f.n * (f.h * f.w) := by
  simp [images, be32]; omega

theorem length_labels : f.labels.length = 8 + f.n := by
  simp [labels, be32]; omega

/-- Pixel `(r,c)` of record `i` in the file. -/
theorem images_at {i r c : Nat} (hi : i < f.n) (hr : r < f.h) (hc : c < f.w) :
    f.images[16 + i * (f.h * f.w) + (r * f.w + c)]? = some (f.pix i r c) := by
  have hk : r * f.w + c < f.h * f.w := by
    have : (r + 1) * f.w ≤ f.h * f.w := Nat.mul_le_mul_right _ hr
    rw [Nat.succ_mul] at this; omega
  have hlt : i * (f.h * f.w) + (r * f.w + c) < f.n * (f.h * f.w) := by
    have : (i + 1) * (f.h * f.w) ≤ f.n * (f.h * f.w) := Nat.mul_le_mul_right _ hi
    rw [Nat.succ_mul] at this; omega
  have h1 : (i * (f.h * f.w) + (r * f.w + c)) / (f.h * f.w) = i := by
    rw [Nat.mul_comm, Nat.mul_add_div (by omega), Nat.div_eq_of_lt hk]; simp
  have h2 : (i * (f.h * f.w) + (r * f.w + c)) % (f.h * f.w) = r * f.w + c := by
    rw [Nat.mul_comm, Nat.mul_add_mod, Nat.mod_eq_of_lt hk]
  have h3 : (r * f.w + c) / f.w = r := by
    rw [Nat.mul_comm, Nat.mul_add_div (by omega), Nat.div_eq_of_lt hc]; simp
  have h4 : (r * f.w + c) % f.w = c := by
    rw [Nat.mul_comm, Nat.mul_add_mod, Nat.mod_eq_of_lt hc]
  unfold images
  rw [List.getElem?_append_right (by simp [be32]; omega)]
  have : 16 + i * (f.h * f.w) + (r * f.w + c) - (be32 2051 ++ be32 f.n ++ be32 f.h ++ be32 f.w).length =
      i * (f.h * f.w) + (r * f.w + c) := by simp [be32]; omega
  rw [this, List.getElem?_map, List.getElem?_range hlt]
  simp only [Option.map_some, h1, h2, h3, h4]

theorem labels_at {i : Nat} (hi : i < f.n) : f.labels[8 + i]? = some (f.label i) := by
  unfold labels
  rw [List.getElem?_append_right (by simp [be32])]
  simp [be32, hi]

end Content

/-- One row of pixels. -/
theorem row_ok (big : Bool) {f : Content} {i r : Nat} (hi : i < f.n) (hr : r < f.h)
    {out : Matrix Nat} {s : FStream} {g : Nat → Nat → Nat → Nat} (hg : out.Shows f.h f.w 1 g) (hb : s.bytes = f.images)
    (he : s.eof = false) (hf : s.fail = false) (hp : s.pos = 16 + i * (f.h * f.w) + r * f.w) :
    ∃ out', (List.range f.w).foldlM (fun (st : Matrix Nat × FStream) (col : Nat) => do
        let (b, s) ← readByte big st.2
        let out ← st.1.write ⟨(r : Int), (col : Int), 0⟩ b
        .ok (out, s)) (out, s) = .ok (out', { s with pos := s.pos + f.w }) ∧
      out'.Shows f.h f.w 1 (fun a c k => if a = r then (f.pix i r c).toNat else g a c k) := by
  obtain ⟨⟨out', s'⟩, e, hs, ho⟩ := foldlM_range_inv
    (fun c (st : Matrix Nat × FStream) => st.2 = { s with pos := s.pos + c } ∧
      st.1.Shows f.h f.w 1 (fun a c' k => if a = r ∧ c' < c then (f.pix i r c').toNat else g a c' k)) f.w
    (fun (st : Matrix Nat × FStream) (col : Nat) => do
        let (b, s) ← readByte big st.2
        let out ← st.1.write ⟨(r : Int), (col : Int), 0⟩ b
        .ok (out, s)) (out, s)
    ⟨rfl, hg.congr (by intros; simp)⟩ (by
      rintro c hc ⟨o, t⟩ ⟨rfl, ho⟩
      have hat : ({ s with pos := s.pos + c } : FStream).bytes[s.pos + c]? = some (f.pix i r c) := by
        simp only [hb, hp]
        rw [Nat.add_assoc]
        exact Content.images_at hi hr hc
      have er := readByte_ok big (s := { s with pos := s.pos + c }) he hf hat
      obtain ⟨o', ew, so⟩ := ho.write hr hc (k := 0) (by decide) (f.pix i r c).toNat
      refine ⟨(o', { s with pos := s.pos + c + 1 }), ?_, rfl, so.congr ?_⟩
      · simp only [er, Res.bind_ok]
        have : (⟨(r : Int), (c : Int), 0⟩ : Dim3) = dimN r c 0 := rfl
        rw [this, ew, Res.bind_ok]
      · intro a ha c' hc' k hk
        obtain rfl : k = 0 := by omega
        by_cases h1 : a = r
        · subst h1
          by_cases h2 : c' = c
          · subst h2; simp
          · by_cases h3 : c' < c
            · simp [h2, h3, Nat.lt_succ_of_lt h3]
            · have : ¬ c' < c + 1 := by omega
              simp [h2, h3, this]
        · simp [h1])
  refine ⟨out', by rw [e, ← hs], ho.congr ?_⟩
  intro a ha c hc k hk
  simp [hc]

theorem readPixels_ok (big : Bool) {f : Content} (good : Good f.h f.w 1) {i : Nat} (hi : i < f.n) {s : FStream}
    (hb : s.bytes = f.images) (he : s.eof = false) (hf : s.fail = false) (hp : s.pos = 16 + i * (f.h * f.w)) :
    ∃ out, readPixels big f.h f.w s = .ok (out, { s with pos := s.pos + f.h * f.w }) ∧
      out.Shows f.h f.w 1 (fun r c _ => (f.pix i r c).toNat) := by
  obtain ⟨out0, e0, s0⟩ := Matrix.ofDim_shows good (0 : Nat)
  obtain ⟨⟨out', s'⟩, e, hs, ho⟩ := foldlM_range_inv
    (fun r (st : Matrix Nat × FStream) => st.2 = { s with pos := s.pos + r * f.w } ∧
      st.1.Shows f.h f.w 1 (fun a c _ => if a < r then (f.pix i a c).toNat else 0)) f.h
    (fun (st : Matrix Nat × FStream) (row : Nat) =>
      (List.range f.w).foldlM (fun (st : Matrix Nat × FStream) (col : Nat) => do
        let (b, s) ← readByte big st.2
        let out ← st.1.write ⟨(row : Int), (col : Int), 0⟩ b
        .ok (out, s)) st) (out0, s)
    ⟨by simp, s0.congr (by intros; simp)⟩ (by
      rintro r hr ⟨o, t⟩ ⟨rfl, ho⟩
      obtain ⟨o', e1, s1⟩ := row_ok big hi hr (s := { s with pos := s.pos + r * f.w }) ho hb he hf (by simp only [hp])
      refine ⟨_, e1, ?_, s1.congr ?_⟩
      · simp [Nat.succ_mul, Nat.add_assoc]
      · intro a ha c hc k hk
        by_cases h1 : a = r
        · subst h1; simp
        · by_cases h2 : a < r
          · simp [h1, h2, Nat.lt_succ_of_lt h2]
          · have : ¬ a < r + 1 := by omega
            simp [h1, h2, this])
  refine ⟨out', ?_, ho.congr ?_⟩
  · unfold readPixels
    have : (⟨(f.h : Int), (f.w : Int), 1⟩ : Dim3) = dimN f.h f.w 1 := rfl
    rw [this, e0, Res.bind_ok]
    simp only [Int.toNat_natCast]
    rw [e, ← hs]
  · intro a ha c hc k hk
    simp [ha]

/-- The reader's fields agree with the files. -/
structure Reader.On (R : Reader) (f : Content) (k : Nat) : Prop where
  num : R.num = f.n
  width : R.width = f.w
  height : R.height = f.h
  cur : R.cur = k
  img : R.img.bytes = f.images ∧ R.img.eof = false ∧ R.img.fail = false
  lab : R.lab.bytes = f.labels ∧ R.lab.eof = false ∧ R.lab.fail = false
  pos : k < f.n → R.img.pos = 16 + k * (f.h * f.w) ∧ R.lab.pos = 8 + k

theorem u64_nat {n : Nat} (h : n < 18446744073709551616) : u64 (n : Int) = n := by
  unfold u64; omega

theorem Reader.On.next {R : Reader} {f : Content} {cur lim : Nat} (big : Bool) (ok : f.Ok lim) (h : R.On f cur) :
    (cur < f.n → ∃ im R', Reader.nextImage big R = (.ok im, R') ∧ f.IsRecord cur im ∧ R'.On f (cur + 1)) ∧
    (¬ cur < f.n → Reader.nextImage big R = (.throw .runtime, R)) := by
  have hn : u64 R.num = f.n := by rw [h.num]; exact u64_nat (by have := ok.n; omega)
  constructor
  · intro hc
    obtain ⟨p1, p2⟩ := h.pos hc
    obtain ⟨out, e1, s1⟩ := readPixels_ok big ok.good hc h.img.1 h.img.2.1 h.img.2.2 p1
    have e2 : readByte big R.lab = .ok ((f.label cur).toNat, { R.lab with pos := R.lab.pos + 1 }) := by
      refine readByte_ok big h.lab.2.1 h.lab.2.2 ?_
      rw [h.lab.1, p2]
      exact Content.labels_at hc
    obtain ⟨data, e3, s3⟩ := Matrix.assignExpr_shows
      (MExpr.scal_shows (fun i : Int => ((F32.ofInt i).div (F32.ofInt 255)).getD ⟨0, 1⟩)
        (MExpr.scal_shows (fun b : Nat => (b : Int) - 128) s1.expr)) (Matrix.empty : Matrix F32)
    refine ⟨⟨data, (f.label cur).toNat⟩,
      { R with img := { R.img with pos := R.img.pos + f.h * f.w }, lab := { R.lab with pos := R.lab.pos + 1 }, cur := R.cur + 1 },
      ?_, ⟨rfl, s3⟩, ?_⟩
    · unfold Reader.nextImage
      rw [hn, h.cur, if_neg (by omega)]
      unfold Reader.take
      rw [h.height, h.width, e1]
      simp only [Res.bind_ok, e2, e3, h.cur]
    · refine ⟨h.num, h.width, h.height, by simp [h.cur], h.img, h.lab, ?_⟩
      intro _
      constructor
      · simp only [p1, Nat.succ_mul]; omega
      · simp only [p2]; omega
  · intro hc
    unfold Reader.nextImage
    rw [hn, h.cur, if_pos (by omega)]

theorem Reader.On.seek {R : Reader} {f : Content} {cur lim : Nat} (ok : f.Ok lim) (h : R.On f cur) (i : Nat)
    (hi : 16 + i * (f.h * f.w) ≤ lim) :
    ({ R with
        cur := i
        img := R.img.seek lim (u64 (16 + (i : Int) * u64 R.height * u64 R.width))
        lab := R.lab.seek lim (u64 (8 + (i : Int))) } : Reader).On f i := by
  have g := ok.good
  have hb := g.bounds
  have hl := ok.off
  have hpos : 0 < f.h * f.w := Nat.mul_pos g.x g.y
  have hile : i ≤ i * (f.h * f.w) := Nat.le_mul_of_pos_right _ hpos
  have e1 : u64 (16 + (i : Int) * u64 R.height * u64 R.width) = 16 + i * (f.h * f.w) := by
    rw [h.height, h.width, u64_nat (by omega), u64_nat (by omega)]
    have : (16 + (i : Int) * (f.h : Int) * (f.w : Int)) = ((16 + i * (f.h * f.w) : Nat) : Int) := by
      push_cast; rw [Int.mul_assoc]
    rw [this, u64_nat (by omega)]
  have e2 : u64 (8 + (i : Int)) = 8 + i := by
    have : (8 + (i : Int)) = ((8 + i : Nat) : Int) := by push_cast; rfl
    rw [this, u64_nat (by omega)]
  have h8 : 8 + i ≤ lim := by omega
  refine ⟨h.num, h.width, h.height, rfl, ?_, ?_, ?_⟩
  · simp [FStream.seek, h.img, e1, hi]
  · simp [FStream.seek, h.lab, e2, h8]
  · intro _
    simp [FStream.seek, h.img, h.lab, e1, e2, hi, h8]

theorem new_on (big : Bool) {f : Content} {lim : Nat} (ok : f.Ok lim) :
    ∃ R, Reader.new big (some f.images) (some f.labels) = .ok R ∧ R.On f 0 := by
  have g := ok.good
  have hb := g.bounds
  have i0 : (f.images.drop 0).take 4 = be32 2051 := by simp [Content.images, be32]
  have i4 : (f.images.drop 4).take 4 = be32 f.n := by simp [Content.images, be32]
  have i8 : (f.images.drop 8).take 4 = be32 f.h := by simp [Content.images, be32]
  have i12 : (f.images.drop 12).take 4 = be32 f.w := by simp [Content.images, be32]
  have l0 : (f.labels.drop 0).take 4 = be32 2049 := by simp [Content.labels, be32]
  have l4 : (f.labels.drop 4).take 4 = be32 f.n := by simp [Content.labels, be32]
  have hh : f.h < 2147483648 := by omega
  have hw : f.w < 2147483648 := by omega
  refine ⟨⟨⟨f.images, 16, false, false⟩, ⟨f.labels, 8, false, false⟩, f.n, f.w, f.h, 0⟩, ?_, ?_⟩
  · unfold Reader.new FStream.ofBytes
    simp only [Option.isSome_some, Option.getD_some, check, if_true, Res.bind_ok]
    rw [readInt32_ok big (s := ⟨f.images, 0, false, false⟩) (v := 2051) rfl rfl (by decide) i0]
    simp only [Res.bind_ok]
    rw [readInt32_ok big (s := ⟨f.labels, 0, false, false⟩) (v := 2049) rfl rfl (by decide) l0]
    simp only [Res.bind_ok, Nat.zero_add]
    rw [readInt32_ok big (s := ⟨f.images, 4, false, false⟩) (v := f.n) rfl rfl ok.n i4,
      readInt32_ok big (s := ⟨f.labels, 4, false, false⟩) (v := f.n) rfl rfl ok.n l4]
    simp only [Res.bind_ok]
    rw [readInt32_ok big (s := ⟨f.images, 8, false, false⟩) (v := f.h) rfl rfl hh i8]
    simp only [Res.bind_ok]
    rw [readInt32_ok big (s := ⟨f.images, 12, false, false⟩) (v := f.w) rfl rfl hw i12]
    simp
  · exact ⟨rfl, rfl, rfl, rfl, ⟨rfl, rfl, rfl⟩, ⟨rfl, rfl, rfl⟩, fun _ => ⟨by simp, by simp⟩⟩

end Cnn.Mnist
