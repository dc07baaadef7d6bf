import Verif.Lemmas.MatrixText
import Verif.Lemmas.Codec
/-!
# C41, C42, C43: labelled values and matrices as text
-/
namespace Cnn
open IStream

/-! ## C41 -/

/-- C41, reading what was written: `expect<int>(label)` returns the number `place(label, n)` wrote and leaves the stream at
the following text. -/
theorem C41_round_trip (label : List Char) (n : Int) (hn : I32 n) (rest : List Char) :
    expectInt label (ofText (placeText label n ++ rest)) = (.ok n, ofText rest) :=
  expectInt_place hn

/-- The same for `expect<unsigned>`. -/
theorem C41_unsigned (label : List Char) (n : Nat) (hn : n < 4294967296) (rest : List Char) :
    expectUnsigned label (ofText (placeText label n ++ rest)) = (.ok n, ofText rest) :=
  expectUnsigned_place hn

/-- `expect<void>` of a line that is the label. -/
theorem C41_line (label rest : List Char) : expectVoid label (ofText (label ++ '\n' :: rest)) = (.ok (), ofText rest) :=
  expectVoid_line

/-- The text of a number determines it, so different numbers are saved differently. -/
theorem C41_injective (label : List Char) (n m : Int) (hn : I32 n) (hm : I32 m) (h : placeText label n = placeText label m) :
    n = m := by
  have a := C41_round_trip label n hn []
  have b := C41_round_trip label m hm []
  rw [h, b] at a
  exact (Res.ok.inj (congrArg Prod.fst a)).symm

/-- What the property asks of a stream that continues differently. -/
def C41_claim : Prop := ∀ label rest : List Char, ¬ label <+: rest → (expectVoid label (ofText rest)).1 = .throw .runtime

/-- It fails: the buffer is filled with blanks, so the label `"a "` is found in the text `"a"`. -/
theorem C41_violated : ¬ C41_claim := by
  intro h
  exact absurd (h ['a', ' '] ['a'] (by decide)) (by decide)

/-- It holds for every label that does not end in a blank; and for a stream that is not good any more.
Missing: labels that end in a blank (the code has none). -/
theorem C41_mismatch_partial (label rest : List Char) (h : ¬ label <+: rest) (hl : label.getLast? ≠ some ' ') :
    (expectVoid label (ofText rest)).1 = .throw .runtime ∧ (expectInt label (ofText rest)).1 = .throw .runtime ∧
    (expectUnsigned label (ofText rest)).1 = .throw .runtime := by
  have key : label ≠ (readN (ofText rest) label.length).1 := by
    unfold readN ofText
    simp only [good, Bool.not_false, Bool.and_true, if_true]
    split
    · intro e
      exact h (e ▸ List.take_prefix _ _)
    · rename_i hlen
      intro e
      apply hl
      rw [e]
      have : List.replicate (label.length - rest.length) ' ' ≠ [] := by
        intro hr
        have := congrArg List.length hr
        simp at this; omega
      obtain ⟨k, hk⟩ : ∃ k, label.length - rest.length = k + 1 := ⟨label.length - rest.length - 1, by omega⟩
      simp only [hk, List.replicate_succ']
      rw [← List.append_assoc, List.getLast?_append]
      simp
  refine ⟨?_, ?_, ?_⟩
  · unfold expectVoid; simp only [ne_eq, if_pos key]
  · unfold expectInt; simp only [ne_eq, if_pos key]
  · unfold expectUnsigned; simp only [ne_eq, if_pos key]

/-- A stream in a failed state is reported as well. -/
theorem C41_failed_partial (label : List Char) (s : IStream) (hs : s.good = false) (hl : ∃ c ∈ label, c ≠ ' ') :
    (expectVoid label s).1 = .throw .runtime := by
  have key : label ≠ (readN s label.length).1 := by
    unfold readN
    simp only [hs, Bool.false_eq_true, if_false]
    intro e
    obtain ⟨c, hc, hne⟩ := hl
    rw [e] at hc
    exact hne (List.eq_of_mem_replicate hc)
  unfold expectVoid
  simp only [ne_eq, if_pos key]

/-- If the number is missing at the end of the text, `expect<int>` returns an uninitialised variable. -/
theorem C41_missing_number_violated (label : List Char) : (expectInt label (ofText label)).1 = .ub := by
  have := readN_append label []
  rw [List.append_nil] at this
  unfold expectInt ofText
  rw [this]
  simp only [ne_eq, not_true_eq_false, if_false]
  rfl

example : expectInt "stride".toList (ofText (placeText "stride".toList (-12) ++ "x 3".toList)) = (.ok (-12), ofText "x 3".toList) := by
  decide +kernel

example : placeText "x".toList 205 = "x 205\n".toList := by decide +kernel

example : (expectInt "weights".toList (ofText "biases 3\n".toList)).1 = .throw .runtime := by decide +kernel

/-! ## C42 -/

section
variable {α : Type} [Zero α] [Inhabited α]

/-- C42: for every matrix with finite entries, every receiving matrix and every following text, the text of the matrix is
read back: success, the dimensions, each entry rounded to six decimals, the stream directly after the matrix; and the
result has the same text. -/
theorem C42_round_trip (C : Codec α) (hC : C.Lawful) {X Y Z : Nat} (M : Matrix α) (f : Nat → Nat → Nat → α) (hM : M.Shows X Y Z f)
    (hf : ∀ i < X, ∀ j < Y, ∀ k < Z, C.Finite (f i j k)) :
    ∃ t, M.serialize C = .ok t ∧ ∃ M' g, M'.Shows X Y Z g ∧ M'.serialize C = .ok t ∧
      (∀ i < X, ∀ j < Y, ∀ k < Z, C.Same (g i j k) (f i j k)) ∧
      ∀ (R : Matrix α) (rest : List Char), Matrix.deserialize C (R, ofText (t ++ rest)) = (.ok true, (M', ofText rest)) := by
  obtain ⟨g, hg⟩ := hC.readsOn f
  have hgf : ∀ x < X, ∀ y < Y, ∀ z < Z, C.Reads (f x y z) (g x y z) := fun x hx y hy z hz => (hg x y z (hf x hx y hy z hz)).1
  obtain ⟨M', -, s⟩ := Matrix.deserialize_text C hM.good hgf Matrix.empty []
  refine ⟨_, hM.serialize C, M', g, s, ?_, fun i hi j hj k hk => (hg i j k (hf i hi j hj k hk)).2, ?_⟩
  · rw [s.serialize C]
    unfold matrixText sliceText rowText
    have : ∀ x ∈ List.range X, ∀ y ∈ List.range Y, ∀ z ∈ List.range Z, cellText C (g x y z) = cellText C (f x y z) := by
      intro x hx y hy z hz
      have h1 := (hg x y z (hf x (List.mem_range.1 hx) y (List.mem_range.1 hy) z (List.mem_range.1 hz))).2
      have h2 := h1.2
      unfold Codec.Finite at h2
      obtain ⟨fx, hfx⟩ := Option.ne_none_iff_exists'.1 h2
      unfold cellText Codec.text
      rw [h1.1, hfx]
    congr 3
    refine List.flatMap_congr fun z hz => ?_
    congr 1
    refine List.flatMap_congr fun x hx => ?_
    congr 1
    exact List.flatMap_congr fun y hy => this x hx y hy z hz
  · intro R rest
    obtain ⟨M'', e, s'⟩ := Matrix.deserialize_text C hM.good hgf R rest
    have : M'' = M' := s'.unique s
    rw [← this]; exact e

/-- An infinite entry or NaN is saved as a word that cannot be read back: `deserialize` reports failure. -/
theorem C42_nonfinite (C : Codec α) (hC : C.Lawful) {X Y Z : Nat} (M : Matrix α) (f : Nat → Nat → Nat → α) (hM : M.Shows X Y Z f)
    (hf : ∃ i < X, ∃ j < Y, ∃ k < Z, ¬ C.Finite (f i j k)) :
    ∃ t, M.serialize C = .ok t ∧
      ∀ (R : Matrix α) (rest : List Char), (Matrix.deserialize C (R, ofText (t ++ rest))).1 = .ok false := by
  refine ⟨_, hM.serialize C, fun R rest => ?_⟩
  obtain ⟨s', e⟩ := Matrix.deserialize_bad C hC hM.good hf R rest
  unfold ofText
  rw [e]

end

/-- A number that the type of the receiving matrix cannot hold is reported, here the first entry: a matrix written by one type
(`C₁`) and read by another (`C₂`). -/
theorem C42_out_of_range {α β : Type} [Zero α] [Inhabited α] [Inhabited β] (C₁ : Codec β) (C₂ : Codec α) {X Y Z : Nat} (M : Matrix β)
    (f : Nat → Nat → Nat → β) (hM : M.Shows X Y Z f) (φ : Fix) (hφ : C₁.fixed (f 0 0 0) = some φ)
    (hb : (C₂.ofDec ⟨φ.neg, φ.micro, -6⟩).2 = true) :
    ∃ t, M.serialize C₁ = .ok t ∧
      ∀ (R : Matrix α) (rest : List Char), (Matrix.deserialize C₂ (R, ofText (t ++ rest))).1 = .ok false := by
  refine ⟨_, hM.serialize C₁, fun R rest => ?_⟩
  have gd := hM.good
  obtain ⟨R', h0, hR', hs⟩ := Matrix.resize_shows R gd (0 : α)
  have hz := gd.z
  have hx := gd.x
  have hy := gd.y
  obtain ⟨X, rfl⟩ : ∃ n, X = n + 1 := ⟨X - 1, by omega⟩
  obtain ⟨Y, rfl⟩ : ∃ n, Y = n + 1 := ⟨Y - 1, by omega⟩
  obtain ⟨Z, rfl⟩ : ∃ n, Z = n + 1 := ⟨Z - 1, by omega⟩
  obtain ⟨R'', hR, e⟩ := deserialize_head C₂ (.inl gd) R
    ((List.range (Z + 1)).flatMap (fun z => sliceText C₁ (X + 1) (Y + 1) (fun x y => f x y z)) ++ rest)
  obtain rfl : R'' = R' := by rw [hR] at hR'; exact Res.ok.inj hR'
  have et : matrixText C₁ (X + 1) (Y + 1) (Z + 1) f ++ rest = headText (X + 1) (Y + 1) (Z + 1) ++ '\n' ::
      ((List.range (Z + 1)).flatMap (fun z => sliceText C₁ (X + 1) (Y + 1) (fun x y => f x y z)) ++ rest) := by simp [matrixText]
  obtain ⟨r, er⟩ : ∃ r, '\n' :: ((List.range (Z + 1)).flatMap (fun z => sliceText C₁ (X + 1) (Y + 1) (fun x y => f x y z)) ++ rest) =
      ('\n' :: List.replicate (16 - φ.text.length) ' ') ++ φ.text ++ ' ' :: r := by
    have first : ∀ (n : Nat) (g : Nat → List Char), ∃ r, (List.range (n + 1)).flatMap g = g 0 ++ r := by
      intro n g
      rw [List.range_succ_eq_map, List.flatMap_cons]
      exact ⟨_, rfl⟩
    obtain ⟨r1, e1⟩ := first Z (fun z => sliceText C₁ (X + 1) (Y + 1) (fun x y => f x y z))
    obtain ⟨r2, e2⟩ := first X (fun x => rowText C₁ (Y + 1) (fun y => f x y 0))
    obtain ⟨r3, e3⟩ := first Y (fun y => cellText C₁ (f 0 y 0))
    refine ⟨r3 ++ ['\n'] ++ (r2 ++ ['\n']) ++ r1 ++ rest, ?_⟩
    rw [e1]
    unfold sliceText
    rw [e2]
    unfold rowText
    rw [e3]
    unfold cellText setw16 Codec.text
    rw [hφ]
    simp only [List.append_assoc, List.cons_append, List.nil_append]
  have ec : ∃ s', Matrix.readCell C₂ 0 0 0 (R'', ⟨('\n' :: List.replicate (16 - φ.text.length) ' ') ++ φ.text ++ ' ' :: r, false, false⟩) =
      (.ok false, s') := by
    obtain ⟨v, hv⟩ : ∃ v, C₂.ofDec ⟨φ.neg, φ.micro, -6⟩ = (v, true) := ⟨_, Prod.ext rfl hb⟩
    obtain ⟨M', hw, -⟩ := hs.write gd.x gd.y gd.z v
    obtain ⟨c', l, e', hc⟩ := Fix.text_head φ
    have es : ('\n' :: List.replicate (16 - φ.text.length) ' ') ++ φ.text ++ ' ' :: r =
        ('\n' :: List.replicate (16 - φ.text.length) ' ') ++ c' :: (l ++ ' ' :: r) := by rw [e']; simp
    have es' : c' :: (l ++ ' ' :: r) = φ.text ++ ' ' :: r := by rw [e']; rfl
    refine ⟨(M', ⟨' ' :: r, false, true⟩), ?_⟩
    unfold Matrix.readCell extractNum
    simp only
    rw [es, sentryWs_ok (by
      intro c hc
      rcases List.mem_cons.1 hc with rfl | hc
      · decide
      · exact isWs_replicate _ c hc) hc]
    simp only
    rw [es', scanFloat_text φ (by decide) (by decide)]
    simp only [hv, List.isEmpty_cons]
    rw [show (⟨((0 : Nat) : Int), ((0 : Nat) : Int), ((0 : Nat) : Int)⟩ : Dim3) = dimN 0 0 0 from rfl, hw]
    rfl
  obtain ⟨s', ec⟩ := ec
  unfold ofText
  rw [et, e, er, List.range_succ_eq_map]
  have h1 : Exec.allM (fun y => Matrix.readCell C₂ 0 y 0) (List.range (Y + 1)) (R'', ⟨('\n' :: List.replicate (16 - φ.text.length) ' ') ++
      φ.text ++ ' ' :: r, false, false⟩) = (.ok false, s') := by
    rw [List.range_succ_eq_map]; exact allM_false _ _ _ ec
  have h2 : Exec.allM (readRow C₂ (Y + 1) 0) (List.range (X + 1)) (R'', ⟨('\n' :: List.replicate (16 - φ.text.length) ' ') ++
      φ.text ++ ' ' :: r, false, false⟩) = (.ok false, s') := by
    rw [List.range_succ_eq_map]; exact allM_false _ _ _ (bind_false h1)
  rw [allM_false (readSlice C₂ (X + 1) (Y + 1)) 0 _ (bind_false h2)]

/-- The `double` 2^128 is too large for a `float`. -/
example : ∃ φ, (Ieee.codec .binary64).fixed (.fin false 1 128 (by decide) (by decide)) = some φ ∧
    ((Ieee.codec .binary32).ofDec ⟨φ.neg, φ.micro, -6⟩).2 = true := ⟨_, rfl, by decide +kernel⟩

instance {F : Fmt} : Inhabited (Ieee F) := ⟨0⟩

/-- C42 for `SimpleMatrix<double>` and `SimpleMatrix<float>`: the two formats meet the requirements. -/
theorem C42_double : (Ieee.codec .binary64).Lawful := Ieee.lawful _

theorem C42_float : (Ieee.codec .binary32).Lawful := Ieee.lawful _

/-- The number a finite value stands for. -/
def Ieee.value {F : Fmt} : Ieee F → ℚ
  | .fin neg m e _ _ => (if neg then -1 else 1) * ((m : ℚ) * 2 ^ e)
  | _ => 0

/-- Values that agree to six decimals differ by at most one millionth. -/
theorem C42_precision {F : Fmt} (a b : Ieee F) (h : (Ieee.codec F).Same a b) : |a.value - b.value| ≤ 1 / 1000000 := by
  obtain ⟨h1, h2⟩ := h
  unfold Codec.Finite at h2
  obtain ⟨f, hf⟩ := Option.ne_none_iff_exists'.1 h2
  rw [hf] at h1
  cases a with
  | inf => simp [Ieee.codec, Ieee.fixed] at h1
  | nan => simp [Ieee.codec, Ieee.fixed] at h1
  | fin na ma ea hma hea =>
    cases b with
    | inf => simp [Ieee.codec, Ieee.fixed] at hf
    | nan => simp [Ieee.codec, Ieee.fixed] at hf
    | fin nb mb eb hmb heb =>
      obtain ⟨a1, a2, -⟩ := Ieee.fixed_spec hma hea h1
      obtain ⟨b1, b2, -⟩ := Ieee.fixed_spec hmb heb hf
      have en : na = nb := a1.symm.trans b1
      subst en
      unfold Ieee.mag at a2 b2
      have a3 := abs_le.1 a2
      have b3 := abs_le.1 b2
      unfold Ieee.value
      rw [abs_le]
      cases na <;> simp only [Bool.false_eq_true, if_false, if_true] <;> constructor <;> linarith [a3.1, a3.2, b3.1, b3.2]

/-- `1.5`, `-0.25`, and the double next to `0.1`. -/
def exampleDoubles : Matrix (Ieee .binary64) :=
  ⟨dimN 1 3 1, [.fin false 3 (-1) (by decide) (by decide), .fin true 1 (-2) (by decide) (by decide),
    .fin false 7205759403792794 (-56) (by decide) (by decide)]⟩

example : exampleDoubles.serialize (Ieee.codec .binary64) =
    .ok "1 3 1\n        1.500000        -0.250000         0.100000 \n\n".toList := by decide +kernel

example : ∃ f, exampleDoubles.Shows 1 3 1 f ∧ ∀ i < 1, ∀ j < 3, ∀ k < 1, (Ieee.codec .binary64).Finite (f i j k) := by
  refine ⟨fun _ j _ => exampleDoubles.vals.getD j 0, Matrix.Shows.of_vals ⟨by decide, by decide, by decide, by decide⟩ rfl rfl, ?_⟩
  intro i _ j hj k _
  interval_cases j <;> simp [Codec.Finite, exampleDoubles, Ieee.codec, Ieee.fixed]

example : (Ieee.codec .binary64).fixed (.fin false 7205759403792794 (-56) (by decide) (by decide)) = some ⟨false, 100000⟩ := by
  decide +kernel

example : ¬ (Ieee.codec .binary64).Finite (.nan false) := by simp [Codec.Finite, Ieee.codec, Ieee.fixed]

/-! ## C43 -/

section
variable {α : Type} [Zero α]

/-- The round trip of C42 for matrices without entries. -/
def C43_claim (C : Codec α) : Prop := ∀ (X Y Z : Nat), X * Y * Z = 0 → X * Y < 2147483648 → X < 2147483648 → Y < 2147483648 →
  Z < 2147483648 → ∃ t, (⟨dimN X Y Z, []⟩ : Matrix α).serialize C = .ok t ∧ ∀ (R : Matrix α) (rest : List Char),
    Matrix.deserialize C (R, ofText (t ++ rest)) = (.ok true, (⟨dimN X Y Z, []⟩, ofText rest))

/-- What happens: the dimensions are restored, but exactly the last newline of the matrix's text is left in the stream.
Missing: the stream position. -/
theorem C43_empty_partial (C : Codec α) (X Y Z : Nat) (h0 : X * Y * Z = 0) (h1 : X * Y < 2147483648) (h2 : X < 2147483648)
    (h3 : Y < 2147483648) (h4 : Z < 2147483648) :
    ∃ t, (⟨dimN X Y Z, []⟩ : Matrix α).serialize C = .ok t ∧ ∀ (R : Matrix α) (rest : List Char),
      Matrix.deserialize C (R, ofText (t ++ rest)) = (.ok true, (⟨dimN X Y Z, []⟩, ofText ('\n' :: rest))) := by
  refine ⟨matrixText C X Y Z (fun _ _ _ => 0), Matrix.serialize_of C _ rfl ?_, fun R rest =>
    Matrix.deserialize_empty C h0 h1 h2 h3 h4 _ R rest⟩
  intro i hi j hj k hk
  have : 0 < X * Y * Z := Nat.mul_pos (Nat.mul_pos (by omega) (by omega)) (by omega)
  omega

/-- So the claim fails, for a default-constructed matrix … -/
theorem C43_violated (C : Codec α) : ¬ C43_claim C := by
  intro h
  obtain ⟨t, e, r⟩ := h 0 0 0 (by decide) (by decide) (by decide) (by decide) (by decide)
  obtain ⟨t', e', r'⟩ := C43_empty_partial C 0 0 0 (by decide) (by decide) (by decide) (by decide) (by decide)
  obtain rfl : t = t' := by rw [e] at e'; exact Res.ok.inj e'
  have := (r Matrix.empty []).symm.trans (r' Matrix.empty [])
  simp [ofText] at this

/-- … and for every matrix without entries, so that a label that follows is not found. -/
theorem C43_next_label_violated (C : Codec α) (X Y Z : Nat) (h0 : X * Y * Z = 0) (h1 : X * Y < 2147483648) (h2 : X < 2147483648)
    (h3 : Y < 2147483648) (h4 : Z < 2147483648) (c : Char) (label rest : List Char) (hc : c ≠ '\n')
    (hl : (c :: label).getLast? ≠ some ' ') (R : Matrix α) :
    ∃ t, (⟨dimN X Y Z, []⟩ : Matrix α).serialize C = .ok t ∧
      (expectVoid (c :: label) (Matrix.deserialize C (R, ofText (t ++ (c :: label ++ rest)))).2.2).1 = .throw .runtime := by
  obtain ⟨t, e, r⟩ := C43_empty_partial C X Y Z h0 h1 h2 h3 h4
  refine ⟨t, e, ?_⟩
  rw [r]
  refine (C41_mismatch_partial (c :: label) _ ?_ hl).1
  intro hp
  rw [List.cons_append, List.cons_prefix_cons] at hp
  exact hc hp.1

end

example : (Matrix.empty : Matrix (Ieee .binary64)).serialize (Ieee.codec .binary64) = .ok "0 0 0\n".toList := by decide +kernel

example : (⟨dimN 2 0 1, []⟩ : Matrix (Ieee .binary64)).serialize (Ieee.codec .binary64) = .ok "2 0 1\n\n\n\n".toList := by
  decide +kernel

end Cnn
