import Verif.Model.Stream
import Mathlib.Data.Nat.Digits.Lemmas
import Mathlib.Tactic.IntervalCases
import Mathlib.Tactic.Ring
/-! Helper lemmas: text of numbers and reading it back. -/
namespace Cnn
namespace IStream

/-! ### Digits -/

theorem digitChar_lt {d : Nat} (h : d < 10) : (Nat.digitChar d).isDigit = true ∧ digit (Nat.digitChar d) = d := by
  interval_cases d <;> exact ⟨by decide, by decide⟩

theorem digit_facts {c : Char} (h : c.isDigit = true) : isWs c = false ∧ c ≠ '-' ∧ c ≠ '+' ∧ c ≠ '.' := by
  refine ⟨?_, ?_, ?_, ?_⟩
  · unfold isWs
    have : ∀ d : Char, d.isDigit = false → c ≠ d := by
      intro d hd e; subst e; simp [hd] at h
    simp only [Bool.or_eq_false_iff, decide_eq_false_iff_not]
    exact ⟨⟨⟨⟨⟨this _ (by decide), this _ (by decide)⟩, this _ (by decide)⟩, this _ (by decide)⟩, this _ (by decide)⟩, this _ (by decide)⟩
  all_goals
    rintro rfl
    exact absurd h (by decide)

theorem natText_isDigit (n : Nat) : ∀ c ∈ natText n, c.isDigit = true := by
  intro c hc
  unfold natText at hc
  split at hc
  · simp only [List.mem_singleton] at hc; subst hc; decide
  · simp only [List.mem_map, List.mem_reverse] at hc
    obtain ⟨d, hd, rfl⟩ := hc
    exact (digitChar_lt (Nat.digits_lt_base (by decide) hd)).1

theorem natText_ne_nil (n : Nat) : natText n ≠ [] := by
  unfold natText
  split
  · simp
  · rename_i h
    simp [Nat.digits_eq_nil_iff_eq_zero, h]

theorem numeral_append (a b : List Char) : numeral (a ++ b) = numeral a * 10 ^ b.length + numeral b := by
  unfold numeral
  rw [List.foldl_append]
  generalize List.foldl (fun n c => 10 * n + digit c) 0 a = m
  induction b generalizing m with
  | nil => simp
  | cons c b ih =>
    simp only [List.foldl_cons, List.length_cons, Nat.mul_zero, Nat.zero_add]
    rw [ih, ih (digit c)]
    ring

theorem numeral_natText (n : Nat) : numeral (natText n) = n := by
  unfold natText
  split
  · rename_i h; subst h; decide
  · unfold numeral
    rw [List.foldl_map, List.foldl_reverse]
    have : ∀ l : List Nat, (∀ d ∈ l, d < 10) → List.foldr (fun x y => 10 * y + digit (Nat.digitChar x)) 0 l = Nat.ofDigits 10 l := by
      intro l hl
      induction l with
      | nil => rfl
      | cons d l ih =>
        rw [List.foldr_cons, ih (fun d hd => hl d (List.mem_cons_of_mem _ hd)), (digitChar_lt (hl d List.mem_cons_self)).2,
          Nat.ofDigits_cons]
        exact Nat.add_comm _ _
    rw [this _ (fun d hd => Nat.digits_lt_base (by decide) hd), Nat.ofDigits_digits]

theorem numeral_zeros (k : Nat) (l : List Char) : numeral (List.replicate k '0' ++ l) = numeral l := by
  rw [numeral_append]
  have : numeral (List.replicate k '0') = 0 := by
    induction k with
    | zero => rfl
    | succ k ih =>
      rw [List.replicate_succ', numeral_append, ih]; decide
  rw [this]; simp

theorem natText_length {n k : Nat} (hk : 0 < k) (h : n < 10 ^ k) : (natText n).length ≤ k := by
  unfold natText
  split
  · exact hk
  · simp only [List.length_map, List.length_reverse]
    exact (Nat.digits_length_le_iff (by decide) n).2 h

theorem takeWhile_digits {ds r : List Char} (h : ∀ c ∈ ds, c.isDigit = true) (hr : ∀ c, r.head? = some c → c.isDigit = false) :
    (ds ++ r).takeWhile Char.isDigit = ds ∧ (ds ++ r).dropWhile Char.isDigit = r := by
  induction ds with
  | nil =>
    cases r with
    | nil => exact ⟨rfl, rfl⟩
    | cons c r =>
      have := hr c rfl
      simp [this]
  | cons d ds ih =>
    have hd := h d List.mem_cons_self
    obtain ⟨i1, i2⟩ := ih (fun c hc => h c (List.mem_cons_of_mem _ hc))
    simp [hd, i1, i2]

theorem intText_cases (n : Int) : ∃ ds, (∀ c ∈ ds, c.isDigit = true) ∧ ds ≠ [] ∧ numeral ds = n.natAbs ∧
    intText n = (if n < 0 then ['-'] else []) ++ ds := by
  refine ⟨natText n.natAbs, natText_isDigit _, natText_ne_nil _, numeral_natText _, ?_⟩
  unfold intText
  split <;> simp

theorem scanSign_digits {ds r : List Char} (h : ∀ c ∈ ds, c.isDigit = true) (hne : ds ≠ []) :
    scanSign (ds ++ r) = (false, ds ++ r) := by
  cases ds with
  | nil => exact absurd rfl hne
  | cons d ds =>
    obtain ⟨_, h1, h2, _⟩ := digit_facts (h d List.mem_cons_self)
    simp only [List.cons_append]
    unfold scanSign
    split
    · rename_i e; injection e with e _; exact absurd e h1
    · rename_i e; injection e with e _; exact absurd e h2
    · rfl

theorem scanInt_text {n : Int} {r : List Char} (hr : ∀ c, r.head? = some c → c.isDigit = false) :
    scanInt (intText n ++ r) = (decide (n < 0), natText n.natAbs, r) := by
  obtain ⟨h1, h2⟩ := takeWhile_digits (natText_isDigit n.natAbs) hr
  by_cases h : n < 0
  · have e : intText n = '-' :: natText n.natAbs := if_pos h
    rw [e, decide_eq_true h]
    show (true, (natText n.natAbs ++ r).takeWhile Char.isDigit, (natText n.natAbs ++ r).dropWhile Char.isDigit) = _
    rw [h1, h2]
  · have e : intText n = natText n.natAbs := if_neg h
    unfold scanInt
    rw [e, decide_eq_false h, scanSign_digits (natText_isDigit _) (natText_ne_nil _)]
    simp only [h1, h2]

/-- First character of a number. -/
theorem intText_head (n : Int) : ∃ c l, intText n = c :: l ∧ isWs c = false := by
  obtain ⟨ds, h1, h2, _, e⟩ := intText_cases n
  rw [e]
  split
  · exact ⟨'-', ds, rfl, by decide⟩
  · cases ds with
    | nil => exact absurd rfl h2
    | cons d ds => exact ⟨d, ds, rfl, (digit_facts (h1 d List.mem_cons_self)).1⟩

theorem sentryWs_ok {ws l : List Char} {c : Char} (hws : ∀ c ∈ ws, isWs c = true) (hc : isWs c = false) :
    sentryWs ⟨ws ++ c :: l, false, false⟩ = (true, ⟨c :: l, false, false⟩) := by
  have : (ws ++ c :: l).dropWhile isWs = c :: l := by
    induction ws with
    | nil => simp [hc]
    | cons w ws ih =>
      simp only [List.cons_append, List.dropWhile, hws w List.mem_cons_self]
      exact ih (fun c hc => hws c (List.mem_cons_of_mem _ hc))
  unfold sentryWs
  simp only [good, Bool.not_false, Bool.and_true, if_true, this]

/-- Reading an `int` back. -/
theorem extractInt_text {ws r : List Char} {n : Int} (hn : I32 n) (hws : ∀ c ∈ ws, isWs c = true)
    (hr : ∀ c, r.head? = some c → c.isDigit = false) :
    extractInt ⟨ws ++ intText n ++ r, false, false⟩ = (some n, ⟨r, r.isEmpty, false⟩) := by
  obtain ⟨c, l, e, hc⟩ := intText_head n
  unfold extractInt
  have es : ws ++ intText n ++ r = ws ++ c :: (l ++ r) := by rw [e]; simp
  have es' : c :: (l ++ r) = intText n ++ r := by rw [e]; rfl
  rw [es, sentryWs_ok hws hc]
  simp only
  rw [es', scanInt_text hr]
  have he : (natText n.natAbs).isEmpty = false := by
    rw [List.isEmpty_eq_false_iff]; exact natText_ne_nil _
  simp only [he, numeral_natText, Bool.false_eq_true, if_false, decide_eq_true_eq]
  have hv : (if n < 0 then -(n.natAbs : Int) else (n.natAbs : Int)) = n := by split <;> omega
  unfold I32 at hn
  rw [hv, if_neg (by omega), if_neg (by omega)]

theorem extractUnsigned_text {ws r : List Char} {n : Nat} (hn : n < 4294967296) (hws : ∀ c ∈ ws, isWs c = true)
    (hr : ∀ c, r.head? = some c → c.isDigit = false) :
    extractUnsigned ⟨ws ++ intText n ++ r, false, false⟩ = (some n, ⟨r, r.isEmpty, false⟩) := by
  obtain ⟨c, l, e, hc⟩ := intText_head n
  unfold extractUnsigned
  have es : ws ++ intText n ++ r = ws ++ c :: (l ++ r) := by rw [e]; simp
  have es' : c :: (l ++ r) = intText n ++ r := by rw [e]; rfl
  rw [es, sentryWs_ok hws hc]
  simp only
  rw [es', scanInt_text hr]
  have he : (natText ((n : Int).natAbs)).isEmpty = false := by
    rw [List.isEmpty_eq_false_iff]; exact natText_ne_nil _
  simp only [he, numeral_natText, Bool.false_eq_true, if_false, decide_eq_true_eq]
  rw [if_neg (by omega), if_neg (by omega)]
  rfl

/-! ### Lines -/

theorem clearLine_nl {t l : List Char} (ht : ∀ c ∈ t, c ≠ '\n') (hl : t.length < 2147483647) :
    clearLine ⟨t ++ '\n' :: l, false, false⟩ = ⟨l, false, false⟩ := by
  have : ∀ (n : Nat) (t : List Char), (∀ c ∈ t, c ≠ '\n') → t.length < n → dropLine n (t ++ '\n' :: l) = (l, false) := by
    intro n
    induction n with
    | zero => intro t _ h; simp at h
    | succ n ih =>
      intro t ht h
      cases t with
      | nil => simp [dropLine]
      | cons c t =>
        have hc := ht c List.mem_cons_self
        simp only [List.cons_append, dropLine, if_neg hc]
        exact ih t (fun c hc => ht c (List.mem_cons_of_mem _ hc)) (by simpa using h)
  unfold clearLine
  simp only [good, Bool.not_false, Bool.and_true, if_true, this _ t ht hl]

theorem clearLine_nl' {l : List Char} : clearLine ⟨'\n' :: l, false, false⟩ = ⟨l, false, false⟩ :=
  clearLine_nl (t := []) (by simp) (by simp)

theorem readN_append (a l : List Char) : readN ⟨a ++ l, false, false⟩ a.length = (a, ⟨l, false, false⟩) := by
  unfold readN
  simp [good]

theorem expectVoid_line {label l : List Char} :
    expectVoid label ⟨label ++ '\n' :: l, false, false⟩ = (.ok (), ⟨l, false, false⟩) := by
  unfold expectVoid
  rw [readN_append]
  simp only [ne_eq, not_true_eq_false, if_false, clearLine_nl']

theorem expectInt_place {label l : List Char} {n : Int} (hn : I32 n) :
    expectInt label ⟨placeText label n ++ l, false, false⟩ = (.ok n, ⟨l, false, false⟩) := by
  unfold expectInt placeText
  have e : label ++ ' ' :: intText n ++ ['\n'] ++ l = label ++ ([' '] ++ intText n ++ '\n' :: l) := by simp
  rw [e, readN_append]
  simp only [ne_eq, not_true_eq_false, if_false]
  rw [extractInt_text hn (by simp [isWs]) (by rintro c ⟨⟩; decide)]
  simp only [List.isEmpty_cons]
  rw [clearLine_nl']

theorem expectUnsigned_place {label l : List Char} {n : Nat} (hn : n < 4294967296) :
    expectUnsigned label ⟨placeText label n ++ l, false, false⟩ = (.ok n, ⟨l, false, false⟩) := by
  unfold expectUnsigned placeText
  have e : label ++ ' ' :: intText n ++ ['\n'] ++ l = label ++ ([' '] ++ intText n ++ '\n' :: l) := by simp
  rw [e, readN_append]
  simp only [ne_eq, not_true_eq_false, if_false]
  rw [extractUnsigned_text hn (by simp [isWs]) (by rintro c ⟨⟩; decide)]
  simp only [List.isEmpty_cons]
  rw [clearLine_nl']

theorem getline_line {line l : List Char} (h : ∀ c ∈ line, c ≠ '\n') :
    getline ⟨line ++ '\n' :: l, false, false⟩ = (line, ⟨l, false, false⟩) := by
  have h1 : (line ++ '\n' :: l).takeWhile (· ≠ '\n') = line := by
    rw [List.takeWhile_append_of_pos (by simpa using h)]; simp
  have h2 : (line ++ '\n' :: l).dropWhile (· ≠ '\n') = '\n' :: l := by
    rw [List.dropWhile_append_of_pos (by simpa using h)]; simp
  unfold getline
  simp only [good, Bool.not_false, Bool.and_true, if_true, h1, h2]

theorem readLine_line {line l : List Char} (h : ∀ c ∈ line, c ≠ '\n') :
    readLine ⟨line ++ '\n' :: l, false, false⟩ = (line, ⟨line ++ '\n' :: l, false, false⟩) := by
  unfold readLine
  rw [getline_line h]
  simp [good]

/-! ### Numbers with six decimals -/

theorem Fix.text_head (f : Fix) : ∃ c l, f.text = c :: l ∧ isWs c = false := by
  unfold Fix.text
  split
  · exact ⟨'-', _, rfl, by decide⟩
  · have h := natText_isDigit (f.micro / 1000000)
    have hne := natText_ne_nil (f.micro / 1000000)
    cases e : natText (f.micro / 1000000) with
    | nil => exact absurd e hne
    | cons d ds =>
      rw [e] at h
      exact ⟨d, _, rfl, (digit_facts (h d List.mem_cons_self)).1⟩

theorem scanFloat_text (f : Fix) {c : Char} {r : List Char} (hd : c.isDigit = false) (he : c ≠ 'e' ∧ c ≠ 'E') :
    scanFloat (f.text ++ c :: r) = (some ⟨f.neg, f.micro, -6⟩, c :: r) := by
  obtain ⟨q, hq⟩ : ∃ q, q = f.micro / 1000000 := ⟨_, rfl⟩
  obtain ⟨m, hm⟩ : ∃ m, m = f.micro % 1000000 := ⟨_, rfl⟩
  obtain ⟨fp, hfp⟩ : ∃ fp, fp = List.replicate (6 - (natText m).length) '0' ++ natText m := ⟨_, rfl⟩
  have hlen : (natText m).length ≤ 6 := natText_length (by decide) (by omega)
  have fplen : fp.length = 6 := by rw [hfp]; simp; omega
  have fpd : ∀ c ∈ fp, c.isDigit = true := by
    intro c hc
    rw [hfp, List.mem_append] at hc
    rcases hc with hc | hc
    · rw [List.eq_of_mem_replicate hc]; decide
    · exact natText_isDigit _ c hc
  have hnum : numeral (natText q ++ fp) = f.micro := by
    rw [numeral_append, fplen, numeral_natText, hfp, numeral_zeros, numeral_natText, hq, hm]
    omega
  have hne := natText_ne_nil q
  have t1 := takeWhile_digits (ds := natText q) (r := '.' :: (fp ++ c :: r)) (natText_isDigit q) (by rintro c ⟨⟩; decide)
  have t2 := takeWhile_digits (ds := fp) (r := c :: r) fpd (by rintro c' ⟨⟩; exact hd)
  have hs : scanSign (f.text ++ c :: r) = (f.neg, natText q ++ '.' :: (fp ++ c :: r)) := by
    have e : f.text ++ c :: r = (if f.neg then ['-'] else []) ++ (natText q ++ '.' :: (fp ++ c :: r)) := by
      unfold Fix.text; rw [← hq, ← hm, ← hfp]; simp
    rw [e]
    cases hneg : f.neg with
    | true => rfl
    | false => simpa using scanSign_digits (natText_isDigit q) hne
  have hemp : (natText q ++ fp).isEmpty = false := by simp [List.isEmpty_eq_false_iff, hne]
  unfold scanFloat
  rw [hs]
  simp only [t1.1, t1.2, t2.1, t2.2, hemp, hnum, fplen, Bool.false_eq_true, if_false, Nat.cast_ofNat]
  rw [if_neg (by simp [he.1, he.2])]

/-- Reading an entry back; `c` is what follows. -/
theorem extractNum_text {α : Type} [Zero α] (C : Codec α) {ws r : List Char} (f : Fix) {c : Char} {b : α}
    (hb : C.ofDec ⟨f.neg, f.micro, -6⟩ = (b, false)) (hws : ∀ c ∈ ws, isWs c = true) (hd : c.isDigit = false)
    (he : c ≠ 'e' ∧ c ≠ 'E') :
    extractNum C ⟨ws ++ f.text ++ c :: r, false, false⟩ = (some b, ⟨c :: r, false, false⟩) := by
  obtain ⟨c', l, e, hc⟩ := Fix.text_head f
  unfold extractNum
  have es : ws ++ f.text ++ c :: r = ws ++ c' :: (l ++ c :: r) := by rw [e]; simp
  have es' : c' :: (l ++ c :: r) = f.text ++ c :: r := by rw [e]; rfl
  rw [es, sentryWs_ok hws hc]
  simp only
  rw [es', scanFloat_text f hd he]
  simp only [hb, List.isEmpty_cons]

end IStream
end Cnn
