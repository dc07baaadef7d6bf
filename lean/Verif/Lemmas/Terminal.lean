import Verif.Spec.Terminal
import Verif.Model.Console
import Verif.Lemmas.Stream
/-! Helper lemmas: text and control sequences on a terminal. -/
namespace Cnn
namespace Terminal

theorem write_nil (t : Terminal) : t.write [] = t := rfl

theorem write_append (t : Terminal) (a b : List Char) : t.write (a ++ b) = (t.write a).write b := List.foldl_append

theorem write_cons (t : Terminal) (c : Char) (s : List Char) : t.write (c :: s) = (t.receive c).write s := rfl

/-! ### Ordinary text -/

theorem overwrite_inside {l : List Cell} {n : Nat} (h : n ≤ l.length) (c : Cell) :
    overwrite l n c = l.take n ++ c :: l.drop (n + 1) := by
  unfold overwrite
  rw [Nat.sub_eq_zero_of_le h]
  simp

/-- Plain text goes over what was on the line. -/
theorem write_text (s : List Char) (hs : Plain s) : ∀ (t : Terminal), t.mode = .text → t.col ≤ t.line.length →
    t.write s = { t with
      line := t.line.take t.col ++ s.map (fun c => ⟨c, t.bg⟩) ++ t.line.drop (t.col + s.length), col := t.col + s.length } := by
  induction s with
  | nil =>
    intro t _ _
    simp [write_nil]
  | cons c s ih =>
    intro t hm hc
    obtain ⟨h1, h2, h3, h4⟩ := hs c (by simp)
    have e : t.receive c =  { t with line := t.line.take t.col ++ ⟨c, t.bg⟩ :: t.line.drop (t.col + 1), col := t.col + 1 } := by
      have e0 : t.receive c = t.show1 c := by
        unfold receive
        rw [hm]
        simp only [if_neg h4]
      rw [e0]
      unfold show1
      rw [if_neg h1, if_neg h2, if_neg h3, overwrite_inside hc]
    have hlen : t.col + 1 ≤ (t.line.take t.col ++ (⟨c, t.bg⟩ : Cell) :: t.line.drop (t.col + 1)).length := by
      simp
      omega
    rw [write_cons, e, ih (fun d hd => hs d (by simp [hd])) ⟨t.above, t.line.take t.col ++ ⟨c, t.bg⟩ :: t.line.drop (t.col + 1), t.col + 1,
      t.cursor, t.bg, t.mode⟩ hm hlen]
    have el : (t.line.take t.col).length = t.col := by simp [hc]
    congr 1
    · simp only [List.map_cons, List.length_cons]
      have a1 : (t.line.take t.col ++ (⟨c, t.bg⟩ : Cell) :: t.line.drop (t.col + 1)).take (t.col + 1) = t.line.take t.col ++ [⟨c, t.bg⟩] := by
        rw [List.take_append, el]
        rw [List.take_of_length_le (by omega)]
        simp
      have a2 : (t.line.take t.col ++ (⟨c, t.bg⟩ : Cell) :: t.line.drop (t.col + 1)).drop (t.col + 1 + s.length) = t.line.drop (t.col + (s.length + 1)) := by
        rw [List.drop_append, el]
        rw [List.drop_eq_nil_of_le (by omega), List.nil_append]
        have : t.col + 1 + s.length - t.col = s.length + 1 := by omega
        rw [this, List.drop_succ_cons, List.drop_drop]
        congr 1
        omega
      rw [a1, a2]
      simp
    · simp; omega

/-- Plain text at the end of a line. -/
theorem write_end (s : List Char) (hs : Plain s) (t : Terminal) (hm : t.mode = .text) (hc : t.col = t.line.length) :
    t.write s = { t with line := t.line ++ s.map (fun c => ⟨c, t.bg⟩), col := t.col + s.length } := by
  rw [write_text s hs t hm (by omega)]
  congr 1
  rw [hc, List.take_length, List.drop_eq_nil_of_le (by omega), List.append_nil]

theorem write_newline (t : Terminal) (hm : t.mode = .text) (s : List Char) :
    t.write ('\n' :: s) = ({ t with above := t.above ++ [t.line], line := [], col := 0 } : Terminal).write s := by
  rw [write_cons]
  obtain ⟨_, _, _, _, _, _⟩ := t
  subst hm
  rfl

theorem write_return (t : Terminal) (hm : t.mode = .text) (s : List Char) : t.write ('\r' :: s) = ({ t with col := 0 } : Terminal).write s := by
  rw [write_cons]
  obtain ⟨_, _, _, _, _, _⟩ := t
  subst hm
  rfl

/-! ### Control sequences -/

theorem write_params (ps : List Char) (last : Char) (hl : 64 ≤ last.toNat ∧ last.toNat ≤ 126) (s : List Char) :
    ∀ (t : Terminal) (qs : List Char), (∀ c ∈ ps, ¬ (64 ≤ c.toNat ∧ c.toNat ≤ 126)) → t.mode = .control qs →
      t.write (ps ++ last :: s) = (({ t with mode := .text } : Terminal).execute (qs ++ ps) last).write s := by
  induction ps with
  | nil =>
    intro t qs _ hm
    rw [List.nil_append, write_cons, List.append_nil]
    unfold receive
    rw [hm]
    simp only [if_pos hl]
  | cons c ps ih =>
    intro t qs hp hm
    rw [List.cons_append, write_cons]
    have e : t.receive c = { t with mode := .control (qs ++ [c]) } := by
      unfold receive
      rw [hm]
      simp only [if_neg (hp c (by simp))]
    rw [e, ih _ (qs ++ [c]) (fun d hd => hp d (by simp [hd])) rfl]
    simp

/-- A whole control sequence. -/
theorem write_control (t : Terminal) (hm : t.mode = .text) (ps : List Char) (hp : ∀ c ∈ ps, ¬ (64 ≤ c.toNat ∧ c.toNat ≤ 126))
    (last : Char) (hl : 64 ≤ last.toNat ∧ last.toNat ≤ 126) (s : List Char) :
    t.write (Char.ofNat 27 :: '[' :: (ps ++ last :: s)) = (t.execute ps last).write s := by
  rw [write_cons, write_cons]
  have e : (t.receive (Char.ofNat 27)).receive '[' = { t with mode := .control [] } := by
    obtain ⟨_, _, _, _, _, _⟩ := t
    subst hm
    rfl
  rw [e, write_params ps last hl s _ [] hp rfl, List.nil_append]
  congr 2
  rw [← hm]

/-- `ESC[?25l`. -/
theorem write_hide (t : Terminal) (hm : t.mode = .text) (s : List Char) :
    t.write (Console.csi "?25l" ++ s) = ({ t with cursor := false } : Terminal).write s :=
  write_control t hm ['?', '2', '5'] (by decide) 'l' (by decide) s

/-- `ESC[?25h`. -/
theorem write_unhide (t : Terminal) (hm : t.mode = .text) (s : List Char) :
    t.write (Console.csi "?25h" ++ s) = ({ t with cursor := true } : Terminal).write s :=
  write_control t hm ['?', '2', '5'] (by decide) 'h' (by decide) s

/-- `ESC[0m`. -/
theorem write_reset (t : Terminal) (hm : t.mode = .text) (s : List Char) :
    t.write (Console.csi "0m" ++ s) = ({ t with bg := none } : Terminal).write s :=
  write_control t hm ['0'] (by decide) 'm' (by decide) s

theorem fields_single {a : List Char} (h : ∀ c ∈ a, c ≠ ';') : fields a = [a] := by
  induction a with
  | nil => rfl
  | cons c a ih => simp [fields, h c (by simp), ih (fun d hd => h d (by simp [hd]))]

theorem fields_cons {a : List Char} (h : ∀ c ∈ a, c ≠ ';') (s : List Char) : fields (a ++ ';' :: s) = a :: fields s := by
  induction a with
  | nil => simp [fields]
  | cons c a ih => simp [fields, h c (by simp), ih (fun d hd => h d (by simp [hd]))]

theorem number_natText (n : Nat) : number (natText n) = n := IStream.numeral_natText n

theorem digit_small {c : Char} (h : c.isDigit = true) : c ≠ ';' ∧ ¬ (64 ≤ c.toNat ∧ c.toNat ≤ 126) ∧ c ≠ '\n' ∧ c ≠ '\r' ∧ c ≠ '\t' ∧
    c ≠ Char.ofNat 27 := by
  have ne : ∀ d : Char, d.isDigit = false → c ≠ d := by rintro d hd rfl; simp [hd] at h
  refine ⟨ne _ (by decide), ?_, ne _ (by decide), ne _ (by decide), ne _ (by decide), ne _ (by decide)⟩
  simp only [Char.isDigit, Bool.and_eq_true, decide_eq_true_eq] at h
  have h2 : c.val.toNat ≤ 57 := by exact_mod_cast h.2
  show ¬ (64 ≤ c.val.toNat ∧ _)
  omega

theorem natText_no_semi (n : Nat) : ∀ c ∈ natText n, c ≠ ';' := fun c hc => (digit_small (IStream.natText_isDigit n c hc)).1

theorem natText_param (n : Nat) : ∀ c ∈ natText n, ¬ (64 ≤ c.toNat ∧ c.toNat ≤ 126) := fun c hc =>
  (digit_small (IStream.natText_isDigit n c hc)).2.1

theorem natText_plain (n : Nat) : Plain (natText n) := fun c hc => (digit_small (IStream.natText_isDigit n c hc)).2.2

/-- `ESC[48;2;r;g;bm`. -/
theorem write_colour (t : Terminal) (hm : t.mode = .text) (r g b : Nat) (s : List Char) :
    t.write (Console.csi "48;2;" ++ natText r ++ ';' :: natText g ++ ';' :: natText b ++ 'm' :: s) =
      ({ t with bg := some (r, g, b) } : Terminal).write s := by
  obtain ⟨ps, hps⟩ : ∃ ps, ps = ['4', '8', ';', '2', ';'] ++ natText r ++ ';' :: natText g ++ ';' :: natText b := ⟨_, rfl⟩
  have e : Console.csi "48;2;" ++ natText r ++ ';' :: natText g ++ ';' :: natText b ++ 'm' :: s =
      Char.ofNat 27 :: '[' :: (ps ++ 'm' :: s) := by
    rw [hps]
    simp [Console.csi]
  rw [e, write_control t hm ps ?_ 'm' (by decide) s]
  · congr 1
    have en : numbers ps = [48, 2, r, g, b] := by
      unfold numbers
      have e2 : ps = ['4', '8'] ++ ';' :: (['2'] ++ ';' :: (natText r ++ ';' :: (natText g ++ ';' :: natText b))) := by rw [hps]; simp
      rw [e2, fields_cons (by decide), fields_cons (by decide), fields_cons (natText_no_semi r), fields_cons (natText_no_semi g),
        fields_single (natText_no_semi b)]
      simp only [List.map_cons, List.map_nil, number_natText]
      rfl
    unfold execute
    rw [if_pos rfl, en]
    rfl
  · intro c hc
    rw [hps] at hc
    simp only [List.mem_append, List.mem_cons, List.not_mem_nil, or_false] at hc
    have d4 : ∀ d : Char, (d = '4' ∨ d = '8' ∨ d = ';' ∨ d = '2') → ¬ (64 ≤ d.toNat ∧ d.toNat ≤ 126) := by
      rintro d (rfl | rfl | rfl | rfl) <;> decide
    rcases hc with ((h | h) | h | h) | h | h
    · rcases h with h | h | h | h | h <;> exact d4 c (by simp [h])
    · exact natText_param r c h
    · exact d4 c (by simp [h])
    · exact natText_param g c h
    · exact d4 c (by simp [h])
    · exact natText_param b c h

end Terminal
end Cnn
