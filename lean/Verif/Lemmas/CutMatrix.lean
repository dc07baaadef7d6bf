import Verif.Lemmas.Cut
/-! Helper lemmas: reading the beginning of the text of a matrix (C96). -/
namespace Cnn
open IStream

variable {α : Type}

/-- Digits at the end of the text. -/
theorem extractInt_end {ws u : List Char} (hws : ∀ c ∈ ws, isWs c = true) (hu : ∀ c ∈ u, c.isDigit = true) (hne : u ≠ [])
    (hn : numeral u < 2147483648) :
    extractInt ⟨ws ++ u, false, false⟩ = (some (numeral u : Int), ⟨[], true, false⟩) := by
  obtain ⟨c, l, rfl⟩ : ∃ c l, u = c :: l := by
    cases u with
    | nil => exact absurd rfl hne
    | cons c l => exact ⟨c, l, rfl⟩
  have hc := (digit_facts (hu c List.mem_cons_self)).1
  have hsc : scanInt (c :: l) = (false, c :: l, []) := by
    have h1 := scanSign_digits (r := []) hu hne
    obtain ⟨h2, h3⟩ := takeWhile_digits (r := []) hu (by simp)
    rw [List.append_nil] at h1 h2 h3
    unfold scanInt
    rw [h1]
    simp only [h2, h3]
  unfold extractInt
  rw [sentryWs_ok hws hc]
  simp only [hsc, Bool.false_eq_true, if_false, List.isEmpty_cons, List.isEmpty_nil]
  rw [if_neg (by omega), if_neg (by omega)]

theorem extractInt_blank {ws : List Char} (hws : ∀ c ∈ ws, isWs c = true) :
    extractInt ⟨ws, false, false⟩ = (none, ⟨[], true, true⟩) := by
  unfold extractInt sentryWs
  simp only [good, Bool.not_false, Bool.and_true, if_true, dropWhile_ws hws]

theorem intText_nat (n : Nat) : intText (n : Int) = natText n := by
  unfold intText
  rw [if_neg (by omega), Int.natAbs_natCast]

theorem numeral_prefix {u v : List Char} {n : Nat} (h : natText n = u ++ v) : numeral u ≤ n := by
  have := numeral_natText n
  rw [h, numeral_append] at this
  have : numeral u * 1 ≤ numeral u * 10 ^ v.length := Nat.mul_le_mul_left _ (Nat.one_le_pow _ _ (by decide))
  omega

theorem numeral_pos {u v : List Char} {n : Nat} (h : natText n = u ++ v) (hn : 0 < n) (hu : u ≠ []) : 0 < numeral u := by
  obtain ⟨c, l, rfl⟩ : ∃ c l, u = c :: l := by
    cases u with
    | nil => exact absurd rfl hu
    | cons c l => exact ⟨c, l, rfl⟩
  have hd : (Nat.digits 10 n) ≠ [] := Nat.digits_ne_nil_iff_ne_zero.2 (by omega)
  have hc : c = Nat.digitChar ((Nat.digits 10 n).getLast hd) := by
    unfold natText at h
    rw [if_neg (by omega), ← List.dropLast_append_getLast hd] at h
    simp at h
    exact h.1.symm
  have hlt : (Nat.digits 10 n).getLast hd < 10 := Nat.digits_lt_base (by decide) (List.getLast_mem hd)
  have hpos := Nat.getLast_digit_ne_zero 10 (m := n) (by omega)
  have hdig : digit c = (Nat.digits 10 n).getLast hd := by rw [hc]; exact (digitChar_lt hlt).2
  have : numeral ([c] ++ l) = _ := numeral_append [c] l
  rw [List.singleton_append] at this
  rw [this]
  have e : numeral [c] = digit c := by simp [numeral]
  rw [e, hdig]
  have : 0 < (Nat.digits 10 n).getLast hd * 10 ^ l.length := Nat.mul_pos (Nat.pos_of_ne_zero hpos) (Nat.pow_pos (by decide))
  omega

/-- A number that is cut off. -/
theorem extractInt_cut {ws p q : List Char} {n : Nat} (hws : ∀ c ∈ ws, isWs c = true) (hn : n < 2147483648)
    (hp : ws ++ intText n = p ++ q) :
    (∃ u, extractInt ⟨p, false, false⟩ = (some (numeral u : Int), ⟨[], true, false⟩) ∧ numeral u ≤ n ∧ (0 < n → 0 < numeral u)) ∨
    extractInt ⟨p, false, false⟩ = (none, ⟨[], true, true⟩) := by
  rw [intText_nat] at hp
  rcases prefix_cases hp.symm with ⟨u, rfl, e⟩ | ⟨r, e, -⟩
  · cases u with
    | nil => right; rw [List.append_nil]; exact extractInt_blank hws
    | cons c u =>
      left
      have hd : ∀ c' ∈ c :: u, c'.isDigit = true := fun c' hc => natText_isDigit n c' (e ▸ List.mem_append_left _ hc)
      have hle := numeral_prefix e.symm
      refine ⟨c :: u, ?_, hle, fun h0 => numeral_pos e.symm h0 (by simp)⟩
      exact extractInt_end hws hd (by simp) (by omega)
  · right
    exact extractInt_blank fun c hc => hws c (by rw [e]; simp [hc])

section
variable [Zero α] [Inhabited α] (C : Codec α) {X Y Z : Nat} {f g : Nat → Nat → Nat → α}

/-- The first line is cut off. -/
theorem head_cut (gd : Good X Y Z) {p q : List Char} (hp : headText X Y Z = p ++ q) (R : Matrix α) :
    ∃ s', Matrix.deserialize C (R, ⟨p, false, false⟩) = (.ok false, s') := by
  obtain ⟨b1, b2, b3, b4⟩ := gd.bounds
  have dead : ∀ {s : IStream}, s.eof = true → s.extractInt = (none, { s with fail := true }) := by
    intro s h
    exact extractInt_dead (by simp [IStream.Dead, good, h])
  have e0 : intText (X : Int) ++ (' ' :: intText (Y : Int) ++ ' ' :: intText (Z : Int)) = p ++ q := by
    rw [← hp]; simp [headText]
  rcases prefix_cases e0.symm with ⟨p1, rfl, e1⟩ | ⟨r, e1, -⟩
  · -- the first number is there
    cases p1 with
    | nil =>
      rw [List.append_nil]
      have := extractInt_text (ws := []) (r := []) (n := (X : Int)) (by unfold I32; omega) (by simp) (by simp)
      simp only [List.nil_append, List.append_nil, List.isEmpty_nil] at this
      unfold Matrix.deserialize
      simp only [this, dead]
      rw [if_pos trivial]
      exact ⟨_, rfl⟩
    | cons c p1 =>
      obtain ⟨rfl, e1b⟩ : c = ' ' ∧ p1 ++ q = intText (Y : Int) ++ ' ' :: intText (Z : Int) := by simpa using e1
      have hX := extractInt_text (ws := []) (r := ' ' :: p1) (n := (X : Int)) (by unfold I32; omega) (by simp)
        (by rintro c ⟨⟩; decide)
      simp only [List.nil_append, List.isEmpty_cons] at hX
      rcases prefix_cases e1b with ⟨p2, rfl, e2⟩ | ⟨r, e2, -⟩
      · cases p2 with
        | nil =>
          have := extractInt_text (ws := [' ']) (r := []) (n := (Y : Int)) (by unfold I32; omega) (by simp [isWs]) (by simp)
          simp only [List.nil_append, List.cons_append, List.append_nil, List.isEmpty_nil] at this
          unfold Matrix.deserialize
          rw [List.append_nil] at hX ⊢
          simp only [hX, this, dead]
          rw [if_pos trivial]
          exact ⟨_, rfl⟩
        | cons c p2 =>
          obtain ⟨rfl, e2b⟩ : c = ' ' ∧ p2 ++ q = intText (Z : Int) := by simpa using e2
          have hY := extractInt_text (ws := [' ']) (r := ' ' :: p2) (n := (Y : Int)) (by unfold I32; omega) (by simp [isWs])
            (by rintro c ⟨⟩; decide)
          simp only [List.nil_append, List.cons_append, List.isEmpty_cons] at hY
          rcases extractInt_cut (ws := [' ']) (p := ' ' :: p2) (q := q) (n := Z) (by simp [isWs]) b4 (by simp [e2b]) with
            ⟨u, hu, le, pos⟩ | hu
          · have gd' : Good X Y (numeral u) := by
              refine ⟨gd.x, gd.y, pos gd.z, ?_⟩
              calc X * Y * numeral u ≤ X * Y * Z := Nat.mul_le_mul_left _ le
                _ < _ := gd.small
            obtain ⟨R', h0, hR', hs⟩ := Matrix.resize_shows R gd' (0 : α)
            obtain ⟨k, hk⟩ : ∃ k, numeral u = k + 1 := ⟨numeral u - 1, by have := gd'.z; omega⟩
            obtain ⟨s', e⟩ := readSlice_dead C hs gd'.z (s := ⟨[], true, false⟩) rfl
            refine ⟨s', ?_⟩
            unfold Matrix.deserialize
            simp only [hX, hY, hu, Option.getD_some]
            rw [if_neg (by simp)]
            have er : Matrix.resizeX (α := α) ⟨(X : Int), (Y : Int), (numeral u : Int)⟩ (R, ⟨[], true, false⟩) =
                (.ok (), (R', ⟨[], true, false⟩)) := by
              unfold Matrix.resizeX
              simp only
              rw [show (⟨(X : Int), (Y : Int), (numeral u : Int)⟩ : Dim3) = dimN X Y (numeral u) from rfl, hR']
            unfold Exec.bind
            rw [er]
            simp only [Int.toNat_natCast]
            show Exec.allM (readSlice C X Y) (List.range (numeral u)) (R', ⟨[], true, false⟩) = _
            rw [hk, List.range_succ_eq_map]
            exact allM_false _ _ _ e
          · unfold Matrix.deserialize
            simp only [hX, hY, hu]
            rw [if_pos trivial]
            exact ⟨_, rfl⟩
      · rcases extractInt_cut (ws := [' ']) (p := ' ' :: p1) (q := r) (n := Y) (by simp [isWs]) b3 (by simp [e2]) with
          ⟨u, hu, -, -⟩ | hu
        all_goals
          unfold Matrix.deserialize
          simp only [hX, hu, dead]
          rw [if_pos trivial]
          exact ⟨_, rfl⟩
  · rcases extractInt_cut (ws := []) (p := p) (q := r) (n := X) (by simp) b2 (by simp [e1]) with ⟨u, hu, -, -⟩ | hu
    all_goals
      unfold Matrix.deserialize
      simp only [hu, dead]
      rw [if_pos trivial]
      exact ⟨_, rfl⟩

/-- The beginning of the text of a matrix and of what follows it. -/
theorem matrix_cut (gd : Good X Y Z) (hfg : ∀ x < X, ∀ y < Y, ∀ z < Z, C.Reads (f x y z) (g x y z)) {p q rest : List Char}
    (hp : p ++ q = matrixText C X Y Z f ++ rest) (R : Matrix α) :
    (∃ p' M', p' ++ q = rest ∧ Matrix.deserialize C (R, ⟨p, false, false⟩) = (.ok true, (M', ⟨p', false, false⟩))) ∨
    (∃ s', Matrix.deserialize C (R, ⟨p, false, false⟩) = (.ok false, s')) ∨
    (∃ M' s', Matrix.deserialize C (R, ⟨p, false, false⟩) = (.ok true, (M', s')) ∧ s'.Dead ∧
      (matrixText C X Y Z f).length < p.length + (C.text (f (X - 1) (Y - 1) (Z - 1))).length + 3) := by
  have e0 : p ++ q = headText X Y Z ++ '\n' ::
      ((List.range Z).flatMap (fun z => sliceText C X Y (fun x y => f x y z)) ++ rest) := by rw [hp]; simp [matrixText]
  have hz := gd.z
  rcases prefix_cases e0 with ⟨p1, rfl, e1⟩ | ⟨r, e1, -⟩
  · cases p1 with
    | nil =>
      right; left
      rw [List.append_nil]
      exact head_cut C gd (q := []) (by simp) R
    | cons c p1 =>
      obtain ⟨rfl, e1'⟩ : c = '\n' ∧ p1 ++ q = (List.range Z).flatMap (fun z => sliceText C X Y (fun x y => f x y z)) ++ rest := by
        simpa using e1
      obtain ⟨R', hR, e⟩ := deserialize_head C (.inl gd) R p1
      obtain ⟨R'', h0, hR', hs⟩ := Matrix.resize_shows R gd (0 : α)
      obtain rfl : R' = R'' := by rw [hR] at hR'; exact Res.ok.inj hR'
      rw [e]
      rcases slices_cut C hfg (rest := rest) (List.range Z) (by simp) R' h0 ['\n'] ('\n' :: p1) hs (by simp [isWs]) (by rw [e1]; simp) with
        ⟨p2, M2, h2, e2, r2, s2⟩ | ⟨s', r2⟩ | ⟨M2, h2, s', y', r2, d2, s2, g2, l2⟩
      · rw [if_neg (by rw [List.range_eq_nil]; omega), List.nil_append] at e2
        exact .inl ⟨p2, M2, e2, r2⟩
      · exact .inr (.inl ⟨s', r2⟩)
      · refine .inr (.inr ⟨M2, s', r2, d2, ?_⟩)
        rw [List.getLast?_range, if_neg (by omega)] at g2
        obtain rfl := Option.some.inj g2
        simp only [matrixText, List.length_append, List.length_cons, List.length_nil] at l2 ⊢
        omega
  · right; left
    exact head_cut C gd e1 R

end
end Cnn
