import Verif.Lemmas.MatrixText
/-! Helper lemmas: reading the beginning of a text (C96). -/
namespace Cnn
open IStream

variable {α : Type}

/-! ### Numbers -/

theorem while_local (P : Char → Bool) (l q : List Char) : l.dropWhile P = [] ∨
    ((l ++ q).takeWhile P = l.takeWhile P ∧ (l ++ q).dropWhile P = l.dropWhile P ++ q) := by
  induction l with
  | nil => exact .inl rfl
  | cons c l ih =>
    cases h : P c with
    | false => right; simp [h]
    | true => simpa [h] using ih

theorem scanSign_local (l q : List Char) : (scanSign l).2 = [] ∨ scanSign (l ++ q) = ((scanSign l).1, (scanSign l).2 ++ q) := by
  cases l with
  | nil => exact .inl rfl
  | cons c l =>
    right
    by_cases h1 : c = '-'
    · subst h1; rfl
    by_cases h2 : c = '+'
    · subst h2; rfl
    have : ∀ r, scanSign (c :: r) = (false, c :: r) := by
      intro r
      unfold scanSign
      split
      · rename_i e; injection e with e _; exact absurd e h1
      · rename_i e; injection e with e _; exact absurd e h2
      · rfl
    rw [List.cons_append, this, this]; rfl

theorem scanInt_local (l q : List Char) : (scanInt l).2.2 = [] ∨
    scanInt (l ++ q) = ((scanInt l).1, (scanInt l).2.1, (scanInt l).2.2 ++ q) := by
  unfold scanInt
  rcases scanSign_local l q with h | h
  · left; simp only [h]; rfl
  · rw [h]
    rcases while_local Char.isDigit (scanSign l).2 q with h' | ⟨h1, h2⟩
    · exact .inl h'
    · right; simp only [h1, h2]

/-- The digits behind the point. -/
def fracPart (l : List Char) : List Char × List Char :=
  match l with
  | '.' :: l => (l.takeWhile Char.isDigit, l.dropWhile Char.isDigit)
  | l => ([], l)

/-- The exponent. -/
def expPart (neg : Bool) (ip fp : List Char) (l : List Char) : Option Dec × List Char :=
  if (ip ++ fp).isEmpty then (none, l)
  else match l with
    | c :: l' =>
      if c = 'e' || c = 'E' then
        let (eneg, ed, r) := scanInt l'
        if ed.isEmpty then (none, r)
        else (some ⟨neg, numeral (ip ++ fp), (if eneg then -(numeral ed : Int) else numeral ed) - fp.length⟩, r)
      else (some ⟨neg, numeral (ip ++ fp), -(fp.length : Int)⟩, l)
    | [] => (some ⟨neg, numeral (ip ++ fp), -(fp.length : Int)⟩, [])

theorem scanFloat_eq (l : List Char) : scanFloat l = expPart (scanSign l).1 ((scanSign l).2.takeWhile Char.isDigit)
    (fracPart ((scanSign l).2.dropWhile Char.isDigit)).1 (fracPart ((scanSign l).2.dropWhile Char.isDigit)).2 := rfl

theorem fracPart_local (l q : List Char) : (fracPart l).2 = [] ∨ fracPart (l ++ q) = ((fracPart l).1, (fracPart l).2 ++ q) := by
  cases l with
  | nil => exact .inl rfl
  | cons c l =>
    by_cases hc : c = '.'
    · subst hc
      rcases while_local Char.isDigit l q with h | ⟨h1, h2⟩
      · exact .inl h
      · right
        show ((l ++ q).takeWhile Char.isDigit, (l ++ q).dropWhile Char.isDigit) = _
        rw [h1, h2]; rfl
    · right
      have e : ∀ r : List Char, fracPart (c :: r) = ([], c :: r) := by
        intro r
        unfold fracPart
        split
        · rename_i e; injection e with e _; exact absurd e hc
        · rfl
      rw [List.cons_append, e, e]; rfl

theorem expPart_nil (neg : Bool) (ip fp : List Char) : (expPart neg ip fp []).2 = [] := by
  unfold expPart
  split <;> rfl

theorem expPart_local (neg : Bool) (ip fp l q : List Char) : (expPart neg ip fp l).2 = [] ∨
    expPart neg ip fp (l ++ q) = ((expPart neg ip fp l).1, (expPart neg ip fp l).2 ++ q) := by
  cases l with
  | nil => exact .inl (expPart_nil _ _ _)
  | cons c l =>
    by_cases h0 : (ip ++ fp).isEmpty = true
    · right; unfold expPart; rw [if_pos h0, if_pos h0]
    by_cases hc : (decide (c = 'e') || decide (c = 'E')) = true
    · rcases scanInt_local l q with h3 | h3
      · left
        unfold expPart
        rw [if_neg h0]
        simp only [if_pos hc]
        split <;> exact h3
      · right
        unfold expPart
        rw [if_neg h0, if_neg h0]
        simp only [List.cons_append, if_pos hc, h3]
        split <;> rfl
    · right
      unfold expPart
      rw [if_neg h0, if_neg h0]
      simp only [List.cons_append, if_neg hc]

/-- What is scanned depends on what follows only if the end is reached. -/
theorem scanFloat_local (l q : List Char) : (scanFloat l).2 = [] ∨ scanFloat (l ++ q) = ((scanFloat l).1, (scanFloat l).2 ++ q) := by
  rw [scanFloat_eq, scanFloat_eq]
  rcases scanSign_local l q with h | h
  · left; rw [h]; exact expPart_nil _ _ _
  rw [h]
  simp only
  rcases while_local Char.isDigit (scanSign l).2 q with h' | ⟨h1, h2⟩
  · left; rw [h']; exact expPart_nil _ _ _
  rw [h1, h2]
  rcases fracPart_local ((scanSign l).2.dropWhile Char.isDigit) q with h3 | h3
  · left; rw [h3]; exact expPart_nil _ _ _
  rw [h3]
  exact expPart_local _ _ _ _ _

/-! ### Streams at the end -/

/-- The stream is not good any more. -/
def IStream.Dead (s : IStream) : Prop := s.good = false

theorem clearLine_dead {s : IStream} (h : s.Dead) : s.clearLine.Dead := by
  unfold IStream.Dead at h
  unfold clearLine
  rw [if_neg (by simp [h])]
  simp [IStream.Dead, good]

theorem extractInt_dead {s : IStream} (h : s.Dead) : s.extractInt = (none, { s with fail := true }) := by
  unfold IStream.Dead at h
  unfold extractInt sentryWs
  rw [if_neg (by simp [h])]

theorem extractNum_dead [Zero α] (C : Codec α) {s : IStream} (h : s.Dead) : s.extractNum C = (none, { s with fail := true }) := by
  unfold IStream.Dead at h
  unfold extractNum sentryWs
  rw [if_neg (by simp [h])]

/-- At the end of the line, if it is there; otherwise the stream is not good any more. -/
theorem clearLine_cut {t p q l : List Char} (ht : ∀ c ∈ t, c ≠ '\n') (hl : t.length < 2147483647) (h : p ++ q = t ++ '\n' :: l) :
    (∃ p', p = t ++ '\n' :: p' ∧ p' ++ q = l ∧ clearLine ⟨p, false, false⟩ = ⟨p', false, false⟩) ∨
    (clearLine ⟨p, false, false⟩).Dead ∧ p.length ≤ t.length := by
  by_cases hp : p.length ≤ t.length
  · right
    refine ⟨?_, hp⟩
    have hpt : p <+: t := by
      refine List.prefix_of_prefix_length_le ⟨q, h⟩ ⟨_, rfl⟩ hp
    have hn : ∀ c ∈ p, c ≠ '\n' := fun c hc => ht c (hpt.subset hc)
    have : ∀ (n : Nat) (p : List Char), (∀ c ∈ p, c ≠ '\n') → p.length < n → dropLine n p = ([], true) := by
      intro n
      induction n with
      | zero => intro p _ h; simp at h
      | succ n ih =>
        intro p hp h
        cases p with
        | nil => rfl
        | cons c p =>
          simp only [dropLine, if_neg (hp c List.mem_cons_self)]
          exact ih p (fun c hc => hp c (List.mem_cons_of_mem _ hc)) (by simpa using h)
    unfold clearLine
    simp only [good, Bool.not_false, Bool.and_true, if_true, this 2147483647 p hn (by omega)]
    rfl
  · left
    obtain ⟨p', rfl⟩ : t ++ ['\n'] <+: p := by
      refine List.prefix_of_prefix_length_le (l₃ := t ++ '\n' :: l) ⟨l, by simp⟩ ⟨q, h⟩ ?_
      simp; omega
    refine ⟨p', by simp, by simpa using h, ?_⟩
    rw [show t ++ ['\n'] ++ p' = t ++ '\n' :: p' by simp]
    exact clearLine_nl ht hl

/-! ### Matrices -/

section
variable [Zero α] (C : Codec α) {X Y Z : Nat} {f g h : Nat → Nat → Nat → α} {M : Matrix α}

theorem readCell_dead (hM : M.Shows X Y Z h) {x y z : Nat} (hx : x < X) (hy : y < Y) (hz : z < Z) {s : IStream} (hs : s.Dead) :
    ∃ s', Matrix.readCell C x y z (M, s) = (.ok false, s') := by
  unfold Matrix.readCell
  simp only [extractNum_dead C hs]
  rw [show (⟨(x : Int), (y : Int), (z : Int)⟩ : Dim3) = dimN x y z from rfl, hM.entry x hx y hy z hz]
  exact ⟨_, rfl⟩

theorem prefix_cases {p q a b : List Char} (h : p ++ q = a ++ b) :
    (∃ p', p = a ++ p' ∧ p' ++ q = b) ∨ (∃ r, a = p ++ r ∧ r ≠ []) := by
  rcases List.append_eq_append_iff.1 h with ⟨r, e1, e2⟩ | ⟨r, e1, e2⟩
  · cases r with
    | nil => left; exact ⟨[], by simpa using e1.symm, by simpa using e2⟩
    | cons c r => right; exact ⟨c :: r, e1, by simp⟩
  · left; exact ⟨r, e1, e2.symm⟩

theorem dropWhile_ws {ws : List Char} (h : ∀ c ∈ ws, isWs c = true) : ws.dropWhile isWs = [] := by
  induction ws with
  | nil => rfl
  | cons c ws ih =>
    rw [List.dropWhile_cons_of_pos (h c List.mem_cons_self)]
    exact ih fun c hc => h c (List.mem_cons_of_mem _ hc)

/-- One entry of a text that is cut off: it is there, or it is missing, or cut off itself. -/
theorem cell_cut {a b : α} (hab : C.Reads a b) (hM : M.Shows X Y Z h) {x y z : Nat} (hx : x < X) (hy : y < Y) (hz : z < Z)
    {ws rest p q : List Char} (hws : ∀ c ∈ ws, isWs c = true) (hp : p ++ q = ws ++ cellText C a ++ rest) :
    (∃ p' M' h', p' ++ q = rest ∧ p = ws ++ cellText C a ++ p' ∧
      Matrix.readCell C x y z (M, ⟨p, false, false⟩) = (.ok true, (M', ⟨' ' :: p', false, false⟩)) ∧ M'.Shows X Y Z h') ∨
    (∃ s', Matrix.readCell C x y z (M, ⟨p, false, false⟩) = (.ok false, s')) ∨
    (∃ M' h' s', Matrix.readCell C x y z (M, ⟨p, false, false⟩) = (.ok true, (M', s')) ∧ s'.Dead ∧ M'.Shows X Y Z h' ∧
      ws.length + (cellText C a).length < p.length + (C.text a).length + 1) := by
  rcases prefix_cases hp with ⟨p', rfl, e⟩ | ⟨r, e, hr⟩
  · obtain ⟨M', e1, s1⟩ := readCell_text C hab hM hx hy hz (rest := p') hws
    exact .inl ⟨p', M', _, e, rfl, e1, s1⟩
  right
  obtain ⟨fx, h1, h2⟩ := hab
  have et : C.text a = fx.text := by unfold Codec.text; rw [h1]
  have e2 : (ws ++ List.replicate (16 - fx.text.length) ' ') ++ (fx.text ++ [' ']) = p ++ r := by
    rw [← e]; unfold cellText setw16; rw [et]; simp
  have hws' : ∀ c ∈ ws ++ List.replicate (16 - fx.text.length) ' ', isWs c = true := by
    intro c hc
    rcases List.mem_append.1 hc with hc | hc
    · exact hws c hc
    · exact isWs_replicate _ c hc
  generalize hw : ws ++ List.replicate (16 - fx.text.length) ' ' = w at e2 hws'
  have hlen : ws.length + (cellText C a).length = w.length + fx.text.length + 1 := by
    rw [← hw]; unfold cellText setw16; rw [et]; simp; omega
  rcases prefix_cases e2.symm with ⟨u, rfl, e3⟩ | ⟨v, e3, -⟩
  · cases u with
    | nil =>
      left
      unfold Matrix.readCell extractNum sentryWs
      simp only [List.append_nil, good, Bool.not_false, Bool.and_true, if_true, dropWhile_ws hws']
      rw [show (⟨(x : Int), (y : Int), (z : Int)⟩ : Dim3) = dimN x y z from rfl, hM.entry x hx y hy z hz]
      exact ⟨_, rfl⟩
    | cons c u =>
      obtain ⟨c', l, e4, hc'⟩ := Fix.text_head fx
      have hc : isWs c = false := by
        rw [e4] at e3
        simp only [List.cons_append, List.cons.injEq] at e3
        rw [e3.1]; exact hc'
      have hr0 : (scanFloat (c :: u)).2 = [] := by
        rcases scanFloat_local (c :: u) r with h0 | h0
        · exact h0
        · rw [e3, scanFloat_text fx (c := ' ') (r := []) (by decide) (by decide)] at h0
          have := congrArg (fun x => x.2.length) h0
          simp only [List.length_append, List.length_cons, List.length_nil] at this
          have : 0 < r.length := List.length_pos_iff.2 hr
          exact List.length_eq_zero_iff.1 (by omega)
      have hl : w.length + fx.text.length + 1 < (w ++ c :: u).length + (C.text a).length + 1 := by
        rw [et]; simp
      rw [← hlen] at hl
      unfold Matrix.readCell extractNum
      simp only [sentryWs_ok hws' hc]
      cases hsc : (scanFloat (c :: u)) with
      | mk o r' =>
        obtain rfl : r' = [] := by rw [hsc] at hr0; exact hr0
        cases o with
        | none =>
          left
          obtain ⟨M', hw, -⟩ := hM.write hx hy hz (0 : α)
          simp only
          rw [show (⟨(x : Int), (y : Int), (z : Int)⟩ : Dim3) = dimN x y z from rfl, hw]
          exact ⟨_, rfl⟩
        | some d =>
          obtain ⟨M', hw, hs⟩ := hM.write hx hy hz (C.ofDec d).1
          simp only
          rw [show (⟨(x : Int), (y : Int), (z : Int)⟩ : Dim3) = dimN x y z from rfl, hw]
          cases hbad : (C.ofDec d).2 with
          | true => left; exact ⟨_, rfl⟩
          | false => right; exact ⟨M', _, _, rfl, rfl, hs, hl⟩
  · left
    unfold Matrix.readCell extractNum sentryWs
    simp only [good, Bool.not_false, Bool.and_true, if_true, dropWhile_ws (ws := p) (fun c hc => hws' c (by rw [e3]; simp [hc]))]
    rw [show (⟨(x : Int), (y : Int), (z : Int)⟩ : Dim3) = dimN x y z from rfl, hM.entry x hx y hy z hz]
    exact ⟨_, rfl⟩

theorem row_cut {x z : Nat} (hx : x < X) (hz : z < Z) (hfg : ∀ y < Y, C.Reads (f x y z) (g x y z)) {rest q : List Char} :
    ∀ (ys : List Nat), (∀ y ∈ ys, y < Y) → ∀ (M : Matrix α) (h) (ws p : List Char), M.Shows X Y Z h → (∀ c ∈ ws, isWs c = true) →
    p ++ q = ws ++ ys.flatMap (fun y => cellText C (f x y z)) ++ rest →
    (∃ p' M' h', p' ++ q = (if ys = [] then ws else [' ']) ++ rest ∧
      Exec.allM (fun (y : Nat) => Matrix.readCell C x y z) ys (M, ⟨p, false, false⟩) = (.ok true, (M', ⟨p', false, false⟩)) ∧
      M'.Shows X Y Z h') ∨
    (∃ s', Exec.allM (fun (y : Nat) => Matrix.readCell C x y z) ys (M, ⟨p, false, false⟩) = (.ok false, s')) ∨
    (∃ M' h' s' y, Exec.allM (fun (y : Nat) => Matrix.readCell C x y z) ys (M, ⟨p, false, false⟩) = (.ok true, (M', s')) ∧
      s'.Dead ∧ M'.Shows X Y Z h' ∧ ys.getLast? = some y ∧
      ws.length + (ys.flatMap (fun y => cellText C (f x y z))).length < p.length + (C.text (f x y z)).length + 1) := by
  intro ys
  induction ys with
  | nil =>
    intro _ M h ws p hM _ hp
    exact .inl ⟨p, M, h, by simpa using hp, rfl, hM⟩
  | cons y ys ih =>
    intro hys M h ws p hM hws hp
    have hy := hys y List.mem_cons_self
    have hp' : p ++ q = ws ++ cellText C (f x y z) ++ (ys.flatMap (fun y => cellText C (f x y z)) ++ rest) := by
      rw [hp]; simp
    rcases cell_cut C (hfg y hy) hM hx hy hz hws hp' with ⟨p1, M1, h1, e1, e1', r1, s1⟩ | ⟨s', r1⟩ | ⟨M1, h1, s', r1, d1, s1, l1⟩
    · rw [allM_cons (fun (y : Nat) => Matrix.readCell C x y z) y ys r1]
      rcases ih (fun y hy => hys y (List.mem_cons_of_mem _ hy)) M1 h1 [' '] (' ' :: p1) s1 (by simp [isWs]) (by simp [e1]) with
        ⟨p2, M2, h2, e2, r2, s2⟩ | ⟨s', r2⟩ | ⟨M2, h2, s', y', r2, d2, s2, g2, l2⟩
      · refine .inl ⟨p2, M2, h2, ?_, r2, s2⟩
        rw [e2]; simp
      · exact .inr (.inl ⟨s', r2⟩)
      · refine .inr (.inr ⟨M2, h2, s', y', r2, d2, s2, ?_, ?_⟩)
        · rw [List.getLast?_cons, g2]; rfl
        · rw [e1']
          simp only [List.flatMap_cons, List.length_append, List.length_cons, List.length_nil] at l2 ⊢
          omega
    · exact .inr (.inl ⟨s', allM_false (fun (y : Nat) => Matrix.readCell C x y z) y ys r1⟩)
    · right
      rw [allM_cons (fun (y : Nat) => Matrix.readCell C x y z) y ys r1]
      cases ys with
      | nil =>
        right
        refine ⟨M1, h1, s', y, rfl, d1, s1, rfl, ?_⟩
        simpa using l1
      | cons y' ys =>
        left
        obtain ⟨s'', r2⟩ := readCell_dead C s1 hx (hys y' (by simp)) hz d1
        exact ⟨s'', allM_false (fun (y : Nat) => Matrix.readCell C x y z) y' ys r2⟩

omit [Zero α] in
theorem text_pos {a b : α} (hab : C.Reads a b) : 0 < (C.text a).length := by
  obtain ⟨fx, h1, -⟩ := hab
  obtain ⟨c, l, e, -⟩ := Fix.text_head fx
  unfold Codec.text
  rw [h1]
  simp only [e]
  simp

theorem readRow_dead (hM : M.Shows X Y Z h) {x z : Nat} (hx : x < X) (hz : z < Z) {s : IStream} (hs : s.Dead) :
    ∃ s', readRow C Y z x (M, s) = (.ok false, s') := by
  have hy := hM.good.y
  obtain ⟨Y', rfl⟩ : ∃ Y', Y = Y' + 1 := ⟨Y - 1, by omega⟩
  obtain ⟨s', e⟩ := readCell_dead C hM hx hy hz hs
  unfold readRow
  rw [List.range_succ_eq_map]
  exact ⟨s', bind_false (allM_false (fun (y : Nat) => Matrix.readCell C x y z) 0 _ e)⟩

theorem readSlice_dead (hM : M.Shows X Y Z h) {z : Nat} (hz : z < Z) {s : IStream} (hs : s.Dead) :
    ∃ s', readSlice C X Y z (M, s) = (.ok false, s') := by
  have hx := hM.good.x
  obtain ⟨X', rfl⟩ : ∃ X', X = X' + 1 := ⟨X - 1, by omega⟩
  obtain ⟨s', e⟩ := readRow_dead C hM hx hz hs
  unfold readSlice
  rw [List.range_succ_eq_map]
  exact ⟨s', bind_false (allM_false (readRow C Y z) 0 _ e)⟩

theorem readRow_cut {x z : Nat} (hx : x < X) (hz : z < Z) (hfg : ∀ y < Y, C.Reads (f x y z) (g x y z)) {rest p q : List Char}
    (M : Matrix α) (h) (ws : List Char) (hM : M.Shows X Y Z h) (hws : ∀ c ∈ ws, isWs c = true)
    (hp : p ++ q = ws ++ rowText C Y (fun y => f x y z) ++ rest) :
    (∃ p' M' h', p' ++ q = rest ∧ readRow C Y z x (M, ⟨p, false, false⟩) = (.ok true, (M', ⟨p', false, false⟩)) ∧
      M'.Shows X Y Z h') ∨
    (∃ s', readRow C Y z x (M, ⟨p, false, false⟩) = (.ok false, s')) ∨
    (∃ M' h' s', readRow C Y z x (M, ⟨p, false, false⟩) = (.ok true, (M', s')) ∧ s'.Dead ∧ M'.Shows X Y Z h' ∧
      ws.length + (rowText C Y (fun y => f x y z)).length < p.length + (C.text (f x (Y - 1) z)).length + 2) := by
  have hy := hM.good.y
  have hp' : p ++ q = ws ++ (List.range Y).flatMap (fun y => cellText C (f x y z)) ++ '\n' :: rest := by
    rw [hp]; simp [rowText]
  have hne : List.range Y ≠ [] := by rw [ne_eq, List.range_eq_nil]; omega
  have ht := text_pos C (hfg (Y - 1) (by omega))
  rcases row_cut C hx hz hfg (List.range Y) (by simp) M h ws p hM hws hp' with
    ⟨p1, M1, h1, e1, r1, s1⟩ | ⟨s', r1⟩ | ⟨M1, h1, s', y, r1, d1, s1, g1, l1⟩
  · rw [if_neg hne] at e1
    have hr : readRow C Y z x (M, ⟨p, false, false⟩) = (.ok true, (M1, clearLine ⟨p1, false, false⟩)) := by
      unfold readRow
      simp only [Exec.bind, r1, if_true]
      rfl
    rcases clearLine_cut (t := [' ']) (l := rest) (by simp) (by simp) e1 with ⟨p2, e2, e3, e4⟩ | ⟨d, l⟩
    · exact .inl ⟨p2, M1, h1, e3, by rw [hr, e4], s1⟩
    · refine .inr (.inr ⟨M1, h1, _, hr, d, s1, ?_⟩)
      have a := congrArg List.length hp'
      have b := congrArg List.length e1
      simp only [List.length_append, List.length_cons, List.length_nil, rowText] at a b ⊢
      omega
  · exact .inr (.inl ⟨s', bind_false r1⟩)
  · refine .inr (.inr ⟨M1, h1, clearLine s', ?_, clearLine_dead d1, s1, ?_⟩)
    · unfold readRow
      simp only [Exec.bind, r1, if_true]
      rfl
    · rw [List.getLast?_range, if_neg (by omega)] at g1
      obtain rfl := Option.some.inj g1
      simp only [rowText, List.length_append, List.length_cons, List.length_nil]
      omega

theorem rows_cut {z : Nat} (hz : z < Z) (hfg : ∀ x < X, ∀ y < Y, C.Reads (f x y z) (g x y z)) {rest q : List Char} :
    ∀ (xs : List Nat), (∀ x ∈ xs, x < X) → ∀ (M : Matrix α) (h) (ws p : List Char), M.Shows X Y Z h → (∀ c ∈ ws, isWs c = true) →
    p ++ q = ws ++ xs.flatMap (fun x => rowText C Y (fun y => f x y z)) ++ rest →
    (∃ p' M' h', p' ++ q = (if xs = [] then ws else []) ++ rest ∧
      Exec.allM (readRow C Y z) xs (M, ⟨p, false, false⟩) = (.ok true, (M', ⟨p', false, false⟩)) ∧ M'.Shows X Y Z h') ∨
    (∃ s', Exec.allM (readRow C Y z) xs (M, ⟨p, false, false⟩) = (.ok false, s')) ∨
    (∃ M' h' s' x, Exec.allM (readRow C Y z) xs (M, ⟨p, false, false⟩) = (.ok true, (M', s')) ∧
      s'.Dead ∧ M'.Shows X Y Z h' ∧ xs.getLast? = some x ∧
      ws.length + (xs.flatMap (fun x => rowText C Y (fun y => f x y z))).length < p.length + (C.text (f x (Y - 1) z)).length + 2) := by
  intro xs
  induction xs with
  | nil =>
    intro _ M h ws p hM _ hp
    exact .inl ⟨p, M, h, by simpa using hp, rfl, hM⟩
  | cons x xs ih =>
    intro hxs M h ws p hM hws hp
    have hx := hxs x List.mem_cons_self
    have hp' : p ++ q = ws ++ rowText C Y (fun y => f x y z) ++ (xs.flatMap (fun x => rowText C Y (fun y => f x y z)) ++ rest) := by
      rw [hp]; simp
    rcases readRow_cut C hx hz (hfg x hx) M h ws hM hws hp' with ⟨p1, M1, h1, e1, r1, s1⟩ | ⟨s', r1⟩ | ⟨M1, h1, s', r1, d1, s1, l1⟩
    · rw [allM_cons _ _ _ r1]
      rcases ih (fun y hy => hxs y (List.mem_cons_of_mem _ hy)) M1 h1 [] p1 s1 (by simp) (by simp [e1]) with
        ⟨p2, M2, h2, e2, r2, s2⟩ | ⟨s', r2⟩ | ⟨M2, h2, s', y', r2, d2, s2, g2, l2⟩
      · refine .inl ⟨p2, M2, h2, ?_, r2, s2⟩
        rw [e2]; simp
      · exact .inr (.inl ⟨s', r2⟩)
      · refine .inr (.inr ⟨M2, h2, s', y', r2, d2, s2, ?_, ?_⟩)
        · rw [List.getLast?_cons, g2]; rfl
        · have a := congrArg List.length hp'
          have b := congrArg List.length e1
          simp only [List.flatMap_cons, List.length_append, List.length_nil] at a b l2 ⊢
          omega
    · exact .inr (.inl ⟨s', allM_false _ _ _ r1⟩)
    · right
      rw [allM_cons _ _ _ r1]
      cases xs with
      | nil =>
        right
        refine ⟨M1, h1, s', x, rfl, d1, s1, rfl, ?_⟩
        simpa using l1
      | cons x' xs =>
        left
        obtain ⟨s'', r2⟩ := readRow_dead C s1 (hxs x' (by simp)) hz d1
        exact ⟨s'', allM_false _ _ _ r2⟩

theorem readSlice_cut {z : Nat} (hz : z < Z) (hfg : ∀ x < X, ∀ y < Y, C.Reads (f x y z) (g x y z)) {rest p q : List Char}
    (M : Matrix α) (h) (ws : List Char) (hM : M.Shows X Y Z h) (hws : ∀ c ∈ ws, isWs c = true)
    (hp : p ++ q = ws ++ sliceText C X Y (fun x y => f x y z) ++ rest) :
    (∃ p' M' h', p' ++ q = rest ∧ readSlice C X Y z (M, ⟨p, false, false⟩) = (.ok true, (M', ⟨p', false, false⟩)) ∧
      M'.Shows X Y Z h') ∨
    (∃ s', readSlice C X Y z (M, ⟨p, false, false⟩) = (.ok false, s')) ∨
    (∃ M' h' s', readSlice C X Y z (M, ⟨p, false, false⟩) = (.ok true, (M', s')) ∧ s'.Dead ∧ M'.Shows X Y Z h' ∧
      ws.length + (sliceText C X Y (fun x y => f x y z)).length < p.length + (C.text (f (X - 1) (Y - 1) z)).length + 3) := by
  have hx := hM.good.x
  have hy := hM.good.y
  have hp' : p ++ q = ws ++ (List.range X).flatMap (fun x => rowText C Y (fun y => f x y z)) ++ '\n' :: rest := by
    rw [hp]; simp [sliceText]
  have hne : List.range X ≠ [] := by rw [ne_eq, List.range_eq_nil]; omega
  have ht := text_pos C (hfg (X - 1) (by omega) (Y - 1) (by omega))
  rcases rows_cut C hz hfg (List.range X) (by simp) M h ws p hM hws hp' with
    ⟨p1, M1, h1, e1, r1, s1⟩ | ⟨s', r1⟩ | ⟨M1, h1, s', y, r1, d1, s1, g1, l1⟩
  · rw [if_neg hne] at e1
    have hr : readSlice C X Y z (M, ⟨p, false, false⟩) = (.ok true, (M1, clearLine ⟨p1, false, false⟩)) := by
      unfold readSlice
      simp only [Exec.bind, r1, if_true]
      rfl
    rcases clearLine_cut (t := []) (l := rest) (by simp) (by simp) e1 with ⟨p2, e2, e3, e4⟩ | ⟨d, l⟩
    · exact .inl ⟨p2, M1, h1, e3, by rw [hr, e4], s1⟩
    · refine .inr (.inr ⟨M1, h1, _, hr, d, s1, ?_⟩)
      have a := congrArg List.length hp'
      have b := congrArg List.length e1
      simp only [List.length_append, List.length_cons, List.length_nil, sliceText] at a b ⊢
      omega
  · exact .inr (.inl ⟨s', bind_false r1⟩)
  · refine .inr (.inr ⟨M1, h1, clearLine s', ?_, clearLine_dead d1, s1, ?_⟩)
    · unfold readSlice
      simp only [Exec.bind, r1, if_true]
      rfl
    · rw [List.getLast?_range, if_neg (by omega)] at g1
      obtain rfl := Option.some.inj g1
      simp only [sliceText, List.length_append, List.length_cons, List.length_nil]
      omega

theorem slices_cut (hfg : ∀ x < X, ∀ y < Y, ∀ z < Z, C.Reads (f x y z) (g x y z)) {rest q : List Char} :
    ∀ (zs : List Nat), (∀ z ∈ zs, z < Z) → ∀ (M : Matrix α) (h) (ws p : List Char), M.Shows X Y Z h → (∀ c ∈ ws, isWs c = true) →
    p ++ q = ws ++ zs.flatMap (fun z => sliceText C X Y (fun x y => f x y z)) ++ rest →
    (∃ p' M' h', p' ++ q = (if zs = [] then ws else []) ++ rest ∧
      Exec.allM (readSlice C X Y) zs (M, ⟨p, false, false⟩) = (.ok true, (M', ⟨p', false, false⟩)) ∧ M'.Shows X Y Z h') ∨
    (∃ s', Exec.allM (readSlice C X Y) zs (M, ⟨p, false, false⟩) = (.ok false, s')) ∨
    (∃ M' h' s' z, Exec.allM (readSlice C X Y) zs (M, ⟨p, false, false⟩) = (.ok true, (M', s')) ∧
      s'.Dead ∧ M'.Shows X Y Z h' ∧ zs.getLast? = some z ∧
      ws.length + (zs.flatMap (fun z => sliceText C X Y (fun x y => f x y z))).length <
        p.length + (C.text (f (X - 1) (Y - 1) z)).length + 3) := by
  intro zs
  induction zs with
  | nil =>
    intro _ M h ws p hM _ hp
    exact .inl ⟨p, M, h, by simpa using hp, rfl, hM⟩
  | cons x xs ih =>
    intro hxs M h ws p hM hws hp
    have hx := hxs x List.mem_cons_self
    have hp' : p ++ q = ws ++ sliceText C X Y (fun x' y => f x' y x) ++
        (xs.flatMap (fun z => sliceText C X Y (fun x y => f x y z)) ++ rest) := by
      rw [hp]; simp
    rcases readSlice_cut C hx (fun i hi j hj => hfg i hi j hj x hx) M h ws hM hws hp' with
      ⟨p1, M1, h1, e1, r1, s1⟩ | ⟨s', r1⟩ | ⟨M1, h1, s', r1, d1, s1, l1⟩
    · rw [allM_cons _ _ _ r1]
      rcases ih (fun y hy => hxs y (List.mem_cons_of_mem _ hy)) M1 h1 [] p1 s1 (by simp) (by simp [e1]) with
        ⟨p2, M2, h2, e2, r2, s2⟩ | ⟨s', r2⟩ | ⟨M2, h2, s', y', r2, d2, s2, g2, l2⟩
      · refine .inl ⟨p2, M2, h2, ?_, r2, s2⟩
        rw [e2]; simp
      · exact .inr (.inl ⟨s', r2⟩)
      · refine .inr (.inr ⟨M2, h2, s', y', r2, d2, s2, ?_, ?_⟩)
        · rw [List.getLast?_cons, g2]; rfl
        · have a := congrArg List.length hp'
          have b := congrArg List.length e1
          simp only [List.flatMap_cons, List.length_append, List.length_nil] at a b l2 ⊢
          omega
    · exact .inr (.inl ⟨s', allM_false _ _ _ r1⟩)
    · right
      rw [allM_cons _ _ _ r1]
      cases xs with
      | nil =>
        right
        refine ⟨M1, h1, s', x, rfl, d1, s1, rfl, ?_⟩
        simpa using l1
      | cons x' xs =>
        left
        obtain ⟨s'', r2⟩ := readSlice_dead C s1 (hxs x' (by simp)) d1
        exact ⟨s'', allM_false _ _ _ r2⟩

end

end Cnn
