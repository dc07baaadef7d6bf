import Verif.Lemmas.CutMatrix
import Verif.Lemmas.LayerText
/-! Helper lemmas: reading the beginning of the text of a layer (C96). -/
namespace Cnn
open IStream

/-- What `loadModel` reports as failure, or undefined behaviour. -/
def Res.Bad (r : Res Bool) : Prop := r = .ok false ∨ r = .throw .runtime ∨ r = .ub

section
variable {σ β : Type}

/-- Reading the text `t`, of which only a part may be there. -/
def CutAt (q t : List Char) (m : Exec (σ × IStream) β) : Prop :=
  (∀ (x : σ) (p rest : List Char), p ++ q = t ++ rest →
    (∃ p' x' b, p' ++ q = rest ∧ m (x, ⟨p, false, false⟩) = (.ok b, (x', ⟨p', false, false⟩))) ∨
    (∃ s', m (x, ⟨p, false, false⟩) = (.throw .runtime, s')) ∨ (∃ s', m (x, ⟨p, false, false⟩) = (.ub, s')) ∨
    (∃ x' b s', m (x, ⟨p, false, false⟩) = (.ok b, (x', s')) ∧ s'.Dead)) ∧
  ∀ (x : σ) (s : IStream), s.Dead → ∃ s', m (x, s) = (.throw .runtime, s')

theorem CutAt.dead {q t : List Char} {m : Exec (σ × IStream) β} (h : CutAt q t m) (k : β → Exec (σ × IStream) Bool) (x : σ)
    {s : IStream} (hs : s.Dead) : ((m >>= k) (x, s)).1.Bad := by
  obtain ⟨s', e⟩ := h.2 x s hs
  rw [Exec.run_throw e]
  exact .inr (.inl rfl)

/-- Read one part, then go on. -/
theorem CutAt.next {q t rest p : List Char} {m : Exec (σ × IStream) β} (h : CutAt q t m) {k : β → Exec (σ × IStream) Bool}
    (hk : ∀ b x s, s.Dead → (k b (x, s)).1.Bad) (x : σ) (hp : p ++ q = t ++ rest)
    {P : Res Bool × (σ × IStream) → Prop} (hbad : ∀ r, r.1.Bad → P r)
    (hgo : ∀ p' x' b, p' ++ q = rest → P (k b (x', ⟨p', false, false⟩))) : P ((m >>= k) (x, ⟨p, false, false⟩)) := by
  rcases h.1 x p rest hp with ⟨p', x', b, e1, e2⟩ | ⟨s', e⟩ | ⟨s', e⟩ | ⟨x', b, s', e, d⟩
  · rw [Exec.run_ok e2]; exact hgo p' x' b e1
  · rw [Exec.run_throw e]; exact hbad _ (.inr (.inl rfl))
  · refine hbad _ (.inr (.inr ?_))
    show (Exec.bind m k _).1 = _
    simp only [Exec.bind, e]
  · rw [Exec.run_ok e]; exact hbad _ (hk b x' s' d)

/-! ### Labels -/

/-- The label is there, or it is not found. -/
theorem readN_cut {label p q rest : List Char} (h : p ++ q = label ++ rest) (hl : label.getLast? ≠ some ' ') :
    (∃ p', p = label ++ p' ∧ p' ++ q = rest) ∨ label ≠ (readN ⟨p, false, false⟩ label.length).1 := by
  rcases prefix_cases h with h1 | ⟨r, e, hr⟩
  · exact .inl h1
  · right
    have hlen : 0 < r.length := List.length_pos_iff.2 hr
    have : label.length = p.length + r.length := by rw [e]; simp
    unfold readN
    simp only [good, Bool.not_false, Bool.and_true, if_true]
    rw [if_neg (by omega)]
    simp only
    intro e'
    apply hl
    rw [e', List.getLast?_append, List.getLast?_replicate, if_neg (by omega)]
    rfl

theorem readN_dead {label : List Char} (s : IStream) (hs : s.Dead) (hl : ∃ c ∈ label, c ≠ ' ') :
    label ≠ (readN s label.length).1 := by
  unfold IStream.Dead at hs
  unfold readN
  simp only [hs, Bool.false_eq_true, if_false]
  intro e
  obtain ⟨c, hc, hne⟩ := hl
  rw [e] at hc
  exact hne (List.eq_of_mem_replicate hc)

theorem label_facts {label : List Char} (h0 : label ≠ []) (hl : label.getLast? ≠ some ' ') : ∃ c ∈ label, c ≠ ' ' := by
  refine ⟨label.getLast h0, List.getLast_mem h0, fun e => hl ?_⟩
  rw [List.getLast?_eq_some_getLast h0, e]

theorem cut_void {q label : List Char} (h0 : label ≠ []) (hl : label.getLast? ≠ some ' ') (put : Unit → σ → σ) :
    CutAt q (label ++ ['\n']) (Exec.into (expectVoid label) put) := by
  constructor
  · intro x p rest hp
    have hp' : p ++ q = label ++ ('\n' :: rest) := by rw [hp]; simp
    rcases readN_cut hp' hl with ⟨p', rfl, e⟩ | hne
    · have e1 : expectVoid label ⟨label ++ p', false, false⟩ = (.ok (), clearLine ⟨p', false, false⟩) := by
        unfold expectVoid
        rw [readN_append]
        simp
      have e2 : Exec.into (expectVoid label) put (x, ⟨label ++ p', false, false⟩) = (.ok (), (put () x, clearLine ⟨p', false, false⟩)) :=
        Exec.into_ok e1
      rcases clearLine_cut (t := []) (l := rest) (by simp) (by simp) e with ⟨p2, e3, e4, e5⟩ | ⟨d, -⟩
      · exact .inl ⟨p2, _, _, e4, by rw [e2, e5]⟩
      · exact .inr (.inr (.inr ⟨_, _, _, e2, d⟩))
    · right; left
      have e1 : expectVoid label ⟨p, false, false⟩ = (.throw .runtime, (readN ⟨p, false, false⟩ label.length).2) := by
        unfold expectVoid
        simp only [ne_eq, if_pos hne]
      exact ⟨_, Exec.into_throw e1⟩
  · intro x s hs
    have hne := readN_dead s hs (label_facts h0 hl)
    have e1 : expectVoid label s = (.throw .runtime, (readN s label.length).2) := by
      unfold expectVoid
      simp only [ne_eq, if_pos hne]
    exact ⟨_, Exec.into_throw e1⟩

theorem intText_scan_local (n : Int) {u v : List Char} (h : intText n = u ++ v) (r : Char) (hr : r.isDigit = false) :
    (scanInt u).2.2 = [] := by
  rcases scanInt_local u (v ++ [r]) with h0 | h0
  · exact h0
  · have e : u ++ (v ++ [r]) = intText n ++ [r] := by rw [h]; simp
    rw [e, scanInt_text (n := n) (r := [r]) (by rintro c ⟨⟩; exact hr)] at h0
    have := congrArg (fun x => x.2.2.length) h0
    simp only [List.length_append, List.length_cons, List.length_nil] at this
    exact List.length_eq_zero_iff.1 (by omega)

/-- A number with a blank before it, cut off: not there at all, or the end has been reached. -/
theorem extract_cut {n : Int} {p r : List Char} (h : ' ' :: intText n = p ++ r) :
    ((extractInt ⟨p, false, false⟩).1 = none ∨ (extractInt ⟨p, false, false⟩).2.Dead) ∧
    ((extractUnsigned ⟨p, false, false⟩).1 = none ∨ (extractUnsigned ⟨p, false, false⟩).2.Dead) := by
  rcases p with _ | ⟨c, u⟩
  · exact ⟨.inl rfl, .inl rfl⟩
  obtain ⟨rfl, h'⟩ : ' ' = c ∧ intText n = u ++ r := by simpa using h
  rcases u with _ | ⟨c, u⟩
  · exact ⟨.inl rfl, .inl rfl⟩
  have hc : isWs c = false := by
    obtain ⟨c', l, e, hc'⟩ := intText_head n
    rw [e] at h'
    simp only [List.cons_append, List.cons.injEq] at h'
    rw [← h'.1]; exact hc'
  have hs := sentryWs_ok (ws := [' ']) (c := c) (l := u) (by simp [isWs]) hc
  have hsc := intText_scan_local n h' '\n' (by decide)
  rw [List.cons_append, List.nil_append] at hs
  constructor
  · right
    unfold extractInt
    rw [hs]
    simp only [hsc, List.isEmpty_nil]
    repeat' split
    all_goals rfl
  · right
    unfold extractUnsigned
    rw [hs]
    simp only [hsc, List.isEmpty_nil]
    split
    · rfl
    · split <;> rfl

theorem place_split {label rest p q : List Char} {n : Int} (h : p ++ q = placeText label n ++ rest) :
    p ++ q = label ++ ((' ' :: intText n) ++ '\n' :: rest) := by
  rw [h]; simp [placeText]

theorem cut_int {q label : List Char} (h0 : label ≠ []) (hl : label.getLast? ≠ some ' ') {n : Int} (hn : I32 n) (put : Int → σ → σ) :
    CutAt q (placeText label n) (Exec.into (expectInt label) put) := by
  constructor
  · intro x p rest hp
    rcases readN_cut (place_split hp) hl with ⟨p', rfl, e⟩ | hne
    · rcases prefix_cases e with ⟨p2, rfl, e2⟩ | ⟨r, e2, hr⟩
      · -- the number is there
        cases p2 with
        | nil =>
          right; right; right
          have := extractInt_text (ws := [' ']) (r := []) (n := n) hn (by simp [isWs]) (by simp)
          have e1 : expectInt label ⟨label ++ (' ' :: intText n ++ []), false, false⟩ = (.ok n, clearLine ⟨[], true, false⟩) := by
            unfold expectInt
            rw [readN_append]
            simp only [ne_eq, not_true_eq_false, if_false]
            simp only [List.cons_append, List.nil_append, List.isEmpty_nil] at this
            rw [List.cons_append, this]
          exact ⟨_, _, _, Exec.into_ok e1, rfl⟩
        | cons c p2 =>
          obtain ⟨rfl, e3⟩ : c = '\n' ∧ p2 ++ q = rest := by simpa using e2
          left
          have := expectInt_place (label := label) (l := p2) hn
          rw [show placeText label n ++ p2 = label ++ (' ' :: intText n ++ '\n' :: p2) by simp [placeText]] at this
          exact ⟨p2, _, _, e3, Exec.into_ok this⟩
      · have e1 : ∀ o s, extractInt ⟨p', false, false⟩ = (o, s) →
            expectInt label ⟨label ++ p', false, false⟩ = (o.elim .ub .ok, s.clearLine) := by
          intro o s hE
          unfold expectInt
          rw [readN_append]
          simp only [ne_eq, not_true_eq_false, if_false]
          rw [hE]
          cases o <;> rfl
        have hx := (extract_cut e2).1
        cases hE : extractInt ⟨p', false, false⟩ with
        | mk o s =>
          have e1 := e1 o s hE
          rw [hE] at hx
          cases o with
          | none =>
            right; right; left
            refine ⟨(x, s.clearLine), ?_⟩
            simp only [Exec.into, e1, Option.elim]
          | some v =>
            right; right; right
            exact ⟨_, _, _, Exec.into_ok e1, clearLine_dead (hx.resolve_left (by simp))⟩
    · right; left
      have e1 : expectInt label ⟨p, false, false⟩ = (.throw .runtime, (readN ⟨p, false, false⟩ label.length).2) := by
        unfold expectInt
        simp only [ne_eq, if_pos hne]
      exact ⟨_, Exec.into_throw e1⟩
  · intro x s hs
    have hne := readN_dead s hs (label_facts h0 hl)
    have e1 : expectInt label s = (.throw .runtime, (readN s label.length).2) := by
      unfold expectInt
      simp only [ne_eq, if_pos hne]
    exact ⟨_, Exec.into_throw e1⟩

theorem cut_unsigned {q label : List Char} (h0 : label ≠ []) (hl : label.getLast? ≠ some ' ') {n : Nat} (hn : n < 4294967296)
    (put : Nat → σ → σ) : CutAt q (placeText label n) (Exec.into (expectUnsigned label) put) := by
  constructor
  · intro x p rest hp
    rcases readN_cut (place_split hp) hl with ⟨p', rfl, e⟩ | hne
    · rcases prefix_cases e with ⟨p2, rfl, e2⟩ | ⟨r, e2, hr⟩
      · cases p2 with
        | nil =>
          right; right; right
          have := extractUnsigned_text (ws := [' ']) (r := []) (n := n) hn (by simp [isWs]) (by simp)
          have e1 : expectUnsigned label ⟨label ++ (' ' :: intText n ++ []), false, false⟩ = (.ok n, clearLine ⟨[], true, false⟩) := by
            unfold expectUnsigned
            rw [readN_append]
            simp only [ne_eq, not_true_eq_false, if_false]
            simp only [List.cons_append, List.nil_append, List.isEmpty_nil] at this
            rw [List.cons_append, this]
          exact ⟨_, _, _, Exec.into_ok e1, rfl⟩
        | cons c p2 =>
          obtain ⟨rfl, e3⟩ : c = '\n' ∧ p2 ++ q = rest := by simpa using e2
          left
          have := expectUnsigned_place (label := label) (l := p2) hn
          rw [show placeText label n ++ p2 = label ++ (' ' :: intText n ++ '\n' :: p2) by simp [placeText]] at this
          exact ⟨p2, _, _, e3, Exec.into_ok this⟩
      · have e1 : ∀ o s, extractUnsigned ⟨p', false, false⟩ = (o, s) →
            expectUnsigned label ⟨label ++ p', false, false⟩ = (o.elim .ub .ok, s.clearLine) := by
          intro o s hE
          unfold expectUnsigned
          rw [readN_append]
          simp only [ne_eq, not_true_eq_false, if_false]
          rw [hE]
          cases o <;> rfl
        have hx := (extract_cut e2).2
        cases hE : extractUnsigned ⟨p', false, false⟩ with
        | mk o s =>
          have e1 := e1 o s hE
          rw [hE] at hx
          cases o with
          | none =>
            right; right; left
            refine ⟨(x, s.clearLine), ?_⟩
            simp only [Exec.into, e1, Option.elim]
          | some v =>
            right; right; right
            exact ⟨_, _, _, Exec.into_ok e1, clearLine_dead (hx.resolve_left (by simp))⟩
    · right; left
      have e1 : expectUnsigned label ⟨p, false, false⟩ = (.throw .runtime, (readN ⟨p, false, false⟩ label.length).2) := by
        unfold expectUnsigned
        simp only [ne_eq, if_pos hne]
      exact ⟨_, Exec.into_throw e1⟩
  · intro x s hs
    have hne := readN_dead s hs (label_facts h0 hl)
    have e1 : expectUnsigned label s = (.throw .runtime, (readN s label.length).2) := by
      unfold expectUnsigned
      simp only [ne_eq, if_pos hne]
    exact ⟨_, Exec.into_throw e1⟩

end

/-- What reading the beginning of a layer gives: failure, or success once `n` characters are there. -/
def LayerCut {σ : Type} (q rest : List Char) (n len : Nat) (r : Res Bool × (σ × IStream)) : Prop :=
  (∃ p' x', p' ++ q = rest ∧ r = (.ok true, (x', ⟨p', false, false⟩))) ∨ r.1.Bad ∨
  (∃ x' s', r = (.ok true, (x', s')) ∧ s'.Dead ∧ n < len)

section
variable {α : Type} [Zero α] [Inhabited α]

omit [Inhabited α] in
theorem deserialize_dead (C : Codec α) (R : Matrix α) {s : IStream} (hs : s.Dead) :
    ∃ s', Matrix.deserialize C (R, s) = (.ok false, (R, s')) := by
  have d : ∀ {s : IStream}, s.Dead → (IStream.mk s.rest s.eof true).Dead := by
    intro s _; simp [IStream.Dead, good]
  unfold Matrix.deserialize
  simp only [extractInt_dead hs, extractInt_dead (d hs)]
  exact ⟨_, rfl⟩

/-- The two matrices of a layer. -/
theorem cut_weights {σ : Type} (C : Codec α) {X Y Z : Nat} {f g : Nat → Nat → Nat → α} (gd : Good X Y Z)
    (hfg : ∀ x < X, ∀ y < Y, ∀ z < Z, C.Reads (f x y z) (g x y z)) (get : σ → Matrix α) (put : Matrix α → σ → σ)
    {k : Exec (σ × IStream) Bool} (hk : ∀ x s, s.Dead → (k (x, s)).1.Bad) {p q rest : List Char} (x : σ)
    (hp : p ++ q = matrixText C X Y Z f ++ rest) {P : Res Bool × (σ × IStream) → Prop} (hbad : ∀ r, r.1.Bad → P r)
    (hgo : ∀ p' x', p' ++ q = rest → P (k (x', ⟨p', false, false⟩))) :
    P ((Exec.field get put (Matrix.deserialize C) >>= fun b => if b then k else Exec.pure false) (x, ⟨p, false, false⟩)) := by
  rcases matrix_cut C gd hfg hp (get x) with ⟨p', M', e1, e2⟩ | ⟨s', e⟩ | ⟨M', s', e, d, -⟩
  · rw [Exec.run_ok (Exec.field_ok rfl e2)]
    exact hgo p' _ e1
  · rw [Exec.run_ok (Exec.field_ok rfl (e : _ = (Res.ok false, (s'.1, s'.2))))]
    exact hbad _ (.inl rfl)
  · rw [Exec.run_ok (Exec.field_ok rfl e)]
    exact hbad _ (hk _ _ d)

theorem Kernel.cut (C : Codec α) (hC : C.Lawful) {A B D F s : Nat} {K : Kernel α} {w : Nat → Nat → Nat → α} {β : Nat → α}
    (hK : K.Is A B D F s w β) (hw : ∀ a < A, ∀ b < B, ∀ m < D * F, C.Finite (w a b m)) (hβ : ∀ f < F, C.Finite (β f)) :
    ∃ t, K.serialize C = .ok t ∧ ∀ (p q rest : List Char), p ++ q = t ++ rest → ∀ R : Kernel α,
      LayerCut q rest t.length (p.length + (C.text (β (F - 1))).length + 3) (Kernel.deserialize C (R, ⟨p, false, false⟩)) := by
  obtain ⟨w', sw⟩ := hC.readsOn w
  obtain ⟨β', sb⟩ := hC.readsOn (fun f _ _ => β f)
  have bw := hK.weights.good.bounds
  have bb := hK.biases.good.bounds
  have hD : D < 2147483648 := by
    have h1 := hK.biases.good.x
    have h2 : D ≤ D * F := Nat.le_mul_of_pos_right _ h1
    omega
  refine ⟨line "Kernel" ++ (placeText "x".toList A ++ (placeText "y".toList B ++ (placeText "z".toList D ++ (placeText "n".toList F ++
    (line "weights" ++ (matrixText C A B (D * F) w ++ (line "biases" ++ matrixText C F 1 1 (fun f _ _ => β f)))))))), ?_, ?_⟩
  · unfold Kernel.serialize
    rw [hK.weights.serialize C, Res.bind_ok, hK.biases.serialize C, Res.bind_ok, hK.dim, hK.num]
    simp only [List.append_assoc]
  intro p q rest hp R
  simp only [List.append_assoc] at hp
  have hbad : ∀ r : Res Bool × (Kernel α × IStream), r.1.Bad → LayerCut q rest
      (line "Kernel" ++ (placeText "x".toList A ++ (placeText "y".toList B ++ (placeText "z".toList D ++ (placeText "n".toList F ++
        (line "weights" ++ (matrixText C A B (D * F) w ++ (line "biases" ++ matrixText C F 1 1 (fun f _ _ => β f))))))))).length
      (p.length + (C.text (β (F - 1))).length + 3) r := fun r h => .inr (.inl h)
  have hlen := congrArg List.length hp
  simp only [List.length_append] at hlen
  unfold Kernel.deserialize
  have v1 := cut_void (σ := Kernel α) (q := q) (label := "Kernel".toList) (by decide) (by decide) (fun _ K => K)
  have v2 := fun n hn => cut_int (σ := Kernel α) (q := q) (label := "x".toList) (by decide) (by decide) (n := n) hn (fun v K => { K with dim := { K.dim with x := v } })
  have v3 := fun n hn => cut_int (σ := Kernel α) (q := q) (label := "y".toList) (by decide) (by decide) (n := n) hn (fun v K => { K with dim := { K.dim with y := v } })
  have v4 := fun n hn => cut_int (σ := Kernel α) (q := q) (label := "z".toList) (by decide) (by decide) (n := n) hn (fun v K => { K with dim := { K.dim with z := v } })
  have v5 := fun n hn => cut_unsigned (σ := Kernel α) (q := q) (label := "n".toList) (by decide) (by decide) (n := n) hn (fun v K => { K with numFilters := v })
  have v6 := cut_void (σ := Kernel α) (q := q) (label := "weights".toList) (by decide) (by decide) (fun _ K => K)
  have v7 := cut_void (σ := Kernel α) (q := q) (label := "biases".toList) (by decide) (by decide) (fun _ K => K)
  refine v1.next (fun _ x s hs => (v2 A (by unfold I32; omega)).dead _ x hs) R hp hbad fun p1 x1 _ e1 => ?_
  refine (v2 A (by unfold I32; omega)).next (fun _ x s hs => (v3 B (by unfold I32; omega)).dead _ x hs) x1 e1 hbad fun p2 x2 _ e2 => ?_
  refine (v3 B (by unfold I32; omega)).next (fun _ x s hs => (v4 D (by unfold I32; omega)).dead _ x hs) x2 e2 hbad fun p3 x3 _ e3 => ?_
  refine (v4 D (by unfold I32; omega)).next (fun _ x s hs => (v5 F (by omega)).dead _ x hs) x3 e3 hbad fun p4 x4 _ e4 => ?_
  refine (v5 F (by omega)).next (fun _ x s hs => v6.dead _ x hs) x4 e4 hbad fun p5 x5 _ e5 => ?_
  refine v6.next (fun _ x s hs => ?_) x5 e5 hbad fun p6 x6 _ e6 => ?_
  · obtain ⟨s', e⟩ := deserialize_dead C x.weights hs
    rw [Exec.run_ok (Exec.field_ok rfl e)]
    exact .inl rfl
  refine cut_weights C hK.weights.good (fun a ha b hb m hm => (sw a b m (hw a ha b hb m hm)).1) _ _ (fun x s hs => v7.dead _ x hs) x6 e6 hbad
    fun p7 x7 e7 => ?_
  refine v7.next (fun _ x s hs => ?_) x7 e7 hbad fun p8 x8 _ e8 => ?_
  · obtain ⟨s', e⟩ := deserialize_dead C x.biases hs
    rw [Exec.field_ok rfl e]
    exact .inl rfl
  rcases matrix_cut C hK.biases.good (fun a ha b hb m hm => (sb a b m (hβ a ha)).1) e8 x8.biases with
    ⟨p', M', e9, r9⟩ | ⟨s', r9⟩ | ⟨M', s', r9, d, l⟩
  · rw [Exec.field_ok rfl r9]
    exact .inl ⟨p', _, e9, rfl⟩
  · rw [Exec.field_ok rfl (r9 : _ = (Res.ok false, (s'.1, s'.2)))]
    exact .inr (.inl (.inl rfl))
  · rw [Exec.field_ok rfl r9]
    refine .inr (.inr ⟨_, s', rfl, d, ?_⟩)
    have hlen8 := congrArg List.length e8
    simp only [List.length_append] at hlen8 ⊢
    omega

theorem Connected.cut (C : Codec α) (hC : C.Lawful) {n m : Nat} {L : Connected α} {w : Nat → Nat → α} {β : Nat → α}
    (hL : L.Is n m w β) (hw : ∀ i < n, ∀ k < m, C.Finite (w i k)) (hβ : ∀ i < n, C.Finite (β i)) :
    ∃ t, L.serialize C = .ok t ∧ ∀ (p q rest : List Char), p ++ q = t ++ rest → ∀ R : Connected α,
      LayerCut q rest t.length (p.length + (C.text (β (n - 1))).length + 3) (Connected.deserialize C (R, ⟨p, false, false⟩)) := by
  obtain ⟨w', sw⟩ := hC.readsOn (fun i k _ => w i k)
  obtain ⟨β', sb⟩ := hC.readsOn (fun f _ _ => β f)
  have bw := hL.weights.good.bounds
  refine ⟨line "Connected Layer" ++ (placeText "x".toList n ++ (placeText "y".toList m ++
    (line "weights" ++ (matrixText C n m 1 (fun i k _ => w i k) ++ (line "biases" ++ matrixText C n 1 1 (fun f _ _ => β f)))))), ?_, ?_⟩
  · unfold Connected.serialize
    rw [hL.weights.serialize C, Res.bind_ok, hL.biases.serialize C, Res.bind_ok, hL.weights.dim]
    simp only [List.append_assoc]
  intro p q rest hp R
  simp only [List.append_assoc] at hp
  have hbad : ∀ r : Res Bool × (Connected α × IStream), r.1.Bad → LayerCut q rest
      (line "Connected Layer" ++ (placeText "x".toList n ++ (placeText "y".toList m ++
        (line "weights" ++ (matrixText C n m 1 (fun i k _ => w i k) ++ (line "biases" ++ matrixText C n 1 1 (fun f _ _ => β f))))))).length
      (p.length + (C.text (β (n - 1))).length + 3) r := fun r h => .inr (.inl h)
  have hlen := congrArg List.length hp
  simp only [List.length_append] at hlen
  unfold Connected.deserialize
  have v1 := cut_void (σ := Connected α) (q := q) (label := "Connected Layer".toList) (by decide) (by decide) (fun _ L => L)
  have v2 := cut_int (σ := Connected α) (q := q) (label := "x".toList) (by decide) (by decide) (n := (n : Int)) (by unfold I32; omega) (fun _ L => L)
  have v3 := cut_int (σ := Connected α) (q := q) (label := "y".toList) (by decide) (by decide) (n := (m : Int)) (by unfold I32; omega) (fun _ L => L)
  have v6 := cut_void (σ := Connected α) (q := q) (label := "weights".toList) (by decide) (by decide) (fun _ L => L)
  have v7 := cut_void (σ := Connected α) (q := q) (label := "biases".toList) (by decide) (by decide) (fun _ L => L)
  refine v1.next (fun _ x s hs => v2.dead _ x hs) R hp hbad fun p1 x1 _ e1 => ?_
  refine v2.next (fun _ x s hs => v3.dead _ x hs) x1 e1 hbad fun p2 x2 _ e2 => ?_
  refine v3.next (fun _ x s hs => v6.dead _ x hs) x2 e2 hbad fun p5 x5 _ e5 => ?_
  refine v6.next (fun _ x s hs => ?_) x5 e5 hbad fun p6 x6 _ e6 => ?_
  · obtain ⟨s', e⟩ := deserialize_dead C x.weights hs
    rw [Exec.run_ok (Exec.field_ok rfl e)]
    exact .inl rfl
  refine cut_weights C hL.weights.good (fun a ha b hb m hm => (sw a b m (hw a ha b hb)).1) _ _ (fun x s hs => v7.dead _ x hs) x6 e6 hbad
    fun p7 x7 e7 => ?_
  refine v7.next (fun _ x s hs => ?_) x7 e7 hbad fun p8 x8 _ e8 => ?_
  · obtain ⟨s', e⟩ := deserialize_dead C x.biases hs
    rw [Exec.run_ok (Exec.field_ok rfl e)]
    exact .inl rfl
  rcases matrix_cut C hL.biases.good (fun a ha b hb m hm => (sb a b m (hβ a ha)).1) e8 x8.biases with
    ⟨p', M', e9, r9⟩ | ⟨s', r9⟩ | ⟨M', s', r9, d, l⟩
  · rw [Exec.run_ok (Exec.field_ok rfl r9)]
    exact .inl ⟨p', _, e9, rfl⟩
  · rw [Exec.run_ok (Exec.field_ok rfl (r9 : _ = (Res.ok false, (s'.1, s'.2))))]
    exact .inr (.inl (.inl rfl))
  · rw [Exec.run_ok (Exec.field_ok rfl r9)]
    refine .inr (.inr ⟨_, s', rfl, d, ?_⟩)
    have hlen8 := congrArg List.length e8
    simp only [List.length_append] at hlen8 ⊢
    omega

end

/-- The type of a pooling layer. -/
theorem cut_type {q : List Char} (t : PoolType) : CutAt q (line (Pooling.typeName t)) Pooling.readType := by
  constructor
  · intro P p rest hp
    rw [line_append] at hp
    by_cases hlen : p.length ≤ (Pooling.typeName t).toList.length
    · -- no end of line
      have hn := typeName_line t
      have hpt : p <+: (Pooling.typeName t).toList := List.prefix_of_prefix_length_le ⟨q, hp⟩ ⟨_, rfl⟩ hlen
      have hp' : ∀ c ∈ p, (decide (c ≠ '\n')) = true := fun c hc => by simpa using hn c (hpt.subset hc)
      have h1 : p.takeWhile (· ≠ '\n') = p := by
        have := List.takeWhile_append_of_pos (l₂ := []) hp'
        simpa using this
      have h2 : p.dropWhile (· ≠ '\n') = [] := by
        have := List.takeWhile_append_dropWhile (p := fun c : Char => decide (c ≠ '\n')) (l := p)
        rw [h1] at this
        simpa using this
      have eg : getline ⟨p, false, false⟩ = (p, ⟨[], true, p.isEmpty⟩) := by
        unfold getline
        simp only [good, Bool.not_false, Bool.and_true, if_true, h1, h2]
      right
      unfold Pooling.readType
      simp only [eg]
      split
      · exact .inr (.inr ⟨_, _, _, rfl, rfl⟩)
      · split
        · exact .inr (.inr ⟨_, _, _, rfl, rfl⟩)
        · split
          · exact .inr (.inr ⟨_, _, _, rfl, rfl⟩)
          · exact .inl ⟨_, rfl⟩
    · obtain ⟨p', rfl⟩ : (Pooling.typeName t).toList ++ ['\n'] <+: p :=
        List.prefix_of_prefix_length_le (l₃ := (Pooling.typeName t).toList ++ '\n' :: rest) ⟨rest, by simp⟩ ⟨q, hp⟩ (by simp; omega)
      left
      refine ⟨p', { P with type := t }, (), by simpa using hp, ?_⟩
      unfold Pooling.readType
      rw [show (Pooling.typeName t).toList ++ ['\n'] ++ p' = (Pooling.typeName t).toList ++ '\n' :: p' by simp]
      simp only [getline_line (typeName_line t)]
      cases t
      · rw [if_pos (by decide)]
      · rw [if_neg (by decide), if_pos (by decide)]
      · rw [if_neg (by decide), if_neg (by decide), if_pos (by decide)]
  · intro P s hs
    unfold IStream.Dead at hs
    refine ⟨(P, { s with fail := true }), ?_⟩
    unfold Pooling.readType getline
    simp only [hs, Bool.false_eq_true, if_false]
    rw [if_neg (by decide), if_neg (by decide), if_neg (by decide)]

/-- A number that is read has at least one character. -/
theorem int_success {σ : Type} {label p q rest : List Char} (hl : label.getLast? ≠ some ' ') {n : Int} (put : Int → σ → σ)
    (hp : p ++ q = placeText label n ++ rest) (x : σ) {b : Unit} {s' : σ × IStream}
    (h : Exec.into (expectInt label) put (x, ⟨p, false, false⟩) = (.ok b, s')) :
    (placeText label n).length < p.length + (intText n).length + 1 := by
  suffices label.length + 1 < p.length by
    simp only [placeText, List.length_append, List.length_cons, List.length_nil]; omega
  rcases readN_cut (place_split hp) hl with ⟨p', rfl, e⟩ | hne
  · rcases p' with _ | ⟨c, _ | ⟨d, p'⟩⟩
    · exfalso
      have := readN_append label []
      unfold Exec.into expectInt at h
      simp only [this, ne_eq, not_true_eq_false, if_false, extractInt_blank (ws := []) (by simp)] at h
      simp at h
    · exfalso
      obtain ⟨rfl, -⟩ : c = ' ' ∧ _ := by simpa using e
      have := readN_append label [' ']
      unfold Exec.into expectInt at h
      simp only [this, ne_eq, not_true_eq_false, if_false, extractInt_blank (ws := [' ']) (by simp [isWs])] at h
      simp at h
    · simp
  · exfalso
    unfold Exec.into expectInt at h
    simp only [ne_eq, if_pos hne] at h
    simp at h

theorem Pooling.cut (P : Pooling) (hx : I32 P.dim.x) (hy : I32 P.dim.y) (p q rest : List Char) (hp : p ++ q = P.serialize ++ rest)
    (R : Pooling) : LayerCut q rest P.serialize.length (p.length + (intText P.dim.y).length + 1)
      (Pooling.deserialize (R, ⟨p, false, false⟩)) := by
  have hlen := congrArg List.length hp
  unfold Pooling.serialize at hp hlen ⊢
  simp only [List.append_assoc] at hp
  have hbad : ∀ r : Res Bool × (Pooling × IStream), r.1.Bad → LayerCut q rest (line "Pooling" ++ line (typeName P.type) ++
      placeText "x".toList P.dim.x ++ placeText "y".toList P.dim.y ++ line "stride" ++ placeText "x".toList P.dim.x ++
      placeText "y".toList P.dim.y).length (p.length + (intText P.dim.y).length + 1) r := fun r h => .inr (.inl h)
  unfold Pooling.deserialize
  have v1 := cut_void (σ := Pooling) (q := q) (label := "Pooling".toList) (by decide) (by decide) (fun _ P => P)
  have v2 := cut_type (q := q) P.type
  have v3 := cut_int (σ := Pooling) (q := q) (label := "x".toList) (by decide) (by decide) hx (fun v P => { P with dim := { P.dim with x := v } })
  have v4 := cut_int (σ := Pooling) (q := q) (label := "y".toList) (by decide) (by decide) hy (fun v P => { P with dim := { P.dim with y := v } })
  have v5 := cut_void (σ := Pooling) (q := q) (label := "stride".toList) (by decide) (by decide) (fun _ P => P)
  have v6 := cut_int (σ := Pooling) (q := q) (label := "x".toList) (by decide) (by decide) hx (fun v P => { P with stride := { P.stride with x := v } })
  have v7 := cut_int (σ := Pooling) (q := q) (label := "y".toList) (by decide) (by decide) hy (fun v P => { P with stride := { P.stride with y := v } })
  refine v1.next (fun _ x s hs => v2.dead _ x hs) R hp hbad fun p1 x1 _ e1 => ?_
  refine v2.next (fun _ x s hs => v3.dead _ x hs) x1 e1 hbad fun p2 x2 _ e2 => ?_
  refine v3.next (fun _ x s hs => v4.dead _ x hs) x2 e2 hbad fun p3 x3 _ e3 => ?_
  refine v4.next (fun _ x s hs => v5.dead _ x hs) x3 e3 hbad fun p4 x4 _ e4 => ?_
  refine v5.next (fun _ x s hs => v6.dead _ x hs) x4 e4 hbad fun p5 x5 _ e5 => ?_
  refine v6.next (fun _ x s hs => v7.dead _ x hs) x5 e5 hbad fun p6 x6 _ e6 => ?_
  rcases v7.1 x6 p6 rest e6 with ⟨p', x', b, e7, e8⟩ | ⟨s', e⟩ | ⟨s', e⟩ | ⟨x', b, s', e, d⟩
  · rw [Exec.run_ok e8]; exact .inl ⟨p', x', e7, rfl⟩
  · rw [Exec.run_throw e]; exact hbad _ (.inr (.inl rfl))
  · refine hbad _ (.inr (.inr ?_))
    show (Exec.bind _ _ _).1 = _
    simp only [Exec.bind, e]
  · rw [Exec.run_ok e]
    refine .inr (.inr ⟨x', s', rfl, d, ?_⟩)
    have hl := int_success (by decide) _ e6 x6 e
    have hlen6 := congrArg List.length e6
    simp only [List.length_append] at hlen hlen6 ⊢
    omega

end Cnn
