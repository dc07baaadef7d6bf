import Verif.Spec.Text
import Verif.Lemmas.Stream
import Verif.Lemmas.Pooling
/-! Helper lemmas: the text of a matrix and reading it back. -/
namespace Cnn
open IStream

variable {α : Type}

theorem foldlM_text {ι : Type} (l : List ι) (F : List Char → ι → Res (List Char)) (t : ι → List Char)
    (h : ∀ i ∈ l, ∀ os, F os i = .ok (os ++ t i)) (os : List Char) : l.foldlM F os = .ok (os ++ l.flatMap t) := by
  induction l generalizing os with
  | nil => simp
  | cons i l ih =>
    rw [List.foldlM_cons, h i List.mem_cons_self, Res.bind_ok, ih (fun i hi => h i (List.mem_cons_of_mem _ hi))]
    simp

/-- One entry. -/
def cellText (C : Codec α) (a : α) : List Char := setw16 (C.text a) ++ [' ']

def rowText (C : Codec α) (Y : Nat) (f : Nat → α) : List Char := (List.range Y).flatMap (fun y => cellText C (f y)) ++ ['\n']

def sliceText (C : Codec α) (X Y : Nat) (f : Nat → Nat → α) : List Char :=
  (List.range X).flatMap (fun x => rowText C Y (f x)) ++ ['\n']

/-- The three dimensions. -/
def headText (X Y Z : Nat) : List Char := intText X ++ ' ' :: intText Y ++ ' ' :: intText Z

/-- The text of a matrix. -/
def matrixText (C : Codec α) (X Y Z : Nat) (f : Nat → Nat → Nat → α) : List Char :=
  headText X Y Z ++ '\n' :: (List.range Z).flatMap (fun z => sliceText C X Y (fun x y => f x y z))

theorem Matrix.serialize_of (C : Codec α) (M : Matrix α) {X Y Z : Nat} {f : Nat → Nat → Nat → α} (hd : M.dim = dimN X Y Z)
    (he : ∀ i < X, ∀ j < Y, ∀ k < Z, M.read (dimN i j k) = .ok (f i j k)) :
    M.serialize C = .ok (matrixText C X Y Z f) := by
  unfold Matrix.serialize
  simp only [hd, Int.toNat_natCast]
  rw [foldlM_text _ _ (fun z => sliceText C X Y (fun x y => f x y z))]
  · simp [matrixText, headText]
  · intro z hz os
    rw [foldlM_text _ _ (fun x => rowText C Y (fun y => f x y z))]
    · simp [sliceText]
    · intro x hx os
      rw [foldlM_text _ _ (fun y => cellText C (f x y z))]
      · simp [rowText]
      · intro y hy os
        unfold Matrix.entryText
        rw [he x (List.mem_range.1 hx) y (List.mem_range.1 hy) z (List.mem_range.1 hz)]
        rfl

theorem Matrix.Shows.serialize (C : Codec α) {M : Matrix α} {X Y Z : Nat} {f : Nat → Nat → Nat → α} (h : M.Shows X Y Z f) :
    M.serialize C = .ok (matrixText C X Y Z f) :=
  Matrix.serialize_of C M h.dim h.entry

theorem isWs_replicate (n : Nat) : ∀ c ∈ List.replicate n ' ', isWs c = true := by
  intro c hc; rw [List.eq_of_mem_replicate hc]; decide

/-- The dimensions are read back. -/
theorem header_read {X Y Z : Nat} (hX : X < 2147483648) (hY : Y < 2147483648) (hZ : Z < 2147483648) (r : List Char)
    (hr : ∀ c, r.head? = some c → c.isDigit = false) (hr' : r ≠ []) :
    ∃ s1 s2, extractInt ⟨headText X Y Z ++ r, false, false⟩ = (some (X : Int), s1) ∧
      extractInt s1 = (some (Y : Int), s2) ∧ extractInt s2 = (some (Z : Int), ⟨r, false, false⟩) := by
  refine ⟨⟨' ' :: intText Y ++ ' ' :: intText Z ++ r, false, false⟩, ⟨' ' :: intText Z ++ r, false, false⟩, ?_, ?_, ?_⟩
  · have := extractInt_text (ws := []) (r := ' ' :: intText Y ++ ' ' :: intText Z ++ r) (n := (X : Int)) (by unfold I32; omega)
      (by simp) (by rintro c ⟨⟩; decide)
    simpa [headText] using this
  · have := extractInt_text (ws := [' ']) (r := ' ' :: intText Z ++ r) (n := (Y : Int)) (by unfold I32; omega)
      (by simp [isWs]) (by rintro c ⟨⟩; decide)
    simpa using this
  · have := extractInt_text (ws := [' ']) (r := r) (n := (Z : Int)) (by unfold I32; omega)
      (by simp [isWs]) hr
    rw [List.isEmpty_eq_false_iff.2 hr'] at this
    simpa using this

section RoundTrip
variable [Zero α] (C : Codec α) {X Y Z : Nat} {f g h : Nat → Nat → Nat → α} {M : Matrix α}

/-- The entry `a` is read back as `b`. -/
def Codec.Reads (C : Codec α) (a b : α) : Prop :=
  ∃ fx, C.fixed a = some fx ∧ C.ofDec ⟨fx.neg, fx.micro, -6⟩ = (b, false)

theorem readCell_text {a b : α} (hab : C.Reads a b) (hM : M.Shows X Y Z h) {x y z : Nat} (hx : x < X) (hy : y < Y) (hz : z < Z)
    {ws rest : List Char} (hws : ∀ c ∈ ws, isWs c = true) :
    ∃ M', Matrix.readCell C x y z (M, ⟨ws ++ cellText C a ++ rest, false, false⟩) =
        (.ok true, (M', ⟨' ' :: rest, false, false⟩)) ∧
      M'.Shows X Y Z (fun i j k => if i = x ∧ j = y ∧ k = z then b else h i j k) := by
  obtain ⟨fx, h1, h2⟩ := hab
  obtain ⟨M', hw, hs⟩ := hM.write hx hy hz b
  refine ⟨M', ?_, hs⟩
  have e : ws ++ cellText C a ++ rest = (ws ++ List.replicate (16 - fx.text.length) ' ') ++ fx.text ++ ' ' :: rest := by
    unfold cellText setw16 Codec.text
    rw [h1]; simp
  unfold Matrix.readCell
  simp only
  rw [e, extractNum_text C fx h2 (by
    intro c hc
    rcases List.mem_append.1 hc with hc | hc
    · exact hws c hc
    · exact isWs_replicate _ c hc) (by decide) (by decide)]
  simp only
  rw [show (⟨(x : Int), (y : Int), (z : Int)⟩ : Dim3) = dimN x y z from rfl, hw]
  rfl

theorem allM_cons {σ ι : Type} (body : ι → Exec σ Bool) (i : ι) (is : List ι) {s s' : σ} (h : body i s = (.ok true, s')) :
    Exec.allM body (i :: is) s = Exec.allM body is s' := by
  simp only [Exec.allM, Exec.bind, h, if_true]

theorem row_text {x z : Nat} (hx : x < X) (hz : z < Z) (hfg : ∀ y < Y, C.Reads (f x y z) (g x y z)) (rest : List Char) :
    ∀ (ys : List Nat), (∀ y ∈ ys, y < Y) → ∀ (M : Matrix α) (h) (ws : List Char), M.Shows X Y Z h → (∀ c ∈ ws, isWs c = true) →
    ∃ M' h', Exec.allM (fun (y : Nat) => Matrix.readCell C x y z) ys
        (M, ⟨ws ++ ys.flatMap (fun y => cellText C (f x y z)) ++ rest, false, false⟩) =
        (.ok true, (M', ⟨(if ys = [] then ws else [' ']) ++ rest, false, false⟩)) ∧
      M'.Shows X Y Z h' ∧
      ∀ i j k, (h i j k = g i j k ∨ (i = x ∧ j ∈ ys ∧ k = z)) → h' i j k = g i j k := by
  intro ys
  induction ys with
  | nil =>
    intro _ M h ws hM _
    refine ⟨M, h, by simp [Exec.allM, Exec.pure], hM, ?_⟩
    rintro i j k (e | ⟨_, e, _⟩)
    · exact e
    · simp at e
  | cons y ys ih =>
    intro hys M h ws hM hws
    have hy := hys y List.mem_cons_self
    obtain ⟨M1, e1, s1⟩ := readCell_text C (hfg y hy) hM hx hy hz
      (rest := ys.flatMap (fun y => cellText C (f x y z)) ++ rest) hws
    obtain ⟨M2, h2, e2, s2, p2⟩ := ih (fun y hy => hys y (List.mem_cons_of_mem _ hy)) M1 _ [' '] s1 (by simp [isWs])
    refine ⟨M2, h2, ?_, s2, ?_⟩
    · have et : ws ++ (y :: ys).flatMap (fun y => cellText C (f x y z)) ++ rest =
          ws ++ cellText C (f x y z) ++ (ys.flatMap (fun y => cellText C (f x y z)) ++ rest) := by simp
      have et' : ([' '] : List Char) ++ ys.flatMap (fun y => cellText C (f x y z)) ++ rest =
          ' ' :: (ys.flatMap (fun y => cellText C (f x y z)) ++ rest) := by simp
      rw [et, allM_cons (fun (y : Nat) => Matrix.readCell C x y z) y ys e1, ← et', e2]
      simp
    · intro i j k hp
      apply p2
      by_cases c : i = x ∧ j = y ∧ k = z
      · obtain ⟨rfl, rfl, rfl⟩ := c
        left; simp
      · rw [if_neg c]
        rcases hp with hp | ⟨p1, p2, p3⟩
        · exact .inl hp
        · refine .inr ⟨p1, ?_, p3⟩
          rcases List.mem_cons.1 p2 with rfl | p2
          · exact absurd ⟨p1, rfl, p3⟩ c
          · exact p2

/-- One row of a slice: the entries and the end of the line. -/
def readRow (C : Codec α) (Y z : Nat) (x : Nat) : Exec (Matrix α × IStream) Bool :=
  Exec.bind (Exec.allM (fun (y : Nat) => Matrix.readCell C x y z) (List.range Y))
    fun b => if b then Matrix.endLine else Exec.pure false

/-- One slice. -/
def readSlice (C : Codec α) (X Y : Nat) (z : Nat) : Exec (Matrix α × IStream) Bool :=
  Exec.bind (Exec.allM (readRow C Y z) (List.range X)) fun b => if b then Matrix.endLine else Exec.pure false

theorem readRow_text {x z : Nat} (hx : x < X) (hz : z < Z) (hfg : ∀ y < Y, C.Reads (f x y z) (g x y z)) (rest : List Char)
    (M : Matrix α) (h) (ws : List Char) (hM : M.Shows X Y Z h) (hws : ∀ c ∈ ws, isWs c = true) :
    ∃ M' h', readRow C Y z x (M, ⟨ws ++ rowText C Y (fun y => f x y z) ++ rest, false, false⟩) =
        (.ok true, (M', ⟨rest, false, false⟩)) ∧
      M'.Shows X Y Z h' ∧
      ∀ i j k, (h i j k = g i j k ∨ (i = x ∧ j < Y ∧ k = z)) → h' i j k = g i j k := by
  obtain ⟨M', h', e, s, p⟩ := row_text C hx hz hfg ('\n' :: rest) (List.range Y) (by simp) M h ws hM hws
  refine ⟨M', h', ?_, s, ?_⟩
  · have et : ws ++ rowText C Y (fun y => f x y z) ++ rest =
        ws ++ (List.range Y).flatMap (fun y => cellText C (f x y z)) ++ '\n' :: rest := by simp [rowText]
    unfold readRow
    rw [et]
    simp only [Exec.bind, e, if_true]
    have hy := hM.good.y
    rw [if_neg (by rw [List.range_eq_nil]; omega)]
    unfold Matrix.endLine
    simp only
    rw [clearLine_nl (t := [' ']) (by simp) (by simp)]
  · intro i j k hp
    apply p
    simpa using hp

theorem readSlice_text {z : Nat} (hz : z < Z) (hfg : ∀ x < X, ∀ y < Y, C.Reads (f x y z) (g x y z)) (rest : List Char)
    (M : Matrix α) (h) (ws : List Char) (hM : M.Shows X Y Z h) (hws : ∀ c ∈ ws, isWs c = true) :
    ∃ M' h', readSlice C X Y z (M, ⟨ws ++ sliceText C X Y (fun x y => f x y z) ++ rest, false, false⟩) =
        (.ok true, (M', ⟨rest, false, false⟩)) ∧
      M'.Shows X Y Z h' ∧
      ∀ i j k, (h i j k = g i j k ∨ (i < X ∧ j < Y ∧ k = z)) → h' i j k = g i j k := by
  have key : ∀ (xs : List Nat), (∀ x ∈ xs, x < X) → ∀ (M : Matrix α) (h) (ws : List Char), M.Shows X Y Z h →
      (∀ c ∈ ws, isWs c = true) →
      ∃ M' h', Exec.allM (readRow C Y z) xs
          (M, ⟨ws ++ xs.flatMap (fun x => rowText C Y (fun y => f x y z)) ++ '\n' :: rest, false, false⟩) =
          (.ok true, (M', ⟨(if xs = [] then ws else []) ++ '\n' :: rest, false, false⟩)) ∧
        M'.Shows X Y Z h' ∧
        ∀ i j k, (h i j k = g i j k ∨ (i ∈ xs ∧ j < Y ∧ k = z)) → h' i j k = g i j k := by
    intro xs
    induction xs with
    | nil =>
      intro _ M h ws hM _
      refine ⟨M, h, by simp [Exec.allM, Exec.pure], hM, ?_⟩
      rintro i j k (e | ⟨e, _⟩)
      · exact e
      · simp at e
    | cons x xs ih =>
      intro hxs M h ws hM hws
      have hx := hxs x List.mem_cons_self
      obtain ⟨M1, h1, e1, s1, p1⟩ := readRow_text C hx hz (hfg x hx)
        (xs.flatMap (fun x => rowText C Y (fun y => f x y z)) ++ '\n' :: rest) M h ws hM hws
      obtain ⟨M2, h2, e2, s2, p2⟩ := ih (fun x hx => hxs x (List.mem_cons_of_mem _ hx)) M1 h1 [] s1 (by simp)
      refine ⟨M2, h2, ?_, s2, ?_⟩
      · have et : ws ++ (x :: xs).flatMap (fun x => rowText C Y (fun y => f x y z)) ++ '\n' :: rest =
            ws ++ rowText C Y (fun y => f x y z) ++
              (xs.flatMap (fun x => rowText C Y (fun y => f x y z)) ++ '\n' :: rest) := by simp
        rw [et, allM_cons _ _ _ e1]
        rw [List.nil_append] at e2
        rw [e2]
        simp
      · intro i j k hp
        apply p2
        rcases hp with hp | ⟨q1, q2, q3⟩
        · exact .inl (p1 i j k (.inl hp))
        · rcases List.mem_cons.1 q1 with rfl | q1
          · exact .inl (p1 i j k (.inr ⟨rfl, q2, q3⟩))
          · exact .inr ⟨q1, q2, q3⟩
  obtain ⟨M', h', e, s, p⟩ := key (List.range X) (by simp) M h ws hM hws
  refine ⟨M', h', ?_, s, ?_⟩
  · have et : ws ++ sliceText C X Y (fun x y => f x y z) ++ rest =
        ws ++ (List.range X).flatMap (fun x => rowText C Y (fun y => f x y z)) ++ '\n' :: rest := by simp [sliceText]
    unfold readSlice
    rw [et]
    simp only [Exec.bind, e, if_true]
    have hx := hM.good.x
    rw [if_neg (by rw [List.range_eq_nil]; omega)]
    unfold Matrix.endLine
    simp only [List.nil_append]
    rw [clearLine_nl']
  · intro i j k hp
    apply p
    simpa using hp

theorem slices_text (hfg : ∀ x < X, ∀ y < Y, ∀ z < Z, C.Reads (f x y z) (g x y z)) (rest : List Char) :
    ∀ (zs : List Nat), (∀ z ∈ zs, z < Z) → ∀ (M : Matrix α) (h) (ws : List Char), M.Shows X Y Z h →
      (∀ c ∈ ws, isWs c = true) →
      ∃ M' h', Exec.allM (readSlice C X Y) zs
          (M, ⟨ws ++ zs.flatMap (fun z => sliceText C X Y (fun x y => f x y z)) ++ rest, false, false⟩) =
          (.ok true, (M', ⟨(if zs = [] then ws else []) ++ rest, false, false⟩)) ∧
        M'.Shows X Y Z h' ∧
        ∀ i j k, (h i j k = g i j k ∨ (i < X ∧ j < Y ∧ k ∈ zs)) → h' i j k = g i j k := by
  intro zs
  induction zs with
  | nil =>
    intro _ M h ws hM _
    refine ⟨M, h, by simp [Exec.allM, Exec.pure], hM, ?_⟩
    rintro i j k (e | ⟨_, _, e⟩)
    · exact e
    · simp at e
  | cons z zs ih =>
    intro hzs M h ws hM hws
    have hz := hzs z List.mem_cons_self
    obtain ⟨M1, h1, e1, s1, p1⟩ := readSlice_text C hz (fun x hx y hy => hfg x hx y hy z hz)
      (zs.flatMap (fun z => sliceText C X Y (fun x y => f x y z)) ++ rest) M h ws hM hws
    obtain ⟨M2, h2, e2, s2, p2⟩ := ih (fun x hx => hzs x (List.mem_cons_of_mem _ hx)) M1 h1 [] s1 (by simp)
    refine ⟨M2, h2, ?_, s2, ?_⟩
    · have et : ws ++ (z :: zs).flatMap (fun z => sliceText C X Y (fun x y => f x y z)) ++ rest =
          ws ++ sliceText C X Y (fun x y => f x y z) ++
            (zs.flatMap (fun z => sliceText C X Y (fun x y => f x y z)) ++ rest) := by simp
      rw [et, allM_cons _ _ _ e1]
      rw [List.nil_append] at e2
      rw [e2]
      simp
    · intro i j k hp
      apply p2
      rcases hp with hp | ⟨q1, q2, q3⟩
      · exact .inl (p1 i j k (.inl hp))
      · rcases List.mem_cons.1 q3 with rfl | q3
        · exact .inl (p1 i j k (.inr ⟨q1, q2, rfl⟩))
        · exact .inr ⟨q1, q2, q3⟩

theorem deserialize_head {X Y Z : Nat} (g : Good X Y Z ∨ X * Y * Z = 0 ∧ X * Y < 2147483648 ∧ X < 2147483648 ∧ Y < 2147483648 ∧
      Z < 2147483648) (R : Matrix α) (r : List Char) :
    ∃ R', R.resize (dimN X Y Z) 0 = .ok R' ∧
      Matrix.deserialize C (R, ⟨headText X Y Z ++ '\n' :: r, false, false⟩) =
        Exec.allM (readSlice C X Y) (List.range Z) (R', ⟨'\n' :: r, false, false⟩) := by
  have b : X * Y < 2147483648 ∧ X < 2147483648 ∧ Y < 2147483648 ∧ Z < 2147483648 ∧ X * Y * Z < 2147483648 := by
    rcases g with g | ⟨h1, h2, h3, h4, h5⟩
    · exact ⟨g.bounds.1, g.bounds.2.1, g.bounds.2.2.1, g.bounds.2.2.2, g.small⟩
    · exact ⟨h2, h3, h4, h5, by omega⟩
  obtain ⟨b1, b2, b3, b4, b5⟩ := b
  refine ⟨⟨dimN X Y Z, Matrix.vecResize R.vals (X * Y * Z) 0⟩, ?_, ?_⟩
  · rw [Matrix.resize, vecSize_dimN b1 b5]; rfl
  · obtain ⟨s1, s2, e1, e2, e3⟩ := header_read b2 b3 b4 ('\n' :: r) (by rintro c ⟨⟩; decide) (by simp)
    unfold Matrix.deserialize
    simp only [e1, e2, e3, Option.getD_some]
    rw [if_neg (by simp)]
    have er : Matrix.resizeX (α := α) (dimN X Y Z) (R, ⟨'\n' :: r, false, false⟩) =
        (.ok (), (⟨dimN X Y Z, Matrix.vecResize R.vals (X * Y * Z) 0⟩, ⟨'\n' :: r, false, false⟩)) := by
      unfold Matrix.resizeX
      simp only [Matrix.resize, vecSize_dimN b1 b5, Res.bind_ok]
    unfold Exec.bind
    rw [er]
    rfl

/-- A matrix read from the text of another. -/
theorem Matrix.deserialize_text [Inhabited α] (gd : Good X Y Z) (hfg : ∀ x < X, ∀ y < Y, ∀ z < Z, C.Reads (f x y z) (g x y z))
    (R : Matrix α) (rest : List Char) :
    ∃ M', Matrix.deserialize C (R, ⟨matrixText C X Y Z f ++ rest, false, false⟩) =
        (.ok true, (M', ⟨rest, false, false⟩)) ∧ M'.Shows X Y Z g := by
  obtain ⟨R', hR, e⟩ := deserialize_head C (.inl gd) R
    ((List.range Z).flatMap (fun z => sliceText C X Y (fun x y => f x y z)) ++ rest)
  obtain ⟨R'', h0, hR', hs⟩ : ∃ R'' h0, R.resize (dimN X Y Z) 0 = .ok R'' ∧ R''.Shows X Y Z h0 := by
    obtain ⟨R'', h0, a, b⟩ := Matrix.resize_shows R gd (0 : α)
    exact ⟨R'', h0, a, b⟩
  obtain rfl : R' = R'' := by rw [hR] at hR'; exact Res.ok.inj hR'
  obtain ⟨M', h', e2, s2, p2⟩ := slices_text C hfg rest (List.range Z) (by simp) R' h0 ['\n'] hs (by simp [isWs])
  refine ⟨M', ?_, s2.congr fun i hi j hj k hk => p2 i j k (.inr ⟨hi, hj, List.mem_range.2 hk⟩)⟩
  have et : matrixText C X Y Z f ++ rest = headText X Y Z ++ '\n' ::
      ((List.range Z).flatMap (fun z => sliceText C X Y (fun x y => f x y z)) ++ rest) := by simp [matrixText]
  rw [et, e]
  rw [show (['\n'] : List Char) ++ (List.range Z).flatMap (fun z => sliceText C X Y (fun x y => f x y z)) ++ rest = '\n' ::
      ((List.range Z).flatMap (fun z => sliceText C X Y (fun x y => f x y z)) ++ rest) by simp] at e2
  rw [e2]
  have hz := gd.z
  rw [if_neg (by rw [List.range_eq_nil]; omega)]
  rfl

end RoundTrip

theorem Codec.Lawful.reads {C : Codec α} (hC : C.Lawful) {a : α} (h : C.Finite a) : ∃ b, C.Reads a b ∧ C.Same b a := by
  unfold Codec.Finite at h
  obtain ⟨f, hf⟩ := Option.ne_none_iff_exists'.1 h
  obtain ⟨b, h1, h2⟩ := hC.reread a f hf
  exact ⟨b, ⟨f, hf, h1⟩, by rw [h2, hf], h⟩

/-! ### Matrices without entries -/

section Empty
variable [Zero α] (C : Codec α)

omit [Zero α] in
theorem allM_behind {ι : Type} (body : ι → Exec (Matrix α × IStream) Bool) (t : ι → List Char) (R : Matrix α) (l : List ι)
    (h : ∀ i ∈ l, ∀ rest, body i (R, ⟨'\n' :: (t i ++ rest), false, false⟩) = (.ok true, (R, ⟨'\n' :: rest, false, false⟩)))
    (rest : List Char) :
    Exec.allM body l (R, ⟨'\n' :: (l.flatMap t ++ rest), false, false⟩) = (.ok true, (R, ⟨'\n' :: rest, false, false⟩)) := by
  induction l with
  | nil => simp [Exec.allM, Exec.pure]
  | cons i l ih =>
    rw [List.flatMap_cons, List.append_assoc, allM_cons _ _ _ (h i List.mem_cons_self _)]
    exact ih (fun i hi => h i (List.mem_cons_of_mem _ hi))

omit [Zero α] in
theorem endLine_behind (R : Matrix α) (rest : List Char) :
    (Matrix.endLine (R, ⟨'\n' :: rest, false, false⟩) : Res Bool × Matrix α × IStream) = (.ok true, (R, ⟨rest, false, false⟩)) := by
  unfold Matrix.endLine
  simp only [clearLine_nl']

theorem readSlice_behind {X Y : Nat} (h : X = 0 ∨ Y = 0) (z : Nat) (f : Nat → Nat → α) (R : Matrix α) (rest : List Char) :
    readSlice C X Y z (R, ⟨'\n' :: (sliceText C X Y f ++ rest), false, false⟩) = (.ok true, (R, ⟨'\n' :: rest, false, false⟩)) := by
  have key : Exec.allM (readRow C Y z) (List.range X)
      (R, ⟨'\n' :: ((List.range X).flatMap (fun x => rowText C Y (f x)) ++ '\n' :: rest), false, false⟩) =
      (.ok true, (R, ⟨'\n' :: '\n' :: rest, false, false⟩)) := by
    apply allM_behind
    intro x hx rest
    rcases h with rfl | rfl
    · simp at hx
    · unfold readRow rowText
      simp only [Exec.bind, List.range_zero, Exec.allM, Exec.pure, if_true, List.flatMap_nil, List.nil_append]
      exact endLine_behind R _
  unfold readSlice sliceText
  rw [show ∀ a : List Char, a ++ ['\n'] ++ rest = a ++ '\n' :: rest by simp]
  simp only [Exec.bind, key, if_true]
  exact endLine_behind R _

/-- A matrix without entries is read back, but the last newline of its text is left. -/
theorem Matrix.deserialize_empty {X Y Z : Nat} (h0 : X * Y * Z = 0) (h1 : X * Y < 2147483648) (h2 : X < 2147483648)
    (h3 : Y < 2147483648) (h4 : Z < 2147483648) (f : Nat → Nat → Nat → α) (R : Matrix α) (rest : List Char) :
    Matrix.deserialize C (R, ⟨matrixText C X Y Z f ++ rest, false, false⟩) =
      (.ok true, (⟨dimN X Y Z, []⟩, ⟨'\n' :: rest, false, false⟩)) := by
  obtain ⟨R', hR, e⟩ := deserialize_head C (.inr ⟨h0, h1, h2, h3, h4⟩) R
    ((List.range Z).flatMap (fun z => sliceText C X Y (fun x y => f x y z)) ++ rest)
  have et : matrixText C X Y Z f ++ rest = headText X Y Z ++ '\n' ::
      ((List.range Z).flatMap (fun z => sliceText C X Y (fun x y => f x y z)) ++ rest) := by simp [matrixText]
  have hR' : R' = ⟨dimN X Y Z, []⟩ := by
    rw [Matrix.resize, vecSize_dimN h1 (by omega)] at hR
    have := Res.ok.inj hR
    rw [← this, h0]
    simp [Matrix.vecResize]
  rw [et, e, hR']
  apply allM_behind
  intro z hz rest
  apply readSlice_behind
  rcases Nat.mul_eq_zero.1 h0 with h | h
  · exact Nat.mul_eq_zero.1 h
  · subst h; simp at hz

end Empty

/-! ### Infinities and NaN -/

section NonFinite
variable [Zero α] (C : Codec α) {X Y Z : Nat} {f : Nat → Nat → Nat → α}

theorem word_facts {w : List Char} (hw : w ∈ [['i', 'n', 'f'], ['-', 'i', 'n', 'f'], ['n', 'a', 'n'], ['-', 'n', 'a', 'n']]) :
    (∃ c l, w = c :: l ∧ isWs c = false) ∧ ∀ r, (scanFloat (w ++ r)).1 = none := by
  simp only [List.mem_cons, List.not_mem_nil, or_false] at hw
  rcases hw with rfl | rfl | rfl | rfl <;> exact ⟨⟨_, _, rfl, by decide⟩, fun r => rfl⟩

theorem readCell_word (hC : C.Lawful) {a : α} (ha : ¬ C.Finite a) {M : Matrix α} {h} (hM : M.Shows X Y Z h) {x y z : Nat} (hx : x < X)
    (hy : y < Y) (hz : z < Z) {ws rest : List Char} (hws : ∀ c ∈ ws, isWs c = true) :
    ∃ s', Matrix.readCell C x y z (M, ⟨ws ++ cellText C a ++ rest, false, false⟩) = (.ok false, s') := by
  have hn : C.fixed a = none := by
    unfold Codec.Finite at ha; exact Classical.not_not.1 ha
  obtain ⟨⟨c, l, e, hc⟩, hs⟩ := word_facts (hC.words a hn)
  obtain ⟨M', hw, -⟩ := hM.write hx hy hz (0 : α)
  have e1 : ws ++ cellText C a ++ rest =
      (ws ++ List.replicate (16 - (C.word a).length) ' ') ++ c :: (l ++ ' ' :: rest) := by
    unfold cellText setw16 Codec.text
    rw [hn]; simp only [e]; simp
  have e2 : c :: (l ++ ' ' :: rest) = C.word a ++ ' ' :: rest := by rw [e]; rfl
  obtain ⟨r, hr⟩ : ∃ r, scanFloat (C.word a ++ ' ' :: rest) = (none, r) :=
    ⟨(scanFloat (C.word a ++ ' ' :: rest)).2, by rw [← hs (' ' :: rest)]⟩
  refine ⟨(M', ⟨r, r.isEmpty, true⟩), ?_⟩
  unfold Matrix.readCell extractNum
  simp only
  rw [e1, sentryWs_ok (by
    intro c hc
    rcases List.mem_append.1 hc with hc | hc
    · exact hws c hc
    · exact isWs_replicate _ c hc) hc]
  simp only
  rw [e2, hr]
  simp only
  rw [show (⟨(x : Int), (y : Int), (z : Int)⟩ : Dim3) = dimN x y z from rfl, hw]
  rfl

theorem allM_false {σ ι : Type} (body : ι → Exec σ Bool) (i : ι) (is : List ι) {s s' : σ} (h : body i s = (.ok false, s')) :
    Exec.allM body (i :: is) s = (.ok false, s') := by
  simp [Exec.allM, Exec.bind, h, Exec.pure]

theorem bind_false {σ : Type} {m : Exec σ Bool} {k : Exec σ Bool} {s s' : σ} (h : m s = (.ok false, s')) :
    Exec.bind m (fun b => if b then k else Exec.pure false) s = (.ok false, s') := by
  simp [Exec.bind, h, Exec.pure]

theorem row_bad (hC : C.Lawful) {x z : Nat} (hx : x < X) (hz : z < Z) (rest : List Char) :
    ∀ (ys : List Nat), (∀ y ∈ ys, y < Y) → (∃ y ∈ ys, ¬ C.Finite (f x y z)) →
    ∀ (M : Matrix α) (h) (ws : List Char), M.Shows X Y Z h → (∀ c ∈ ws, isWs c = true) →
    ∃ s', Exec.allM (fun (y : Nat) => Matrix.readCell C x y z) ys
        (M, ⟨ws ++ ys.flatMap (fun y => cellText C (f x y z)) ++ rest, false, false⟩) = (.ok false, s') := by
  intro ys
  induction ys with
  | nil => rintro _ ⟨y, hy, _⟩; simp at hy
  | cons y ys ih =>
    intro hys hex M h ws hM hws
    have hy := hys y List.mem_cons_self
    have et : ws ++ (y :: ys).flatMap (fun y => cellText C (f x y z)) ++ rest =
        ws ++ cellText C (f x y z) ++ (ys.flatMap (fun y => cellText C (f x y z)) ++ rest) := by simp
    rw [et]
    by_cases hf : C.Finite (f x y z)
    · obtain ⟨b, hb, -⟩ := hC.reads hf
      obtain ⟨M1, e1, s1⟩ := readCell_text C hb hM hx hy hz (rest := ys.flatMap (fun y => cellText C (f x y z)) ++ rest) hws
      rw [allM_cons (fun (y : Nat) => Matrix.readCell C x y z) y ys e1]
      have := ih (fun y hy => hys y (List.mem_cons_of_mem _ hy)) (by
        obtain ⟨y', h1, h2⟩ := hex
        rcases List.mem_cons.1 h1 with rfl | h1
        · exact absurd hf h2
        · exact ⟨y', h1, h2⟩) M1 _ [' '] s1 (by simp [isWs])
      simpa using this
    · obtain ⟨s', e⟩ := readCell_word C hC hf hM hx hy hz (rest := ys.flatMap (fun y => cellText C (f x y z)) ++ rest) hws
      exact ⟨s', allM_false (fun (y : Nat) => Matrix.readCell C x y z) y ys e⟩

theorem readRow_bad (hC : C.Lawful) {x z : Nat} (hx : x < X) (hz : z < Z) (hb : ∃ y < Y, ¬ C.Finite (f x y z)) (rest : List Char)
    (M : Matrix α) (h) (ws : List Char) (hM : M.Shows X Y Z h) (hws : ∀ c ∈ ws, isWs c = true) :
    ∃ s', readRow C Y z x (M, ⟨ws ++ rowText C Y (fun y => f x y z) ++ rest, false, false⟩) = (.ok false, s') := by
  obtain ⟨s', e⟩ := row_bad (f := f) C hC hx hz ('\n' :: rest) (List.range Y) (by simp) (by simpa using hb) M h ws hM hws
  have et : ws ++ rowText C Y (fun y => f x y z) ++ rest =
      ws ++ (List.range Y).flatMap (fun y => cellText C (f x y z)) ++ '\n' :: rest := by simp [rowText]
  rw [et]
  exact ⟨s', bind_false e⟩

/-- The entries that are read back. -/
theorem Codec.Lawful.readsOn {C : Codec α} (hC : C.Lawful) (f : Nat → Nat → Nat → α) :
    ∃ g : Nat → Nat → Nat → α, ∀ x y z, C.Finite (f x y z) → C.Reads (f x y z) (g x y z) ∧ C.Same (g x y z) (f x y z) := by
  classical
  refine ⟨fun x y z => if h : C.Finite (f x y z) then (hC.reads h).choose else 0, ?_⟩
  intro x y z h
  simp only [dif_pos h]
  exact (hC.reads h).choose_spec

theorem readSlice_bad (hC : C.Lawful) {z : Nat} (hz : z < Z) (hb : ∃ x < X, ∃ y < Y, ¬ C.Finite (f x y z)) (rest : List Char)
    (M : Matrix α) (h) (ws : List Char) (hM : M.Shows X Y Z h) (hws : ∀ c ∈ ws, isWs c = true) :
    ∃ s', readSlice C X Y z (M, ⟨ws ++ sliceText C X Y (fun x y => f x y z) ++ rest, false, false⟩) = (.ok false, s') := by
  obtain ⟨g, hg⟩ := hC.readsOn f
  have key : ∀ (xs : List Nat), (∀ x ∈ xs, x < X) → (∃ x ∈ xs, ∃ y < Y, ¬ C.Finite (f x y z)) →
      ∀ (M : Matrix α) (h) (ws : List Char), M.Shows X Y Z h → (∀ c ∈ ws, isWs c = true) →
      ∃ s', Exec.allM (readRow C Y z) xs
          (M, ⟨ws ++ xs.flatMap (fun x => rowText C Y (fun y => f x y z)) ++ '\n' :: rest, false, false⟩) = (.ok false, s') := by
    intro xs
    induction xs with
    | nil => rintro _ ⟨y, hy, _⟩; simp at hy
    | cons x xs ih =>
      intro hxs hex M h ws hM hws
      have hx := hxs x List.mem_cons_self
      have et : ws ++ (x :: xs).flatMap (fun x => rowText C Y (fun y => f x y z)) ++ '\n' :: rest =
          ws ++ rowText C Y (fun y => f x y z) ++
            (xs.flatMap (fun x => rowText C Y (fun y => f x y z)) ++ '\n' :: rest) := by simp
      rw [et]
      by_cases hf : ∃ y < Y, ¬ C.Finite (f x y z)
      · obtain ⟨s', e⟩ := readRow_bad C hC hx hz hf
          (xs.flatMap (fun x => rowText C Y (fun y => f x y z)) ++ '\n' :: rest) M h ws hM hws
        exact ⟨s', allM_false _ _ _ e⟩
      · have hf' : ∀ y < Y, C.Finite (f x y z) := fun y hy => Classical.not_not.1 fun hn => hf ⟨y, hy, hn⟩
        obtain ⟨M1, h1, e1, s1, -⟩ := readRow_text (f := f) (g := g) C hx hz (fun y hy => (hg x y z (hf' y hy)).1)
          (xs.flatMap (fun x => rowText C Y (fun y => f x y z)) ++ '\n' :: rest) M h ws hM hws
        rw [allM_cons _ _ _ e1]
        have := ih (fun x hx => hxs x (List.mem_cons_of_mem _ hx)) (by
          obtain ⟨x', q1, q2⟩ := hex
          rcases List.mem_cons.1 q1 with rfl | q1
          · exact absurd q2 hf
          · exact ⟨x', q1, q2⟩) M1 h1 [] s1 (by simp)
        simpa using this
  obtain ⟨s', e⟩ := key (List.range X) (by simp) (by simpa using hb) M h ws hM hws
  have et : ws ++ sliceText C X Y (fun x y => f x y z) ++ rest =
      ws ++ (List.range X).flatMap (fun x => rowText C Y (fun y => f x y z)) ++ '\n' :: rest := by simp [sliceText]
  rw [et]
  exact ⟨s', bind_false e⟩

/-- A matrix with an infinite entry or NaN cannot be read back. -/
theorem Matrix.deserialize_bad [Inhabited α] (hC : C.Lawful) (gd : Good X Y Z)
    (hb : ∃ x < X, ∃ y < Y, ∃ z < Z, ¬ C.Finite (f x y z)) (R : Matrix α) (rest : List Char) :
    ∃ s', Matrix.deserialize C (R, ⟨matrixText C X Y Z f ++ rest, false, false⟩) = (.ok false, s') := by
  obtain ⟨g, hg⟩ := hC.readsOn f
  have key : ∀ (zs : List Nat), (∀ z ∈ zs, z < Z) → (∃ z ∈ zs, ∃ x < X, ∃ y < Y, ¬ C.Finite (f x y z)) →
      ∀ (M : Matrix α) (h) (ws : List Char), M.Shows X Y Z h → (∀ c ∈ ws, isWs c = true) →
      ∃ s', Exec.allM (readSlice C X Y) zs
          (M, ⟨ws ++ zs.flatMap (fun z => sliceText C X Y (fun x y => f x y z)) ++ rest, false, false⟩) = (.ok false, s') := by
    intro zs
    induction zs with
    | nil => rintro _ ⟨y, hy, _⟩; simp at hy
    | cons z zs ih =>
      intro hzs hex M h ws hM hws
      have hz := hzs z List.mem_cons_self
      have et : ws ++ (z :: zs).flatMap (fun z => sliceText C X Y (fun x y => f x y z)) ++ rest =
          ws ++ sliceText C X Y (fun x y => f x y z) ++
            (zs.flatMap (fun z => sliceText C X Y (fun x y => f x y z)) ++ rest) := by simp
      rw [et]
      by_cases hf : ∃ x < X, ∃ y < Y, ¬ C.Finite (f x y z)
      · obtain ⟨s', e⟩ := readSlice_bad C hC hz hf
          (zs.flatMap (fun z => sliceText C X Y (fun x y => f x y z)) ++ rest) M h ws hM hws
        exact ⟨s', allM_false _ _ _ e⟩
      · have hf' : ∀ x < X, ∀ y < Y, C.Finite (f x y z) := fun x hx y hy => Classical.not_not.1 fun hn => hf ⟨x, hx, y, hy, hn⟩
        obtain ⟨M1, h1, e1, s1, -⟩ := readSlice_text (f := f) (g := g) C hz (fun x hx y hy => (hg x y z (hf' x hx y hy)).1)
          (zs.flatMap (fun z => sliceText C X Y (fun x y => f x y z)) ++ rest) M h ws hM hws
        rw [allM_cons _ _ _ e1]
        have := ih (fun z hz => hzs z (List.mem_cons_of_mem _ hz)) (by
          obtain ⟨x', q1, q2⟩ := hex
          rcases List.mem_cons.1 q1 with rfl | q1
          · exact absurd q2 hf
          · exact ⟨x', q1, q2⟩) M1 h1 [] s1 (by simp)
        simpa using this
  obtain ⟨R', hR, e⟩ := deserialize_head C (.inl gd) R
    ((List.range Z).flatMap (fun z => sliceText C X Y (fun x y => f x y z)) ++ rest)
  obtain ⟨R'', h0, hR', hs⟩ := Matrix.resize_shows R gd (0 : α)
  obtain rfl : R' = R'' := by rw [hR] at hR'; exact Res.ok.inj hR'
  obtain ⟨s', e2⟩ := key (List.range Z) (by simp) (by
    obtain ⟨x, hx, y, hy, z, hz, hb⟩ := hb
    exact ⟨z, List.mem_range.2 hz, x, hx, y, hy, hb⟩) R' h0 ['\n'] hs (by simp [isWs])
  refine ⟨s', ?_⟩
  have et : matrixText C X Y Z f ++ rest = headText X Y Z ++ '\n' ::
      ((List.range Z).flatMap (fun z => sliceText C X Y (fun x y => f x y z)) ++ rest) := by simp [matrixText]
  rw [et, e]
  simpa using e2

end NonFinite

end Cnn
