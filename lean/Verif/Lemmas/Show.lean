import Verif.Model.Show
import Verif.Spec.Show
import Verif.Spec.Shows

namespace Cnn

namespace Show

variable {α : Type}

/-- A text in `w` columns of a stream with formatting `F`. -/
def pad (F : Fmt) (w : Int) (t : List Char) : List Char :=
  if F.adjust = .left then padRight w F.fill t else padLeft w F.fill t

/-- What is written for an entry, without the separator. -/
def cell (N : Elem α) (F : Fmt) (wide : Int) (v m : α) : List Char :=
  (if N.neg v then '-' else ' ') :: pad F wide (N.text { F with width := wide } m)

theorem put_zero (F : Fmt) (h : F.width = 0) (o t : List Char) :
    (OStream.put ⟨F, o⟩ t) = ⟨F, o ++ t⟩ := by
  obtain ⟨p, n, f, a, w⟩ := F
  have h : w = 0 := h
  subst h
  simp [OStream.put, padRight, padLeft]

theorem entry_ok (N : Elem α) (wide : Int) (F : Fmt) (h : F.width = 0) (o : List Char) (v m : α)
    (hm : N.mag v = .ok m) (last : Bool) :
    entry N wide ⟨F, o⟩ v last = .ok ⟨F, o ++ (cell N F wide v m ++ [if last then ']' else ','])⟩ := by
  obtain ⟨p, n, f, a, w⟩ := F
  have h : w = 0 := h
  subst h
  unfold entry
  rw [put_zero _ rfl, hm]
  simp only [Res.bind_ok]
  have e : (OStream.put (OStream.setw ⟨⟨p, n, f, a, 0⟩, o ++ [if N.neg v then '-' else ' ']⟩ wide)
      (N.text (OStream.setw ⟨⟨p, n, f, a, 0⟩, o ++ [if N.neg v then '-' else ' ']⟩ wide).fmt m))
      = ⟨⟨p, n, f, a, 0⟩, (o ++ [if N.neg v then '-' else ' ']) ++
          pad ⟨p, n, f, a, 0⟩ wide (N.text ⟨p, n, f, a, wide⟩ m)⟩ := rfl
  rw [e, put_zero _ rfl]
  simp [cell]

theorem fold_append {β : Type} (F : Fmt) (step : OStream → β → Res OStream) (g : β → List Char) (l : List β)
    (h : ∀ x ∈ l, ∀ o, step ⟨F, o⟩ x = .ok ⟨F, o ++ g x⟩) (o : List Char) :
    l.foldlM step ⟨F, o⟩ = .ok ⟨F, o ++ l.flatMap g⟩ := by
  induction l generalizing o with
  | nil => simp [pure]
  | cons x l ih =>
    rw [List.foldlM_cons, h x (by simp), Res.bind_ok, ih (fun y hy => h y (by simp [hy]))]
    simp

theorem fold_range_sep (Y : Nat) (g : Nat → List Char) :
    ((List.range (Y + 1)).flatMap fun j => g j ++ [if decide ((j : Int) = ((Y + 1 : Nat) : Int) - 1) then ']' else ','])
      = List.intercalate [','] ((List.range (Y + 1)).map g) ++ [']'] := by
  have key : ∀ (l : List Nat) (a : Nat), (∀ j ∈ l, (j : Int) ≠ ((Y + 1 : Nat) : Int) - 1) →
      ((l ++ [a]).flatMap fun j => g j ++ [if decide ((j : Int) = ((Y + 1 : Nat) : Int) - 1) then ']' else ','])
      = List.intercalate [','] ((l ++ [a]).map g)
        ++ [if decide ((a : Int) = ((Y + 1 : Nat) : Int) - 1) then ']' else ','] := by
    intro l a
    induction l with
    | nil => simp [List.intercalate]
    | cons x l ih =>
      intro h
      have ih := ih fun j hj => h j (by simp [hj])
      rw [List.cons_append, List.flatMap_cons, ih, List.map_cons]
      have hx := h x (by simp)
      cases hl : (l ++ [a]).map g with
      | nil => simp at hl
      | cons y ys =>
        simp [List.intercalate]
        push_cast at hx
        intro hx'
        exact absurd hx' (by simpa using hx)
  rw [List.range_succ, key _ _ (by intro j hj; simp at hj; omega)]
  simp

theorem body_ok (N : Elem α) (wide : Int) {M : MExpr α} {X Y Z : Nat} {f m : Nat → Nat → Nat → α}
    (hM : M.Shows X Y Z f) (hm : ∀ i < X, ∀ j < Y, ∀ k < Z, N.mag (f i j k) = .ok (m i j k))
    (F : Fmt) (h : F.width = 0) (o : List Char) :
    body N wide M (OStream.put ⟨F, o⟩ ['\n'])
      = .ok ⟨F, o ++ layout X Y Z fun i j k => cell N F wide (f i j k) (m i j k)⟩ := by
  obtain ⟨Y, rfl⟩ : ∃ Y', Y = Y' + 1 := ⟨Y - 1, by have := hM.good.y; omega⟩
  rw [put_zero _ h, body, hM.dim]
  simp only [Int.toNat_natCast]
  rw [fold_append F _ (fun i => line (Y + 1) Z (fun j k => cell N F wide (f i j k) (m i j k)) ++ ['\n'])]
  · simp [layout]
  · intro i hi o
    have hi : i < X := by simpa using hi
    rw [fold_append F _ (fun k => ['['] ++
      List.intercalate [','] ((List.range (Y + 1)).map fun j => cell N F wide (f i j k) (m i j k)) ++
      [']', ' ', ' ', ' '])]
    · simp only [Res.bind_ok]
      rw [put_zero _ h]
      simp [line]
    · intro k hk o
      have hk : k < Z := by simpa using hk
      rw [put_zero _ h, fold_append F _ (fun j => cell N F wide (f i j k) (m i j k) ++
        [if decide ((j : Int) = ((Y + 1 : Nat) : Int) - 1) then ']' else ','])]
      · simp only [Res.bind_ok]
        rw [put_zero _ h, fold_range_sep]
        simp
      · intro j hj o
        have hj : j < Y + 1 := by simpa using hj
        rw [hM.entry i hi j hj k hk, Res.bind_ok, entry_ok N wide F h o _ _ (hm i hi j hj k hk)]

theorem pad_right (F : Fmt) (ha : F.adjust ≠ .left) (hf : F.fill = ' ') (w : Nat) (t : List Char) :
    pad F w t = flushRight w t := by
  simp [pad, ha, hf, padLeft, flushRight]

theorem intercalate_length (s : List Char) (n : Nat) (l : List (List Char)) (h : ∀ t ∈ l, t.length = n) :
    (List.intercalate s l).length = l.length * n + (l.length - 1) * s.length := by
  induction l with
  | nil => simp [List.intercalate]
  | cons a l ih =>
    have ih := ih fun t ht => h t (by simp [ht])
    cases l with
    | nil => simp [List.intercalate, h a]
    | cons b l =>
      have e : List.intercalate s (a :: b :: l) = a ++ (s ++ List.intercalate s (b :: l)) := by
        simp [List.intercalate]
      rw [e]
      simp only [List.length_append, ih, h a (by simp), List.length_cons]
      simp only [Nat.add_sub_cancel]
      ring

theorem line_length (Y Z n : Nat) (hY : 0 < Y) (c : Nat → Nat → List Char)
    (h : ∀ j < Y, ∀ k < Z, (c j k).length = n) : (line Y Z c).length = Z * (Y * (n + 1) + 4) := by
  unfold line
  rw [List.length_flatMap]
  have e : (List.range Z).map (fun k => (['['] ++ List.intercalate [','] ((List.range Y).map fun j => c j k) ++
      [']', ' ', ' ', ' ']).length) = (List.range Z).map fun _ => Y * (n + 1) + 4 := by
    apply List.map_congr_left
    intro k hk
    have hk : k < Z := by simpa using hk
    simp only [List.length_append]
    rw [intercalate_length _ n _ (by
      intro t ht
      obtain ⟨j, hj, rfl⟩ := List.mem_map.1 ht
      exact h j (by simpa using hj) k hk)]
    simp only [List.length_map, List.length_range, List.length_cons, List.length_nil]
    rw [show Y * (n + 1) = Y * n + Y by ring]
    omega
  rw [e]
  simp

end Show

end Cnn
