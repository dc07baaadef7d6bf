import Verif.Lemmas.DimN

/-!
C77: `Dim<N>`, for every `N`, is the tuple of its `N` components.

Everything holds but the comparison: `==` also compares the padding up to three components, which no
constructor from `N` values writes and which `+`, `-` and `Dim(int)` fill differently.
-/

namespace Cnn

namespace DimN

variable {N : Nat}

/-- The `N` components of `d` are determinate and are `vs`. -/
def Holds (d : DimN N) (vs : List Int) : Prop := d.data.take N = vs.map some

theorem Holds.length {d : DimN N} {vs : List Int} (h : d.Holds vs) : vs.length = N := by
  have := congrArg List.length h
  simp [d.len] at this
  omega

end DimN

open DimN

variable {N : Nat}

/-- A `Dim<N>` built from `N` values holds them. -/
theorem C77_make (args : List Arg) (h : args.length ≤ N) (hN : args.length = N)
    (hr : ∀ a ∈ args, I32 a.val) : (make N args h).Holds (args.map Arg.val) := by
  have hm : ∀ l : List Arg, (∀ a ∈ l, I32 a.val) →
      l.map (fun a => some (toInt a.val)) = l.map (fun a => some a.val) := fun l hl =>
    List.map_congr_left fun a ha => by rw [toInt_of (hl a ha)]
  unfold Holds
  match args, h with
  | [], _ => subst hN; rfl
  | [a], h =>
    have : N = 1 := by simpa using hN.symm
    subst this
    obtain ⟨t, v⟩ := a
    have hv := toInt_of (hr ⟨t, v⟩ (by simp))
    cases t with
    | true => rfl
    | false =>
      have e : (make 1 [⟨false, v⟩] h).data.take 1 = [some (toInt v)] := rfl
      rw [e, hv]; rfl
  | a :: b :: as, h =>
    have e := hm _ hr
    subst hN
    simp only [make, pack, List.map_map]
    rw [show ((fun v => some (toInt v)) ∘ Arg.val) = fun a : Arg => some (toInt a.val) from rfl, e]
    rw [List.take_append_of_le_length (by simp), List.take_of_length_le (by simp)]
    rfl

/-- Built from fewer values (one value of type `int` apart, which fills all components, and none, which
fills them with 0), it has components without a value: `size()` is undefined. -/
theorem C77_missing (args : List Arg) (h : args.length ≤ N) (hN : args.length < N)
    (h0 : args ≠ []) (h1 : ∀ v, args ≠ [⟨true, v⟩]) : (make N args h).size = .ub := by
  have key : ∀ vs (hv : vs.length ≤ N), vs.length < N → (pack N vs hv).size = .ub := by
    intro vs hv hl
    apply sizeLoop_ub
    rw [pack, List.take_append]
    apply List.mem_append_right
    simp
    omega
  match args, h with
  | [], _ => exact absurd rfl h0
  | [a], h =>
    obtain ⟨t, v⟩ := a
    cases t with
    | true => exact absurd rfl (h1 v)
    | false => exact key [v] (by simpa using h) (by simpa using hN)
  | a :: b :: as, h => exact key ((a :: b :: as).map Arg.val) (by simpa using h) (by simpa using hN)

/-- With at least three components `==` and `!=` tell exactly whether the components agree. -/
theorem C77_same_partial (hN : 3 ≤ N) {a b : DimN N} {as bs : List Int} (ha : a.Holds as) (hb : b.Holds bs) :
    a.same b = .ok (decide (as = bs)) ∧ a.differ b = .ok (decide (as ≠ bs)) := by
  have la := a.len; have lb := b.len
  have ea : a.data = as.map some := by rw [← ha, List.take_of_length_le (by omega)]
  have eb : b.data = bs.map some := by rw [← hb, List.take_of_length_le (by omega)]
  have hl : as.length = bs.length := by rw [ha.length, hb.length]
  constructor
  · rw [same, ea, eb, sameLoop_some _ _ hl]
  · rw [differ, same, ea, eb, sameLoop_some _ _ hl.symm]
    simp [eq_comm]

/-- `dim2(x, y) == dim2(x, y)` is undefined for all `x` and `y`: a `dim2` built from two values cannot be
compared with an equal one, itself included. -/
theorem C77_violated (x y : Int) :
    (make 2 [⟨true, x⟩, ⟨true, y⟩] (le_refl 2)).same (make 2 [⟨true, x⟩, ⟨true, y⟩] (le_refl 2)) = .ub := by
  simp [make, pack, same, sameLoop]

/-- Unequal first components are found before the padding is reached. -/
theorem C77_dim2_differ (x y x' y' : Int) (hx : I32 x) (hy : I32 y) (hx' : I32 x') (hy' : I32 y')
    (h : ¬ (x = x' ∧ y = y')) :
    (make 2 [⟨true, x⟩, ⟨true, y⟩] (le_refl 2)).same (make 2 [⟨true, x'⟩, ⟨true, y'⟩] (le_refl 2))
      = .ok false := by
  simp only [make, pack, same, List.map_cons, List.map_nil, toInt_of hx, toInt_of hy, toInt_of hx',
    toInt_of hy', List.cons_append, sameLoop, use_some, Res.bind_ok]
  by_cases e : x = x'
  · have : y ≠ y' := fun e' => h ⟨e, e'⟩
    simp [e, this]
  · simp [e]

/-- Where everything has a value the answer can still be wrong: `dim2(c)` and `dim2(a) + dim2(b)` with
`a + b = c ≠ 0` hold the same components, and compare as different. -/
theorem C77_violated_sum (a b c : Int) (hc : I32 c) (e : a + b = c) (h : c ≠ 0) :
    ∃ s, (fill 2 a).add (fill 2 b) = .ok s ∧ s.Holds [c, c] ∧ (fill 2 c).Holds [c, c] ∧
      (fill 2 c).same s = .ok false := by
  have hz : ∀ v ∈ List.zipWith (· + ·) [a, a] [b, b], I32 v := by simp [e, hc]
  have := zipLoop_ok (· + ·) [a, a] [b, b] hz
  refine ⟨⟨[some c, some c, some 0], rfl⟩, ?_, rfl, rfl, ?_⟩
  · unfold add componentwise
    have e1 : zipLoop (· + ·) ((fill 2 a).data.take 2) ((fill 2 b).data.take 2) = .ok [c, c] := by
      rw [← e]; exact this
    rw [e1]; rfl
  · simp [same, fill, sameLoop, List.replicate, h]

/-- `+` and `-` act component by component; a component sum that is no `int` is undefined behaviour. -/
theorem C77_add {a b : DimN N} {as bs : List Int} (ha : a.Holds as) (hb : b.Holds bs) :
    ((∀ v ∈ List.zipWith (· + ·) as bs, I32 v) →
      ∃ s, a.add b = .ok s ∧ s.Holds (List.zipWith (· + ·) as bs)) ∧
    ((∃ v ∈ List.zipWith (· + ·) as bs, ¬ I32 v) → a.add b = .ub) := by
  have la := ha.length; have lb := hb.length
  constructor
  · intro h
    refine ⟨_, by rw [add, componentwise, ha, hb, zipLoop_ok _ _ _ h]; rfl, ?_⟩
    unfold Holds
    simp only
    rw [List.take_take, min_eq_left (by omega), List.take_append_of_le_length (by simp; omega),
      List.take_of_length_le (by simp; omega)]
  · intro h
    rw [add, componentwise, ha, hb, zipLoop_ub _ _ _ h]; rfl

theorem C77_sub {a b : DimN N} {as bs : List Int} (ha : a.Holds as) (hb : b.Holds bs) :
    ((∀ v ∈ List.zipWith (· - ·) as bs, I32 v) →
      ∃ s, a.sub b = .ok s ∧ s.Holds (List.zipWith (· - ·) as bs)) ∧
    ((∃ v ∈ List.zipWith (· - ·) as bs, ¬ I32 v) → a.sub b = .ub) := by
  have la := ha.length; have lb := hb.length
  constructor
  · intro h
    refine ⟨_, by rw [sub, componentwise, ha, hb, zipLoop_ok _ _ _ h]; rfl, ?_⟩
    unfold Holds
    simp only
    rw [List.take_take, min_eq_left (by omega), List.take_append_of_le_length (by simp; omega),
      List.take_of_length_le (by simp; omega)]
  · intro h
    rw [sub, componentwise, ha, hb, zipLoop_ub _ _ _ h]; rfl

/-- `size()` is the product of the components, up to the wrapping of `size_t`. -/
theorem C77_size {d : DimN N} {ds : List Int} (hd : d.Holds ds) :
    d.size = .ok (ds.prod % 18446744073709551616).toNat := by
  rw [size, hd, sizeLoop_some _ _ (by decide)]
  simp [u64]

/-- `getFlatIdx` numbers the indices of a box that fits `size_t`: every index gets a number below `size()`,
different indices get different numbers, and every number is given. -/
theorem C77_flat {d : DimN N} {ds : List Int} (hd : d.Holds ds) (pos : ∀ x ∈ ds, 0 < x)
    (fits : ds.prod < 18446744073709551616) :
    ∃ n, d.size = .ok n ∧
      (∀ (i : DimN N) is, i.Holds is → InBox ds is → ∃ k < n, d.flat i = .ok k) ∧
      (∀ (i j : DimN N) is js, i.Holds is → j.Holds js → InBox ds is → InBox ds js →
        d.flat i = d.flat j → is = js) ∧
      (∀ k < n, ∃ (i : DimN N) (is : List Int), i.Holds is ∧ InBox ds is ∧ d.flat i = .ok k) := by
  have hf : ∀ (i : DimN N) is, i.Holds is → InBox ds is → d.flat i = .ok (radix ds is).toNat := by
    intro i is hi hb
    have h0 := radix_nonneg hb; have h1 := radix_lt hb
    rw [flat, hd, hi, flatLoop_some _ _ _ _ (by decide), u64]
    congr 1
    push_cast
    rw [zero_add, one_mul, Int.emod_eq_of_lt h0 (by omega)]
  have hp : 0 < ds.prod := by
    clear hd fits hf
    induction ds with
    | nil => simp
    | cons x xs ih =>
      rw [List.prod_cons]
      exact Int.mul_pos (pos x (by simp)) (ih fun y hy => pos y (by simp [hy]))
  refine ⟨_, C77_size hd, ?_, ?_, ?_⟩
  · intro i is hi hb
    have h0 := radix_nonneg hb; have h1 := radix_lt hb
    exact ⟨_, by rw [Int.emod_eq_of_lt hp.le fits]; omega, hf i is hi hb⟩
  · intro i j is js hi hj hb hb' e
    rw [hf i is hi hb, hf j js hj hb'] at e
    have e := Res.ok.inj e
    have h0 := radix_nonneg hb; have h1 := radix_nonneg hb'
    exact radix_inj hb hb' (by omega)
  · intro k hk
    rw [Int.emod_eq_of_lt hp.le fits] at hk
    obtain ⟨is, hb, e⟩ := radix_surj pos (k := k) (by omega) (by omega)
    have hl := hb.length
    have hN := hd.length
    refine ⟨⟨is.map some ++ List.replicate (max N 3 - N) (some 0), by simp; omega⟩, is, ?_, hb, ?_⟩
    · unfold Holds
      simp only
      rw [List.take_append_of_le_length (by simp; omega), List.take_of_length_le (by simp; omega)]
    · rw [hf _ is _ hb, e]
      · simp
      · unfold Holds
        simp only
        rw [List.take_append_of_le_length (by simp; omega), List.take_of_length_le (by simp; omega)]

/-- `++` on a `DimIterator` goes from an index of the box to the one with the next number, and from the last
one to zeros with the last extent in the last place, the `end()` of the matrices. -/
theorem C77_next (hN : 0 < N) {d i : DimN N} {ds is : List Int} (hd : d.Holds ds) (hi : i.Holds is)
    (range : ∀ x ∈ ds, I32 x) (hb : InBox ds is) :
    ∃ (j : DimN N) (js : List Int), d.next i = .ok j ∧ j.Holds js ∧ radix ds js = radix ds is + 1 ∧
      (radix ds is + 1 < ds.prod → InBox ds js) ∧
      (radix ds is + 1 = ds.prod → ∃ ne : ds ≠ [], js = List.replicate (N - 1) 0 ++ [ds.getLast ne]) := by
  have hl := hd.length; have hl' := hi.length
  have ne : ds ≠ [] := by rintro rfl; simp at hl; omega
  refine ⟨_, bump ds is, by rw [next, hd, hi, nextLoop_some hb range]; rfl, ?_, radix_bump hb ne,
    bump_inBox hb, fun e => ⟨ne, ?_⟩⟩
  · have := bump_length ds is hb.length
    unfold Holds
    simp only
    rw [List.take_take, min_eq_left (by omega), List.append_assoc,
      List.take_append_of_le_length (by simp; omega), List.take_of_length_le (by simp; omega)]
  · rw [bump_last hb e ne, hl]

/-- Printing shows the components between parentheses, separated by commas. -/
theorem C77_text (hN : 0 < N) {d : DimN N} {ds : List Int} (hd : d.Holds ds) :
    d.text = .ok ("(" ++ (String.intercalate ", " (ds.map toString) ++ ")")) := by
  have hl := hd.length
  rw [text, hd, textLoop_some _ (by rintro rfl; simp at hl; omega)]
  rfl

/-- A move hands the components over and leaves zeros. -/
theorem C77_move {d : DimN N} {ds : List Int} (hd : d.Holds ds) :
    d.move.1.Holds ds ∧ d.move.2.Holds (List.replicate N 0) := by
  refine ⟨hd, ?_⟩
  simp [Holds, move, fill]

/-- The `Dim3` the rest of the model computes with is `Dim<3>`. -/
theorem C77_dim3 (a b : Dim3) :
    (of3 a).size = .ok a.size64 ∧ (of3 a).flat (of3 b) = .ok (a.getFlatIdx b) ∧
    (of3 a).same (of3 b) = .ok (decide (a = b)) ∧
    ((I32 (a + b).x ∧ I32 (a + b).y ∧ I32 (a + b).z) → (of3 a).add (of3 b) = .ok (of3 (a + b))) ∧
    ((I32 (a - b).x ∧ I32 (a - b).y ∧ I32 (a - b).z) → (of3 a).sub (of3 b) = .ok (of3 (a - b))) ∧
    ((I32 (b.x + 1) ∧ I32 (b.y + 1) ∧ I32 (b.z + 1)) → (of3 a).next (of3 b) = .ok (of3 (a.next b))) ∧
    (of3 a).move = (of3 a.move.1, of3 a.move.2) := by
  have ha : (of3 a).Holds [a.x, a.y, a.z] := rfl
  have hb : (of3 b).Holds [b.x, b.y, b.z] := rfl
  refine ⟨?_, ?_, ?_, ?_, ?_, ?_, rfl⟩
  · rw [C77_size ha]; simp [Dim3.size64, mul_assoc]
  · rw [flat, ha, hb, flatLoop_some _ _ _ _ (by decide), u64, Dim3.getFlatIdx]
    congr 3
    simp [radix]; ring
  · rw [(C77_same_partial (le_refl 3) ha hb).1]
    simp [Dim3.ext_iff]
  · intro h
    rw [add, componentwise, ha, hb, zipLoop_ok _ _ _ (by simpa using h)]
    rfl
  · intro h
    rw [sub, componentwise, ha, hb, zipLoop_ok _ _ _ (by simpa using h)]
    rfl
  · rintro ⟨h1, h2, h3⟩
    simp only [next, of3, Dim3.next, List.take, nextLoop, use_some, Res.bind_ok, chk, h1, h2, h3, if_true]
    by_cases e1 : b.x + 1 < a.x
    · simp [e1]
    · by_cases e2 : b.y + 1 < a.y
      · simp [e1, e2]
      · simp [e1, e2]

/-! ### Cases -/

/-- Four components. -/
example : (make 4 [⟨true, 2⟩, ⟨true, 3⟩, ⟨false, 4⟩, ⟨true, 5⟩] (le_refl 4)).Holds [2, 3, 4, 5] := rfl
example : (make 4 [⟨true, 2⟩, ⟨true, 3⟩, ⟨false, 4⟩, ⟨true, 5⟩] (le_refl 4)).size = .ok 120 := rfl
example : (make 4 [⟨true, 2⟩, ⟨true, 3⟩, ⟨false, 4⟩, ⟨true, 5⟩] (le_refl 4)).text = .ok "(2, 3, 4, 5)" := by
  decide
example : InBox [2, 3, 4, 5] [1, 2, 0, 3] := by
  simp [InBox]
example : (make 4 [⟨true, 2⟩, ⟨true, 3⟩, ⟨true, 4⟩, ⟨true, 5⟩] (le_refl 4)).flat
    (make 4 [⟨true, 1⟩, ⟨true, 2⟩, ⟨true, 0⟩, ⟨true, 3⟩] (le_refl 4)) = .ok 77 := rfl
example : (make 4 [⟨true, 2⟩, ⟨true, 3⟩, ⟨true, 4⟩, ⟨true, 5⟩] (le_refl 4)).next
    (make 4 [⟨true, 1⟩, ⟨true, 2⟩, ⟨true, 0⟩, ⟨true, 3⟩] (le_refl 4))
    = .ok (make 4 [⟨true, 0⟩, ⟨true, 0⟩, ⟨true, 1⟩, ⟨true, 3⟩] (le_refl 4)) := rfl
/-- `dim3(2u)` leaves two components without a value; `dim3(2)` does not. -/
example : (make 3 [⟨false, 2⟩] (by decide)).size = .ub := rfl
example : (make 3 [⟨true, 2⟩] (by decide)).size = .ok 8 := rfl
/-- `dim2(5) == dim2(3) + dim2(2)` is false. -/
example : ((fill 2 3).add (fill 2 2) >>= fun s => (fill 2 5).same s) = .ok false := rfl
/-- `dim3(2147483647) + dim3(1)` overflows. -/
example : (fill 3 2147483647).add (fill 3 1) = .ub := rfl

end Cnn
