import Verif.Lemmas.Iterate
import Verif.Lemmas.Entries
import Mathlib.Data.List.Nodup
/-!
# C01 – C06: storage, iteration, reshaping, copying
-/
namespace Cnn
variable {α β : Type}

/-! ## C01 -/

/-- C01, index part: every in-range index addresses a slot inside the storage, different indices address
different slots, and every slot is addressed by exactly one index. -/
theorem C01_index_bijection {X Y Z : Nat} (g : Good X Y Z) :
    (∀ i < X, ∀ j < Y, ∀ k < Z, getIndex (dimN X Y Z) (dimN i j k) < X * Y * Z) ∧
    (∀ n < X * Y * Z, ∃! p : Nat × Nat × Nat, (p.1 < X ∧ p.2.1 < Y ∧ p.2.2 < Z) ∧
      getIndex (dimN X Y Z) (dimN p.1 p.2.1 p.2.2) = n) := by
  constructor
  · intro i hi j hj k hk
    rw [getIndex_dimN g hi hj hk]
    exact fl_lt hi hj hk
  · intro n hn
    obtain ⟨hi, hj, hk⟩ := unflat_lt g.x g.y hn
    refine ⟨(n % X, n / X % Y, n / X / Y), ⟨⟨hi, hj, hk⟩, ?_⟩, ?_⟩
    · rw [getIndex_dimN g hi hj hk, fl_unflat]
    · rintro ⟨i, j, k⟩ ⟨⟨h1, h2, h3⟩, h⟩
      simp only at h1 h2 h3 h
      rw [getIndex_dimN g h1 h2 h3] at h
      subst h
      simp [fl_mod h1, fl_div_mod h1 h2, fl_div_div h1 h2]

/-- C01, access part: on any matrix of positive dimensions reading in range succeeds, and a write changes the
entry addressed and no other. -/
theorem C01_read_write {X Y Z : Nat} (g : Good X Y Z) (M : Matrix α) (hd : M.dim = dimN X Y Z)
    (hl : M.vals.length = X * Y * Z) {i j k : Nat} (hi : i < X) (hj : j < Y) (hk : k < Z) (v : α) :
    (∃ a, M.read (dimN i j k) = .ok a) ∧
    ∃ M', M.write (dimN i j k) v = .ok M' ∧ M'.dim = M.dim ∧ M'.vals.length = M.vals.length ∧
      M'.read (dimN i j k) = .ok v ∧
      ∀ i' < X, ∀ j' < Y, ∀ k' < Z, (i', j', k') ≠ (i, j, k) → M'.read (dimN i' j' k') = M.read (dimN i' j' k') := by
  obtain ⟨f, hM⟩ := Matrix.exists_shows g hd hl
  refine ⟨⟨_, hM.entry i hi j hj k hk⟩, ?_⟩
  obtain ⟨M', e, s⟩ := hM.write hi hj hk v
  refine ⟨M', e, by rw [s.dim, hd], by rw [s.length, hl], ?_, ?_⟩
  · rw [s.entry i hi j hj k hk]; simp
  · intro i' hi' j' hj' k' hk' hne
    rw [s.entry i' hi' j' hj' k' hk', hM.entry i' hi' j' hj' k' hk', if_neg]
    rintro ⟨rfl, rfl, rfl⟩
    exact hne rfl

/-- C01: every matrix made by the dimension constructor meets the hypotheses of `C01_read_write`. -/
theorem C01_constructed {X Y Z : Nat} (g : Good X Y Z) (v : α) :
    ∃ M, Matrix.ofDim (dimN X Y Z) v = .ok M ∧ M.dim = dimN X Y Z ∧ M.vals.length = X * Y * Z ∧
      ∀ i < X, ∀ j < Y, ∀ k < Z, M.read (dimN i j k) = .ok v := by
  obtain ⟨M, e, s⟩ := Matrix.ofDim_shows g v
  exact ⟨M, e, s.dim, s.length, s.entry⟩

example : Good 2 3 4 := ⟨by decide, by decide, by decide, by decide⟩
example : getIndex (dimN 2 3 4) (dimN 1 2 3) = 23 := by decide
example : (⟨dimN 2 2 1, [1, 2, 3, 4]⟩ : Matrix Int).read (dimN 1 0 0) = .ok 2 := by decide

/-! ## C02 -/

/-- C02: `setEntries` stores the values in reading order (layer, then row, then column). -/
theorem C02_setEntries {X Y Z : Nat} (g : Good X Y Z) (M : Matrix α) (hd : M.dim = dimN X Y Z)
    (hl : M.vals.length = X * Y * Z) (v : List α) (hv : v.length = X * Y * Z) :
    ∃ M', M.setEntries v = .ok M' ∧ M'.dim = dimN X Y Z ∧ M'.vals.length = X * Y * Z ∧
      ∀ row < X, ∀ col < Y, ∀ layer < Z,
        ∃ a, v[layer * (X * Y) + row * Y + col]? = some a ∧ M'.read (dimN row col layer) = .ok a := by
  obtain ⟨f, hM⟩ := Matrix.exists_shows g hd hl
  obtain ⟨M', e, s⟩ := Matrix.setEntries_shows hM hv
  refine ⟨M', e, s.dim, s.length, ?_⟩
  intro row hr col hc layer hl'
  have hlt : fl Y X col row layer < v.length := by
    rw [hv, Nat.mul_comm X Y]; exact fl_lt hc hr hl'
  have e2 : layer * (X * Y) + row * Y + col = fl Y X col row layer := by unfold fl; ring
  refine ⟨v[fl Y X col row layer], ?_, ?_⟩
  · rw [e2]; simp [hlt]
  · rw [s.entry row hr col hc layer hl']; simp [List.getD, hlt]

/-- C02: a vector of any other length is refused, whatever the matrix. -/
theorem C02_setEntries_mismatch (M : Matrix α) (v : List α) (h : v.length ≠ M.vals.length) :
    M.setEntries v = .throw .matrixSize := by
  simp [Matrix.setEntries, h]

/-- C02: the constructor taking a vector. -/
theorem C02_constructor [Zero α] {X Y Z : Nat} (g : Good X Y Z) (v : List α) :
    (v.length = X * Y * Z → ∃ M', Matrix.ofVals (dimN X Y Z) v = .ok M' ∧ M'.dim = dimN X Y Z ∧
      ∀ row < X, ∀ col < Y, ∀ layer < Z,
        ∃ a, v[layer * (X * Y) + row * Y + col]? = some a ∧ M'.read (dimN row col layer) = .ok a) ∧
    (v.length ≠ X * Y * Z → Matrix.ofVals (dimN X Y Z) v = .throw .matrixSize) := by
  obtain ⟨M, e, s⟩ := Matrix.ofDim_shows g (0 : α)
  constructor
  · intro hv
    obtain ⟨M', e', hd, _, h⟩ := C02_setEntries g M s.dim s.length v hv
    refine ⟨M', ?_, hd, h⟩
    simp only [Matrix.ofVals, e, Res.bind_ok, e']
  · intro hv
    simp only [Matrix.ofVals, e, Res.bind_ok]
    exact C02_setEntries_mismatch M v (by rw [s.length]; exact hv)

/-- C02: raw vector assignment stores the values in storage (column-major) order. -/
theorem C02_raw_assign {X Y Z : Nat} (g : Good X Y Z) (M : Matrix α) (hd : M.dim = dimN X Y Z)
    (hl : M.vals.length = X * Y * Z) (v : List α) :
    (v.length = X * Y * Z → ∃ M', M.assignVec v = .ok M' ∧ M'.dim = dimN X Y Z ∧
      ∀ row < X, ∀ col < Y, ∀ layer < Z,
        ∃ a, v[layer * (X * Y) + col * X + row]? = some a ∧ M'.read (dimN row col layer) = .ok a) ∧
    (v.length ≠ X * Y * Z → M.assignVec v = .throw .matrixSize) := by
  constructor
  · intro hv
    refine ⟨⟨M.dim, v⟩, by simp [Matrix.assignVec, hv, hl], hd, ?_⟩
    intro row hr col hc layer hl'
    have hlt : fl X Y row col layer < v.length := by rw [hv]; exact fl_lt hr hc hl'
    have e2 : layer * (X * Y) + col * X + row = fl X Y row col layer := by unfold fl; ring
    refine ⟨v[fl X Y row col layer], ?_, ?_⟩
    · rw [e2]; simp [hlt]
    · simp [Matrix.read, hd, getIndex_dimN g hr hc hl', Matrix.flat, hlt]
  · intro hv
    simp [Matrix.assignVec, hl, hv]

/-- What the claim says of any dimensions the constructor accepts (without the place of each entry). -/
def C02_claim : Prop := ∀ (d : Dim3) (a : Int) (M : Matrix Int) (v : List Int), Matrix.ofDim d a = .ok M → v.length = M.vals.length →
  ∃ M', M.setEntries v = .ok M'

/-- C02 A matrix may be made with two negative dimensions, as only their product counts. Its entries cannot be set: for every vector of the
right length `setEntries` runs past the end of the vector or leaves the storage. With other dimensions it succeeds. -/
theorem C02_exact (d : Dim3) (hx : I32 d.x) (hy : I32 d.y) (hz : I32 d.z) (a : α) (M : Matrix α) (hM : Matrix.ofDim d a = .ok M) (v : List α)
    (hv : v.length = M.vals.length) :
    ((d.x < 0 ∨ d.y < 0 ∨ d.z < 0) ∧ v ≠ [] → M.setEntries v = .ub) ∧
    ((0 ≤ d.x ∧ 0 ≤ d.y ∧ 0 ≤ d.z) ∨ v = [] → ∃ M', M.setEntries v = .ok M') := by
  obtain ⟨hd, hlen, hsmall⟩ : M.dim = d ∧ (v.length : Int) = d.x * d.y * d.z ∧ d.x * d.y * d.z ≤ 2147483647 := by
    unfold Matrix.ofDim vecSize Dim3.volume chk at hM
    split at hM
    · rw [Res.bind_ok] at hM
      split at hM
      · rename_i h
        rw [Res.bind_ok] at hM
        split at hM
        · simp at hM
        · rw [Res.bind_ok] at hM
          cases hM
          rw [List.length_replicate] at hv
          exact ⟨rfl, by omega, h.2⟩
      · simp at hM
    · simp at hM
  unfold I32 at hx hy hz
  have none_ : v = [] → ∃ M', M.setEntries v = .ok M' := by
    rintro rfl
    rw [List.length_nil] at hlen
    have : d.x * d.y * d.z = 0 := by omega
    rw [mul_eq_zero, mul_eq_zero, or_assoc] at this
    exact ⟨M, setEntries_none M [] hv (by rw [hd]; exact this)⟩
  constructor
  · rintro ⟨hneg, hne⟩
    obtain e | ⟨-, h⟩ := setEntries_count M v hv
    · exact e
    · exfalso
      rw [hd] at h
      have hpos : 0 < d.x * d.y * d.z := by
        have := List.length_pos_iff.2 hne
        omega
      have abs_lt : ∀ {n : Int}, -2147483648 ≤ n → n ≤ 2147483647 → (n.natAbs : Int) ≤ u32 n ∧
          (n < 0 → n ≠ -2147483648 → n.natAbs < u32 n) := by
        intro n h1 h2
        unfold u32
        omega
      have e : (v.length : Int) = d.x.natAbs * d.y.natAbs * d.z.natAbs := by
        rw [hlen, ← Int.natCast_mul, ← Int.natCast_mul, ← Int.natAbs_mul, ← Int.natAbs_mul]; omega
      have e : v.length = d.x.natAbs * d.y.natAbs * d.z.natAbs := by exact_mod_cast e
      have hs : d.x.natAbs * d.y.natAbs * d.z.natAbs ≤ 2147483647 := by omega
      have px : 0 < d.x.natAbs := Int.natAbs_pos.2 (by rintro h; simp [h] at hpos)
      have py : 0 < d.y.natAbs := Int.natAbs_pos.2 (by rintro h; simp [h] at hpos)
      have pz : 0 < d.z.natAbs := Int.natAbs_pos.2 (by rintro h; simp [h] at hpos)
      have bx : d.x.natAbs ≤ 2147483647 := le_trans (by nlinarith [Nat.mul_le_mul px py, Nat.mul_le_mul (Nat.mul_le_mul_left d.x.natAbs py) pz]) hs
      have by_ : d.y.natAbs ≤ 2147483647 := le_trans (by nlinarith [Nat.mul_le_mul (Nat.mul_le_mul_right d.y.natAbs px) pz]) hs
      have bz : d.z.natAbs ≤ 2147483647 := le_trans (by nlinarith [Nat.mul_le_mul_right d.z.natAbs (Nat.mul_le_mul px py)]) hs
      obtain ⟨x1, x2⟩ := abs_lt hx.1 hx.2
      obtain ⟨y1, y2⟩ := abs_lt hy.1 hy.2
      obtain ⟨z1, z2⟩ := abs_lt hz.1 hz.2
      have x1 : d.x.natAbs ≤ u32 d.x := by exact_mod_cast x1
      have y1 : d.y.natAbs ≤ u32 d.y := by exact_mod_cast y1
      have z1 : d.z.natAbs ≤ u32 d.z := by exact_mod_cast z1
      rw [e] at h
      apply absurd h
      push Not
      obtain n | n | n := hneg
      · exact Nat.mul_lt_mul_of_lt_of_le (Nat.mul_lt_mul_of_lt_of_le (x2 n (by omega)) y1 (lt_of_lt_of_le py y1)) z1 (lt_of_lt_of_le pz z1)
      · exact Nat.mul_lt_mul_of_lt_of_le (Nat.mul_lt_mul_of_le_of_lt x1 (y2 n (by omega)) (lt_of_lt_of_le px x1)) z1 (lt_of_lt_of_le pz z1)
      · exact Nat.mul_lt_mul_of_le_of_lt (Nat.mul_le_mul x1 y1) (z2 n (by omega)) (Nat.mul_pos (lt_of_lt_of_le px x1) (lt_of_lt_of_le py y1))
  · rintro (⟨nx, ny, nz⟩ | h)
    · by_cases h0 : v = []
      · exact none_ h0
      · obtain ⟨X, hX⟩ := Int.eq_ofNat_of_zero_le nx
        obtain ⟨Y, hY⟩ := Int.eq_ofNat_of_zero_le ny
        obtain ⟨Z, hZ⟩ := Int.eq_ofNat_of_zero_le nz
        have hv' : v.length = X * Y * Z := by rw [hX, hY, hZ] at hlen; exact_mod_cast hlen
        have hp : 0 < X * Y * Z := by rw [← hv']; exact List.length_pos_iff.2 h0
        have hs : X * Y * Z < 2147483648 := by
          rw [hX, hY, hZ] at hsmall
          have : ((X * Y * Z : Nat) : Int) ≤ 2147483647 := by exact_mod_cast hsmall
          omega
        have g : Good X Y Z := ⟨Nat.pos_of_ne_zero (by rintro rfl; simp at hp), Nat.pos_of_ne_zero (by rintro rfl; simp at hp),
          Nat.pos_of_ne_zero (by rintro rfl; simp at hp), hs⟩
        obtain ⟨M', e', -⟩ := C02_setEntries g M (by rw [hd]; ext <;> assumption) (hv ▸ hv') v hv'
        exact ⟨M', e'⟩
    · exact none_ h

/-- The hypotheses of `C02_exact` are met by a matrix with two negative dimensions. -/
example : Matrix.ofDim ⟨-2, -1, 3⟩ (0 : Int) = .ok ⟨⟨-2, -1, 3⟩, [0, 0, 0, 0, 0, 0]⟩ ∧ I32 (-2) ∧ I32 (-1) ∧ I32 3 := by decide

/-- C02 is false for two negative dimensions. -/
theorem C02_violated : ¬ C02_claim := by
  intro h
  obtain ⟨M', e⟩ := h ⟨-1, -1, 1⟩ 7 ⟨⟨-1, -1, 1⟩, [7]⟩ [5] (by decide) rfl
  have := (C02_exact ⟨-1, -1, 1⟩ (by decide) (by decide) (by decide) (7 : Int) ⟨⟨-1, -1, 1⟩, [7]⟩ (by decide) [5] rfl).1 ⟨by decide, by decide⟩
  rw [this] at e
  cases e

example : Matrix.ofVals (dimN 2 2 1) [1, 2, 3, 4] = .ok (⟨dimN 2 2 1, [1, 3, 2, 4]⟩ : Matrix Int) := by decide
example : Matrix.ofVals (dimN 2 2 1) [1, 2, 3] = (.throw .matrixSize : Res (Matrix Int)) := by decide

/-! ## C03 -/

/-- C03: the loop over a matrix or lazy expression, the loop over a view, and `std::copy` over either visit
exactly `X*Y*Z` positions, the `n`-th being flat position `n`. -/
theorem C03_visits {X Y Z : Nat} (g : Good X Y Z) :
    trace (forRange (dimN X Y Z)) = .ok (visits X Y Z) ∧
    trace (forRangeView (dimN X Y Z)) = .ok (visits X Y Z) ∧
    trace (copyRange (dimN X Y Z) (Iter.fin (dimN X Y Z))) = .ok (visits X Y Z) ∧
    trace (copyRange (dimN X Y Z) (Iter.finView (dimN X Y Z))) = .ok (visits X Y Z) := by
  unfold trace
  have hx : (0 : Int) < (dimN X Y Z).x := by simpa using g.x
  have hy : (0 : Int) < (dimN X Y Z).y := by simpa using g.y
  have hz : (0 : Int) ≤ (dimN X Y Z).z := by simp
  refine ⟨?_, ?_, ?_, ?_⟩
  · rw [forRange_eq_fold _ hz, trace_range, fuel_dimN g.x g.y, visits_eq g.x g.y]
  · rw [forRangeView_eq_fold _ hz, trace_range, fuel_dimN g.x g.y, visits_eq g.x g.y]
  · rw [copyRange_eq_fold _ hx hy hz _ ⟨rfl, rfl⟩, trace_range, fuel_dimN g.x g.y, visits_eq g.x g.y]
  · rw [copyRange_eq_fold _ hx hy hz _ (finView_idx _), trace_range, fuel_dimN g.x g.y, visits_eq g.x g.y]

/-- C03: the visiting sequence has `size()` steps, never repeats an index, reaches every index, and the index
reported at step `n` addresses slot `n`. -/
theorem C03_visits_once {X Y Z : Nat} (g : Good X Y Z) :
    (visits X Y Z).length = X * Y * Z ∧ ((visits X Y Z).map Iter.idx).Nodup ∧
    (∀ i < X, ∀ j < Y, ∀ k < Z, dimN i j k ∈ (visits X Y Z).map Iter.idx) ∧
    (∀ it ∈ visits X Y Z, getIndex (dimN X Y Z) it.idx = it.scalar ∧ it.scalar < X * Y * Z) ∧
    (Iter.fin (dimN X Y Z)).diff (Iter.beg (dimN X Y Z)) = X * Y * Z ∧
    (Iter.finView (dimN X Y Z)).diff (Iter.beg (dimN X Y Z)) = X * Y * Z := by
  have hget : ∀ it ∈ visits X Y Z, getIndex (dimN X Y Z) it.idx = it.scalar ∧ it.scalar < X * Y * Z := by
    intro it hit
    simp only [visits, List.mem_map, List.mem_range] at hit
    obtain ⟨n, hn, rfl⟩ := hit
    obtain ⟨hi, hj, hk⟩ := unflat_lt g.x g.y hn
    exact ⟨by rw [getIndex_dimN g hi hj hk, fl_unflat], hn⟩
  refine ⟨by simp [visits], ?_, ?_, hget, ?_, ?_⟩
  · rw [visits, List.map_map]
    refine List.Nodup.map_on ?_ List.nodup_range
    intro a ha b hb h
    simp only [Function.comp, dimN_inj] at h
    rw [← fl_unflat X Y a, ← fl_unflat X Y b, h.1, h.2.1, h.2.2]
  · intro i hi j hj k hk
    simp only [visits, List.map_map, List.mem_map, List.mem_range, Function.comp]
    refine ⟨fl X Y i j k, fl_lt hi hj hk, ?_⟩
    rw [fl_mod hi, fl_div_mod hi hj, fl_div_div hi hj]
  · simp [Iter.diff, Iter.fin, Iter.beg, Iter.mk']; ring
  · have h := finView_idx (dimN X Y Z)
    simp only [Iter.diff, h.1, h.2]
    simp [Iter.fin, Iter.beg, Iter.mk']; ring

/-- C03: dereferencing the iterator (through its scalar index) is reading the entry at the reported index. -/
theorem C03_deref {X Y Z : Nat} (g : Good X Y Z) (M : Matrix α) (hd : M.dim = dimN X Y Z) :
    ∀ it ∈ visits X Y Z, M.expr.deref it = M.read it.idx := by
  intro it hit
  have := ((C03_visits_once g).2.2.2.1 it hit).1
  simp only [Matrix.expr, Matrix.read, hd, this]

/-- C03: an iterator may also be made at any index of the matrix (the constructor of `MatrixIterator` is public). It is the one the loop
has there: dereferencing it reads the entry, incrementing it leads to the entry stored next (and from the last one to `end()`), the
difference of two is the distance of their entries in storage, and they are equal only at the same index. -/
theorem C03_random_access {X Y Z : Nat} (g : Good X Y Z) {i j k : Nat} (hi : i < X) (hj : j < Y) (hk : k < Z) :
    Iter.mk' (dimN X Y Z) (dimN i j k) ∈ visits X Y Z ∧
    (∀ M : Matrix α, M.dim = dimN X Y Z → M.expr.deref (Iter.mk' (dimN X Y Z) (dimN i j k)) = M.read (dimN i j k)) ∧
    (∀ i' < X, ∀ j' < Y, ∀ k' < Z,
      (Iter.mk' (dimN X Y Z) (dimN i j k)).diff (Iter.mk' (dimN X Y Z) (dimN i' j' k')) =
        (getIndex (dimN X Y Z) (dimN i j k) : Int) - getIndex (dimN X Y Z) (dimN i' j' k') ∧
      ((Iter.mk' (dimN X Y Z) (dimN i j k)).same (Iter.mk' (dimN X Y Z) (dimN i' j' k')) = true ↔ (i, j, k) = (i', j', k')) ∧
      (getIndex (dimN X Y Z) (dimN i' j' k') = getIndex (dimN X Y Z) (dimN i j k) + 1 →
        (Iter.mk' (dimN X Y Z) (dimN i j k)).next = Iter.mk' (dimN X Y Z) (dimN i' j' k'))) ∧
    (getIndex (dimN X Y Z) (dimN i j k) + 1 = X * Y * Z →
      (Iter.mk' (dimN X Y Z) (dimN i j k)).next = Iter.fin (dimN X Y Z)) := by
  have at_ : ∀ {i j k : Nat}, i < X → j < Y → k < Z → Iter.mk' (dimN X Y Z) (dimN i j k) = iterAt (dimN X Y Z) (fl X Y i j k) := by
    intro i j k hi hj hk
    have lt := fl_lt (Z := Z) hi hj hk
    have hs := g.small
    have e : ((k : Int) * X * Y + j * X + i) = (fl X Y i j k : Nat) := by unfold fl; push_cast; ring
    simp only [Iter.mk', iterAt, e]
    congr 1
    · have hx := g.x; have hy := g.y
      have eX : (max (X : Int) 1).toNat = X := by omega
      have eY : (max (Y : Int) 1).toNat = Y := by omega
      rw [eX, eY, unflat_fl hi hj]
    · omega
  refine ⟨?_, ?_, ?_, ?_⟩
  · rw [at_ hi hj hk, ← visits_eq g.x g.y]
    exact List.mem_map.2 ⟨_, List.mem_range.2 (by simpa using fl_lt hi hj hk), rfl⟩
  · intro M hd
    rw [at_ hi hj hk]
    simp only [Matrix.expr, Matrix.read, hd, getIndex_dimN g hi hj hk, iterAt]
  · intro i' hi' j' hj' k' hk'
    refine ⟨?_, ?_, ?_⟩
    · rw [getIndex_dimN g hi hj hk, getIndex_dimN g hi' hj' hk']
      simp only [Iter.diff, Iter.mk', Dim3.sub_mk, fl]
      push_cast
      ring
    · simp [Iter.same, Iter.mk']
    · intro h
      rw [getIndex_dimN g hi hj hk, getIndex_dimN g hi' hj' hk'] at h
      rw [at_ hi hj hk, at_ hi' hj' hk', iterAt_next, h]
  · intro h
    rw [getIndex_dimN g hi hj hk] at h
    rw [at_ hi hj hk, iterAt_next, h]
    have hs := g.small
    have hx := g.x; have hy := g.y
    have eX : (max (X : Int) 1).toNat = X := by omega
    have eY : (max (Y : Int) 1).toNat = Y := by omega
    have e : ((Z : Int) * X * Y + 0 * X + 0) = (X * Y * Z : Nat) := by push_cast; ring
    simp only [iterAt, Iter.fin, Iter.mk', eX, eY, e]
    congr 1
    · exact (unflat_eq_top hx hy (le_refl _)).2 rfl
    · omega

example : (Iter.mk' (dimN 2 3 4) (dimN 1 2 3)).diff (Iter.mk' (dimN 2 3 4) (dimN 0 1 1)) = 15 := by decide

example : trace (forRange (dimN 2 1 2)) =
    .ok [⟨dimN 0 0 0, dimN 2 1 2, 0⟩, ⟨dimN 1 0 0, dimN 2 1 2, 1⟩, ⟨dimN 0 0 1, dimN 2 1 2, 2⟩,
      ⟨dimN 1 0 1, dimN 2 1 2, 3⟩] := by decide

/-! ## C04 -/

/-- The full claim C04. -/
def C04_claim : Prop := ∀ (d : Dim3) (v : Int) (M : Matrix Int), Matrix.ofDim d v = .ok M → iterate M = .ok ()

/-- C04 is false: a 0×1×1 matrix is accepted by the constructor (it has no entries), but a loop over it
dereferences a position that does not exist. -/
theorem C04_violated : ¬ C04_claim := by
  intro h
  have := h ⟨0, 1, 1⟩ 7 ⟨⟨0, 1, 1⟩, []⟩ (by decide)
  exact absurd this (by decide)

/-- What holds instead, exactly: for every matrix the constructor accepts, the loop stays inside the storage iff
its third dimension is not negative and the number of positions it visits, `max(x,1)*max(y,1)*z`, does not
exceed the number of entries. -/
theorem C04_exact (d : Dim3) (v : α) (M : Matrix α) (hM : Matrix.ofDim d v = .ok M) :
    iterate M = .ok () ↔
      0 ≤ d.z ∧ (max d.x 1).toNat * (max d.y 1).toNat * d.z.toNat ≤ M.vals.length := by
  have hd : M.dim = d := by
    simp only [Matrix.ofDim] at hM
    cases h : vecSize d <;> simp [h] at hM
    rw [← hM]
  unfold iterate
  rw [hd]
  by_cases hz : 0 ≤ d.z
  · rw [forRange_eq_fold _ hz]
    show _ ↔ 0 ≤ d.z ∧ Iter.fuel d ≤ _
    have hb : ∀ m, (do let _ ← M.flat (iterAt d m).scalar; Res.ok () : Res Unit) =
        if m < M.vals.length then .ok () else .ub := by
      intro m
      by_cases hm : m < M.vals.length
      · simp [iterAt, Matrix.flat_of_lt hm, hm]
      · simp [iterAt, Matrix.flat_ub (not_lt.1 hm), hm]
    constructor
    · intro h
      refine ⟨hz, ?_⟩
      by_contra hlt
      have := foldlM_range_fail (fun _ (_ : Unit) => True) (Iter.fuel d) M.vals.length (by omega)
        (fun (_ : Unit) (m : Nat) => (do let _ ← M.flat (iterAt d m).scalar; Res.ok () : Res Unit)) () .ub
        (fun f => rfl) trivial (by intro n hn s _; exact ⟨(), by rw [hb, if_pos hn], trivial⟩)
        (by intro s _; rw [hb, if_neg (lt_irrefl _)])
      rw [this] at h
      cases h
    · rintro ⟨_, h⟩
      obtain ⟨_, e, _⟩ := foldlM_range_inv (fun _ (_ : Unit) => True) (Iter.fuel d)
        (fun (_ : Unit) (m : Nat) => (do let _ ← M.flat (iterAt d m).scalar; Res.ok () : Res Unit)) () trivial
        (by intro n hn s _; exact ⟨(), by rw [hb, if_pos (by omega)], trivial⟩)
      exact e
  · have hf : Iter.fuel d = 0 := by
      unfold Iter.fuel
      rw [show d.z.toNat = 0 by omega, Nat.mul_zero]
    have : forRange d (fun (_ : Unit) it => (do let _ ← M.flat it.scalar; Res.ok () : Res Unit)) () = .ub := by
      unfold forRange
      rw [hf]
      have : ¬ (Iter.beg d).same (Iter.fin d) = true := by
        simp [Iter.same, Iter.beg, Iter.fin, Iter.mk']; omega
      simp [Iter.loop, this]
    rw [this]
    simp [hz]

/-- C04 for the matrices the program normally uses: positive dimensions, or no layers at all (this includes
default-constructed and moved-from matrices). Missing for the full claim: matrices with `x = 0` or `y = 0`
but `z > 0` (see `C04_violated`) and negative dimensions. -/
theorem C04_iteration_safe_partial (d : Dim3) (v : α) (M : Matrix α) (hM : Matrix.ofDim d v = .ok M)
    (h : (0 < d.x ∧ 0 < d.y ∧ 0 < d.z) ∨ d.z = 0) : iterate M = .ok () := by
  rw [C04_exact d v M hM]
  rcases h with ⟨hx, hy, hz⟩ | h
  · refine ⟨hz.le, ?_⟩
    obtain ⟨X, hX⟩ := Int.eq_ofNat_of_zero_le hx.le
    obtain ⟨Y, hY⟩ := Int.eq_ofNat_of_zero_le hy.le
    obtain ⟨Z, hZ⟩ := Int.eq_ofNat_of_zero_le hz.le
    have e1 : (max d.x 1).toNat = X := by omega
    have e2 : (max d.y 1).toNat = Y := by omega
    have e3 : d.z.toNat = Z := by omega
    rw [e1, e2, e3]
    simp only [Matrix.ofDim, vecSize, Dim3.volume, hX, hY, hZ] at hM
    rcases d with ⟨dx, dy, dz⟩
    simp only at hX hY hZ
    subst hX hY hZ
    by_cases c1 : I32 ((X : Int) * Y)
    · rw [chk_ok c1] at hM
      simp only [Res.bind_ok] at hM
      by_cases c2 : I32 ((X : Int) * Y * Z)
      · rw [chk_ok c2] at hM
        simp only [Res.bind_ok] at hM
        have e : ((X : Int) * Y * Z) = ((X * Y * Z : Nat) : Int) := by push_cast; rfl
        rw [e, if_neg (by omega)] at hM
        simp only [Res.bind_ok, Int.toNat_natCast, Res.ok.injEq] at hM
        rw [← hM]; simp
      · rw [chk_ub c2] at hM; cases hM
    · rw [chk_ub c1] at hM; cases hM
  · rw [h]; simp

example : Matrix.ofDim ⟨2, 3, 1⟩ (5 : Int) = .ok ⟨⟨2, 3, 1⟩, [5, 5, 5, 5, 5, 5]⟩ := by decide
example : iterate (Matrix.empty : Matrix Int) = .ok () := by decide

/-! ## C05 -/

/-- C05, reshape: same product → only the dimensions change; different product → exception. The products are
assumed representable in `int` (otherwise the code has undefined behaviour). -/
theorem C05_reshape (M : Matrix α) (d : Dim3) (a b : Int) (ha : d.volume = .ok a) (hb : M.dim.volume = .ok b) :
    (a = b → ∃ M', M.reshape d = .ok M' ∧ M'.dim = d ∧ ∀ n, M'.flat n = M.flat n) ∧
    (a ≠ b → M.reshape d = .throw .matrixTransform) := by
  constructor
  · rintro rfl
    exact ⟨⟨d, M.vals⟩, by simp [Matrix.reshape, ha, hb], rfl, fun _ => rfl⟩
  · intro h
    simp [Matrix.reshape, ha, hb, h]

/-- C05, reshape between ordinary shapes, in terms of entries: position `(i,j,k)` of the new shape holds the
entry with the same flat position. -/
theorem C05_reshape_entries {X Y Z X' Y' Z' : Nat} (M : Matrix α) (f : Nat → Nat → Nat → α) (hM : M.Shows X Y Z f)
    (g' : Good X' Y' Z') (h : X' * Y' * Z' = X * Y * Z) :
    ∃ M', M.reshape (dimN X' Y' Z') = .ok M' ∧ M'.Shows X' Y' Z' (fun i j k =>
      f ((i + j * X' + k * (X' * Y')) % X) ((i + j * X' + k * (X' * Y')) / X % Y)
        ((i + j * X' + k * (X' * Y')) / X / Y)) := by
  refine ⟨⟨dimN X' Y' Z', M.vals⟩, ?_, ?_⟩
  · simp only [Matrix.reshape, hM.dim, volume_dimN g'.bounds.1 g'.small, volume_dimN hM.good.bounds.1 hM.good.small,
      Res.bind_ok, h]
    simp
  · refine Matrix.Shows.of_flat g' rfl (by rw [h]; exact hM.length) ?_
    intro n hn
    have := hM.flat_lt (n := n) (by omega)
    have e := fl_unflat X' Y' n
    unfold fl at e
    rw [e]
    exact this

/-- C05, resize: the first `min(old,new)` flat entries are kept, the rest are zero. -/
theorem C05_resize (M : Matrix α) (zero : α) {X Y Z : Nat} (h1 : X * Y < 2147483648) (h2 : X * Y * Z < 2147483648) :
    ∃ M', M.resize (dimN X Y Z) zero = .ok M' ∧ M'.dim = dimN X Y Z ∧ M'.vals.length = X * Y * Z ∧
      (∀ n < min M.vals.length (X * Y * Z), M'.flat n = M.flat n) ∧
      (∀ n, M.vals.length ≤ n → n < X * Y * Z → M'.flat n = .ok zero) := by
  refine ⟨⟨dimN X Y Z, Matrix.vecResize M.vals (X * Y * Z) zero⟩, by simp [Matrix.resize, vecSize_dimN h1 h2], rfl,
    by simp [Matrix.vecResize]; omega, ?_, ?_⟩
  · intro n hn
    simp only [Matrix.flat, Matrix.vecResize]
    rw [List.getElem?_append_left (by simp; omega), List.getElem?_take_of_lt (by omega)]
  · intro n h3 h4
    simp only [Matrix.flat, Matrix.vecResize]
    rw [List.getElem?_append_right (by simp; omega)]
    simp only [List.length_take, List.getElem?_replicate]
    rw [if_pos (by omega)]; rfl

example : (⟨⟨2, 3, 1⟩, [1, 2, 3, 4, 5, 6]⟩ : Matrix Int).reshape ⟨3, 2, 1⟩ = .ok ⟨⟨3, 2, 1⟩, [1, 2, 3, 4, 5, 6]⟩ := by
  decide
example : (⟨⟨2, 1, 1⟩, [1, 2]⟩ : Matrix Int).resize ⟨2, 2, 1⟩ 0 = .ok ⟨⟨2, 2, 1⟩, [1, 2, 0, 0]⟩ := by decide

/-! ## C06 -/

/-- C06, move: the destination gets dimensions and entries, the source becomes an empty 0×0×0 matrix over which
iteration is harmless. -/
theorem C06_move (M : Matrix α) :
    M.move.1.dim = M.dim ∧ M.move.1.vals = M.vals ∧ M.move.2.dim = ⟨0, 0, 0⟩ ∧ M.move.2.vals = [] ∧
      iterate M.move.2 = .ok () := by
  exact ⟨rfl, rfl, rfl, rfl, rfl⟩

/-- C06 does not extend to a matrix moved to itself: whatever the vector does with its values, the dimensions are lost, and
none of the entries is reached by iteration. -/
theorem C06_self_move {X Y Z : Nat} (M : Matrix α) (f : Nat → Nat → Nat → α) (hM : M.Shows X Y Z f) (hX : 0 < X) (left : List α) :
    (M.selfMove left).dim = ⟨0, 0, 0⟩ ∧ M.selfMove left ≠ M ∧
      ∀ (β : Type) (body : β → Iter → Res β) (b : β), forRange (M.selfMove left).dim body b = .ok b := by
  refine ⟨rfl, fun h => ?_, fun β body b => rfl⟩
  have h1 : (0 : Dim3).x = (dimN X Y Z).x := by rw [← hM.dim, ← h]; rfl
  have h2 : (0 : Int) = X := h1
  omega

/-- C06: converting construction from any matrix-like object. -/
theorem C06_convert [Zero β] {X Y Z : Nat} (e : MExpr α) (f : Nat → Nat → Nat → α) (he : e.Shows X Y Z f)
    (cast : α → β) : ∃ M, Matrix.ofExpr cast e = .ok M ∧ M.Shows X Y Z (fun i j k => cast (f i j k)) :=
  Matrix.ofExpr_shows he cast

/-- C06: copying a matrix through the generic constructor or assignment gives an equal matrix. -/
theorem C06_copy_equal [Zero α] {X Y Z : Nat} (M N : Matrix α) (f : Nat → Nat → Nat → α) (hM : M.Shows X Y Z f) :
    Matrix.ofExpr id M.expr = .ok M ∧ N.assignExpr M.dim (fun _ => M.expr.deref) = .ok M := by
  obtain ⟨M', e, s⟩ := Matrix.ofExpr_shows hM.expr id
  obtain ⟨M2, e2, s2⟩ := Matrix.assignExpr_shows hM.expr N
  exact ⟨by rw [e, s.unique hM], by rw [show M.dim = M.expr.dim from rfl, e2, s2.unique hM]⟩

/-- C06: converting assignment (`SimpleMatrix<T> = SimpleMatrix<Other>`). -/
theorem C06_convert_assign {X Y Z : Nat} (M : Matrix α) (N : Matrix β) (f : Nat → Nat → Nat → β)
    (hN : N.Shows X Y Z f) (cast : β → α) (zero : α) :
    ∃ M', M.assignConvert cast zero N = .ok M' ∧ M'.Shows X Y Z (fun i j k => cast (f i j k)) := by
  have hl : (Matrix.vecResize M.vals (X * Y * Z) zero).length = X * Y * Z := by
    simp [Matrix.vecResize]; omega
  refine ⟨⟨dimN X Y Z, N.vals.map cast⟩, ?_, ?_⟩
  · simp only [Matrix.assignConvert, hN.dim, hN.good.vecSize, Res.bind_ok, hN.length, hl, le_refl, if_true]
    rw [List.drop_eq_nil_of_le (by omega), List.append_nil]
  · refine Matrix.Shows.of_vals hN.good rfl ?_
    rw [hN.vals_eq, List.map_map]; rfl

/-- An instance of the hypotheses: a 1×2×1 matrix. -/
example : (⟨dimN 1 2 1, [10, 20]⟩ : Matrix Int).Shows 1 2 1 (fun _ j _ => if j = 0 then 10 else 20) := by
  refine ⟨⟨by decide, by decide, by decide, by decide⟩, rfl, rfl, ?_⟩
  intro i hi j hj k hk
  have : i = 0 := by omega
  have : k = 0 := by omega
  have : j = 0 ∨ j = 1 := by omega
  subst_vars
  rcases this with rfl | rfl <;> decide

end Cnn
