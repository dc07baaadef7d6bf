import Verif.Lemmas.Shows
/-!
Helper lemmas for `setEntries`.
-/
namespace Cnn

theorem u32_nat {n : Nat} (h : n < 4294967296) : u32 (n : Int) = n := by
  unfold u32; omega

theorem u64_nat {n : Nat} (h : n < 18446744073709551616) : u64 (n : Int) = n := by
  unfold u64; omega

namespace Matrix
variable {α : Type}

/-- Contents after the first `c` values of `v` have been stored in reading order. -/
def filled (X Y : Nat) (v : List α) (f : Nat → Nat → Nat → α) (c : Nat) (i j k : Nat) : α :=
  if fl Y X j i k < c then v.getD (fl Y X j i k) (f i j k) else f i j k

theorem putNext_step {X Y Z : Nat} {f : Nat → Nat → Nat → α} {v : List α} {M : Matrix α}
    (hv : v.length = X * Y * Z) {r c l n : Nat} (hn : n = fl Y X c r l) (hr : r < X) (hc : c < Y) (hl : l < Z)
    (hM : M.Shows X Y Z (filled X Y v f n)) :
    ∃ M', putNext r c l (M, v.drop n) = .ok (M', v.drop (n + 1)) ∧
      M'.Shows X Y Z (filled X Y v f (n + 1)) := by
  subst hn
  have hlt : fl Y X c r l < v.length := by
    rw [hv, Nat.mul_comm X Y]; exact fl_lt hc hr hl
  obtain ⟨M', e, s⟩ := hM.write hr hc hl v[fl Y X c r l]
  refine ⟨M', ?_, s.congr ?_⟩
  · rw [List.drop_eq_getElem_cons hlt]
    simp only [putNext]
    rw [show (⟨(r : Int), (c : Int), (l : Int)⟩ : Dim3) = dimN r c l from rfl, e]
    rfl
  · intro i hi j hj k hk
    by_cases h : i = r ∧ j = c ∧ k = l
    · rw [if_pos h]
      obtain ⟨rfl, rfl, rfl⟩ := h
      simp [filled, List.getD, hlt]
    · rw [if_neg h]
      have : fl Y X j i k ≠ fl Y X c r l := by
        intro e; have := fl_inj hj hi hc hr e; tauto
      unfold filled
      by_cases c2 : fl Y X j i k < fl Y X c r l
      · rw [if_pos c2, if_pos (by omega)]
      · rw [if_neg c2, if_neg (by omega)]

theorem setEntries_shows {X Y Z : Nat} {f : Nat → Nat → Nat → α} {v : List α} {M : Matrix α}
    (hM : M.Shows X Y Z f) (hv : v.length = X * Y * Z) :
    ∃ M', M.setEntries v = .ok M' ∧ M'.Shows X Y Z (fun i j k => v.getD (fl Y X j i k) (f i j k)) := by
  obtain ⟨_, bX, bY, bZ⟩ := hM.good.bounds
  have loop := foldlM_range_inv
    (fun l s => s.2 = v.drop (fl Y X 0 0 l) ∧ s.1.Shows X Y Z (filled X Y v f (fl Y X 0 0 l))) Z
    (fun s layer =>
      (List.range X).foldlM (fun s row =>
        (List.range Y).foldlM (fun s col => putNext row col layer s) s) s) (M, v)
    ⟨by simp [fl], hM.congr (by intro i _ j _ k _; simp [filled, fl])⟩ (by
      intro l hl s hs
      have row := foldlM_range_inv
        (fun r s => s.2 = v.drop (fl Y X 0 r l) ∧ s.1.Shows X Y Z (filled X Y v f (fl Y X 0 r l))) X
        (fun s row => (List.range Y).foldlM (fun s col => putNext row col l s) s) s hs (by
          intro r hr s hs
          have col := foldlM_range_inv
            (fun c s => s.2 = v.drop (fl Y X c r l) ∧ s.1.Shows X Y Z (filled X Y v f (fl Y X c r l))) Y
            (fun s col => putNext r col l s) s hs (by
              rintro c hc ⟨M1, v1⟩ ⟨e1, h1⟩
              simp only at e1 h1
              subst e1
              obtain ⟨M2, e2, h2⟩ := putNext_step hv rfl hr hc hl h1
              have e : fl Y X (c + 1) r l = fl Y X c r l + 1 := by unfold fl; ring
              exact ⟨(M2, v.drop (fl Y X c r l + 1)), e2, by rw [e], by rw [e]; exact h2⟩)
          have e : fl Y X Y r l = fl Y X 0 (r + 1) l := by unfold fl; ring
          rw [e] at col
          exact col)
      have e : fl Y X 0 X l = fl Y X 0 0 (l + 1) := by unfold fl; ring
      rw [e] at row
      exact row)
  obtain ⟨⟨M', v'⟩, e, h1, h2⟩ := loop
  refine ⟨M', ?_, h2.congr ?_⟩
  · have ed := hM.dim
    simp only [setEntries, hv, hM.length, if_true, ed, u32_nat (show X < 4294967296 by omega),
      u32_nat (show Y < 4294967296 by omega), u32_nat (show Z < 4294967296 by omega)]
    rw [e]; rfl
  · intro i hi j hj k hk
    have : fl Y X j i k < fl Y X 0 0 Z := by
      have := fl_lt hj hi hk
      have e2 : fl Y X 0 0 Z = Y * X * Z := by unfold fl; ring
      omega
    simp [filled, this]

/-- Every matrix of ordinary shape shows some contents. -/
theorem exists_shows {M : Matrix α} {X Y Z : Nat} (g : Good X Y Z) (hd : M.dim = dimN X Y Z)
    (hl : M.vals.length = X * Y * Z) : ∃ f, M.Shows X Y Z f := by
  have hpos : 0 < M.vals.length := by rw [hl]; exact Nat.mul_pos (Nat.mul_pos g.x g.y) g.z
  refine ⟨fun i j k => M.vals.getD (fl X Y i j k) (M.vals[0]), Shows.of_flat g hd hl ?_⟩
  intro n hn
  rw [flat_eq_ok, fl_unflat]
  simp [List.getD, hl, hn]

end Matrix
end Cnn
