import Verif.Lemmas.Shows
/-!
# `setEntries` for any dimensions (C02)
-/
namespace Cnn
variable {α : Type}

/-- A loop each step of which lowers `m` by `k`. -/
theorem foldlM_count {σ ι : Type} (m : σ → Nat) (k : Nat) (f : σ → ι → Res σ)
    (hf : ∀ s i, f s i = .ub ∨ ∃ s', f s i = .ok s' ∧ m s' + k = m s) :
    ∀ (l : List ι) (s : σ), l.foldlM f s = .ub ∨ ∃ s', l.foldlM f s = .ok s' ∧ m s' + k * l.length = m s
  | [], s => Or.inr ⟨s, rfl, by simp⟩
  | i :: l, s => by
    rw [List.foldlM_cons]
    obtain e | ⟨s₁, e, h⟩ := hf s i
    · rw [e]; exact Or.inl rfl
    · rw [e, Res.bind_ok]
      obtain e' | ⟨s₂, e', h'⟩ := foldlM_count m k f hf l s₁
      · exact Or.inl e'
      · refine Or.inr ⟨s₂, e', ?_⟩
        rw [List.length_cons, Nat.mul_add]
        omega

/-- A loop that does nothing. -/
theorem foldlM_still {σ ι : Type} (f : σ → ι → Res σ) (hf : ∀ s i, f s i = .ok s) (l : List ι) (s : σ) : l.foldlM f s = .ok s := by
  induction l with
  | nil => rfl
  | cons i l ih => rw [List.foldlM_cons, hf, Res.bind_ok, ih]

theorem putNext_count (row col layer : Nat) (s : Matrix α × List α) :
    Matrix.putNext row col layer s = .ub ∨ ∃ s', Matrix.putNext row col layer s = .ok s' ∧ s'.2.length + 1 = s.2.length := by
  obtain ⟨M, v⟩ := s
  cases v with
  | nil => exact Or.inl rfl
  | cons a v =>
    simp only [Matrix.putNext, Matrix.write, Matrix.setFlat]
    split
    · exact Or.inr ⟨_, rfl, rfl⟩
    · exact Or.inl rfl

/-- `setEntries` uses as many values as its loops have steps. -/
theorem setEntries_count (M : Matrix α) (v : List α) (hv : v.length = M.vals.length) :
    M.setEntries v = .ub ∨ (∃ M', M.setEntries v = .ok M') ∧ u32 M.dim.x * u32 M.dim.y * u32 M.dim.z ≤ v.length := by
  unfold Matrix.setEntries
  rw [if_pos hv]
  obtain e | ⟨s, e, h⟩ := foldlM_count (σ := Matrix α × List α) (fun s => s.2.length) (1 * u32 M.dim.y * u32 M.dim.x)
    (fun s layer => (List.range (u32 M.dim.x)).foldlM (fun s row =>
        (List.range (u32 M.dim.y)).foldlM (fun s col => Matrix.putNext row col layer s) s) s) (by
      intro s layer
      have := foldlM_count (σ := Matrix α × List α) (fun s => s.2.length) (1 * u32 M.dim.y)
        (fun s row => (List.range (u32 M.dim.y)).foldlM (fun s col => Matrix.putNext row col layer s) s) (by
          intro s row
          have := foldlM_count (σ := Matrix α × List α) (fun s => s.2.length) 1 (fun s col => Matrix.putNext row col layer s)
            (fun s col => putNext_count row col layer s) (List.range (u32 M.dim.y)) s
          rwa [List.length_range] at this) (List.range (u32 M.dim.x)) s
      rwa [List.length_range] at this) (List.range (u32 M.dim.z)) (M, v)
  · left; rw [e]; rfl
  · right
    rw [e, Res.bind_ok]
    refine ⟨⟨_, rfl⟩, ?_⟩
    rw [List.length_range] at h
    have : u32 M.dim.x * u32 M.dim.y * u32 M.dim.z = 1 * u32 M.dim.y * u32 M.dim.x * u32 M.dim.z := by ring
    rw [this]
    exact Nat.le.intro (by rw [Nat.add_comm]; exact h)

/-- No steps, nothing happens. -/
theorem setEntries_none (M : Matrix α) (v : List α) (hv : v.length = M.vals.length) (h : M.dim.x = 0 ∨ M.dim.y = 0 ∨ M.dim.z = 0) :
    M.setEntries v = .ok M := by
  have z : u32 0 = 0 := rfl
  unfold Matrix.setEntries
  rw [if_pos hv]
  suffices e : (List.range (u32 M.dim.z)).foldlM (fun (s : Matrix α × List α) layer =>
      (List.range (u32 M.dim.x)).foldlM (fun s row =>
        (List.range (u32 M.dim.y)).foldlM (fun s col => Matrix.putNext row col layer s) s) s) (M, v) = .ok (M, v) by rw [e]; rfl
  obtain h | h | h := h
  · refine foldlM_still _ (fun s i => ?_) _ _
    rw [h, z]; rfl
  · refine foldlM_still _ (fun s i => foldlM_still _ (fun s j => ?_) _ _) _ _
    rw [h, z]; rfl
  · rw [h, z]; rfl

end Cnn
