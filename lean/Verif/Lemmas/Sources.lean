import Verif.Model.Train
/-!
# Two lists of epochs with the same images
-/
namespace Cnn
namespace Overlap
open Train
variable {α : Type}

theorem sources_all {β γ : Type} {P : List (Sample α) → Prop} {xs : List (β × List (Sample α))} {ys : List (γ × List (Sample α))}
    (h : xs.map Prod.snd = ys.map Prod.snd) (hy : ∀ e ∈ ys, P e.2) : ∀ e ∈ xs, P e.2 := by
  intro e he
  have : e.2 ∈ ys.map Prod.snd := by rw [← h]; exact List.mem_map.2 ⟨e, he, rfl⟩
  obtain ⟨f, hf, hfe⟩ := List.mem_map.1 this
  rw [← hfe]
  exact hy f hf

theorem sources_head {β γ : Type} {P : List (Sample α) → Prop} {xs : List (β × List (Sample α))} {ys : List (γ × List (Sample α))}
    (h : xs.map Prod.snd = ys.map Prod.snd) (hy : ∀ e ∈ ys.head?, P e.2) : ∀ e ∈ xs.head?, P e.2 := by
  intro e he
  cases xs with
  | nil => simp at he
  | cons x xs =>
    cases ys with
    | nil => simp at h
    | cons y ys =>
      obtain rfl : x = e := by simpa using he
      simp only [List.map_cons, List.cons.injEq] at h
      rw [h.1]
      exact hy y (by simp)

end Overlap
end Cnn
