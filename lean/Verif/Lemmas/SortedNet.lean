import Verif.Lemmas.MixedTrain
/-! Helper lemmas: full batches of samples with the same label (C83, C104). -/
namespace Cnn

theorem Relabels.one_label {d d' : List (Tensor × Nat)} (h : Relabels d d') (hone : ∀ e ∈ d, ∀ f ∈ d, e.2 = f.2) : d' = d := by
  have hl : d'.length = d.length := by simpa using congrArg List.length h.1
  refine List.ext_getElem hl fun i h1 h2 => Prod.ext ?_ ?_
  · have : (d'.map Prod.fst)[i]? = (d.map Prod.fst)[i]? := by rw [h.1]
    simpa [h1, h2] using this
  · obtain ⟨f, hf, he⟩ := h.2 _ (List.getElem_mem h1)
    rw [he]
    exact hone f hf _ (List.getElem_mem h2)

theorem refill_full {ls : List NetLayer} {d : List (Tensor × Nat)} {mem : List Remembered} (h : mem.length ≤ d.length) :
    refill ls d mem = d.map fun e => (ls, e) := by
  unfold refill
  rw [List.drop_eq_nil_of_le h, List.append_nil]

/-- What is remembered does not matter if the next batch is full. -/
theorem staleDescents_forget {rep : Rep} {rate : ℝ} {s : Shape} {n B : Nat} {ds : List (List (Tensor × Nat))} (hd : ∀ d ∈ ds, d.length = B)
    {mem mem' : List Remembered} (hm : mem.length ≤ B) (hm' : mem'.length ≤ B) (ls : List NetLayer) :
    staleDescents rep rate s n ds mem ls = staleDescents rep rate s n ds mem' ls := by
  cases ds with
  | nil => rfl
  | cons d ds =>
    have := hd d (by simp)
    simp only [staleDescents]
    rw [refill_full (by omega), refill_full (by omega)]

/-- Full batches of samples with the same label lead to one network only. -/
theorem staleLeads_sorted {rep : Rep} {rate : ℝ} {s : Shape} {n B : Nat} : ∀ (ds : List (List (Tensor × Nat))) (mem : List Remembered) (ls out : List NetLayer),
    (∀ d ∈ ds, d.length = B ∧ ∀ e ∈ d, ∀ f ∈ d, e.2 = f.2) → mem.length ≤ B → StaleLeads rep rate s n ds mem ls out →
    out = staleDescents rep rate s n ds mem ls
  | [], _, _, _, _, _, h => h
  | d :: ds, mem, ls, out, hd, hm, h => by
    obtain ⟨mem', ⟨d', kept, h1, _, h3, h4⟩, h5⟩ := h
    obtain ⟨hl, hone⟩ := hd d (by simp)
    obtain rfl := h1.one_label hone
    obtain rfl : kept = [] := List.eq_nil_of_length_eq_zero (by omega)
    rw [List.append_nil] at h4
    have hl' : mem'.length = B := by rw [h4.length_eq, List.length_map, hl]
    have ih := staleLeads_sorted ds mem' _ out (fun d hdd => hd d (by simp [hdd])) hl'.le h5
    simp only [staleDescents]
    rw [ih, refill_full (by omega), memStep_perm rep rate s n h4]
    exact staleDescents_forget (fun d hdd => (hd d (by simp [hdd])).1) hl'.le (by rw [List.length_map, hl]) _

theorem sorted_batch_full {β : Type} {B k : Nat} (h0 : 0 < B) {l : List β} (hl : l.length = B * k) : ∀ d ∈ batchesOf B l, d.length = B := by
  intro d hd
  obtain ⟨j, hj, rfl⟩ := List.mem_map.1 hd
  have hd : (B * k + B - 1) / B = k := by
    rw [Nat.add_sub_assoc h0, Nat.mul_add_div h0, Nat.div_eq_of_lt (by omega), Nat.add_zero]
  rw [List.mem_range, hl, hd] at hj
  rw [List.length_take, List.length_drop, hl]
  have : (j + 1) * B ≤ k * B := Nat.mul_le_mul_right _ hj
  rw [Nat.succ_mul, Nat.mul_comm k B] at this
  omega

end Cnn
