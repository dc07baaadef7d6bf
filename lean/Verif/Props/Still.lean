import Verif.Lemmas.Still
import Verif.Lemmas.Sources
import Verif.Props.OffUnits
import Verif.Props.Overlap
import Verif.Props.NotANumber
/-!
# Property C111: training with the learning rate 0
-/
namespace Cnn
open Model Train
variable {α : Type} [Zero α] [One α] [Add α] [Sub α] [Mul α] [Div α] [Neg α]

/-- C111 A training that ends, with any samples (also none, or fewer than a batch), labels, threads and schedules, leaves all weights and biases of all
layers as they were, but for NaNs, if the learning rate is 0. The layers must have their weights. -/
theorem C111_train (E : Env α) (nan : α → Prop) (p : Hyper α) (hS : StillRate nan p.rate) (hb : 0 ≤ p.batch) (hB : p.batch < 2 ^ 24) (size n : Nat) (M : Model α)
    (hM : M.Prepared n) (epochs : List (List (List Nat) × List (Sample α))) (M' : Model α) (h : train E p size epochs M = .ok (some M')) :
    M.KeptIn nan M' := by
  obtain ⟨B, hp⟩ := Int.eq_ofNat_of_zero_le hb
  have hB' : B < 2 ^ 24 := by omega
  rw [train_if hb] at h
  have hub : u64 p.batch = B := by rw [hp]; exact u64_nat (by omega)
  by_cases hl : epochs.length = p.epochs.toNat
  · rw [if_pos hl, hub] at h
    refine epochs_still hS hp hB' epochs (hM.setBatchSize B) ?_ h
    intro i W Bi hi
    obtain ⟨W', Bi', h1, h2⟩ := KeptIn.refl (nan := nan) (hM.setBatchSize B) i W Bi (by rw [setBatchSize_params]; exact hi)
    exact ⟨W', Bi', h1, h2⟩
  · rw [if_neg hl] at h
    exact absurd (Res.ok.inj h) (by simp)

/-- C111 In exact arithmetic nothing changes. -/
theorem C111_exact {α : Type} [Field α] (E : Env α) (p : Hyper α) (hr : p.rate = 0) (hb : 0 ≤ p.batch) (hB : p.batch < 2 ^ 24) (size n : Nat) (M : Model α)
    (hM : M.Prepared n) (epochs : List (List (List Nat) × List (Sample α))) (M' : Model α) (h : train E p size epochs M = .ok (some M')) (i : Nat)
    (W Bi : Matrix α) (hi : M.params i = some (W, Bi)) : M'.params i = some (W, Bi) := by
  have hS : StillRate (fun _ : α => False) p.rate := ⟨fun a => Or.inl (by rw [hr, zero_mul]), sub_zero, fun _ _ h => h, fun _ _ h => h⟩
  obtain ⟨W', Bi', h1, ⟨X, Y, Z, w, w', s1, s2, hw⟩, ⟨X', Y', Z', β, β', s3, s4, hβ⟩⟩ := C111_train E _ p hS hb hB size n M hM epochs M' h i W Bi hi
  obtain rfl : W' = W := Matrix.Shows.unique s2 (s1.congr fun i hi j hj k hk => ((hw i hi j hj k hk).resolve_right id).symm)
  obtain rfl : Bi' = Bi := Matrix.Shows.unique s4 (s3.congr fun i hi j hj k hk => ((hβ i hi j hj k hk).resolve_right id).symm)
  exact h1

/-- C111 The arithmetic of the program (binary64, one zero, one NaN) has the laws. -/
theorem C111_zero : StillRate Binary64.IsNaN (0 : Binary64) :=
  have A := C108_nan fun _ _ => 0
  ⟨(C105_zero fun _ _ => 0).mul, (C108_zero (fun _ _ => 0) 0 ⟨0, rfl, (0 : Binary64).2⟩ 1 (by decide) (by decide)).sub, A.sub_left, A.sub_right⟩

/-- C111 in binary64. -/
theorem C111_binary64 (draws : Nat → Nat → Binary64) (p : Hyper Binary64) (hr : p.rate = 0) (hb : 0 ≤ p.batch) (hB : p.batch < 2 ^ 24) (size n : Nat)
    (M : Model Binary64) (hM : M.Prepared n) (epochs : List (List (List Nat) × List (Sample Binary64))) (M' : Model Binary64)
    (h : train (binary64Env draws) p size epochs M = .ok (some M')) : M.KeptIn Binary64.IsNaN M' :=
  C111_train _ _ p (by rw [hr]; exact C111_zero) hb hB size n M hM epochs M' h

/-- C111 with calls of layers that overlap in time. -/
theorem C111_overlap (E : Env α) (nan : α → Prop) (p : Hyper α) (hS : StillRate nan p.rate) (hb : 0 ≤ p.batch) (hB : p.batch < 2 ^ 24) (size n : Nat) (M : Model α)
    (hM : M.Prepared n) (fine : List (List (List (Nat × Overlap.Act α)) × List (Sample α))) (M' : Model α) (h : Overlap.train E p size fine M = .ok (some M')) :
    M.KeptIn nan M' := by
  obtain ⟨epochs, _, h2⟩ := Overlap.C76_overlap E p (by omega) size M (fun l hl L hL => by
    have := hM l hl
    rw [hL] at this
    exact this.1) fine
  rw [h2] at h
  exact C111_train E nan p hS hb hB size n M hM epochs M' h

/-- C111 The claim: with the learning rate 0, training a network of finite parameters on finite samples leaves its weights and biases as they were. -/
def C111_claim : Prop := ∀ (p : Hyper Double) (B T : Nat), p.batch = B → p.threads = T → 0 < B → B < 2 ^ 24 → 0 < T → T < 2147483648 →
  p.rate = 0 → ∀ size, 0 < size → size < 2 ^ 24 → ∀ (M : Model Double) (s : Shape) (ks : List LayerKind), M.Runs s ks → KindsWork true s ks → M.Used → M.Finite →
  ∀ (epochs : List (List (List Nat) × List (Sample Double))), (∀ e ∈ epochs, ∀ x ∈ e.2, x.Fits s M.labels ∧ x.data.Finite) →
  (∀ e ∈ epochs.head?, B ≤ e.2.length) → ∀ M', train doubleEnv p size epochs M = .ok (some M') → ∀ i W Bi, M.params i = some (W, Bi) → M'.params i = some (W, Bi)

/-- C111 The claim is false: the gradient can overflow, and 0 times NaN is NaN. With a weight and an input of 2^900, one batch of one sample turns parameters into
NaN. -/
theorem C111_violated : ¬ C111_claim := by
  intro hc
  let p : Hyper Double := ⟨0, 1, 1, 1⟩
  obtain ⟨epochs, M', h1, h2⟩ := C70_train_ends doubleEnv rfl p 1 1 rfl rfl (by decide) (by decide) (by decide) (by decide) 1 (by decide) (by decide)
    (roundModel (bigDouble 900)) ⟨1, 1, 1⟩ [.full 2] (roundModel_runs _) roundKinds_work [[roundSample]] rfl
    (by simpa using roundSample_fits _) (by simp)
  have hx : ∀ e ∈ epochs, e.2 = [roundSample] := by
    intro e he
    have : e.2 ∈ epochs.map Prod.snd := List.mem_map.2 ⟨e, he, rfl⟩
    rw [h1] at this
    simpa using this
  obtain ⟨e, he⟩ : ∃ e, epochs.head? = some e := by
    cases epochs with
    | nil => simp at h1
    | cons e es => exact ⟨e, rfl⟩
  have hem : e ∈ epochs := List.mem_of_mem_head? he
  have hfull : ∀ e ∈ epochs.head?, 1 ≤ e.2.length := by
    intro e he
    rw [hx e (List.mem_of_mem_head? he)]
    simp
  obtain ⟨hr, _⟩ := C97_train doubleEnv _ C97_double rfl p 1 1 rfl rfl (by decide) (by decide) (by decide) (by decide) 1 (by decide) (by decide)
    (roundModel (bigDouble 900)) ⟨1, 1, 1⟩ [.full 2] (roundModel_runs _) roundKinds_work (roundModel_used _) epochs
    (fun e he x hx' => by rw [hx e he] at hx'; obtain rfl : x = _ := by simpa using hx'
                          exact roundSample_fits _) hfull e he roundSample (by rw [hx e hem]; simp) 0 roundModel_overflows M' h2
  obtain ⟨W, Bi, e1, hR⟩ := hr 0 (.full 2) rfl rfl
  obtain ⟨⟨r, hr, _, β, hβ, hn⟩, _⟩ := hR
  have hsame := hc p 1 1 rfl rfl (by decide) (by decide) (by decide) (by decide) rfl 1 (by decide) (by decide)
    (roundModel (bigDouble 900)) ⟨1, 1, 1⟩ [.full 2] (roundModel_runs _) roundKinds_work (roundModel_used _) (by
      intro i W Bi hp
      have hi : i < 2 := by
        by_contra h
        unfold Model.params at hp
        rw [List.getElem?_eq_none (by simp [roundModel]; omega)] at hp
        simp at hp
      obtain rfl | rfl : i = 0 ∨ i = 1 := by omega
      · obtain ⟨rfl, rfl⟩ := Prod.mk.inj (Option.some.inj hp)
        refine ⟨fun v hv => ?_, fun v hv => ?_⟩
        · have : v = 0 ∨ v = bigDouble 900 := by simpa [roundLayer] using hv
          rcases this with rfl | rfl
          · exact Double.floating.zero.1
          · exact bigDouble_fin (by norm_num) (by norm_num)
        · have : v = 0 := by simpa [roundLayer] using hv
          rw [this]
          exact Double.floating.zero.1
      · simp [Model.params, roundModel, Body.params] at hp) epochs
    (fun e he x hx' => by
      rw [hx e he] at hx'
      obtain rfl : x = _ := by simpa using hx'
      refine ⟨roundSample_fits _, fun v hv => ?_⟩
      obtain rfl : v = _ := by simpa [roundSample] using hv
      exact bigDouble_fin (by norm_num) (by norm_num)) hfull M' h2 0 _ _ rfl
  obtain ⟨rfl, rfl⟩ := Prod.mk.inj (Option.some.inj (e1.symm.trans hsame))
  have hmem := Matrix.mem_of_read (hβ.entry r hr 0 Nat.one_pos 0 Nat.one_pos)
  have h0 : β r 0 0 = 0 := by simpa [roundLayer] using hmem
  obtain ⟨x, hx2, _⟩ := Double.floating.zero.1
  rw [← h0, hn] at hx2
  cases hx2

/-- The hypotheses are met: two images with two threads in binary64, with any numbers. -/
example (u w x y : Binary64) : ∃ es N, es.map Prod.snd = [[⟨⟨dimN 1 1 1, [x]⟩, "a".toList⟩, ⟨⟨dimN 1 1 1, [y]⟩, "b".toList⟩]] ∧
    train (binary64Env fun _ _ => 0) ⟨0, 2, 2, 1⟩ 2 es (offReluModel u w) = .ok (some N) ∧ (offReluModel u w).KeptIn Binary64.IsNaN N := by
  have hk : KindsWork true ⟨1, 1, 1⟩ [.full 2, .act .relu, .full 2] := ⟨⟨by decide, by decide⟩, trivial, ⟨by decide, by decide⟩, trivial⟩
  obtain ⟨es, N, h1, h2⟩ := C70_train_ends (binary64Env fun _ _ => 0) rfl ⟨0, 2, 2, 1⟩ 2 2 rfl rfl (by decide) (by decide) (by decide) (by decide) 2
    (by decide) (by decide) (offReluModel u w) ⟨1, 1, 1⟩ [.full 2, .act .relu, .full 2] (offReluModel_runs _ _) hk
    [[⟨⟨dimN 1 1 1, [x]⟩, "a".toList⟩, ⟨⟨dimN 1 1 1, [y]⟩, "b".toList⟩]] rfl (by
      intro e he z hz
      rw [List.mem_singleton] at he
      subst he
      simp only [List.mem_cons, List.not_mem_nil, or_false] at hz
      rcases hz with rfl | rfl
      · exact ⟨⟨fun _ _ _ => x, Matrix.Shows.of_vals ⟨by decide, by decide, by decide, by decide⟩ rfl (by simp)⟩, by simp [offReluModel]⟩
      · exact ⟨⟨fun _ _ _ => y, Matrix.Shows.of_vals ⟨by decide, by decide, by decide, by decide⟩ rfl (by simp)⟩, by simp [offReluModel]⟩) (by simp)
  refine ⟨es, N, h1, h2, fun i W Bi hi => ?_⟩
  have hM : (offReluModel u w).Prepared 1 := (setBatchSize_shaped (B := 1) (offReluModel_runs u w)).prepared hk (offReluModel_used u w)
  exact C111_binary64 _ ⟨0, 2, 2, 1⟩ rfl (by decide) (by decide) 2 1 (offReluModel u w) hM es N h2 i W Bi hi

end Cnn
