import Verif.Lemmas.SmallBatch
import Verif.Lemmas.SlotUpdate
import Verif.Lemmas.NaNRun
import Verif.Lemmas.ShapeRun
import Verif.Spec.Still
/-! Helper lemmas: a learning rate of 0 (C111). -/
set_option linter.unusedSectionVars false
namespace Cnn
variable {α : Type} {nan : α → Prop}

theorem Body.Prepared.setBatchSize {n : Nat} {B : Body α} (h : B.Prepared n) (k : Nat) : (B.setBatchSize k).Prepared k := by
  cases B with
  | kernel K => exact ⟨List.length_replicate, List.length_replicate, h.2.2⟩
  | pooling P => exact ⟨by simp [Pooling.setBatchSize, Matrix.vecResize]; omega, h.2⟩
  | connected L => exact ⟨h.1, List.length_replicate, List.length_replicate, h.2.2.2⟩
  | activation A => trivial
  | softmax S => trivial

theorem Model.Prepared.setBatchSize {n : Nat} {M : Model α} (h : M.Prepared n) (k : Nat) : (M.setBatchSize k).Prepared k := by
  intro l hl
  obtain ⟨l0, h0, rfl⟩ := List.mem_map.1 hl
  exact (h l0 h0).setBatchSize k

theorem Matrix.Shows.keptIn {W : Matrix α} {X Y Z : Nat} {w : Nat → Nat → Nat → α} (h : W.Shows X Y Z w) : W.KeptIn nan W :=
  ⟨X, Y, Z, w, w, h, h, fun _ _ _ _ _ _ => Or.inl rfl⟩

section
variable [Zero α] [One α] [Add α] [Sub α] [Mul α] [Div α] [Neg α]

theorem StillRate.step {rate : α} (S : StillRate nan rate) {w v : α} (h : v = w ∨ nan v) (a : α) : v - rate * a = w ∨ nan (v - rate * a) := by
  rcases h with rfl | h
  · rcases S.mul a with e | e
    · exact Or.inl (by rw [e, S.sub])
    · exact Or.inr (S.right _ _ e)
  · exact Or.inr (S.left _ _ h)

namespace Train
open Model
variable {E : Env α} {p : Hyper α} {B : Nat}

theorem KeptIn.refl {M : Model α} {n : Nat} (h : M.Prepared n) : M.KeptIn nan M := by
  intro i W Bi hp
  obtain ⟨⟨X, Y, Z, w, hw⟩, F, β, hβ⟩ := Prepared.sound h hp
  exact ⟨W, Bi, hp, hw.keptIn, hβ.keptIn⟩

theorem runBatch_still (S : StillRate nan p.rate) (hp : p.batch = B) {T : Nat} (hq : p.threads = T) (hB : B < 2 ^ 24) {M0 : Model α} {sh : Shared α}
    (hM : sh.model.Prepared B) (hk : M0.KeptIn nan sh.model) {sched : List Nat} {q : Shared α × List (Event α)} (h : runBatch E p sched sh = .ok (some q)) :
    q.1.model.Prepared B ∧ M0.KeptIn nan q.1.model := by
  obtain ⟨M, e1, e2, _⟩ := runBatch_end hp hq hB hM h
  refine ⟨(hM.of_bare e1).update e2, fun i W0 B0 h0 => ?_⟩
  obtain ⟨W, Bi, h1, ⟨X, Y, Z, w0, w, s1, s2, hw⟩, ⟨X', Y', Z', β0, β, s3, s4, hβ⟩⟩ := hk i W0 B0 h0
  obtain ⟨_, F, b, hF⟩ := Prepared.sound hM h1
  obtain ⟨rfl, rfl, rfl⟩ := s4.shape hF
  obtain ⟨gw, gb, W', B', _, k2, k3, k4⟩ := runBatch_entries hp hq hB hM h h1 s2 (β := fun f => β f 0 0) (by
    refine s4.congr fun i _ j hj k hk => ?_
    obtain rfl : j = 0 := by omega
    obtain rfl : k = 0 := by omega
    rfl)
  refine ⟨W', B', k2, ⟨X, Y, Z, w0, _, s1, k3, fun i hi j hj k hk => S.step (hw i hi j hj k hk) _⟩,
    ⟨_, 1, 1, β0, _, s3, k4, fun i hi j hj k hk => ?_⟩⟩
  obtain rfl : j = 0 := by omega
  obtain rfl : k = 0 := by omega
  exact S.step (hβ i hi 0 hj 0 hk) _

theorem runBatches_still (S : StillRate nan p.rate) (hp : p.batch = B) {T : Nat} (hq : p.threads = T) (hB : B < 2 ^ 24) {M0 : Model α} (scheds : List (List Nat)) :
    ∀ {sh : Shared α}, sh.model.Prepared B → M0.KeptIn nan sh.model → ∀ {q : Shared α × List (Event α)}, runBatches E p scheds sh = .ok (some q) →
      q.1.model.Prepared B ∧ M0.KeptIn nan q.1.model := by
  induction scheds with
  | nil =>
    intro sh hM hk q h
    obtain rfl := Option.some.inj (Res.ok.inj h)
    exact ⟨hM, hk⟩
  | cons c cs ih =>
    intro sh hM hk q h
    unfold runBatches at h
    obtain ⟨o, e1, h⟩ := Res.bind_eq_ok h
    cases o with
    | none => exact absurd (Res.ok.inj h) (by simp)
    | some r =>
      obtain ⟨b1, b2⟩ := runBatch_still S hp hq hB hM hk e1
      dsimp only at h
      obtain ⟨o', e2, h⟩ := Res.bind_eq_ok h
      cases o' with
      | none => exact absurd (Res.ok.inj h) (by simp)
      | some q1 =>
        obtain rfl := Option.some.inj (Res.ok.inj h)
        exact ih (q := q1) b1 b2 e2

theorem epochs_still (S : StillRate nan p.rate) (hp : p.batch = B) (hB : B < 2 ^ 24) {size : Nat} {M0 : Model α}
    (epochs : List (List (List Nat) × List (Sample α))) : ∀ {M M' : Model α}, M.Prepared B → M0.KeptIn nan M →
      epochs.foldlM (epochStep E p size) (some M) = .ok (some M') → M0.KeptIn nan M' := by
  induction epochs with
  | nil =>
    intro M M' _ hk h
    obtain rfl := Option.some.inj (Res.ok.inj h)
    exact hk
  | cons ep es ih =>
    intro M M' hM hk h
    rw [List.foldlM_cons] at h
    obtain ⟨o, e1, h⟩ := Res.bind_eq_ok h
    unfold epochStep at e1
    dsimp only at e1
    obtain ⟨r, e2, e1⟩ := Res.bind_eq_ok e1
    obtain rfl := Res.ok.inj e1
    cases r with
    | none =>
      rw [Option.map_none, train_none] at h
      exact absurd (Res.ok.inj h) (by simp)
    | some r =>
      unfold runEpoch at e2
      split at e2
      · exact absurd e2 (by simp)
      · rename_i hT
        obtain ⟨T, hT⟩ := Int.eq_ofNat_of_zero_le (not_lt.1 hT)
        obtain ⟨_, _, e2⟩ := Res.bind_eq_ok e2
        split at e2
        · exact absurd e2 (by simp)
        · obtain ⟨n, _, e2⟩ := Res.bind_eq_ok e2
          split at e2
          · obtain ⟨b1, b2⟩ := runBatches_still S hp hT hB ep.1 (sh := ⟨M, ep.2, 0⟩) hM hk e2
            exact ih b1 b2 h
          · exact absurd (Res.ok.inj e2) (by simp)

end Train
end
end Cnn
