import Verif.Lemmas.ShapeRun
import Verif.Model.Serialize
/-!
# C89: training with numbers that make no sense
-/
namespace Cnn
open Train
variable {α : Type}

theorem saveLayers_setBatchSize (C : Codec α) (n : Nat) : ∀ (ls : List (Layer α)) (i : Nat) (os : List Char),
    Model.saveLayers C i (ls.map fun l => { l with body := l.body.setBatchSize n }) os = Model.saveLayers C i ls os := by
  intro ls
  induction ls with
  | nil => intro i os; rfl
  | cons l ls ih =>
    intro i os
    have e : (l.body.setBatchSize n).serialize C = l.body.serialize C := by cases l.body <;> rfl
    simp only [List.map_cons, Model.saveLayers, e, ih]

section
variable [Zero α] [One α] [Add α] [Sub α] [Mul α] [Div α] [Neg α]

/-- C89 A negative batch size is reported: `train` throws `std::length_error` (a model without convolution, pooling and fully connected layers has nothing to learn). -/
theorem C89_negative_batch (E : Env α) (p : Hyper α) (hb : p.batch < 0) (size : Nat) (epochs : List (List (List Nat) × List (Sample α))) (M : Model α)
    (hM : ∃ l ∈ M.layers, (∃ K, l.body = .kernel K) ∨ (∃ P, l.body = .pooling P) ∨ ∃ L, l.body = .connected L) :
    train E p size epochs M = .throw .length := by
  have : M.room p.batch = .throw .length := by
    refine if_pos ⟨hb, ?_⟩
    obtain ⟨l, hl, h⟩ := hM
    refine List.any_eq_true.2 ⟨l, hl, ?_⟩
    rcases h with ⟨K, h⟩ | ⟨K, h⟩ | ⟨K, h⟩ <;> rw [h] <;> rfl
  rw [train_room, this]
  rfl

/-- C89 A negative number of threads is reported as soon as there is an epoch. -/
theorem C89_negative_threads (E : Env α) (p : Hyper α) (hb : 0 ≤ p.batch) (ht : p.threads < 0) (size : Nat) (e : List (List Nat) × List (Sample α))
    (epochs : List (List (List Nat) × List (Sample α))) (he : epochs.length + 1 = p.epochs.toNat) (M : Model α) :
    train E p size (e :: epochs) M = .throw .length := by
  rw [train_if hb, if_pos (by simpa using he), List.foldlM_cons]
  unfold epochStep runEpoch
  simp only
  rw [if_pos ht]
  rfl

/-- C89 No threads: undefined behaviour (an infinite quotient is converted to `int`). -/
theorem C89_no_threads (E : Env α) (p : Hyper α) (hb : 0 ≤ p.batch) (ht : p.threads = 0) (size : Nat) (e : List (List Nat) × List (Sample α))
    (epochs : List (List (List Nat) × List (Sample α))) (he : epochs.length + 1 = p.epochs.toNat) (M : Model α) :
    train E p size (e :: epochs) M = .ub := by
  have hw : ∀ b, workCount b 0 = .ub := fun b => rfl
  rw [train_if hb, if_pos (by simpa using he), List.foldlM_cons]
  unfold epochStep runEpoch
  simp only
  rw [if_neg (by omega), ht, hw]
  rfl

/-- C89 A batch size of 0: undefined behaviour likewise. -/
theorem C89_no_batch (E : Env α) (p : Hyper α) (hb : p.batch = 0) (ht : 0 < p.threads) (size : Nat) (e : List (List Nat) × List (Sample α))
    (epochs : List (List (List Nat) × List (Sample α))) (he : epochs.length + 1 = p.epochs.toNat) (M : Model α) :
    train E p size (e :: epochs) M = .ub := by
  have hw : ∀ s, numBatches s 0 = .ub := fun s => rfl
  obtain ⟨T, hT⟩ := Int.eq_ofNat_of_zero_le ht.le
  rw [train_if (p := p) (by omega), if_pos (by simpa using he), List.foldlM_cons]
  unfold epochStep runEpoch
  simp only
  rw [if_neg (by omega), hb, hT, show (0 : Int) = ((0 : Nat) : Int) from rfl, workCount_eq 0 T (by decide) (by omega), Res.bind_ok, if_neg (by decide),
    show ((0 : Nat) : Int) = 0 from rfl, hw]
  rfl

/-- C89 No epochs, or a negative number of them: nothing is learnt. Training ends at once, and saving the model afterwards writes the same file as before. -/
theorem C89_no_epochs (E : Env α) (p : Hyper α) (hb : 0 ≤ p.batch) (he : p.epochs ≤ 0) (size : Nat) (M : Model α) :
    ∃ M', train E p size [] M = .ok (some M') ∧ M'.labels = M.labels ∧ M'.layers.length = M.layers.length ∧
      ∀ (C : Codec α) (opened : Bool), M'.saveModel C opened = M.saveModel C opened := by
  refine ⟨M.setBatchSize (u64 p.batch), ?_, rfl, by simp [Model.setBatchSize], ?_⟩
  · rw [train_if hb, if_pos (by simp; omega)]
    rfl
  · intro C opened
    unfold Model.saveModel Model.setBatchSize
    simp only [saveLayers_setBatchSize]

/-- The claim of C89: a batch size or a number of threads that is not positive is answered by an exception. -/
def C89_claim (α : Type) [Zero α] [One α] [Add α] [Sub α] [Mul α] [Div α] [Neg α] : Prop :=
  ∀ (E : Env α) (p : Hyper α) (size : Nat) (e : List (List Nat) × List (Sample α)) (M : Model α), p.batch ≤ 0 ∨ p.threads ≤ 0 → p.epochs = 1 →
    (∃ l ∈ M.layers, (∃ K, l.body = .kernel K) ∨ (∃ P, l.body = .pooling P) ∨ ∃ L, l.body = .connected L) → ∃ x, train E p size [e] M = .throw x

/-- A model with a pooling layer. -/
def poolModel (α : Type) : Model α := ⟨[⟨"Pooling_1".toList, .pooling (Pooling.new ⟨2, 2⟩ ⟨2, 2⟩ .max)⟩], [], false, 0, 1, 0, 0⟩

/-- C89 is violated, already by a number of threads of 0. -/
theorem C89_violated (E : Env α) : ¬ C89_claim α := by
  intro h
  obtain ⟨x, hx⟩ := h E ⟨0, 1, 0, 1⟩ 1 ([], []) (poolModel α) (Or.inr (le_refl (0 : Int))) rfl ⟨_, List.mem_singleton.2 rfl, Or.inr (Or.inl ⟨_, rfl⟩)⟩
  rw [C89_no_threads E ⟨0, 1, 0, 1⟩ (Int.one_nonneg) rfl 1 ([], []) [] rfl] at hx
  cases hx

/-- C89 as far as it holds: neither number is 0, and a negative one is reported. -/
theorem C89_partial (E : Env α) (p : Hyper α) (h : p.batch < 0 ∨ 0 ≤ p.batch ∧ p.threads < 0) (size : Nat) (e : List (List Nat) × List (Sample α))
    (epochs : List (List (List Nat) × List (Sample α))) (he : epochs.length + 1 = p.epochs.toNat) (M : Model α)
    (hM : ∃ l ∈ M.layers, (∃ K, l.body = .kernel K) ∨ (∃ P, l.body = .pooling P) ∨ ∃ L, l.body = .connected L) :
    train E p size (e :: epochs) M = .throw .length := by
  rcases h with h | ⟨h, h'⟩
  · exact C89_negative_batch E p h size _ M hM
  · exact C89_negative_threads E p h h' size e epochs he M

end

/-- The requirement on the model can be met. -/
example : ∃ l ∈ (poolModel Int).layers, (∃ K, l.body = .kernel K) ∨ (∃ P, l.body = .pooling P) ∨ ∃ L, l.body = .connected L :=
  ⟨_, List.mem_singleton.2 rfl, Or.inr (Or.inl ⟨_, rfl⟩)⟩

end Cnn
