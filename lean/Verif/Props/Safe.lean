import Verif.Lemmas.ShapeRun
import Verif.Lemmas.ShapeBuild
/-!
# Property C70: a network whose layers fit together is built, trained and used without failing
-/
namespace Cnn
namespace Train
open Model
variable {α : Type} [Zero α] [One α] [Add α] [Sub α] [Mul α] [Div α] [Neg α]

/-- C70, with a call of a layer as one step of a thread. What is missing: two threads inside the first call of a fully connected
layer, where the code can throw (`C56_throws`). Training a model whose layers fit together on samples of the right shape with known labels: no schedule of any number
of threads makes it throw, abort, or reach undefined behaviour. Nothing is assumed about the arithmetic: weights and
activations may be anything, infinities and NaNs included. The first epoch must fill a batch (otherwise: `C54_fresh_short_batch`),
later batches may be short. -/
theorem C70_train_partial (E : Env α) (hE : E.order = .dimsFirst) (p : Hyper α) (B T : Nat) (hp : p.batch = B) (hq : p.threads = T)
    (h0 : 0 < B) (hB : B < 2 ^ 24) (hT0 : 0 < T) (hT : T < 2147483648) (size : Nat) (hs0 : 0 < size) (hsz : size < 2 ^ 24)
    (M : Model α) (s : Shape) (ks : List LayerKind) (hM : M.Runs s ks) (hk : KindsWork true s ks)
    (epochs : List (List (List Nat) × List (Sample α))) (hx : ∀ e ∈ epochs, ∀ x ∈ e.2, x.Fits s M.labels)
    (hfull : ∀ e ∈ epochs.head?, B ≤ e.2.length) : ∃ o, train E p size epochs M = .ok o := by
  rw [train_if (p := p) (by omega)]
  have hu : u64 p.batch = B := by rw [hp]; exact u64_nat (by omega)
  by_cases hl : epochs.length = p.epochs.toNat
  · rw [if_pos hl, hu]
    obtain ⟨o, e, _⟩ := epochs_shaped hE hk hp hq h0 hB hT0 hT hs0 hsz epochs (setBatchSize_shaped hM) hx (Or.inr hfull)
    exact ⟨o, e⟩
  · exact ⟨_, if_neg hl⟩

/-- C70 … and it can always be completed: whatever the sources serve, there are schedules under which the training ends. -/
theorem C70_train_ends (E : Env α) (hE : E.order = .dimsFirst) (p : Hyper α) (B T : Nat) (hp : p.batch = B) (hq : p.threads = T)
    (h0 : 0 < B) (hB : B < 2 ^ 24) (hT0 : 0 < T) (hT : T < 2147483648) (size : Nat) (hs0 : 0 < size) (hsz : size < 2 ^ 24)
    (M : Model α) (s : Shape) (ks : List LayerKind) (hM : M.Runs s ks) (hk : KindsWork true s ks)
    (sources : List (List (Sample α))) (hn : sources.length = p.epochs.toNat) (hx : ∀ e ∈ sources, ∀ x ∈ e, x.Fits s M.labels)
    (hfull : ∀ e ∈ sources.head?, B ≤ e.length) :
    ∃ epochs M', epochs.map Prod.snd = sources ∧ train E p size epochs M = .ok (some M') := by
  have hu : u64 p.batch = B := by rw [hp]; exact u64_nat (by omega)
  obtain ⟨epochs, M', h1, h2⟩ := epochs_end hE hk hp hq h0 hB hT0 hT hs0 hsz sources (setBatchSize_shaped hM) hx (Or.inr hfull)
  refine ⟨epochs, M', h1, ?_⟩
  rw [train_if (p := p) (by omega), if_pos (by rw [← hn, ← h1, List.length_map]), hu]
  exact h2

/-- C70 The trained model can be used and trained again: it classifies every input of the right shape, in every batch slot, and it
still meets the requirements of this property. -/
theorem C70_trained_partial (E : Env α) (hE : E.order = .dimsFirst) (p : Hyper α) (B T : Nat) (hp : p.batch = B) (hq : p.threads = T)
    (h0 : 0 < B) (hB : B < 2 ^ 24) (hT0 : 0 < T) (hT : T < 2147483648) (size : Nat) (hs0 : 0 < size) (hsz : size < 2 ^ 24)
    (M : Model α) (s : Shape) (ks : List LayerKind) (hM : M.Runs s ks) (hk : KindsWork true s ks)
    (epochs : List (List (List Nat) × List (Sample α))) (hx : ∀ e ∈ epochs, ∀ x ∈ e.2, x.Fits s M.labels)
    (hfull : ∀ e ∈ epochs.head?, B ≤ e.2.length) (M' : Model α) (h : train E p size epochs M = .ok (some M')) :
    M'.Runs s ks ∧ M'.labels = M.labels ∧
    ∀ X : Matrix α, X.Has s → ∀ b < B, ∃ r M'', M'.forwardPropagation E X b = .ok (r, M'') ∧ r.labelIdx < M.labels.length ∧ M''.Runs s ks := by
  rw [train_if (p := p) (by omega)] at h
  have hu : u64 p.batch = B := by rw [hp]; exact u64_nat (by omega)
  by_cases hl : epochs.length = p.epochs.toNat
  · rw [if_pos hl, hu] at h
    obtain ⟨o, e, ho⟩ := epochs_shaped hE hk hp hq h0 hB hT0 hT hs0 hsz epochs (setBatchSize_shaped hM) hx (Or.inr hfull)
    rw [h] at e
    have hS := (ho M' (Res.ok.inj e).symm).1
    refine ⟨hS.runs, hS.labelled, fun X hX b hb => ?_⟩
    obtain ⟨r, M'', e1, h1, h2⟩ := forwardPropagation_shaped E hS hk hb hX
    exact ⟨r, M'', e1, h1, h2.runs⟩
  · rw [if_neg hl] at h
    exact absurd (Res.ok.inj h) (by simp)

/-- C70 From building to training: the `add…` calls succeed, and so does training. -/
theorem C70_build_train_partial (E : Env α) (hE : E.order = .dimsFirst) (ks : List LayerKind) (labels : List (List Char)) (s : Shape)
    (hs : 0 < s.X * s.Y * s.Z) (hk : KindsWork true s ks)
    (hout : kindsOut ks s = ⟨labels.length, 1, 1⟩ ∨ kindsOut ks s = ⟨1, labels.length, 1⟩) (p : Hyper α) (B T : Nat) (hp : p.batch = B)
    (hq : p.threads = T) (h0 : 0 < B) (hB : B < 2 ^ 24) (hT0 : 0 < T) (hT : T < 2147483648) (size : Nat) (hs0 : 0 < size)
    (hsz : size < 2 ^ 24) (epochs : List (List (List Nat) × List (Sample α))) (hx : ∀ e ∈ epochs, ∀ x ∈ e.2, x.Fits s labels)
    (hfull : ∀ e ∈ epochs.head?, B ≤ e.2.length) :
    ∃ M, buildModel E.num E.draws ks labels = .ok M ∧ M.Runs s ks ∧ ∃ o, train E p size epochs M = .ok o := by
  obtain ⟨M, e, h1, h2⟩ := buildModel_runs E.num E.draws ks labels hk hs hout
  refine ⟨M, e, h2, C70_train_partial E hE p B T hp hq h0 hB hT0 hT size hs0 hsz M s ks h2 hk epochs ?_ hfull⟩
  rw [h1]
  exact hx

/-- C70 in full for one thread: a network whose layers fit is built and trained without failing, the training ends under some
schedule, and if it ends, the model classifies every input of the right shape and still meets the requirements. -/
theorem C70_one_thread (E : Env α) (hE : E.order = .dimsFirst) (ks : List LayerKind) (labels : List (List Char)) (s : Shape)
    (hs : 0 < s.X * s.Y * s.Z) (hk : KindsWork true s ks)
    (hout : kindsOut ks s = ⟨labels.length, 1, 1⟩ ∨ kindsOut ks s = ⟨1, labels.length, 1⟩) (p : Hyper α) (B : Nat) (hp : p.batch = B)
    (hq : p.threads = 1) (h0 : 0 < B) (hB : B < 2 ^ 24) (size : Nat) (hs0 : 0 < size) (hsz : size < 2 ^ 24)
    (sources : List (List (Sample α))) (hn : sources.length = p.epochs.toNat) (hx : ∀ e ∈ sources, ∀ x ∈ e, x.Fits s labels)
    (hfull : ∀ e ∈ sources.head?, B ≤ e.length) :
    ∃ M, buildModel E.num E.draws ks labels = .ok M ∧
      (∃ epochs M', epochs.map Prod.snd = sources ∧ train E p size epochs M = .ok (some M')) ∧
      ∀ epochs, epochs.map Prod.snd = sources → (∃ o, train E p size epochs M = .ok o) ∧
        ∀ M', train E p size epochs M = .ok (some M') → M'.Runs s ks ∧
          ∀ X : Matrix α, X.Has s → ∀ b < B, ∃ r M'', M'.forwardPropagation E X b = .ok (r, M'') ∧ r.labelIdx < labels.length ∧ M''.Runs s ks := by
  obtain ⟨M, e, h1, h2⟩ := buildModel_runs E.num E.draws ks labels hk hs hout
  rw [← h1] at hx
  refine ⟨M, e, C70_train_ends E hE p B 1 hp hq h0 hB (by decide) (by decide) size hs0 hsz M s ks h2 hk sources hn hx hfull, ?_⟩
  rintro epochs rfl
  have hx' : ∀ e ∈ epochs, ∀ x ∈ e.2, x.Fits s M.labels := fun e he => hx e.2 (List.mem_map.2 ⟨e, he, rfl⟩)
  have hfull' : ∀ e ∈ epochs.head?, B ≤ e.2.length := by
    intro e he
    refine hfull e.2 ?_
    rw [List.head?_map]
    exact Option.mem_map_of_mem _ he
  refine ⟨C70_train_partial E hE p B 1 hp hq h0 hB (by decide) (by decide) size hs0 hsz M s ks h2 hk epochs hx' hfull', fun M' h => ?_⟩
  obtain ⟨a1, _, a3⟩ := C70_trained_partial E hE p B 1 hp hq h0 hB (by decide) (by decide) size hs0 hsz M s ks h2 hk epochs hx' hfull' M' h
  rw [h1] at a3
  exact ⟨a1, a3⟩

/-! A network with all kinds of layers meets the hypotheses: a convolution, an activation, pooling, an inner convolution, a fully
connected layer. -/

def safeKinds : List LayerKind := [.conv 3 3 1 2, .act .relu, .pool .max 2 2 2 2, .conv 2 2 2 3, .full 2]

example : KindsWork true ⟨8, 8, 1⟩ safeKinds ∧ kindsOut safeKinds ⟨8, 8, 1⟩ = ⟨2, 1, 1⟩ := by
  refine ⟨⟨⟨by decide, rfl, ⟨by decide, by decide, by decide⟩, Or.inl rfl⟩, trivial, ⟨by decide, by decide, by decide, by decide, by decide, by decide, by decide, by decide⟩,
    ⟨by decide, rfl, ⟨by decide, by decide, by decide⟩, Or.inr ⟨by decide, by decide⟩⟩, ⟨by decide, by decide⟩, trivial⟩, rfl⟩

end Train
end Cnn
