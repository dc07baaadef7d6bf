import Verif.Lemmas.Stale
import Verif.Lemmas.Build
import Verif.Spec.Safe
/-! Helper lemmas: whole trainings with remembered gradients (C82, C83). -/
namespace Cnn

theorem LayerKind.drawn_out (draws : Nat → ℝ) (s : Shape) (k : LayerKind) : (k.drawn draws s).out s = k.out s := by
  cases k <;> rfl

/-- The network with random weights of a sequence of layers that works. -/
theorem drawnNet_works (draws : Nat → Nat → ℝ) (ks : List LayerKind) : ∀ {i : Nat} {first : Bool} {s : Shape}, KindsWork first s ks →
    0 < s.X → 0 < s.Y → 0 < s.Z →
    AllSized draws i s ks ∧ NetFits (drawnNet draws i s ks) s ∧ NetTrains first (drawnNet draws i s ks) s ∧ netOut (drawnNet draws i s ks) s = kindsOut ks s := by
  induction ks with
  | nil => exact fun _ _ _ _ => ⟨trivial, trivial, trivial, rfl⟩
  | cons k ks ih =>
    intro i first s h hx hy hz
    obtain ⟨h1, h2⟩ := h
    have hpos : 0 < (k.out s).X ∧ 0 < (k.out s).Y ∧ 0 < (k.out s).Z := by
      cases k with
      | conv A B C F => exact ⟨Nat.succ_pos _, Nat.succ_pos _, h1.1.2.2.2.1⟩
      | pool t px py sx sy => exact ⟨Nat.succ_pos _, Nat.succ_pos _, hz⟩
      | full n => exact ⟨h1.1, Nat.one_pos, Nat.one_pos⟩
      | act f => exact ⟨hx, hy, hz⟩
    obtain ⟨j1, j2, j3, j4⟩ := ih (i := i + 1) h2 hpos.1 hpos.2.1 hpos.2.2
    unfold AllSized drawnNet NetFits NetTrains netOut kindsOut
    rw [LayerKind.drawn_out]
    refine ⟨⟨?_, j1⟩, ⟨?_, j2⟩, ⟨?_, j3⟩, j4⟩
    · cases k with
      | conv A B C F => exact h1.1
      | full n => exact ⟨h1.1, Nat.mul_pos (Nat.mul_pos hx hy) hz, h1.2⟩
      | _ => trivial
    · cases k with
      | conv A B C F => exact ⟨h1.2.1, h1.2.2.1⟩
      | pool t px py sx sy => exact h1
      | _ => trivial
    · cases k with
      | conv A B C F => exact h1.2.2.2
      | _ => trivial

namespace Train
open Model

variable {E : Env ℝ} {p : Hyper ℝ} {B T size : Nat} {s : Shape} {n : Nat} {rep : Rep}

/-- The function that one thread follows. -/
abbrev FillOne : List NetLayer → List (Tensor × Nat) → List Remembered → List Remembered → Prop :=
  fun ls d mem mem' => mem' = refill ls d mem

/-- What the training of a model is, given what the loop over the epochs is. -/
theorem trains_of {R : List NetLayer → List (Tensor × Nat) → List Remembered → List Remembered → Prop} {labels : List (List Char)}
    {M M₁ : Model ℝ} {ls : List NetLayer} (hS : StaleSteps rep E p labels s n B R) (hp : p.batch = B) (hq : p.threads = T) (h0 : 0 < B) (hT0 : 0 < T)
    (hBs : B ≤ size) (hsz : size < 2 ^ 24) (ess : List (List (Tensor × Nat))) (hk : ∀ es ∈ ess, es.length = size)
    (hM : Trainee labels s n B M₁ ls) (hsm : LeadsSmooth rep R p.rate s n (ess.flatMap (batchesOf B)) [] ls)
    (ht : ∀ epochs : List (List (List Nat) × List (Sample ℝ)), List.Forall₂ (fun e es => List.Forall₂ (Sample.Is labels s) e.2 es) epochs ess →
      train E p size epochs M = if epochs.length = p.epochs.toNat then epochLoop E p size epochs (some M₁) else .ok none) :
    (∀ epochs : List (List (List Nat) × List (Sample ℝ)),
      List.Forall₂ (fun e es => List.Forall₂ (Sample.Is labels s) e.2 es) epochs ess →
      (∃ o, train E p size epochs M = .ok o) ∧
      ∀ M', train E p size epochs M = .ok (some M') →
        ∃ mem' out, Leads rep R p.rate s n (ess.flatMap (batchesOf B)) [] ls mem' out ∧ M'.Denotes 0 s out n) ∧
    (ess.length = p.epochs.toNat → ∀ srcs : List (List (Sample ℝ)), List.Forall₂ (List.Forall₂ (Sample.Is labels s)) srcs ess →
      ∃ epochs M', epochs.map Prod.snd = srcs ∧ List.Forall₂ (fun e es => List.Forall₂ (Sample.Is labels s) e.2 es) epochs ess ∧
        train E p size epochs M = .ok (some M')) := by
  have hB : B < 2 ^ 24 := by omega
  obtain ⟨a1, a2⟩ := hS.epochs hp hq hB h0 hT0 hBs hsz ess hk hM (Recalls.nil _ _ _ _ _) (Or.inr rfl) hsm
  constructor
  · intro epochs he
    obtain ⟨i1, i2⟩ := a1 epochs he
    rw [ht epochs he]
    by_cases hl : epochs.length = p.epochs.toNat
    · rw [if_pos hl]
      refine ⟨i1, ?_⟩
      intro M' h
      obtain ⟨m, ls', j1, j2⟩ := i2 M' h
      exact ⟨m, ls', j1, j2.denotes⟩
    · rw [if_neg hl]
      exact ⟨⟨_, rfl⟩, fun M' h => absurd (Res.ok.inj h) (by simp)⟩
  · intro hep srcs hsrc
    obtain ⟨epochs, M', h1, h2⟩ := a2 srcs hsrc
    have he : List.Forall₂ (fun e es => List.Forall₂ (Sample.Is labels s) e.2 es) epochs ess := by
      rw [← h1] at hsrc
      exact List.forall₂_map_left_iff.1 hsrc
    refine ⟨epochs, M', h1, he, ?_⟩
    rw [ht epochs he, if_pos]
    · exact h2
    · rw [← hep, ← hsrc.length_eq, ← h1, List.length_map]

/-- A model whose layers are ready. -/
theorem trains_ready {R : List NetLayer → List (Tensor × Nat) → List Remembered → List Remembered → Prop} {M : Model ℝ} {b : Nat} {ls : List NetLayer}
    (hS : StaleSteps rep E p M.labels s n B R) (hp : p.batch = B) (hq : p.threads = T) (h0 : 0 < B) (hT0 : 0 < T)
    (hBs : B ≤ size) (hsz : size < 2 ^ 24) (hD : M.Denotes b s ls n) (hfit : NetFits ls s) (htr : NetTrains true ls s)
    (ess : List (List (Tensor × Nat))) (hk : ∀ es ∈ ess, es.length = size)
    (hsm : LeadsSmooth rep R p.rate s n (ess.flatMap (batchesOf B)) [] ls) :
    (∀ epochs : List (List (List Nat) × List (Sample ℝ)),
      List.Forall₂ (fun e es => List.Forall₂ (Sample.Is M.labels s) e.2 es) epochs ess →
      (∃ o, train E p size epochs M = .ok o) ∧
      ∀ M', train E p size epochs M = .ok (some M') →
        ∃ mem' out, Leads rep R p.rate s n (ess.flatMap (batchesOf B)) [] ls mem' out ∧ M'.Denotes 0 s out n) ∧
    (ess.length = p.epochs.toNat → ∀ srcs : List (List (Sample ℝ)), List.Forall₂ (List.Forall₂ (Sample.Is M.labels s)) srcs ess →
      ∃ epochs M', epochs.map Prod.snd = srcs ∧ List.Forall₂ (fun e es => List.Forall₂ (Sample.Is M.labels s) e.2 es) epochs ess ∧
        train E p size epochs M = .ok (some M')) := by
  have hM : Trainee M.labels s n B (M.setBatchSize B) ls := ⟨hD.prepared hfit B, hD.setBatchSize h0, hfit, htr, rfl⟩
  have hu : u64 p.batch = B := by
    rw [hp]; unfold u64; omega
  refine trains_of hS hp hq h0 hT0 hBs hsz ess hk hM hsm ?_
  intro epochs _
  rw [train_eq (p := p) (by omega), hu]

/-- A model before its first use. -/
theorem trains_fresh {R : List NetLayer → List (Tensor × Nat) → List Remembered → List Remembered → Prop} {M : Model ℝ} {ls : List NetLayer}
    (hE : E.Exact) (hS : StaleSteps rep E p M.labels s n B R) (hp : p.batch = B) (hq : p.threads = T) (h0 : 0 < B) (hT0 : 0 < T) (hT : T < 2147483648)
    (hBs : B ≤ size) (hsz : size < 2 ^ 24) (hD : M.Starts E.draws s ls n) (hfit : NetFits ls s) (htr : NetTrains true ls s)
    (ess : List (List (Tensor × Nat))) (hne : ess ≠ []) (hk : ∀ es ∈ ess, es.length = size)
    (hsm : LeadsSmooth rep R p.rate s n (ess.flatMap (batchesOf B)) [] ls) :
    (∀ epochs : List (List (List Nat) × List (Sample ℝ)),
      List.Forall₂ (fun e es => List.Forall₂ (Sample.Is M.labels s) e.2 es) epochs ess →
      (∃ o, train E p size epochs M = .ok o) ∧
      ∀ M', train E p size epochs M = .ok (some M') →
        ∃ mem' out, Leads rep R p.rate s n (ess.flatMap (batchesOf B)) [] ls mem' out ∧ M'.Denotes 0 s out n) ∧
    (ess.length = p.epochs.toNat → ∀ srcs : List (List (Sample ℝ)), List.Forall₂ (List.Forall₂ (Sample.Is M.labels s)) srcs ess →
      ∃ epochs M', epochs.map Prod.snd = srcs ∧ List.Forall₂ (fun e es => List.Forall₂ (Sample.Is M.labels s) e.2 es) epochs ess ∧
        train E p size epochs M = .ok (some M')) := by
  obtain ⟨M₁, hM, ht⟩ := train_first hE hp hq (by omega) h0 hT0 hT hBs hsz hD hfit htr
  exact trains_of hS hp hq h0 hT0 hBs hsz ess hk hM hsm fun epochs he => ht ess epochs hne hk he

end Train
end Cnn
