import Verif.Lemmas.PlainTwins
import Verif.Props.SmallBatch
/-!
# Property C106 in any arithmetic: two equal units stay exactly equal
-/
namespace Cnn
open Model Train
variable {α : Type} [Zero α] [One α] [Add α] [Sub α] [Mul α] [Div α] [Neg α]

/-- C106 without any law of arithmetic, so also with rounding, infinities and NaNs: if units `i` and `j` of a fully connected layer that
is followed by an activation and a fully connected layer have the same weights, the same biases and are used in the same way, this
is so after training with any samples, labels, threads and schedules. The layers before, between and after can be any. -/
theorem C106_any (E : Env α) (hE : E.order = .dimsFirst) (p : Hyper α) (B T : Nat) (hp : p.batch = B) (hq : p.threads = T)
    (h0 : 0 < B) (hB : B < 2 ^ 24) (hT0 : 0 < T) (hT : T < 2147483648) (size : Nat) (hs0 : 0 < size) (hsz : size < 2 ^ 24)
    (M : Model α) (s : Shape) (ks : List LayerKind) (hM : M.Runs s ks) (hk : KindsWork true s ks) (hu : M.Used) (l m n : Nat) (f : ActFn)
    (hk0 : ks[l]? = some (.full m)) (hk1 : ks[l + 1]? = some (.act f)) (hk2 : ks[l + 2]? = some (.full n)) (i j : Nat) (hi : i < m) (hj : j < m)
    (ht : M.TwinUnits l m ((shapeAt ks s l).X * (shapeAt ks s l).Y * (shapeAt ks s l).Z) n i j)
    (epochs : List (List (List Nat) × List (Sample α))) (hx : ∀ e ∈ epochs, ∀ x ∈ e.2, x.Fits s M.labels)
    (hfull : ∀ e ∈ epochs.head?, B ≤ e.2.length) (M' : Model α) (h : train E p size epochs M = .ok (some M')) :
    M'.TwinUnits l m ((shapeAt ks s l).X * (shapeAt ks s l).Y * (shapeAt ks s l).Z) n i j := by
  rw [train_if (p := p) (by omega)] at h
  have hub : u64 p.batch = B := by rw [hp]; exact u64_nat (by omega)
  by_cases hl : epochs.length = p.epochs.toNat
  · rw [if_pos hl, hub] at h
    refine epochs_twinUnits hE hk hp hq h0 hB hT0 hT hk0 hk1 hk2 hi hj hs0 hsz epochs (setBatchSize_shaped hM) (setBatchSize_used hu B) hx ?_ (Or.inr hfull) h
    obtain ⟨W, Bi, V, Bj, w, β, v, e1, e2, r⟩ := ht
    exact ⟨W, Bi, V, Bj, w, β, v, by rw [setBatchSize_params]; exact e1, by rw [setBatchSize_params]; exact e2, r⟩
  · rw [if_neg hl] at h
    exact absurd (Res.ok.inj h) (by simp)

/-! ## It applies -/

noncomputable def plainTwinFirst (u v : Binary64) : Connected Binary64 :=
  { weights := ⟨dimN 2 1 1, [u, u]⟩, biases := ⟨dimN 2 1 1, [v, v]⟩, inputDim := dimN 1 1 1, initialized := true, wGrads := [Matrix.empty], bGrads := [Matrix.empty] }

noncomputable def plainTwinSecond (w : Binary64) : Connected Binary64 :=
  { weights := ⟨dimN 2 2 1, [1, w, 1, w]⟩, biases := ⟨dimN 2 1 1, [0, 1]⟩, inputDim := dimN 2 1 1, initialized := true, wGrads := [Matrix.empty],
    bGrads := [Matrix.empty] }

/-- One input, two equal units, TANGENT, a fully connected layer with two outputs; in binary64. -/
noncomputable def plainTwinModel (u v w : Binary64) : Model Binary64 :=
  { (Model.new : Model Binary64) with
    labels := ["a".toList, "b".toList]
    layers := [⟨[], .connected (plainTwinFirst u v)⟩, ⟨[], .activation (Activation.new .tangent)⟩, ⟨[], .connected (plainTwinSecond w)⟩,
      ⟨[], .softmax (Softmax.new 2)⟩] }

theorem plainTwinFirst_shows (u v : Binary64) : (plainTwinFirst u v).weights.Shows 2 1 1 (fun _ _ _ => u) ∧ (plainTwinFirst u v).biases.Shows 2 1 1 (fun _ _ _ => v) :=
  ⟨Matrix.Shows.of_vals ⟨by decide, by decide, by decide, by decide⟩ rfl (by simp [plainTwinFirst, List.range_succ]),
    Matrix.Shows.of_vals ⟨by decide, by decide, by decide, by decide⟩ rfl (by simp [plainTwinFirst, List.range_succ])⟩

theorem plainTwinSecond_shows (w : Binary64) : (plainTwinSecond w).weights.Shows 2 2 1 (fun a _ _ => if a = 0 then 1 else w) ∧
    (plainTwinSecond w).biases.Shows 2 1 1 (fun a _ _ => if a = 0 then 0 else 1) :=
  ⟨Matrix.Shows.of_vals ⟨by decide, by decide, by decide, by decide⟩ rfl (by simp [plainTwinSecond, List.range_succ]),
    Matrix.Shows.of_vals ⟨by decide, by decide, by decide, by decide⟩ rfl (by simp [plainTwinSecond, List.range_succ])⟩

theorem plainTwinModel_runs (u v w : Binary64) : (plainTwinModel u v w).Runs ⟨1, 1, 1⟩ [.full 2, .act .tangent, .full 2] := by
  refine ⟨rfl, ?_, ⟨_, _, rfl, rfl, rfl⟩, Or.inl rfl⟩
  intro i L k hL hk
  match i, hL, hk with
  | 0, hL, hk =>
    obtain rfl := Option.some.inj hL
    obtain rfl := Option.some.inj hk
    exact Or.inl ⟨fun _ _ => u, fun _ => v, ⟨(plainTwinFirst_shows u v).1, (plainTwinFirst_shows u v).2, rfl⟩, Or.inl rfl⟩
  | 1, hL, hk =>
    obtain rfl := Option.some.inj hL
    obtain rfl := Option.some.inj hk
    trivial
  | 2, hL, hk =>
    obtain rfl := Option.some.inj hL
    obtain rfl := Option.some.inj hk
    exact Or.inl ⟨fun a _ => if a = 0 then 1 else w, fun a => if a = 0 then 0 else 1, ⟨(plainTwinSecond_shows w).1, (plainTwinSecond_shows w).2, rfl⟩, Or.inr rfl⟩
  | c + 3, _, hk => exact absurd hk (by simp)

theorem plainTwinModel_used (u v w : Binary64) : (plainTwinModel u v w).Used := by
  intro l hl L hL
  simp only [plainTwinModel, List.mem_cons, List.not_mem_nil, or_false] at hl
  rcases hl with rfl | rfl | rfl | rfl
  · obtain rfl : plainTwinFirst u v = L := by simpa using hL
    rfl
  · simp at hL
  · obtain rfl : plainTwinSecond w = L := by simpa using hL
    rfl
  · simp at hL

/-- A batch of two images with two threads in binary64, with any numbers: some schedule completes the training, and the units are
still equal. -/
example (u v w x y : Binary64) : ∃ es N, es.map Prod.snd = [[⟨⟨dimN 1 1 1, [x]⟩, "a".toList⟩, ⟨⟨dimN 1 1 1, [y]⟩, "b".toList⟩]] ∧
    train (binary64Env fun _ _ => 0) ⟨1, 2, 2, 1⟩ 2 es (plainTwinModel u v w) = .ok (some N) ∧ N.TwinUnits 0 2 1 2 0 1 := by
  have hfit : ∀ z ∈ [(⟨⟨dimN 1 1 1, [x]⟩, "a".toList⟩ : Sample Binary64), ⟨⟨dimN 1 1 1, [y]⟩, "b".toList⟩], z.Fits ⟨1, 1, 1⟩ (plainTwinModel u v w).labels := by
    intro z hz
    simp only [List.mem_cons, List.not_mem_nil, or_false] at hz
    rcases hz with rfl | rfl
    · exact ⟨⟨fun _ _ _ => x, Matrix.Shows.of_vals ⟨by decide, by decide, by decide, by decide⟩ rfl (by simp)⟩, by simp [plainTwinModel]⟩
    · exact ⟨⟨fun _ _ _ => y, Matrix.Shows.of_vals ⟨by decide, by decide, by decide, by decide⟩ rfl (by simp)⟩, by simp [plainTwinModel]⟩
  have hk : KindsWork true ⟨1, 1, 1⟩ [.full 2, .act .tangent, .full 2] := ⟨⟨by decide, by decide⟩, trivial, ⟨by decide, by decide⟩, trivial⟩
  obtain ⟨es, N, h1, h2⟩ := C70_train_ends (binary64Env fun _ _ => 0) rfl ⟨1, 2, 2, 1⟩ 2 2 rfl rfl (by decide) (by decide) (by decide) (by decide) 2
    (by decide) (by decide) (plainTwinModel u v w) ⟨1, 1, 1⟩ [.full 2, .act .tangent, .full 2] (plainTwinModel_runs _ _ _) hk _ rfl
    (by intro e he z hz; rw [List.mem_singleton] at he; subst he; exact hfit z hz) (by simp)
  have hes : ∀ e ∈ es, e.2 = [(⟨⟨dimN 1 1 1, [x]⟩, "a".toList⟩ : Sample Binary64), ⟨⟨dimN 1 1 1, [y]⟩, "b".toList⟩] := by
    intro e he
    have : e.2 ∈ es.map Prod.snd := List.mem_map.2 ⟨e, he, rfl⟩
    rw [h1] at this
    simpa using this
  refine ⟨es, N, h1, h2, ?_⟩
  exact C106_any _ rfl ⟨1, 2, 2, 1⟩ 2 2 rfl rfl (by decide) (by decide) (by decide) (by decide) 2 (by decide) (by decide) _ ⟨1, 1, 1⟩ _
    (plainTwinModel_runs u v w) hk (plainTwinModel_used u v w) 0 2 2 .tangent rfl rfl rfl 0 1 (by decide) (by decide)
    ⟨_, _, _, _, _, _, _, rfl, rfl, (plainTwinFirst_shows u v).1, (plainTwinFirst_shows u v).2, (plainTwinSecond_shows w).1, fun _ _ => rfl, rfl, fun _ _ => rfl⟩
    es (fun e he z hz => hfit z (by rw [← hes e he]; exact hz)) (fun e he => by rw [hes e (List.mem_of_mem_head? he)]; simp) N h2

end Cnn
