import Verif.Lemmas.OffUnits
import Verif.Props.Dark
/-!
# Property C105 in the arithmetic of the program: RELU units that are off stay off
-/
namespace Cnn
open Model Train
variable {α : Type} [Zero α] [One α] [Add α] [Sub α] [Mul α] [Div α] [Neg α]

/-- C105 in any arithmetic: let the first layer be fully connected, the second be RELU, and let unit `i` be off for all training
images. Training with any labels, threads and schedules leaves each weight of the unit and its bias exactly as it was, unless it
becomes NaN, and the unit is off for all these images afterwards. `nan` is any set of numbers which no operation leaves. -/
theorem C105_any (E : Env α) (nan : α → Prop) (hnan : Absorbs E nan) (hE : E.order = .dimsFirst) (p : Hyper α) (B T : Nat) (hzero : ZeroKept E nan p.rate B)
    (hoff0 : ZeroOff E nan) (hp : p.batch = B) (hq : p.threads = T) (h0 : 0 < B) (hB : B < 2 ^ 24) (hT0 : 0 < T) (hT : T < 2147483648)
    (size : Nat) (hs0 : 0 < size) (hsz : size < 2 ^ 24) (M : Model α) (s : Shape) (m : Nat) (ks : List LayerKind)
    (hM : M.Runs s (.full m :: .act .relu :: ks)) (hk : KindsWork true s (.full m :: .act .relu :: ks)) (hu : M.Used) (hrelu : M.ReluAt 1)
    (i : Nat) (hi : i < m) (epochs : List (List (List Nat) × List (Sample α)))
    (hx : ∀ ep ∈ epochs, ∀ x ∈ ep.2, x.Fits s M.labels) (hoff : ∀ ep ∈ epochs, ∀ x ∈ ep.2, M.OffFor E s m i x)
    (hfull : ∀ ep ∈ epochs.head?, B ≤ ep.2.length) (M' : Model α) (h : train E p size epochs M = .ok (some M')) :
    KeptUnit nan m (s.X * s.Y * s.Z) i M M' ∧ ∀ ep ∈ epochs, ∀ x ∈ ep.2, M'.OffFor E s m i x := by
  have key : KeptUnit nan m (s.X * s.Y * s.Z) i M M' := by
    rw [train_if (p := p) (by omega)] at h
    have hub : u64 p.batch = B := by rw [hp]; exact u64_nat (by omega)
    by_cases hl : epochs.length = p.epochs.toNat
    · rw [if_pos hl, hub] at h
      have h1 := setBatchSize_shaped (B := B) hM
      have h2 := setBatchSize_used hu B
      obtain ⟨W, Bi, g1, ⟨w, hw⟩, ⟨β, hβ⟩⟩ := h1.params h2 (i := 0) rfl rfl
      refine epochs_off hnan hzero hoff0 hE hk hp hq h0 hB hT0 hT hi hs0 hsz epochs h1 h2 (hrelu.setBatchSize B) ?_ hx hoff (Or.inr hfull) h
      exact ⟨W, Bi, W, Bi, w, β, w, β, by rw [← setBatchSize_params M B]; exact g1, g1, hw, hw, hβ, hβ, fun _ _ => Or.inl rfl, Or.inl rfl⟩
    · rw [if_neg hl] at h
      exact absurd (Res.ok.inj h) (by simp)
  exact ⟨key, fun ep he x hxm => (hoff ep he x hxm).kept hnan hi key⟩

/-- C105 Zero in binary64. -/
theorem C105_zero (draws : Nat → Nat → Binary64) : ZeroOff (binary64Env draws) Binary64.IsNaN := by
  constructor
  · rintro ⟨a, _⟩
    cases a with
    | num x =>
      refine Or.inl (Binary64.ext ?_)
      show Double.of (0 * x) = .num 0
      rw [zero_mul, Double.of_zero]
    | inf s =>
      refine Or.inr ?_
      show (if (0 : ℝ) = 0 then Double.nan else _) = .nan
      rw [if_pos rfl]
    | nan => exact Or.inr rfl
  · show decide ((0 : ℝ) < 0) = false
    simp

/-- C105 in the arithmetic of the program (binary64, one zero, one NaN), with a finite learning rate. -/
theorem C105_binary64 (draws : Nat → Nat → Binary64) (p : Hyper Binary64) (hrate : p.rate.1.Fin) (B T : Nat)
    (hp : p.batch = B) (hq : p.threads = T) (h0 : 0 < B) (hB : B < 2 ^ 24) (hT0 : 0 < T) (hT : T < 2147483648)
    (size : Nat) (hs0 : 0 < size) (hsz : size < 2 ^ 24) (M : Model Binary64) (s : Shape) (m : Nat) (ks : List LayerKind)
    (hM : M.Runs s (.full m :: .act .relu :: ks)) (hk : KindsWork true s (.full m :: .act .relu :: ks)) (hu : M.Used) (hrelu : M.ReluAt 1)
    (i : Nat) (hi : i < m) (epochs : List (List (List Nat) × List (Sample Binary64)))
    (hx : ∀ ep ∈ epochs, ∀ x ∈ ep.2, x.Fits s M.labels) (hoff : ∀ ep ∈ epochs, ∀ x ∈ ep.2, M.OffFor (binary64Env draws) s m i x)
    (hfull : ∀ ep ∈ epochs.head?, B ≤ ep.2.length) (M' : Model Binary64) (h : train (binary64Env draws) p size epochs M = .ok (some M')) :
    KeptUnit Binary64.IsNaN m (s.X * s.Y * s.Z) i M M' ∧ ∀ ep ∈ epochs, ∀ x ∈ ep.2, M'.OffFor (binary64Env draws) s m i x :=
  C105_any _ _ (C108_nan draws) rfl p B T (C108_zero draws p.rate hrate B h0 hB) (C105_zero draws) hp hq h0 hB hT0 hT size hs0 hsz M s m ks hM hk hu hrelu
    i hi epochs hx hoff hfull M' h

/-! ## It applies -/

noncomputable def offReluFirst (u : Binary64) : Connected Binary64 :=
  { weights := ⟨dimN 2 1 1, [u, 0]⟩, biases := ⟨dimN 2 1 1, [1, 0]⟩, inputDim := dimN 1 1 1, initialized := true, wGrads := [Matrix.empty], bGrads := [Matrix.empty] }

noncomputable def offReluSecond (w : Binary64) : Connected Binary64 :=
  { weights := ⟨dimN 2 2 1, [1, w, 1, w]⟩, biases := ⟨dimN 2 1 1, [0, 1]⟩, inputDim := dimN 2 1 1, initialized := true, wGrads := [Matrix.empty],
    bGrads := [Matrix.empty] }

/-- One input, two units, the second with weight and bias 0, RELU, a fully connected layer with two outputs; in binary64. -/
noncomputable def offReluModel (u w : Binary64) : Model Binary64 :=
  { (Model.new : Model Binary64) with
    labels := ["a".toList, "b".toList]
    layers := [⟨[], .connected (offReluFirst u)⟩, ⟨[], .activation (Activation.new .relu)⟩, ⟨[], .connected (offReluSecond w)⟩,
      ⟨[], .softmax (Softmax.new 2)⟩] }

theorem offReluFirst_shows (u : Binary64) : (offReluFirst u).weights.Shows 2 1 1 (fun a _ _ => if a = 0 then u else 0) ∧
    (offReluFirst u).biases.Shows 2 1 1 (fun a _ _ => if a = 0 then 1 else 0) :=
  ⟨Matrix.Shows.of_vals ⟨by decide, by decide, by decide, by decide⟩ rfl (by simp [offReluFirst, List.range_succ]),
    Matrix.Shows.of_vals ⟨by decide, by decide, by decide, by decide⟩ rfl (by simp [offReluFirst, List.range_succ])⟩

theorem offReluSecond_shows (w : Binary64) : (offReluSecond w).weights.Shows 2 2 1 (fun a _ _ => if a = 0 then 1 else w) ∧
    (offReluSecond w).biases.Shows 2 1 1 (fun a _ _ => if a = 0 then 0 else 1) :=
  ⟨Matrix.Shows.of_vals ⟨by decide, by decide, by decide, by decide⟩ rfl (by simp [offReluSecond, List.range_succ]),
    Matrix.Shows.of_vals ⟨by decide, by decide, by decide, by decide⟩ rfl (by simp [offReluSecond, List.range_succ])⟩

theorem offReluModel_runs (u w : Binary64) : (offReluModel u w).Runs ⟨1, 1, 1⟩ [.full 2, .act .relu, .full 2] := by
  refine ⟨rfl, ?_, ⟨_, _, rfl, rfl, rfl⟩, Or.inl rfl⟩
  intro i L k hL hk
  match i, hL, hk with
  | 0, hL, hk =>
    obtain rfl := Option.some.inj hL
    obtain rfl := Option.some.inj hk
    exact Or.inl ⟨fun a _ => if a = 0 then u else 0, fun a => if a = 0 then 1 else 0, ⟨(offReluFirst_shows u).1, (offReluFirst_shows u).2, rfl⟩, Or.inl rfl⟩
  | 1, hL, hk =>
    obtain rfl := Option.some.inj hL
    obtain rfl := Option.some.inj hk
    trivial
  | 2, hL, hk =>
    obtain rfl := Option.some.inj hL
    obtain rfl := Option.some.inj hk
    exact Or.inl ⟨fun a _ => if a = 0 then 1 else w, fun a => if a = 0 then 0 else 1, ⟨(offReluSecond_shows w).1, (offReluSecond_shows w).2, rfl⟩, Or.inr rfl⟩
  | c + 3, _, hk => exact absurd hk (by simp)

theorem offReluModel_used (u w : Binary64) : (offReluModel u w).Used := by
  intro l hl L hL
  simp only [offReluModel, List.mem_cons, List.not_mem_nil, or_false] at hl
  rcases hl with rfl | rfl | rfl | rfl
  · obtain rfl : offReluFirst u = L := by simpa using hL
    rfl
  · simp at hL
  · obtain rfl : offReluSecond w = L := by simpa using hL
    rfl
  · simp at hL

/-- The second unit is off for any image: `0 * x + 0` is 0 or NaN. -/
theorem offReluModel_off (u w x : Binary64) (l : List Char) : (offReluModel u w).OffFor (binary64Env fun _ _ => 0) ⟨1, 1, 1⟩ 2 1 ⟨⟨dimN 1 1 1, [x]⟩, l⟩ := by
  refine ⟨_, _, _, _, fun _ _ _ => x, rfl, (offReluFirst_shows u).1, (offReluFirst_shows u).2,
    Matrix.Shows.of_vals ⟨by decide, by decide, by decide, by decide⟩ rfl (by simp), ?_⟩
  have O := C105_zero (fun _ _ => 0)
  have A := C108_nan (fun _ _ => 0)
  have : affine (fun a _ => if a = 0 then u else 0) (fun a => if a = 0 then (1 : Binary64) else 0) (1 * 1 * 1) (flatOf 1 1 fun _ _ _ => x) 1 = 0 + 0 * x + 0 := by
    unfold affine
    simp [sumTo, flatOf, List.range_succ]
  refine (congrArg ((binary64Env fun _ _ => 0).num.lt 0) this).trans ?_
  rcases O.mul x with h | h
  · rw [h, Binary64.zero_add, Binary64.zero_add]
    exact O.lt
  · exact A.lt_right _ _ (A.add_left _ _ (A.add_right _ _ h))

/-- A batch of two images with two threads in binary64, with any numbers: some schedule completes the training; the second unit keeps
its weight and bias, but for NaNs, and is off for both images. -/
example (u w x y : Binary64) : ∃ es N, es.map Prod.snd = [[⟨⟨dimN 1 1 1, [x]⟩, "a".toList⟩, ⟨⟨dimN 1 1 1, [y]⟩, "b".toList⟩]] ∧
    train (binary64Env fun _ _ => 0) ⟨1, 2, 2, 1⟩ 2 es (offReluModel u w) = .ok (some N) ∧ KeptUnit Binary64.IsNaN 2 1 1 (offReluModel u w) N ∧
    ∀ e ∈ es, ∀ z ∈ e.2, N.OffFor (binary64Env fun _ _ => 0) ⟨1, 1, 1⟩ 2 1 z := by
  have hfit : ∀ z ∈ [(⟨⟨dimN 1 1 1, [x]⟩, "a".toList⟩ : Sample Binary64), ⟨⟨dimN 1 1 1, [y]⟩, "b".toList⟩], z.Fits ⟨1, 1, 1⟩ (offReluModel u w).labels ∧
      (offReluModel u w).OffFor (binary64Env fun _ _ => 0) ⟨1, 1, 1⟩ 2 1 z := by
    intro z hz
    simp only [List.mem_cons, List.not_mem_nil, or_false] at hz
    rcases hz with rfl | rfl
    · exact ⟨⟨⟨fun _ _ _ => x, Matrix.Shows.of_vals ⟨by decide, by decide, by decide, by decide⟩ rfl (by simp)⟩, by simp [offReluModel]⟩, offReluModel_off _ _ _ _⟩
    · exact ⟨⟨⟨fun _ _ _ => y, Matrix.Shows.of_vals ⟨by decide, by decide, by decide, by decide⟩ rfl (by simp)⟩, by simp [offReluModel]⟩, offReluModel_off _ _ _ _⟩
  have hk : KindsWork true ⟨1, 1, 1⟩ [.full 2, .act .relu, .full 2] := ⟨⟨by decide, by decide⟩, trivial, ⟨by decide, by decide⟩, trivial⟩
  obtain ⟨es, N, h1, h2⟩ := C70_train_ends (binary64Env fun _ _ => 0) rfl ⟨1, 2, 2, 1⟩ 2 2 rfl rfl (by decide) (by decide) (by decide) (by decide) 2
    (by decide) (by decide) (offReluModel u w) ⟨1, 1, 1⟩ [.full 2, .act .relu, .full 2] (offReluModel_runs _ _) hk _ rfl
    (by intro e he z hz; rw [List.mem_singleton] at he; subst he; exact (hfit z hz).1) (by simp)
  have hes : ∀ e ∈ es, e.2 = [(⟨⟨dimN 1 1 1, [x]⟩, "a".toList⟩ : Sample Binary64), ⟨⟨dimN 1 1 1, [y]⟩, "b".toList⟩] := by
    intro e he
    have : e.2 ∈ es.map Prod.snd := List.mem_map.2 ⟨e, he, rfl⟩
    rw [h1] at this
    simpa using this
  refine ⟨es, N, h1, h2, ?_⟩
  exact C105_binary64 _ ⟨1, 2, 2, 1⟩ ⟨1, rfl, Double.real64_one⟩ 2 2 rfl rfl (by decide) (by decide) (by decide) (by decide) 2 (by decide) (by decide)
    (offReluModel u w) ⟨1, 1, 1⟩ 2 [.full 2] (offReluModel_runs u w) hk (offReluModel_used u w) ⟨_, _, rfl, rfl, rfl, rfl⟩ 1 (by decide)
    es (fun e he z hz => (hfit z (by rw [← hes e he]; exact hz)).1) (fun e he z hz => (hfit z (by rw [← hes e he]; exact hz)).2)
    (fun e he => by rw [hes e (List.mem_of_mem_head? he)]; simp) N h2

end Cnn
