import Verif.Lemmas.Dark
import Verif.Props.SmallBatch
/-!
# Property C108: weights of pixels that are always 0, in the arithmetic of the program
-/
namespace Cnn
open Model Train
variable {α : Type} [Zero α] [One α] [Add α] [Sub α] [Mul α] [Div α] [Neg α]

/-- C108 If the first layer is fully connected and the pixel `(a, c, e)` is 0 in all training images, training with any labels,
threads and schedules leaves each weight of that pixel exactly as it was, unless the weight becomes NaN. `nan` is any set of numbers
which no operation leaves. -/
theorem C108_train (E : Env α) (nan : α → Prop) (hnan : Absorbs E nan) (hE : E.order = .dimsFirst) (p : Hyper α) (B T : Nat) (hzero : ZeroKept E nan p.rate B)
    (hp : p.batch = B) (hq : p.threads = T) (h0 : 0 < B) (hB : B < 2 ^ 24) (hT0 : 0 < T) (hT : T < 2147483648) (size : Nat) (hs0 : 0 < size) (hsz : size < 2 ^ 24)
    (M : Model α) (s : Shape) (n : Nat) (ks : List LayerKind) (hM : M.Runs s (.full n :: ks)) (hk : KindsWork true s (.full n :: ks)) (hu : M.Used)
    (a c e : Nat) (ha : a < s.X) (hc : c < s.Y) (he : e < s.Z) (epochs : List (List (List Nat) × List (Sample α)))
    (hx : ∀ ep ∈ epochs, ∀ x ∈ ep.2, x.Fits s M.labels) (hd : ∀ ep ∈ epochs, ∀ x ∈ ep.2, x.Dark s a c e)
    (hfull : ∀ ep ∈ epochs.head?, B ≤ ep.2.length) (M' : Model α) (h : train E p size epochs M = .ok (some M')) :
    KeptColumn nan n (s.X * s.Y * s.Z) (a + c * s.X + e * (s.X * s.Y)) M M' := by
  rw [train_if (p := p) (by omega)] at h
  have hub : u64 p.batch = B := by rw [hp]; exact u64_nat (by omega)
  by_cases hl : epochs.length = p.epochs.toNat
  · rw [if_pos hl, hub] at h
    obtain ⟨W, Bi, W', Bi', w, w', e1, e2, r⟩ := epochs_dead hnan hzero hE hk hp hq h0 hB hT0 hT ha hc he hs0 hsz epochs (setBatchSize_shaped hM)
      (setBatchSize_used hu B) hx hd (Or.inr hfull) h
    rw [setBatchSize_params] at e1
    exact ⟨W, Bi, W', Bi', w, w', e1, e2, r⟩
  · rw [if_neg hl] at h
    exact absurd (Res.ok.inj h) (by simp)

/-! ## binary64 -/

/-- The value is NaN. -/
def Binary64.IsNaN (a : Binary64) : Prop := a.1 = .nan

/-- C108 NaN of binary64 is never lost. -/
theorem C108_nan (draws : Nat → Nat → Binary64) : Absorbs (binary64Env draws) Binary64.IsNaN := by
  constructor
  · rintro ⟨a, _⟩ ⟨b, _⟩ (rfl : a = _); cases b <;> rfl
  · rintro ⟨a, _⟩ ⟨b, _⟩ (rfl : b = _); cases a <;> rfl
  · rintro ⟨a, _⟩ ⟨b, _⟩ (rfl : a = _); cases b <;> rfl
  · rintro ⟨a, _⟩ ⟨b, _⟩ (rfl : b = _); cases a <;> rfl
  · rintro ⟨a, _⟩ ⟨b, _⟩ (rfl : a = _); cases b <;> rfl
  · rintro ⟨a, _⟩ ⟨b, _⟩ (rfl : b = _); cases a <;> rfl
  · rintro ⟨a, _⟩ ⟨b, _⟩ (rfl : a = _); cases b <;> rfl
  · rintro ⟨a, _⟩ ⟨b, _⟩ (rfl : b = _); cases a <;> rfl
  · rintro ⟨a, _⟩ (rfl : a = _); rfl
  · rintro ⟨a, _⟩ (rfl : a = _); rfl
  · rintro ⟨a, _⟩ ⟨b, _⟩ (rfl : a = _); cases b <;> rfl
  · rintro ⟨a, _⟩ ⟨b, _⟩ (rfl : b = _); cases a <;> rfl

theorem Double.of_zero : Double.of 0 = .num 0 := Double.of_exact 0 0 (by simp) (by norm_num) (by norm_num) (by norm_num)

/-- C108 Zero in binary64 with a finite learning rate. -/
theorem C108_zero (draws : Nat → Nat → Binary64) (rate : Binary64) (hr : rate.1.Fin) (B : Nat) (h0 : 0 < B) (hB : B < 2 ^ 24) :
    ZeroKept (binary64Env draws) Binary64.IsNaN rate B := by
  have hz : (0 : Binary64).1 = .num 0 := rfl
  constructor
  · rintro ⟨a, _⟩
    cases a with
    | num x =>
      refine Or.inl (Binary64.ext ?_)
      show Double.of (x * 0) = .num 0
      rw [mul_zero, Double.of_zero]
    | inf s =>
      refine Or.inr ?_
      show (if (0 : ℝ) = 0 then Double.nan else _) = .nan
      rw [if_pos rfl]
    | nan => exact Or.inr rfl
  · exact Binary64.zero_add 0
  · refine Binary64.ext ?_
    have hof : (Double.arith.ofNat B : Double) = .num B := by
      refine Double.of_exact B 0 (by simp) ?_ (by norm_num) (by norm_num)
      rw [abs_of_nonneg (by positivity)]
      have : (B : ℤ) < 2 ^ 24 := by exact_mod_cast hB
      omega
    show (Double.num 0) / (Double.arith.ofNat B : Double) = .num 0
    rw [hof]
    show (if (B : ℝ) = 0 then _ else Double.of (0 / B)) = .num 0
    rw [if_neg (by exact_mod_cast h0.ne'), zero_div, Double.of_zero]
  · refine Binary64.ext ?_
    obtain ⟨r, hr'⟩ := rate
    cases r with
    | num x =>
      show Double.of (x * 0) = .num 0
      rw [mul_zero, Double.of_zero]
    | inf s => exact absurd hr (by simp [Double.Fin])
    | nan => exact absurd hr (by simp [Double.Fin])
  · rintro ⟨a, ha⟩
    refine Binary64.ext ?_
    cases a with
    | num x =>
      show Double.of (x - 0) = .num x
      rw [sub_zero]
      exact Double.Real64.of_eq ha
    | inf s => rfl
    | nan => rfl
  · refine Binary64.ext ?_
    show Double.round .float 0 = .num 0
    unfold Double.round
    have : Format.float.round 0 = 0 := Format.round_exact .float (by decide) 0 0 (by simp) (by rw [Int.cast_zero, abs_zero]; positivity) (by decide)
    rw [this, if_pos (by rw [abs_zero]; positivity)]

/-- C108 in the arithmetic of the program (binary64, one zero, one NaN), with a finite learning rate. -/
theorem C108_binary64 (draws : Nat → Nat → Binary64) (p : Hyper Binary64) (hrate : p.rate.1.Fin) (B T : Nat)
    (hp : p.batch = B) (hq : p.threads = T) (h0 : 0 < B) (hB : B < 2 ^ 24) (hT0 : 0 < T) (hT : T < 2147483648) (size : Nat) (hs0 : 0 < size) (hsz : size < 2 ^ 24)
    (M : Model Binary64) (s : Shape) (n : Nat) (ks : List LayerKind) (hM : M.Runs s (.full n :: ks)) (hk : KindsWork true s (.full n :: ks)) (hu : M.Used)
    (a c e : Nat) (ha : a < s.X) (hc : c < s.Y) (he : e < s.Z) (epochs : List (List (List Nat) × List (Sample Binary64)))
    (hx : ∀ ep ∈ epochs, ∀ x ∈ ep.2, x.Fits s M.labels) (hd : ∀ ep ∈ epochs, ∀ x ∈ ep.2, x.Dark s a c e)
    (hfull : ∀ ep ∈ epochs.head?, B ≤ ep.2.length) (M' : Model Binary64) (h : train (binary64Env draws) p size epochs M = .ok (some M')) :
    KeptColumn Binary64.IsNaN n (s.X * s.Y * s.Z) (a + c * s.X + e * (s.X * s.Y)) M M' :=
  C108_train _ _ (C108_nan draws) rfl p B T (C108_zero draws p.rate hrate B h0 hB) hp hq h0 hB hT0 hT size hs0 hsz M s n ks hM hk hu a c e ha hc he epochs hx hd
    hfull M' h

/-! ## It applies -/

noncomputable def darkLayer (u v w : Binary64) : Connected Binary64 :=
  { weights := ⟨dimN 2 2 1, [0, u, v, w]⟩, biases := ⟨dimN 2 1 1, [0, 0]⟩, inputDim := dimN 2 1 1, initialized := true, wGrads := [Matrix.empty],
    bGrads := [Matrix.empty] }

/-- A model of one fully connected layer for two pixels and two classes. -/
noncomputable def darkModel (u v w : Binary64) : Model Binary64 :=
  { (Model.new : Model Binary64) with
    labels := ["a".toList, "b".toList]
    layers := [⟨[], .connected (darkLayer u v w)⟩, ⟨[], .softmax (Softmax.new 2)⟩] }

theorem darkModel_runs (u v w : Binary64) : (darkModel u v w).Runs ⟨2, 1, 1⟩ [.full 2] := by
  refine ⟨rfl, ?_, ⟨_, _, rfl, rfl, rfl⟩, Or.inl rfl⟩
  intro i L k hL hk
  have hi : i < 1 := (List.getElem?_eq_some_iff.1 hk).1
  obtain rfl : i = 0 := by omega
  obtain rfl : LayerKind.full 2 = k := by simpa using hk
  obtain rfl : _ = L := by simpa [darkModel] using hL
  refine Or.inl ⟨fun i k => if k = 0 then (if i = 0 then 0 else u) else if i = 0 then v else w, fun _ => 0, ⟨?_, ?_, rfl⟩, Or.inl rfl⟩
  · refine Matrix.Shows.of_vals ⟨by omega, by decide, by omega, by decide⟩ rfl ?_
    simp [darkLayer, List.range_succ, kindsOut]
  · refine Matrix.Shows.of_vals ⟨by omega, by omega, by omega, by omega⟩ rfl ?_
    simp [darkLayer, List.range_succ]

theorem darkModel_used (u v w : Binary64) : (darkModel u v w).Used := by
  intro l hl L hL
  simp only [darkModel, List.mem_cons, List.not_mem_nil, or_false] at hl
  rcases hl with rfl | rfl
  · obtain rfl : darkLayer u v w = L := by simpa using hL
    rfl
  · simp at hL

/-- An image of two pixels, the second of which is 0. -/
noncomputable def darkSample (x : Binary64) (l : String) : Sample Binary64 := ⟨⟨dimN 2 1 1, [x, 0]⟩, l.toList⟩

theorem darkSample_shows (x : Binary64) (l : String) : (darkSample x l).data.Shows 2 1 1 (fun i _ _ => if i = 0 then x else 0) :=
  Matrix.Shows.of_vals ⟨by decide, by decide, by decide, by decide⟩ rfl (by simp [darkSample, List.range_succ])

/-- A batch of two images with two threads, in binary64: some schedule completes the training, and any schedule that does leaves the
weights `v` and `w` of the second pixel as they are or makes them NaN. -/
example (u v w x y : Binary64) : ∃ es N, es.map Prod.snd = [[darkSample x "a", darkSample y "b"]] ∧
    train (binary64Env fun _ _ => 0) ⟨1, 2, 2, 1⟩ 2 es (darkModel u v w) = .ok (some N) ∧
    KeptColumn Binary64.IsNaN 2 2 1 (darkModel u v w) N := by
  have hx : ∀ z ∈ [darkSample x "a", darkSample y "b"], z.Fits ⟨2, 1, 1⟩ (darkModel u v w).labels ∧ z.Dark ⟨2, 1, 1⟩ 1 0 0 := by
    intro z hz
    simp only [List.mem_cons, List.not_mem_nil, or_false] at hz
    rcases hz with rfl | rfl
    · exact ⟨⟨⟨_, darkSample_shows _ _⟩, by simp [darkModel, darkSample]⟩, _, darkSample_shows _ _, rfl⟩
    · exact ⟨⟨⟨_, darkSample_shows _ _⟩, by simp [darkModel, darkSample]⟩, _, darkSample_shows _ _, rfl⟩
  have hk : KindsWork true ⟨2, 1, 1⟩ [.full 2] := ⟨⟨by decide, by decide⟩, trivial⟩
  obtain ⟨es, N, h1, h2⟩ := C70_train_ends (binary64Env fun _ _ => 0) rfl ⟨1, 2, 2, 1⟩ 2 2 rfl rfl (by decide) (by decide) (by decide) (by decide) 2
    (by decide) (by decide) (darkModel u v w) ⟨2, 1, 1⟩ [.full 2] (darkModel_runs _ _ _) hk [[darkSample x "a", darkSample y "b"]] rfl
    (by intro e he z hz; rw [List.mem_singleton] at he; subst he; exact (hx z hz).1) (by simp)
  have hes : ∀ e ∈ es, e.2 = [darkSample x "a", darkSample y "b"] := by
    intro e he
    have : e.2 ∈ es.map Prod.snd := List.mem_map.2 ⟨e, he, rfl⟩
    rw [h1] at this
    simpa using this
  refine ⟨es, N, h1, h2, ?_⟩
  exact C108_binary64 _ ⟨1, 2, 2, 1⟩ ⟨1, rfl, Double.real64_one⟩ 2 2 rfl rfl (by decide) (by decide) (by decide) (by decide) 2 (by decide) (by decide) (darkModel u v w) ⟨2, 1, 1⟩ 2 []
    (darkModel_runs _ _ _) hk (darkModel_used _ _ _) 1 0 0 (by decide) (by decide) (by decide) es (fun e he z hz => (hx z (by rw [← hes e he]; exact hz)).1)
    (fun e he z hz => (hx z (by rw [← hes e he]; exact hz)).2) (fun e he => by rw [hes e (List.mem_of_mem_head? he)]; simp) N h2

end Cnn
