import Verif.Props.Main
import Verif.Props.SavedModels
/-!
# Property C75: the file the program saves
-/
set_option linter.unusedSectionVars false
namespace Cnn

/-- Every entry is one of the values. -/
theorem Matrix.Shows.mem {α : Type} {M : Matrix α} {X Y Z : Nat} {f : Nat → Nat → Nat → α} (h : M.Shows X Y Z f) {i j k : Nat} (hi : i < X) (hj : j < Y) (hk : k < Z) :
    f i j k ∈ M.vals := by
  have e := h.entry i hi j hj k hk
  unfold Matrix.read Matrix.flat at e
  cases hv : M.vals[getIndex M.dim (dimN i j k)]? with
  | none => rw [hv] at e; cases e
  | some v =>
    rw [hv] at e
    obtain rfl : v = f i j k := Res.ok.inj e
    exact List.mem_of_getElem? hv

end Cnn
namespace Cnn.Main
open Model Mnist Train
variable {α : Type} [Zero α] [One α] [Add α] [Sub α] [Mul α] [Div α] [Neg α]

theorem eight {β : Type} : ∀ {l : List β}, l.length = 8 → ∃ l0 l1 l2 l3 l4 l5 l6 l7, l = [l0, l1, l2, l3, l4, l5, l6, l7]
  | [l0, l1, l2, l3, l4, l5, l6, l7], _ => ⟨l0, l1, l2, l3, l4, l5, l6, l7, rfl⟩

theorem storable {C : Codec α} {M : Model α} {B : Nat} (h : M.Trained B image kinds) (hf : FiniteWeights C M) : ∃ ls S n, M.layers = ls ++ [S] ∧ S.body = .softmax n ∧
    (∀ l ∈ ls, l.body.Storable C ∨ ∃ A, l.body = .activation A) ∧
    (ls.filter (fun l => match l.body with | .activation _ => false | _ => true)).length = 5 := by
  have hc := h.runs.count
  obtain ⟨S, n, h2, h3, _⟩ := h.runs.last
  obtain ⟨l0, l1, l2, l3, l4, l5, l6, l7, hM⟩ := eight hc
  have hset := h.settled
  have hrun := h.runs.layers
  unfold FiniteWeights at hf
  rw [hM] at h2 hset hrun hf
  have r0 := hrun 0 _ _ rfl rfl
  have r1 := hrun 1 _ _ rfl rfl
  have r2 := hrun 2 _ _ rfl rfl
  have r3 := hrun 3 _ _ rfl rfl
  have r4 := hrun 4 _ _ rfl rfl
  have r5 := hrun 5 _ _ rfl rfl
  have r6 := hrun 6 _ _ rfl rfl
  obtain rfl : l7 = S := Option.some.inj h2
  have kern : ∀ (l : Layer α) (b : Bool) (s : Shape) (A B D F : Nat), l ∈ [l0, l1, l2, l3, l4, l5, l6, l7] → l.body.Runs b s (.conv A B D F) → ∃ K, l.body = .kernel K ∧ l.body.Storable C := by
    intro l b s A B D F hl hr
    have hfl := hf l hl
    cases e : l.body <;> rw [e] at hr hfl <;> first | exact hr.elim | skip
    obtain ⟨w, β, hK⟩ := hr
    exact ⟨_, rfl, .kernel hK (fun a ha b hb m hm => hfl.1 _ (hK.weights.mem ha hb hm)) (fun f hf => hfl.2 _ (hK.biases.mem hf Nat.one_pos Nat.one_pos))⟩
  have pool : ∀ (l : Layer α) (b : Bool) (s : Shape), l.body.Runs b s (.pool .max 2 2 2 2) → ∃ P, l.body = .pooling P ∧ l.body.Storable C := by
    intro l b s hr
    cases e : l.body <;> rw [e] at hr <;> first | exact hr.elim | skip
    rename_i P
    obtain ⟨_, h5, h6⟩ := hr
    exact ⟨_, rfl, .pooling (by rw [h5]; decide) (by rw [h5]; decide) (by rw [h5, h6])⟩
  have act : ∀ (l : Layer α) (b : Bool) (s : Shape) (f : ActFn), l.body.Runs b s (.act f) → ∃ A, l.body = .activation A := by
    intro l b s f hr
    cases e : l.body <;> rw [e] at hr <;> first | exact hr.elim | skip
    exact ⟨_, rfl⟩
  have full : ∃ L, l6.body = .connected L ∧ l6.body.Storable C := by
    have hfl := hf l6 (by simp)
    have hsl := hset l6 (by simp)
    cases e : l6.body <;> rw [e] at r6 hfl hsl <;> first | exact r6.elim | skip
    rcases r6 with ⟨w, β, hL, _⟩ | ⟨hi, _⟩
    · exact ⟨_, rfl, .connected hL (fun a ha b hb => hfl.1 _ (hL.weights.mem ha hb Nat.one_pos)) (fun f hf => hfl.2 _ (hL.biases.mem hf Nat.one_pos Nat.one_pos))⟩
    · rw [hsl.1] at hi; cases hi
  obtain ⟨K0, e0, s0⟩ := kern l0 _ _ _ _ _ _ (by simp) r0
  obtain ⟨A1, e1⟩ := act _ _ _ _ r1
  obtain ⟨P2, e2, s2⟩ := pool _ _ _ r2
  obtain ⟨K3, e3, s3⟩ := kern l3 _ _ _ _ _ _ (by simp) r3
  obtain ⟨A4, e4⟩ := act _ _ _ _ r4
  obtain ⟨P5, e5, s5⟩ := pool _ _ _ r5
  obtain ⟨L6, e6, s6⟩ := full
  refine ⟨[l0, l1, l2, l3, l4, l5, l6], l7, n, hM, h3, ?_, ?_⟩
  · intro l hl
    simp only [List.mem_cons, List.not_mem_nil, or_false] at hl
    rcases hl with rfl | rfl | rfl | rfl | rfl | rfl | rfl
    · exact .inl s0
    · exact .inr ⟨_, e1⟩
    · exact .inl s2
    · exact .inl s3
    · exact .inr ⟨_, e4⟩
    · exact .inl s5
    · exact .inl s6
  · simp [e0, e1, e2, e3, e4, e5, e6]

/-- The claim of C75: the model the program saves can be loaded again. -/
def C75_claim : Prop :=
  ∀ (H : Host ℚ) (C : Codec ℚ) (rate : ℚ) (f g : Content) (r : Outcome ℚ) (file : List Char), C.Lawful → (∀ a, C.Finite a) → Suits H.lim H.cores f g → H.env.order = .dimsFirst →
    program H C rate (files f g) (some true) = .ok (some r) → r.saved = some (.ok true, some file) →
    ∃ M', loadModel H.env.num H.env.draws C Model.new (some file) = some (.ok true, M') ∧ M'.SameAs C r.model

/-- C75. Whatever the program has learnt: if the weights are finite numbers, then the file it has written can be loaded, without any error message, into a model without the
activation layers. The other layers and the labels are restored (up to the six decimals written). -/
theorem C75_lost [Inhabited α] (H : Host α) (C : Codec α) (hC : C.Lawful) (rate : α) (f g : Content) (hs : Suits H.lim H.cores f g) (hE : H.env.order = .dimsFirst)
    (h32 : Rounding H.chance.r32) (h64 : Rounding H.chance.r64) (hh : H.chance.r32 (1 / 2) ≠ 0)
    (herr : ∀ q, 0 ≤ q → H.chance.r64 q ≤ q * (1 + 1 / 9007199254740992)) (hm : H.chance.randMax ≤ 2147483647)
    (hr : ∀ r ∈ H.rands, r < H.chance.randMax) (hr5 : 5 ≤ H.rands.length) (r : Outcome α) (e : program H C rate (files f g) (some true) = .ok (some r))
    (hf : FiniteWeights C r.model) :
    ∃ file, r.saved = some (.ok true, some file) ∧ r.model.layers.length = 8 ∧ ∀ (N : Num α) (draws : Nat → Nat → α), ∃ M',
      loadModel N draws C Model.new (some file) = some (.ok true, M') ∧ M'.layers.length = 6 ∧ M'.labels = labels ∧
      List.Forall₂ (fun l' l => Body.SameAs C l'.body l.body) M'.layers (r.model.layers.filter (!isActivation ·)) := by
  obtain ⟨o, e', ho⟩ := C71_program_partial H C rate f g hs hE h32 h64 hh herr hm hr hr5 (some true)
  rw [e] at e'
  obtain ⟨_, _, _, _, _, _, _, ht, hl, _, hsv⟩ := ho r (Res.ok.inj e').symm
  obtain ⟨ls, S, n, h1, h2, h3, h4⟩ := storable ht hf
  obtain ⟨file, e1, h5⟩ := C48_load C hC r.model ls S n h1 h2 h3 (by rw [hl]; unfold IsWord; decide) (by rw [hl]; decide)
  refine ⟨file, by rw [(hsv true rfl).1, e1], ht.runs.count, fun N draws => ?_⟩
  obtain ⟨M', ls', e2, h6, h7, h8, _, _⟩ := h5 N draws Model.new
  have h9 : ls'.length = 5 := h7.length_eq.trans h4
  have h6' : M'.layers = ls' ++ [⟨"SoftmaxOutput".toList, .softmax (Softmax.new r.model.labels.length)⟩] := by rw [h6]; rfl
  refine ⟨M', e2, by rw [h6', List.length_append, h9]; rfl, h8.trans hl, ?_⟩
  rw [h6', h1, List.filter_append]
  have h10 : ls.filter (!isActivation ·) = ls.filter (fun l => match l.body with | .activation _ => false | _ => true) := by
    congr 1
    funext l
    unfold isActivation
    cases l.body <;> rfl
  have h11 : [S].filter (!isActivation ·) = [S] := by
    rw [List.filter_eq_self]
    intro l hl
    rw [List.mem_singleton.1 hl]
    unfold isActivation
    rw [h2]
    rfl
  rw [h10, h11]
  refine List.rel_append h7 (.cons ?_ .nil)
  rw [h2]
  obtain ⟨S', n', k1, k2, k3⟩ := ht.runs.last
  rw [h1] at k1
  have hc := ht.runs.count
  rw [h1, List.length_append] at hc
  have : (ls ++ [S])[kinds.length]? = some S := by
    rw [List.getElem?_append_right (by simp at hc; omega)]
    have : kinds.length - ls.length = 0 := by simp at hc; omega
    rw [this]; rfl
  rw [this] at k1
  obtain rfl := Option.some.inj k1
  rw [h2] at k2
  obtain rfl : n = n' := by injection k2
  exact k3.symm

/-- A way to print and read rational numbers: six decimals, and the value the digits say. -/
def ratCodec : Codec ℚ := ⟨fun a => some ⟨decide (round (|a| * 1000000) ≠ 0 ∧ a < 0), (round (|a| * 1000000)).toNat⟩, fun _ => [],
  fun d => ((if d.neg then -1 else 1) * d.mant * (10 : ℚ) ^ d.exp, false)⟩

theorem ratCodec_fixed (neg : Bool) (m : Nat) (h : neg = true → m ≠ 0) :
    ratCodec.fixed ((if neg then -1 else 1) * (m : ℚ) * (10 : ℚ) ^ (-6 : Int)) = some ⟨neg, m⟩ := by
  have hb : |(if neg then -1 else 1) * (m : ℚ) * (10 : ℚ) ^ (-6 : Int)| * 1000000 = m := by
    have hm : (0 : ℚ) ≤ m := Nat.cast_nonneg m
    have h10 : (10 : ℚ) ^ (-6 : Int) = 1 / 1000000 := by norm_num
    rw [h10, abs_mul, abs_mul, abs_of_nonneg hm]
    cases neg <;> norm_num <;> ring
  have hr : round (|(if neg then -1 else 1) * (m : ℚ) * (10 : ℚ) ^ (-6 : Int)| * 1000000) = (m : Int) := by rw [hb, round_natCast]
  show some _ = _
  rw [hr]
  congr 2
  have hlt : ((if neg then -1 else 1) * (m : ℚ) * (10 : ℚ) ^ (-6 : Int) < 0) ↔ neg = true := by
    have hm : (0 : ℚ) ≤ m := Nat.cast_nonneg m
    have h10 : (0 : ℚ) < (10 : ℚ) ^ (-6 : Int) := by norm_num
    cases neg with
    | false => simp only [Bool.false_eq_true, iff_false, not_lt, if_false, one_mul]; positivity
    | true =>
      have : (0 : ℚ) < m := Nat.cast_pos.2 (Nat.pos_of_ne_zero (h rfl))
      simp only [if_true, iff_true, neg_mul, one_mul]
      have := mul_pos this h10
      linarith
  rw [Bool.eq_iff_iff, decide_eq_true_iff, hlt]
  exact ⟨fun q => q.2, fun q => ⟨by have := h q; omega, q⟩⟩

theorem ratCodec_lawful : ratCodec.Lawful := by
  refine ⟨?_, fun a h => by cases h⟩
  intro a f h
  obtain rfl := Option.some.inj h
  refine ⟨_, rfl, ratCodec_fixed _ _ ?_⟩
  intro hd
  have := (of_decide_eq_true hd).1
  have hn : 0 ≤ round (|a| * 1000000) := by
    rw [round_eq]
    exact Int.floor_nonneg.2 (by positivity)
  show (round (|a| * 1000000)).toNat ≠ 0
  omega

/-- C75 does not hold. -/
theorem C75_violated : ¬ C75_claim := by
  intro h
  have herr : ∀ q : ℚ, 0 ≤ q → q ≤ q * (1 + 1 / 9007199254740992) := fun q hq => le_mul_of_one_le_right hq (by norm_num)
  have hr : ∀ r ∈ someHost.rands, r < 2147483647 := by decide
  have hfin : ∀ a, ratCodec.Finite a := fun a h => by cases h
  obtain ⟨ts, vs, r, e⟩ := C71_ends someHost ratCodec (1 / 10) someTrain someTest someSuits rfl Rounding.id Rounding.id (by show (1 / 2 : ℚ) ≠ 0; norm_num) herr
    (Nat.le_refl _) hr (some true)
  obtain ⟨file, e1, h8, hl⟩ := C75_lost { someHost with trainScheds := ts, validScheds := vs } ratCodec ratCodec_lawful (1 / 10) someTrain someTest someSuits rfl Rounding.id
    Rounding.id (by show (1 / 2 : ℚ) ≠ 0; norm_num) herr (Nat.le_refl _) hr (Nat.le_refl 5) r e
    (by intro l _; split <;> first | exact ⟨fun a _ => hfin a, fun a _ => hfin a⟩ | trivial)
  obtain ⟨M', e2, h6, _⟩ := hl someHost.env.num someHost.env.draws
  obtain ⟨M'', e3, hS⟩ := h _ ratCodec (1 / 10) someTrain someTest r file ratCodec_lawful hfin someSuits rfl e e1
  have e3' := e2.symm.trans e3
  obtain rfl : M' = M'' := (Prod.mk.inj (Option.some.inj e3')).2
  have := hS.layers.length_eq
  rw [h6, h8] at this
  exact absurd this (by decide)

end Cnn.Main
