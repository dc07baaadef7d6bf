import Verif.Lemmas.BoxNet
import Verif.Spec.StaleRounding
/-! Helper lemmas: the update of the example of C99 with short batches. -/
namespace Cnn
open Model Finset

/-- A step at rate 1 with two gradients of at most 1 that are off by at most 1/100. -/
theorem step_two {w g e g' e' : ℝ} (hw : |w| ≤ 8) (hg : |g| ≤ 1) (he : e ≤ 1 / 2 ^ 7) (hg' : |g'| ≤ 1) (he' : e' ≤ 1 / 2 ^ 7) :
    Double.precision.StepRoom 1 w [(g, e), (g', e')] ∧ Double.precision.stepErr 1 w [(g, e), (g', e')] ≤ 1 ∧ |Precision.mean [(g, e), (g', e')]| ≤ 1 := by
  obtain ⟨u1, v1, η1, hΩ⟩ := double_consts
  have hp := Double.precision_ok
  have u0 := hp.u0
  have η0 := hp.η0
  have hm : Precision.mean [(g, e), (g', e')] = (g + g') / 2 := by simp [Precision.mean]
  have hm1 : |(g + g') / 2| ≤ 1 := by
    rw [abs_div, abs_two]
    have := abs_add_le g g'
    linarith
  have hm0 := abs_nonneg ((g + g') / 2)
  have g0 := abs_nonneg g
  have g0' := abs_nonneg g'
  have hwg : |w - 1 * ((g + g') / 2)| ≤ 9 := by
    rw [one_mul]
    exact (abs_sub w _).trans (by linarith)
  have hu : ∀ x : ℝ, x ≤ 16 → Double.precision.u * x ≤ 1 / 2 ^ 36 := by
    intro x hx
    have := mul_le_mul_of_nonneg_left hx u0
    have h2 := mul_le_mul_of_nonneg_right u1 (show (0 : ℝ) ≤ 16 by norm_num)
    norm_num at *
    linarith
  have ht : Double.precision.totalErr [(g, e), (g', e')] = (e + e') + 2 * (Double.precision.u * (|g| + e + (|g'| + e'))) +
      Double.precision.u * (Double.precision.u * (|g| + e + (|g'| + e'))) := by
    simp only [Precision.totalErr, Precision.grown, List.length_cons, List.length_nil, List.map_cons, List.map_nil, List.sum_cons, List.sum_nil, add_zero,
      Nat.cast_zero, zero_mul, zero_add]
    ring
  have k1 := hu (|g| + e + (|g'| + e')) (by norm_num at *; linarith)
  have k1' := hu (Double.precision.u * (|g| + e + (|g'| + e'))) (by norm_num at *; linarith)
  have ht1 : Double.precision.totalErr [(g, e), (g', e')] ≤ 1 / 8 := by rw [ht]; norm_num at *; linarith
  have hS : |g| + e + (|g'| + e') ≤ 3 := by norm_num at *; linarith
  have hme : Double.precision.meanErr [(g, e), (g', e')] = Double.precision.totalErr [(g, e), (g', e')] / 2 +
      (Double.precision.u * (|(g + g') / 2| + Double.precision.totalErr [(g, e), (g', e')] / 2) + Double.precision.η) := by
    simp only [Precision.meanErr, hm, List.length_cons, List.length_nil, zero_add, Nat.reduceAdd, Nat.cast_ofNat]
  have hroom1 : Double.precision.Room 2 0 (|g| + e + (|g'| + e')) := by
    unfold Precision.Room
    have : (1 + Double.precision.u) ^ 2 * (|g| + e + (|g'| + e') + (0 : ℕ) * Double.precision.η) = (|g| + e + (|g'| + e')) +
        2 * (Double.precision.u * (|g| + e + (|g'| + e'))) + Double.precision.u * (Double.precision.u * (|g| + e + (|g'| + e'))) := by
      push_cast; ring
    rw [this]
    refine le_trans ?_ hΩ
    norm_num at *
    linarith
  generalize htd : Double.precision.totalErr [(g, e), (g', e')] = t at *
  have k2 := hu (|(g + g') / 2| + t / 2) (by norm_num at *; linarith)
  have hme1 : Double.precision.meanErr [(g, e), (g', e')] ≤ 1 / 8 := by rw [hme]; norm_num at *; linarith
  have hsh : Double.precision.shiftErr 1 [(g, e), (g', e')] = Double.precision.meanErr [(g, e), (g', e')] + Double.precision.η +
      Double.precision.u * (|(g + g') / 2| + Double.precision.meanErr [(g, e), (g', e')] + Double.precision.η) := by
    simp only [Precision.shiftErr, Precision.grown, hm, abs_one, one_mul, Nat.cast_one, pow_one]
    ring
  have hst : Double.precision.stepErr 1 w [(g, e), (g', e')] = Double.precision.shiftErr 1 [(g, e), (g', e')] +
      Double.precision.u * (|w - 1 * ((g + g') / 2)| + Double.precision.shiftErr 1 [(g, e), (g', e')]) := by
    simp only [Precision.stepErr, Precision.grown, hm, Nat.cast_zero, zero_mul, add_zero, pow_one]
    ring
  have hshift : |(1 : ℝ)| * (|(g + g') / 2| + Double.precision.meanErr [(g, e), (g', e')]) ≤ 2 := by
    rw [abs_one, one_mul]; norm_num at *; linarith
  generalize hmd : Double.precision.meanErr [(g, e), (g', e')] = me at *
  have k3 := hu (|(g + g') / 2| + me + Double.precision.η) (by norm_num at *; linarith)
  have hsh1 : Double.precision.shiftErr 1 [(g, e), (g', e')] ≤ 1 / 4 := by rw [hsh]; norm_num at *; linarith
  refine ⟨⟨?_, ?_, ?_, ?_⟩, ?_, by rw [hm]; exact hm1⟩
  · simpa using hroom1
  · rw [hm, htd]
    simp only [List.length_cons, List.length_nil, zero_add, Nat.reduceAdd, Nat.cast_ofNat]
    refine le_trans ?_ hΩ
    norm_num at *
    linarith
  · rw [hm, hmd]
    exact hshift.trans (le_trans (by norm_num) hΩ)
  · rw [hm]
    refine le_trans (add_le_add hwg hsh1) (le_trans (by norm_num) hΩ)
  · rw [hst]
    have k4 := hu (|w - 1 * ((g + g') / 2)| + Double.precision.shiftErr 1 [(g, e), (g', e')]) (by norm_num at *; linarith)
    generalize Double.precision.shiftErr 1 [(g, e), (g', e')] = sh at *
    norm_num at *
    linarith

/-- A fully connected layer with two outputs and parameters of at most `c`. -/
def Boxed (c : ℝ) (ls : List NetLayer) : Prop := ∃ w β, ls = [.full 2 w β] ∧ (∀ i < 2, |w i 0 0| ≤ c) ∧ ∀ i < 2, |β i| ≤ c

/-- What is remembered are two gradients of such layers. -/
def BoxedPair (mem : List Kept) : Prop := mem.length = 2 ∧ ∀ m ∈ mem, Boxed 8 m.1 ∧ ∃ t < 2, m.2 = roundDatum t

theorem Boxed.mono {c c' : ℝ} (h : c ≤ c') {ls : List NetLayer} (hb : Boxed c ls) : Boxed c' ls := by
  obtain ⟨w, β, rfl, h1, h2⟩ := hb
  exact ⟨w, β, rfl, fun i hi => (h1 i hi).trans h, fun i hi => (h2 i hi).trans h⟩

theorem Boxed.passes {ls : List NetLayer} (hb : Boxed 8 ls) {t : Nat} (ht : t < 2) :
    (roundDatum t).Passes Double.precision ⟨2 ^ (-24 : ℤ), 2 ^ (-150 : ℤ), 2 ^ (127 : ℤ)⟩ ls ⟨1, 1, 1⟩ 2 (1 / 2 ^ 20) := by
  obtain ⟨w, β, rfl, h1, h2⟩ := hb
  exact (box_facts h1 h2).1 t ht

/-- Each weight and bias of a step. -/
theorem BoxedPair.terms {mem : List Kept} (hm : BoxedPair mem) :
    (∀ a < 2, ∃ g e g' e', keptWeights Double.precision ⟨2 ^ (-24 : ℤ), 2 ^ (-150 : ℤ), 2 ^ (127 : ℤ)⟩ 2 (1 / 2 ^ 20) 0 ⟨1, 1, 1⟩ mem a 0 0 = [(g, e), (g', e')] ∧
      |g| ≤ 1 ∧ e ≤ 1 / 2 ^ 7 ∧ |g'| ≤ 1 ∧ e' ≤ 1 / 2 ^ 7) ∧
    ∀ a < 2, ∃ g e g' e', keptBiases Double.precision ⟨2 ^ (-24 : ℤ), 2 ^ (-150 : ℤ), 2 ^ (127 : ℤ)⟩ 2 (1 / 2 ^ 20) 0 ⟨1, 1, 1⟩ mem a = [(g, e), (g', e')] ∧
      |g| ≤ 1 ∧ e ≤ 1 / 2 ^ 7 ∧ |g'| ≤ 1 ∧ e' ≤ 1 / 2 ^ 7 := by
  obtain ⟨hl, hall⟩ := hm
  match mem, hl, hall with
  | [(l, d), (l', d')], _, hall =>
    obtain ⟨⟨w, β, e1, h1, h2⟩, t, _, e2⟩ := hall (l, d) (by simp)
    obtain ⟨⟨w', β', e1', h1', h2'⟩, t', _, e2'⟩ := hall (l', d') (by simp)
    simp only at e1 e2 e1' e2'
    subst e1 e2 e1' e2'
    obtain ⟨_, f2, f3⟩ := box_facts h1 h2
    obtain ⟨_, f2', f3'⟩ := box_facts h1' h2'
    exact ⟨fun a ha => ⟨_, _, _, _, rfl, (f2 t a ha).1, (f2 t a ha).2, (f2' t' a ha).1, (f2' t' a ha).2⟩,
      fun a ha => ⟨_, _, _, _, rfl, (f3 t a ha).1, (f3 t a ha).2, (f3' t' a ha).1, (f3' t' a ha).2⟩⟩

theorem BoxedPair.room {mem : List Kept} (hm : BoxedPair mem) {ls : List NetLayer} (hb : Boxed 8 ls) :
    KeptStepRoom Double.precision ⟨2 ^ (-24 : ℤ), 2 ^ (-150 : ℤ), 2 ^ (127 : ℤ)⟩ 1 2 (1 / 2 ^ 20) ⟨1, 1, 1⟩ mem ls := by
  obtain ⟨v, γ, rfl, h1, h2⟩ := hb
  obtain ⟨k1, k2⟩ := hm.terms
  intro i l w β hi hpa
  obtain rfl : i = 0 := by
    have : i < 1 := (List.getElem?_eq_some_iff.1 hi).1
    omega
  obtain rfl := Option.some.inj hi
  obtain ⟨rfl, rfl⟩ := Prod.mk.inj (Option.some.inj hpa)
  constructor
  · intro a ha b hb c hc
    obtain rfl : b = 0 := Nat.lt_one_iff.1 hb
    obtain rfl : c = 0 := Nat.lt_one_iff.1 hc
    obtain ⟨g, e, g', e', q0, q1, q2, q3, q4⟩ := k1 a ha
    rw [q0]
    exact (step_two (h1 a ha) q1 q2 q3 q4).1
  · intro f hf
    obtain ⟨g, e, g', e', q0, q1, q2, q3, q4⟩ := k2 f hf
    rw [q0]
    exact (step_two (h2 f hf) q1 q2 q3 q4).1

theorem BoxedPair.step {mem : List Kept} (hm : BoxedPair mem) {ls ls' : List NetLayer} {c : ℝ} (hc : c ≤ 8) (hb : Boxed c ls)
    (hst : KeptStep Double.precision ⟨2 ^ (-24 : ℤ), 2 ^ (-150 : ℤ), 2 ^ (127 : ℤ)⟩ 1 2 (1 / 2 ^ 20) ⟨1, 1, 1⟩ mem ls ls') : Boxed (c + 2) ls' := by
  obtain ⟨v, γ, rfl, h1, h2⟩ := hb
  obtain ⟨k1, k2⟩ := hm.terms
  obtain ⟨hlen, hst⟩ := hst
  obtain ⟨w, β, e1, e2⟩ := hst 0 _ rfl
  obtain ⟨e3, e4⟩ := e2 _ _ rfl
  have hle : ∀ {x y m E : ℝ}, |x - (y - 1 * m)| ≤ E → E ≤ 1 → |m| ≤ 1 → |y| ≤ c → |x| ≤ c + 2 := by
    intro x y m E a b d f
    rw [abs_le] at *
    constructor <;> linarith [a.1, a.2, d.1, d.2, f.1, f.2]
  refine ⟨w, β, ?_, ?_, ?_⟩
  · match ls', hlen, e1 with
    | [l], _, e1 => exact congrArg (fun l => [l]) (Option.some.inj e1)
  · intro a ha
    obtain ⟨g, e, g', e', q0, q1, q2, q3, q4⟩ := k1 a ha
    have := e3 a ha 0 Nat.one_pos 0 Nat.one_pos
    rw [q0] at this
    obtain ⟨_, s1, s2⟩ := step_two ((h1 a ha).trans hc) q1 q2 q3 q4
    exact hle this s1 s2 (h1 a ha)
  · intro a ha
    obtain ⟨g, e, g', e', q0, q1, q2, q3, q4⟩ := k2 a ha
    have := e4 a ha
    rw [q0] at this
    obtain ⟨_, s1, s2⟩ := step_two ((h2 a ha).trans hc) q1 q2 q3 q4
    exact hle this s1 s2 (h2 a ha)

/-- Relabelled copies of the sample. -/
theorem relabels_round {ds ds' : List Datum} (h : ∀ d ∈ ds, ∃ t < 2, d = roundDatum t) (hr : Datum.Relabels ds ds') :
    ∀ d ∈ ds', ∃ t < 2, d = roundDatum t := by
  intro d hd
  obtain ⟨f, hf, hlab⟩ := hr.2 d hd
  have : (d.x, d.err) ∈ ds'.map (fun d => (d.x, d.err)) := List.mem_map.2 ⟨d, hd, rfl⟩
  rw [hr.1] at this
  obtain ⟨e, he, hxe⟩ := List.mem_map.1 this
  obtain ⟨t, ht, rfl⟩ := h f hf
  obtain ⟨t', _, rfl⟩ := h e he
  obtain ⟨hx, hy⟩ := Prod.mk.inj hxe
  refine ⟨t, ht, ?_⟩
  obtain ⟨x, y, l⟩ := d
  simp only [roundDatum] at *
  subst hx hy hlab
  rfl

/-- What is remembered after a batch of such samples. -/
theorem AnyOrder.boxed {ls : List NetLayer} {d : List Datum} {mem mem' : List Kept} (h : AnyOrder ls d mem mem') (hb : Boxed 8 ls)
    (hd : ∀ e ∈ d, ∃ t < 2, e = roundDatum t) (hm : BoxedPair mem ∧ d.length = 1 ∨ mem = [] ∧ d.length = 2) : BoxedPair mem' := by
  obtain ⟨d', kept, h1, h2, h3, h4⟩ := h
  have hlen : d'.length = d.length := by simpa using congrArg List.length h1.1
  constructor
  · rw [h4.length_eq, List.length_append, List.length_map, h3, hlen]
    rcases hm with ⟨hm, hd⟩ | ⟨rfl, hd⟩
    · rw [hm.1, hd]
    · simp [hd]
  · intro m hmem
    rcases List.mem_append.1 (h4.mem_iff.1 hmem) with hmem | hmem
    · obtain ⟨e, he, rfl⟩ := List.mem_map.1 hmem
      exact ⟨hb, relabels_round hd h1 e he⟩
    · have := h2.subset hmem
      rcases hm with ⟨hm, _⟩ | ⟨rfl, _⟩
      · exact hm.2 m this
      · simp at this

theorem InOrder.any {ls : List NetLayer} {d : List Datum} {mem mem' : List Kept} (h : InOrder ls d mem mem') : AnyOrder ls d mem mem' :=
  ⟨d, mem.drop d.length, ⟨rfl, fun e he => ⟨e, he, rfl⟩⟩, (List.drop_sublist _ _).subperm, List.length_drop, by rw [h]⟩

/-- A batch of two samples and one of one sample: nothing overflows. -/
theorem box_room {R : Refilling} (hR : ∀ {ls d mem mem'}, R ls d mem mem' → AnyOrder ls d mem mem') {d₁ d₂ : List Datum} (h1 : d₁.length = 2)
    (h2 : d₂.length = 1) (g1 : ∀ e ∈ d₁, ∃ t < 2, e = roundDatum t) (g2 : ∀ e ∈ d₂, ∃ t < 2, e = roundDatum t) {ls : List NetLayer} (hb : Boxed 1 ls) :
    KeptRoom R Double.precision ⟨2 ^ (-24 : ℤ), 2 ^ (-150 : ℤ), 2 ^ (127 : ℤ)⟩ 1 2 (1 / 2 ^ 20) ⟨1, 1, 1⟩ [d₁, d₂] [] ls := by
  have hb8 := hb.mono (show (1 : ℝ) ≤ 8 by norm_num)
  refine ⟨?_, fun mem₁ hr => ?_⟩
  · intro d' hrel e he
    obtain ⟨t, ht, rfl⟩ := relabels_round g1 hrel e he
    exact hb8.passes ht
  have hm1 := (hR hr).boxed hb8 g1 (Or.inr ⟨rfl, h1⟩)
  refine ⟨hm1.room hb8, fun m hst => ⟨?_, fun mem₂ hr₂ => ?_⟩⟩
  · intro d' hrel e he
    obtain ⟨t, ht, rfl⟩ := relabels_round g2 hrel e he
    exact ((hm1.step (by norm_num) hb hst).mono (by norm_num)).passes ht
  · have hb' := (hm1.step (by norm_num) hb hst).mono (show (1 : ℝ) + 2 ≤ 8 by norm_num)
    exact ⟨((hR hr₂).boxed hb' g2 (Or.inl ⟨hm1, h2⟩)).room hb', fun _ _ => trivial⟩

theorem roundNet_boxed : Boxed 1 (roundNet 1) := by
  refine ⟨_, _, rfl, ?_, ?_⟩
  · intro i hi
    obtain rfl | rfl : i = 0 ∨ i = 1 := by omega
    · simp
    · simp
  · intro i _
    simp

end Cnn
