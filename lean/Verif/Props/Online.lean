import Verif.Lemmas.Margin
import Verif.Props.Learns
import Verif.Props.Accuracy
/-!
# Property C93: training the last layer in batches

As C92, with epochs of several batches. The numbers of right answers which `train` prints are bounded from below for every learning rate less than
`2 / R`; for a small one the model in the end is right for every sample.
-/
namespace Cnn
open Model Finset

namespace Train

/-- C93, in exact arithmetic with one thread, for a network whose only parameters are those of its last layer, a fully connected one. Every epoch
consists of `m` batches with the same samples, in any order. The samples which the model does not classify correctly when their turn comes are
bounded in terms of any other parameters: of the square of their distance from the first ones and of the loss which they have. -/
theorem C93_mistakes_partial (E : Env ℝ) (hE : E.Exact) (B m : Nat) (h0 : 0 < B) (hm : 0 < m) (hsz : m * B < 2 ^ 24) (M : Model ℝ) (b : Nat) (s : Shape)
    (init : List NetLayer) (n : Nat) (w : Tensor) (β : Nat → ℝ) (hD : M.Denotes b s (init ++ [.full n w β]) n) (hno : NoParams init)
    (hfit : NetFits (init ++ [.full n w β]) s) (htr : NetTrains true (init ++ [.full n w β]) s) (d : List (Tensor × Nat)) (hlen : d.length = m * B)
    (ht : ∀ e ∈ d, e.2 < n) (R : ℝ) (hR : ∀ e ∈ d, 1 + ∑ k ∈ range (featureCount init s), feature init s e.1 k ^ 2 ≤ R) (p : Hyper ℝ)
    (hp : p.batch = B) (hq : p.threads = 1) (h1 : 0 < p.rate) (h2 : p.rate * R ≤ 2)
    (epochs : List (List (List Nat) × List (Sample ℝ))) (he : ∀ e ∈ epochs, SameData M.labels s d e.2) (M' : Model ℝ) (counts : List Nat)
    (h : report E p (m * B) epochs M = .ok (some (M', counts))) :
    counts.length = p.epochs.toNat ∧ (∀ c ∈ counts, c ≤ m * B) ∧
    ∀ (w₀ : Tensor) (β₀ : Nat → ℝ), p.rate * (2 - p.rate * R) * Real.log 2 * (p.epochs.toNat * (m * B) - counts.sum) ≤
      B * paramDist n (featureCount init s) w β w₀ β₀ + 2 * p.rate * (p.epochs.toNat * (m * B)) * meanLoss s n d (init ++ [.full n w₀ β₀]) := by
  obtain ⟨ess, w', β', e1, e2, -, -, e3, e4, e5⟩ := report_online hE hp hq h0 hm hsz hno (Or.inl hD) hfit htr hlen ht he h
  exact ⟨e3, e4, fun w₀ β₀ => mistakes_le hlen h0 hm ht hR h1 h2 w β w₀ β₀ e1 e2 e5⟩

/-- C93: if some parameters of the last layer give the right label the greatest probability for every sample, then the share of the right answers
during a training comes as close to 1 as desired with enough epochs, and for one of the epochs all answers are right: 100 % are printed. -/
theorem C93_accuracy_partial (E : Env ℝ) (hE : E.Exact) (B m : Nat) (h0 : 0 < B) (hm : 0 < m) (hsz : m * B < 2 ^ 24) (M : Model ℝ) (b : Nat) (s : Shape)
    (init : List NetLayer) (n : Nat) (w : Tensor) (β : Nat → ℝ) (hD : M.Denotes b s (init ++ [.full n w β]) n) (hno : NoParams init)
    (hfit : NetFits (init ++ [.full n w β]) s) (htr : NetTrains true (init ++ [.full n w β]) s) (d : List (Tensor × Nat)) (hlen : d.length = m * B)
    (ht : ∀ e ∈ d, e.2 < n) (R rate : ℝ) (hR : ∀ e ∈ d, 1 + ∑ k ∈ range (featureCount init s), feature init s e.1 k ^ 2 ≤ R) (h1 : 0 < rate)
    (h2 : rate * R < 2) (w₀ : Tensor) (β₀ : Nat → ℝ) (hsep : Separates (init ++ [.full n w₀ β₀]) s n d) (ε : ℝ) (hε : 0 < ε) :
    ∃ N : Nat, ∀ p : Hyper ℝ, p.batch = B → p.threads = 1 → p.rate = rate → N ≤ p.epochs →
      ∀ epochs : List (List (List Nat) × List (Sample ℝ)), (∀ e ∈ epochs, SameData M.labels s d e.2) →
        ∀ (M' : Model ℝ) (counts : List Nat), report E p (m * B) epochs M = .ok (some (M', counts)) →
          (1 - ε) * (p.epochs.toNat * (m * B)) ≤ counts.sum ∧ ∃ c ∈ counts, c = m * B ∧ percent c (m * B) = some 100 := by
  obtain ⟨N, hN⟩ := few_mistakes h0 hm ht h1 h2 w β hsep hε
  refine ⟨N, ?_⟩
  rintro p hp hq rfl hNp epochs he M' counts h
  obtain ⟨k1, k2, k3⟩ := C93_mistakes_partial E hE B m h0 hm hsz M b s init n w β hD hno hfit htr d hlen ht R hR p hp hq h1 h2.le epochs he M' counts h
  obtain ⟨j1, c, j2, j3⟩ := hN p.epochs.toNat (by omega) counts k1 k2 k3
  exact ⟨j1, c, j2, j3, by rw [j3, percent_all (Nat.mul_pos hm h0)]⟩

/-- C93: let some parameters of the last layer give the right label at least 1 more than every other label, let `S` bound the sum of their squares, and let
`20 * rate * m * R² * S` be at most 1. Then a training of enough epochs is possible, and the model after any such training finds the right label
for each sample. How many epochs are enough depends on `S`, the learning rate, the number of samples and the loss at the beginning. -/
theorem C93_learns_partial (E : Env ℝ) (hE : E.Exact) (B m : Nat) (h0 : 0 < B) (hm : 0 < m) (hsz : m * B < 2 ^ 24) (M : Model ℝ) (b : Nat) (s : Shape)
    (init : List NetLayer) (n : Nat) (w : Tensor) (β : Nat → ℝ) (hD : M.Denotes b s (init ++ [.full n w β]) n) (hno : NoParams init)
    (hfit : NetFits (init ++ [.full n w β]) s) (htr : NetTrains true (init ++ [.full n w β]) s) (d : List (Tensor × Nat)) (hlen : d.length = m * B)
    (ht : ∀ e ∈ d, e.2 < n) (R S : ℝ) (hR : ∀ e ∈ d, 1 + ∑ k ∈ range (featureCount init s), feature init s e.1 k ^ 2 ≤ R) (w₀ : Tensor) (β₀ : Nat → ℝ)
    (hmar : Margin init s n d w₀ β₀) (hS : paramDist n (featureCount init s) w₀ β₀ (fun _ _ _ => 0) (fun _ => 0) ≤ S) (p : Hyper ℝ) (hp : p.batch = B)
    (hq : p.threads = 1) (h1 : 0 < p.rate) (h2 : 20 * p.rate * m * R ^ 2 * S ≤ 1)
    (h3 : 8 * S * (m * B : ℝ) ^ 2 * meanLoss s n d (init ++ [.full n w β]) < p.epochs.toNat * p.rate * m * Real.log 2 ^ 2) :
    (∀ srcs : List (List (Sample ℝ)), srcs.length = p.epochs.toNat → (∀ src ∈ srcs, SameData M.labels s d src) →
      ∃ epochs M', epochs.map Prod.snd = srcs ∧ train E p (m * B) epochs M = .ok (some M')) ∧
    ∀ epochs : List (List (List Nat) × List (Sample ℝ)), (∀ e ∈ epochs, SameData M.labels s d e.2) →
      ∀ M', train E p (m * B) epochs M = .ok (some M') →
        ∀ e ∈ d, ∀ X : Matrix ℝ, X.Shows s.X s.Y s.Z e.1 → ∃ r M'', M'.forwardPropagation E X 0 = .ok (r, M'') ∧ r.labelIdx = e.2 := by
  constructor
  · intro srcs hl hs
    obtain ⟨ess, e1, e2⟩ := sameData_all id srcs hs
    exact (C83_train_partial E hE p B (m * B) hp hq h0 (Nat.le_mul_of_pos_left B hm) hsz M b s _ n hD hfit htr ess fun es h => (e1 es h).length_eq.trans hlen).2
      (by rw [← e2.length_eq, hl]) srcs e2
  · intro epochs he M' h e hed X hX
    obtain ⟨counts, h⟩ := C79_reported E p (m * B) epochs M M' h
    obtain ⟨ess, w', β', e1, e2, k1, k2, -⟩ := report_online hE hp hq h0 hm hsz hno (Or.inl hD) hfit htr hlen ht he h
    refine forward_label hE k1 (netFits_last hfit) hX (ht e hed) (small_separates ht ?_ e hed)
    exact margin_result hlen h0 hm ht hR hmar hS h1 h2 w β e1 (by rw [e2, hlen]; push_cast; exact h3) k2

/-- C93 from building to the answers. A model is built with pooling and activation layers and a fully connected one, with random weights. If some
weights and biases would give the right label the greatest probability for every sample of the training data, then for every learning rate that is
small enough the model is right for each of them after enough epochs of training, however the samples are divided into batches. -/
theorem C93_build_partial (E : Env ℝ) (hE : E.Exact) (kinds : List LayerKind) (hplain : ∀ k ∈ kinds, k.Plain)
    (labels : List (List Char)) (s : Shape) (hks : AllSized E.draws 0 s (kinds ++ [.full labels.length]))
    (hfit : NetFits (drawnNet E.draws 0 s kinds) s) (d : List (Tensor × Nat)) (hne : d ≠ []) (hsz : d.length < 2 ^ 24) (ht : ∀ e ∈ d, e.2 < labels.length)
    (w₀ : Tensor) (β₀ : Nat → ℝ) (hsep : Separates (drawnNet E.draws 0 s kinds ++ [.full labels.length w₀ β₀]) s labels.length d) :
    ∃ M, buildModel E.num E.draws (kinds ++ [.full labels.length]) labels = .ok M ∧
      ∃ rate₀ > 0, ∀ rate : ℝ, 0 < rate → rate ≤ rate₀ → ∃ N : Nat, ∀ p : Hyper ℝ, ∀ B m : Nat, p.batch = B → d.length = m * B → p.threads = 1 → p.rate = rate → N ≤ p.epochs →
        (∀ srcs : List (List (Sample ℝ)), srcs.length = p.epochs.toNat → (∀ src ∈ srcs, SameData labels s d src) →
          ∃ epochs M', epochs.map Prod.snd = srcs ∧ train E p d.length epochs M = .ok (some M')) ∧
        ∀ epochs : List (List (List Nat) × List (Sample ℝ)), (∀ e ∈ epochs, SameData labels s d e.2) →
          ∀ M', train E p d.length epochs M = .ok (some M') →
            ∀ e ∈ d, ∀ X : Matrix ℝ, X.Shows s.X s.Y s.Z e.1 → ∃ r M'', M'.forwardPropagation E X 0 = .ok (r, M'') ∧ r.labelIdx = e.2 := by
  obtain ⟨w, β, enet⟩ := drawnNet_last E.draws 0 s kinds labels.length
  have hno := drawnNet_plain E.draws 0 s hplain
  have hfit' : NetFits (drawnNet E.draws 0 s (kinds ++ [.full labels.length])) s := by rw [enet]; exact netFits_snoc hfit
  have htr : NetTrains true (drawnNet E.draws 0 s (kinds ++ [.full labels.length])) s := by rw [enet]; exact netTrains_plain hno
  have hout : netOut (drawnNet E.draws 0 s (kinds ++ [.full labels.length])) s = ⟨labels.length, 1, 1⟩ := by rw [enet, netOut_snoc]; rfl
  obtain ⟨M, eM, hlab, hst⟩ := buildModel_starts E.draws _ labels hks (Or.inl hout)
  rw [← hE.num] at eM
  refine ⟨M, eM, ?_⟩
  obtain ⟨rate₀, hr0, hrate⟩ := margin_exists hne ht hsep w β
  refine ⟨rate₀, hr0, fun rate h1 h2 => ?_⟩
  obtain ⟨N, hN⟩ := hrate rate h1 h2
  refine ⟨N + 1, ?_⟩
  rintro p B m hp hd hq rfl hNp
  have hpos : 0 < m * B := by rw [← hd]; exact List.length_pos_iff.2 hne
  have h0 : 0 < B := Nat.pos_of_mul_pos_left hpos
  have hm : 0 < m := Nat.pos_of_mul_pos_right hpos
  constructor
  · intro srcs hl hs
    obtain ⟨ess, e1, e2⟩ := sameData_all id srcs hs
    have hl' : ess.length = p.epochs.toNat := by rw [← e2.length_eq, hl]
    obtain ⟨M2, eM2, -, k⟩ := C83_build_partial E hE p B 1 d.length hp hq h0 (by omega) (by omega) (by rw [hd]; exact Nat.le_mul_of_pos_left B hm) hsz
      (kinds ++ [.full labels.length]) labels s hks hfit' htr (Or.inl hout) ess (by rintro rfl; simp at hl'; omega) fun es h => (e1 es h).length_eq
    obtain rfl : M2 = M := Res.ok.inj (eM2.symm.trans eM)
    exact k hl' srcs e2
  · intro epochs he M' h e hed X hX
    obtain ⟨counts, h⟩ := C79_reported E p d.length epochs M M' h
    rw [hd] at h
    rw [enet] at hst hfit' htr
    rw [← hlab] at he
    obtain ⟨ess, w', β', e1, e2, k1, k2, -⟩ := report_online (b := 0) hE hp hq h0 hm (by omega) hno (Or.inr ⟨hst, by omega⟩) hfit' htr hd ht he h
    exact forward_label hE k1 (netFits_last hfit') hX (ht e hed) (small_separates ht (hN B m hd ess w' β' e1 (by omega) k2) e hed)

/-! ### Examples -/

/-- Training with batches of one sample: a bound for the wrong answers. -/
example (k : Nat) (epochs : List (List (List Nat) × List (Sample ℝ))) (he : ∀ e ∈ epochs, SameData ["a".toList, "b".toList] ⟨1, 1, 1⟩ signData e.2)
    (M' : Model ℝ) (counts : List Nat) (h : report exactEnv ⟨1 / 2, 1, 1, k⟩ (2 * 1) epochs shortNetModel = .ok (some (M', counts))) :
    1 / 2 * (2 - 1 / 2 * 2) * Real.log 2 * (k * (2 * 1) - counts.sum) ≤
      1 * paramDist 2 1 (fun _ _ _ => 0) (fun _ => 0) (fun i _ _ => if i = 0 then 1 else 0) (fun _ => 0) +
        2 * (1 / 2) * (k * (2 * 1)) * meanLoss ⟨1, 1, 1⟩ 2 signData (shortNet (fun i _ _ => if i = 0 then 1 else 0) (fun _ => 0)) := by
  have := (C93_mistakes_partial exactEnv ⟨rfl, rfl, rfl⟩ 1 2 (by omega) (by omega) (by omega) shortNetModel 0 ⟨1, 1, 1⟩ [] 2 _ _ shortNetModel_denotes
    (by simp [NoParams]) ⟨trivial, trivial⟩ ⟨trivial, trivial⟩ signData rfl (by simp [signData]) 2 (by
      intro e he
      simp only [signData, List.mem_cons, List.not_mem_nil, or_false] at he
      rcases he with rfl | rfl <;> norm_num [featureCount, feature, netOut, netEval, flatOf]) ⟨1 / 2, 1, 1, k⟩ rfl rfl (by norm_num) (by norm_num)
    epochs he M' counts h).2.2 (fun i _ _ => if i = 0 then 1 else 0) (fun _ => 0)
  simpa [shortNet, show featureCount [] ⟨1, 1, 1⟩ = 1 from rfl] using this

theorem sign_margin : Margin [] ⟨1, 1, 1⟩ 2 signData (fun i _ _ => if i = 0 then 1 else 0) (fun _ => 0) := by
  intro e he i hi hne
  simp only [signData, List.mem_cons, List.not_mem_nil, or_false] at he
  rcases he with rfl | rfl
  · obtain rfl : i = 1 := by
      have : i ≠ 0 := hne
      omega
    norm_num [featureCount, feature, netOut, netEval, flatOf]
  · obtain rfl : i = 0 := by
      have : i ≠ 1 := hne
      omega
    norm_num [featureCount, feature, netOut, netEval, flatOf]

/-- A model with one fully connected layer learns to tell 1 from -1, with batches of one sample and a learning rate of 1 / 160. -/
example : ∃ (k : Nat) (epochs : List (List (List Nat) × List (Sample ℝ))) (M' : Model ℝ), epochs.map Prod.snd = List.replicate k signSource ∧
    train exactEnv ⟨1 / 160, 1, 1, k⟩ 2 epochs shortNetModel = .ok (some M') ∧
    (∃ r M'', M'.forwardPropagation exactEnv ⟨dimN 1 1 1, [1]⟩ 0 = .ok (r, M'') ∧ r.labelIdx = 0) ∧
    ∃ r M'', M'.forwardPropagation exactEnv ⟨dimN 1 1 1, [-1]⟩ 0 = .ok (r, M'') ∧ r.labelIdx = 1 := by
  have hlog : 0 < Real.log 2 := Real.log_pos (by norm_num)
  obtain ⟨k, hk⟩ := exists_nat_gt (8 * 1 * ((2 : Nat) * (1 : Nat) : ℝ) ^ 2 * meanLoss ⟨1, 1, 1⟩ 2 signData ([] ++ [.full 2 (fun _ _ _ => 0) (fun _ => 0)]) / (1 / 160 * 2 * Real.log 2 ^ 2))
  rw [div_lt_iff₀ (by positivity)] at hk
  obtain ⟨h1, h2⟩ := C93_learns_partial exactEnv ⟨rfl, rfl, rfl⟩ 1 2 (by omega) (by omega) (by omega) shortNetModel 0 ⟨1, 1, 1⟩ [] 2 _ _ shortNetModel_denotes
    (by simp [NoParams]) ⟨trivial, trivial⟩ ⟨trivial, trivial⟩ signData rfl (by simp [signData]) 2 1 (by
      intro e he
      simp only [signData, List.mem_cons, List.not_mem_nil, or_false] at he
      rcases he with rfl | rfl <;> norm_num [featureCount, feature, netOut, netEval, flatOf]) _ _ sign_margin
    (by norm_num [paramDist, featureCount, netOut, sum_range_succ]) ⟨1 / 160, 1, 1, k⟩ rfl rfl (by norm_num) (by norm_num) (by
      refine lt_of_lt_of_eq hk ?_
      simp only [Int.toNat_natCast]
      push_cast
      ring)
  obtain ⟨epochs, M', h3, h4⟩ := h1 (List.replicate k signSource) (List.length_replicate.trans (Int.toNat_natCast k).symm)
    (fun src hs => by rw [List.eq_of_mem_replicate hs]; exact signSource_holds)
  have h5 := h2 epochs (fun e he => by
    have : e.2 ∈ epochs.map Prod.snd := List.mem_map_of_mem he
    rw [h3] at this
    rw [List.eq_of_mem_replicate this]; exact signSource_holds) M' h4
  exact ⟨k, epochs, M', h3, h4, h5 (fun _ _ _ => 1, 0) List.mem_cons_self _ (sign_shows 1),
    h5 (fun _ _ _ => -1, 1) (List.mem_cons_of_mem _ List.mem_cons_self) _ (sign_shows (-1))⟩

/-- For the first of these examples there are trainings, and in one of the epochs all answers are right. -/
example : ∃ (k : Nat) (epochs : List (List (List Nat) × List (Sample ℝ))) (M' : Model ℝ) (counts : List Nat),
    report exactEnv ⟨1 / 2, 1, 1, k⟩ 2 epochs shortNetModel = .ok (some (M', counts)) ∧ ∃ c ∈ counts, percent c 2 = some 100 := by
  obtain ⟨N, h⟩ := C93_accuracy_partial exactEnv ⟨rfl, rfl, rfl⟩ 1 2 (by omega) (by omega) (by omega) shortNetModel 0 ⟨1, 1, 1⟩ [] 2 _ _ shortNetModel_denotes
    (by simp [NoParams]) ⟨trivial, trivial⟩ ⟨trivial, trivial⟩ signData rfl (by simp [signData]) 2 (1 / 2) (by
      intro e he
      simp only [signData, List.mem_cons, List.not_mem_nil, or_false] at he
      rcases he with rfl | rfl <;> norm_num [featureCount, feature, netOut, netEval, flatOf]) (by norm_num) (by norm_num) _ _ sign_separates 1 one_pos
  obtain ⟨ess, e1, e2⟩ := sameData_all (labels := ["a".toList, "b".toList]) (s := ⟨1, 1, 1⟩) (d := signData) id (List.replicate N signSource)
    fun src hs => by rw [List.eq_of_mem_replicate hs]; exact signSource_holds
  obtain ⟨epochs, M', h3, h4⟩ := (C83_train_partial exactEnv ⟨rfl, rfl, rfl⟩ ⟨1 / 2, 1, 1, N⟩ 1 2 rfl rfl (by omega) (by omega) (by omega) shortNetModel 0 ⟨1, 1, 1⟩ _ 2
    shortNetModel_denotes ⟨trivial, trivial⟩ ⟨trivial, trivial⟩ ess fun es h => (e1 es h).length_eq).2
      (e2.length_eq.symm.trans (List.length_replicate.trans (Int.toNat_natCast N).symm)) _ e2
  obtain ⟨counts, h5⟩ := C79_reported _ _ _ _ _ _ h4
  obtain ⟨-, c, hc, -, h6⟩ := h ⟨1 / 2, 1, 1, N⟩ rfl rfl rfl le_rfl epochs (fun e he => by
    have : e.2 ∈ epochs.map Prod.snd := List.mem_map_of_mem he
    rw [h3] at this
    rw [List.eq_of_mem_replicate this]; exact signSource_holds) M' counts h5
  exact ⟨N, epochs, M', counts, h5, c, hc, h6⟩

end Train
end Cnn
