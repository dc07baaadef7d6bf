import Verif.Lemmas.Batches
/-!
# Property C92: training the last layer finds its best parameters, and a classifier if there is one
-/
namespace Cnn
open Model Finset

namespace Train

/-- C92, in exact arithmetic with one thread, for a network whose only parameters are those of its last layer, a fully connected one. If every epoch
is one batch with the same samples, in any order, and the learning rate is at most `2 / R`, where `R` bounds one plus the sum of squares of what
the other layers give for a sample, then there are numbers `L k`, not increasing, such that the mean loss after `k` epochs is `L k`, and `L k` exceeds
the loss for any other parameters of the last layer by at most the square of their distance from the first ones, divided by `2 * rate * k`. -/
theorem C92_converges_partial (E : Env ℝ) (hE : E.Exact) (B : Nat) (h0 : 0 < B) (hB : B < 2 ^ 24) (M : Model ℝ) (b : Nat) (s : Shape)
    (init : List NetLayer) (n : Nat) (w : Tensor) (β : Nat → ℝ) (hD : M.Denotes b s (init ++ [.full n w β]) n) (hno : NoParams init)
    (hfit : NetFits (init ++ [.full n w β]) s) (htr : NetTrains true (init ++ [.full n w β]) s) (d : List (Tensor × Nat)) (hlen : d.length = B)
    (ht : ∀ e ∈ d, e.2 < n) (R rate : ℝ) (hR : ∀ e ∈ d, 1 + ∑ k ∈ range (featureCount init s), feature init s e.1 k ^ 2 ≤ R) (h1 : 0 < rate)
    (h2 : rate * R ≤ 2) :
    ∃ L : Nat → ℝ, L 0 = meanLoss s n d (init ++ [.full n w β]) ∧ Antitone L ∧
      (∀ (k : Nat) (w₀ : Tensor) (β₀ : Nat → ℝ), 2 * rate * k * (L k - meanLoss s n d (init ++ [.full n w₀ β₀])) ≤
        paramDist n (featureCount init s) w β w₀ β₀) ∧
      ∀ p : Hyper ℝ, p.batch = B → p.threads = 1 → p.rate = rate →
        (∀ epochs : List (List (List Nat) × List (Sample ℝ)), (∀ e ∈ epochs, SameData M.labels s d e.2) →
          (∃ o, train E p B epochs M = .ok o) ∧
          ∀ M', train E p B epochs M = .ok (some M') →
            ∃ w' β', M'.Denotes 0 s (init ++ [.full n w' β']) n ∧ meanLoss s n d (init ++ [.full n w' β']) = L p.epochs.toNat) ∧
        ∀ srcs : List (List (Sample ℝ)), srcs.length = p.epochs.toNat → (∀ src ∈ srcs, SameData M.labels s d src) →
          ∃ epochs M', epochs.map Prod.snd = srcs ∧ train E p B epochs M = .ok (some M') := by
  have hd : d ≠ [] := by rintro rfl; simp at hlen; omega
  refine ⟨headLosses init n s rate d w β, comb_mean init n w β s ht, head_antitone hd ht hR h1 h2 w β,
    fun k w₀ β₀ => head_bound hd ht hR h1 h2 w w₀ β β₀ k, ?_⟩
  rintro p hp hq rfl
  constructor
  · intro epochs he
    obtain ⟨ess, e1, e2⟩ := sameData_all Prod.snd epochs he
    obtain ⟨k1, k2⟩ := (C83_train_partial E hE p B B hp hq h0 le_rfl hB M b s _ n hD hfit htr ess fun es h => (e1 es h).length_eq.trans hlen).1 epochs e2
    refine ⟨k1, fun M' h => ?_⟩
    obtain ⟨w', β', r1, r2⟩ := head_result (rate := p.rate) hno (netFits_left hfit) ht w β ess e1 hlen h0
    have hl : epochs.length = p.epochs.toNat := by
      rw [train_eq (p := p) (by omega)] at h
      by_contra hc
      rw [if_neg hc] at h
      simp at h
    have := k2 M' h
    rw [r1] at this
    exact ⟨w', β', this, by rw [r2, ← e2.length_eq, hl]⟩
  · intro srcs hl hs
    obtain ⟨ess, e1, e2⟩ := sameData_all id srcs hs
    exact (C83_train_partial E hE p B B hp hq h0 le_rfl hB M b s _ n hD hfit htr ess fun es h => (e1 es h).length_eq.trans hlen).2
      (by rw [← e2.length_eq, hl]) srcs e2

/-- C92: with enough epochs the mean loss comes as close as desired to the infimum over all parameters of the last layer. -/
theorem C92_infimum_partial (E : Env ℝ) (hE : E.Exact) (B : Nat) (h0 : 0 < B) (hB : B < 2 ^ 24) (M : Model ℝ) (b : Nat) (s : Shape)
    (init : List NetLayer) (n : Nat) (w : Tensor) (β : Nat → ℝ) (hD : M.Denotes b s (init ++ [.full n w β]) n) (hno : NoParams init)
    (hfit : NetFits (init ++ [.full n w β]) s) (htr : NetTrains true (init ++ [.full n w β]) s) (d : List (Tensor × Nat)) (hlen : d.length = B)
    (ht : ∀ e ∈ d, e.2 < n) (R rate : ℝ) (hR : ∀ e ∈ d, 1 + ∑ k ∈ range (featureCount init s), feature init s e.1 k ^ 2 ≤ R) (h1 : 0 < rate)
    (h2 : rate * R ≤ 2) (best : ℝ) (hbest : ∃ w₀ β₀, meanLoss s n d (init ++ [.full n w₀ β₀]) < best) :
    ∃ N : Nat, ∀ p : Hyper ℝ, p.batch = B → p.threads = 1 → p.rate = rate → N ≤ p.epochs →
      ∀ epochs : List (List (List Nat) × List (Sample ℝ)), (∀ e ∈ epochs, SameData M.labels s d e.2) →
        ∀ M', train E p B epochs M = .ok (some M') →
          ∃ w' β', M'.Denotes 0 s (init ++ [.full n w' β']) n ∧ meanLoss s n d (init ++ [.full n w' β']) < best := by
  obtain ⟨L, -, -, a3, a4⟩ := C92_converges_partial E hE B h0 hB M b s init n w β hD hno hfit htr d hlen ht R rate hR h1 h2
  obtain ⟨w₀, β₀, hb⟩ := hbest
  obtain ⟨N, hN⟩ := exists_nat_gt (paramDist n (featureCount init s) w β w₀ β₀ / (2 * rate * (best - meanLoss s n d (init ++ [.full n w₀ β₀]))))
  refine ⟨N, fun p hp hq hr hNp epochs he M' h => ?_⟩
  obtain ⟨w', β', k1, k2⟩ := ((a4 p hp hq hr).1 epochs he).2 M' h
  refine ⟨w', β', k1, ?_⟩
  rw [k2]
  have hpos : 0 < best - meanLoss s n d (init ++ [.full n w₀ β₀]) := by linarith
  have hN2 : (N : ℝ) ≤ (p.epochs.toNat : ℝ) := by exact_mod_cast (by omega : N ≤ p.epochs.toNat)
  have a := a3 p.epochs.toNat w₀ β₀
  rw [div_lt_iff₀ (by positivity)] at hN
  by_contra hc
  have c1 : best - meanLoss s n d (init ++ [.full n w₀ β₀]) ≤ L p.epochs.toNat - meanLoss s n d (init ++ [.full n w₀ β₀]) := by linarith
  have c2 := mul_le_mul hN2 c1 hpos.le (Nat.cast_nonneg _)
  nlinarith [mul_le_mul_of_nonneg_left c2 (by positivity : (0 : ℝ) ≤ 2 * rate)]

/-- C92: if some parameters of the last layer give the right label the greatest probability for every sample, then so does the model after enough
epochs of training: it finds the right label for each sample of the training data. -/
theorem C92_learns_partial (E : Env ℝ) (hE : E.Exact) (B : Nat) (h0 : 0 < B) (hB : B < 2 ^ 24) (M : Model ℝ) (b : Nat) (s : Shape)
    (init : List NetLayer) (n : Nat) (w : Tensor) (β : Nat → ℝ) (hD : M.Denotes b s (init ++ [.full n w β]) n) (hno : NoParams init)
    (hfit : NetFits (init ++ [.full n w β]) s) (htr : NetTrains true (init ++ [.full n w β]) s) (d : List (Tensor × Nat)) (hlen : d.length = B)
    (ht : ∀ e ∈ d, e.2 < n) (R rate : ℝ) (hR : ∀ e ∈ d, 1 + ∑ k ∈ range (featureCount init s), feature init s e.1 k ^ 2 ≤ R) (h1 : 0 < rate)
    (h2 : rate * R ≤ 2) (w₀ : Tensor) (β₀ : Nat → ℝ) (hsep : Separates (init ++ [.full n w₀ β₀]) s n d) :
    ∃ N : Nat, ∀ p : Hyper ℝ, p.batch = B → p.threads = 1 → p.rate = rate → N ≤ p.epochs →
      ∀ epochs : List (List (List Nat) × List (Sample ℝ)), (∀ e ∈ epochs, SameData M.labels s d e.2) →
        ∀ M', train E p B epochs M = .ok (some M') →
          ∀ e ∈ d, ∀ X : Matrix ℝ, X.Shows s.X s.Y s.Z e.1 → ∃ r M'', M'.forwardPropagation E X 0 = .ok (r, M'') ∧ r.labelIdx = e.2 := by
  have hlog : 0 < Real.log 2 / d.length := div_pos (Real.log_pos (by norm_num)) (by rw [hlen]; exact_mod_cast h0)
  obtain ⟨N, hN⟩ := C92_infimum_partial E hE B h0 hB M b s init n w β hD hno hfit htr d hlen ht R rate hR h1 h2 _ (separable_small ht hsep hlog)
  refine ⟨N, fun p hp hq hr hNp epochs he M' h e hed X hX => ?_⟩
  obtain ⟨w', β', k1, k2⟩ := hN p hp hq hr hNp epochs he M' h
  exact forward_label hE k1 (netFits_last hfit) hX (ht e hed) (small_separates ht k2 e hed)

/-- C92 from building to the answers. A model is built with pooling and activation layers and a fully connected one, with random weights. If some
weights and biases would give the right label the greatest probability for every sample of the training data, then after enough epochs of
training the model finds the right label for each of them. -/
theorem C92_build_partial (E : Env ℝ) (hE : E.Exact) (B : Nat) (h0 : 0 < B) (hB : B < 2 ^ 24) (kinds : List LayerKind) (hplain : ∀ k ∈ kinds, k.Plain)
    (labels : List (List Char)) (s : Shape) (hks : AllSized E.draws 0 s (kinds ++ [.full labels.length]))
    (hfit : NetFits (drawnNet E.draws 0 s kinds) s) (d : List (Tensor × Nat)) (hlen : d.length = B) (ht : ∀ e ∈ d, e.2 < labels.length) (R rate : ℝ)
    (hR : ∀ e ∈ d, 1 + ∑ k ∈ range (featureCount (drawnNet E.draws 0 s kinds) s), feature (drawnNet E.draws 0 s kinds) s e.1 k ^ 2 ≤ R)
    (h1 : 0 < rate) (h2 : rate * R ≤ 2) (w₀ : Tensor) (β₀ : Nat → ℝ)
    (hsep : Separates (drawnNet E.draws 0 s kinds ++ [.full labels.length w₀ β₀]) s labels.length d) :
    ∃ M, buildModel E.num E.draws (kinds ++ [.full labels.length]) labels = .ok M ∧
      ∃ N : Nat, ∀ p : Hyper ℝ, p.batch = B → p.threads = 1 → p.rate = rate → N ≤ p.epochs →
        (∀ srcs : List (List (Sample ℝ)), srcs.length = p.epochs.toNat → (∀ src ∈ srcs, SameData labels s d src) →
          ∃ epochs M', epochs.map Prod.snd = srcs ∧ train E p B epochs M = .ok (some M')) ∧
        ∀ epochs : List (List (List Nat) × List (Sample ℝ)), (∀ e ∈ epochs, SameData labels s d e.2) →
          ∀ M', train E p B epochs M = .ok (some M') →
            ∀ e ∈ d, ∀ X : Matrix ℝ, X.Shows s.X s.Y s.Z e.1 → ∃ r M'', M'.forwardPropagation E X 0 = .ok (r, M'') ∧ r.labelIdx = e.2 := by
  have hd : d ≠ [] := by rintro rfl; simp at hlen; omega
  obtain ⟨w, β, enet⟩ := drawnNet_last E.draws 0 s kinds labels.length
  have hno := drawnNet_plain E.draws 0 s hplain
  have hfit' : NetFits (drawnNet E.draws 0 s (kinds ++ [.full labels.length])) s := by rw [enet]; exact netFits_snoc hfit
  have htr : NetTrains true (drawnNet E.draws 0 s (kinds ++ [.full labels.length])) s := by rw [enet]; exact netTrains_plain hno
  have hout : netOut (drawnNet E.draws 0 s (kinds ++ [.full labels.length])) s = ⟨labels.length, 1, 1⟩ := by rw [enet, netOut_snoc]; rfl
  obtain ⟨M, eM, -⟩ := buildModel_starts E.draws _ labels hks (Or.inl hout)
  rw [← hE.num] at eM
  have hlog : 0 < Real.log 2 / d.length := div_pos (Real.log_pos (by norm_num)) (by rw [hlen]; exact_mod_cast h0)
  obtain ⟨N, hN⟩ := head_small hd ht hR h1 h2 w β (separable_small ht hsep hlog)
  refine ⟨M, eM, N + 1, ?_⟩
  rintro p hp hq rfl hNp
  have key : ∀ ess : List (List (Tensor × Nat)), ess.length = p.epochs.toNat → (∀ es ∈ ess, es.Perm d) → _ := fun ess hl hes =>
    C83_build_partial E hE p B 1 B hp hq h0 (by omega) (by omega) le_rfl hB (kinds ++ [.full labels.length]) labels s hks hfit' htr (Or.inl hout) ess
      (by rintro rfl; simp at hl; omega) fun es h => (hes es h).length_eq.trans hlen
  constructor
  · intro srcs hl hs
    obtain ⟨ess, e1, e2⟩ := sameData_all id srcs hs
    have hl' : ess.length = p.epochs.toNat := by rw [← e2.length_eq, hl]
    obtain ⟨M2, eM2, -, k⟩ := key ess hl' e1
    obtain rfl : M2 = M := Res.ok.inj (eM2.symm.trans eM)
    exact k hl' srcs e2
  · intro epochs he M' h e hed X hX
    obtain ⟨ess, e1, e2⟩ := sameData_all Prod.snd epochs he
    have hl : epochs.length = p.epochs.toNat := by
      rw [train_eq (p := p) (by omega)] at h
      by_contra hc
      rw [if_neg hc] at h
      simp at h
    have hl' : ess.length = p.epochs.toNat := by rw [← e2.length_eq, hl]
    obtain ⟨M2, eM2, k, -⟩ := key ess hl' e1
    obtain rfl : M2 = M := Res.ok.inj (eM2.symm.trans eM)
    have hden := ((k epochs e2).2 M' h).2 rfl
    obtain ⟨w', β', r1, r2⟩ := head_result (rate := p.rate) hno hfit ht w β ess e1 hlen h0
    rw [enet, r1] at hden
    refine forward_label hE hden (netFits_snoc hfit) hX (ht e hed) (small_separates ht ?_ e hed)
    rw [r2]
    exact hN _ (by omega)

/-! ### Examples -/

/-- The number 1 has the label "a", the number -1 the label "b". -/
def signData : List (Tensor × Nat) := [(fun _ _ _ => 1, 0), (fun _ _ _ => -1, 1)]

def signSource : List (Sample ℝ) := [⟨⟨dimN 1 1 1, [1]⟩, "a".toList⟩, ⟨⟨dimN 1 1 1, [-1]⟩, "b".toList⟩]

theorem sign_shows (v : ℝ) : (⟨dimN 1 1 1, [v]⟩ : Matrix ℝ).Shows 1 1 1 (fun _ _ _ => v) :=
  Matrix.Shows.of_vals ⟨by decide, by decide, by decide, by decide⟩ rfl (by simp [List.range_succ])

theorem signSource_holds : SameData ["a".toList, "b".toList] ⟨1, 1, 1⟩ signData signSource := by
  refine ⟨signData, .refl _, .cons ⟨sign_shows 1, rfl, by simp⟩ (.cons ⟨sign_shows (-1), rfl, ?_⟩ .nil)⟩
  intro t ht
  obtain rfl : t = 0 := by
    have : t < 1 := ht
    omega
  simp

theorem sign_separates : Separates ([] ++ [.full 2 (fun i _ _ => if i = 0 then 1 else 0) (fun _ => 0)]) ⟨1, 1, 1⟩ 2 signData := by
  intro e he i hi hne
  simp only [signData, List.mem_cons, List.not_mem_nil, or_false] at he
  rcases he with rfl | rfl
  · obtain rfl : i = 1 := by
      have : i ≠ 0 := hne
      omega
    simp [netProb, softmax, netOut, NetLayer.out, netEval, NetLayer.eval, flatOf, Finset.sum_range_succ]
    rw [inv_eq_one_div, div_lt_div_iff_of_pos_right (by positivity)]
    simp
  · obtain rfl : i = 0 := by
      have : i ≠ 1 := hne
      omega
    simp [netProb, softmax, netOut, NetLayer.out, netEval, NetLayer.eval, flatOf, Finset.sum_range_succ]
    rw [inv_eq_one_div, div_lt_div_iff_of_pos_right (by positivity)]
    simp

/-- A model with one fully connected layer learns to tell 1 from -1, with the learning rate 1. -/
example : ∃ M, buildModel exactEnv.num exactEnv.draws [.full 2] ["a".toList, "b".toList] = .ok M ∧
    ∃ (k : Nat) (epochs : List (List (List Nat) × List (Sample ℝ))) (M' : Model ℝ), epochs.map Prod.snd = List.replicate k signSource ∧
      train exactEnv ⟨1, 2, 1, k⟩ 2 epochs M = .ok (some M') ∧
      (∃ r M'', M'.forwardPropagation exactEnv ⟨dimN 1 1 1, [1]⟩ 0 = .ok (r, M'') ∧ r.labelIdx = 0) ∧
      ∃ r M'', M'.forwardPropagation exactEnv ⟨dimN 1 1 1, [-1]⟩ 0 = .ok (r, M'') ∧ r.labelIdx = 1 := by
  obtain ⟨M, e, N, h⟩ := C92_build_partial exactEnv ⟨rfl, rfl, rfl⟩ 2 (by omega) (by omega) [] (by simp) ["a".toList, "b".toList] ⟨1, 1, 1⟩
    ⟨⟨by decide, by decide, by decide⟩, trivial⟩ trivial signData rfl (by simp [signData]) 2 1 (by
      intro e he
      simp only [signData, List.mem_cons, List.not_mem_nil, or_false] at he
      rcases he with rfl | rfl <;> norm_num [featureCount, feature, drawnNet, netOut, netEval, flatOf])
    (by norm_num) (by norm_num) _ _ sign_separates
  obtain ⟨h1, h2⟩ := h ⟨1, 2, 1, N⟩ rfl rfl rfl le_rfl
  obtain ⟨epochs, M', h3, h4⟩ := h1 (List.replicate N signSource) (List.length_replicate.trans (Int.toNat_natCast N).symm) (fun src hs => by rw [List.eq_of_mem_replicate hs]; exact signSource_holds)
  have h5 := h2 epochs (fun e he => by
    have : e.2 ∈ epochs.map Prod.snd := List.mem_map_of_mem he
    rw [h3] at this
    rw [List.eq_of_mem_replicate this]; exact signSource_holds) M' h4
  exact ⟨M, e, N, epochs, M', h3, h4, h5 (fun _ _ _ => 1, 0) List.mem_cons_self _ (sign_shows 1),
    h5 (fun _ _ _ => -1, 1) (List.mem_cons_of_mem _ List.mem_cons_self) _ (sign_shows (-1))⟩

/-- The loss of a model of this kind approaches its infimum, whatever the data. -/
example : ∃ L : Nat → ℝ, L 0 = meanLoss ⟨1, 1, 1⟩ 2 signData (shortNet (fun _ _ _ => 0) (fun _ => 0)) ∧ Antitone L ∧
    ∀ (k : Nat) (w₀ : Tensor) (β₀ : Nat → ℝ), 2 * 1 * k * (L k - meanLoss ⟨1, 1, 1⟩ 2 signData (shortNet w₀ β₀)) ≤ paramDist 2 1 (fun _ _ _ => 0) (fun _ => 0) w₀ β₀ := by
  obtain ⟨L, h1, h2, h3, -⟩ := C92_converges_partial exactEnv ⟨rfl, rfl, rfl⟩ 2 (by omega) (by omega) shortNetModel 0 ⟨1, 1, 1⟩ [] 2 _ _ shortNetModel_denotes
    (by simp [NoParams]) ⟨trivial, trivial⟩ ⟨trivial, trivial⟩ signData rfl (by simp [signData]) 2 1 (by
      intro e he
      simp only [signData, List.mem_cons, List.not_mem_nil, or_false] at he
      rcases he with rfl | rfl <;> norm_num [featureCount, feature, netOut, netEval, flatOf]) (by norm_num) (by norm_num)
  exact ⟨L, h1, h2, h3⟩

end Train
end Cnn
