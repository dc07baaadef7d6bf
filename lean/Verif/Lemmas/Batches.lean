import Verif.Lemmas.Online
import Verif.Lemmas.Learns
import Verif.Lemmas.AccuracyRun
/-! Training the last layer in batches: the labels found on the way and in the end (C93). -/
namespace Cnn
open Finset Model _root_.Cnn.Convex

section
variable {γ : Type} {n K : Nat} {ψ : γ → Nat → ℝ} {t : γ → Nat}

theorem run_congr {rate : ℝ} (bs : List (List γ)) : ∀ {θ θ' : Nat → Nat → ℝ}, (∀ i < n, ∀ j < K, θ i j = θ' i j) →
    ∀ i < n, ∀ j < K, run n K ψ t rate bs θ i j = run n K ψ t rate bs θ' i j := by
  induction bs with
  | nil => exact fun h => h
  | cons b bs ih => exact fun h => ih fun i hi j hj => step_congr h rate b hi hj

theorem online_congr {rate : ℝ} (bs : List (List γ)) (ht : ∀ b ∈ bs, ∀ e ∈ b, t e < n) : ∀ {θ θ' : Nat → Nat → ℝ}, (∀ i < n, ∀ j < K, θ i j = θ' i j) →
    online n K ψ t rate bs θ = online n K ψ t rate bs θ' := by
  induction bs with
  | nil => exact fun _ => rfl
  | cons b bs ih =>
    intro θ θ' h
    unfold online
    rw [mean_congr fun e he => one_congr h (ht b (by simp) e he), ih (fun b hb => ht b (by simp [hb])) fun i hi j hj => step_congr h rate b hi hj]
end

theorem mem_batchesOf {β : Type} {B : Nat} {l b : List β} (h : b ∈ batchesOf B l) : ∀ e ∈ b, e ∈ l := by
  unfold batchesOf at h
  obtain ⟨k, _, rfl⟩ := List.mem_map.1 h
  exact fun e he => List.mem_of_mem_drop (List.mem_of_mem_take he)

theorem batchesOf_flatten {β : Type} {B : Nat} (h0 : 0 < B) (l : List β) : (batchesOf B l).flatten = l := by
  obtain ⟨k, hk⟩ : ∃ k, k = l.length := ⟨_, rfl⟩
  induction k using Nat.strong_induction_on generalizing l with
  | _ k ih =>
    by_cases hl : l = []
    · rw [hl, batchesOf_nil h0]; rfl
    · have : 0 < l.length := List.length_pos_iff.2 hl
      rw [batchesOf_cons h0 hl, List.flatten_cons, ih (l.drop B).length (by rw [List.length_drop]; omega) _ rfl, List.take_append_drop]

/-- Full batches. -/
theorem batchesOf_full {β : Type} {B : Nat} (h0 : 0 < B) (m : Nat) : ∀ {l : List β}, l.length = m * B →
    (∀ b ∈ batchesOf B l, b.length = B) ∧ (batchesOf B l).length = m ∧ ∀ f : β → ℝ, ((batchesOf B l).map fun b => mean b f).sum = (l.map f).sum / B := by
  induction m with
  | zero =>
    intro l hl
    obtain rfl : l = [] := List.eq_nil_of_length_eq_zero (by simpa using hl)
    rw [batchesOf_nil h0]
    simp
  | succ m ih =>
    intro l hl
    have hB : B ≤ l.length := by rw [hl, Nat.succ_mul]; omega
    have hne : l ≠ [] := by rintro rfl; simp at hB; omega
    obtain ⟨a, b, c⟩ := ih (l := l.drop B) (by rw [List.length_drop, hl, Nat.succ_mul]; omega)
    have ht : (l.take B).length = B := by rw [List.length_take]; omega
    rw [batchesOf_cons h0 hne]
    refine ⟨?_, by simp [b], fun f => ?_⟩
    · intro x hx
      rcases List.mem_cons.1 hx with rfl | hx
      · exact ht
      · exact a x hx
    · rw [List.map_cons, List.sum_cons, c f]
      unfold mean
      rw [ht, ← add_div, ← List.sum_append, ← List.map_append, List.take_append_drop]

theorem batches_total {γ : Type} {B m : Nat} (h0 : 0 < B) {d es : List γ} (hp : es.Perm d)
    (hl : d.length = m * B) (f : γ → ℝ) : ((batchesOf B es).map fun b => mean b f).sum = m * mean d f := by
  rw [(batchesOf_full h0 m (hp.length_eq.trans hl)).2.2, ← mean_perm hp]
  unfold mean
  rw [hp.length_eq, hl]
  have : (B : ℝ) ≠ 0 := by exact_mod_cast h0.ne'
  push_cast
  by_cases hm : (m : ℝ) = 0
  · have hm' : m = 0 := by exact_mod_cast hm
    have : es = [] := List.eq_nil_of_length_eq_zero (by rw [hp.length_eq, hl, hm']; simp)
    simp [this]
  · field_simp

/-- The whole training, in full batches. -/
theorem batch_descents {init : List NetLayer} (hno : NoParams init) {n : Nat} {s : Shape} (hfit : NetFits init s) (rate : ℝ) {B : Nat}
    (ds : List (List (Tensor × Nat))) (hl : ∀ d ∈ ds, d.length = B) (ht : ∀ d ∈ ds, ∀ e ∈ d, e.2 < n) :
    ∀ (mem : List Remembered) (w : Tensor) (β : Nat → ℝ), mem.length ≤ B →
      ∃ w' β', staleDescents (fun ls x => netSurrogate ls s x) rate s n ds mem (init ++ [.full n w β]) = init ++ [.full n w' β'] ∧
        ∀ i < n, ∀ j < featureCount init s + 1, comb (featureCount init s) w' β' i j =
          run n (featureCount init s + 1) (combFeature init s) Prod.snd rate ds (comb (featureCount init s) w β) i j := by
  induction ds with
  | nil => exact fun mem w β _ => ⟨w, β, rfl, fun _ _ _ _ => rfl⟩
  | cons d ds ih =>
    intro mem w β hm
    obtain ⟨w1, β1, e1, h1⟩ := head_step hno hfit rate (d := d) (ht d (by simp)) w β
    have hd := hl d (by simp)
    have hr : refill (init ++ [.full n w β]) d mem = d.map fun e => (init ++ [.full n w β], e) := by
      unfold refill
      rw [List.drop_of_length_le (by omega), List.append_nil]
    obtain ⟨w', β', e2, h2⟩ := ih (fun d hd => hl d (by simp [hd])) (fun d hd => ht d (by simp [hd])) (d.map fun e => (init ++ [.full n w β], e)) w1 β1 (by simp [hd])
    refine ⟨w', β', ?_, ?_⟩
    · show staleDescents _ rate s n ds (refill _ d mem) (memStep _ rate s n (refill _ d mem) _) = _
      rw [hr, e1]
      exact e2
    · intro i hi j hj
      rw [h2 i hi j hj]
      exact run_congr ds h1 i hi j hj

namespace Train

variable {E : Env ℝ} {p : Hyper ℝ} {B : Nat} {labels : List (List Char)} {s : Shape} {n : Nat}

theorem idxOf_is {l : List (List Char)} {x : List Char} {t : Nat} (h : l[t]? = some x) (h' : ∀ u < t, l[u]? ≠ some x) : l.idxOf x = t := by
  induction l generalizing t with
  | nil => simp at h
  | cons a l ih =>
    cases t with
    | zero =>
      obtain rfl : a = x := by simpa using h
      simp
    | succ t =>
      have ha : a ≠ x := by
        rintro rfl
        exact h' 0 (by omega) (by simp)
      rw [List.idxOf_cons_ne _ ha, ih (by simpa using h) fun u hu => by simpa using h' (u + 1) (by omega)]

/-- A sample that is not classified correctly has a loss of at least the logarithm of 2. -/
theorem gets_or (hE : E.Exact) {M : Model ℝ} {init : List NetLayer} {w : Tensor} {β : Nat → ℝ} (h : Trainee labels s n B M (init ++ [.full n w β]))
    {x : Sample ℝ} {e : Tensor × Nat} (hx : x.Is labels s e) (ht : e.2 < n) :
    M.GetsAny E x ∨ Real.log 2 ≤ netLoss (init ++ [.full n w β]) s n e.2 e.1 := by
  by_cases hl : netLoss (init ++ [.full n w β]) s n e.2 e.1 < Real.log 2
  · left
    have hs := small_separates (d := [e]) (w := w) (β := β) (init := init) (s := s) (n := n) (by simpa using ht) (by simpa [meanLoss] using hl)
    obtain ⟨r, M₁, e1, e2⟩ := forward_label hE h.denotes h.fits hx.data ht (hs e (by simp))
    exact ⟨0, r, M₁, e1, by rw [h.labels, idxOf_is hx.label hx.first]; exact e2⟩
  · exact Or.inr (not_lt.1 hl)

theorem count_bound (hE : E.Exact) {M : Model ℝ} {init : List NetLayer} {w : Tensor} {β : Nat → ℝ} (h : Trainee labels s n B M (init ++ [.full n w β])) :
    ∀ {xs : List (Sample ℝ)} {d : List (Tensor × Nat)}, List.Forall₂ (Sample.Is labels s) xs d → (∀ e ∈ d, e.2 < n) →
    Real.log 2 * ((d.length : ℝ) - M.scoreAny E xs) ≤
      (d.map (one n (featureCount init s + 1) (combFeature init s) Prod.snd (comb (featureCount init s) w β))).sum := by
  classical
  have h2 : 0 < Real.log 2 := Real.log_pos (by norm_num)
  intro xs d hd
  induction hd with
  | nil => simp [scoreAny]
  | @cons x e xs d hx hd ih =>
    intro ht
    have a := ih fun e he => ht e (by simp [he])
    have hte := ht e (by simp)
    have hone := comb_one init n w β s e hte
    have hnn := one_nonneg n (featureCount init s + 1) (combFeature init s) Prod.snd hte (comb (featureCount init s) w β)
    unfold scoreAny at a ⊢
    rw [List.map_cons, List.sum_cons, List.countP_cons, List.length_cons]
    push_cast
    rcases gets_or hE h hx hte with hg | hg
    · simp only [hg, decide_true, if_true]
      push_cast
      linarith
    · rw [← hone] at hg
      split <;> push_cast <;> nlinarith

/-- Some batches: the parameters in the end, and the samples not classified correctly. -/
theorem runBatches_online (hE : E.Exact) (hp : p.batch = B) (hq : p.threads = (1 : Nat)) (hB : B < 2 ^ 24) (h0 : 0 < B) {init : List NetLayer} (hno : NoParams init)
    (ds : List (List (Tensor × Nat))) : (∀ d ∈ ds, d.length = B) → (∀ d ∈ ds, ∀ e ∈ d, e.2 < n) → ∀ {sh : Shared ℝ} {mem : List Remembered} {w : Tensor} {β : Nat → ℝ},
    Trainee labels s n B sh.model (init ++ [.full n w β]) → Recalls (fun ls x => netSurrogate ls s x) s n sh.model (init ++ [.full n w β]) mem →
    mem.length = B ∨ mem = [] → List.Forall₂ (Sample.Is labels s) sh.source ds.flatten → ∀ {scheds : List (List Nat)} {q : Shared ℝ × List (Event ℝ)},
    scheds.length = ds.length → runBatches E p scheds sh = .ok (some q) →
    ∃ w' β' mem', Trainee labels s n B q.1.model (init ++ [.full n w' β']) ∧
      Recalls (fun ls x => netSurrogate ls s x) s n q.1.model (init ++ [.full n w' β']) mem' ∧ (mem'.length = B ∨ mem' = []) ∧
      (∀ i < n, ∀ j < featureCount init s + 1, comb (featureCount init s) w' β' i j =
          run n (featureCount init s + 1) (combFeature init s) Prod.snd p.rate ds (comb (featureCount init s) w β) i j) ∧
      q.1.hits ≤ sh.hits + ds.length * B ∧ Real.log 2 * ((ds.length * B : ℝ) + sh.hits - q.1.hits) ≤
        B * online n (featureCount init s + 1) (combFeature init s) Prod.snd p.rate ds (comb (featureCount init s) w β) := by
  induction ds with
  | nil =>
    intro _ _ sh mem w β hM hR hm _ scheds q hl h
    obtain rfl : scheds = [] := List.eq_nil_of_length_eq_zero (by simpa using hl)
    obtain rfl := Option.some.inj (Res.ok.inj h)
    exact ⟨w, β, mem, hM, hR, hm, fun _ _ _ _ => rfl, by simp, by simp [online]⟩
  | cons d ds ih =>
    intro hlen ht sh mem w β hM hR hm hsrc scheds q hl h
    cases scheds with
    | nil => simp at hl
    | cons c cs =>
      simp only [runBatches] at h
      obtain ⟨o, e, h⟩ := Res.bind_eq_ok h
      cases o with
      | none => exact absurd h (by simp)
      | some r =>
        simp only at h
        obtain ⟨u, f, h⟩ := Res.bind_eq_ok h
        cases u with
        | none => exact absurd h (by simp)
        | some u =>
          obtain rfl := Option.some.inj (Res.ok.inj h)
          have hd := hlen d (by simp)
          have htd := ht d (by simp)
          have s2 : List.Forall₂ (Sample.Is labels s) (sh.source.take B) d := by
            have := List.forall₂_take B hsrc
            rwa [List.flatten_cons, ← hd, List.take_left', hd] at this
            rfl
          have s3 : List.Forall₂ (Sample.Is labels s) (sh.source.drop B) ds.flatten := by
            have := List.forall₂_drop B hsrc
            rwa [List.flatten_cons, ← hd, List.drop_left', hd] at this
            rfl
          obtain ⟨-, k2, k3, k4⟩ := hM.stale_one hE hp hq hB hR s2 (hm.imp id fun h => ⟨h, hd⟩) (fun e _ => .surrogate _ s e.1) e
          have hr : refill (init ++ [.full n w β]) d mem = d.map fun e => (init ++ [.full n w β], e) := by
            unfold refill
            rw [List.drop_of_length_le (by rcases hm with hm | hm <;> simp [hm, hd]), List.append_nil]
          obtain ⟨w1, β1, e1, h1⟩ := head_step hno (netFits_left hM.fits) p.rate (d := d) htd w β
          rw [hr] at k2 k3
          rw [e1] at k2 k3
          obtain ⟨w', β', mem', j1, j2, j3, j4, j6, j5⟩ := ih (fun d hd => hlen d (by simp [hd])) (fun d hd => ht d (by simp [hd])) k2 k3 (Or.inl (by simp [hd])) (by rw [k4]; exact s3) (by simpa using hl) f
          have g1 := (runBatch_hits hp hq hB hM.prepared.ready e).1
          refine ⟨w', β', mem', j1, j2, j3, ?_, ?_, ?_⟩
          · intro i hi j hj
            rw [j4 i hi j hj]
            exact run_congr ds h1 i hi j hj
          · have g3 : sh.model.scoreAny E (sh.source.take B) ≤ B := List.countP_le_length.trans (by rw [s2.length_eq, hd])
            rw [g1] at j6
            rw [List.length_cons, Nat.succ_mul]
            exact j6.trans (by omega)
          · have g2 := count_bound hE hM s2 htd
            have hBp : (0 : ℝ) < B := by exact_mod_cast h0
            have e2 : (d.map (one n (featureCount init s + 1) (combFeature init s) Prod.snd (comb (featureCount init s) w β))).sum =
                B * mean d (one n (featureCount init s + 1) (combFeature init s) Prod.snd (comb (featureCount init s) w β)) := by
              unfold mean
              rw [hd]; field_simp
            rw [e2, hd] at g2
            rw [online_congr ds (fun d hd => ht d (by simp [hd])) h1] at j5
            have e3 : (r.1.hits : ℝ) = sh.hits + (sh.model.scoreAny E (sh.source.take B) : ℝ) := by rw [g1]; push_cast; rfl
            have e4 : ((d :: ds).length : ℝ) = ds.length + 1 := by push_cast [List.length_cons]; ring
            rw [e3] at j5
            rw [e4]
            unfold online
            linarith

/-- Some epochs, in full batches. -/
theorem reportLoop_online (hE : E.Exact) (hp : p.batch = B) (hq : p.threads = (1 : Nat)) (hB : B < 2 ^ 24) (h0 : 0 < B) {init : List NetLayer} (hno : NoParams init)
    {m : Nat} (hsz : m * B < 2 ^ 24) (ess : List (List (Tensor × Nat))) : (∀ es ∈ ess, es.length = m * B) → (∀ es ∈ ess, ∀ e ∈ es, e.2 < n) →
    ∀ {M : Model ℝ} {mem : List Remembered} {w : Tensor} {β : Nat → ℝ},
    Trainee labels s n B M (init ++ [.full n w β]) → Recalls (fun ls x => netSurrogate ls s x) s n M (init ++ [.full n w β]) mem →
    mem.length = B ∨ mem = [] → ∀ {epochs : List (List (List Nat) × List (Sample ℝ))} {r : Model ℝ × List Nat},
    List.Forall₂ (fun e es => List.Forall₂ (Sample.Is labels s) e.2 es) epochs ess → reportLoop E p (m * B) epochs M = .ok (some r) →
    ∃ w' β', Trainee labels s n B r.1 (init ++ [.full n w' β']) ∧
      (∀ i < n, ∀ j < featureCount init s + 1, comb (featureCount init s) w' β' i j =
          run n (featureCount init s + 1) (combFeature init s) Prod.snd p.rate (ess.flatMap (batchesOf B)) (comb (featureCount init s) w β) i j) ∧
      r.2.length = ess.length ∧ (∀ c ∈ r.2, c ≤ m * B) ∧
      Real.log 2 * ((ess.length * (m * B) : ℝ) - r.2.sum) ≤
        B * online n (featureCount init s + 1) (combFeature init s) Prod.snd p.rate (ess.flatMap (batchesOf B)) (comb (featureCount init s) w β) := by
  induction ess with
  | nil =>
    intro _ _ M mem w β hM _ _ epochs r he h
    cases he
    obtain rfl := Option.some.inj (Res.ok.inj h)
    exact ⟨w, β, hM, fun _ _ _ _ => rfl, rfl, by simp, by simp [online]⟩
  | cons es ess ih =>
    intro hlen ht M mem w β hM hR hm epochs r he h
    cases he with
    | @cons e _ eps _ he hes =>
      simp only [reportLoop] at h
      obtain ⟨o, k, h⟩ := Res.bind_eq_ok h
      cases o with
      | none => exact absurd h (by simp)
      | some q =>
        simp only at h
        obtain ⟨u, f, h⟩ := Res.bind_eq_ok h
        cases u with
        | none => exact absurd h (by simp)
        | some u =>
          obtain rfl := Option.some.inj (Res.ok.inj h)
          have hl := hlen es (by simp)
          obtain ⟨b1, b2, -⟩ := batchesOf_full h0 m hl
          rw [runEpoch_eq hp hq hB h0 (by omega) hsz] at k
          split at k
          case isFalse => exact absurd k (by simp)
          case isTrue hsl =>
          have hnum : (m * B + B - 1) / B = m := by
            rw [show m * B + B - 1 = B - 1 + B * m by rw [Nat.mul_comm m B]; omega, Nat.add_mul_div_left _ _ h0, Nat.div_eq_of_lt (by omega)]
            omega
          have tb : ∀ d ∈ batchesOf B es, ∀ e ∈ d, e.2 < n := fun d hd e he => ht es (by simp) e (mem_batchesOf hd e he)
          obtain ⟨w1, β1, mem1, a1, a2, a3, a4, a6, a5⟩ := runBatches_online (sh := ⟨M, e.2, 0⟩) hE hp hq hB h0 hno (batchesOf B es) b1 tb hM hR hm
            (by rw [batchesOf_flatten h0]; exact he) (by rw [hsl, hnum, b2]) k
          obtain ⟨w', β', c1, c2, c3, c5, c4⟩ := ih (fun es hes => hlen es (by simp [hes])) (fun es hes => ht es (by simp [hes])) a1 a2 a3 hes f
          have tr : ∀ d ∈ ess.flatMap (batchesOf B), ∀ e ∈ d, e.2 < n := by
            intro d hd e he
            obtain ⟨x, hx, hd⟩ := List.mem_flatMap.1 hd
            exact ht x (by simp [hx]) e (mem_batchesOf hd e he)
          refine ⟨w', β', c1, ?_, by simp [c3], ?_, ?_⟩
          · intro i hi j hj
            rw [c2 i hi j hj, List.flatMap_cons, run_append]
            exact run_congr _ a4 i hi j hj
          · intro c hc
            rcases List.mem_cons.1 hc with rfl | hc
            · rw [b2] at a6
              have : q.1.hits ≤ 0 + m * B := a6
              omega
            · exact c5 c hc
          · rw [online_congr _ tr a4] at c4
            rw [List.flatMap_cons, online_append, List.length_cons, List.sum_cons]
            rw [b2] at a5
            have a5 : Real.log 2 * ((m * B : ℝ) + ((0 : Nat) : ℝ) - q.1.hits) ≤
              B * online n (featureCount init s + 1) (combFeature init s) Prod.snd p.rate (batchesOf B es) (comb (featureCount init s) w β) := a5
            push_cast at a5 c4 ⊢
            linarith

/-- The report of the first epoch does not depend on whether the layers are ready. -/
theorem reportLoop_first {E : Env ℝ} (hE : E.Exact) {p : Hyper ℝ} {B T size : Nat} (hp : p.batch = B) (hq : p.threads = T) (hB : B < 2 ^ 24)
    (h0 : 0 < B) (hT0 : 0 < T) (hT : T < 2147483648) (hs0 : 0 < size) (hsz : size < 2 ^ 24) {M M' : Model ℝ} {labels : List (List Char)} {s : Shape} {n : Nat} {ls : List NetLayer}
    (hM' : Trainee labels s n B M' ls) (hout : M.outline = M'.outline)
    (hS : ∀ src : List (Sample ℝ), (∀ x ∈ src, ∃ xt : Tensor, x.data.Is3 s xt) → SameStart E M M' B src)
    {d : List (Tensor × Nat)} {e : List (List Nat) × List (Sample ℝ)} (hne : e.2 ≠ [])
    (he : List.Forall₂ (Sample.Is labels s) (e.2.take B) d) (es : List (List (List Nat) × List (Sample ℝ))) :
    reportLoop E p size (e :: es) M = reportLoop E p size (e :: es) M' := by
  have hnum : 0 < (size + B - 1) / B := Nat.div_pos (by omega) h0
  unfold reportLoop
  rw [runEpoch_eq hp hq hB h0 hT0 hsz, runEpoch_eq hp hq hB h0 hT0 hsz]
  by_cases hl : e.1.length = (size + B - 1) / B
  · rw [if_pos hl, if_pos hl]
    cases hs : e.1 with
    | nil => rw [hs] at hl; simp only [List.length_nil] at hl; omega
    | cons c cs =>
      have := runBatch_sim (E := E) (sh := ⟨M', e.2, 0⟩) hp hq hB hT0 hT hM'.prepared (hM'.alone hE he) h0 hne hout
        (hS _ fun x hx => by
          obtain ⟨f, _, hf⟩ := mem_take_is he hx
          exact ⟨f.1, hf.data⟩) c
      simp only [runBatches, this]
  · rw [if_neg hl, if_neg hl]

/-- The report of a training. -/
theorem report_eq {p : Hyper ℝ} {B : Nat} (hp : p.batch = B) (hB : B < 2 ^ 24) (size : Nat) (epochs : List (List (List Nat) × List (Sample ℝ))) (M : Model ℝ) :
    report E p size epochs M = if epochs.length = p.epochs.toNat then reportLoop E p size epochs (M.setBatchSize B) else .ok none := by
  have hu : u64 p.batch = B := by
    rw [hp]; unfold u64; omega
  unfold report
  rcases M.room_cases p.batch with hroom | ⟨hneg, -⟩
  · rw [hroom, Res.bind_ok, hu]
  · omega

/-- A model that has its weights, or one just built. -/
theorem report_start (hE : E.Exact) (hp : p.batch = B) (hq : p.threads = (1 : Nat)) (hB : B < 2 ^ 24) (h0 : 0 < B) {size : Nat} (hs0 : 0 < size) (hsz : size < 2 ^ 24)
    {M : Model ℝ} {b : Nat} {ls : List NetLayer} (hM : M.Denotes b s ls n ∨ M.Starts E.draws s ls n ∧ 0 < p.epochs) (hfit : NetFits ls s) (htr : NetTrains true ls s) :
    ∃ M', Trainee M.labels s n B M' ls ∧ ∀ (ess : List (List (Tensor × Nat))) (epochs : List (List (List Nat) × List (Sample ℝ))), (∀ es ∈ ess, es.length = size) →
      List.Forall₂ (fun e es => List.Forall₂ (Sample.Is M.labels s) e.2 es) epochs ess → ∀ r,
      report E p size epochs M = .ok (some r) → reportLoop E p size epochs M' = .ok (some r) := by
  rcases hM with hD | ⟨hS, hpos⟩
  · refine ⟨M.setBatchSize B, ⟨hD.prepared hfit B, hD.setBatchSize h0, hfit, htr, rfl⟩, ?_⟩
    intro ess epochs _ _ r h
    rw [report_eq hp hB] at h
    split at h
    · exact h
    · exact absurd h (by simp)
  · obtain ⟨M', h1, h2, h3⟩ := filled hE hS hfit htr h0
    refine ⟨M', h1, ?_⟩
    intro ess epochs hl he r h
    rw [report_eq hp hB] at h
    split at h
    case isFalse => exact absurd h (by simp)
    case isTrue hlen =>
    cases he with
    | nil => simp at hlen; omega
    | @cons e es eps ess he hes =>
      rwa [reportLoop_first hE hp hq hB h0 (by omega) (by omega) hs0 hsz h1 h2 h3 ?_ (List.forall₂_take B he) eps] at h
      intro hc
      have := he.length_eq
      rw [hc, hl es (by simp)] at this
      simp at this
      omega

theorem sameData_all {labels : List (List Char)} {s : Shape} {d : List (Tensor × Nat)} {γ : Type} (f : γ → List (Sample ℝ)) (l : List γ)
    (h : ∀ e ∈ l, SameData labels s d (f e)) : ∃ ess, (∀ es ∈ ess, es.Perm d) ∧ List.Forall₂ (fun e es => List.Forall₂ (Sample.Is labels s) (f e) es) l ess := by
  induction l with
  | nil => exact ⟨[], by simp, .nil⟩
  | cons e l ih =>
    obtain ⟨ess, h1, h2⟩ := ih fun x hx => h x (List.mem_cons_of_mem _ hx)
    obtain ⟨es, h3, h4⟩ := h e (by simp)
    refine ⟨es :: ess, ?_, .cons h4 h2⟩
    intro es' he
    rcases List.mem_cons.1 he with rfl | he
    · exact h3
    · exact h1 _ he

/-- A training in full batches with the same samples in every epoch. -/
theorem report_online (hE : E.Exact) (hp : p.batch = B) (hq : p.threads = (1 : Nat)) (h0 : 0 < B) {m : Nat} (hm : 0 < m) (hsz : m * B < 2 ^ 24)
    {M : Model ℝ} {b : Nat} {init : List NetLayer} {w : Tensor} {β : Nat → ℝ} (hno : NoParams init)
    (hM : M.Denotes b s (init ++ [.full n w β]) n ∨ M.Starts E.draws s (init ++ [.full n w β]) n ∧ 0 < p.epochs)
    (hfit : NetFits (init ++ [.full n w β]) s) (htr : NetTrains true (init ++ [.full n w β]) s) {d : List (Tensor × Nat)} (hlen : d.length = m * B)
    (ht : ∀ e ∈ d, e.2 < n) {epochs : List (List (List Nat) × List (Sample ℝ))} (he : ∀ e ∈ epochs, SameData M.labels s d e.2) {r : Model ℝ × List Nat}
    (h : report E p (m * B) epochs M = .ok (some r)) :
    ∃ (ess : List (List (Tensor × Nat))) (w' : Tensor) (β' : Nat → ℝ), (∀ es ∈ ess, es.Perm d) ∧ ess.length = p.epochs.toNat ∧ r.1.Denotes 0 s (init ++ [.full n w' β']) n ∧
      (∀ i < n, ∀ j < featureCount init s + 1, comb (featureCount init s) w' β' i j =
          run n (featureCount init s + 1) (combFeature init s) Prod.snd p.rate (ess.flatMap (batchesOf B)) (comb (featureCount init s) w β) i j) ∧
      r.2.length = p.epochs.toNat ∧ (∀ c ∈ r.2, c ≤ m * B) ∧
      Real.log 2 * ((p.epochs.toNat * (m * B) : ℝ) - r.2.sum) ≤
        B * online n (featureCount init s + 1) (combFeature init s) Prod.snd p.rate (ess.flatMap (batchesOf B)) (comb (featureCount init s) w β) := by
  have hle : B ≤ m * B := Nat.le_mul_of_pos_left B hm
  obtain ⟨ess, e1, e2⟩ := sameData_all Prod.snd epochs he
  have hl : ∀ es ∈ ess, es.length = m * B := fun es hes => (e1 es hes).length_eq.trans hlen
  obtain ⟨M', hM', h1⟩ := report_start (size := m * B) hE hp hq (by omega) h0 (by omega) hsz hM hfit htr
  have h2 := h1 ess epochs hl e2 r h
  have h3 : ess.length = p.epochs.toNat := by
    rw [report_eq hp (by omega)] at h
    split at h
    case isTrue hc => rw [← e2.length_eq, hc]
    case isFalse => exact absurd h (by simp)
  obtain ⟨w', β', k1, k2, k3, k4, k5⟩ := reportLoop_online hE hp hq (by omega) h0 hno hsz ess hl (fun es hes e he => ht e ((e1 es hes).mem_iff.1 he)) hM' (Recalls.nil ..) (Or.inr rfl) e2 h2
  exact ⟨ess, w', β', e1, h3, k1.denotes, k2, k3.trans h3, k4, by rw [h3] at k5; exact k5⟩

end Train
end Cnn
