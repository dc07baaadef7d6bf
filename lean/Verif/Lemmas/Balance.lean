import Verif.Lemmas.Learns
import Verif.Spec.Balance
/-! Training does not change the sums of the last layer's parameters over the labels (C104). -/
namespace Cnn
open Finset

theorem SameSums.refl (n K : Nat) (w : Tensor) (β : Nat → ℝ) : SameSums n K w β w β := ⟨fun _ _ => rfl, rfl⟩

theorem SameSums.trans {n K : Nat} {w w' w'' : Tensor} {β β' β'' : Nat → ℝ} (h : SameSums n K w β w' β') (h' : SameSums n K w' β' w'' β'') :
    SameSums n K w β w'' β'' := ⟨fun k hk => (h'.1 k hk).trans (h.1 k hk), h'.2.trans h.2⟩

theorem netOut_surrogate (ls : List NetLayer) (s : Shape) (x : Tensor) : netOut (netSurrogate ls s x) s = netOut ls s := by
  induction ls generalizing s x with
  | nil => rfl
  | cons l ls ih =>
    show netOut (netSurrogate ls (l.out s) (l.eval s x)) ((l.surrogate s x).out s) = netOut ls (l.out s)
    rw [NetLayer.Stands.out (x := x) (l := l) (Or.inr rfl), ih]

theorem netOut_sameNet {a b : List NetLayer} (h : SameNet a b) (s : Shape) : netOut b s = netOut a s := by
  induction h generalizing s with
  | nil => rfl
  | @cons l l' _ _ h1 _ ih =>
    obtain ⟨w, β, rfl⟩ := h1
    rw [netOut, netOut, ih]
    cases l <;> rfl

/-- What is remembered: networks with the same last layer but for parameters, and labels that exist. -/
def LastFull (s : Shape) (n len K : Nat) (m : Remembered) : Prop :=
  m.2.2 < n ∧ ∃ init w β, m.1 = init ++ [.full n w β] ∧ init.length = len ∧ featureCount init s = K

theorem LastFull.sums {s : Shape} {n len K : Nat} {m : Remembered} (h : LastFull s n len K m) :
    (∀ b < K, ∑ a ∈ range n, weightPartial s n (netSurrogate m.1 s m.2.1, m.2) len a b 0 = 0) ∧
      ∑ a ∈ range n, biasPartial s n (netSurrogate m.1 s m.2.1, m.2) len a = 0 := by
  obtain ⟨ls, x, t⟩ := m
  obtain ⟨ht, init, w, β, rfl, rfl, rfl⟩ := h
  have ht : t < n := ht
  have hsur : netSurrogate (init ++ [.full n w β]) s x = netSurrogate init s x ++ [.full n w β] := by
    rw [netSurrogate_append]; rfl
  have hK : featureCount (netSurrogate init s x) s = featureCount init s := by
    unfold featureCount; rw [netOut_surrogate]
  have hget : (netSurrogate init s x ++ [NetLayer.full n w β])[init.length]? = some (.full n w β) := by
    rw [List.getElem?_append_right (by rw [netSurrogate_length])]
    simp [netSurrogate_length]
  have hset : ∀ l, (netSurrogate init s x ++ [NetLayer.full n w β]).set init.length l = netSurrogate init s x ++ [l] := by
    intro l
    rw [List.set_append_right _ _ (by rw [netSurrogate_length])]
    simp [netSurrogate_length]
  have hone : ∑ a ∈ range n, (netProb (netSurrogate init s x ++ [.full n w β]) s n x a - if a = t then 1 else 0) = 0 := by
    rw [sum_sub_distrib, netProb_last_sum (Nat.zero_lt_of_lt ht), sum_ite_eq' (range n) t, if_pos (mem_range.2 ht), sub_self]
  show (∀ b < _, ∑ a ∈ range n, weightPartial s n (netSurrogate (init ++ [.full n w β]) s x, (x, t)) init.length a b 0 = 0) ∧
    ∑ a ∈ range n, biasPartial s n (netSurrogate (init ++ [.full n w β]) s x, (x, t)) init.length a = 0
  rw [hsur]
  simp only [weightPartial, biasPartial, hget, NetLayer.params, NetLayer.withParams, hset]
  constructor
  · intro b hb
    rw [← hK] at hb
    rw [sum_congr rfl fun a ha => (last_weight (netSurrogate init s x) n w β s ht x (mem_range.1 ha) hb).deriv, ← sum_mul, hone, zero_mul]
  · rw [sum_congr rfl fun a ha => (last_bias (netSurrogate init s x) n w β s ht x (mem_range.1 ha)).deriv, hone]

theorem sum_map_list_sum {γ : Type} (n : Nat) (l : List γ) (F : γ → Nat → ℝ) :
    ∑ a ∈ range n, (l.map fun m => F m a).sum = (l.map fun m => ∑ a ∈ range n, F m a).sum := by
  induction l with
  | nil => simp
  | cons m l ih => simp only [List.map_cons, List.sum_cons, sum_add_distrib, ih]

/-- One step. -/
theorem memStep_sums {s : Shape} {n K : Nat} (rate : ℝ) {mem : List Remembered} (init : List NetLayer) (w : Tensor) (β : Nat → ℝ)
    (hm : ∀ m ∈ mem, LastFull s n init.length K m) :
    ∃ init' w' β', memStep (fun ls x => netSurrogate ls s x) rate s n mem (init ++ [.full n w β]) = init' ++ [.full n w' β'] ∧
      SameNet init init' ∧ SameSums n K w β w' β' := by
  let rep : Rep := fun ls x => netSurrogate ls s x
  refine ⟨memStep rep rate s n mem init, fun a b c => w a b c - rate * ((mem.map fun m => weightPartial s n (rep m.1 m.2.1, m.2) init.length a b c).sum / mem.length),
    fun k => β k - rate * ((mem.map fun m => biasPartial s n (rep m.1 m.2.1, m.2) init.length k).sum / mem.length), ?_, memStep_same _ _ _ _ _ _, ?_, ?_⟩
  · unfold memStep
    rw [List.mapIdx_append]
    simp [NetLayer.params, NetLayer.withParams, rep]
  · intro k hk
    rw [sum_sub_distrib, ← mul_sum, ← sum_div, sum_map_list_sum n mem fun m a => weightPartial s n (rep m.1 m.2.1, m.2) init.length a k 0,
      List.map_congr_left fun m h => ((hm m h).sums.1 k hk : ∑ a ∈ range n, weightPartial s n (rep m.1 m.2.1, m.2) init.length a k 0 = 0)]
    simp
  · rw [sum_sub_distrib, ← mul_sum, ← sum_div, sum_map_list_sum n mem fun m a => biasPartial s n (rep m.1 m.2.1, m.2) init.length a,
      List.map_congr_left fun m h => ((hm m h).sums.2 : ∑ a ∈ range n, biasPartial s n (rep m.1 m.2.1, m.2) init.length a = 0)]
    simp

/-- Training over any batches. -/
theorem staleLeads_sums {s : Shape} {n : Nat} (rate : ℝ) (ds : List (List (Tensor × Nat))) (hd : ∀ d ∈ ds, ∀ e ∈ d, e.2 < n) :
    ∀ (mem : List Remembered) (init : List NetLayer) (w : Tensor) (β : Nat → ℝ) (out : List NetLayer),
      (∀ m ∈ mem, LastFull s n init.length (featureCount init s) m) →
      StaleLeads (fun ls x => netSurrogate ls s x) rate s n ds mem (init ++ [.full n w β]) out →
      ∃ init' w' β', out = init' ++ [.full n w' β'] ∧ SameNet init init' ∧ SameSums n (featureCount init s) w β w' β' := by
  induction ds with
  | nil =>
    intro mem init w β out _ h
    exact ⟨init, w, β, h, SameNet.refl _, SameSums.refl _ _ _ _⟩
  | cons d ds ih =>
    intro mem init w β out hm h
    obtain ⟨mem', ⟨d', kept, hr, hs, _, hp⟩, h⟩ := h
    have hm' : ∀ m ∈ mem', LastFull s n init.length (featureCount init s) m := by
      intro m h1
      rcases List.mem_append.1 (hp.subset h1) with h1 | h1
      · obtain ⟨e, he, rfl⟩ := List.mem_map.1 h1
        obtain ⟨f, hf, hef⟩ := hr.2 e he
        exact ⟨by show e.2 < n; rw [hef]; exact hd d (by simp) f hf, init, w, β, rfl, rfl, rfl⟩
      · exact hm m (hs.subset h1)
    obtain ⟨init1, w1, β1, e1, s1, c1⟩ := memStep_sums rate init w β hm'
    rw [e1] at h
    have hlen : init1.length = init.length := s1.length_eq.symm
    have hfc : featureCount init1 s = featureCount init s := by unfold featureCount; rw [netOut_sameNet s1]
    obtain ⟨init2, w2, β2, e2, s2, c2⟩ := ih (fun d hd' => hd d (List.mem_cons_of_mem _ hd')) mem' init1 w1 β1 out (by rw [hlen, hfc]; exact hm') h
    rw [hfc] at c2
    exact ⟨init2, w2, β2, e2, s1.trans s2, c1.trans c2⟩

end Cnn
