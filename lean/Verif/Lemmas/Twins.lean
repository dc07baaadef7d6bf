import Verif.Lemmas.Silent
import Verif.Spec.Twins
/-! Back-propagation gives two equal units equal gradients (C106). -/
namespace Cnn
open Finset

theorem sum_swapped {m i j : Nat} (hi : i < m) (hj : j < m) {f g : Nat → ℝ} (h1 : f i = g j) (h2 : f j = g i) (h3 : ∀ u, u ≠ i → u ≠ j → f u = g u) :
    ∑ u ∈ range m, f u = ∑ u ∈ range m, g u := by
  refine Finset.sum_equiv (Equiv.swap i j) (fun u => ?_) (fun u _ => ?_)
  · by_cases hu : u = i
    · subst hu; simp [hi, hj]
    · by_cases hu' : u = j
      · subst hu'; simp [hi, hj]
      · rw [Equiv.swap_apply_of_ne_of_ne hu hu']
  · by_cases hu : u = i
    · subst hu; simp [h1]
    · by_cases hu' : u = j
      · subst hu'; simp [h2]
      · rw [Equiv.swap_apply_of_ne_of_ne hu hu', h3 u hu hu']

/-- What the second fully connected layer computes from the input of the first. -/
theorem two_full (m q : Nat) (w : Tensor) (β : Nat → ℝ) (u v : Nat → Nat → Nat → Nat) (S c : Tensor) (w₂ : Tensor) (β₂ : Nat → ℝ) (s : Shape) (x : Tensor)
    (hu : ∀ a b k, u a b k = a) (a b l : Nat) :
    (NetLayer.full q w₂ β₂).eval ⟨m, 1, 1⟩ ((NetLayer.gate m 1 u v S c).eval ⟨m, 1, 1⟩ ((NetLayer.full m w β).eval s x)) a b l =
      β₂ a + ∑ r ∈ range m, w₂ a r 0 * (S r 0 0 * (β r + ∑ k ∈ range (s.X * s.Y * s.Z), w r k 0 * flatOf s.X s.Y x k) + c r 0 0) := by
  show β₂ a + ∑ r ∈ range (m * 1 * 1), _ = _
  rw [Nat.mul_one, Nat.mul_one]
  congr 1
  refine sum_congr rfl fun r hr => ?_
  have hr := mem_range.1 hr
  simp only [flatOf, NetLayer.eval, hu, Nat.mod_eq_of_lt hr, Nat.div_eq_of_lt hr, Nat.zero_mod, Nat.zero_div]

theorem netLoss_tail (G : List NetLayer) (m : Nat) (w w' : Tensor) (β β' : Nat → ℝ) (u v : Nat → Nat → Nat → Nat) (S c : Tensor) (q : Nat) (w₂ w₂' : Tensor)
    (β₂ β₂' : Nat → ℝ) (rest : List NetLayer) (s : Shape) (n t : Nat) (x : Tensor)
    (h : (NetLayer.full q w₂ β₂).eval ⟨m, 1, 1⟩ ((NetLayer.gate m 1 u v S c).eval ⟨m, 1, 1⟩ ((NetLayer.full m w β).eval (netOut G s) (netEval G s x))) =
      (NetLayer.full q w₂' β₂').eval ⟨m, 1, 1⟩ ((NetLayer.gate m 1 u v S c).eval ⟨m, 1, 1⟩ ((NetLayer.full m w' β').eval (netOut G s) (netEval G s x)))) :
    netLoss (G ++ .full m w β :: .gate m 1 u v S c :: .full q w₂ β₂ :: rest) s n t x =
      netLoss (G ++ .full m w' β' :: .gate m 1 u v S c :: .full q w₂' β₂' :: rest) s n t x := by
  unfold netLoss netProb
  simp only [netEval_append, netOut_append, netEval, netOut]
  simp only [NetLayer.out] at h ⊢
  rw [h]

/-- A network with such units. -/
def HasTwins (len m q i j : Nat) (f : ActFn) (ls : List NetLayer) : Prop :=
  ∃ init w β w₂ β₂ rest, ls = init ++ .full m w β :: .act f :: .full q w₂ β₂ :: rest ∧ init.length = len ∧ Twins i j w β w₂

theorem HasTwins.partials {s : Shape} {n len m q i j : Nat} {f : ActFn} (hi : i < m) (hj : j < m) {r : Remembered} (h : HasTwins len m q i j f r.1) :
    (∀ k, weightPartial s n (netSurrogate r.1 s r.2.1, r.2) len i k 0 = weightPartial s n (netSurrogate r.1 s r.2.1, r.2) len j k 0) ∧
      biasPartial s n (netSurrogate r.1 s r.2.1, r.2) len i = biasPartial s n (netSurrogate r.1 s r.2.1, r.2) len j ∧
      ∀ a, weightPartial s n (netSurrogate r.1 s r.2.1, r.2) (len + 2) a i 0 = weightPartial s n (netSurrogate r.1 s r.2.1, r.2) (len + 2) a j 0 := by
  obtain ⟨ls, x, t⟩ := r
  obtain ⟨init, w, β, w₂, β₂, rest, e, rfl, t1, t2, t3⟩ := h
  have e : ls = _ := e
  subst e
  by_cases hij : i = j
  · subst hij; exact ⟨fun _ => rfl, rfl, fun _ => rfl⟩
  simp only
  generalize hG : netSurrogate init s x = G
  have hlen : G.length = init.length := by rw [← hG, netSurrogate_length]
  -- the units are replaced by the same straight line
  obtain ⟨u, v, S, c, rest', e, hu, hS, hc⟩ : ∃ u v S c rest', netSurrogate (init ++ .full m w β :: .act f :: .full q w₂ β₂ :: rest) s x =
      G ++ .full m w β :: .gate m 1 u v S c :: .full q w₂ β₂ :: rest' ∧ (∀ a b k, u a b k = a) ∧ S i 0 0 = S j 0 0 ∧ c i 0 0 = c j 0 0 := by
    rw [netSurrogate_append, hG]
    have hp : (NetLayer.full m w β).eval (netOut init s) (netEval init s x) i 0 0 = (NetLayer.full m w β).eval (netOut init s) (netEval init s x) j 0 0 := by
      simp only [NetLayer.eval, t1, t2]
    refine ⟨_, _, _, _, _, rfl, fun _ _ _ => rfl, ?_, ?_⟩
    · simp only [hp]
    · simp only [hp]
  rw [e]
  have hget : (G ++ NetLayer.full m w β :: .gate m 1 u v S c :: .full q w₂ β₂ :: rest')[init.length]? = some (.full m w β) := by
    rw [List.getElem?_append_right (by rw [hlen]), hlen]
    simp
  have hset : ∀ l, (G ++ NetLayer.full m w β :: .gate m 1 u v S c :: .full q w₂ β₂ :: rest').set init.length l =
      G ++ l :: .gate m 1 u v S c :: .full q w₂ β₂ :: rest' := by
    intro l
    rw [List.set_append_right _ _ (by rw [hlen]), hlen]
    simp
  have hget2 : (G ++ NetLayer.full m w β :: .gate m 1 u v S c :: .full q w₂ β₂ :: rest')[init.length + 2]? = some (.full q w₂ β₂) := by
    rw [List.getElem?_append_right (by rw [hlen]; omega), hlen]
    simp
  have hset2 : ∀ l, (G ++ NetLayer.full m w β :: .gate m 1 u v S c :: .full q w₂ β₂ :: rest').set (init.length + 2) l =
      G ++ .full m w β :: .gate m 1 u v S c :: l :: rest' := by
    intro l
    rw [List.set_append_right _ _ (by rw [hlen]; omega), hlen]
    simp
  simp only [weightPartial, biasPartial, hget, hget2, NetLayer.params, NetLayer.withParams, hset, hset2]
  refine ⟨fun k => ?_, ?_, fun a => ?_⟩
  · rw [t1 k]
    congr 1
    funext z
    refine netLoss_tail _ _ _ _ _ _ _ _ _ _ _ _ _ _ _ _ _ _ _ _ ?_
    funext a b l
    rw [two_full _ _ _ _ _ _ _ _ _ _ _ _ hu, two_full _ _ _ _ _ _ _ _ _ _ _ _ hu]
    congr 1
    have own : ∀ (y : Nat), ∑ k' ∈ range ((netOut G s).X * (netOut G s).Y * (netOut G s).Z), w.update y k 0 z y k' 0 * flatOf (netOut G s).X (netOut G s).Y (netEval G s x) k' =
        ∑ k' ∈ range ((netOut G s).X * (netOut G s).Y * (netOut G s).Z), (if k' = k then z else w y k' 0) * flatOf (netOut G s).X (netOut G s).Y (netEval G s x) k' := by
      intro y
      refine sum_congr rfl fun k' _ => ?_
      simp [Tensor.update]
    have other : ∀ (y y' : Nat), y' ≠ y → ∀ k', w.update y k 0 z y' k' 0 = w y' k' 0 := by
      intro y y' h k'
      simp [Tensor.update, h]
    refine sum_swapped hi hj ?_ ?_ ?_
    · simp only [own, t1, t2, t3, hS, hc]
    · simp only [other i j (Ne.symm hij), other j i hij, t1, t2, t3, hS, hc]
    · intro y h1 h2
      simp only [other i y h1, other j y h2]
  · rw [t2]
    congr 1
    funext z
    refine netLoss_tail _ _ _ _ _ _ _ _ _ _ _ _ _ _ _ _ _ _ _ _ ?_
    funext a b l
    rw [two_full _ _ _ _ _ _ _ _ _ _ _ _ hu, two_full _ _ _ _ _ _ _ _ _ _ _ _ hu]
    congr 1
    refine sum_swapped hi hj ?_ ?_ ?_
    · simp only [Function.update_self, t1, t3, hS, hc]
    · simp only [Function.update_of_ne hij, Function.update_of_ne (Ne.symm hij), t1, t2, t3, hS, hc]
    · intro y h1 h2
      simp only [Function.update_of_ne h1, Function.update_of_ne h2]
  · rw [t3 a]
    congr 1
    funext z
    refine netLoss_tail _ _ _ _ _ _ _ _ _ _ _ _ _ _ _ _ _ _ _ _ ?_
    funext a' b l
    rw [two_full _ _ _ _ _ _ _ _ _ _ _ _ hu, two_full _ _ _ _ _ _ _ _ _ _ _ _ hu]
    congr 1
    refine sum_swapped hi hj ?_ ?_ ?_
    · by_cases ha : a' = a
      · subst ha; simp [Tensor.update, t1, t2, hS, hc]
      · simp [Tensor.update, ha, t1, t2, t3, hS, hc]
    · by_cases ha : a' = a
      · subst ha; simp [Tensor.update, hij, Ne.symm hij, t1, t2, t3, hS, hc]
      · simp [Tensor.update, ha, t1, t2, t3, hS, hc]
    · intro y h1 h2
      simp [Tensor.update, h1, h2]

theorem HasTwins.step {s : Shape} {n len m q i j : Nat} {f : ActFn} (hi : i < m) (hj : j < m) (rate : ℝ) {mem : List Remembered}
    (hm : ∀ r ∈ mem, HasTwins len m q i j f r.1) {ls : List NetLayer} (h : HasTwins len m q i j f ls) :
    HasTwins len m q i j f (memStep (fun ls x => netSurrogate ls s x) rate s n mem ls) := by
  obtain ⟨init, w, β, w₂, β₂, rest, rfl, rfl, t1, t2, t3⟩ := h
  unfold memStep
  rw [List.mapIdx_append, List.mapIdx_cons, List.mapIdx_cons, List.mapIdx_cons]
  refine ⟨_, _, _, _, _, _, rfl, by simp, fun k => ?_, ?_, fun a => ?_⟩
  · simp only [Nat.zero_add]
    rw [t1 k, List.map_congr_left fun r hr => ((hm r hr).partials hi hj).1 k]
  · simp only [Nat.zero_add]
    rw [t2, List.map_congr_left fun r hr => ((hm r hr).partials hi hj).2.1]
  · have e : 0 + 1 + 1 + init.length = init.length + 2 := by omega
    simp only [e]
    rw [t3 a, List.map_congr_left fun r hr => ((hm r hr).partials hi hj).2.2 a]

theorem staleLeads_twins {s : Shape} {n len m q i j : Nat} {f : ActFn} (hi : i < m) (hj : j < m) (rate : ℝ) (ds : List (List (Tensor × Nat))) :
    ∀ (mem : List Remembered) (ls out : List NetLayer), (∀ r ∈ mem, HasTwins len m q i j f r.1) → HasTwins len m q i j f ls →
      StaleLeads (fun ls x => netSurrogate ls s x) rate s n ds mem ls out → HasTwins len m q i j f out := by
  induction ds with
  | nil =>
    intro mem ls out _ hl h
    have h : out = ls := h
    subst h
    exact hl
  | cons d ds ih =>
    intro mem ls out hm hl h
    obtain ⟨mem', ⟨d', kept, hr, hs, _, hp⟩, h⟩ := h
    have hm' : ∀ r ∈ mem', HasTwins len m q i j f r.1 := by
      intro r h1
      rcases List.mem_append.1 (hp.subset h1) with h1 | h1
      · obtain ⟨e, he, rfl⟩ := List.mem_map.1 h1
        exact hl
      · exact hm r (hs.subset h1)
    exact ih mem' _ out hm' (hl.step hi hj rate hm') h

end Cnn
