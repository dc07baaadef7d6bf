import Verif.Lemmas.Silent
import Verif.Spec.Span
/-! The gradient of a weight is that of the bias times what enters the layer (C107). -/
namespace Cnn
open Finset

/-- A weight and the bias of a unit have the same effect, up to the number the weight is multiplied with. -/
theorem netLoss_weight (G : List NetLayer) (m : Nat) (w : Tensor) (β : Nat → ℝ) (rest : List NetLayer) (s : Shape) (n t : Nat) (x : Tensor) (i k : Nat)
    (hk : k < featureCount G s) (z : ℝ) :
    netLoss (G ++ .full m (w.update i k 0 z) β :: rest) s n t x =
      netLoss (G ++ .full m w (Function.update β i (feature G s x k * z + (β i - feature G s x k * w i k 0))) :: rest) s n t x := by
  have e : (NetLayer.full m (w.update i k 0 z) β).eval (netOut G s) (netEval G s x) =
      (NetLayer.full m w (Function.update β i (feature G s x k * z + (β i - feature G s x k * w i k 0)))).eval (netOut G s) (netEval G s x) := by
    funext a b l
    show β a + ∑ k' ∈ range (featureCount G s), w.update i k 0 z a k' 0 * feature G s x k' =
      Function.update β i _ a + ∑ k' ∈ range (featureCount G s), w a k' 0 * feature G s x k'
    by_cases ha : a = i
    · subst ha
      rw [Function.update_self]
      have : ∀ k' ∈ range (featureCount G s), w.update a k 0 z a k' 0 * feature G s x k' =
          w a k' 0 * feature G s x k' + if k' = k then (z - w a k 0) * feature G s x k else 0 := by
        intro k' _
        by_cases h : k' = k
        · subst h; simp [Tensor.update]; ring
        · simp [Tensor.update, h]
      rw [sum_congr rfl this, sum_add_distrib, sum_ite_eq' (range (featureCount G s)) k, if_pos (mem_range.2 hk)]
      ring
    · rw [Function.update_of_ne ha]
      simp [Tensor.update, ha]
  unfold netLoss netProb
  simp only [netEval_append, netOut_append, netEval, netOut]
  simp only [NetLayer.out] at e ⊢
  rw [e]

theorem weight_of_bias {s : Shape} {n m : Nat} {init : List NetLayer} (hfit : NetFits init s) (w : Tensor) (β : Nat → ℝ) (rest : List NetLayer)
    (x : Tensor) (t i k : Nat) (hk : k < featureCount init s) :
    weightPartial s n (netSurrogate (init ++ .full m w β :: rest) s x, x, t) init.length i k 0 =
      feature init s x k * biasPartial s n (netSurrogate (init ++ .full m w β :: rest) s x, x, t) init.length i := by
  obtain ⟨v1, v2, _⟩ := C83_value init s x n t hfit
  rw [netSurrogate_append]
  simp only [netSurrogate, NetLayer.surrogate]
  generalize netSurrogate rest _ _ = rest'
  have hlen : (netSurrogate init s x).length = init.length := netSurrogate_length _ _ _
  have hf : featureCount (netSurrogate init s x) s = featureCount init s ∧ feature (netSurrogate init s x) s x = feature init s x := by
    unfold featureCount feature
    rw [v1, v2]
    exact ⟨rfl, rfl⟩
  generalize netSurrogate init s x = G at *
  have hget : (G ++ NetLayer.full m w β :: rest')[init.length]? = some (.full m w β) := by
    rw [List.getElem?_append_right (by rw [hlen]), hlen]
    simp
  have hset : ∀ l, (G ++ NetLayer.full m w β :: rest').set init.length l = G ++ l :: rest' := by
    intro l
    rw [List.set_append_right _ _ (by rw [hlen]), hlen]
    simp
  simp only [weightPartial, biasPartial, hget, NetLayer.params, NetLayer.withParams, hset]
  have e := netLoss_weight G m w β rest' s n t x i k (by rw [hf.1]; exact hk)
  rw [hf.2] at e
  simp only [e]
  generalize feature init s x k = φ
  have h1 := deriv_comp_mul_left φ (fun y => netLoss (G ++ .full m w (Function.update β i (y + (β i - φ * w i k 0))) :: rest') s n t x) (w i k 0)
  have h2 := deriv_comp_add_const (fun y => netLoss (G ++ .full m w (Function.update β i y) :: rest') s n t x) (β i - φ * w i k 0) (φ * w i k 0)
  rw [h1, h2, smul_eq_mul]
  congr 2
  ring

theorem sum_span {γ K : Type} {S : Submodule ℝ (K → ℝ)} (l : List γ) (f : γ → K → ℝ) (h : ∀ r ∈ l, f r ∈ S) : (fun k => (l.map fun r => f r k).sum) ∈ S := by
  induction l with
  | nil => exact S.zero_mem
  | cons r l ih =>
    simp only [List.map_cons, List.sum_cons]
    exact S.add_mem (h r (by simp)) (ih fun r hr => h r (List.mem_cons_of_mem _ hr))

/-- What is remembered: networks with the same layers before the layer, and inputs of the data. -/
def Stands (init : List NetLayer) (m : Nat) (data : Tensor → Prop) (r : Remembered) : Prop :=
  data r.2.1 ∧ ∃ w' β' rest, r.1 = init ++ .full m w' β' :: rest

theorem memStep_span {s : Shape} {n m : Nat} {init : List NetLayer} (hno : NoParams init) (hfit : NetFits init s)
    {data : Tensor → Prop} (rate : ℝ) {mem : List Remembered} (hm : ∀ r ∈ mem, Stands init m data r) (w : Tensor) (β : Nat → ℝ) (rest : List NetLayer) :
    ∃ w₂ β₂ rest₂, memStep (fun ls x => netSurrogate ls s x) rate s n mem (init ++ .full m w β :: rest) = init ++ .full m w₂ β₂ :: rest₂ ∧
      MovesWithin init s w w₂ data := by
  have e := memStep_noParams hno (fun ls x => netSurrogate ls s x) rate s n mem
  unfold memStep at e ⊢
  rw [List.mapIdx_append, e, List.mapIdx_cons]
  refine ⟨_, _, _, rfl, fun i => ?_⟩
  simp only [Nat.zero_add]
  have h := sum_span (S := Submodule.span ℝ {v | ∃ x, data x ∧ v = featureVector init s x}) mem
    (fun r (k : Fin (featureCount init s)) => weightPartial s n (netSurrogate r.1 s r.2.1, r.2) init.length i k 0) (fun r hr => by
      obtain ⟨hx, w', β', rest', e'⟩ := hm r hr
      obtain ⟨ls, x, t⟩ := r
      have e' : ls = _ := e'
      subst e'
      have : (fun k : Fin (featureCount init s) => weightPartial s n (netSurrogate (init ++ .full m w' β' :: rest') s x, x, t) init.length i k 0) =
          biasPartial s n (netSurrogate (init ++ .full m w' β' :: rest') s x, x, t) init.length i • featureVector init s x := by
        funext k
        rw [weight_of_bias hfit _ _ _ _ _ _ _ k.2]
        simp [featureVector, mul_comm]
      show (fun k : Fin (featureCount init s) => weightPartial s n (netSurrogate (init ++ .full m w' β' :: rest') s x, x, t) init.length i k 0) ∈ _
      rw [this]
      exact Submodule.smul_mem _ _ (Submodule.subset_span ⟨x, hx, rfl⟩))
  convert Submodule.smul_mem _ (-(rate / mem.length)) h using 1
  funext k
  simp only [Pi.smul_apply, smul_eq_mul]
  ring

theorem MovesWithin.trans {init : List NetLayer} {s : Shape} {w w' w₂ : Tensor} {data : Tensor → Prop} (h : MovesWithin init s w w' data)
    (h' : MovesWithin init s w' w₂ data) : MovesWithin init s w w₂ data := by
  intro i
  convert Submodule.add_mem _ (h i) (h' i) using 1
  funext k
  simp only [Pi.add_apply]
  ring

theorem staleLeads_span {s : Shape} {n m : Nat} {init : List NetLayer} (hno : NoParams init) (hfit : NetFits init s)
    {data : Tensor → Prop} (rate : ℝ) (ds : List (List (Tensor × Nat))) (hd : ∀ d ∈ ds, ∀ e ∈ d, data e.1) :
    ∀ (mem : List Remembered) (w : Tensor) (β : Nat → ℝ) (rest out : List NetLayer), (∀ r ∈ mem, Stands init m data r) →
      StaleLeads (fun ls x => netSurrogate ls s x) rate s n ds mem (init ++ .full m w β :: rest) out →
      ∃ w₂ β₂ rest₂, out = init ++ .full m w₂ β₂ :: rest₂ ∧ MovesWithin init s w w₂ data := by
  induction ds with
  | nil =>
    intro mem w β rest out _ h
    refine ⟨w, β, rest, h, fun i => ?_⟩
    simp only [sub_self]
    exact Submodule.zero_mem _
  | cons d ds ih =>
    intro mem w β rest out hm h
    obtain ⟨mem', ⟨d', kept, hr, hs, _, hp⟩, h⟩ := h
    have hm' : ∀ r ∈ mem', Stands init m data r := by
      intro r h1
      rcases List.mem_append.1 (hp.subset h1) with h1 | h1
      · obtain ⟨e, he, rfl⟩ := List.mem_map.1 h1
        refine ⟨?_, w, β, rest, rfl⟩
        have : e.1 ∈ d.map Prod.fst := by rw [← hr.1]; exact List.mem_map_of_mem he
        obtain ⟨f, hf, hfe⟩ := List.mem_map.1 this
        show data e.1
        rw [← hfe]
        exact hd d (by simp) f hf
      · exact hm r (hs.subset h1)
    obtain ⟨w₂, β₂, rest₂, e1, k1⟩ := memStep_span hno hfit rate hm' w β rest (n := n) (m := m)
    rw [e1] at h
    obtain ⟨w₃, β₃, rest₃, e2, k2⟩ := ih (fun d hd' => hd d (List.mem_cons_of_mem _ hd')) mem' w₂ β₂ rest₂ out hm' h
    exact ⟨w₃, β₃, rest₃, e2, k1.trans k2⟩

/-- What is constant on the inputs is constant during training. -/
theorem MovesWithin.constant {init : List NetLayer} {s : Shape} {w w' : Tensor} {data : Tensor → Prop} (h : MovesWithin init s w w' data) (c : Nat → ℝ)
    (hc : ∀ x, data x → ∑ k ∈ range (featureCount init s), c k * feature init s x k = 0) (i : Nat) :
    ∑ k ∈ range (featureCount init s), c k * w' i k 0 = ∑ k ∈ range (featureCount init s), c k * w i k 0 := by
  have key : ∀ v ∈ Submodule.span ℝ {v | ∃ x, data x ∧ v = featureVector init s x}, ∑ k : Fin (featureCount init s), c k * v k = 0 := by
    intro v hv
    induction hv using Submodule.span_induction with
    | mem v hv =>
      obtain ⟨x, hx, rfl⟩ := hv
      rw [← hc x hx, ← Fin.sum_univ_eq_sum_range (fun k => c k * feature init s x k)]
      rfl
    | zero => simp
    | add a b _ _ ha hb => simp only [Pi.add_apply, mul_add, sum_add_distrib, ha, hb, add_zero]
    | smul r a _ ha =>
      have : ∀ k : Fin (featureCount init s), c k * (r • a) k = r * (c k * a k) := fun k => by simp only [Pi.smul_apply, smul_eq_mul]; ring
      simp only [this, ← mul_sum, ha, mul_zero]
  have := key _ (h i)
  simp only [mul_sub, sum_sub_distrib] at this
  rw [← Fin.sum_univ_eq_sum_range (fun k => c k * w' i k 0), ← Fin.sum_univ_eq_sum_range (fun k => c k * w i k 0)]
  linarith

/-! ### The weights behind a unit that is off -/

/-- What is remembered: as for C105, with a fully connected layer behind the activation. -/
def RestsBoth (init : List NetLayer) (m q : Nat) (w : Tensor) (β : Nat → ℝ) (i : Nat) (data : Tensor → Prop) (r : Remembered) : Prop :=
  data r.2.1 ∧ ∃ w' β' w₂ β₂ rest, r.1 = init ++ .full m w' β' :: .act .relu :: .full q w₂ β₂ :: rest ∧ (∀ k l, w' i k l = w i k l) ∧ β' i = β i

theorem netFits_unit {init : List NetLayer} {s : Shape} (m : Nat) (w : Tensor) (β : Nat → ℝ) (h : NetFits init s) :
    NetFits (init ++ [.full m w β, .act .relu]) s := by
  induction init generalizing s with
  | nil => exact ⟨trivial, trivial, trivial⟩
  | cons l init ih => exact ⟨h.1, ih h.2⟩

theorem RestsBoth.partials {s : Shape} {n m q i : Nat} {init : List NetLayer} {w : Tensor} {β : Nat → ℝ} {data : Tensor → Prop} (hfit : NetFits init s)
    (hi : i < m) (hoff : Silent init s w β i data) {r : Remembered} (h : RestsBoth init m q w β i data r) (a : Nat) :
    weightPartial s n (netSurrogate r.1 s r.2.1, r.2) (init.length + 2) a i 0 = 0 := by
  obtain ⟨ls, x, t⟩ := r
  obtain ⟨hx, w', β', w₂, β₂, rest, e, hw, hb⟩ := h
  have e : ls = (init ++ [.full m w' β', .act .relu]) ++ .full q w₂ β₂ :: rest := by simpa using e
  subst e
  have hfit' := netFits_unit m w' β' hfit
  have hout : netOut (init ++ [.full m w' β', .act .relu]) s = ⟨m, 1, 1⟩ := by rw [netOut_append]; rfl
  have hcount : i < featureCount (init ++ [.full m w' β', .act .relu]) s := by
    simp only [featureCount, hout]
    omega
  have hlen : init.length + 2 = (init ++ [NetLayer.full m w' β', .act .relu]).length := by simp
  have hzero : feature (init ++ [.full m w' β', .act .relu]) s x i = 0 := by
    simp only [feature, hout, netEval_append, netEval, flatOf, Nat.mod_eq_of_lt hi]
    show max (β' i + ∑ k ∈ range (featureCount init s), w' i k 0 * feature init s x k) 0 = 0
    simp only [hw, hb]
    exact max_eq_right (hoff x hx)
  rw [hlen]
  show weightPartial s n (netSurrogate ((init ++ [.full m w' β', .act .relu]) ++ .full q w₂ β₂ :: rest) s x, x, t) _ a i 0 = 0
  rw [weight_of_bias hfit' _ _ _ _ _ _ _ hcount, hzero, zero_mul]

theorem staleLeads_outgoing {s : Shape} {n m q i : Nat} {init : List NetLayer} (hno : NoParams init) {w : Tensor} {β : Nat → ℝ} {w₀ : Tensor}
    {data : Tensor → Prop} (hfit : NetFits init s) (hi : i < m) (hoff : Silent init s w β i data) (rate : ℝ) (ds : List (List (Tensor × Nat)))
    (hd : ∀ d ∈ ds, ∀ e ∈ d, data e.1) :
    ∀ (mem : List Remembered) (w' : Tensor) (β' : Nat → ℝ) (w₂ : Tensor) (β₂ : Nat → ℝ) (rest out : List NetLayer), (∀ r ∈ mem, RestsBoth init m q w β i data r) →
      (∀ k l, w' i k l = w i k l) → β' i = β i → (∀ a, w₂ a i 0 = w₀ a i 0) →
      StaleLeads (fun ls x => netSurrogate ls s x) rate s n ds mem (init ++ .full m w' β' :: .act .relu :: .full q w₂ β₂ :: rest) out →
      ∃ w₃ β₃ w₄ β₄ rest₂, out = init ++ .full m w₃ β₃ :: .act .relu :: .full q w₄ β₄ :: rest₂ ∧ (∀ k l, w₃ i k l = w i k l) ∧ β₃ i = β i ∧
        ∀ a, w₄ a i 0 = w₀ a i 0 := by
  induction ds with
  | nil =>
    intro mem w' β' w₂ β₂ rest out _ hw hb ho h
    exact ⟨w', β', w₂, β₂, rest, h, hw, hb, ho⟩
  | cons d ds ih =>
    intro mem w' β' w₂ β₂ rest out hm hw hb ho h
    obtain ⟨mem', ⟨d', kept, hr, hs, _, hp⟩, h⟩ := h
    have hm' : ∀ r ∈ mem', RestsBoth init m q w β i data r := by
      intro r h1
      rcases List.mem_append.1 (hp.subset h1) with h1 | h1
      · obtain ⟨e, he, rfl⟩ := List.mem_map.1 h1
        refine ⟨?_, w', β', w₂, β₂, rest, rfl, hw, hb⟩
        have : e.1 ∈ d.map Prod.fst := by rw [← hr.1]; exact List.mem_map_of_mem he
        obtain ⟨f, hf, hfe⟩ := List.mem_map.1 this
        show data e.1
        rw [← hfe]
        exact hd d (by simp) f hf
      · exact hm r (hs.subset h1)
    have hrest : ∀ r ∈ mem', Rests init m w β i data r := by
      intro r hr
      obtain ⟨h1, w', β', w₂, β₂, rest, h2, h3⟩ := hm' r hr
      exact ⟨h1, w', β', _, h2, h3⟩
    have e := memStep_noParams hno (fun ls x => netSurrogate ls s x) rate s n mem'
    unfold memStep at e h
    rw [List.mapIdx_append, e, List.mapIdx_cons, List.mapIdx_cons, List.mapIdx_cons] at h
    refine ih (fun d hd' => hd d (List.mem_cons_of_mem _ hd')) mem' _ _ _ _ _ out hm' ?_ ?_ ?_ h
    · intro k l
      simp only [Nat.zero_add]
      rw [sum_map_zero fun r hr => ((hrest r hr).partials hfit hoff).1 k l, hw]
      simp
    · simp only [Nat.zero_add]
      rw [sum_map_zero fun r hr => ((hrest r hr).partials hfit hoff).2, hb]
      simp
    · intro a
      have e : 0 + 1 + 1 + init.length = init.length + 2 := by omega
      simp only [e]
      rw [sum_map_zero fun r hr => (hm' r hr).partials hfit hi hoff a, ho]
      simp

end Cnn
