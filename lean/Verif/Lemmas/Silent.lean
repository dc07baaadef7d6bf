import Verif.Lemmas.Balance
import Verif.Spec.Silent
/-! Back-propagation gives no gradient to a RELU unit that is off (C105). -/
namespace Cnn
open Finset

theorem netEval_append (a b : List NetLayer) (s : Shape) (x : Tensor) : netEval (a ++ b) s x = netEval b (netOut a s) (netEval a s x) := by
  induction a generalizing s x with
  | nil => rfl
  | cons l a ih => simp only [List.cons_append, netEval, netOut, ih]

theorem netOut_append (a b : List NetLayer) (s : Shape) : netOut (a ++ b) s = netOut b (netOut a s) := by
  induction a generalizing s with
  | nil => rfl
  | cons l a ih => simp only [List.cons_append, netOut, ih]

/-- What is remembered: networks that agree with a given one before the layer and in the row of the unit, and inputs for which
the unit is off. -/
def Rests (init : List NetLayer) (m : Nat) (w : Tensor) (β : Nat → ℝ) (i : Nat) (data : Tensor → Prop) (r : Remembered) : Prop :=
  data r.2.1 ∧ ∃ w' β' rest, r.1 = init ++ .full m w' β' :: .act .relu :: rest ∧ (∀ k l, w' i k l = w i k l) ∧ β' i = β i

theorem Rests.partials {s : Shape} {n m i : Nat} {init : List NetLayer} {w : Tensor} {β : Nat → ℝ} {data : Tensor → Prop} (hfit : NetFits init s)
    (hoff : Silent init s w β i data) {r : Remembered} (h : Rests init m w β i data r) :
    (∀ k l, weightPartial s n (netSurrogate r.1 s r.2.1, r.2) init.length i k l = 0) ∧ biasPartial s n (netSurrogate r.1 s r.2.1, r.2) init.length i = 0 := by
  obtain ⟨ls, x, t⟩ := r
  obtain ⟨hx, w', β', rest, rfl, hw, hb⟩ := h
  have hx := hoff x hx
  simp only
  obtain ⟨v1, v2, _⟩ := C83_value init s x n t hfit
  generalize hG : netSurrogate init s x = G at *
  have hlen : G.length = init.length := by rw [← hG, netSurrogate_length]
  -- the unit is replaced by a constant
  obtain ⟨X, Y, u, v, M, c, rest', e, hu, hM⟩ : ∃ X Y u v M c rest', netSurrogate (init ++ .full m w' β' :: .act .relu :: rest) s x =
      G ++ .full m w' β' :: .gate X Y u v M c :: rest' ∧ (∀ a b k, u a b k = a) ∧ ∀ b k, M i b k = 0 := by
    rw [netSurrogate_append, hG]
    refine ⟨_, _, _, _, _, _, _, rfl, fun _ _ _ => rfl, ?_⟩
    intro b k
    have : actSpec .relu ((NetLayer.full m w' β').eval (netOut init s) (netEval init s x) i b k) ≤ 0 := by
      show max _ 0 ≤ 0
      refine max_le ?_ le_rfl
      show β' i + ∑ k ∈ range (featureCount init s), w' i k 0 * feature init s x k ≤ 0
      simp only [hw, hb]
      exact hx
    show (if 0 < _ then (1 : ℝ) else 0) = 0
    rw [if_neg (not_lt.2 this)]
  rw [e]
  have hget : (G ++ NetLayer.full m w' β' :: .gate X Y u v M c :: rest')[init.length]? = some (.full m w' β') := by
    rw [List.getElem?_append_right (by rw [hlen]), hlen]
    simp
  have hset : ∀ l, (G ++ NetLayer.full m w' β' :: .gate X Y u v M c :: rest').set init.length l = G ++ l :: .gate X Y u v M c :: rest' := by
    intro l
    rw [List.set_append_right _ _ (by rw [hlen]), hlen]
    simp
  have key : ∀ w₂ β₂, (∀ a, a ≠ i → (∀ k l, w₂ a k l = w' a k l) ∧ β₂ a = β' a) →
      netLoss (G ++ .full m w₂ β₂ :: .gate X Y u v M c :: rest') s n t x = netLoss (G ++ .full m w' β' :: .gate X Y u v M c :: rest') s n t x := by
    intro w₂ β₂ h
    have hev : (NetLayer.gate X Y u v M c).eval ⟨m, 1, 1⟩ ((NetLayer.full m w₂ β₂).eval (netOut G s) (netEval G s x)) =
        (NetLayer.gate X Y u v M c).eval ⟨m, 1, 1⟩ ((NetLayer.full m w' β').eval (netOut G s) (netEval G s x)) := by
      funext a b k
      simp only [NetLayer.eval, hu]
      by_cases ha : a = i
      · subst ha; simp [hM]
      · simp only [(h a ha).1, (h a ha).2]
    unfold netLoss netProb
    simp only [netEval_append, netOut_append, netEval, netOut]
    simp only [NetLayer.out] at hev ⊢
    rw [hev]
  simp only [weightPartial, biasPartial, hget, NetLayer.params, NetLayer.withParams, hset]
  constructor
  · intro k l
    have : (fun z => netLoss (G ++ .full m (w'.update i k l z) β' :: .gate X Y u v M c :: rest') s n t x) =
        fun _ => netLoss (G ++ .full m w' β' :: .gate X Y u v M c :: rest') s n t x := by
      funext z
      refine key _ _ fun a ha => ⟨fun k' l' => ?_, rfl⟩
      unfold Tensor.update
      rw [if_neg (fun h => ha h.1)]
    rw [this, deriv_const]
  · have : (fun z => netLoss (G ++ .full m w' (Function.update β' i z) :: .gate X Y u v M c :: rest') s n t x) =
        fun _ => netLoss (G ++ .full m w' β' :: .gate X Y u v M c :: rest') s n t x := by
      funext z
      exact key _ _ fun a ha => ⟨fun k' l' => rfl, Function.update_of_ne ha _ _⟩
    rw [this, deriv_const]

theorem sum_map_zero {γ : Type} {l : List γ} {f : γ → ℝ} (h : ∀ m ∈ l, f m = 0) : (l.map f).sum = 0 := by
  rw [List.map_congr_left h]
  simp

theorem memStep_noParams {init : List NetLayer} (hno : NoParams init) (rep : Rep) (rate : ℝ) (s : Shape) (n : Nat) (mem : List Remembered) :
    memStep rep rate s n mem init = init := by
  unfold memStep
  refine List.ext_getElem? fun i => ?_
  rw [List.getElem?_mapIdx]
  cases h : init[i]? with
  | none => rfl
  | some l => simp [hno l (List.mem_of_getElem? h)]

theorem memStep_rests {s : Shape} {n m i : Nat} {init : List NetLayer} (hno : NoParams init) (hfit : NetFits init s) {w : Tensor} {β : Nat → ℝ}
    {data : Tensor → Prop} (hoff : Silent init s w β i data) (rate : ℝ) {mem : List Remembered} (hm : ∀ r ∈ mem, Rests init m w β i data r)
    {w' : Tensor} {β' : Nat → ℝ} (hw : ∀ k l, w' i k l = w i k l) (hb : β' i = β i) (rest : List NetLayer) :
    ∃ w₂ β₂ rest₂, memStep (fun ls x => netSurrogate ls s x) rate s n mem (init ++ .full m w' β' :: .act .relu :: rest) =
      init ++ .full m w₂ β₂ :: .act .relu :: rest₂ ∧ (∀ k l, w₂ i k l = w i k l) ∧ β₂ i = β i := by
  have e := memStep_noParams hno (fun ls x => netSurrogate ls s x) rate s n mem
  unfold memStep at e ⊢
  rw [List.mapIdx_append, e, List.mapIdx_cons, List.mapIdx_cons]
  refine ⟨_, _, _, rfl, ?_, ?_⟩
  · intro k l
    simp only [Nat.zero_add]
    rw [sum_map_zero fun r hr => ((hm r hr).partials hfit hoff).1 k l, hw]
    simp
  · simp only [Nat.zero_add]
    rw [sum_map_zero fun r hr => ((hm r hr).partials hfit hoff).2, hb]
    simp

theorem staleLeads_rests {s : Shape} {n m i : Nat} {init : List NetLayer} (hno : NoParams init) (hfit : NetFits init s) {w : Tensor} {β : Nat → ℝ}
    {data : Tensor → Prop} (hoff : Silent init s w β i data) (rate : ℝ) (ds : List (List (Tensor × Nat))) (hd : ∀ d ∈ ds, ∀ e ∈ d, data e.1) :
    ∀ (mem : List Remembered) (w' : Tensor) (β' : Nat → ℝ) (rest out : List NetLayer), (∀ r ∈ mem, Rests init m w β i data r) →
      (∀ k l, w' i k l = w i k l) → β' i = β i →
      StaleLeads (fun ls x => netSurrogate ls s x) rate s n ds mem (init ++ .full m w' β' :: .act .relu :: rest) out →
      ∃ w₂ β₂ rest₂, out = init ++ .full m w₂ β₂ :: .act .relu :: rest₂ ∧ (∀ k l, w₂ i k l = w i k l) ∧ β₂ i = β i := by
  induction ds with
  | nil =>
    intro mem w' β' rest out _ hw hb h
    exact ⟨w', β', rest, h, hw, hb⟩
  | cons d ds ih =>
    intro mem w' β' rest out hm hw hb h
    obtain ⟨mem', ⟨d', kept, hr, hs, _, hp⟩, h⟩ := h
    have hm' : ∀ r ∈ mem', Rests init m w β i data r := by
      intro r h1
      rcases List.mem_append.1 (hp.subset h1) with h1 | h1
      · obtain ⟨e, he, rfl⟩ := List.mem_map.1 h1
        refine ⟨?_, w', β', rest, rfl, hw, hb⟩
        have : e.1 ∈ d.map Prod.fst := by rw [← hr.1]; exact List.mem_map_of_mem he
        obtain ⟨f, hf, hfe⟩ := List.mem_map.1 this
        show data e.1
        rw [← hfe]
        exact hd d (by simp) f hf
      · exact hm r (hs.subset h1)
    obtain ⟨w₂, β₂, rest₂, e1, k1, k2⟩ := memStep_rests hno hfit hoff rate hm' hw hb rest (n := n) (m := m)
    rw [e1] at h
    exact ih (fun d hd' => hd d (List.mem_cons_of_mem _ hd')) mem' w₂ β₂ rest₂ out hm' k1 k2 h

end Cnn
