import Verif.Lemmas.Balance
import Mathlib.Analysis.Calculus.Deriv.Shift
/-! Adding the same to the last layer's parameters for all labels changes neither the probabilities nor the training (C104). -/
namespace Cnn
open Finset

theorem softmax_add_const (n : Nat) (v : Nat → ℝ) (r : ℝ) (i : Nat) : softmax n (fun j => v j + r) i = softmax n v i := by
  unfold softmax
  simp only [Real.exp_add, ← sum_mul]
  rw [mul_div_mul_right _ _ (Real.exp_ne_zero r)]

section
variable (c : Nat → ℝ) (d : ℝ)

theorem shiftNet_last (init : List NetLayer) (n : Nat) (w : Tensor) (β : Nat → ℝ) :
    shiftNet c d (init ++ [.full n w β]) = init ++ [.full n (fun i k l => w i k l + c k) (fun i => β i + d)] := by
  simp [shiftNet]

theorem netProb_shift (init : List NetLayer) (n : Nat) (w : Tensor) (β : Nat → ℝ) (s : Shape) (x : Tensor) (t : Nat) :
    netProb (init ++ [.full n (fun i k l => w i k l + c k) (fun i => β i + d)]) s n x t = netProb (init ++ [.full n w β]) s n x t := by
  rw [netProb_last, netProb_last, ← softmax_add_const n (flatOf n 1 ((NetLayer.full n w β).eval (netOut init s) (netEval init s x))) (d + ∑ k ∈ range (featureCount init s), c k * feature init s x k)]
  congr 1
  funext j
  show _ + d + ∑ k ∈ _, (_ + c k) * _ = _ + ∑ k ∈ _, _ * _ + _
  simp only [add_mul, sum_add_distrib]
  show _ = _ + ∑ k ∈ range (featureCount init s), _ * feature init s x k + _
  show _ + d + (∑ k ∈ range (featureCount init s), _ * feature init s x k + ∑ k ∈ range (featureCount init s), c k * feature init s x k) = _
  ring

theorem netLoss_shift (init : List NetLayer) (n : Nat) (w : Tensor) (β : Nat → ℝ) (s : Shape) (t : Nat) (x : Tensor) :
    netLoss (init ++ [.full n (fun i k l => w i k l + c k) (fun i => β i + d)]) s n t x = netLoss (init ++ [.full n w β]) s n t x := by
  unfold netLoss
  rw [netProb_shift]

/-- The partial derivatives are the same. -/
theorem partials_shift {s : Shape} {n : Nat} (init : List NetLayer) (w : Tensor) (β : Nat → ℝ) (e : Tensor × Nat) (i : Nat) :
    (∀ a b l, weightPartial s n (init ++ [.full n (fun i k l => w i k l + c k) (fun i => β i + d)], e) i a b l =
        weightPartial s n (init ++ [.full n w β], e) i a b l) ∧
      ∀ k, biasPartial s n (init ++ [.full n (fun i k l => w i k l + c k) (fun i => β i + d)], e) i k = biasPartial s n (init ++ [.full n w β], e) i k := by
  rcases lt_trichotomy i init.length with h | rfl | h
  · have h1 : ∀ q : NetLayer, (init ++ [q])[i]? = some init[i] := by
      intro q
      rw [List.getElem?_append_left h, List.getElem?_eq_getElem h]
    have h2 : ∀ q l : NetLayer, (init ++ [q]).set i l = init.set i l ++ [q] := by
      intro q l
      rw [List.set_append_left _ _ h]
    simp only [weightPartial, biasPartial, h1, h2]
    cases hp : init[i].params with
    | none => exact ⟨fun _ _ _ => rfl, fun _ => rfl⟩
    | some v => simp only [netLoss_shift, implies_true, and_self]
  · have h1 : ∀ q : NetLayer, (init ++ [q])[init.length]? = some q := by
      intro q
      simp
    have h2 : ∀ q l : NetLayer, (init ++ [q]).set init.length l = init ++ [l] := by
      intro q l
      rw [List.set_append_right _ _ le_rfl]
      simp
    simp only [weightPartial, biasPartial, h1, h2, NetLayer.params, NetLayer.withParams]
    constructor
    · intro a b l
      have hu : ∀ v, Tensor.update (fun i k l => w i k l + c k) a b l v = fun i k m => w.update a b l (v - c b) i k m + c k := by
        intro v
        funext i k m
        unfold Tensor.update
        split
        · rename_i h; rw [h.2.1]; ring
        · rfl
      simp only [hu, netLoss_shift]
      refine (deriv_comp_sub_const (f := fun v => netLoss (init ++ [NetLayer.full n (w.update a b l v) β]) s n e.2 e.1) (c b) (w a b l + c b)).trans ?_
      rw [add_sub_cancel_right]
    · intro k
      have hu : ∀ v, Function.update (fun i => β i + d) k v = fun i => Function.update β k (v - d) i + d := by
        intro v
        funext i
        by_cases h : i = k
        · subst h; simp
        · simp [h]
      simp only [hu, netLoss_shift]
      refine (deriv_comp_sub_const (f := fun v => netLoss (init ++ [NetLayer.full n w (Function.update β k v)]) s n e.2 e.1) d (β k + d)).trans ?_
      rw [add_sub_cancel_right]
  · have h1 : ∀ q : NetLayer, (init ++ [q])[i]? = none := by
      intro q
      rw [List.getElem?_eq_none]
      simp; omega
    simp only [weightPartial, biasPartial, h1, implies_true, and_self]

/-- What is remembered by the other training. -/
noncomputable def shiftMem (m : Remembered) : Remembered := (shiftNet c d m.1, m.2)

theorem LastFull.shift {s : Shape} {n len K : Nat} {m : Remembered} (h : LastFull s n len K m) (i : Nat) :
    (∀ a b l, weightPartial s n (netSurrogate (shiftMem c d m).1 s (shiftMem c d m).2.1, (shiftMem c d m).2) i a b l =
        weightPartial s n (netSurrogate m.1 s m.2.1, m.2) i a b l) ∧
      ∀ k, biasPartial s n (netSurrogate (shiftMem c d m).1 s (shiftMem c d m).2.1, (shiftMem c d m).2) i k =
        biasPartial s n (netSurrogate m.1 s m.2.1, m.2) i k := by
  obtain ⟨ls, x, t⟩ := m
  obtain ⟨_, init, w, β, rfl, _⟩ := h
  unfold shiftMem
  simp only [shiftNet_last, netSurrogate_append]
  exact partials_shift c d (netSurrogate init s x) w β (x, t) i

theorem memStep_shift {s : Shape} {n : Nat} (rate : ℝ) {mem : List Remembered} (init : List NetLayer) (w : Tensor) (β : Nat → ℝ)
    {len K : Nat} (hm : ∀ m ∈ mem, LastFull s n len K m) :
    memStep (fun ls x => netSurrogate ls s x) rate s n (mem.map (shiftMem c d)) (shiftNet c d (init ++ [.full n w β])) =
      shiftNet c d (memStep (fun ls x => netSurrogate ls s x) rate s n mem (init ++ [.full n w β])) := by
  have hw : ∀ i a b l, ((mem.map (shiftMem c d)).map fun m => weightPartial s n (netSurrogate m.1 s m.2.1, m.2) i a b l) =
      mem.map fun m => weightPartial s n (netSurrogate m.1 s m.2.1, m.2) i a b l := by
    intro i a b l
    rw [List.map_map]
    exact List.map_congr_left fun m h => ((hm m h).shift c d i).1 a b l
  have hb : ∀ i k, ((mem.map (shiftMem c d)).map fun m => biasPartial s n (netSurrogate m.1 s m.2.1, m.2) i k) =
      mem.map fun m => biasPartial s n (netSurrogate m.1 s m.2.1, m.2) i k := by
    intro i k
    rw [List.map_map]
    exact List.map_congr_left fun m h => ((hm m h).shift c d i).2 k
  unfold memStep
  simp only [hw, hb, List.length_map, shiftNet_last, List.mapIdx_append, List.mapIdx_cons, List.mapIdx_nil, NetLayer.params, NetLayer.withParams]
  congr 3
  · funext a b l; ring
  · funext k; ring

/-- Training over any batches. -/
theorem staleDescents_shift {s : Shape} {n : Nat} (rate : ℝ) (ds : List (List (Tensor × Nat))) (hd : ∀ d ∈ ds, ∀ e ∈ d, e.2 < n) :
    ∀ (mem : List Remembered) (init : List NetLayer) (w : Tensor) (β : Nat → ℝ),
      (∀ m ∈ mem, LastFull s n init.length (featureCount init s) m) →
      staleDescents (fun ls x => netSurrogate ls s x) rate s n ds (mem.map (shiftMem c d)) (shiftNet c d (init ++ [.full n w β])) =
        shiftNet c d (staleDescents (fun ls x => netSurrogate ls s x) rate s n ds mem (init ++ [.full n w β])) ∧
      ∃ init' w' β', staleDescents (fun ls x => netSurrogate ls s x) rate s n ds mem (init ++ [.full n w β]) = init' ++ [.full n w' β'] := by
  induction ds with
  | nil => exact fun mem init w β _ => ⟨rfl, init, w, β, rfl⟩
  | cons f ds ih =>
    intro mem init w β hm
    have hr : refill (shiftNet c d (init ++ [.full n w β])) f (mem.map (shiftMem c d)) = (refill (init ++ [.full n w β]) f mem).map (shiftMem c d) := by
      simp [refill, shiftMem, Function.comp_def]
    have hm' : ∀ m ∈ refill (init ++ [.full n w β]) f mem, LastFull s n init.length (featureCount init s) m := by
      intro m h1
      rcases List.mem_append.1 h1 with h1 | h1
      · obtain ⟨e, he, rfl⟩ := List.mem_map.1 h1
        exact ⟨hd f (by simp) e he, init, w, β, rfl, rfl, rfl⟩
      · exact hm m (List.mem_of_mem_drop h1)
    obtain ⟨init1, w1, β1, e1, s1, _⟩ := memStep_sums rate init w β hm'
    have hlen : init1.length = init.length := s1.length_eq.symm
    have hfc : featureCount init1 s = featureCount init s := by unfold featureCount; rw [netOut_sameNet s1]
    have := ih (fun d hd' => hd d (List.mem_cons_of_mem _ hd')) (refill (init ++ [.full n w β]) f mem) init1 w1 β1 (by rw [hlen, hfc]; exact hm')
    simp only [staleDescents, hr, memStep_shift c d rate init w β hm', e1]
    exact this

end
end Cnn
