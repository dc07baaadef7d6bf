import Verif.Lemmas.Mixed
import Verif.Lemmas.Learns
import Verif.Lemmas.StaleTrain
/-! Training with one label for all samples of a batch (C92). -/
namespace Cnn
open Finset Model _root_.Cnn.Convex

theorem memStep_perm (rep : Rep) (rate : ℝ) (s : Shape) (n : Nat) {mem mem' : List Remembered} (h : mem.Perm mem') (ls : List NetLayer) :
    memStep rep rate s n mem ls = memStep rep rate s n mem' ls := by
  have hs : ∀ f : Remembered → ℝ, (mem.map f).sum = (mem'.map f).sum := fun f => (h.map f).sum_eq
  unfold memStep
  simp only [hs, h.length_eq]

namespace Train
variable {E : Env ℝ} {p : Hyper ℝ} {B : Nat} {labels : List (List Char)} {s : Shape} {n : Nat} {rep : Rep}

/-- One batch in which all threads use the same label. -/
theorem Trainee.same (hE : E.Exact) (hp : p.batch = B) (hq : p.threads = B) (hB : B < 2 ^ 24) (h0 : 0 < B) {sh : Shared ℝ} {ls : List NetLayer}
    {mem : List Remembered} (h : Trainee labels s n B sh.model ls) (hr : Recalls rep s n sh.model ls mem) {d : List (Tensor × Nat)} (hl : d.length = B)
    (hd : List.Forall₂ (Sample.Is labels s) (sh.source.take B) d) (hm : mem.length = B ∨ mem = [])
    (hsm : ∀ e ∈ d, NetStands ls s e.1 (rep ls e.1)) {e : Tensor × Nat} (he : e ∈ d) :
    ∃ (sched : List Nat) (q : Shared ℝ × List (Event ℝ)) (mem' : List Remembered), runBatch E p sched sh = .ok (some q) ∧ mem'.length = B ∧
      mem'.Perm (d.map fun f => (ls, (f.1, e.2))) ∧ Trainee labels s n B q.1.model (memStep rep p.rate s n mem' ls) ∧
      Recalls rep s n q.1.model (memStep rep p.rate s n mem' ls) mem' := by
  have hlen := hd.length_eq
  have hfull : B ≤ sh.source.length := by rw [List.length_take] at hlen; omega
  obtain ⟨y, hy, hye⟩ : ∃ y ∈ sh.source.take B, Sample.Is labels s y e := by
    obtain ⟨i, hi⟩ := List.mem_iff_getElem?.1 he
    have hlt := (List.getElem?_eq_some_iff.1 hi).1
    have hlt' : i < (sh.source.take B).length := by omega
    have := (List.forall₂_iff_get.1 hd).2 i hlt' hlt
    rw [show d.get ⟨i, hlt⟩ = e from (List.getElem?_eq_some_iff.1 hi).2] at this
    exact ⟨_, List.get_mem _ _, this⟩
  obtain ⟨sched, q, hrun, hgr⟩ := runBatch_same hp hq hB h0 h.prepared (h.alone hE hd) (h.sizes hE hd) hfull hy
  obtain ⟨b, r, hs, hr', ho, hM', h2, h3⟩ := runBatch_split hrun
  rw [hp, hq] at hs
  obtain ⟨e1, e3, e4, e5, e6, e7, e8⟩ := run_end hB h.prepared.ready hs hr' ho
  have hdl : (fetches r.2).length = d.length := by
    rw [← hd.length_eq, ← e7, List.length_map]
  have hd' : List.Forall₂ (Sample.Is labels s) ((fetches r.2).map fun e => (⟨e.2.2.data, y.label⟩ : Sample ℝ)) (d.map fun f => (f.1, e.2)) := by
    rw [← e7] at hd
    rw [List.forall₂_map_left_iff] at hd ⊢
    rw [List.forall₂_map_right_iff]
    refine hd.imp fun a f hf => ⟨hf.data, hye.label, hye.first⟩
  obtain ⟨mem', kept, m1, m2, m3, m4, m5, -⟩ := h.remember hE hr (M₁ := r.1.shared.model) (evs := r.2) (U := fun e => ⟨e.2.2.data, y.label⟩)
    (by rw [hdl]; exact hm.imp id fun h => ⟨h, hl⟩) (by
      rintro ⟨t, sl, x⟩ hx
      obtain ⟨hs, l, hl, hso⟩ := e3 t sl x hx
      obtain rfl : l = sh.model.labelIndex y.label := hgr (t, sl, x, l) (by rw [h2]; exact hl)
      obtain ⟨m, hm⟩ := h.alone hE hd x (e7 ▸ List.mem_map.2 ⟨_, hx, rfl⟩) y hy
      exact ⟨hs, fun i => hso.withLabel h.prepared hs hm i⟩) e4 e5 hd' (by
      intro f hf
      obtain ⟨g, hg, rfl⟩ := List.mem_map.1 hf
      exact hsm g hg)
  obtain ⟨t1, t2⟩ := h.update hE e1 hM' m1 m2
  have hk : kept = [] := List.eq_nil_of_length_eq_zero (by
    rw [m4, List.length_map]
    rcases hm with hm | hm
    · omega
    · rw [hm]; simp)
  refine ⟨sched, q, mem', hrun, m1, ?_, t1, t2⟩
  rw [hk, List.append_nil, List.map_map] at m5
  exact m5

/-- Epochs in each of which all threads use the label `l`. -/
theorem head_same (hE : E.Exact) (hp : p.batch = B) (hq : p.threads = B) (hB : B < 2 ^ 24) (h0 : 0 < B) {init : List NetLayer} (hno : NoParams init)
    (hfit : NetFits init s) {d : List (Tensor × Nat)} (hlen : d.length = B) {l : Nat} (hln : l < n) (hld : ∃ e ∈ d, e.2 = l) (w : Tensor) (β : Nat → ℝ)
    (ess : List (List (Tensor × Nat))) (hd : ∀ es ∈ ess, es.Perm d) : ∀ (k : Nat) (mem : List Remembered) (w₁ : Tensor) (β₁ : Nat → ℝ) (M : Model ℝ),
      Trainee labels s n B M (init ++ [.full n w₁ β₁]) → Recalls (fun ls x => netSurrogate ls s x) s n M (init ++ [.full n w₁ β₁]) mem → mem.length = B ∨ mem = [] →
      (∀ i < n, ∀ j < featureCount init s + 1, comb (featureCount init s) w₁ β₁ i j = headParams init n s p.rate (d.map fun e => (e.1, l)) w β k i j) →
      ∀ srcs : List (List (Sample ℝ)), List.Forall₂ (List.Forall₂ (Sample.Is labels s)) srcs ess →
        ∃ (epochs : List (List (List Nat) × List (Sample ℝ))) (M' : Model ℝ) (w' : Tensor) (β' : Nat → ℝ), epochs.map Prod.snd = srcs ∧
          epochLoop E p B epochs (some M) = .ok (some M') ∧ Trainee labels s n B M' (init ++ [.full n w' β']) ∧
          ∀ i < n, ∀ j < featureCount init s + 1,
            comb (featureCount init s) w' β' i j = headParams init n s p.rate (d.map fun e => (e.1, l)) w β (k + ess.length) i j := by
  induction ess with
  | nil =>
    intro k mem w₁ β₁ M hM _ _ h srcs hs
    cases hs
    exact ⟨[], M, w₁, β₁, rfl, rfl, hM, h⟩
  | cons es ess ih =>
    intro k mem w₁ β₁ M hM hR hmem h srcs hs
    cases hs with
    | @cons src _ srcs _ hse hes =>
      have hperm := hd es (by simp)
      have hel : es.length = B := hperm.length_eq.trans hlen
      obtain ⟨f, hf, hfl⟩ := hld
      have hfull : src.take B = src := List.take_of_length_le (by rw [hse.length_eq, hel])
      obtain ⟨sched, q, mem', r1, r2, r3, r4, r5⟩ := Trainee.same (sh := ⟨M, src, 0⟩) hE hp hq hB h0 hM hR hel (by rw [hfull]; exact hse) hmem
        (fun e _ => .surrogate _ s e.1) (hperm.mem_iff.2 hf)
      rw [hfl] at r3
      have r3' : mem'.Perm ((es.map fun e => (e.1, l)).map fun e => (init ++ [NetLayer.full n w₁ β₁], e)) := by
        rw [List.map_map]; exact r3
      obtain ⟨w2, β2, s1, s2⟩ := head_step hno hfit p.rate (d := es.map fun e => (e.1, l)) (by
        intro e he
        obtain ⟨g, _, rfl⟩ := List.mem_map.1 he
        exact hln) w₁ β₁
      rw [memStep_perm _ _ _ _ r3', s1] at r4 r5
      obtain ⟨epochs, M', w', β', i1, i2, i3, i4⟩ := ih (fun e he => hd e (List.mem_cons_of_mem _ he)) (k + 1) mem' w2 β2 q.1.model r4 r5 (Or.inl r2) (by
        intro i hi j hj
        rw [s2 i hi j hj, headParams, ← step_congr h p.rate (d.map fun e => (e.1, l)) hi hj]
        unfold step grad
        rw [mean_perm (hperm.map _)]) srcs hes
      refine ⟨([sched], src) :: epochs, M', w', β', by rw [List.map_cons, i1], ?_, i3, ?_⟩
      · have hone : (B + B - 1) / B = 1 := by
          rw [show B + B - 1 = (B - 1) + B by omega, Nat.add_div_right _ h0, Nat.div_eq_of_lt (by omega)]
        rw [epochLoop_cons, runEpoch_eq hp hq hB h0 h0 hB, hone, if_pos (show ([sched], src).1.length = 1 from rfl)]
        simp only [runBatches, r1, Res.bind_ok, Option.map_some, i2]
      · rw [List.length_cons, Nat.add_comm ess.length, ← Nat.add_assoc]
        exact i4

/-- A network that answers with the same label always. -/
theorem same_separates (init : List NetLayer) {l : Nat} (hln : l < n) (d : List (Tensor × Nat)) :
    Separates (init ++ [.full n (fun _ _ _ => 0) (fun i => if i = l then 1 else 0)]) s n (d.map fun e => (e.1, l)) := by
  intro e he i hi hne
  obtain ⟨f, _, rfl⟩ := List.mem_map.1 he
  have hne : i ≠ l := hne
  rw [netProb_last, netProb_last]
  unfold softmax
  rw [div_lt_div_iff_of_pos_right (sum_exp_pos (Nat.zero_lt_of_lt hi) _), Real.exp_lt_exp, last_value _ _ _ _ _ _ hi, last_value _ _ _ _ _ _ hln]
  simp [hne]

end Train
end Cnn
