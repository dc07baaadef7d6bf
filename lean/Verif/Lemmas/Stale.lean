import Verif.Spec.Stale
import Verif.Lemmas.ShortBatch
import Verif.Lemmas.NetFresh
/-! Helper lemmas: training with remembered gradients (C82). -/
namespace Cnn
open Finset Model

/-! ## Networks that differ in their parameters -/

theorem NetLayer.withParams_same (l : NetLayer) : ∃ w β, l = l.withParams w β := by
  cases l with
  | conv A B C F w β => exact ⟨w, β, rfl⟩
  | full n w β => exact ⟨w, β, rfl⟩
  | pool => exact ⟨fun _ _ _ => 0, fun _ => 0, rfl⟩
  | act => exact ⟨fun _ _ _ => 0, fun _ => 0, rfl⟩
  | gate => exact ⟨fun _ _ _ => 0, fun _ => 0, rfl⟩

@[simp] theorem NetLayer.withParams_twice (l : NetLayer) (w w' : Tensor) (β β' : Nat → ℝ) : (l.withParams w β).withParams w' β' = l.withParams w' β' := by
  cases l <;> rfl

@[simp] theorem NetLayer.withParams_weightShape (l : NetLayer) (w : Tensor) (β : Nat → ℝ) (s : Shape) : (l.withParams w β).weightShape s = l.weightShape s := by
  cases l <;> rfl

@[simp] theorem NetLayer.withParams_biasCount (l : NetLayer) (w : Tensor) (β : Nat → ℝ) : (l.withParams w β).biasCount = l.biasCount := by
  cases l <;> rfl

theorem NetLayer.withParams_params {l : NetLayer} (h : l.params ≠ none) (w : Tensor) (β : Nat → ℝ) : (l.withParams w β).params = some (w, β) := by
  cases l <;> simp_all [params, withParams]

theorem SameNet.refl (ls : List NetLayer) : SameNet ls ls := List.forall₂_same.2 fun l _ => l.withParams_same

theorem SameNet.trans {a b c : List NetLayer} (h : SameNet a b) (h' : SameNet b c) : SameNet a c := by
  induction h generalizing c with
  | nil => exact h'
  | cons h1 _ ih =>
    cases h' with
    | cons h3 h4 =>
      obtain ⟨w, β, rfl⟩ := h1
      obtain ⟨w', β', rfl⟩ := h3
      exact .cons ⟨w', β', by simp⟩ (ih h4)

theorem SameNet.symm {a b : List NetLayer} (h : SameNet a b) : SameNet b a := by
  induction h with
  | nil => exact .nil
  | @cons l _ _ _ h1 _ ih =>
    obtain ⟨w, β, rfl⟩ := h1
    obtain ⟨w', β', e⟩ := l.withParams_same
    exact .cons ⟨w', β', by simpa using e⟩ ih

theorem SameNet.get {a b : List NetLayer} (h : SameNet a b) {i : Nat} {l : NetLayer} (hl : a[i]? = some l) : ∃ w β, b[i]? = some (l.withParams w β) := by
  obtain ⟨hi, rfl⟩ := List.getElem?_eq_some_iff.1 hl
  have hi' : i < b.length := h.length_eq ▸ hi
  obtain ⟨w, β, e⟩ := (List.forall₂_iff_get.1 h).2 i hi hi'
  exact ⟨w, β, by rw [List.getElem?_eq_getElem hi']; exact congrArg some e⟩

theorem memStep_same (rep : Rep) (rate : ℝ) (s : Shape) (n : Nat) (mem : List Remembered) (ls : List NetLayer) : SameNet ls (memStep rep rate s n mem ls) := by
  rw [SameNet, List.forall₂_iff_get]
  refine ⟨by simp [memStep], ?_⟩
  intro i hi hi'
  simp only [memStep, List.get_eq_getElem, List.getElem_mapIdx]
  cases hp : (ls[i]).params with
  | none => exact ⟨fun _ _ _ => 0, fun _ => 0, (NetLayer.withParams_self hp).symm⟩
  | some v => exact ⟨_, _, rfl⟩

/-! ## Filling slots -/

/-- The slots after some of them have been filled. -/
theorem fill_slots {β : Type} [Inhabited β] {B : Nat} {σ : List Nat} (hσ : σ.Nodup) (hlt : ∀ k ∈ σ, k < B) (xs mem : List β)
    (hx : xs.length = σ.length) (hm : mem.length = B ∨ mem = [] ∧ σ.length = B) :
    ∃ mem' kept : List β, mem'.length = B ∧ (∀ (j k : Nat) (x : β), σ[j]? = some k → xs[j]? = some x → mem'[k]? = some x) ∧
      (∀ k < B, k ∉ σ → mem'[k]? = mem[k]?) ∧ kept.Subperm mem ∧ kept.length = mem.length - xs.length ∧ mem'.Perm (xs ++ kept) := by
  classical
  let free := (List.range B).filter (fun s => s ∉ σ)
  let f : Nat → β := fun k => if k ∈ σ then xs.getD (σ.idxOf k) default else mem.getD k default
  have hp : (List.range B).Perm (σ ++ free) := by
    refine (List.perm_ext_iff_of_nodup List.nodup_range ?_).2 ?_
    · refine List.Nodup.append hσ (List.nodup_range.filter _) ?_
      intro s hs hf
      simp only [free, List.mem_filter, decide_eq_true_eq] at hf
      exact hf.2 hs
    · intro s
      simp only [free, List.mem_append, List.mem_filter, List.mem_range, decide_eq_true_eq]
      constructor
      · intro hs
        by_cases h : s ∈ σ
        · exact Or.inl h
        · exact Or.inr ⟨hs, h⟩
      · rintro (hs | hs)
        · exact hlt s hs
        · exact hs.1
  have hlen : σ.length + free.length = B := by
    have := hp.length_eq
    simp only [List.length_range, List.length_append] at this
    omega
  have hidx : ∀ (j k : Nat), σ[j]? = some k → k ∈ σ ∧ σ.idxOf k = j := by
    intro j k hj
    obtain ⟨hj', rfl⟩ := List.getElem?_eq_some_iff.1 hj
    exact ⟨List.getElem_mem _, hσ.idxOf_getElem j hj'⟩
  have hfσ : σ.map f = xs := by
    apply List.ext_getElem (by simp [hx])
    intro j h1 h2
    have hj : j < σ.length := by simpa using h1
    obtain ⟨a, b⟩ := hidx j σ[j] (List.getElem?_eq_getElem hj)
    simp only [List.getElem_map, f, if_pos a, b]
    rw [List.getD_eq_getElem?_getD, List.getElem?_eq_getElem h2]; rfl
  have hfree : ∀ k ∈ free, k < B ∧ k ∉ σ := by
    intro k hk
    simpa [free] using hk
  have hnil : mem = [] → free = [] := by
    intro h
    rcases hm with hm | hm
    · rw [h] at hm
      refine List.eq_nil_of_length_eq_zero ?_
      have : B = 0 := by simpa using hm.symm
      omega
    · exact List.eq_nil_of_length_eq_zero (by omega)
  refine ⟨(List.range B).map f, free.map f, by simp, ?_, ?_, ?_, ?_, ?_⟩
  · intro j k x hj hxj
    obtain ⟨a, b⟩ := hidx j k hj
    rw [List.getElem?_map, List.getElem?_range (hlt k a), Option.map_some]
    simp only [f, if_pos a, b, List.getD_eq_getElem?_getD, hxj, Option.getD_some]
  · intro k hk hkσ
    have hlen' : mem.length = B := by
      rcases hm with hm | hm
      · exact hm
      · have := hnil hm.1
        exact absurd (show k ∈ free by simp [free, hk, hkσ]) (by rw [this]; simp)
    rw [List.getElem?_map, List.getElem?_range hk, Option.map_some]
    simp only [f, if_neg hkσ, List.getD_eq_getElem?_getD, List.getElem?_eq_getElem (show k < mem.length by omega), Option.getD_some]
  · by_cases h : mem = []
    · rw [hnil h]; exact List.nil_subperm
    · have hlen' : mem.length = B := by
        rcases hm with hm | hm
        · exact hm
        · exact absurd hm.1 h
      have : free.map f = free.map (fun k => mem.getD k default) := by
        apply List.map_congr_left
        intro k hk
        simp only [f, if_neg (hfree k hk).2]
      rw [this]
      have hmem : mem = (List.range B).map (fun k => mem.getD k default) := by
        apply List.ext_getElem (by simp [hlen'])
        intro k h1 h2
        simp only [List.getElem_map, List.getElem_range, List.getD_eq_getElem?_getD, List.getElem?_eq_getElem h1, Option.getD_some]
      conv => arg 2; rw [hmem]
      exact (List.filter_sublist.map _).subperm
  · rw [List.length_map, hx]
    rcases hm with hm | hm
    · omega
    · rw [hm.1, hnil hm.1]; simp
  · rw [← hfσ, ← List.map_append]
    exact hp.map f

/-- If the slots are filled from the first on. -/
theorem fill_first {β : Type} {B m : Nat} {xs mem mem' : List β} (hx : xs.length = m) (hm : mem.length = B ∨ mem = [] ∧ m = B)
    (h0 : mem'.length = B) (h1 : ∀ (j k : Nat) (x : β), (List.range m)[j]? = some k → xs[j]? = some x → mem'[k]? = some x)
    (h2 : ∀ k < B, k ∉ List.range m → mem'[k]? = mem[k]?) : mem' = xs ++ mem.drop m := by
  apply List.ext_getElem?
  intro k
  by_cases hk : k < m
  · rw [List.getElem?_append_left (by omega), List.getElem?_eq_getElem (show k < xs.length by omega)]
    exact h1 k k _ (List.getElem?_range hk) (List.getElem?_eq_getElem (show k < xs.length by omega))
  · rw [List.getElem?_append_right (by omega), List.getElem?_drop, hx, show m + (k - m) = k by omega]
    by_cases hkB : k < B
    · exact h2 k hkB (by simpa using hk)
    · rw [List.getElem?_eq_none (by omega), List.getElem?_eq_none]
      rcases hm with hm | hm
      · omega
      · rw [hm.1]; simp

/-! ## Batches of a list -/

theorem batchesOf_length {β : Type} (B : Nat) (l : List β) : (batchesOf B l).length = (l.length + B - 1) / B := by
  simp [batchesOf]

theorem batchesOf_nil {β : Type} {B : Nat} (h0 : 0 < B) : batchesOf B ([] : List β) = [] := by
  refine List.eq_nil_of_length_eq_zero ?_
  rw [batchesOf_length, List.length_nil, Nat.div_eq_of_lt (by omega)]

theorem batchesOf_cons {β : Type} {B : Nat} (h0 : 0 < B) {l : List β} (hl : l ≠ []) : batchesOf B l = l.take B :: batchesOf B (l.drop B) := by
  have hpos : 0 < l.length := List.length_pos_iff.2 hl
  have hn : (l.length + B - 1) / B = (l.length - B + B - 1) / B + 1 := by
    rcases Nat.le_total B l.length with h | h
    · rw [show l.length + B - 1 = (l.length - B + B - 1) + B by omega, Nat.add_div_right _ h0]
    · rw [show l.length - B + B - 1 = B - 1 by omega, Nat.div_eq_of_lt (show B - 1 < B by omega),
        show l.length + B - 1 = (l.length - 1) + B by omega, Nat.add_div_right _ h0, Nat.div_eq_of_lt (show l.length - 1 < B by omega)]
  unfold batchesOf
  rw [hn, List.range_succ_eq_map, List.map_cons, List.map_map]
  simp only [Nat.zero_mul, List.drop_zero, List.length_drop, List.cons.injEq, true_and]
  apply List.map_congr_left
  intro k _
  simp only [Function.comp, List.drop_drop]
  congr 2
  rw [Nat.succ_mul, Nat.add_comm]

namespace Train

/-! ## The slots -/

/-- The slots contain the gradients of the remembered networks and samples. -/
structure Recalls (rep : Rep) (s : Shape) (n : Nat) (M : Model ℝ) (ls : List NetLayer) (mem : List Remembered) : Prop where
  same : ∀ m ∈ mem, SameNet ls m.1
  stands : ∀ m ∈ mem, NetStands m.1 s m.2.1 (rep m.1 m.2.1)
  stored : ∀ (k : Nat) (m : Remembered), mem[k]? = some m → ∀ (i : Nat) (l : NetLayer), ls[i]? = some l → l.params ≠ none →
    ∃ DW DB dw, ∃ db : Nat → ℝ, M.stored i k = some (DW, DB) ∧ DW.Is3 (l.weightShape (netOut (ls.take i) s)) dw ∧
      DB.Shows l.biasCount 1 1 (fun f _ _ => db f) ∧ NetParamGrad (rep m.1 m.2.1) i s n m.2.2 m.2.1 dw db

theorem Recalls.nil (rep : Rep) (s : Shape) (n : Nat) (M : Model ℝ) (ls : List NetLayer) : Recalls rep s n M ls [] := ⟨by simp, by simp, by simp⟩

theorem Recalls.other {rep : Rep} {s : Shape} {n : Nat} {M : Model ℝ} {ls ls' : List NetLayer} {mem : List Remembered} (h : Recalls rep s n M ls mem)
    (hs : SameNet ls ls') : Recalls rep s n M ls' mem := by
  refine ⟨fun m hm => hs.symm.trans (h.same m hm), h.stands, ?_⟩
  intro k m hk i l hl hp
  obtain ⟨w, β, e⟩ := hs.symm.get hl
  obtain ⟨DW, DB, dw, db, k1, k2, k3, k4⟩ := h.stored k m hk i _ e (by
    rw [NetLayer.withParams_params hp]; simp)
  refine ⟨DW, DB, dw, db, k1, ?_, ?_, k4⟩
  · rw [hs.netOut]; simpa using k2
  · simpa using k3

variable {E : Env ℝ} {p : Hyper ℝ} {B T : Nat} {labels : List (List Char)} {s : Shape} {n : Nat} {rep : Rep}

/-- The update. -/
theorem Trainee.update {rate : ℝ} (hE : E.Exact) {M M₁ M' : Model ℝ} {ls : List NetLayer} (h : Trainee labels s n B M ls) (hb : M₁.bare = M.bare)
    (ha : M₁.applyBatch E.num rate = .ok M') {mem : List Remembered} (hlen : mem.length = B) (hr : Recalls rep s n M₁ ls mem) :
    Trainee labels s n B M' (memStep rep rate s n mem ls) ∧ Recalls rep s n M' (memStep rep rate s n mem ls) mem := by
  have hsame := memStep_same rep rate s n mem ls
  refine ⟨⟨(h.prepared.of_bare hb).applyBatch ha, ?_, hsame.fits h.fits, hsame.trains h.trains,
    (Model.applyBatch_labels ha).trans ((bare_labels hb).trans h.labels)⟩, ?_⟩
  · refine h.denotes.update hb ha hsame.length_eq.symm ?_
    intro i l hl
    simp only [memStep, List.getElem?_mapIdx, hl, Option.map_some, Option.some.injEq]
    cases hp : l.params with
    | none => exact ⟨fun _ _ _ => 0, fun _ => 0, (NetLayer.withParams_self hp).symm, by simp⟩
    | some v =>
      obtain ⟨w, β⟩ := v
      refine ⟨_, _, rfl, ?_⟩
      intro _ _
      obtain ⟨W, Bi, e1, e2, e3⟩ := h.denotes.params hl hp
      obtain ⟨gs, r, g1, g2, g3⟩ := Model.applyBatch_params (h.prepared.of_bare hb) ha ((Model.bare_params hb i).trans e1)
      obtain ⟨_, u2, u3⟩ := update_entries e2 e3 g1 g2
      have hk : ∀ k m, mem[k]? = some m → ∃ DW DB dw, ∃ db : Nat → ℝ, M₁.stored i k = some (DW, DB) ∧
          DW.Is3 (l.weightShape (netOut (ls.take i) s)) dw ∧ DB.Shows l.biasCount 1 1 (fun f _ _ => db f) ∧
          (∀ a < (l.weightShape (netOut (ls.take i) s)).X, ∀ b < (l.weightShape (netOut (ls.take i) s)).Y,
            ∀ c < (l.weightShape (netOut (ls.take i) s)).Z, weightPartial s n (rep m.1 m.2.1, m.2) i a b c = dw a b c) ∧
          ∀ k < l.biasCount, biasPartial s n (rep m.1 m.2.1, m.2) i k = db k := by
        intro k m hk
        obtain ⟨DW, DB, dw, db, k1, k2, k3, k4⟩ := hr.stored k m hk i l hl (by rw [hp]; simp)
        have hsm := hr.same m (List.mem_of_getElem? hk)
        obtain ⟨w', β', e⟩ := hsm.get hl
        have hp' := NetLayer.withParams_params (l := l) (by rw [hp]; simp) w' β'
        have hst := hr.stands m (List.mem_of_getElem? hk)
        have e := hst.get e (by rw [hp']; simp)
        have ho : netOut ((rep m.1 m.2.1).take i) s = netOut (ls.take i) s := by rw [hst.netOut_take, hsm.netOut]
        refine ⟨DW, DB, dw, db, k1, k2, k3, ?_, ?_⟩
        · intro a ha b hb c hc
          have := k4.weight e hp' (a := a) (b := b) (c := c) (by rw [ho]; simpa using ha) (by rw [ho]; simpa using hb)
            (by rw [ho]; simpa using hc)
          simp only [weightPartial, e, hp', this.deriv]
        · intro f hf
          have := k4.bias e hp' (f := f) (by simpa using hf)
          simp only [biasPartial, e, hp', this.deriv]
      have hn : E.num.ofNat ((List.range B).map (M₁.stored i ·)).length = (mem.length : ℝ) := by
        rw [hE.num, real_ofNat]; simp [hlen]
      refine ⟨r.1, r.2, g3, Matrix.Shows.congr u2 ?_, u3.congr ?_⟩
      · intro a ha b hb c hc
        rw [hn]
        congr 3
        congr 1
        apply List.ext_getElem (by simp [hlen])
        intro k h1 h2
        have hk1 : k < mem.length := by simpa using h2
        obtain ⟨DW, DB, dw, db, q1, q2, q3, q4, q5⟩ := hk k mem[k] (List.getElem?_eq_getElem hk1)
        simp only [List.getElem_map, List.getElem_range, q1, q4 a ha b hb c hc]
        exact Res.ok.inj (((reads_gradW (Matrix.Shows.reads q2)).entry a ha b hb c hc).symm.trans (q2.entry a ha b hb c hc))
      · intro f hf a ha b hb
        rw [hn]
        congr 3
        congr 1
        apply List.ext_getElem (by simp [hlen])
        intro k h1 h2
        have hk1 : k < mem.length := by simpa using h2
        obtain ⟨DW, DB, dw, db, q1, q2, q3, q4, q5⟩ := hk k mem[k] (List.getElem?_eq_getElem hk1)
        simp only [List.getElem_map, List.getElem_range, q1, q5 f hf]
        exact Res.ok.inj (((reads_gradB q3.reads).entry f hf a ha b hb).symm.trans (q3.entry f hf a ha b hb))
  · refine Recalls.other ⟨hr.same, hr.stands, ?_⟩ hsame
    intro k m hk i l hl hp
    rw [Model.applyBatch_stored ha]
    exact hr.stored k m hk i l hl hp

/-- What a batch remembers. -/
theorem Trainee.remember (hE : E.Exact) {M M₁ : Model ℝ} {ls : List NetLayer} {mem : List Remembered} (h : Trainee labels s n B M ls)
    (hr : Recalls rep s n M ls mem) {evs : List (Event ℝ)} {U : Nat × Nat × Sample ℝ → Sample ℝ}
    (hm : mem.length = B ∨ mem = [] ∧ (fetches evs).length = B)
    (h1 : ∀ e ∈ fetches evs, e.2.1 < B ∧ ∀ i, Cnn.ownGrads E M (U e) i = M₁.stored i e.2.1)
    (h2 : ∀ slot, (∀ t x, (t, slot, x) ∉ fetches evs) → M₁.norm slot = M.norm slot)
    (h3 : ((fetches evs).map (fun e => e.2.1)).Nodup) {d : List (Tensor × Nat)} (hd : List.Forall₂ (Sample.Is labels s) ((fetches evs).map U) d)
    (hsm : ∀ e ∈ d, NetStands ls s e.1 (rep ls e.1)) :
    ∃ mem' kept : List Remembered, mem'.length = B ∧ Recalls rep s n M₁ ls mem' ∧ kept.Subperm mem ∧ kept.length = mem.length - d.length ∧
      mem'.Perm (d.map (fun e => (ls, e)) ++ kept) ∧
      ((fetches evs).map (fun e => e.2.1) = List.range d.length → mem' = refill ls d mem) := by
  have hdl : d.length = (fetches evs).length := by rw [← hd.length_eq]; simp
  have hltB : ∀ k ∈ (fetches evs).map (fun e => e.2.1), k < B := by
    intro k hk
    obtain ⟨e, he, rfl⟩ := List.mem_map.1 hk
    exact (h1 e he).1
  obtain ⟨mem', kept, f1, f2, f3, f4, f5, f6⟩ := fill_slots h3 hltB (d.map (fun e => (ls, e))) mem (by simp [hdl]) (by simpa using hm)
  refine ⟨mem', kept, f1, ⟨?_, ?_, ?_⟩, f4, by simpa using f5, f6, ?_⟩
  · intro m hmem
    rcases List.mem_append.1 (f6.mem_iff.1 hmem) with h' | h'
    · obtain ⟨e, _, rfl⟩ := List.mem_map.1 h'
      exact SameNet.refl ls
    · exact hr.same m (f4.subset h')
  · intro m hmem
    rcases List.mem_append.1 (f6.mem_iff.1 hmem) with h' | h'
    · obtain ⟨e, he, rfl⟩ := List.mem_map.1 h'
      exact hsm e he
    · exact hr.stands m (f4.subset h')
  · intro k m hk i l hl hp
    have hkB : k < B := by rw [← f1]; exact (List.getElem?_eq_some_iff.1 hk).1
    by_cases hσ : k ∈ (fetches evs).map (fun e => e.2.1)
    · obtain ⟨j, hj⟩ := List.mem_iff_getElem?.1 hσ
      rw [List.getElem?_map, Option.map_eq_some_iff] at hj
      obtain ⟨e, hj, rfl⟩ := hj
      have hjlt := (List.getElem?_eq_some_iff.1 hj).1
      have hjd : d[j]? = some (d[j]'(by omega)) := List.getElem?_eq_getElem (by omega)
      have := f2 j e.2.1 (ls, d[j]'(by omega)) (by rw [List.getElem?_map, hj]; rfl) (by rw [List.getElem?_map, hjd]; rfl)
      rw [hk] at this
      obtain rfl := Option.some.inj this
      have hIs := (List.forall₂_iff_get.1 hd).2 j (by simpa using hjlt) (by omega)
      have hUe : ((fetches evs).map U).get ⟨j, by simpa using hjlt⟩ = U e := by
        simp only [List.get_eq_getElem, List.getElem_map]
        rw [(List.getElem?_eq_some_iff.1 hj).2]
      rw [hUe] at hIs
      have hIs : Sample.Is labels s (U e) (d[j]'(by omega)) := hIs
      obtain ⟨-, t, t1, t2, t3⟩ := alone_net hE h.denotes h.fits h.trains hIs.data (hsm _ (List.getElem_mem _)) (label := (U e).label)
        (by rw [h.labels]; exact List.mem_of_getElem? hIs.label)
      rw [h.labels] at t1 t2
      obtain rfl := hIs.index t1 t2
      obtain ⟨DW, DB, dw, db, q1, q2, q3, q4⟩ := t3 i l hl hp
      refine ⟨DW, DB, dw, db, ?_, q2, q3, q4⟩
      rw [← (h1 e (List.mem_of_getElem? hj)).2 i]
      exact q1
    · rw [f3 k hkB hσ] at hk
      obtain ⟨DW, DB, dw, db, q1, q2, q3, q4⟩ := hr.stored k m hk i l hl hp
      refine ⟨DW, DB, dw, db, ?_, q2, q3, q4⟩
      rw [← norm_stored, h2 k (fun t x hmem => hσ (List.mem_map.2 ⟨_, hmem, rfl⟩)), norm_stored, q1]
  · intro hσ
    rw [hσ] at f2 f3
    unfold refill
    exact fill_first (by simp) (by rw [hdl]; exact hm) f1 f2 f3

/-- With one thread the samples use the slots from the first on. -/
theorem one_order {γ : Type} [Zero γ] [One γ] [Add γ] [Sub γ] [Mul γ] [Div γ] [Neg γ] {E : Env γ} {start cutoff : Nat → Nat} (h0 : start 0 = 0) {src0 : List (Sample γ)} {sched : List Nat} :
    ∀ {b : Batch γ} {evs : List (Event γ)}, Inv 1 start cutoff src0 b evs → (fetches evs).map (fun e => e.2.1) = List.range (fetches evs).length →
      ∀ {r : Batch γ × List (Event γ)}, b.run E sched = .ok r →
      (fetches (evs ++ r.2)).map (fun e => e.2.1) = List.range (fetches (evs ++ r.2)).length := by
  induction sched with
  | nil =>
    intro b evs _ h r hr
    obtain rfl := Res.ok.inj hr
    rw [List.append_nil]; exact h
  | cons t ts ih =>
    intro b evs hI h r hr
    rw [Batch.run] at hr
    obtain ⟨a, ha, hr⟩ := Res.bind_eq_ok hr
    obtain ⟨c, hc, hr⟩ := Res.bind_eq_ok hr
    obtain rfl := Res.ok.inj hr
    have := ih (hI.step ha) (by
      unfold Batch.step at ha
      cases hw : b.workers[t]? with
      | none =>
        rw [hw] at ha
        obtain rfl := Res.ok.inj ha
        rw [List.append_nil]; exact h
      | some v =>
        rw [hw] at ha
        simp only at ha
        obtain ⟨q, hq, ha⟩ := Res.bind_eq_ok ha
        obtain rfl := Res.ok.inj ha
        have hmv := step_moves (terminate_ok hq)
        have ht : t < b.workers.length := (List.getElem?_eq_some_iff.1 hw).1
        obtain rfl : t = 0 := by rw [hI.len] at ht; omega
        have hT := hI.thread 0 v hw
        obtain ⟨vc, vp⟩ := v
        simp only at hmv ⊢
        rw [fetches_append, List.map_append, List.length_append]
        have same : ∀ {es : List (Event γ)}, fetches es = [] → (fetches evs).map (fun e => e.2.1) ++ (fetches es).map (fun e => e.2.1) =
            List.range ((fetches evs).length + (fetches es).length) := by
          intro es he
          rw [he]
          simpa using h
        generalize hes : q.2.2 = es at hmv ⊢
        generalize q.1 = q1 at hmv ⊢
        generalize q.2.1.source = q2 at hmv ⊢
        cases hmv with
        | @fetch slot x src' pc es hlt hs hp hb hd hf hg =>
          have hset : ∀ sl, sl < slot ↔ sl < (fetches evs).length := by
            intro sl
            have hF := hT.fetched sl
            rw [h0] at hF
            simp only [bound_fetch] at hF
            rw [show sl < slot ↔ 0 ≤ sl ∧ sl < slot by omega, ← hF, ← List.mem_range, ← h]
            constructor
            · rintro ⟨x, hx⟩
              exact List.mem_map.2 ⟨_, hx, rfl⟩
            · intro hm
              obtain ⟨⟨t', sl', x⟩, he, rfl⟩ := List.mem_map.1 hm
              obtain rfl : t' = 0 := by
                have := hI.thF _ he
                simp only at this
                omega
              exact ⟨x, he⟩
          have hslot : slot = (fetches evs).length := by
            have a := hset slot
            have b := hset (fetches evs).length
            omega
          rw [hf, h, hslot]
          simp [List.range_succ]
        | stop h' => exact same rfl
        | work hp hq hs hd hf hg => exact same hf
        | finish hp hf hg => exact same hf
        | idle => exact same rfl) hc
    rwa [List.append_assoc] at this

/-- One batch: any number of threads, any schedule. -/
theorem Trainee.stale (hE : E.Exact) (hp : p.batch = B) (hq : p.threads = T) (hB : B < 2 ^ 24) {sh : Shared ℝ} {ls : List NetLayer}
    {mem : List Remembered} (h : Trainee labels s n B sh.model ls) (hr : Recalls rep s n sh.model ls mem) {d : List (Tensor × Nat)}
    (hd : List.Forall₂ (Sample.Is labels s) (sh.source.take B) d) (hm : mem.length = B ∨ mem = [] ∧ d.length = B)
    (hsm : ∀ e ∈ d, NetStands ls s e.1 (rep ls e.1)) {sched : List Nat} {q : Shared ℝ × List (Event ℝ)} (hrun : runBatch E p sched sh = .ok (some q)) :
    ∃ mem', mem'.length = B ∧ Refills ls d mem mem' ∧ Trainee labels s n B q.1.model (memStep rep p.rate s n mem' ls) ∧
      Recalls rep s n q.1.model (memStep rep p.rate s n mem' ls) mem' ∧ q.1.source = sh.source.drop B := by
  obtain ⟨b, r, hs, hr', ho, hM', h2, h3⟩ := runBatch_split hrun
  rw [hp, hq] at hs
  obtain ⟨e1, e3, e4, e5, e6, e7, e8⟩ := run_end hB h.prepared.ready hs hr' ho
  obtain ⟨U, hU⟩ := run_used hB h.prepared hs hr' ho (h.alone hE hd)
  have hdl : (fetches r.2).length = d.length := by
    rw [← hd.length_eq, ← e7, List.length_map]
  obtain ⟨d', r1, r2⟩ := relabel hd (used := (fetches r.2).map U) (by
      rw [← e7, List.map_map, List.map_map]
      exact List.map_congr_left fun e he => (hU e he).2.2.1) (by
      intro u hu
      obtain ⟨e, he, rfl⟩ := List.mem_map.1 hu
      exact (hU e he).2.2.2)
  have hsm' : ∀ e ∈ d', NetStands ls s e.1 (rep ls e.1) := by
    intro e he
    have : e.1 ∈ d.map Prod.fst := by rw [← r1.1]; exact List.mem_map.2 ⟨e, he, rfl⟩
    obtain ⟨f, hf, hfe⟩ := List.mem_map.1 this
    rw [← hfe]; exact hsm f hf
  obtain ⟨mem', kept, m1, m2, m3, m4, m5, _⟩ := h.remember hE hr (M₁ := r.1.shared.model) (evs := r.2) (U := U) (by rw [hdl]; exact hm)
    (fun e he => ⟨(hU e he).1, (hU e he).2.1⟩) e4 e5 r2 hsm'
  obtain ⟨t1, t2⟩ := h.update hE e1 hM' m1 m2
  have hl' : d'.length = d.length := by
    have := congrArg List.length r1.1
    simpa using this
  exact ⟨mem', m1, ⟨d', kept, r1, m3, by rw [← hl']; exact m4, m5⟩, t1, t2, by rw [h3, e8]⟩

/-- One batch with one thread. -/
theorem Trainee.stale_one (hE : E.Exact) (hp : p.batch = B) (hq : p.threads = (1 : Nat)) (hB : B < 2 ^ 24) {sh : Shared ℝ} {ls : List NetLayer}
    {mem : List Remembered} (h : Trainee labels s n B sh.model ls) (hr : Recalls rep s n sh.model ls mem) {d : List (Tensor × Nat)}
    (hd : List.Forall₂ (Sample.Is labels s) (sh.source.take B) d) (hm : mem.length = B ∨ mem = [] ∧ d.length = B)
    (hsm : ∀ e ∈ d, NetStands ls s e.1 (rep ls e.1)) {sched : List Nat} {q : Shared ℝ × List (Event ℝ)} (hrun : runBatch E p sched sh = .ok (some q)) :
    (refill ls d mem).length = B ∧ Trainee labels s n B q.1.model (memStep rep p.rate s n (refill ls d mem) ls) ∧
      Recalls rep s n q.1.model (memStep rep p.rate s n (refill ls d mem) ls) (refill ls d mem) ∧ q.1.source = sh.source.drop B := by
  have hown := own_one hB hp hq hrun
  obtain ⟨b, r, hs, hr', ho, hM', h2, h3⟩ := runBatch_split hrun
  rw [hp, hq] at hs
  obtain ⟨e1, e3, e4, e5, e6, e7, e8⟩ := run_end hB h.prepared.ready hs hr' ho
  have hdl : (fetches r.2).length = d.length := by
    rw [← hd.length_eq, ← e7, List.length_map]
  rw [h2] at hown
  obtain ⟨mem', kept, m1, m2, m3, m4, m5, m6⟩ := h.remember hE hr (M₁ := r.1.shared.model) (evs := r.2) (U := fun e => e.2.2)
    (by rw [hdl]; exact hm) (by
      rintro ⟨t, sl, x⟩ he
      obtain ⟨hs, l, hl, hso⟩ := e3 t sl x he
      obtain rfl := hown t sl x l hl
      exact ⟨hs, fun i => hso.ownGrads h.prepared hs i⟩) e4 e5 (by rw [e7]; exact hd) hsm
  have hord : (fetches r.2).map (fun e => e.2.1) = List.range (fetches r.2).length := by
    obtain ⟨w, hw, rfl⟩ := startBatch_inv (by omega) hs
    have := one_order (by simp) (Inv.init 1 (fun t => t * w) (fun t => min ((t + 1) * w) B) sh) (by simp [fetches]) hr'
    simpa using this
  obtain rfl := m6 (by rw [hord, hdl])
  obtain ⟨t1, t2⟩ := h.update hE e1 hM' m1 m2
  exact ⟨m1, t1, t2, by rw [h3, e8]⟩

/-- No schedule of a batch fails, and some schedule completes it. -/
theorem Trainee.stale_progress (hE : E.Exact) (hp : p.batch = B) (hq : p.threads = T) (hB : B < 2 ^ 24) (hT0 : 0 < T) (hT : T < 2147483648)
    {sh : Shared ℝ} {ls : List NetLayer} {mem : List Remembered} (h : Trainee labels s n B sh.model ls) (hr : Recalls rep s n sh.model ls mem)
    {d : List (Tensor × Nat)} (hd : List.Forall₂ (Sample.Is labels s) (sh.source.take B) d)
    (hm : mem.length = B ∨ mem = [] ∧ d.length = B) :
    (∀ sched, ∃ o, runBatch E p sched sh = .ok o) ∧ ∃ sched q, runBatch E p sched sh = .ok (some q) := by
  refine runBatch_progress hp hq hB hT0 hT h.prepared (h.alone hE hd) (h.sizes hE hd) ?_
  rcases hm with hm | hm
  · right
    intro i W Bi X Y Z F w β hpar hW hBi k hk
    obtain ⟨l, w', β', e1, e2⟩ := h.denotes.has_params hpar
    obtain ⟨W', Bi', e3, e4, e5⟩ := h.denotes.params e1 e2
    rw [hpar] at e3
    simp only [Option.some.injEq, Prod.mk.injEq] at e3
    obtain ⟨rfl, rfl⟩ := e3
    obtain ⟨d1, d2, d3⟩ := dimN_inj.1 (hW.dim.symm.trans (Matrix.Shows.dim e4))
    obtain ⟨d4, -, -⟩ := dimN_inj.1 (hBi.dim.symm.trans e5.dim)
    subst d1 d2 d3 d4
    obtain ⟨DW, DB, dw, db, q1, q2, q3, _⟩ := hr.stored k _ (List.getElem?_eq_getElem (by omega)) i l e1 (by rw [e2]; simp)
    exact ⟨DW, DB, dw, _, q1, Matrix.Shows.reads q2, q3.reads⟩
  · left
    have := hd.length_eq
    rw [List.length_take] at this
    omega

/-! ## Several batches and epochs -/

/-- A relation between what is remembered before and after a batch. -/
structure StaleSteps (rep : Rep) (E : Env ℝ) (p : Hyper ℝ) (labels : List (List Char)) (s : Shape) (n B : Nat)
    (R : List NetLayer → List (Tensor × Nat) → List Remembered → List Remembered → Prop) : Prop where
  progress : ∀ {sh : Shared ℝ} {ls : List NetLayer} {mem : List Remembered} {d : List (Tensor × Nat)}, Trainee labels s n B sh.model ls →
    Recalls rep s n sh.model ls mem → List.Forall₂ (Sample.Is labels s) (sh.source.take B) d → mem.length = B ∨ mem = [] ∧ d.length = B →
    (∀ sched, ∃ o, runBatch E p sched sh = .ok o) ∧ ∃ sched q, runBatch E p sched sh = .ok (some q)
  step : ∀ {sh : Shared ℝ} {ls : List NetLayer} {mem : List Remembered} {d : List (Tensor × Nat)}, Trainee labels s n B sh.model ls →
    Recalls rep s n sh.model ls mem → List.Forall₂ (Sample.Is labels s) (sh.source.take B) d → mem.length = B ∨ mem = [] ∧ d.length = B →
    (∀ e ∈ d, NetStands ls s e.1 (rep ls e.1)) → ∀ {sched : List Nat} {q : Shared ℝ × List (Event ℝ)}, runBatch E p sched sh = .ok (some q) →
    ∃ mem', mem'.length = B ∧ R ls d mem mem' ∧ Trainee labels s n B q.1.model (memStep rep p.rate s n mem' ls) ∧
      Recalls rep s n q.1.model (memStep rep p.rate s n mem' ls) mem' ∧ q.1.source = sh.source.drop B

theorem StaleSteps.one (hE : E.Exact) (hp : p.batch = B) (hq : p.threads = (1 : Nat)) (hB : B < 2 ^ 24) :
    StaleSteps rep E p labels s n B (fun ls d mem mem' => mem' = refill ls d mem) where
  progress h hr hd hm := h.stale_progress hE hp hq hB (by omega) (by omega) hr hd hm
  step h hr hd hm hsm _ _ hrun := by
    obtain ⟨k1, k2, k3, k4⟩ := h.stale_one hE hp hq hB hr hd hm hsm hrun
    exact ⟨_, k1, rfl, k2, k3, k4⟩

theorem StaleSteps.many (hE : E.Exact) (hp : p.batch = B) (hq : p.threads = T) (hB : B < 2 ^ 24) (hT0 : 0 < T) (hT : T < 2147483648) :
    StaleSteps rep E p labels s n B Refills where
  progress h hr hd hm := h.stale_progress hE hp hq hB hT0 hT hr hd hm
  step h hr hd hm hsm _ _ hrun := h.stale hE hp hq hB hr hd hm hsm hrun

variable {R : List NetLayer → List (Tensor × Nat) → List Remembered → List Remembered → Prop}

/-- What is remembered and the network after some batches. -/
def Leads (rep : Rep) (R : List NetLayer → List (Tensor × Nat) → List Remembered → List Remembered → Prop) (rate : ℝ) (s : Shape) (n : Nat) :
    List (List (Tensor × Nat)) → List Remembered → List NetLayer → List Remembered → List NetLayer → Prop
  | [], mem, ls, mem', out => mem' = mem ∧ out = ls
  | d :: ds, mem, ls, mem', out => ∃ m, R ls d mem m ∧ Leads rep R rate s n ds m (memStep rep rate s n m ls) mem' out

def LeadsSmooth (rep : Rep) (R : List NetLayer → List (Tensor × Nat) → List Remembered → List Remembered → Prop) (rate : ℝ) (s : Shape) (n : Nat) :
    List (List (Tensor × Nat)) → List Remembered → List NetLayer → Prop
  | [], _, _ => True
  | d :: ds, mem, ls => (∀ e ∈ d, NetStands ls s e.1 (rep ls e.1)) ∧ ∀ m, R ls d mem m → LeadsSmooth rep R rate s n ds m (memStep rep rate s n m ls)

theorem Leads.append {rate : ℝ} {a b : List (List (Tensor × Nat))} : ∀ {mem mem' mem'' : List Remembered} {ls ls' ls'' : List NetLayer},
    Leads rep R rate s n a mem ls mem' ls' → Leads rep R rate s n b mem' ls' mem'' ls'' → Leads rep R rate s n (a ++ b) mem ls mem'' ls'' := by
  induction a with
  | nil =>
    rintro mem mem' mem'' ls ls' ls'' ⟨rfl, rfl⟩ h
    exact h
  | cons d a ih =>
    rintro mem mem' mem'' ls ls' ls'' ⟨m, h1, h2⟩ h
    exact ⟨m, h1, ih h2 h⟩

theorem LeadsSmooth.left {rate : ℝ} {a b : List (List (Tensor × Nat))} : ∀ {mem : List Remembered} {ls : List NetLayer},
    LeadsSmooth rep R rate s n (a ++ b) mem ls → LeadsSmooth rep R rate s n a mem ls := by
  induction a with
  | nil => exact fun _ => trivial
  | cons d a ih => exact fun h => ⟨h.1, fun m hm => ih (h.2 m hm)⟩

theorem LeadsSmooth.right {rate : ℝ} {a b : List (List (Tensor × Nat))} : ∀ {mem mem' : List Remembered} {ls ls' : List NetLayer},
    LeadsSmooth rep R rate s n (a ++ b) mem ls → Leads rep R rate s n a mem ls mem' ls' → LeadsSmooth rep R rate s n b mem' ls' := by
  induction a with
  | nil =>
    rintro mem mem' ls ls' h ⟨rfl, rfl⟩
    exact h
  | cons d a ih =>
    rintro mem mem' ls ls' h ⟨m, h1, h2⟩
    exact ih (h.2 m h1) h2

theorem StaleSteps.batches (hS : StaleSteps rep E p labels s n B R) (h0 : 0 < B) : ∀ (k : Nat) (es : List (Tensor × Nat)), es.length ≤ k →
    ∀ {sh : Shared ℝ} {ls : List NetLayer} {mem : List Remembered},
    Trainee labels s n B sh.model ls → Recalls rep s n sh.model ls mem → mem.length = B ∨ mem = [] ∧ (B ≤ es.length ∨ es = []) →
    List.Forall₂ (Sample.Is labels s) sh.source es → LeadsSmooth rep R p.rate s n (batchesOf B es) mem ls →
    (∀ scheds : List (List Nat), scheds.length = (batchesOf B es).length → ∃ o, runBatches E p scheds sh = .ok o) ∧
    (∃ (scheds : List (List Nat)) (q : Shared ℝ × List (Event ℝ)), scheds.length = (batchesOf B es).length ∧ runBatches E p scheds sh = .ok (some q)) ∧
    ∀ (scheds : List (List Nat)) (q : Shared ℝ × List (Event ℝ)), scheds.length = (batchesOf B es).length → runBatches E p scheds sh = .ok (some q) →
      ∃ mem' ls', (mem'.length = B ∨ mem' = [] ∧ es = []) ∧ Leads rep R p.rate s n (batchesOf B es) mem ls mem' ls' ∧
        Trainee labels s n B q.1.model ls' ∧ Recalls rep s n q.1.model ls' mem' := by
  intro k
  induction k with
  | zero =>
    intro es hes sh ls mem hM hR hmem _ _
    obtain rfl : es = [] := List.eq_nil_of_length_eq_zero (by omega)
    rw [batchesOf_nil h0]
    refine ⟨?_, ⟨[], (sh, []), rfl, rfl⟩, ?_⟩
    · intro scheds hl
      obtain rfl : scheds = [] := List.eq_nil_of_length_eq_zero (by simpa using hl)
      exact ⟨_, rfl⟩
    · intro scheds q hl h
      obtain rfl : scheds = [] := List.eq_nil_of_length_eq_zero (by simpa using hl)
      obtain rfl := Option.some.inj (Res.ok.inj h)
      exact ⟨mem, ls, by simpa using hmem, ⟨rfl, rfl⟩, hM, hR⟩
  | succ k ih =>
    intro es hes sh ls mem hM hR hmem hsrc hsm
    by_cases hnil : es = []
    · exact ih es (by simp [hnil]) hM hR hmem hsrc hsm
    rw [batchesOf_cons h0 hnil] at hsm ⊢
    have hpos : 0 < es.length := List.length_pos_iff.2 hnil
    have s2 : List.Forall₂ (Sample.Is labels s) (sh.source.take B) (es.take B) := List.forall₂_take B hsrc
    have hm : mem.length = B ∨ mem = [] ∧ (es.take B).length = B := by
      refine hmem.imp id (fun h => ⟨h.1, ?_⟩)
      rcases h.2 with h | h
      · rw [List.length_take]; omega
      · exact absurd h hnil
    obtain ⟨p1, p2⟩ := hS.progress hM hR s2 hm
    have hstep : ∀ sched q, runBatch E p sched sh = .ok (some q) → ∃ mem', R ls (es.take B) mem mem' ∧ (mem'.length = B ∨ mem' = [] ∧ (B ≤ (es.drop B).length ∨ es.drop B = [])) ∧
        mem'.length = B ∧
        Trainee labels s n B q.1.model (memStep rep p.rate s n mem' ls) ∧ Recalls rep s n q.1.model (memStep rep p.rate s n mem' ls) mem' ∧
        List.Forall₂ (Sample.Is labels s) q.1.source (es.drop B) ∧ LeadsSmooth rep R p.rate s n (batchesOf B (es.drop B)) mem' (memStep rep p.rate s n mem' ls) := by
      intro sched q hr
      obtain ⟨mem', k1, k2, k3, k4, k5⟩ := hS.step hM hR s2 hm hsm.1 hr
      exact ⟨mem', k2, Or.inl k1, k1, k3, k4, by rw [k5]; exact List.forall₂_drop B hsrc, hsm.2 mem' k2⟩
    have hle : (es.drop B).length ≤ k := by rw [List.length_drop]; omega
    refine ⟨?_, ?_, ?_⟩
    · intro scheds hl
      cases scheds with
      | nil => simp at hl
      | cons c cs =>
        obtain ⟨o, ho⟩ := p1 c
        cases o with
        | none => exact ⟨none, by simp only [runBatches, ho, Res.bind_ok]⟩
        | some q =>
          obtain ⟨mem', _, k2, _, k3, k4, k5, k6⟩ := hstep c q ho
          obtain ⟨o', ho'⟩ := (ih _ hle k3 k4 k2 k5 k6).1 cs (by simpa using hl)
          cases o' with
          | none => exact ⟨none, by simp only [runBatches, ho, ho', Res.bind_ok]⟩
          | some u => exact ⟨some (u.1, q.2 ++ u.2), by simp only [runBatches, ho, ho', Res.bind_ok]⟩
    · obtain ⟨c, q, hc⟩ := p2
      obtain ⟨mem', _, k2, _, k3, k4, k5, k6⟩ := hstep c q hc
      obtain ⟨cs, u, hl, hu⟩ := (ih _ hle k3 k4 k2 k5 k6).2.1
      exact ⟨c :: cs, (u.1, q.2 ++ u.2), by simp [hl], by simp only [runBatches, hc, hu, Res.bind_ok]⟩
    · intro scheds q hl h
      cases scheds with
      | nil => simp at hl
      | cons c cs =>
        simp only [runBatches] at h
        obtain ⟨o, e, h⟩ := Res.bind_eq_ok h
        cases o with
        | none => exact absurd h (by simp)
        | some r =>
          simp only at h
          obtain ⟨u, f, h⟩ := Res.bind_eq_ok h
          cases u with
          | none => exact absurd h (by simp)
          | some u =>
            obtain rfl := Option.some.inj (Res.ok.inj h)
            obtain ⟨mem', k1, k2, k2', k3, k4, k5, k6⟩ := hstep c r e
            obtain ⟨mem'', ls', j0, j1, j2, j3⟩ := (ih _ hle k3 k4 k2 k5 k6).2.2 cs u (by simpa using hl) f
            have j0' : mem''.length = B := by
              rcases j0 with j0 | j0
              · exact j0
              · rw [j0.2, batchesOf_nil h0] at j1
                rw [j1.1]; exact k2'
            exact ⟨mem'', ls', Or.inl j0', ⟨mem', k1, j1⟩, j2, j3⟩

theorem StaleSteps.epochs (hS : StaleSteps rep E p labels s n B R) (hp : p.batch = B) (hq : p.threads = T) (hB : B < 2 ^ 24) (h0 : 0 < B) (hT0 : 0 < T)
    {size : Nat} (hBs : B ≤ size) (hsz : size < 2 ^ 24) (ess : List (List (Tensor × Nat))) : (∀ es ∈ ess, es.length = size) →
    ∀ {M : Model ℝ} {ls : List NetLayer} {mem : List Remembered}, Trainee labels s n B M ls → Recalls rep s n M ls mem → mem.length = B ∨ mem = [] →
    LeadsSmooth rep R p.rate s n (ess.flatMap (batchesOf B)) mem ls →
    (∀ epochs : List (List (List Nat) × List (Sample ℝ)), List.Forall₂ (fun e es => List.Forall₂ (Sample.Is labels s) e.2 es) epochs ess →
      (∃ o, epochLoop E p size epochs (some M) = .ok o) ∧
      ∀ M', epochLoop E p size epochs (some M) = .ok (some M') →
        ∃ mem' ls', Leads rep R p.rate s n (ess.flatMap (batchesOf B)) mem ls mem' ls' ∧ Trainee labels s n B M' ls') ∧
    ∀ srcs : List (List (Sample ℝ)), List.Forall₂ (List.Forall₂ (Sample.Is labels s)) srcs ess →
      ∃ (epochs : List (List (List Nat) × List (Sample ℝ))) (M' : Model ℝ), epochs.map Prod.snd = srcs ∧
        epochLoop E p size epochs (some M) = .ok (some M') := by
  induction ess with
  | nil =>
    intro _ M ls mem hM _ _ _
    refine ⟨?_, ?_⟩
    · intro epochs he
      cases he
      refine ⟨⟨_, rfl⟩, ?_⟩
      intro M' h
      obtain rfl := Option.some.inj (Res.ok.inj h)
      exact ⟨mem, ls, ⟨rfl, rfl⟩, hM⟩
    · intro srcs he
      cases he
      exact ⟨[], M, rfl, rfl⟩
  | cons es ess ih =>
    intro hk M ls mem hM hR hmem hsm
    rw [List.flatMap_cons] at hsm
    have hes := hk es (by simp)
    have hk' : ∀ es ∈ ess, es.length = size := fun d hd => hk d (List.mem_cons_of_mem _ hd)
    have hnum : (size + B - 1) / B = (batchesOf B es).length := by rw [batchesOf_length, hes]
    have hmem' : mem.length = B ∨ mem = [] ∧ (B ≤ es.length ∨ es = []) := hmem.imp id fun h => ⟨h, Or.inl (by omega)⟩
    refine ⟨?_, ?_⟩
    · intro epochs he
      cases he with
      | @cons e _ es' _ hse hes' =>
        obtain ⟨b1, _, b3⟩ := hS.batches h0 es.length es le_rfl (sh := ⟨M, e.2, 0⟩) hM hR hmem' hse hsm.left
        rw [epochLoop_cons, runEpoch_eq hp hq hB h0 hT0 hsz, hnum]
        by_cases hl : e.1.length = (batchesOf B es).length
        · rw [if_pos hl]
          obtain ⟨o, ho⟩ := b1 e.1 hl
          simp only [ho, Res.bind_ok]
          cases o with
          | none =>
            simp only [Option.map_none, epochLoop_none]
            exact ⟨⟨_, rfl⟩, fun M' h => absurd (Res.ok.inj h) (by simp)⟩
          | some q =>
            obtain ⟨mem', ls', k0, k1, k2, k3⟩ := b3 e.1 q hl ho
            simp only [Option.map_some]
            obtain ⟨i1, _⟩ := ih hk' k2 k3 (k0.imp id And.left) (hsm.right k1)
            obtain ⟨i2, i3⟩ := i1 es' hes'
            refine ⟨i2, ?_⟩
            intro M' h
            obtain ⟨mem'', ls'', j1, j2⟩ := i3 M' h
            exact ⟨mem'', ls'', by rw [List.flatMap_cons]; exact k1.append j1, j2⟩
        · rw [if_neg hl, Res.bind_ok]
          simp only [Option.map_none, epochLoop_none]
          exact ⟨⟨_, rfl⟩, fun M' h => absurd (Res.ok.inj h) (by simp)⟩
    · intro srcs he
      cases he with
      | @cons src _ srcs _ hse hes' =>
        obtain ⟨_, b2, b3⟩ := hS.batches h0 es.length es le_rfl (sh := ⟨M, src, 0⟩) hM hR hmem' hse hsm.left
        obtain ⟨scheds, q, hl, hq'⟩ := b2
        obtain ⟨mem', ls', k0, k1, k2, k3⟩ := b3 scheds q hl hq'
        obtain ⟨_, i2⟩ := ih hk' k2 k3 (k0.imp id And.left) (hsm.right k1)
        obtain ⟨es', M', j1, j2⟩ := i2 srcs hes'
        refine ⟨(scheds, src) :: es', M', by simp [j1], ?_⟩
        rw [epochLoop_cons, runEpoch_eq hp hq hB h0 hT0 hsz, hnum, if_pos hl]
        simp only [hq', Res.bind_ok, Option.map_some, j2]

/-! ## One thread: a function -/

theorem leads_one {rate : ℝ} (ds : List (List (Tensor × Nat))) : ∀ {mem mem' : List Remembered} {ls ls' : List NetLayer},
    Leads rep (fun ls d mem mem' => mem' = refill ls d mem) rate s n ds mem ls mem' ls' → ls' = staleDescents rep rate s n ds mem ls := by
  induction ds with
  | nil => exact fun h => h.2
  | cons d ds ih =>
    rintro mem mem' ls ls' ⟨m, rfl, h⟩
    exact ih h

theorem leadsSmooth_one {rate : ℝ} (ds : List (List (Tensor × Nat))) : ∀ {mem : List Remembered} {ls : List NetLayer},
    StaleSmooth rate s n ds mem ls → LeadsSmooth itself (fun ls d mem mem' => mem' = refill ls d mem) rate s n ds mem ls := by
  induction ds with
  | nil => exact fun _ => trivial
  | cons d ds ih =>
    rintro mem ls ⟨h1, h2⟩
    refine ⟨fun e he => .self (h1 e he), ?_⟩
    rintro m rfl
    exact ih h2

theorem leads_many {rate : ℝ} (ds : List (List (Tensor × Nat))) : ∀ {mem mem' : List Remembered} {ls ls' : List NetLayer},
    Leads rep Refills rate s n ds mem ls mem' ls' → StaleLeads rep rate s n ds mem ls ls' := by
  induction ds with
  | nil => exact fun h => h.2
  | cons d ds ih =>
    rintro mem mem' ls ls' ⟨m, h1, h⟩
    exact ⟨m, h1, ih h⟩

theorem leadsSmooth_many {rate : ℝ} (ds : List (List (Tensor × Nat))) : ∀ {mem : List Remembered} {ls : List NetLayer},
    StaleSmoothAll rate s n ds mem ls → LeadsSmooth itself Refills rate s n ds mem ls := by
  induction ds with
  | nil => exact fun _ => trivial
  | cons d ds ih => exact fun h => ⟨fun e he => .self (h.1 e he), fun m hm => ih (h.2 m hm)⟩

/-! ## The network that back-propagation differentiates: no conditions -/

theorem leadsSmooth_surrogate {R : List NetLayer → List (Tensor × Nat) → List Remembered → List Remembered → Prop} {rate : ℝ} (ds : List (List (Tensor × Nat))) :
    ∀ {mem : List Remembered} {ls : List NetLayer}, LeadsSmooth (fun ls x => netSurrogate ls s x) R rate s n ds mem ls := by
  induction ds with
  | nil => exact trivial
  | cons d ds ih => exact ⟨fun e _ => .surrogate _ s e.1, fun m _ => ih⟩

/-! ## A model before its first use -/

/-- Training starts as if the model had its weights already. -/
theorem train_first {E : Env ℝ} (hE : E.Exact) {p : Hyper ℝ} {B T size : Nat} (hp : p.batch = B) (hq : p.threads = T) (hB : B < 2 ^ 24)
    (h0 : 0 < B) (hT0 : 0 < T) (hT : T < 2147483648) (hBs : B ≤ size) (hsz : size < 2 ^ 24) {M : Model ℝ} {s : Shape} {n : Nat} {ls : List NetLayer}
    (h : M.Starts E.draws s ls n) (hf : NetFits ls s) (htr : NetTrains true ls s) : ∃ M', Trainee M.labels s n B M' ls ∧
      ∀ (ess : List (List (Tensor × Nat))) (epochs : List (List (List Nat) × List (Sample ℝ))), ess ≠ [] → (∀ es ∈ ess, es.length = size) →
        List.Forall₂ (fun e es => List.Forall₂ (Sample.Is M.labels s) e.2 es) epochs ess →
        train E p size epochs M = if epochs.length = p.epochs.toNat then epochLoop E p size epochs (some M') else .ok none := by
  obtain ⟨M', h1, h2, h3⟩ := filled hE h hf htr h0
  refine ⟨M', h1, ?_⟩
  intro ess epochs hne hlen he
  have hu : u64 p.batch = B := by
    rw [hp]; unfold u64; omega
  rw [train_eq (p := p) (by omega), hu]
  cases he with
  | nil => exact absurd rfl hne
  | @cons e es eps ess he hes =>
    have hl := hlen es (by simp)
    rw [epochLoop_first hE hp hq hB h0 hT0 hT (by omega) hsz h1 h2 h3 ?_ (List.forall₂_take B he) eps]
    intro h
    have := he.length_eq
    rw [h] at this
    simp at this
    omega

/-- The first batch of the first epoch. -/
theorem flatMap_batches {β : Type} {B : Nat} (h0 : 0 < B) {ess : List (List β)} {es : List β} (hh : ess.head? = some es) (hne : es ≠ []) :
    ∃ ds, ess.flatMap (batchesOf B) = es.take B :: ds := by
  cases ess with
  | nil => simp at hh
  | cons a ess =>
    obtain rfl : a = es := by simpa using hh
    exact ⟨_, by rw [List.flatMap_cons, batchesOf_cons h0 hne, List.cons_append]⟩

end Train
end Cnn
