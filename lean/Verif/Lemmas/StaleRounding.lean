import Verif.Spec.StaleRounding
import Verif.Lemmas.StepTrain
import Verif.Lemmas.StaleTrain
/-! Helper lemmas: training with remembered gradients in rounded arithmetic (C99). -/
namespace Cnn
open Finset Model Train

variable {α : Type} [Zero α] [One α] [Add α] [Sub α] [Mul α] [Div α] [Neg α] {E : Env α} {p : Precision} {F : Floating E.num p} {q : Conversion}
variable {labels : List (List Char)} {s : Shape} {n B T : Nat} {ε : ℝ}

/-- The slots contain the gradients of the remembered networks and samples, up to their errors. -/
def Keeps (F : Floating E.num p) (q : Conversion) (s : Shape) (n : Nat) (ε : ℝ) (M : Model α) (ls : List NetLayer) (mem : List Kept) : Prop :=
  ∀ (k : Nat) (m : Kept), mem[k]? = some m → ∀ (i : Nat) (l : NetLayer), ls[i]? = some l → l.params ≠ none →
    ∃ DW DB, M.stored i k = some (DW, DB) ∧
      DW.Near F (l.weightShape (netOut (ls.take i) s)) (netWeightGrad n m.2.label i m.1 s m.2.x) (netWeightErr p q n m.2.label ε i m.1 s m.2.x m.2.err) ∧
      DB.Near F ⟨l.biasCount, 1, 1⟩ (fun f _ _ => netBiasGrad n m.2.label i m.1 s m.2.x f) (fun f _ _ => netBiasErr p q n m.2.label ε i m.1 s m.2.x m.2.err f)

theorem Keeps.nil (M : Model α) (ls : List NetLayer) : Keeps F q s n ε M ls [] := by
  intro k m h
  simp at h

theorem Keeps.other {M : Model α} {ls ls' : List NetLayer} {mem : List Kept} (h : Keeps F q s n ε M ls mem)
    (hs : SameNet ls ls') : Keeps F q s n ε M ls' mem := by
  intro k m hk i l hl hp
  obtain ⟨w, β, e⟩ := hs.symm.get hl
  obtain ⟨DW, DB, k1, k2, k3⟩ := h k m hk i _ e (by rw [NetLayer.withParams_params hp]; simp)
  refine ⟨DW, DB, k1, ?_, ?_⟩
  · rw [hs.netOut]; simpa using k2
  · simpa using k3

/-- The parameters after the update. -/
theorem Trains.params_kept (hp : p.Ok) {rate : α} (h0 : 0 < B) (hB : B < 2 ^ 24) (hr : F.Fin rate) {M M₁ M' : Model α} {ls : List NetLayer}
    (hM : Trains F labels s n B M ls) (hb : M₁.bare = M.bare) (ha : M₁.applyBatch E.num rate = .ok M') {mem : List Kept} (hlen : mem.length = B)
    (hk : Keeps F q s n ε M₁ ls mem) (hroom : KeptStepRoom p q (F.val rate) n ε s mem ls) :
    ∀ i : Nat, ∃ w' : Tensor, ∃ β' : Nat → ℝ, ∀ l, ls[i]? = some l → ∀ w β, l.params = some (w, β) →
      (∃ W Bi, ∃ wa : Nat → Nat → Nat → α, ∃ βa : Nat → α, M'.params i = some (W, Bi) ∧
        W.Shows (l.weightShape (netOut (ls.take i) s)).X (l.weightShape (netOut (ls.take i) s)).Y (l.weightShape (netOut (ls.take i) s)).Z wa ∧
        Bi.Shows l.biasCount 1 1 (fun f _ _ => βa f) ∧
        (∀ a < (l.weightShape (netOut (ls.take i) s)).X, ∀ j < (l.weightShape (netOut (ls.take i) s)).Y, ∀ k < (l.weightShape (netOut (ls.take i) s)).Z,
          F.Fin (wa a j k) ∧ F.val (wa a j k) = w' a j k) ∧
        ∀ f < l.biasCount, F.Fin (βa f) ∧ F.val (βa f) = β' f) ∧
      (∀ a < (l.weightShape (netOut (ls.take i) s)).X, ∀ b < (l.weightShape (netOut (ls.take i) s)).Y, ∀ c < (l.weightShape (netOut (ls.take i) s)).Z,
        |w' a b c - (w a b c - F.val rate * Precision.mean (keptWeights p q n ε i s mem a b c))| ≤
          p.stepErr (F.val rate) (w a b c) (keptWeights p q n ε i s mem a b c)) ∧
      ∀ f < l.biasCount, |β' f - (β f - F.val rate * Precision.mean (keptBiases p q n ε i s mem f))| ≤
        p.stepErr (F.val rate) (β f) (keptBiases p q n ε i s mem f) := by
  intro i
  by_cases hex : ∃ l w β, ls[i]? = some l ∧ l.params = some (w, β)
  swap
  · exact ⟨fun _ _ _ => 0, fun _ => 0, fun l hl w β hp' => absurd ⟨l, w, β, hl, hp'⟩ hex⟩
  obtain ⟨l, w, β, hli, hpa⟩ := hex
  have hpn : l.params ≠ none := by rw [hpa]; simp
  obtain ⟨W, Bi, wo, βo, e1, e2, e3, e4, e5⟩ := hM.carries.params hli hpa
  obtain ⟨gs, r, f1, f2, f3⟩ := Model.applyBatch_params (hM.prepared.of_bare hb) ha ((Model.bare_params hb i).trans e1)
  have hgl : gs.length = B := by
    have := congrArg List.length f1
    simpa using this.symm
  have hone : ∀ k, ∃ gw : Nat → Nat → Nat → α, ∃ gb : Nat → α, k < B → ∃ G m, gs[k]? = some G ∧ mem[k]? = some m ∧
      G.1.Reads (l.weightShape (netOut (ls.take i) s)).X (l.weightShape (netOut (ls.take i) s)).Y (l.weightShape (netOut (ls.take i) s)).Z gw ∧
      G.2.Reads l.biasCount 1 1 (fun f _ _ => gb f) ∧
      (∀ a < (l.weightShape (netOut (ls.take i) s)).X, ∀ b < (l.weightShape (netOut (ls.take i) s)).Y, ∀ c < (l.weightShape (netOut (ls.take i) s)).Z,
        F.Fin (gw a b c) ∧ |F.val (gw a b c) - netWeightGrad n m.2.label i m.1 s m.2.x a b c| ≤ netWeightErr p q n m.2.label ε i m.1 s m.2.x m.2.err a b c) ∧
      ∀ f < l.biasCount, F.Fin (gb f) ∧ |F.val (gb f) - netBiasGrad n m.2.label i m.1 s m.2.x f| ≤ netBiasErr p q n m.2.label ε i m.1 s m.2.x m.2.err f := by
    intro k
    by_cases hkB : k < B
    swap
    · exact ⟨fun _ _ _ => 0, fun _ => 0, fun h => absurd h hkB⟩
    have hmk : mem[k]? = some (mem[k]'(by omega)) := List.getElem?_eq_getElem (by omega)
    obtain ⟨DW, DB, q1, ⟨dw, q2, q3⟩, db, q4, q5⟩ := hk k _ hmk i l hli hpn
    refine ⟨dw, fun f => db f 0 0, fun _ => ⟨(DW, DB), _, ?_, hmk, q2.reads, (q4.congr ?_).reads, q3, fun f hf => q5 f hf 0 one_pos 0 one_pos⟩⟩
    · have := congrArg (·[k]?) f1
      simp only [List.getElem?_map, List.getElem?_range hkB, Option.map_some, q1] at this
      cases hgk : gs[k]? with
      | none => rw [hgk] at this; simp at this
      | some G =>
        rw [hgk] at this
        simpa using this.symm
    · intro i hi j hj k hk
      obtain rfl : j = 0 := Nat.lt_one_iff.1 hj
      obtain rfl : k = 0 := Nat.lt_one_iff.1 hk
      rfl
  choose gw gb hone using hone
  obtain ⟨W', B', a1, a2, a3⟩ := applyGrads_reads E.num rate e2 e3 (gs.map (·.1)) (gs.map (·.2)) gw gb (n := B) (by simp [hgl]) (by simp [hgl])
    (by
      intro k M hk
      rw [List.getElem?_map, Option.map_eq_some_iff] at hk
      obtain ⟨G, hG, rfl⟩ := hk
      have hkB : k < B := by rw [← hgl]; exact (List.getElem?_eq_some_iff.1 hG).1
      obtain ⟨G', d, c1, _, c2, _⟩ := hone k hkB
      rw [hG] at c1
      obtain rfl := Option.some.inj c1
      exact c2)
    (by
      intro k M hk
      rw [List.getElem?_map, Option.map_eq_some_iff] at hk
      obtain ⟨G, hG, rfl⟩ := hk
      have hkB : k < B := by rw [← hgl]; exact (List.getElem?_eq_some_iff.1 hG).1
      obtain ⟨G', d, c1, _, _, c2, _⟩ := hone k hkB
      rw [hG] at c1
      obtain rfl := Option.some.inj c1
      exact c2)
  rw [f2] at a1
  obtain rfl := Res.ok.inj a1
  have hw : ∀ a < (l.weightShape (netOut (ls.take i) s)).X, ∀ b < (l.weightShape (netOut (ls.take i) s)).Y, ∀ c < (l.weightShape (netOut (ls.take i) s)).Z,
      F.Fin (wo a b c - rate * (sumTo B (fun s => gw s a b c) / E.num.ofNat B)) ∧
      |F.val (wo a b c - rate * (sumTo B (fun s => gw s a b c) / E.num.ofNat B)) -
        (w a b c - F.val rate * Precision.mean (keptWeights p q n ε i s mem a b c))| ≤
        p.stepErr (F.val rate) (w a b c) (keptWeights p q n ε i s mem a b c) := by
    intro a ha b hb c hc
    obtain ⟨w1, w2⟩ := e4 a ha b hb c hc
    have hlt : (keptWeights p q n ε i s mem a b c).length = B := by simp [keptWeights, hlen]
    have := Floating.step_near (F := F) hp (gs := keptWeights p q n ε i s mem a b c) (by omega) (by omega) (t := fun k => gw k a b c) (by
      intro k g hg
      have hkB : k < B := by rw [← hlt]; exact (List.getElem?_eq_some_iff.1 hg).1
      obtain ⟨_, d, _, c1, _, _, c2, _⟩ := hone k hkB
      rw [keptWeights, List.getElem?_map, c1, Option.map_some] at hg
      obtain rfl := Option.some.inj hg
      exact c2 a ha b hb c hc) hr w1 (by rw [w2]; exact (hroom i l w β hli hpa).1 a ha b hb c hc)
    rw [hlt, w2] at this
    exact this
  have hbb : ∀ f < l.biasCount,
      F.Fin (βo f - rate * (sumTo B (fun s => gb s f) / E.num.ofNat B)) ∧
      |F.val (βo f - rate * (sumTo B (fun s => gb s f) / E.num.ofNat B)) -
        (β f - F.val rate * Precision.mean (keptBiases p q n ε i s mem f))| ≤
        p.stepErr (F.val rate) (β f) (keptBiases p q n ε i s mem f) := by
    intro f hf
    obtain ⟨w1, w2⟩ := e5 f hf
    have hlt : (keptBiases p q n ε i s mem f).length = B := by simp [keptBiases, hlen]
    have := Floating.step_near (F := F) hp (gs := keptBiases p q n ε i s mem f) (by omega) (by omega) (t := fun k => gb k f) (by
      intro k g hg
      have hkB : k < B := by rw [← hlt]; exact (List.getElem?_eq_some_iff.1 hg).1
      obtain ⟨_, d, _, c1, _, _, _, c2⟩ := hone k hkB
      rw [keptBiases, List.getElem?_map, c1, Option.map_some] at hg
      obtain rfl := Option.some.inj hg
      exact c2 f hf) hr w1 (by rw [w2]; exact (hroom i l w β hli hpa).2 f hf)
    rw [hlt, w2] at this
    exact this
  refine ⟨fun a b c => F.val (wo a b c - rate * (sumTo B (fun s => gw s a b c) / E.num.ofNat B)),
    fun f => F.val (βo f - rate * (sumTo B (fun s => gb s f) / E.num.ofNat B)), ?_⟩
  intro l' hl' w2 β2 hp2
  rw [hli] at hl'
  obtain rfl := Option.some.inj hl'
  rw [hpa] at hp2
  obtain ⟨rfl, rfl⟩ := Prod.mk.inj (Option.some.inj hp2)
  exact ⟨⟨W', B', _, _, f3, a2, a3, fun a ha b hb c hc => ⟨(hw a ha b hb c hc).1, rfl⟩, fun f hf => ⟨(hbb f hf).1, rfl⟩⟩,
    fun a ha b hb c hc => (hw a ha b hb c hc).2, fun f hf => (hbb f hf).2⟩

/-- The update. -/
theorem Trains.update_kept (hp : p.Ok) {rate : α} (h0 : 0 < B) (hB : B < 2 ^ 24) (hr : F.Fin rate) {M M₁ M' : Model α} {ls : List NetLayer}
    (hM : Trains F labels s n B M ls) (hb : M₁.bare = M.bare) (ha : M₁.applyBatch E.num rate = .ok M') {mem : List Kept} (hlen : mem.length = B)
    (hk : Keeps F q s n ε M₁ ls mem) (hroom : KeptStepRoom p q (F.val rate) n ε s mem ls) :
    ∃ ls', KeptStep p q (F.val rate) n ε s mem ls ls' ∧ Trains F labels s n B M' ls' ∧ Keeps F q s n ε M' ls' mem := by
  have key := hM.params_kept hp h0 hB hr hb ha hlen hk hroom
  choose w' β' key using key
  have hget : ∀ (i : Nat) (l : NetLayer), ls[i]? = some l → (ls.mapIdx fun i l => l.withParams (w' i) (β' i))[i]? = some (l.withParams (w' i) (β' i)) := by
    intro i l hl
    simp only [List.getElem?_mapIdx, hl, Option.map_some]
  have hsame : SameNet ls (ls.mapIdx fun i l => l.withParams (w' i) (β' i)) := by
    rw [SameNet, List.forall₂_iff_get]
    refine ⟨by simp, ?_⟩
    intro i hi hi'
    exact ⟨w' i, β' i, by simp⟩
  have hkeep : M'.Carries F 0 s (ls.mapIdx fun i l => l.withParams (w' i) (β' i)) n := by
    have hl' : (ls.mapIdx fun i l => l.withParams (w' i) (β' i)).length = ls.length := by simp
    refine Model.Carries.update hM.carries hb ha hl' ?_
    intro i l hl
    refine ⟨w' i, β' i, hget i l hl, ?_⟩
    rintro ⟨w, β⟩ hp'
    obtain ⟨k, _⟩ := key i l hl w β hp'
    exact k
  refine ⟨ls.mapIdx fun i l => l.withParams (w' i) (β' i), ⟨by simp, ?_⟩, ?_, ?_⟩
  · intro i l hl
    refine ⟨w' i, β' i, hget i l hl, ?_⟩
    intro w β hp'
    obtain ⟨_, k1, k2⟩ := key i l hl w β hp'
    exact ⟨k1, k2⟩
  · exact ⟨(hM.prepared.of_bare hb).apply ha, hkeep, hsame.fits hM.fits, hsame.trains hM.trains,
      (Model.applyBatch_labels ha).trans ((bare_labels hb).trans hM.labels), hM.count, hM.sum⟩
  · refine Keeps.other ?_ hsame
    intro k m hm i l hl hpn
    rw [Model.applyBatch_stored ha]
    exact hk k m hm i l hl hpn

/-- What a batch remembers. -/
theorem Trains.keep (hp : p.Ok) (hE : E.Rounds F q) {M M₁ : Model α} {ls : List NetLayer} {mem : List Kept} (h : Trains F labels s n B M ls)
    (hk : Keeps F q s n ε M ls mem) {evs : List (Event α)} {U : Nat × Nat × Sample α → Sample α}
    (hm : mem.length = B ∨ mem = [] ∧ (fetches evs).length = B)
    (h1 : ∀ e ∈ fetches evs, e.2.1 < B ∧ ∀ i, Cnn.ownGrads E M (U e) i = M₁.stored i e.2.1)
    (h2 : ∀ slot, (∀ t x, (t, slot, x) ∉ fetches evs) → M₁.norm slot = M.norm slot)
    (h3 : ((fetches evs).map (fun e => e.2.1)).Nodup) {d : List Datum} (hd : List.Forall₂ (Sample.Near F labels s) ((fetches evs).map U) d)
    (hpass : ∀ e ∈ d, e.Passes p q ls s n ε) :
    ∃ mem' kept : List Kept, mem'.length = B ∧ Keeps F q s n ε M₁ ls mem' ∧ kept.Subperm mem ∧ kept.length = mem.length - d.length ∧
      mem'.Perm (d.map (fun e => (ls, e)) ++ kept) ∧
      ((fetches evs).map (fun e => e.2.1) = List.range d.length → InOrder ls d mem mem') := by
  have : Inhabited Kept := ⟨([], ⟨fun _ _ _ => 0, fun _ _ _ => 0, 0⟩)⟩
  have hdl : d.length = (fetches evs).length := by rw [← hd.length_eq]; simp
  have hltB : ∀ k ∈ (fetches evs).map (fun e => e.2.1), k < B := by
    intro k hk
    obtain ⟨e, he, rfl⟩ := List.mem_map.1 hk
    exact (h1 e he).1
  obtain ⟨mem', kept, f1, f2, f3, f4, f5, f6⟩ := fill_slots h3 hltB (d.map (fun e => (ls, e))) mem (by simp [hdl]) (by simpa using hm)
  refine ⟨mem', kept, f1, ?_, f4, by simpa using f5, f6, ?_⟩
  · intro k m hkm i l hl hpn
    have hkB : k < B := by rw [← f1]; exact (List.getElem?_eq_some_iff.1 hkm).1
    by_cases hσ : k ∈ (fetches evs).map (fun e => e.2.1)
    · obtain ⟨j, hj⟩ := List.mem_iff_getElem?.1 hσ
      rw [List.getElem?_map, Option.map_eq_some_iff] at hj
      obtain ⟨e, hj, rfl⟩ := hj
      have hjlt := (List.getElem?_eq_some_iff.1 hj).1
      have hjd : d[j]? = some (d[j]'(by omega)) := List.getElem?_eq_getElem (by omega)
      have := f2 j e.2.1 (ls, d[j]'(by omega)) (by rw [List.getElem?_map, hj]; rfl) (by rw [List.getElem?_map, hjd]; rfl)
      rw [hkm] at this
      obtain rfl := Option.some.inj this
      have hIs := (List.forall₂_iff_get.1 hd).2 j (by simpa using hjlt) (by omega)
      have hUe : ((fetches evs).map U).get ⟨j, by simpa using hjlt⟩ = U e := by
        simp only [List.get_eq_getElem, List.getElem_map]
        rw [(List.getElem?_eq_some_iff.1 hj).2]
      rw [hUe] at hIs
      have hIs : (U e).Near F labels s (d[j]'(by omega)) := hIs
      obtain ⟨_, _, _, _, hg⟩ := alone_near hp hE h.carries h.fits h.trains h.count h.sum (by rw [h.labels]; exact hIs) (hpass _ (List.getElem_mem _))
      obtain ⟨DW, DB, q1, q2, q3⟩ := hg i l hl hpn
      refine ⟨DW, DB, ?_, q2, q3⟩
      rw [← (h1 e (List.mem_of_getElem? hj)).2 i]
      exact q1
    · rw [f3 k hkB hσ] at hkm
      obtain ⟨DW, DB, q1, q2, q3⟩ := hk k m hkm i l hl hpn
      refine ⟨DW, DB, ?_, q2, q3⟩
      rw [← norm_stored, h2 k (fun t x hmem => hσ (List.mem_map.2 ⟨_, hmem, rfl⟩)), norm_stored, q1]
  · intro hσ
    rw [hσ] at f2 f3
    unfold InOrder
    exact fill_first (by simp) (by rw [hdl]; exact hm) f1 f2 f3

/-- One batch: any number of threads, any schedule. -/
theorem Trains.stale (hp : p.Ok) (hE : E.Rounds F q) {h : Hyper α} (hb : h.batch = B) (ht : h.threads = T) (h0 : 0 < B) (hB : B < 2 ^ 24)
    (hr : F.Fin h.rate) {sh : Shared α} {ls : List NetLayer} {mem : List Kept} (hM : Trains F labels s n B sh.model ls)
    (hk : Keeps F q s n ε sh.model ls mem) {d : List Datum} (hd : List.Forall₂ (Sample.Near F labels s) (sh.source.take B) d)
    (hm : mem.length = B ∨ mem = [] ∧ d.length = B) (hpass : ∀ d', Datum.Relabels d d' → ∀ e ∈ d', e.Passes p q ls s n ε)
    (hroom : ∀ mem', AnyOrder ls d mem mem' → KeptStepRoom p q (F.val h.rate) n ε s mem' ls) {sched : List Nat} {o : Shared α × List (Event α)}
    (hrun : runBatch E h sched sh = .ok (some o)) :
    ∃ mem' ls', mem'.length = B ∧ AnyOrder ls d mem mem' ∧ KeptStep p q (F.val h.rate) n ε s mem' ls ls' ∧ Trains F labels s n B o.1.model ls' ∧
      Keeps F q s n ε o.1.model ls' mem' ∧ o.1.source = sh.source.drop B := by
  obtain ⟨b, r, hs, hr', ho, hM', h2, h3⟩ := runBatch_split hrun
  rw [hb, ht] at hs
  obtain ⟨e1, e3, e4, e5, e6, e7, e8⟩ := run_end hB hM.prepared.ready hs hr' ho
  obtain ⟨U, hU⟩ := run_used hB hM.prepared hs hr' ho (hM.alone hp hE hd hpass)
  have hdl : (fetches r.2).length = d.length := by
    rw [← hd.length_eq, ← e7, List.length_map]
  obtain ⟨d', r1, r2⟩ := relabel_near hd (used := (fetches r.2).map U) (by
      rw [← e7, List.map_map, List.map_map]
      exact List.map_congr_left fun e he => (hU e he).2.2.1) (by
      intro u hu
      obtain ⟨e, he, rfl⟩ := List.mem_map.1 hu
      exact (hU e he).2.2.2)
  obtain ⟨mem', kept, m1, m2, m3, m4, m5, _⟩ := hM.keep hp hE hk (M₁ := r.1.shared.model) (evs := r.2) (U := U) (by rw [hdl]; exact hm)
    (fun e he => ⟨(hU e he).1, (hU e he).2.1⟩) e4 e5 r2 (hpass d' r1)
  have hany : AnyOrder ls d mem mem' := ⟨d', kept, r1, m3, by rw [← r1.length]; exact m4, m5⟩
  obtain ⟨ls', t1, t2, t3⟩ := hM.update_kept hp h0 hB hr e1 hM' m1 m2 (hroom mem' hany)
  exact ⟨mem', ls', m1, hany, t1, t2, t3, by rw [h3, e8]⟩

/-- One batch with one thread. -/
theorem Trains.stale_one (hp : p.Ok) (hE : E.Rounds F q) {h : Hyper α} (hb : h.batch = B) (ht : h.threads = (1 : Nat)) (h0 : 0 < B) (hB : B < 2 ^ 24)
    (hr : F.Fin h.rate) {sh : Shared α} {ls : List NetLayer} {mem : List Kept} (hM : Trains F labels s n B sh.model ls)
    (hk : Keeps F q s n ε sh.model ls mem) {d : List Datum} (hd : List.Forall₂ (Sample.Near F labels s) (sh.source.take B) d)
    (hm : mem.length = B ∨ mem = [] ∧ d.length = B) (hpass : ∀ e ∈ d, e.Passes p q ls s n ε)
    (hroom : ∀ mem', InOrder ls d mem mem' → KeptStepRoom p q (F.val h.rate) n ε s mem' ls) {sched : List Nat} {o : Shared α × List (Event α)}
    (hrun : runBatch E h sched sh = .ok (some o)) :
    ∃ mem' ls', mem'.length = B ∧ InOrder ls d mem mem' ∧ KeptStep p q (F.val h.rate) n ε s mem' ls ls' ∧ Trains F labels s n B o.1.model ls' ∧
      Keeps F q s n ε o.1.model ls' mem' ∧ o.1.source = sh.source.drop B := by
  have hown := own_one hB hb ht hrun
  obtain ⟨b, r, hs, hr', ho, hM', h2, h3⟩ := runBatch_split hrun
  rw [hb, ht] at hs
  obtain ⟨e1, e3, e4, e5, e6, e7, e8⟩ := run_end hB hM.prepared.ready hs hr' ho
  have hdl : (fetches r.2).length = d.length := by
    rw [← hd.length_eq, ← e7, List.length_map]
  rw [h2] at hown
  obtain ⟨mem', kept, m1, m2, m3, m4, m5, m6⟩ := hM.keep hp hE hk (M₁ := r.1.shared.model) (evs := r.2) (U := fun e => e.2.2)
    (by rw [hdl]; exact hm) (by
      rintro ⟨t, sl, x⟩ he
      obtain ⟨hs, l, hl, hso⟩ := e3 t sl x he
      obtain rfl := hown t sl x l hl
      exact ⟨hs, fun i => hso.ownGrads hM.prepared hs i⟩) e4 e5 (by rw [e7]; exact hd) hpass
  have hord : (fetches r.2).map (fun e => e.2.1) = List.range (fetches r.2).length := by
    obtain ⟨w, hw, rfl⟩ := startBatch_inv (by omega) hs
    have := one_order (by simp) (Inv.init 1 (fun t => t * w) (fun t => min ((t + 1) * w) B) sh) (by simp [fetches]) hr'
    simpa using this
  have hin := m6 (by rw [hord, hdl])
  obtain ⟨ls', t1, t2, t3⟩ := hM.update_kept hp h0 hB hr e1 hM' m1 m2 (hroom mem' hin)
  exact ⟨mem', ls', m1, hin, t1, t2, t3, by rw [h3, e8]⟩

/-- No schedule of a batch fails, and some schedule completes it. -/
theorem Trains.stale_progress (hp : p.Ok) (hE : E.Rounds F q) {h : Hyper α} (hb : h.batch = B) (ht : h.threads = T) (hB : B < 2 ^ 24) (hT0 : 0 < T)
    (hT : T < 2147483648) {sh : Shared α} {ls : List NetLayer} {mem : List Kept} (hM : Trains F labels s n B sh.model ls)
    (hk : Keeps F q s n ε sh.model ls mem) {d : List Datum} (hd : List.Forall₂ (Sample.Near F labels s) (sh.source.take B) d)
    (hm : mem.length = B ∨ mem = [] ∧ d.length = B) (hpass : ∀ d', Datum.Relabels d d' → ∀ e ∈ d', e.Passes p q ls s n ε) :
    (∀ sched, ∃ o, runBatch E h sched sh = .ok o) ∧ ∃ sched o, runBatch E h sched sh = .ok (some o) := by
  refine runBatch_progress hb ht hB hT0 hT hM.prepared (hM.alone hp hE hd hpass) (hM.sizes hp hE hd hpass) ?_
  rcases hm with hm | hm
  · right
    intro i W Bi X Y Z F' w β hpar hW hBi k hkB
    obtain ⟨l, w', β', e1, e2⟩ := hM.carries.has_params hpar
    obtain ⟨W', Bi', wo, βo, e3, e4, e5, _⟩ := hM.carries.params e1 e2
    rw [hpar] at e3
    simp only [Option.some.injEq, Prod.mk.injEq] at e3
    obtain ⟨rfl, rfl⟩ := e3
    obtain ⟨d1, d2, d3⟩ := dimN_inj.1 (hW.dim.symm.trans e4.dim)
    obtain ⟨d4, -, -⟩ := dimN_inj.1 (hBi.dim.symm.trans e5.dim)
    subst d1 d2 d3 d4
    obtain ⟨DW, DB, q1, ⟨dw, q2, _⟩, db, q3, _⟩ := hk k _ (List.getElem?_eq_getElem (by omega)) i l e1 (by rw [e2]; simp)
    exact ⟨DW, DB, dw, db, q1, q2.reads, q3.reads⟩
  · left
    have := hd.length_eq
    rw [List.length_take] at this
    omega

/-! ## Several batches and epochs -/

/-- A batch follows the relation `R` between what is remembered before and after. -/
def Refills.Sound (F : Floating E.num p) (q : Conversion) (labels : List (List Char)) (s : Shape) (n B : Nat) (ε : ℝ) (h : Hyper α) (R : Refilling) : Prop :=
  ∀ {sh : Shared α} {ls : List NetLayer} {mem : List Kept} {d : List Datum}, Trains F labels s n B sh.model ls → Keeps F q s n ε sh.model ls mem →
    List.Forall₂ (Sample.Near F labels s) (sh.source.take B) d → mem.length = B ∨ mem = [] ∧ d.length = B →
    (∀ d', Datum.Relabels d d' → ∀ e ∈ d', e.Passes p q ls s n ε) →
    (∀ mem', R ls d mem mem' → KeptStepRoom p q (F.val h.rate) n ε s mem' ls) → ∀ {sched : List Nat} {o : Shared α × List (Event α)},
    runBatch E h sched sh = .ok (some o) →
    ∃ mem' ls', mem'.length = B ∧ R ls d mem mem' ∧ KeptStep p q (F.val h.rate) n ε s mem' ls ls' ∧ Trains F labels s n B o.1.model ls' ∧
      Keeps F q s n ε o.1.model ls' mem' ∧ o.1.source = sh.source.drop B

theorem KeptSteps.append {R : Refilling} {r : ℝ} {a b : List (List Datum)} : ∀ {mem mem' mem'' : List Kept} {ls ls' ls'' : List NetLayer},
    KeptSteps R p q r n ε s a mem ls mem' ls' → KeptSteps R p q r n ε s b mem' ls' mem'' ls'' → KeptSteps R p q r n ε s (a ++ b) mem ls mem'' ls'' := by
  induction a with
  | nil =>
    rintro mem mem' mem'' ls ls' ls'' ⟨rfl, rfl⟩ h
    exact h
  | cons d a ih =>
    rintro mem mem' mem'' ls ls' ls'' ⟨m, k, h1, h2, h3⟩ h
    exact ⟨m, k, h1, h2, ih h3 h⟩

theorem KeptRoom.left {R : Refilling} {r : ℝ} {a b : List (List Datum)} : ∀ {mem : List Kept} {ls : List NetLayer},
    KeptRoom R p q r n ε s (a ++ b) mem ls → KeptRoom R p q r n ε s a mem ls := by
  induction a with
  | nil => exact fun _ => trivial
  | cons d a ih => exact fun h => ⟨h.1, fun m hm => ⟨(h.2 m hm).1, fun k hk => ih ((h.2 m hm).2 k hk)⟩⟩

theorem KeptRoom.right {R : Refilling} {r : ℝ} {a b : List (List Datum)} : ∀ {mem mem' : List Kept} {ls ls' : List NetLayer},
    KeptRoom R p q r n ε s (a ++ b) mem ls → KeptSteps R p q r n ε s a mem ls mem' ls' → KeptRoom R p q r n ε s b mem' ls' := by
  induction a with
  | nil =>
    rintro mem mem' ls ls' h ⟨rfl, rfl⟩
    exact h
  | cons d a ih =>
    rintro mem mem' ls ls' h ⟨m, k, h1, h2, h3⟩
    exact ih ((h.2 m h1).2 k h2) h3

/-- The batches of an epoch. -/
theorem Refills.Sound.batches {h : Hyper α} {R : Refilling} (hS : Refills.Sound F q labels s n B ε h R) (hp : p.Ok) (hE : E.Rounds F q) (hb : h.batch = B)
    (ht : h.threads = T) (h0 : 0 < B) (hB : B < 2 ^ 24) (hT0 : 0 < T) (hT : T < 2147483648) : ∀ (k : Nat) (es : List Datum), es.length ≤ k →
    ∀ {sh : Shared α} {ls : List NetLayer} {mem : List Kept},
    Trains F labels s n B sh.model ls → Keeps F q s n ε sh.model ls mem → mem.length = B ∨ mem = [] ∧ (B ≤ es.length ∨ es = []) →
    List.Forall₂ (Sample.Near F labels s) sh.source es → KeptRoom R p q (F.val h.rate) n ε s (batchesOf B es) mem ls →
    (∀ scheds : List (List Nat), scheds.length = (batchesOf B es).length → ∃ o, runBatches E h scheds sh = .ok o) ∧
    (∃ (scheds : List (List Nat)) (o : Shared α × List (Event α)), scheds.length = (batchesOf B es).length ∧ runBatches E h scheds sh = .ok (some o)) ∧
    ∀ (scheds : List (List Nat)) (o : Shared α × List (Event α)), scheds.length = (batchesOf B es).length → runBatches E h scheds sh = .ok (some o) →
      ∃ mem' ls', (mem'.length = B ∨ mem' = [] ∧ es = []) ∧ KeptSteps R p q (F.val h.rate) n ε s (batchesOf B es) mem ls mem' ls' ∧
        Trains F labels s n B o.1.model ls' ∧ Keeps F q s n ε o.1.model ls' mem' := by
  intro k
  induction k with
  | zero =>
    intro es hes sh ls mem hM hR hmem _ _
    obtain rfl : es = [] := List.eq_nil_of_length_eq_zero (by omega)
    rw [batchesOf_nil h0]
    refine ⟨?_, ⟨[], (sh, []), rfl, rfl⟩, ?_⟩
    · intro scheds hl
      obtain rfl : scheds = [] := List.eq_nil_of_length_eq_zero (by simpa using hl)
      exact ⟨_, rfl⟩
    · intro scheds o hl hrun
      obtain rfl : scheds = [] := List.eq_nil_of_length_eq_zero (by simpa using hl)
      obtain rfl := Option.some.inj (Res.ok.inj hrun)
      exact ⟨mem, ls, by simpa using hmem, ⟨rfl, rfl⟩, hM, hR⟩
  | succ k ih =>
    intro es hes sh ls mem hM hR hmem hsrc hroom
    by_cases hnil : es = []
    · exact ih es (by simp [hnil]) hM hR hmem hsrc hroom
    rw [batchesOf_cons h0 hnil] at hroom ⊢
    have hpos : 0 < es.length := List.length_pos_iff.2 hnil
    have s2 : List.Forall₂ (Sample.Near F labels s) (sh.source.take B) (es.take B) := List.forall₂_take B hsrc
    have hm : mem.length = B ∨ mem = [] ∧ (es.take B).length = B := by
      refine hmem.imp id (fun h => ⟨h.1, ?_⟩)
      rcases h.2 with h | h
      · rw [List.length_take]; omega
      · exact absurd h hnil
    obtain ⟨p1, p2⟩ := hM.stale_progress hp hE hb ht hB hT0 hT hR s2 hm hroom.1
    have hstep : ∀ sched o, runBatch E h sched sh = .ok (some o) → ∃ mem' ls', R ls (es.take B) mem mem' ∧
        (mem'.length = B ∨ mem' = [] ∧ (B ≤ (es.drop B).length ∨ es.drop B = [])) ∧ mem'.length = B ∧ KeptStep p q (F.val h.rate) n ε s mem' ls ls' ∧
        Trains F labels s n B o.1.model ls' ∧ Keeps F q s n ε o.1.model ls' mem' ∧
        List.Forall₂ (Sample.Near F labels s) o.1.source (es.drop B) ∧ KeptRoom R p q (F.val h.rate) n ε s (batchesOf B (es.drop B)) mem' ls' := by
      intro sched o hr
      obtain ⟨mem', ls', k1, k2, k3, k4, k5, k6⟩ := hS hM hR s2 hm hroom.1 (fun m hm => (hroom.2 m hm).1) hr
      exact ⟨mem', ls', k2, Or.inl k1, k1, k3, k4, k5, by rw [k6]; exact List.forall₂_drop B hsrc, (hroom.2 mem' k2).2 ls' k3⟩
    have hle : (es.drop B).length ≤ k := by rw [List.length_drop]; omega
    refine ⟨?_, ?_, ?_⟩
    · intro scheds hl
      cases scheds with
      | nil => simp at hl
      | cons c cs =>
        obtain ⟨o, ho⟩ := p1 c
        cases o with
        | none => exact ⟨none, by simp only [runBatches, ho, Res.bind_ok]⟩
        | some r =>
          obtain ⟨mem', ls', _, k2, _, _, k3, k4, k5, k6⟩ := hstep c r ho
          obtain ⟨o', ho'⟩ := (ih _ hle k3 k4 k2 k5 k6).1 cs (by simpa using hl)
          cases o' with
          | none => exact ⟨none, by simp only [runBatches, ho, ho', Res.bind_ok]⟩
          | some u => exact ⟨some (u.1, r.2 ++ u.2), by simp only [runBatches, ho, ho', Res.bind_ok]⟩
    · obtain ⟨c, r, hc⟩ := p2
      obtain ⟨mem', ls', _, k2, _, _, k3, k4, k5, k6⟩ := hstep c r hc
      obtain ⟨cs, u, hl, hu⟩ := (ih _ hle k3 k4 k2 k5 k6).2.1
      exact ⟨c :: cs, (u.1, r.2 ++ u.2), by simp [hl], by simp only [runBatches, hc, hu, Res.bind_ok]⟩
    · intro scheds o hl hrun
      cases scheds with
      | nil => simp at hl
      | cons c cs =>
        simp only [runBatches] at hrun
        obtain ⟨o', e, hrun⟩ := Res.bind_eq_ok hrun
        cases o' with
        | none => exact absurd hrun (by simp)
        | some r =>
          simp only at hrun
          obtain ⟨u, f, hrun⟩ := Res.bind_eq_ok hrun
          cases u with
          | none => exact absurd hrun (by simp)
          | some u =>
            obtain rfl := Option.some.inj (Res.ok.inj hrun)
            obtain ⟨mem', m, k1, k2, k2', k7, k3, k4, k5, k6⟩ := hstep c r e
            obtain ⟨mem'', ls', j0, j1, j2, j3⟩ := (ih _ hle k3 k4 k2 k5 k6).2.2 cs u (by simpa using hl) f
            have j0' : mem''.length = B := by
              rcases j0 with j0 | j0
              · exact j0
              · rw [j0.2, batchesOf_nil h0] at j1
                rw [j1.1]; exact k2'
            exact ⟨mem'', ls', Or.inl j0', ⟨mem', m, k1, k7, j1⟩, j2, j3⟩

/-- Several epochs. -/
theorem Refills.Sound.epochs {h : Hyper α} {R : Refilling} (hS : Refills.Sound F q labels s n B ε h R) (hp : p.Ok) (hE : E.Rounds F q) (hb : h.batch = B)
    (ht : h.threads = T) (h0 : 0 < B) (hB : B < 2 ^ 24) (hT0 : 0 < T) (hT : T < 2147483648) {size : Nat} (hBs : B ≤ size) (hsz : size < 2 ^ 24)
    (ess : List (List Datum)) : (∀ es ∈ ess, es.length = size) →
    ∀ {M : Model α} {ls : List NetLayer} {mem : List Kept}, Trains F labels s n B M ls → Keeps F q s n ε M ls mem → mem.length = B ∨ mem = [] →
    KeptRoom R p q (F.val h.rate) n ε s (ess.flatMap (batchesOf B)) mem ls →
    (∀ epochs : List (List (List Nat) × List (Sample α)), List.Forall₂ (fun e es => List.Forall₂ (Sample.Near F labels s) e.2 es) epochs ess →
      (∃ o, epochLoop E h size epochs (some M) = .ok o) ∧
      ∀ M', epochLoop E h size epochs (some M) = .ok (some M') →
        ∃ mem' ls', KeptSteps R p q (F.val h.rate) n ε s (ess.flatMap (batchesOf B)) mem ls mem' ls' ∧ Trains F labels s n B M' ls') ∧
    ∀ srcs : List (List (Sample α)), List.Forall₂ (List.Forall₂ (Sample.Near F labels s)) srcs ess →
      ∃ (epochs : List (List (List Nat) × List (Sample α))) (M' : Model α), epochs.map Prod.snd = srcs ∧
        epochLoop E h size epochs (some M) = .ok (some M') := by
  induction ess with
  | nil =>
    intro _ M ls mem hM _ _ _
    refine ⟨?_, ?_⟩
    · intro epochs he
      cases he
      refine ⟨⟨_, rfl⟩, ?_⟩
      intro M' h
      obtain rfl := Option.some.inj (Res.ok.inj h)
      exact ⟨mem, ls, ⟨rfl, rfl⟩, hM⟩
    · intro srcs he
      cases he
      exact ⟨[], M, rfl, rfl⟩
  | cons es ess ih =>
    intro hk M ls mem hM hR hmem hsm
    rw [List.flatMap_cons] at hsm
    have hes := hk es (by simp)
    have hk' : ∀ es ∈ ess, es.length = size := fun d hd => hk d (List.mem_cons_of_mem _ hd)
    have hnum : (size + B - 1) / B = (batchesOf B es).length := by rw [batchesOf_length, hes]
    have hmem' : mem.length = B ∨ mem = [] ∧ (B ≤ es.length ∨ es = []) := hmem.imp id fun h => ⟨h, Or.inl (by omega)⟩
    refine ⟨?_, ?_⟩
    · intro epochs he
      cases he with
      | @cons e _ es' _ hse hes' =>
        obtain ⟨b1, _, b3⟩ := hS.batches hp hE hb ht h0 hB hT0 hT es.length es le_rfl (sh := ⟨M, e.2, 0⟩) hM hR hmem' hse hsm.left
        rw [epochLoop_cons, runEpoch_eq hb ht hB h0 hT0 hsz, hnum]
        by_cases hl : e.1.length = (batchesOf B es).length
        · rw [if_pos hl]
          obtain ⟨o, ho⟩ := b1 e.1 hl
          simp only [ho, Res.bind_ok]
          cases o with
          | none =>
            simp only [Option.map_none, epochLoop_none]
            exact ⟨⟨_, rfl⟩, fun M' h => absurd (Res.ok.inj h) (by simp)⟩
          | some o =>
            obtain ⟨mem', ls', k0, k1, k2, k3⟩ := b3 e.1 o hl ho
            simp only [Option.map_some]
            obtain ⟨i1, _⟩ := ih hk' k2 k3 (k0.imp id And.left) (hsm.right k1)
            obtain ⟨i2, i3⟩ := i1 es' hes'
            refine ⟨i2, ?_⟩
            intro M' h
            obtain ⟨mem'', ls'', j1, j2⟩ := i3 M' h
            exact ⟨mem'', ls'', by rw [List.flatMap_cons]; exact k1.append j1, j2⟩
        · rw [if_neg hl, Res.bind_ok]
          simp only [Option.map_none, epochLoop_none]
          exact ⟨⟨_, rfl⟩, fun M' h => absurd (Res.ok.inj h) (by simp)⟩
    · intro srcs he
      cases he with
      | @cons src _ srcs _ hse hes' =>
        obtain ⟨_, b2, b3⟩ := hS.batches hp hE hb ht h0 hB hT0 hT es.length es le_rfl (sh := ⟨M, src, 0⟩) hM hR hmem' hse hsm.left
        obtain ⟨scheds, o, hl, ho⟩ := b2
        obtain ⟨mem', ls', k0, k1, k2, k3⟩ := b3 scheds o hl ho
        obtain ⟨_, i2⟩ := ih hk' k2 k3 (k0.imp id And.left) (hsm.right k1)
        obtain ⟨es', M', j1, j2⟩ := i2 srcs hes'
        refine ⟨(scheds, src) :: es', M', by simp [j1], ?_⟩
        rw [epochLoop_cons, runEpoch_eq hb ht hB h0 hT0 hsz, hnum, if_pos hl]
        simp only [ho, Res.bind_ok, Option.map_some, j2]

end Cnn
