import Verif.Spec.OrderFree
import Verif.Lemmas.BatchOrder
import Verif.Lemmas.Reproduce
/-! Helper lemmas: batches whose sums do not depend on the order of the slots (C101). -/
namespace Cnn
open Model Train
variable {α : Type} [Zero α] [One α] [Add α] [Sub α] [Mul α] [Div α] [Neg α]

theorem OrderFree.one : OrderFree α 1 := by
  intro l l' hp hl
  obtain ⟨a, rfl⟩ := List.length_eq_one_iff.1 hl
  rw [List.singleton_perm.1 hp]

theorem OrderFree.two (h : ∀ a b : α, 0 + a + b = 0 + b + a) : OrderFree α 2 := by
  intro l l' hp hl
  obtain ⟨a, b, rfl⟩ := List.length_eq_two.1 hl
  obtain ⟨c, d, rfl⟩ := List.length_eq_two.1 (hp.length_eq.symm.trans hl)
  have h1 : c = a ∧ d = b ∨ c = b ∧ d = a := by
    classical
    have hc : c ∈ [a, b] := hp.mem_iff.2 (by simp)
    rcases List.mem_pair.1 hc with rfl | rfl
    · have := (List.perm_cons c).1 hp
      left
      exact ⟨rfl, (List.cons.inj (List.singleton_perm.1 this)).1.symm⟩
    · have := (List.perm_cons c).1 ((List.Perm.swap a c []).trans hp)
      right
      exact ⟨rfl, (List.cons.inj (List.singleton_perm.1 this)).1.symm⟩
  rcases h1 with ⟨rfl, rfl⟩ | ⟨rfl, rfl⟩
  · rfl
  · exact h _ _

theorem sumTo_gradEntry (l : List (Matrix α)) (a b c : Nat) :
    sumTo l.length (fun s => gradEntry l s a b c) = (l.map fun M => M.value a b c).foldl (· + ·) 0 := by
  have : (List.range l.length).map (fun s => gradEntry l s a b c) = l.map fun M => M.value a b c := by
    refine List.ext_getElem (by simp) fun i h1 h2 => ?_
    simp only [List.length_map, List.length_range] at h1
    simp [gradEntry, List.getElem?_eq_getElem h1]
  rw [sumTo, ← this, List.foldl_map]

/-- A gradient step over a number of slots for which sums do not depend on the order. -/
theorem applyGrads_orderFree {X Y Z F : Nat} {N : Num α} {lr : α} {W B : Matrix α} {w b : Nat → Nat → Nat → α}
    (hW : W.Shows X Y Z w) (hB : B.Shows F 1 1 b) {gs gs' : List (Matrix α × Matrix α)} (hf : OrderFree α gs.length) (hp : gs.Perm gs')
    {r r' : Matrix α × Matrix α} (h : applyGrads N lr W B (gs.map (·.1)) (gs.map (·.2)) = .ok r)
    (h' : applyGrads N lr W B (gs'.map (·.1)) (gs'.map (·.2)) = .ok r') : r' = r := by
  have hB' : B.Shows F 1 1 (fun f _ _ => b f 0 0) := hB.congr (by
    intro i _ j hj k hk
    obtain rfl : j = 0 := by omega
    obtain rfl : k = 0 := by omega
    rfl)
  have key : ∀ {gs : List (Matrix α × Matrix α)} {r}, applyGrads N lr W B (gs.map (·.1)) (gs.map (·.2)) = .ok r →
      r.1.Shows X Y Z (fun a b c => w a b c - lr * ((gs.map fun p => p.1.value a b c).foldl (· + ·) 0 / N.ofNat gs.length)) ∧
      r.2.Shows F 1 1 (fun f _ _ => b f 0 0 - lr * ((gs.map fun p => p.2.value f 0 0).foldl (· + ·) 0 / N.ofNat gs.length)) := by
    intro gs r h
    have hg : ∀ p ∈ gs, (∃ f, p.1.Reads X Y Z f) ∧ ∃ f, p.2.Reads F 1 1 f := by
      intro p hp
      obtain ⟨i, hi, rfl⟩ := List.mem_iff_getElem.1 hp
      obtain ⟨g, k, u, v, e1, e2, r1, r2⟩ := applyGrads_inv hW hB h i (by simpa using hi)
      simp only [List.getElem?_map, List.getElem?_eq_getElem hi, Option.map_some, Option.some.injEq] at e1 e2
      subst e1; subst e2
      exact ⟨⟨u, r1⟩, ⟨v, r2⟩⟩
    obtain ⟨W', B', e, s1, s2⟩ := applyGrads_reads N lr (n := gs.length) hW hB' (gs.map (·.1)) (gs.map (·.2))
      (gradEntry (gs.map (·.1))) (fun i f => gradEntry (gs.map (·.2)) i f 0 0) (by simp) (by simp)
      (gradEntry_reads _ (by
        intro M hM
        obtain ⟨p, hp, rfl⟩ := List.mem_map.1 hM
        exact (hg p hp).1))
      (by
        intro i M hM
        have := gradEntry_reads (gs.map (·.2)) (by
          intro M hM
          obtain ⟨p, hp, rfl⟩ := List.mem_map.1 hM
          exact (hg p hp).2) i M hM
        refine ⟨this.dim, ?_⟩
        intro f hf j hj k hk
        rw [this.entry f hf j hj k hk]
        obtain rfl : j = 0 := by omega
        obtain rfl : k = 0 := by omega
        rfl)
    rw [h] at e
    obtain rfl := Res.ok.inj e
    refine ⟨s1.congr ?_, s2.congr ?_⟩
    · intro a _ b _ c _
      have := sumTo_gradEntry (gs.map (·.1)) a b c
      rw [List.length_map, List.map_map] at this
      rw [this]; rfl
    · intro a _ b _ c _
      have := sumTo_gradEntry (gs.map (·.2)) a 0 0
      rw [List.length_map, List.map_map] at this
      rw [this]; rfl
  obtain ⟨s1, t1⟩ := key h
  obtain ⟨s2, t2⟩ := key h'
  refine Prod.ext (s2.unique (s1.congr ?_)) (t2.unique (t1.congr ?_))
  · intro a _ b _ c _
    rw [hf _ _ (hp.map _) (by simp), hp.length_eq]
  · intro a _ b _ c _
    rw [hf _ _ (hp.map _) (by simp), hp.length_eq]

theorem OwnLabels.fetched {M : Model α} {evs : List (Event α)} (h : OwnLabels M evs) : FetchedOwn M evs :=
  fun t s x l _ hg => h t s x l hg

/-- A batch of one sample uses its label. -/
theorem fetchedOwn_one {E : Env α} {p : Hyper α} {T : Nat} (hp : p.batch = 1) (hq : p.threads = T) {sh : Shared α} (hM : sh.model.Prepared 1)
    {sched : List Nat} {q : Shared α × List (Event α)} (h : runBatch E p sched sh = .ok (some q)) : FetchedOwn sh.model q.2 := by
  obtain ⟨s, r, hs, hr, ho, _, h2, _⟩ := runBatch_split h
  rw [hp, hq] at hs
  obtain ⟨_, _, _, _, e6, _, _⟩ := run_end (B := 1) (by decide) hM.ready hs hr ho
  intro t slot x l hf hg
  rw [h2] at hf hg
  obtain ⟨e, he, rfl⟩ := run_labels (B := 1) (by decide) hs hr t slot x l hg
  have hlen : (fetches r.2).length = 1 := by
    have := List.length_pos_of_mem hf
    omega
  obtain ⟨e0, h0⟩ := List.length_eq_one_iff.1 hlen
  rw [h0, List.mem_singleton] at hf he
  rw [he, ← hf]

theorem Prepared.sound {M : Model α} {n i : Nat} {W Bi : Matrix α} (hM : M.Prepared n) (hpar : M.params i = some (W, Bi)) : Sound W Bi := by
  unfold Model.params at hpar
  cases hm : M.layers[i]? with
  | none => rw [hm] at hpar; simp at hpar
  | some l =>
    rw [hm, Option.bind_some] at hpar
    have hl := hM l (List.mem_of_getElem? hm)
    cases hb : l.body with
    | kernel K =>
      rw [hb] at hl hpar
      obtain ⟨rfl, rfl⟩ := Prod.mk.inj (Option.some.inj hpar)
      exact hl.2.2
    | connected L =>
      rw [hb] at hl hpar
      obtain ⟨rfl, rfl⟩ := Prod.mk.inj (Option.some.inj hpar)
      exact hl.2.2.2
    | _ => rw [hb] at hpar; simp [Body.params] at hpar

/-- A full batch in which every sample was used with its label: the samples are in the slots in some order. -/
theorem runBatch_fetched {E : Env α} {p : Hyper α} {B T : Nat} (hp : p.batch = B) (hq : p.threads = T) (hB : B < 2 ^ 24)
    {sh : Shared α} (hM : sh.model.Prepared B) (hfull : B ≤ sh.source.length) {sched : List Nat} {q : Shared α × List (Event α)}
    (h : runBatch E p sched sh = .ok (some q)) (hown : FetchedOwn sh.model q.2) :
    ∃ used : List (Sample α), used.Perm (sh.source.take B) ∧ ∀ i W Bi, sh.model.params i = some (W, Bi) →
      ∃ (gs : List (Matrix α × Matrix α)) (r : Matrix α × Matrix α), used.map (ownGrads E sh.model · i) = gs.map some ∧
        applyGrads E.num p.rate W Bi (gs.map (·.1)) (gs.map (·.2)) = .ok r ∧ q.1.model.params i = some r := by
  obtain ⟨s, r, hs, hr, ho, hM', h2, h3⟩ := runBatch_split h
  rw [hp, hq] at hs
  obtain ⟨e1, e3, e4, e5, e6, e7, e8⟩ := run_end hB hM.ready hs hr ho
  rw [Nat.min_eq_left hfull] at e6
  obtain ⟨fs, f1, f2⟩ := slots_order (fun e he => (e3 e.1 e.2.1 e.2.2 he).1) e5 e6
  refine ⟨fs.map (·.2.2), by rw [← e7]; exact f1.map _, ?_⟩
  intro i W Bi hpar
  obtain ⟨gs, rr, g1, g2, g3⟩ := Model.applyBatch_params (hM.of_bare e1) hM' (p := (W, Bi)) (by rw [Model.bare_params e1]; exact hpar)
  refine ⟨gs, rr, ?_, g2, g3⟩
  rw [← g1, ← f2, List.map_map, List.map_map]
  refine List.map_congr_left fun e he => ?_
  obtain ⟨t, s, x⟩ := e
  have he' := f1.subset he
  obtain ⟨hs, l, hl, hso⟩ := e3 t s x he'
  obtain rfl := hown t s x l (by rw [h2]; exact he') (by rw [h2]; exact hl)
  exact hso.ownGrads hM hs i

/-- Two runs of a full batch end with the same parameters if sums of the batch size do not depend on the order. -/
theorem runBatch_same {E : Env α} {p p' : Hyper α} {B T T' : Nat} (hf : OrderFree α B) (hp : p.batch = B) (hp' : p'.batch = B)
    (hq : p.threads = T) (hq' : p'.threads = T') (hr : p'.rate = p.rate) (hB : B < 2 ^ 24) (h0 : 0 < B) {sh sh' : Shared α}
    (hM : sh.model.Prepared B) (hl : sh.model.SoftmaxLast) (hbare : sh'.model.bare = sh.model.bare)
    (hsrc : sh'.source.take B = sh.source.take B) (hfull : B ≤ sh.source.length)
    {sched sched' : List Nat} {q q' : Shared α × List (Event α)} (h : runBatch E p sched sh = .ok (some q))
    (h' : runBatch E p' sched' sh' = .ok (some q')) (hown : FetchedOwn sh.model q.2) (hown' : FetchedOwn sh'.model q'.2) :
    q'.1.model.bare = q.1.model.bare := by
  have hM' := hM.of_bare hbare
  have hfull' : B ≤ sh'.source.length := by
    have := congrArg List.length hsrc
    rw [List.length_take, List.length_take] at this
    omega
  obtain ⟨M, e1, e2, _⟩ := runBatch_end hp hq hB hM h
  obtain ⟨M', e1', e2', _⟩ := runBatch_end hp' hq' hB hM' h'
  rw [hr] at e2'
  refine Model.applyBatch_bare (e1'.trans (hbare.trans e1.symm)) e2' e2 fun i => ?_
  obtain ⟨used, u1, u2⟩ := runBatch_fetched hp hq hB hM hfull h hown
  obtain ⟨used', u1', u2'⟩ := runBatch_fetched hp' hq' hB hM' hfull' h' hown'
  rw [hsrc] at u1'
  cases hpar : sh.model.params i with
  | some v =>
    obtain ⟨W, Bi⟩ := v
    obtain ⟨gs, r, k1, k2, k3⟩ := u2 i W Bi hpar
    obtain ⟨gs', r', k1', k2', k3'⟩ := u2' i W Bi (by rw [Model.bare_params hbare]; exact hpar)
    have hpm : (gs.map some).Perm (gs'.map some) := by
      rw [← k1, ← k1', show (ownGrads E sh'.model · i) = (ownGrads E sh.model · i) from funext fun x => ownGrads_bare h0 hM hl hbare i]
      exact (u1.trans u1'.symm).map _
    have hgs : gs.Perm gs' := by
      have := hpm.filterMap id
      simpa [List.filterMap_map] using this
    have hlen : gs.length = B := by
      have := congrArg List.length k1
      rw [List.length_map, List.length_map, u1.length_eq, List.length_take, Nat.min_eq_left hfull] at this
      exact this.symm
    obtain ⟨⟨X, Y, Z, w, s1⟩, F, b, s2⟩ := Prepared.sound hM hpar
    rw [hr] at k2'
    rw [k3, k3', applyGrads_orderFree s1 s2 (hlen.symm ▸ hf) hgs k2 k2']
  | none =>
    have a := Model.applyBatch_params_none e2 (by rw [Model.bare_params e1]; exact hpar)
    have b := Model.applyBatch_params_none e2' (by rw [Model.bare_params e1', Model.bare_params hbare]; exact hpar)
    rw [a, b]

theorem runBatches_cons {E : Env α} {p : Hyper α} {s : List Nat} {ss : List (List Nat)} {sh : Shared α} {q}
    (h : runBatches E p (s :: ss) sh = .ok (some q)) :
    ∃ r u, runBatch E p s sh = .ok (some r) ∧ runBatches E p ss r.1 = .ok (some u) ∧ q = (u.1, r.2 ++ u.2) := by
  simp only [runBatches] at h
  obtain ⟨o, e, h⟩ := Res.bind_eq_ok h
  cases o with
  | none => exact absurd h (by simp)
  | some r =>
    simp only at h
    obtain ⟨u, f, h⟩ := Res.bind_eq_ok h
    cases u with
    | none => exact absurd h (by simp)
    | some u => exact ⟨r, u, e, f, (Option.some.inj (Res.ok.inj h)).symm⟩

/-- An update keeps a model prepared, in any arithmetic. -/
theorem Body.Prepared.update {N : Num α} {lr : α} {n : Nat} {B B' : Body α} (hB : B.Prepared n)
    (h : B.applyBatch N lr = .ok B') : B'.Prepared n := by
  have step : ∀ {W Bi : Matrix α} {w b : List (Matrix α)} {r : Matrix α × Matrix α}, w.length = n → b.length = n → Sound W Bi →
      applyGrads N lr W Bi w b = .ok r → Sound r.1 r.2 := by
    intro W Bi w b r h1 h2 hs hr
    obtain ⟨⟨X, Y, Z, f, s1⟩, F, k, s2⟩ := hs
    obtain ⟨r', f', k', e, t1, t2⟩ := applyGrads_of_reads (N := N) (lr := lr) s1 s2 h1 h2 (by rw [← h1]; exact applyGrads_inv s1 s2 hr)
    rw [hr] at e
    obtain rfl := Res.ok.inj e
    exact ⟨⟨X, Y, Z, f', t1⟩, F, k', t2⟩
  cases B with
  | kernel K =>
    obtain ⟨h1, h2, h3⟩ := hB
    obtain ⟨K', e, h⟩ := Res.bind_eq_ok h
    obtain rfl := Res.ok.inj h
    unfold Kernel.applyBatch at e
    obtain ⟨r, e1, e⟩ := Res.bind_eq_ok e
    obtain rfl := Res.ok.inj e
    exact ⟨h1, h2, step h1 h2 h3 e1⟩
  | connected L =>
    obtain ⟨h0, h1, h2, h3⟩ := hB
    obtain ⟨K', e, h⟩ := Res.bind_eq_ok h
    obtain rfl := Res.ok.inj h
    unfold Connected.applyBatch at e
    obtain ⟨r, e1, e⟩ := Res.bind_eq_ok e
    obtain rfl := Res.ok.inj e
    exact ⟨h0, h1, h2, step h1 h2 h3 e1⟩
  | pooling P => obtain rfl := Res.ok.inj h; exact hB
  | activation A => obtain rfl := Res.ok.inj h; exact hB
  | softmax S => obtain rfl := Res.ok.inj h; exact hB

theorem Model.Prepared.update {N : Num α} {lr : α} {n : Nat} {M M' : Model α} (hM : M.Prepared n)
    (h : M.applyBatch N lr = .ok M') : M'.Prepared n := by
  obtain ⟨h1, _, h3⟩ := applyBatch_get h
  intro l hl
  obtain ⟨i, hi⟩ := List.mem_iff_getElem?.1 hl
  have hlt := (List.getElem?_eq_some_iff.1 hi).1
  have hm : M.layers[i]? = some M.layers[i] := List.getElem?_eq_getElem (by omega)
  obtain ⟨b, e1, e2⟩ := h3 i _ hm
  rw [hi] at e2
  obtain rfl := Option.some.inj e2
  exact (hM _ (List.getElem_mem _)).update e1

/-- Several full batches; the batch size is one, or all gradients used the right label. -/
theorem runBatches_same {E : Env α} {p p' : Hyper α} {B T T' : Nat} (hf : OrderFree α B) (hp : p.batch = B) (hp' : p'.batch = B)
    (hq : p.threads = T) (hq' : p'.threads = T') (hr : p'.rate = p.rate) (hB : B < 2 ^ 24) (h0 : 0 < B)
    (scheds scheds' : List (List Nat)) (hs : scheds'.length = scheds.length) : ∀ (sh sh' : Shared α),
    sh.model.Prepared B → sh.model.SoftmaxLast → sh'.model.bare = sh.model.bare → sh'.source = sh.source →
    B * scheds.length ≤ sh.source.length → ∀ (q q' : Shared α × List (Event α)), runBatches E p scheds sh = .ok (some q) →
    runBatches E p' scheds' sh' = .ok (some q') → B = 1 ∨ (OwnLabels sh.model q.2 ∧ OwnLabels sh.model q'.2) →
    q'.1.model.bare = q.1.model.bare ∧ q.1.model.Prepared B ∧ q.1.model.SoftmaxLast := by
  induction scheds generalizing scheds' with
  | nil =>
    intro sh sh' hM hl hb _ _ q q' h h' _
    obtain rfl : scheds' = [] := List.eq_nil_of_length_eq_zero (by simpa using hs)
    obtain rfl := Option.some.inj (Res.ok.inj h)
    obtain rfl := Option.some.inj (Res.ok.inj h')
    exact ⟨hb, hM, hl⟩
  | cons s ss ih =>
    intro sh sh' hM hl hb hsrc hfull q q' h h' ho
    obtain ⟨s', ss', rfl⟩ : ∃ s' ss', scheds' = s' :: ss' := by
      cases scheds' with
      | nil => simp at hs
      | cons a b => exact ⟨a, b, rfl⟩
    obtain ⟨r, u, e, f, rfl⟩ := runBatches_cons h
    obtain ⟨r', u', e', f', rfl⟩ := runBatches_cons h'
    rw [List.length_cons, Nat.mul_succ] at hfull
    have hlab : sh'.model.labels = sh.model.labels := bare_labels hb
    obtain ⟨M, m1, m2, _, _, _, _, _, m3⟩ := runBatch_end hp hq hB hM e
    obtain ⟨M', m1', m2', _, _, _, _, _, m3'⟩ := runBatch_end hp' hq' hB (hM.of_bare hb) e'
    have hM1 : r.1.model.Prepared B := Model.Prepared.update (hM.of_bare m1) m2
    have hl1 : r.1.model.SoftmaxLast := (hl.of_bare m1).applyBatch m2
    have hlr : r.1.model.labels = sh.model.labels := (Model.applyBatch_labels m2).trans (bare_labels m1)
    have own : FetchedOwn sh.model r.2 ∧ FetchedOwn sh'.model r'.2 := by
      rcases ho with rfl | ⟨ho, ho'⟩
      · exact ⟨fetchedOwn_one hp hq hM e, fetchedOwn_one hp' hq' (hM.of_bare hb) e'⟩
      · refine ⟨fun t sl x l _ hm => ?_, fun t sl x l _ hm => ?_⟩
        · exact ho t sl x l (by simp only [grads_append]; exact List.mem_append_left _ hm)
        have := ho' t sl x l (by simp only [grads_append]; exact List.mem_append_left _ hm)
        rw [this, labelIndex, labelIndex, hlab]
    have step := runBatch_same hf hp hp' hq hq' hr hB h0 hM hl hb (by rw [hsrc]) (by omega) e e' own.1 own.2
    refine ih ss' (by simpa using hs) r.1 r'.1 hM1 hl1 step (by rw [m3, m3', hsrc]) (by rw [m3, List.length_drop]; omega) u u' f f' ?_
    rcases ho with ho | ⟨ho, ho'⟩
    · exact .inl ho
    · refine .inr ⟨?_, ?_⟩
      · intro t sl x l hm
        have := ho t sl x l (by simp only [grads_append]; exact List.mem_append_right _ hm)
        rw [this, labelIndex, labelIndex, hlr]
      · intro t sl x l hm
        have := ho' t sl x l (by simp only [grads_append]; exact List.mem_append_right _ hm)
        rw [this, labelIndex, labelIndex, hlr]

/-- What a completed epoch over a source of the reported size consists of. -/
theorem runEpoch_inv {E : Env α} {p : Hyper α} {B size : Nat} (hp : p.batch = B) (h0 : 0 < B) (hsz : size < 2 ^ 24) {scheds : List (List Nat)} {sh : Shared α}
    {q : Shared α × List (Event α)} (h : runEpoch E p size scheds sh = .ok (some q)) :
    (∃ T : Nat, p.threads = T) ∧ scheds.length = (size + B - 1) / B ∧ runBatches E p scheds { sh with hits := 0 } = .ok (some q) := by
  unfold runEpoch at h
  by_cases ht : p.threads < 0
  · rw [if_pos ht] at h; exact absurd h (by simp)
  rw [if_neg ht] at h
  obtain ⟨_, _, h⟩ := Res.bind_eq_ok h
  rw [if_neg (by omega), hp, numBatches_eq size B hsz h0, Res.bind_ok] at h
  by_cases hl : scheds.length = (((size + B - 1) / B : Nat) : Int).toNat
  · rw [if_pos hl] at h
    exact ⟨⟨p.threads.toNat, by omega⟩, by rw [hl, Int.toNat_natCast], h⟩
  · rw [if_neg hl] at h; exact absurd (Res.ok.inj h) (by simp)

theorem epochRuns_same {E : Env α} {p p' : Hyper α} (hp : p.batch = 1) (hp' : p'.batch = 1) (hr : p'.rate = p.rate) {size : Nat} (hsz : size < 2 ^ 24) :
    ∀ (es es' : List (List (List Nat) × List (Sample α))) (M M' : Model α) {N N' : Model α}, es.map Prod.snd = es'.map Prod.snd →
    (∀ e ∈ es, size ≤ e.2.length) → M.Prepared 1 → M.SoftmaxLast → M'.bare = M.bare →
    es.foldlM (epochRuns E p size) (some M) = .ok (some N) →
    es'.foldlM (epochRuns E p' size) (some M') = .ok (some N') → N'.bare = N.bare
  | [], [], M, M', N, N', _, _, _, _, hb, h, h' => by
    obtain rfl := Option.some.inj (Res.ok.inj h)
    obtain rfl := Option.some.inj (Res.ok.inj h')
    exact hb
  | [], _ :: _, _, _, _, _, hs, _, _, _, _, _, _ => by simp at hs
  | _ :: _, [], _, _, _, _, hs, _, _, _, _, _, _ => by simp at hs
  | e :: es, e' :: es', M, M', N, N', hs, hlen, hM, hl, hb, h, h' => by
    simp only [List.map_cons, List.cons.injEq] at hs
    rw [List.foldlM_cons] at h h'
    obtain ⟨o, ho, h⟩ := Res.bind_eq_ok h
    obtain ⟨o', ho', h'⟩ := Res.bind_eq_ok h'
    obtain ⟨a, ha, hoo⟩ := Res.bind_eq_ok ho
    obtain ⟨a', ha', hoo'⟩ := Res.bind_eq_ok ho'
    obtain rfl := Res.ok.inj hoo
    obtain rfl := Res.ok.inj hoo'
    cases a with
    | none =>
      rw [Option.map_none, epochRuns_none] at h
      exact absurd (Res.ok.inj h) (by simp)
    | some a =>
      cases a' with
      | none =>
        rw [Option.map_none, epochRuns_none] at h'
        exact absurd (Res.ok.inj h') (by simp)
      | some a' =>
        obtain ⟨⟨T, hT⟩, n1, r1⟩ := runEpoch_inv hp Nat.one_pos hsz ha
        obtain ⟨⟨T', hT'⟩, n2, r2⟩ := runEpoch_inv hp' Nat.one_pos hsz ha'
        obtain ⟨k1, k2, k3⟩ := runBatches_same OrderFree.one hp hp' hT hT' hr (by decide) Nat.one_pos e.1 e'.1 (n2.trans n1.symm) _ _ hM hl hb hs.1.symm
          (by have := hlen e (by simp); simp only [n1, one_mul, Nat.add_sub_cancel, Nat.div_one]; exact this) a a' r1 r2 (.inl rfl)
        exact epochRuns_same hp hp' hr hsz es es' _ _ hs.2 (fun e he => hlen e (by simp [he])) k2 k3 k1 h h'

theorem train_same {E : Env α} {p p' : Hyper α} (hp : p.batch = 1) (hp' : p'.batch = 1) (hr : p'.rate = p.rate) {size : Nat} (hsz : size < 2 ^ 24) {M : Model α}
    (hM : (M.setBatchSize 1).Prepared 1) (hl : (M.setBatchSize 1).SoftmaxLast) {es es' : List (List (List Nat) × List (Sample α))}
    (hs : es.map Prod.snd = es'.map Prod.snd) (hlen : ∀ e ∈ es, size ≤ e.2.length) {N N' : Model α} (h : train E p size es M = .ok (some N))
    (h' : train E p' size es' M = .ok (some N')) : N'.bare = N.bare := by
  unfold train at h h'
  obtain ⟨u, hu, h⟩ := Res.bind_eq_ok h
  obtain ⟨u', hu', h'⟩ := Res.bind_eq_ok h'
  by_cases h1 : es.length = p.epochs.toNat
  swap
  · rw [if_neg h1] at h
    exact absurd (Res.ok.inj h) (by simp)
  by_cases h2 : es'.length = p'.epochs.toNat
  swap
  · rw [if_neg h2] at h'
    exact absurd (Res.ok.inj h') (by simp)
  rw [if_pos h1, hp] at h
  rw [if_pos h2, hp'] at h'
  have hu1 : u64 1 = 1 := by decide
  rw [hu1] at h h'
  exact epochRuns_same hp hp' hr hsz es es' _ _ hs hlen hM hl rfl h h'

end Cnn
