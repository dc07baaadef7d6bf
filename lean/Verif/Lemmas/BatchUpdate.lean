import Verif.Lemmas.SlotAlone
import Verif.Lemmas.GradPerm
/-! Helper lemmas: the update after a batch (C53, C54). -/
set_option linter.unusedSectionVars false
namespace Cnn
variable {α : Type}

theorem mapM_get {β γ : Type} {f : β → Res γ} {l : List β} {r : List γ} (h : l.mapM f = .ok r) :
    r.length = l.length ∧ ∀ (i : Nat) (x : β), l[i]? = some x → ∃ y, f x = .ok y ∧ r[i]? = some y := by
  induction l generalizing r with
  | nil =>
    simp only [List.mapM_nil] at h
    obtain rfl := Res.ok.inj h
    exact ⟨rfl, by simp⟩
  | cons a l ih =>
    rw [List.mapM_cons] at h
    obtain ⟨y, hy, h⟩ := Res.bind_eq_ok h
    obtain ⟨ys, hys, h⟩ := Res.bind_eq_ok h
    obtain rfl := Res.ok.inj h
    obtain ⟨h1, h2⟩ := ih hys
    refine ⟨by simp [h1], ?_⟩
    intro i x hx
    cases i with
    | zero =>
      simp only [List.getElem?_cons_zero, Option.some.injEq] at hx
      subst hx
      exact ⟨y, hy, rfl⟩
    | succ i =>
      simp only [List.getElem?_cons_succ] at hx ⊢
      exact h2 i x hx

section
variable [Zero α] [One α] [Add α] [Sub α] [Mul α] [Div α] [Neg α]

theorem Model.applyBatch_get {N : Num α} {lr : α} {M M' : Model α} (h : M.applyBatch N lr = .ok M') :
    M'.layers.length = M.layers.length ∧ M' = { M with layers := M'.layers } ∧
    ∀ (i : Nat) (l : Layer α), M.layers[i]? = some l → ∃ b, l.body.applyBatch N lr = .ok b ∧ M'.layers[i]? = some { l with body := b } := by
  unfold Model.applyBatch at h
  obtain ⟨ls, e, h⟩ := Res.bind_eq_ok h
  obtain rfl := Res.ok.inj h
  obtain ⟨h1, h2⟩ := mapM_get e
  refine ⟨h1, rfl, ?_⟩
  intro i l hl
  obtain ⟨y, hy, hy'⟩ := h2 i l hl
  obtain ⟨b, hb, hy⟩ := Res.bind_eq_ok hy
  obtain rfl := Res.ok.inj hy
  exact ⟨b, hb, hy'⟩

/-- The update of a layer: one gradient step over all its slots. -/
theorem Body.applyBatch_params {N : Num α} {lr : α} {n : Nat} {B B' : Body α} {p : Matrix α × Matrix α} (hB : B.Prepared n)
    (h : B.applyBatch N lr = .ok B') (hp : B.params = some p) : ∃ (gs : List (Matrix α × Matrix α)) (r : Matrix α × Matrix α), (List.range n).map (B.stored ·) = gs.map some ∧
      applyGrads N lr p.1 p.2 (gs.map (·.1)) (gs.map (·.2)) = .ok r ∧ B'.params = some r := by
  have key : ∀ (w b : List (Matrix α)), w.length = n → b.length = n →
      ∃ gs : List (Matrix α × Matrix α), (List.range n).map (fun s => w[s]?.bind fun g => b[s]?.map fun h => (g, h)) = gs.map some ∧
        gs.map (·.1) = w ∧ gs.map (·.2) = b := by
    intro w b hw hb
    refine ⟨w.zip b, ?_, ?_, ?_⟩
    · apply List.ext_getElem (by simp [hw, hb])
      intro i h1 h2
      simp only [List.length_map, List.length_range] at h1
      simp [List.getElem?_eq_getElem (show i < w.length by omega), List.getElem?_eq_getElem (show i < b.length by omega)]
    · exact List.map_fst_zip (by omega)
    · exact List.map_snd_zip (by omega)
  cases B with
  | kernel K =>
    obtain ⟨h1, h2, _⟩ := hB
    obtain rfl := Option.some.inj hp
    obtain ⟨K', e, h⟩ := Res.bind_eq_ok h
    obtain rfl := Res.ok.inj h
    unfold Kernel.applyBatch at e
    obtain ⟨r, e1, e⟩ := Res.bind_eq_ok e
    obtain rfl := Res.ok.inj e
    obtain ⟨gs, g1, g2, g3⟩ := key _ _ h1 h2
    exact ⟨gs, r, g1, by rw [g2, g3]; exact e1, rfl⟩
  | connected L =>
    obtain ⟨_, h1, h2, _⟩ := hB
    obtain rfl := Option.some.inj hp
    obtain ⟨K', e, h⟩ := Res.bind_eq_ok h
    obtain rfl := Res.ok.inj h
    unfold Connected.applyBatch at e
    obtain ⟨r, e1, e⟩ := Res.bind_eq_ok e
    obtain rfl := Res.ok.inj e
    obtain ⟨gs, g1, g2, g3⟩ := key _ _ h1 h2
    exact ⟨gs, r, g1, by rw [g2, g3]; exact e1, rfl⟩
  | _ => simp [Body.params] at hp

theorem Model.applyBatch_params {N : Num α} {lr : α} {n i : Nat} {M M' : Model α} {p : Matrix α × Matrix α} (hM : M.Prepared n)
    (h : M.applyBatch N lr = .ok M') (hp : M.params i = some p) : ∃ (gs : List (Matrix α × Matrix α)) (r : Matrix α × Matrix α), (List.range n).map (M.stored i ·) = gs.map some ∧
      applyGrads N lr p.1 p.2 (gs.map (·.1)) (gs.map (·.2)) = .ok r ∧ M'.params i = some r := by
  unfold Model.params at hp
  cases hm : M.layers[i]? with
  | none => rw [hm] at hp; simp at hp
  | some l =>
    rw [hm, Option.bind_some] at hp
    obtain ⟨b, hb, hm'⟩ := (applyBatch_get h).2.2 i l hm
    obtain ⟨gs, r, e1, e2, e3⟩ := Body.applyBatch_params (hM l (List.mem_of_getElem? hm)) hb hp
    refine ⟨gs, r, ?_, e2, ?_⟩
    · simp only [Model.stored, hm, Option.bind_some]; exact e1
    · simp only [Model.params, hm', Option.bind_some]; exact e3

theorem Model.applyBatch_labels {N : Num α} {lr : α} {M M' : Model α} (h : M.applyBatch N lr = .ok M') : M'.labels = M.labels := by
  rw [(applyBatch_get h).2.1]

/-- A layer without parameters is not changed by an update. -/
theorem Body.applyBatch_none {N : Num α} {lr : α} {B B' : Body α} (h : B.applyBatch N lr = .ok B') (hp : B.params = none) :
    B' = B := by
  cases B with
  | kernel K => simp [Body.params] at hp
  | connected L => simp [Body.params] at hp
  | pooling P => exact (Res.ok.inj h).symm
  | activation A => exact (Res.ok.inj h).symm
  | softmax S => exact (Res.ok.inj h).symm

theorem Model.applyBatch_params_none {N : Num α} {lr : α} {i : Nat} {M M' : Model α} (h : M.applyBatch N lr = .ok M')
    (hp : M.params i = none) : M'.params i = none := by
  obtain ⟨h1, _, h3⟩ := applyBatch_get h
  unfold Model.params at hp ⊢
  cases hm : M.layers[i]? with
  | none =>
    rw [List.getElem?_eq_none_iff] at hm
    rw [List.getElem?_eq_none (by omega)]; rfl
  | some l =>
    rw [hm, Option.bind_some] at hp
    obtain ⟨b, hb, hm'⟩ := h3 i l hm
    rw [hm', Option.bind_some]
    simp only
    rw [Body.applyBatch_none hb hp, hp]

theorem Model.SoftmaxLast.applyBatch {N : Num α} {lr : α} {M M' : Model α} (hM : M.SoftmaxLast)
    (h : M.applyBatch N lr = .ok M') : M'.SoftmaxLast := by
  obtain ⟨h1, _, h3⟩ := applyBatch_get h
  intro i l S hl hS
  have hlt := (List.getElem?_eq_some_iff.1 hl).1
  have hm : M.layers[i]? = some M.layers[i] := List.getElem?_eq_getElem (by omega)
  obtain ⟨b, e1, e2⟩ := h3 i _ hm
  rw [hl] at e2
  obtain rfl := Option.some.inj e2
  simp only at hS
  subst hS
  rw [h1]
  cases hb : (M.layers[i]).body with
  | softmax S' => exact hM i _ S' hm hb
  | kernel K =>
    rw [hb] at e1
    obtain ⟨_, _, e⟩ := Res.bind_eq_ok e1
    exact absurd e (by simp)
  | connected K =>
    rw [hb] at e1
    obtain ⟨_, _, e⟩ := Res.bind_eq_ok e1
    exact absurd e (by simp)
  | pooling P => rw [hb] at e1; exact absurd e1 (by simp [Body.applyBatch])
  | activation P => rw [hb] at e1; exact absurd e1 (by simp [Body.applyBatch])


/-- Layers that agree but for the slots still do after an update that gives them the same parameters. -/
theorem Body.applyBatch_bare {N : Num α} {lr : α} {B C B' C' : Body α} (h : B.bare = C.bare) (hB : B.applyBatch N lr = .ok B')
    (hC : C.applyBatch N lr = .ok C') (hp : B'.params = C'.params) : B'.bare = C'.bare := by
  cases B with
  | kernel K =>
    cases C with
    | kernel K' =>
      obtain ⟨L, e, hB⟩ := Res.bind_eq_ok hB
      obtain rfl := Res.ok.inj hB
      obtain ⟨L', e', hC⟩ := Res.bind_eq_ok hC
      obtain rfl := Res.ok.inj hC
      unfold Kernel.applyBatch at e e'
      obtain ⟨r, e1, e⟩ := Res.bind_eq_ok e
      obtain rfl := Res.ok.inj e
      obtain ⟨r', e1', e'⟩ := Res.bind_eq_ok e'
      obtain rfl := Res.ok.inj e'
      simp only [Body.params, Option.some.injEq, Prod.mk.injEq] at hp
      simp only [bare, Body.kernel.injEq, Kernel.mk.injEq] at h ⊢
      obtain ⟨a1, a2, a3, _, _, a6, a7⟩ := h
      exact ⟨a1, a2, a3, hp.1, hp.2, a6, a7⟩
    | _ => exact absurd h (by simp [bare])
  | connected L =>
    cases C with
    | connected K' =>
      obtain ⟨L, e, hB⟩ := Res.bind_eq_ok hB
      obtain rfl := Res.ok.inj hB
      obtain ⟨L', e', hC⟩ := Res.bind_eq_ok hC
      obtain rfl := Res.ok.inj hC
      unfold Connected.applyBatch at e e'
      obtain ⟨r, e1, e⟩ := Res.bind_eq_ok e
      obtain rfl := Res.ok.inj e
      obtain ⟨r', e1', e'⟩ := Res.bind_eq_ok e'
      obtain rfl := Res.ok.inj e'
      simp only [Body.params, Option.some.injEq, Prod.mk.injEq] at hp
      simp only [bare, Body.connected.injEq, Connected.mk.injEq] at h ⊢
      obtain ⟨_, _, a3, a4, a6, a7⟩ := h
      exact ⟨hp.1, hp.2, a3, a4, a6, a7⟩
    | _ => exact absurd h (by simp [bare])
  | pooling P =>
    obtain rfl := Res.ok.inj hB
    cases C with
    | pooling P' => obtain rfl := Res.ok.inj hC; exact h
    | _ => exact absurd h (by simp [bare])
  | activation P =>
    obtain rfl := Res.ok.inj hB
    cases C with
    | activation P' => obtain rfl := Res.ok.inj hC; exact h
    | _ => exact absurd h (by simp [bare])
  | softmax P =>
    obtain rfl := Res.ok.inj hB
    cases C with
    | softmax P' => obtain rfl := Res.ok.inj hC; exact h
    | _ => exact absurd h (by simp [bare])

theorem Body.bare_params {B C : Body α} (h : B.bare = C.bare) : B.params = C.params := by
  have : ∀ B : Body α, B.bare.params = B.params := by intro B; cases B <;> rfl
  rw [← this B, h, this]

theorem Model.bare_params {M M' : Model α} (h : M.bare = M'.bare) (i : Nat) : M.params i = M'.params i := by
  have := bare_get h i
  unfold Model.params
  cases hm : M.layers[i]? with
  | none =>
    rw [hm] at this
    cases hm' : M'.layers[i]? with
    | none => rfl
    | some l => rw [hm'] at this; simp at this
  | some l =>
    rw [hm] at this
    cases hm' : M'.layers[i]? with
    | none => rw [hm'] at this; simp at this
    | some l' =>
      rw [hm'] at this
      simp only [Option.map_some, Option.some.injEq] at this
      exact Body.bare_params this

theorem Model.applyBatch_bare {N : Num α} {lr : α} {M M' L L' : Model α} (h : M.bare = L.bare) (hM : M.applyBatch N lr = .ok M')
    (hL : L.applyBatch N lr = .ok L') (hp : ∀ i, M'.params i = L'.params i) : M'.bare = L'.bare := by
  obtain ⟨m1, m2, m3⟩ := applyBatch_get hM
  obtain ⟨l1, l2, l3⟩ := applyBatch_get hL
  have hlen := bare_len h
  have hls : M'.bare.layers = L'.bare.layers := by
    apply List.ext_getElem?
    intro i
    simp only [bare, List.getElem?_map]
    cases hm : M.layers[i]? with
    | none =>
      rw [List.getElem?_eq_none_iff] at hm
      rw [show M'.layers[i]? = none from List.getElem?_eq_none (by omega),
        show L'.layers[i]? = none from List.getElem?_eq_none (by omega)]
    | some y =>
      have hi := (List.getElem?_eq_some_iff.1 hm).1
      have hl : L.layers[i]? = some L.layers[i] := List.getElem?_eq_getElem (by omega)
      obtain ⟨b, e1, e2⟩ := m3 i y hm
      obtain ⟨c, e3, e4⟩ := l3 i _ hl
      have hpi := hp i
      have hb := congrArg (fun m : Model α => m.layers[i]?) h
      simp only [bare, List.getElem?_map, hm, hl, Option.map_some, Option.some.injEq, Layer.mk.injEq] at hb
      simp only [Model.params, e2, e4, Option.bind_some] at hpi
      rw [e2, e4]
      simp only [Option.map_some, Option.some.injEq, Layer.mk.injEq]
      exact ⟨hb.1, Body.applyBatch_bare hb.2 e1 e3 hpi⟩
  have g : ∀ {β : Type} (f : Model α → β), f M.bare = f L.bare := fun f => by rw [h]
  refine Model.ext hls ?_ ?_ ?_ ?_ ?_ ?_
  · rw [m2, l2]; exact g (·.labels)
  · rw [m2, l2]; exact g (·.softmax)
  · rw [m2, l2]; exact g (·.kernels)
  · rw [m2, l2]; exact g (·.poolings)
  · rw [m2, l2]; exact g (·.connecteds)
  · rw [m2, l2]; exact g (·.activations)

/-- An update keeps a model prepared. -/
theorem Body.Prepared.applyBatch {α : Type} [Field α] {N : Num α} {lr : α} {n : Nat} {B B' : Body α} (hB : B.Prepared n)
    (h : B.applyBatch N lr = .ok B') : B'.Prepared n := by
  have step : ∀ {W Bi : Matrix α} {w b : List (Matrix α)} {r : Matrix α × Matrix α}, w.length = n → b.length = n → Sound W Bi →
      applyGrads N lr W Bi w b = .ok r → Sound r.1 r.2 := by
    intro W Bi w b r h1 h2 hs hr
    obtain ⟨⟨X, Y, Z, f, s1⟩, F, k, s2⟩ := hs
    have e1 : (w.zip b).map (·.1) = w := List.map_fst_zip (by omega)
    have e2 : (w.zip b).map (·.2) = b := List.map_snd_zip (by omega)
    obtain ⟨_, ⟨f', t1⟩, k', t2⟩ := applyGrads_perm s1 s2 (List.Perm.refl (w.zip b)) (by rw [e1, e2]; exact hr)
    exact ⟨⟨X, Y, Z, f', t1⟩, F, k', t2⟩
  cases B with
  | kernel K =>
    obtain ⟨h1, h2, h3⟩ := hB
    obtain ⟨K', e, h⟩ := Res.bind_eq_ok h
    obtain rfl := Res.ok.inj h
    unfold Kernel.applyBatch at e
    obtain ⟨r, e1, e⟩ := Res.bind_eq_ok e
    obtain rfl := Res.ok.inj e
    exact ⟨h1, h2, step h1 h2 h3 e1⟩
  | connected L =>
    obtain ⟨h0, h1, h2, h3⟩ := hB
    obtain ⟨K', e, h⟩ := Res.bind_eq_ok h
    obtain rfl := Res.ok.inj h
    unfold Connected.applyBatch at e
    obtain ⟨r, e1, e⟩ := Res.bind_eq_ok e
    obtain rfl := Res.ok.inj e
    exact ⟨h0, h1, h2, step h1 h2 h3 e1⟩
  | pooling P => obtain rfl := Res.ok.inj h; exact hB
  | activation A => obtain rfl := Res.ok.inj h; exact hB
  | softmax S => obtain rfl := Res.ok.inj h; exact hB

theorem Model.Prepared.applyBatch {α : Type} [Field α] {N : Num α} {lr : α} {n : Nat} {M M' : Model α} (hM : M.Prepared n)
    (h : M.applyBatch N lr = .ok M') : M'.Prepared n := by
  obtain ⟨h1, _, h3⟩ := applyBatch_get h
  intro l hl
  obtain ⟨i, hi⟩ := List.mem_iff_getElem?.1 hl
  have hlt := (List.getElem?_eq_some_iff.1 hi).1
  have hm : M.layers[i]? = some M.layers[i] := List.getElem?_eq_getElem (by omega)
  obtain ⟨b, e1, e2⟩ := h3 i _ hm
  rw [hi] at e2
  obtain rfl := Option.some.inj e2
  exact (hM _ (List.getElem_mem _)).applyBatch e1

end

theorem Model.SoftmaxLast.of_bare {M M' : Model α} (hM : M.SoftmaxLast) (h : M'.bare = M.bare) : M'.SoftmaxLast := by
  intro i l S hl hS
  have hg := bare_get h i
  rw [hl] at hg
  cases hm : M.layers[i]? with
  | none => rw [hm] at hg; simp at hg
  | some k =>
    rw [hm] at hg
    simp only [Option.map_some, Option.some.injEq, hS] at hg
    cases hk : k.body with
    | softmax S' => rw [bare_len h]; exact hM i k S' hm hk
    | _ => rw [hk] at hg; simp [Body.bare] at hg

theorem Body.Prepared.same_bare {n : Nat} {B C : Body α} (hn : 0 < n) (h : B.Prepared n) (h' : C.Prepared n) (hb : C.bare = B.bare)
    (hs : ∀ S, B ≠ .softmax S) : Body.Same False False (B.see 0) (C.see 0) := by
  have opt : ∀ {β : Type} (l : List β), l.length = n → (l[0]?.toList).length = 1 := by
    intro β l hl
    rw [List.getElem?_eq_getElem (by omega)]; rfl
  cases B with
  | kernel K =>
    cases C with
    | kernel K' =>
      simp only [bare, Body.kernel.injEq, Kernel.mk.injEq] at hb
      have : Body.kernel (α := α) { K' with wGrads := K'.wGrads[0]?.toList, bGrads := K'.bGrads[0]?.toList } =
          .kernel { K with wGrads := K'.wGrads[0]?.toList, bGrads := K'.bGrads[0]?.toList } := by
        obtain ⟨e1, e2, e3, e4, e5, _⟩ := hb
        simp only [e1, e2, e3, e4, e5]
      simp only [see]
      rw [this]
      exact .kernel { K with wGrads := K.wGrads[0]?.toList, bGrads := K.bGrads[0]?.toList } _ _ (opt _ h.1) (opt _ h.2.1)
        (opt _ h'.1) (opt _ h'.2.1) (fun a => a.elim)
    | _ => exact absurd hb (by simp [bare])
  | pooling P =>
    cases C with
    | pooling P' =>
      simp only [bare, Body.pooling.injEq, Pooling.mk.injEq] at hb
      have : Body.pooling (α := α) { P' with indices := P'.indices[0]?.toList } =
          .pooling { P with indices := P'.indices[0]?.toList } := by
        obtain ⟨e1, e2, e3, _⟩ := hb
        simp only [e1, e2, e3]
      simp only [see]
      rw [this]
      exact .pooling { P with indices := P.indices[0]?.toList } _ (opt _ h.1) (opt _ h'.1) h.2.1 h.2.2 (fun a => a.elim)
    | _ => exact absurd hb (by simp [bare])
  | connected L =>
    cases C with
    | connected L' =>
      simp only [bare, Body.connected.injEq, Connected.mk.injEq] at hb
      have : Body.connected (α := α) { L' with wGrads := L'.wGrads[0]?.toList, bGrads := L'.bGrads[0]?.toList } =
          .connected { L with wGrads := L'.wGrads[0]?.toList, bGrads := L'.bGrads[0]?.toList } := by
        obtain ⟨e1, e2, e3, e4, _⟩ := hb
        simp only [e1, e2, e3, e4]
      simp only [see]
      rw [this]
      exact .connected { L with wGrads := L.wGrads[0]?.toList, bGrads := L.bGrads[0]?.toList } _ _ h.1 (opt _ h.2.1) (opt _ h.2.2.1)
        (opt _ h'.2.1) (opt _ h'.2.2.1) (fun a => a.elim)
    | _ => exact absurd hb (by simp [bare])
  | activation A =>
    cases C with
    | activation A' =>
      simp only [bare, Body.activation.injEq] at hb
      subst hb
      exact .activation _
    | _ => exact absurd hb (by simp [bare])
  | softmax S => exact absurd rfl (hs S)

namespace Train
open Model

section
variable [Zero α] [One α] [Add α] [Sub α] [Mul α] [Div α] [Neg α]

/-- What the threads of a batch leave behind: the slots contain what the samples gave, the others what they did. -/
theorem run_end {E : Env α} {B T : Nat} (hB : B < 2 ^ 24) {sh : Shared α} (hM : sh.model.Ready) {s : Batch α}
    (hs : startBatch B T sh = .ok s) {sched : List Nat} {r : Batch α × List (Event α)} (hr : s.run E sched = .ok r)
    (ho : r.1.over = true) :
    r.1.shared.model.bare = sh.model.bare ∧
      (∀ t slot x, (t, slot, x) ∈ fetches r.2 → slot < B ∧ ∃ l, (t, slot, x, l) ∈ grads r.2 ∧
        Solo E (sh.model.norm slot) x l ((r.1.shared.model.norm slot).tell l)) ∧
      (∀ slot, (∀ t x, (t, slot, x) ∉ fetches r.2) → r.1.shared.model.norm slot = sh.model.norm slot) ∧
      ((fetches r.2).map (fun e => e.2.1)).Nodup ∧ (fetches r.2).length = min B sh.source.length ∧
      (fetches r.2).map (fun e => e.2.2) = sh.source.take B ∧ r.1.shared.source = sh.source.drop B := by
  obtain ⟨w, hw, rfl⟩ := startBatch_inv (by omega) hs
  have hT : 0 < T := by
    rcases Nat.eq_zero_or_pos T with rfl | h
    · exact absurd hw (by simp [workCount, F32.div, F32.ofInt, F32.rnd])
    · exact h
  have hI : BInv T B w sh.source _ [] := Inv.init T (fun t => t * w) (fun t => min ((t + 1) * w) B) sh
  have hBI : BInv T B w sh.source r.1 r.2 := Inv.run hI hr
  have hG : GInv E sh.model r.1 r.2 := by
    have := GInv.run hM (GInv.init E T (fun t => t * w) (fun t => min ((t + 1) * w) B) sh) hI hr
    simpa using this
  have hcount : (fetches r.2).length = min B sh.source.length := by
    refine hBI.count ?_ ho
    rw [workCount_eq B T hB hT] at hw
    have hw : (((B + T - 1) / T : Nat) : Int) = w := Res.ok.inj hw
    have := (share_bounds B T hT).1
    unfold share at this
    rw [show w = (B + T - 1) / T by omega]
    exact this
  have hsrc := hBI.source
  have hlen : ((fetches r.2).map (fun e => e.2.2)).length = min B sh.source.length := by rw [List.length_map, hcount]
  refine ⟨hG.bare, ?_, hG.untouched, hBI.slots_nodup, hcount, ?_, ?_⟩
  · intro t slot x hm
    refine ⟨by have := (hBI.range hm).2.2; omega, hG.finished t slot x ((hBI.perm ho).mem_iff.2 hm)⟩
  · rw [← hsrc]
    rcases Nat.le_total B sh.source.length with hle | hle
    · rw [List.take_append_of_le_length (by rw [hlen]; omega), List.take_of_length_le (by rw [hlen]; omega)]
    · have : r.1.shared.source = [] := by
        have := congrArg List.length hsrc
        rw [List.length_append, hlen] at this
        exact List.eq_nil_of_length_eq_zero (by omega)
      rw [this, List.append_nil, List.take_of_length_le (by rw [hlen]; omega)]
  · rw [← hsrc]
    rcases Nat.le_total B sh.source.length with hle | hle
    · rw [List.drop_append, hlen, List.drop_of_length_le (by rw [hlen]; omega), show B - min B sh.source.length = 0 by omega]; rfl
    · have : r.1.shared.source = [] := by
        have := congrArg List.length hsrc
        rw [List.length_append, hlen] at this
        exact List.eq_nil_of_length_eq_zero (by omega)
      rw [this, List.append_nil, List.drop_of_length_le (by rw [hlen]; omega)]

theorem runBatch_split {E : Env α} {p : Hyper α} {sh : Shared α} {sched : List Nat} {q : Shared α × List (Event α)}
    (h : runBatch E p sched sh = .ok (some q)) : ∃ s r, startBatch p.batch p.threads sh = .ok s ∧ s.run E sched = .ok r ∧
      r.1.over = true ∧ r.1.shared.model.applyBatch E.num p.rate = .ok q.1.model ∧ q.2 = r.2 ∧ q.1.source = r.1.shared.source := by
  unfold runBatch at h
  obtain ⟨s, hs, h⟩ := Res.bind_eq_ok h
  obtain ⟨r, hr, h⟩ := Res.bind_eq_ok h
  by_cases ho : r.1.over = true
  · rw [if_pos ho] at h
    obtain ⟨M', hM', h⟩ := Res.bind_eq_ok h
    obtain rfl := Option.some.inj (Res.ok.inj h)
    exact ⟨s, r, hs, hr, ho, hM', rfl, rfl⟩
  · rw [if_neg ho] at h
    exact absurd (Res.ok.inj h) (by simp)

/-- What a batch leaves behind: before the update the slots contain what the samples gave, the others what they did. -/
theorem runBatch_end {E : Env α} {p : Hyper α} {B T : Nat} (hp : p.batch = B) (hq : p.threads = T) (hB : B < 2 ^ 24)
    {sh : Shared α} (hM : sh.model.Prepared B) {sched : List Nat} {q : Shared α × List (Event α)}
    (h : runBatch E p sched sh = .ok (some q)) :
    ∃ M : Model α, M.bare = sh.model.bare ∧ M.applyBatch E.num p.rate = .ok q.1.model ∧
      (∀ t slot x, (t, slot, x) ∈ fetches q.2 → slot < B ∧ ∃ l, (t, slot, x, l) ∈ grads q.2 ∧
        Solo E (sh.model.norm slot) x l ((M.norm slot).tell l)) ∧
      (∀ slot, (∀ t x, (t, slot, x) ∉ fetches q.2) → M.norm slot = sh.model.norm slot) ∧
      ((fetches q.2).map (fun e => e.2.1)).Nodup ∧ (fetches q.2).length = min B sh.source.length ∧
      (fetches q.2).map (fun e => e.2.2) = sh.source.take B ∧ q.1.source = sh.source.drop B := by
  obtain ⟨s, r, hs, hr, ho, hM', h2, h3⟩ := runBatch_split h
  rw [hp, hq] at hs
  obtain ⟨k1, k2, k3, k4, k5, k6, k7⟩ := run_end hB hM.ready hs hr ho
  rw [h2, h3]
  exact ⟨_, k1, hM', k2, k3, k4, k5, k6, k7⟩

/-- The contents of all slots of a layer: what the samples (with the labels used, `U`) gave and, in the slots no sample got,
what was there before. -/
theorem slots_perm {E : Env α} {M0 M : Model α} {B : Nat} {evs : List (Event α)} {U : Nat × Nat × Sample α → Sample α} (i : Nat)
    (h1 : ∀ e ∈ fetches evs, e.2.1 < B ∧ ownGrads E M0 (U e) i = M.stored i e.2.1)
    (h2 : ∀ slot, (∀ t x, (t, slot, x) ∉ fetches evs) → M.norm slot = M0.norm slot)
    (h3 : ((fetches evs).map (fun e => e.2.1)).Nodup) :
    ∃ free : List Nat, free.Nodup ∧ (∀ s ∈ free, s < B ∧ ∀ t x, (t, s, x) ∉ fetches evs) ∧
      (fetches evs).length + free.length = B ∧
      ((List.range B).map (M.stored i)).Perm
        ((fetches evs).map (fun e => ownGrads E M0 (U e) i) ++ free.map (M0.stored i)) := by
  classical
  let free := (List.range B).filter (fun s => s ∉ (fetches evs).map (fun e => e.2.1))
  have hp : (List.range B).Perm ((fetches evs).map (fun e => e.2.1) ++ free) := by
    refine (List.perm_ext_iff_of_nodup List.nodup_range ?_).2 ?_
    · refine List.Nodup.append h3 (List.nodup_range.filter _) ?_
      intro s hs hf
      simp only [free, List.mem_filter, decide_eq_true_eq] at hf
      exact hf.2 hs
    · intro s
      simp only [free, List.mem_append, List.mem_filter, List.mem_range, decide_eq_true_eq]
      constructor
      · intro hs
        by_cases hm : s ∈ (fetches evs).map (fun e => e.2.1)
        · exact Or.inl hm
        · exact Or.inr ⟨hs, hm⟩
      · rintro (hs | hs)
        · obtain ⟨e, he, rfl⟩ := List.mem_map.1 hs
          exact (h1 e he).1
        · exact hs.1
  refine ⟨free, List.nodup_range.filter _, ?_, ?_, ?_⟩
  · intro s hs
    simp only [free, List.mem_filter, List.mem_range, decide_eq_true_eq] at hs
    refine ⟨hs.1, fun t x hm => hs.2 (List.mem_map.2 ⟨_, hm, rfl⟩)⟩
  · have := hp.length_eq
    simp only [List.length_range, List.length_append, List.length_map] at this
    omega
  · refine (hp.map _).trans ?_
    rw [List.map_append, List.map_map]
    have e1 : (fetches evs).map (M.stored i ∘ fun e => e.2.1) = (fetches evs).map (fun e => ownGrads E M0 (U e) i) := by
      apply List.map_congr_left
      intro e he
      exact (h1 e he).2.symm
    have e2 : free.map (M.stored i) = free.map (M0.stored i) := by
      apply List.map_congr_left
      intro s hs
      simp only [free, List.mem_filter, List.mem_range, decide_eq_true_eq] at hs
      have := h2 s (fun t x hm => hs.2 (List.mem_map.2 ⟨_, hm, rfl⟩))
      rw [← norm_stored, this, norm_stored]
    rw [e1, e2]

end

/-- A list of optional values that is a permutation of a list of values. -/
theorem perm_some {β : Type} {l : List (Option β)} {gs : List β} (h : (gs.map some).Perm l) :
    ∃ gs', l = gs'.map some ∧ gs.Perm gs' := by
  refine ⟨l.filterMap id, ?_, ?_⟩
  · have hall : ∀ o ∈ l, o.isSome := by
      intro o ho
      obtain ⟨g, _, rfl⟩ := List.mem_map.1 (h.mem_iff.2 ho)
      rfl
    clear h
    induction l with
    | nil => rfl
    | cons o l ih =>
      obtain ⟨g, rfl⟩ := Option.isSome_iff_exists.1 (hall o (by simp))
      simp only [List.filterMap_cons, id, List.map_cons]
      exact congrArg (some g :: ·) (ih (fun o ho => hall o (by simp [ho])))
  · have := h.filterMap id
    rw [List.filterMap_map] at this
    simpa using this

/-- The new parameters of a layer after a batch: one gradient step over the gradients of the samples taken (with the labels
used, `U`) and the old contents of the slots no sample got, in any order. -/
theorem update_slots [Field α] {E : Env α} {N : Num α} {lr : α} {B : Nat} {M0 M M' : Model α} (hM : M0.Prepared B) {evs : List (Event α)}
    {U : Nat × Nat × Sample α → Sample α} (e1 : M.bare = M0.bare) (e2 : M.applyBatch N lr = .ok M')
    (e3 : ∀ e ∈ fetches evs, e.2.1 < B ∧ ∀ i, ownGrads E M0 (U e) i = M.stored i e.2.1)
    (e4 : ∀ slot, (∀ t x, (t, slot, x) ∉ fetches evs) → M.norm slot = M0.norm slot)
    (e5 : ((fetches evs).map (fun e => e.2.1)).Nodup) :
    ∃ free : List Nat, free.Nodup ∧ (∀ s ∈ free, s < B ∧ ∀ t x, (t, s, x) ∉ fetches evs) ∧
      (fetches evs).length + free.length = B ∧
      ∀ i W Bi, M0.params i = some (W, Bi) → ∃ (gs : List (Matrix α × Matrix α)) (r : Matrix α × Matrix α),
        (fetches evs).map (fun e => ownGrads E M0 (U e) i) ++ free.map (M0.stored i) = gs.map some ∧
        applyGrads N lr W Bi (gs.map (·.1)) (gs.map (·.2)) = .ok r ∧ M'.params i = some r := by
  obtain ⟨free, f1, f2, f3, _⟩ := slots_perm 0 (fun e he => ⟨(e3 e he).1, (e3 e he).2 0⟩) e4 e5
  refine ⟨free, f1, f2, f3, ?_⟩
  intro i W Bi hpar
  obtain ⟨free', g1, g2, g3, g4⟩ := slots_perm i (fun e he => ⟨(e3 e he).1, (e3 e he).2 i⟩) e4 e5
  have hff : free'.Perm free := by
    refine (List.perm_ext_iff_of_nodup g1 f1).2 fun s => ?_
    have key : ∀ (a b : List Nat), a.Nodup → b.Nodup → (∀ s ∈ a, s < B ∧ ∀ t x, (t, s, x) ∉ fetches evs) →
        (∀ s ∈ b, s < B ∧ ∀ t x, (t, s, x) ∉ fetches evs) → (fetches evs).length + b.length = B → s ∈ a → s ∈ b := by
      intro a b ha hb h1 h2 h3 hs
      by_contra hn
      have hnd : ((fetches evs).map (fun e => e.2.1) ++ b ++ [s]).Nodup := by
        rw [List.append_assoc]
        refine List.Nodup.append e5 (List.Nodup.append hb (by simp) ?_) ?_
        · intro x hx hx'
          rw [List.mem_singleton] at hx'
          subst hx'
          exact hn hx
        · intro x hx hx'
          obtain ⟨⟨t, s', y⟩, he, rfl⟩ := List.mem_map.1 hx
          rcases List.mem_append.1 hx' with hx' | hx'
          · exact (h2 _ hx').2 t y he
          · rw [List.mem_singleton] at hx'
            exact (h1 s hs).2 t y (by rw [← hx']; exact he)
      have hsub : ((fetches evs).map (fun e => e.2.1) ++ b ++ [s]) ⊆ List.range B := by
        intro x hx
        rw [List.mem_range]
        rcases List.mem_append.1 hx with hx | hx
        · rcases List.mem_append.1 hx with hx | hx
          · obtain ⟨⟨t, s', y⟩, he, rfl⟩ := List.mem_map.1 hx
            exact (e3 _ he).1
          · exact (h2 x hx).1
        · rw [List.mem_singleton] at hx
          rw [hx]; exact (h1 s hs).1
      have := (hnd.subperm hsub).length_le
      simp only [List.length_append, List.length_map, List.length_range, List.length_singleton] at this
      omega
    exact ⟨key free' free g1 f1 g2 f2 f3, key free free' f1 g1 f2 g2 g3⟩
  have hMp : M.params i = some (W, Bi) := by rw [Model.bare_params e1]; exact hpar
  obtain ⟨gs, r, k1, k2, k3⟩ := Model.applyBatch_params (hM.of_bare e1) e2 hMp
  have hperm : (gs.map some).Perm ((fetches evs).map (fun e => ownGrads E M0 (U e) i) ++ free.map (M0.stored i)) := by
    rw [← k1]
    exact g4.trans ((hff.map _).append_left _)
  obtain ⟨gs', m1, m2⟩ := perm_some hperm
  have hsound : Sound W Bi := by
    unfold Model.params at hpar
    cases hm : M0.layers[i]? with
    | none => rw [hm] at hpar; simp at hpar
    | some l =>
      rw [hm, Option.bind_some] at hpar
      have hl := hM l (List.mem_of_getElem? hm)
      cases hb : l.body with
      | kernel K =>
        rw [hb] at hl hpar
        obtain ⟨rfl, rfl⟩ := Prod.mk.inj (Option.some.inj hpar)
        exact hl.2.2
      | connected L =>
        rw [hb] at hl hpar
        obtain ⟨rfl, rfl⟩ := Prod.mk.inj (Option.some.inj hpar)
        exact hl.2.2.2
      | _ => rw [hb] at hpar; simp [Body.params] at hpar
  obtain ⟨⟨X, Y, Z, f, s1⟩, F, k, s2⟩ := hsound
  exact ⟨gs', r, m1, (applyGrads_perm s1 s2 m2 k2).1, k3⟩

/-- The same for a batch in which all gradients used the right label. -/
theorem runBatch_update [Field α] {E : Env α} {p : Hyper α} {B T : Nat} (hp : p.batch = B) (hq : p.threads = T) (hB : B < 2 ^ 24)
    {sh : Shared α} (hM : sh.model.Prepared B) {sched : List Nat} {q : Shared α × List (Event α)}
    (h : runBatch E p sched sh = .ok (some q)) (hown : OwnLabels sh.model q.2) :
    ∃ free : List Nat, free.Nodup ∧ (∀ s ∈ free, s < B ∧ ∀ t x, (t, s, x) ∉ fetches q.2) ∧
      (sh.source.take B).length + free.length = B ∧
      ∀ i W Bi, sh.model.params i = some (W, Bi) → ∃ (gs : List (Matrix α × Matrix α)) (r : Matrix α × Matrix α),
        (sh.source.take B).map (ownGrads E sh.model · i) ++ free.map (sh.model.stored i) = gs.map some ∧
        applyGrads E.num p.rate W Bi (gs.map (·.1)) (gs.map (·.2)) = .ok r ∧ q.1.model.params i = some r := by
  obtain ⟨M, e1, e2, e3, e4, e5, e6, e7, e8⟩ := runBatch_end hp hq hB hM h
  obtain ⟨free, f1, f2, f3, f4⟩ := update_slots (E := E) (U := fun e => e.2.2) hM e1 e2 (by
    rintro ⟨t, s, x⟩ he
    obtain ⟨hs, l, hl, hso⟩ := e3 t s x he
    obtain rfl := hown t s x l hl
    exact ⟨hs, fun i => hso.ownGrads hM hs i⟩) e4 e5
  refine ⟨free, f1, f2, by rw [← e7, List.length_map]; exact f3, ?_⟩
  intro i W Bi hpar
  obtain ⟨gs, r, k1, k2, k3⟩ := f4 i W Bi hpar
  exact ⟨gs, r, by rw [← k1, ← e7, List.map_map]; rfl, k2, k3⟩

section
variable [Zero α] [One α] [Add α] [Sub α] [Mul α] [Div α] [Neg α]

/-- What a sample gives on its own does not depend on the contents of the slots. -/
theorem alone_bare {E : Env α} {M M' : Model α} {x : Sample α} {n : Nat} (hn : 0 < n) (hM : M.Prepared n) (ho : M.SoftmaxLast) (h : M'.bare = M.bare)
    {m : Model α} (ha : Cnn.alone E M x = .ok m) : ∃ m', Cnn.alone E M' x = .ok m' ∧ ∀ i, m'.stored i 0 = m.stored i 0 := by
  have hM' := hM.of_bare h
  have h1 := alone_solo (hM.setBatchSize_ready 1) ha
  obtain ⟨m2, e2, s2⟩ := h1.same (hM.same hn).symm
  have hmid : Model.Same (fun _ => False) (fun _ => False) (M.norm 0) (M'.norm 0) := by
    refine ⟨show M'.labels = M.labels from bare_labels h, by simp [bare_len h], ?_⟩
    intro i l l' a b
    have hg := bare_get h i
    by_cases hi : i + 1 = M.layers.length
    · rw [Model.norm, tell_get_last _ _ _ (by simpa using hi), see_get] at a
      rw [Model.norm, tell_get_last _ _ _ (by simpa [bare_len h] using hi), see_get] at b
      rw [Option.map_map] at a b
      obtain ⟨k, hk, rfl⟩ := Option.map_eq_some_iff.1 a
      obtain ⟨k', hk', rfl⟩ := Option.map_eq_some_iff.1 b
      rw [hk, hk'] at hg
      simp only [Option.map_some, Option.some.injEq] at hg
      have p := hM k (List.mem_of_getElem? hk)
      have p' := hM' k' (List.mem_of_getElem? hk')
      simp only [Function.comp]
      by_cases hs : ∃ S, k.body = .softmax S
      · obtain ⟨S, hS⟩ := hs
        rw [hS] at hg ⊢
        cases hb : k'.body with
        | softmax S' =>
          rw [hb] at hg
          simp only [Body.bare, Body.softmax.injEq, Softmax.mk.injEq] at hg
          simp only [Body.see, Body.tell, hg.1]
          exact .softmax _
        | _ => rw [hb] at hg; simp [Body.bare] at hg
      · exact (p.same_bare hn p' hg fun S hS => hs ⟨S, hS⟩).tell 0
    · rw [Model.norm, tell_get_ne _ _ _ (by simpa using hi), see_get] at a
      rw [Model.norm, tell_get_ne _ _ _ (by simpa [bare_len h] using hi), see_get] at b
      obtain ⟨k, hk, rfl⟩ := Option.map_eq_some_iff.1 a
      obtain ⟨k', hk', rfl⟩ := Option.map_eq_some_iff.1 b
      rw [hk, hk'] at hg
      simp only [Option.map_some, Option.some.injEq] at hg
      exact (hM k (List.mem_of_getElem? hk)).same_bare hn (hM' k' (List.mem_of_getElem? hk')) hg
        fun S hS => hi (ho i k S hk hS)
  obtain ⟨m3, e3, s3⟩ := e2.same hmid
  obtain ⟨m4, e4, s4⟩ := e3.same (hM'.same hn)
  have hl : M.labelIndex x.label = M'.labelIndex x.label := by rw [labelIndex, ← bare_labels h]; rfl
  rw [hl] at e4
  refine ⟨m4, e4.alone (hM'.setBatchSize_ready 1), fun i => ?_⟩
  rw [← s4.stored i, ← s3.stored i, ← s2.stored i]

theorem ownGrads_bare {E : Env α} {M M' : Model α} {x : Sample α} {n : Nat} (hn : 0 < n) (hM : M.Prepared n) (ho : M.SoftmaxLast) (h : M'.bare = M.bare)
    (i : Nat) : ownGrads E M' x i = ownGrads E M x i := by
  unfold ownGrads
  cases ha : Cnn.alone E M x with
  | ok m =>
    obtain ⟨m', e, s⟩ := alone_bare hn hM ho h ha
    rw [e]
    exact s i
  | throw | ub | abort =>
    cases ha' : Cnn.alone E M' x with
    | ok m =>
      obtain ⟨m', e, s⟩ := alone_bare hn (hM.of_bare h) (ho.of_bare h) h.symm ha'
      rw [ha] at e
      exact absurd e (by simp)
    | throw | ub | abort => rfl

end
end Train
end Cnn
