import Verif.Spec.ValidateFootprint
import Verif.Lemmas.FootprintRace
import Verif.Lemmas.ValidateRace
/-! Helper lemmas for C100: what a step of a validation thread reads and writes, and which steps race. -/
set_option linter.unusedSectionVars false
namespace Cnn.Validate
open Model
variable {α : Type}

/-- The model as the shared state of training. -/
def asTrain (M : Model α) : Train.Shared α := ⟨M, [], 0⟩

theorem copy_train (a b : Model α) (i : Nat) (p : Part) :
    (asTrain a).copy (asTrain b) (.layer i p) = asTrain ((asTrain a).copy (asTrain b) (.layer i p)).model := by
  unfold Train.Shared.copy asTrain
  simp only
  cases a.layers[i]? <;> rfl

theorem copies_train (a b : Model α) (i : Nat) : ∀ ws : List Part,
    (asTrain a).copies (ws.map (.layer i)) (asTrain b) = asTrain ((asTrain a).copies (ws.map (.layer i)) (asTrain b)).model
  | [] => rfl
  | p :: ws => by
    show (asTrain a).copy ((asTrain a).copies (ws.map (.layer i)) (asTrain b)) (.layer i p) =
      asTrain ((asTrain a).copy ((asTrain a).copies (ws.map (.layer i)) (asTrain b)) (.layer i p)).model
    rw [copies_train a b i ws]
    exact copy_train _ _ _ _

theorem Shared.copies_layer (a b : Shared α) (i : Nat) : ∀ ws : List Part,
    a.copies (ws.map (.layer i)) b = { b with model := ((asTrain a.model).copies (ws.map (.layer i)) (asTrain b.model)).model }
  | [] => rfl
  | p :: ws => by
    show a.copy (a.copies (ws.map (.layer i)) b) (.layer i p) =
      { b with model := ((asTrain a.model).copy ((asTrain a.model).copies (ws.map (.layer i)) (asTrain b.model)) (.layer i p)).model }
    rw [Shared.copies_layer a b i ws, copies_train]
    rfl

section
variable [Zero α] [One α] [Add α] [Sub α] [Mul α] [Div α] [Neg α]

/-- A step of training that calls a layer. -/
theorem train_step (E : Env α) (M : Model α) (x : Sample α) {k : Nat} (s : Matrix α × List (Matrix α)) (hk : k < M.layers.length) :
    Train.Pc.step E 0 0 (asTrain M) (.forward 0 x k s) =
      (fun r : (Matrix α × List (Matrix α)) × Model α => (Train.Pc.forward 0 x (k + 1) r.1, asTrain r.2, [])) <$> Model.forwardStep E 0 (s, M) k := by
  show (if k < M.layers.length then _ else _) = _
  rw [if_pos hk]
  show (Model.forwardStep E 0 (s, M) k >>= _) = _
  cases Model.forwardStep E 0 (s, M) k <;> rfl

def part : Train.Pc α × Train.Shared α × List (Train.Event α) → Option ((Matrix α × List (Matrix α)) × Model α)
  | (.forward _ _ _ s, sh, _) => some (s, sh.model)
  | _ => none

theorem some_inj {β : Type} : ∀ {a b : Res β}, (some <$> a : Res (Option β)) = some <$> b → a = b
  | .ok a, .ok b, h => by simpa using h
  | .throw a, .throw b, h => by
    have : (Res.throw a : Res (Option β)) = .throw b := h
    cases this; rfl
  | .ub, .ub, _ => rfl
  | .abort, .abort, _ => rfl
  | .ok _, .throw _, h => by cases h
  | .ok _, .ub, h => by cases h
  | .ok _, .abort, h => by cases h
  | .throw _, .ok _, h => by cases h
  | .throw _, .ub, h => by cases h
  | .throw _, .abort, h => by cases h
  | .ub, .ok _, h => by cases h
  | .ub, .throw _, h => by cases h
  | .ub, .abort, h => by cases h
  | .abort, .ok _, h => by cases h
  | .abort, .throw _, h => by cases h
  | .abort, .ub, h => by cases h

theorem map_map {β γ δ : Type} (f : β → γ) (g : γ → δ) (x : Res β) : g <$> (f <$> x : Res γ) = (fun a => g (f a)) <$> x := by
  cases x <;> rfl

/-- Calling a layer does not depend on locations it does not access, and leaves them as they are. -/
theorem forwardStep_copy (E : Env α) (A M : Model α) (s : Matrix α × List (Matrix α)) {k : Nat} (hk : k < M.layers.length) {i : Nat} {q : Part}
    (hr : Loc.layer i q ∉ (Train.Pc.forward 0 ⟨Matrix.empty, []⟩ k s).reads 0 M)
    (hw : Loc.layer i q ∉ (Train.Pc.forward 0 ⟨Matrix.empty, []⟩ k s).writes 0 M) :
    Model.forwardStep E 0 (s, ((asTrain A).copy (asTrain M) (.layer i q)).model) k =
      (fun r => (r.1, ((asTrain A).copy (asTrain r.2) (.layer i q)).model)) <$> Model.forwardStep E 0 (s, M) k := by
  have h := Train.step_copy E 0 0 (asTrain A) (asTrain M) (.forward 0 ⟨Matrix.empty, []⟩ k s) hr hw
  rw [train_step E M _ s hk, copy_train, train_step E _ _ s (by
    have := Train.Shared.copy_model_length (asTrain A) (asTrain M) (.layer i q)
    rw [this]; exact hk)] at h
  have h := congrArg (fun x => part <$> x) h
  simp only [map_map, part] at h
  exact some_inj (h.trans (map_map _ some _).symm)

/-- A step does not depend on locations it does not access, and leaves them as they are. -/
theorem step_copy (S : Setup α) (t : Nat) (sl sh : Shared α) (p : Pc α) {l : Loc} (hr : l ∉ p.reads S.num sh.model) (hw : l ∉ p.writes S.num sh.model) :
    p.step S t (sl.copy sh l) = (fun r => (r.1, sl.copy r.2.1 l, r.2.2)) <$> p.step S t sh := by
  match p with
  | .next i =>
    simp only [Pc.step]
    by_cases hi : i < S.num
    · simp only [Pc.reads, if_pos hi, List.mem_singleton] at hr
      rw [if_pos hi, if_pos hi]
      have hs : (sl.copy sh l).db = sh.db := by
        cases l with
        | source => exact absurd rfl hr
        | _ => rfl
      rw [hs]
      cases hg : Mnist.Reader.getImage S.big S.lim (u64 i) sh.db with
      | mk a db =>
        cases a with
        | throw | ub | abort => rfl
        | ok im =>
          simp only
          cases Model.forwardBegin S.env (input S.conv im.data) with
          | throw | ub | abort => rfl
          | ok s =>
            simp only [Res.bind_ok, Res.map_ok]
            cases l with
            | source => exact absurd rfl hr
            | _ => rfl
    · rw [if_neg hi, if_neg hi]
      rfl
  | .forward i im k s =>
    have hlen : (sl.copy sh l).model.layers.length = sh.model.layers.length := by
      cases l with
      | layer j q => exact Train.Shared.copy_model_length (asTrain sl.model) (asTrain sh.model) (.layer j q)
      | _ => rfl
    have hlab : (sl.copy sh l).model.labels = sh.model.labels := by
      cases l with
      | layer j q => exact Train.Shared.copy_labels (asTrain sl.model) (asTrain sh.model) (.layer j q)
      | _ => rfl
    simp only [Pc.step, hlen, hlab]
    by_cases hk : k < sh.model.layers.length
    · rw [if_pos hk, if_pos hk]
      cases l with
      | source =>
        show (Model.forwardStep S.env 0 (s, sh.model) k >>= _) = _
        cases Model.forwardStep S.env 0 (s, sh.model) k <;> rfl
      | hits =>
        show (Model.forwardStep S.env 0 (s, sh.model) k >>= _) = _
        cases Model.forwardStep S.env 0 (s, sh.model) k <;> rfl
      | layer j q =>
        have e := forwardStep_copy S.env sl.model sh.model s hk (i := j) (q := q)
          (by simpa only [Pc.reads, Train.Pc.reads, List.getElem?_eq_getElem hk] using hr)
          (by simpa only [Pc.writes, Train.Pc.writes, List.getElem?_eq_getElem hk] using hw)
        show (Model.forwardStep S.env 0 (s, ((asTrain sl.model).copy (asTrain sh.model) (.layer j q)).model) k >>= _) = _
        rw [e]
        cases Model.forwardStep S.env 0 (s, sh.model) k <;> rfl
    · rw [if_neg hk, if_neg hk, forwardEnd_congr S.env hlab]
      simp only [Pc.reads, List.getElem?_eq_none (by omega : sh.model.layers.length ≤ k), List.mem_singleton] at hr
      have hc : (sl.copy sh l).correct = sh.correct := by
        cases l with
        | hits => exact absurd rfl hr
        | _ => rfl
      rw [hc]
      cases Model.forwardEnd S.env sh.model s.1 s.2 with
      | throw | ub | abort => rfl
      | ok r =>
        simp only [Res.bind_ok]
        cases Res.ofOption sh.model.labels[r.labelIdx]? with
        | throw | ub | abort => rfl
        | ok lab =>
          simp only [Res.bind_ok, Res.map_ok]
          cases l with
          | hits => exact absurd rfl hr
          | _ => rfl
  | .done i => rfl

/-- A step changes only what it writes. -/
theorem step_writes {S : Setup α} {t : Nat} {sh : Shared α} {p : Pc α} {r : Pc α × Shared α × List Event} (h : p.step S t sh = .ok r) :
    r.2.1 = r.2.1.copies (p.writes S.num sh.model) sh := by
  match p with
  | .next i =>
    simp only [Pc.step] at h
    by_cases hi : i < S.num
    · simp only [Pc.writes, if_pos hi]
      rw [if_pos hi] at h
      cases hg : Mnist.Reader.getImage S.big S.lim (u64 i) sh.db with
      | mk a db =>
        rw [hg] at h
        cases a with
        | throw | ub | abort => cases h
        | ok im =>
          obtain ⟨s, _, h⟩ := Res.bind_eq_ok h
          obtain rfl := Res.ok.inj h
          rfl
    · simp only [Pc.writes, if_neg hi]
      rw [if_neg hi] at h
      obtain rfl := Res.ok.inj h
      rfl
  | .forward i im k s =>
    simp only [Pc.step] at h
    by_cases hk : k < sh.model.layers.length
    · rw [if_pos hk] at h
      obtain ⟨q, hq, h⟩ := Res.bind_eq_ok h
      obtain rfl := Res.ok.inj h
      simp only [Pc.writes, List.getElem?_eq_getElem hk]
      have e := Train.step_writes (E := S.env) (t := 0) (c := 0) (sh := asTrain sh.model) (p := .forward 0 ⟨Matrix.empty, []⟩ k s)
        (r := (.forward 0 ⟨Matrix.empty, []⟩ (k + 1) q.1, asTrain q.2, [])) (by rw [train_step _ _ _ _ hk, hq]; rfl)
      rw [Shared.copies_layer]
      simp only [Train.Pc.writes, asTrain, List.getElem?_eq_getElem hk] at e
      have e := congrArg Train.Shared.model e
      simp only at e
      simp only [asTrain]
      rw [← e]
    · rw [if_neg hk] at h
      obtain ⟨q, hq, h⟩ := Res.bind_eq_ok h
      obtain ⟨lab, _, h⟩ := Res.bind_eq_ok h
      obtain rfl := Res.ok.inj h
      simp only [Pc.writes, List.getElem?_eq_none (by omega : sh.model.layers.length ≤ k)]
      rfl
  | .done i =>
    obtain rfl := Res.ok.inj h
    rfl

/-- The model keeps everything but the contents of its slots. -/
theorem step_bare {S : Setup α} {M : Model α} (hr : M.Ready) {t : Nat} {b : State α} {r : State α × List Event} (hb : b.shared.model.bare = M.bare)
    (h : b.step S t = .ok r) : r.1.shared.model.bare = M.bare := by
  cases hw : b.workers[t]? with
  | none =>
    unfold State.step at h
    rw [hw] at h
    obtain rfl := Res.ok.inj h
    exact hb
  | some w =>
    unfold State.step at h
    rw [hw] at h
    obtain ⟨q, hq, h⟩ := Res.bind_eq_ok h
    obtain rfl := Res.ok.inj h
    have hq := terminate_eq hq
    show q.2.1.model.bare = M.bare
    match w with
    | .next i =>
      simp only [Pc.step] at hq
      by_cases hi : i < S.num
      · rw [if_pos hi] at hq
        cases hg : Mnist.Reader.getImage S.big S.lim (u64 i) b.shared.db with
        | mk a db =>
          rw [hg] at hq
          cases a with
          | throw | ub | abort => cases hq
          | ok im =>
            obtain ⟨s, _, hq⟩ := Res.bind_eq_ok hq
            obtain rfl := Res.ok.inj hq
            exact hb
      · rw [if_neg hi] at hq
        obtain rfl := Res.ok.inj hq
        exact hb
    | .forward i im k s =>
      simp only [Pc.step] at hq
      by_cases hk : k < b.shared.model.layers.length
      · rw [if_pos hk] at hq
        obtain ⟨p, hp, hq⟩ := Res.bind_eq_ok hq
        obtain rfl := Res.ok.inj hq
        show p.2.bare = M.bare
        rw [(forwardStep_frame (hr.of_bare hb) hp).1]
        exact hb
      · rw [if_neg hk] at hq
        obtain ⟨p, hp, hq⟩ := Res.bind_eq_ok hq
        obtain ⟨lab, _, hq⟩ := Res.bind_eq_ok hq
        obtain rfl := Res.ok.inj hq
        exact hb
    | .done i =>
      obtain rfl := Res.ok.inj hq
      exact hb

theorem run_bare {S : Setup α} {M : Model α} (hr : M.Ready) : ∀ (sched : List Nat) {b : State α} {r : State α × List Event},
    b.shared.model.bare = M.bare → b.run S sched = .ok r → r.1.shared.model.bare = M.bare
  | [], _, _, hb, h => by obtain rfl := Res.ok.inj h; exact hb
  | t :: ts, _, _, hb, h => by
    obtain ⟨a, ha, h⟩ := Res.bind_eq_ok h
    obtain ⟨q, hq, h⟩ := Res.bind_eq_ok h
    obtain rfl := Res.ok.inj h
    exact run_bare (r := q) hr ts (step_bare hr hb ha) hq

end

/-- The steps that access a part of a layer. -/
theorem touches_layer {num : Int} {M : Model α} {w : Pc α} {k : Nat} {q : Part} (h : Touches num M w (.layer k q)) :
    ∃ i im s l, w = .forward i im k s ∧ M.layers[k]? = some l ∧ (q ∈ l.body.forwardReads 0 ∨ q ∈ l.body.forwardWrites 0) := by
  unfold Touches at h
  match w with
  | .next i => simp only [Pc.reads, Pc.writes] at h; split at h <;> simp at h
  | .forward i im j s =>
    simp only [Pc.reads, Pc.writes] at h
    cases hl : M.layers[j]? with
    | none => rw [hl] at h; simp at h
    | some l =>
      rw [hl] at h
      simp only [List.mem_map, Loc.layer.injEq] at h
      rcases h with ⟨q', h1, rfl, rfl⟩ | ⟨q', h1, rfl, rfl⟩
      · exact ⟨i, im, s, l, rfl, hl, Or.inl h1⟩
      · exact ⟨i, im, s, l, rfl, hl, Or.inr h1⟩
  | .done i => simp [Pc.reads, Pc.writes] at h

theorem writes_layer {num : Int} {M : Model α} {w : Pc α} {k : Nat} {q : Part} (h : .layer k q ∈ w.writes num M) :
    ∃ l, M.layers[k]? = some l ∧ q ∈ l.body.forwardWrites 0 := by
  match w with
  | .next i => simp only [Pc.writes] at h; split at h <;> simp at h
  | .forward i im j s =>
    simp only [Pc.writes] at h
    cases hl : M.layers[j]? with
    | none => rw [hl] at h; simp at h
    | some l =>
      rw [hl] at h
      simp only [List.mem_map, Loc.layer.injEq] at h
      obtain ⟨q', h1, rfl, rfl⟩ := h
      exact ⟨l, hl, h1⟩
  | .done i => simp [Pc.writes] at h

theorem forwardWrites_mem {B : Body α} {q : Part} (h : q ∈ B.forwardWrites 0) :
    (q = .slot 0 ∧ ∃ P, B = .pooling P) ∨ (q = .params ∧ ∃ L, B = .connected L ∧ L.initialized = false) := by
  cases B with
  | pooling P => simp [Body.forwardWrites] at h; exact Or.inl ⟨h, P, rfl⟩
  | connected L =>
    simp only [Body.forwardWrites] at h
    cases hL : L.initialized with
    | true => rw [hL] at h; simp at h
    | false => rw [hL] at h; simp at h; exact Or.inr ⟨h, L, rfl, hL⟩
  | _ => simp [Body.forwardWrites] at h

/-- Two steps race at a pooling layer or at a fully connected layer not used before. -/
theorem races_only {num : Int} {b : State α} {t u : Nat} {l : Loc} (h : b.Races num t u l) :
    ∃ k, At b t k ∧ At b u k ∧ ((l = .layer k (.slot 0) ∧ ∃ P, b.shared.model.bodyAt k = some (.pooling P)) ∨
      (l = .layer k .params ∧ ∃ L, b.shared.model.bodyAt k = some (.connected L) ∧ L.initialized = false)) := by
  obtain ⟨_, hg, v, w, hv, hw, h⟩ := h
  cases l with
  | source => exact absurd trivial hg
  | hits => exact absurd trivial hg
  | layer k q =>
    have main : ∀ {v w : Pc α}, .layer k q ∈ v.writes num b.shared.model → Touches num b.shared.model w (.layer k q) →
        (∃ i im s, v = .forward i im k s) ∧ (∃ i im s, w = .forward i im k s) ∧
        ((Loc.layer k q = .layer k (.slot 0) ∧ ∃ P, b.shared.model.bodyAt k = some (.pooling P)) ∨
          (Loc.layer k q = .layer k .params ∧ ∃ L, b.shared.model.bodyAt k = some (.connected L) ∧ L.initialized = false)) := by
      intro v w h1 h2
      obtain ⟨i, im, s, _, e1, _, _⟩ := touches_layer (Or.inr h1 : Touches num b.shared.model v _)
      obtain ⟨i', im', s', _, e2, _, _⟩ := touches_layer h2
      refine ⟨⟨i, im, s, e1⟩, ⟨i', im', s', e2⟩, ?_⟩
      obtain ⟨m, hm, hq⟩ := writes_layer h1
      rcases forwardWrites_mem hq with ⟨rfl, P, hP⟩ | ⟨rfl, L, hL, hi⟩
      · exact Or.inl ⟨rfl, P, by rw [Model.bodyAt, hm, ← hP]; rfl⟩
      · exact Or.inr ⟨rfl, L, by rw [Model.bodyAt, hm, ← hL]; rfl, hi⟩
    rcases h with ⟨h1, h2⟩ | ⟨h1, h2⟩
    · obtain ⟨⟨i, im, s, rfl⟩, ⟨i', im', s', rfl⟩, h⟩ := main h1 h2
      exact ⟨k, ⟨i, im, s, hv⟩, ⟨i', im', s', hw⟩, h⟩
    · obtain ⟨⟨i, im, s, rfl⟩, ⟨i', im', s', rfl⟩, h⟩ := main h1 h2
      exact ⟨k, ⟨i', im', s', hv⟩, ⟨i, im, s, hw⟩, h⟩

/-- Two threads at the same pooling layer race. -/
theorem races_pooling {num : Int} {b : State α} {t u k : Nat} (htu : t ≠ u) {P : Pooling} (hP : b.shared.model.bodyAt k = some (.pooling P))
    (ht : At b t k) (hu : At b u k) : b.Races num t u (.layer k (.slot 0)) := by
  obtain ⟨i, im, s, ht⟩ := ht
  obtain ⟨i', im', s', hu⟩ := hu
  unfold Model.bodyAt at hP
  obtain ⟨m, hm, hP⟩ := Option.map_eq_some_iff.1 hP
  refine ⟨htu, fun h => h, _, _, ht, hu, Or.inl ⟨?_, Or.inr ?_⟩⟩ <;>
  · simp only [Pc.writes, hm, hP]
    exact List.mem_map_of_mem (List.mem_singleton.2 rfl)

theorem bodyAt_pooling {M M' : Model α} (h : M'.bare = M.bare) (k : Nat) :
    (∃ P, M'.bodyAt k = some (.pooling P)) ↔ ∃ P, M.bodyAt k = some (.pooling P) := by
  have main : ∀ {M M' : Model α}, M'.bare = M.bare → (∃ P, M'.bodyAt k = some (.pooling P)) → ∃ P, M.bodyAt k = some (.pooling P) := by
    intro M M' h ⟨P, hP⟩
    have := bare_get h k
    unfold Model.bodyAt at hP ⊢
    obtain ⟨m, hm, hP⟩ := Option.map_eq_some_iff.1 hP
    rw [hm] at this
    cases hk : M.layers[k]? with
    | none => rw [hk] at this; cases this
    | some l =>
      rw [hk] at this
      simp only [Option.map_some, Option.some.injEq, hP] at this
      cases hb : l.body with
      | pooling Q => exact ⟨Q, by simp [hb]⟩
      | _ => rw [hb] at this; simp [Body.bare] at this
  exact ⟨main h, main h.symm⟩

end Cnn.Validate
