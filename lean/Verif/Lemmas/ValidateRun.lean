import Verif.Lemmas.Validate
/-! Helper lemmas: the threads of the validation run (C72). -/
set_option linter.unusedSectionVars false
namespace Cnn.Validate
open Model Mnist
variable {α : Type} [Zero α] [One α] [Add α] [Sub α] [Mul α] [Div α] [Neg α]

/-- The image a thread is at. -/
def Pc.pos : Pc α → Int
  | .next i => i
  | .forward i _ _ _ => i
  | .done i => i

/-- What is known about thread `t` of `T`. -/
def Pc.Fine (E : Env α) (conv : F32 → α) (f : Content) (M0 : Model α) (L T t : Nat) : Pc α → Prop
  | .next i => ∃ m : Nat, i = m ∧ m % T = t ∧ m < f.n + T
  | .forward i im k st => ∃ m : Nat, i = m ∧ m % T = t ∧ m < f.n ∧ f.IsRecord m im ∧ k ≤ L ∧ ∃ M', pass E M0 (input conv im.data) k = .ok (st, M')
  | .done i => ∃ m : Nat, i = m ∧ m % T = t ∧ f.n ≤ m

/-- Steps a thread still has to make, at least. -/
def Pc.todo (n T L : Nat) : Pc α → Nat
  | .next i => (n + T - i.toNat) * (L + 2)
  | .forward i _ k _ => (n + T - i.toNat) * (L + 2) - 1 - k
  | .done _ => 0

def hit (e : Event) : Bool := decide (e.label = natText e.im.label)

structure Inv (E : Env α) (conv : F32 → α) (f : Content) (M0 : Model α) (B T : Nat) (s : Shape) (ks : List LayerKind) (b : State α) (evs : List Event) : Prop where
  shaped : b.shared.model.Shaped B s ks M0.labels
  bare : b.shared.model.bare = M0.bare
  db : ∃ cur, b.shared.db.On f cur
  len : b.workers.length = T
  workers : ∀ (t : Nat) (w : Pc α), b.workers[t]? = some w → w.Fine E conv f M0 (ks.length + 1) T t
  once : ∀ i : Nat, (evs.map Event.image).count (i : Int) = if i < f.n ∧ (∀ w, b.workers[i % T]? = some w → (i : Int) < w.pos) then 1 else 0
  events : ∀ e ∈ evs, ∃ i : Nat, i < f.n ∧ e.image = i ∧ f.IsRecord i e.im ∧ Predicts E M0 (input conv e.im.data) e.label
  correct : b.shared.correct = wrap32 (evs.countP hit)

variable {E : Env α} {conv : F32 → α} {big : Bool} {lim : Nat} {f : Content} {M0 : Model α} {B T : Nat} {ks : List LayerKind}

theorem wrap32_add (a b : Int) : wrap32 (wrap32 a + b) = wrap32 (a + b) := by unfold wrap32; omega

theorem getImage_on (ok : f.Ok lim) {R : Reader} {cur : Nat} (h : R.On f cur) {i : Nat} (hi : i < f.n) :
    ∃ im R', Reader.getImage big lim (u64 (i : Int)) R = (.ok im, R') ∧ f.IsRecord i im ∧ R'.On f (i + 1) := by
  have hle : 16 + i * (f.h * f.w) ≤ lim := by
    have h := ok.img
    rw [Content.length_images] at h
    have : i * (f.h * f.w) ≤ f.n * (f.h * f.w) := Nat.mul_le_mul_right _ hi.le
    omega
  rw [u64_nat (by have := ok.n; omega)]
  obtain ⟨im, R', e, hr, h'⟩ := ((h.seek ok i hle).next big ok).1 hi
  exact ⟨im, R', e, hr, h'⟩

theorem mod_next {m T i : Nat} (hT : 0 < T) (hi : i % T = m % T) : i < m + T ↔ i < m ∨ i = m := by
  constructor
  · intro h
    by_contra hc
    have h1 : m < i := by omega
    have h2 : (i - m) % T = 0 := Nat.sub_mod_eq_zero_of_mod_eq hi
    rw [Nat.mod_eq_of_lt (by omega)] at h2
    omega
  · rintro (h | h) <;> omega

/-- One step of a thread. -/
theorem Pc.step_fine (ok : f.Ok lim) (hT0 : 0 < T) (hT : f.n + T < 2147483648) (hB : 0 < B) (hM : M0.Shaped B ⟨f.h, f.w, 1⟩ ks M0.labels) (hr : M0.Ready)
    (hW : KindsWork true ⟨f.h, f.w, 1⟩ ks) {sh : Shared α} (hS : sh.model.Shaped B ⟨f.h, f.w, 1⟩ ks M0.labels) (hb : sh.model.bare = M0.bare)
    (hdb : ∃ cur, sh.db.On f cur) {t : Nat} {w : Pc α} (hw : w.Fine E conv f M0 (ks.length + 1) T t) :
    ∃ w' sh' ev, w.step ⟨E, conv, big, lim, f.n, T⟩ t sh = .ok (w', sh', ev) ∧ sh'.model.Shaped B ⟨f.h, f.w, 1⟩ ks M0.labels ∧ sh'.model.bare = M0.bare ∧
      (∃ cur, sh'.db.On f cur) ∧ w'.Fine E conv f M0 (ks.length + 1) T t ∧
      ((ev = [] ∧ w'.pos = w.pos ∧ sh'.correct = sh.correct) ∨ ∃ (m : Nat) (e : Event), w.pos = m ∧ w'.pos = m + T ∧ m < f.n ∧ m % T = t ∧ ev = [e] ∧ e.image = m ∧
        f.IsRecord m e.im ∧ Predicts E M0 (input conv e.im.data) e.label ∧ sh'.correct = wrap32 (sh.correct + if hit e then 1 else 0)) ∧
      (w'.todo f.n T (ks.length + 1) < w.todo f.n T (ks.length + 1) ∨ ∃ i, w = .done i) := by
  cases w with
  | next i =>
    obtain ⟨m, rfl, hm, hlt⟩ := hw
    simp only [Pc.step]
    by_cases hn : m < f.n
    · rw [if_pos (by omega)]
      obtain ⟨cur, hdb⟩ := hdb
      obtain ⟨im, R', e, him, hR'⟩ := getImage_on (big := big) ok hdb hn
      rw [e]
      obtain ⟨st, M', e1, _, _, _, _⟩ := pass_shaped E hM hr hW hB ⟨_, input_shows conv him.2⟩ 0 (by omega)
      have e2 : forwardBegin E (input conv im.data) = .ok st := by
        unfold pass at e1
        obtain ⟨s0, a, b⟩ := Res.bind_eq_ok e1
        rw [a]
        have := Res.ok.inj b
        rw [show s0 = st from congrArg Prod.fst this]
      refine ⟨.forward (m : Int) im 0 st, { sh with db := R' }, [], by dsimp only; rw [e2, Res.bind_ok], hS, hb, ⟨_, hR'⟩,
        ⟨m, rfl, hm, hn, him, by omega, M', e1⟩, Or.inl ⟨rfl, rfl, rfl⟩, Or.inl ?_⟩
      simp only [Pc.todo, Int.toNat_natCast]
      have : 0 < (f.n + T - m) * (ks.length + 1 + 2) := Nat.mul_pos (by omega) (by omega)
      omega
    · rw [if_neg (by omega)]
      refine ⟨_, _, _, rfl, hS, hb, hdb, ⟨m, rfl, hm, by omega⟩, Or.inl ⟨rfl, rfl, rfl⟩, Or.inl ?_⟩
      simp only [Pc.todo, Int.toNat_natCast]
      exact Nat.mul_pos (by omega) (by omega)
  | forward i im k st =>
    obtain ⟨m, rfl, hm, hn, him, hk, M', hp⟩ := hw
    have hX : (input conv im.data).Has (⟨f.h, f.w, 1⟩ : Shape) := ⟨_, input_shows conv him.2⟩
    obtain ⟨st', M'', e1, h1, h2, h3, h4⟩ := pass_shaped E hM hr hW hB hX k hk
    rw [hp] at e1
    obtain ⟨rfl, rfl⟩ := Prod.mk.inj (Res.ok.inj e1)
    have hpos : (ks.length + 1 + 2) + (f.n - m) * (ks.length + 1 + 2) ≤ (f.n + T - m) * (ks.length + 1 + 2) := by
      have : (f.n - m + 1) * (ks.length + 1 + 2) ≤ (f.n + T - m) * (ks.length + 1 + 2) := Nat.mul_le_mul_right _ (by omega)
      rw [Nat.add_mul] at this
      omega
    simp only [Pc.step]
    by_cases hlt : k < sh.model.layers.length
    · rw [if_pos hlt]
      rw [hS.count] at hlt
      obtain ⟨A, rec, N1, e2, _, _, hS1, _, _⟩ := forwardStep_shaped E hS hW hB hlt h3 h4
      obtain ⟨A', rec', N2, e3, _, _, _, _, _⟩ := forwardStep_shaped E h1 hW hB hlt h3 h4
      have heq := forwardStep_same (hb.trans h2.symm) e2 e3
      simp only at heq
      refine ⟨.forward (m : Int) im (k + 1) (A, rec), { sh with model := N1 }, [], by rw [e2, Res.bind_ok], hS1, ?_, hdb,
        ⟨m, rfl, hm, hn, him, by omega, N2, by rw [pass_succ, hp, Res.bind_ok, e3, ← heq]⟩, Or.inl ⟨rfl, rfl, rfl⟩, Or.inl ?_⟩
      · show N1.bare = M0.bare
        rw [(forwardStep_frame (hr.of_bare hb) e2).1, hb]
      · simp only [Pc.todo, Int.toNat_natCast]
        omega
    · rw [if_neg hlt]
      rw [hS.count] at hlt
      obtain rfl : k = ks.length + 1 := by omega
      have hl := hS.labelled
      obtain ⟨r, e2, _, hi⟩ := forwardEnd_has E sh.model h3 (by rw [shapeAt_end (Nat.le_succ _), hl]; exact hM.output) st.2
      obtain ⟨l, el⟩ : ∃ l, sh.model.labels[r.labelIdx]? = some l := ⟨_, List.getElem?_eq_getElem hi⟩
      have hw : wrap32 ((m : Int) + (T : Nat)) = ((m + T : Nat) : Int) := by unfold wrap32; omega
      refine ⟨.next ((m + T : Nat) : Int), { sh with correct := wrap32 (sh.correct + if l = natText im.label then 1 else 0) }, [⟨t, (m : Int), im, l⟩],
        by rw [e2, Res.bind_ok, el, Res.ofOption_some, Res.bind_ok, hw], hS, hb, hdb, ⟨m + T, rfl, ?_, by omega⟩,
        Or.inr ⟨m, ⟨t, (m : Int), im, l⟩, rfl, by simp [Pc.pos], hn, hm, rfl, rfl, him, ?_, ?_⟩, Or.inl ?_⟩
      · rw [Nat.add_mod_right]; exact hm
      · refine ⟨r, M', ?_, ?_⟩
        · unfold forwardPropagation
          rw [hM.count]
          unfold pass at hp
          obtain ⟨s0, a, b⟩ := Res.bind_eq_ok hp
          rw [a, Res.bind_ok, b, Res.bind_ok]
          dsimp only
          rw [forwardEnd_congr E (M' := sh.model) (by rw [h1.labelled, hl]), e2, Res.bind_ok]
        · rw [← hl]; exact el
      · simp [hit]
      · simp only [Pc.todo, Int.toNat_natCast]
        have : (f.n + T - (m + T)) = f.n - m := by omega
        rw [this]
        omega
  | done i =>
    refine ⟨_, _, _, rfl, hS, hb, hdb, hw, Or.inl ⟨rfl, rfl, rfl⟩, Or.inr ⟨i, rfl⟩⟩

/-- Steps still to make. -/
def State.todo (n T L : Nat) (b : State α) : Nat := (b.workers.map (Pc.todo n T L)).sum

theorem sum_set {β : Type} (g : β → Nat) {l : List β} {t : Nat} {a a' : β} (h : l[t]? = some a) :
    ((l.set t a').map g).sum + g a = (l.map g).sum + g a' := by
  induction l generalizing t with
  | nil => simp at h
  | cons x l ih =>
    cases t with
    | zero =>
      obtain rfl : x = a := by simpa using h
      simp; omega
    | succ t =>
      have := ih (t := t) (by simpa using h)
      simp only [List.set_cons_succ, List.map_cons, List.sum_cons]
      omega

theorem one_other {a b : Int} (h : a ≠ b) : [a].count b = 0 := List.count_eq_zero_of_not_mem (by simpa using h.symm)

theorem Inv.step (ok : f.Ok lim) (hT0 : 0 < T) (hT : f.n + T < 2147483648) (hB : 0 < B) (hM : M0.Shaped B ⟨f.h, f.w, 1⟩ ks M0.labels) (hr : M0.Ready)
    (hW : KindsWork true ⟨f.h, f.w, 1⟩ ks) {b : State α} {evs : List Event} (h : Inv E conv f M0 B T ⟨f.h, f.w, 1⟩ ks b evs) (t : Nat) :
    ∃ r, b.step ⟨E, conv, big, lim, f.n, T⟩ t = .ok r ∧ Inv E conv f M0 B T ⟨f.h, f.w, 1⟩ ks r.1 (evs ++ r.2) ∧
      (∀ w, b.workers[t]? = some w → r.1.todo f.n T (ks.length + 1) < b.todo f.n T (ks.length + 1) ∨ ∃ i, w = .done i) := by
  unfold State.step
  cases hw : b.workers[t]? with
  | none => exact ⟨_, rfl, by simpa using h, by simp⟩
  | some w =>
    obtain ⟨w', sh', ev, e, h1, h2, h3, h4, h5, h6⟩ := Pc.step_fine (big := big) ok hT0 hT hB hM hr hW h.shaped h.bare h.db (h.workers t w hw)
    have htl : t < b.workers.length := (List.getElem?_eq_some_iff.1 hw).1
    have htT : t < T := by rw [← h.len]; exact htl
    refine ⟨(⟨sh', b.workers.set t w'⟩, ev), ?_, ⟨h1, h2, h3, by simp [h.len], ?_, ?_, ?_, ?_⟩, ?_⟩
    · dsimp only
      rw [e]; rfl
    · intro t' v hv
      rw [List.getElem?_set] at hv
      split_ifs at hv with hc
      · subst hc
        obtain rfl := Option.some.inj hv
        exact h4
      · exact h.workers t' v hv
    · intro i
      have hold := h.once i
      rw [List.map_append, List.count_append, hold]
      rcases h5 with ⟨rfl, hp, _⟩ | ⟨m, e', hp, hp', hn, hm, rfl, he, _, _, _⟩
      · simp only [List.map_nil, List.count_nil, Nat.add_zero]
        congr 1
        by_cases hc : i % T = t
        · rw [hc, hw, List.getElem?_set_self htl]
          simp [hp]
        · rw [List.getElem?_set_ne (Ne.symm hc)]
      · by_cases hc : i % T = t
        · simp only [hc, hw, List.getElem?_set_self htl, Option.some.injEq, forall_eq', hp, hp']
          have key := mod_next (m := m) (i := i) hT0 (by rw [hc, hm])
          by_cases him : i = m
          · subst him
            rw [if_neg (by simp), if_pos ⟨hn, by omega⟩]
            simp [he]
          · have hne : (m : Int) ≠ (i : Int) := by omega
            simp only [List.map_cons, List.map_nil, he]
            rw [one_other hne, Nat.add_zero]
            by_cases h7 : i < f.n ∧ i < m
            · rw [if_pos ⟨h7.1, by omega⟩, if_pos ⟨h7.1, by omega⟩]
            · rw [if_neg (by omega), if_neg (by omega)]
        · have hne : (m : Int) ≠ (i : Int) := by
            intro hcc
            apply hc
            rw [← hm]
            congr 1
            omega
          simp only [List.map_cons, List.map_nil, he]
          rw [one_other hne, List.getElem?_set_ne (Ne.symm hc), Nat.add_zero]
    · intro x hx
      rcases List.mem_append.1 hx with hx | hx
      · exact h.events x hx
      · rcases h5 with ⟨rfl, _, _⟩ | ⟨m, e', hp, hp', hn, hm, rfl, he, h7, h8, _⟩
        · simp at hx
        · obtain rfl : x = e' := by simpa using hx
          exact ⟨m, hn, he, h7, h8⟩
    · rw [List.countP_append]
      rcases h5 with ⟨rfl, _, hc⟩ | ⟨m, e', _, _, _, _, rfl, _, _, _, hc⟩
      · simp only [List.countP_nil, Nat.add_zero]
        rw [hc]; exact h.correct
      · show sh'.correct = _
        rw [hc, h.correct, wrap32_add]
        congr 1
        push_cast
        simp only [List.countP_cons, List.countP_nil]
        cases hit e' <;> simp
    · intro v hv
      obtain rfl := Option.some.inj hv
      rcases h6 with h6 | h6
      · left
        have := sum_set (Pc.todo f.n T (ks.length + 1)) (a' := w') hw
        unfold State.todo
        dsimp only
        omega
      · exact Or.inr h6

theorem Inv.run (ok : f.Ok lim) (hT0 : 0 < T) (hT : f.n + T < 2147483648) (hB : 0 < B) (hM : M0.Shaped B ⟨f.h, f.w, 1⟩ ks M0.labels) (hr : M0.Ready)
    (hW : KindsWork true ⟨f.h, f.w, 1⟩ ks) (sched : List Nat) : ∀ {b : State α} {evs : List Event}, Inv E conv f M0 B T ⟨f.h, f.w, 1⟩ ks b evs →
    ∃ r, b.run ⟨E, conv, big, lim, f.n, T⟩ sched = .ok r ∧ Inv E conv f M0 B T ⟨f.h, f.w, 1⟩ ks r.1 (evs ++ r.2) := by
  induction sched with
  | nil => intro b evs h; exact ⟨_, rfl, by simpa using h⟩
  | cons t ts ih =>
    intro b evs h
    obtain ⟨r, e, h1, _⟩ := h.step (big := big) ok hT0 hT hB hM hr hW t
    obtain ⟨q, e2, h2⟩ := ih h1
    exact ⟨(q.1, r.2 ++ q.2), by rw [State.run, e, Res.bind_ok, e2, Res.bind_ok], by rw [← List.append_assoc]; exact h2⟩

theorem over_iff {b : State α} : b.over = true ↔ ∀ (t : Nat) (w : Pc α), b.workers[t]? = some w → ∃ i, w = .done i := by
  unfold State.over
  rw [List.all_eq_true]
  constructor
  · intro h t w hw
    have := h w (List.mem_of_getElem? hw)
    cases w <;> simp at this ⊢
  · intro h w hw
    obtain ⟨t, ht⟩ := List.mem_iff_getElem?.1 hw
    obtain ⟨i, rfl⟩ := h t w ht
    rfl

theorem Inv.ends (ok : f.Ok lim) (hT0 : 0 < T) (hT : f.n + T < 2147483648) (hB : 0 < B) (hM : M0.Shaped B ⟨f.h, f.w, 1⟩ ks M0.labels) (hr : M0.Ready)
    (hW : KindsWork true ⟨f.h, f.w, 1⟩ ks) : ∀ (n : Nat) {b : State α} {evs : List Event}, b.todo f.n T (ks.length + 1) ≤ n →
    Inv E conv f M0 B T ⟨f.h, f.w, 1⟩ ks b evs → ∃ sched r, b.run ⟨E, conv, big, lim, f.n, T⟩ sched = .ok r ∧ r.1.over = true := by
  intro n
  induction n with
  | zero =>
    intro b evs hn h
    refine ⟨[], _, rfl, over_iff.2 ?_⟩
    intro t w hw
    obtain ⟨r, _, _, hd⟩ := h.step (big := big) ok hT0 hT hB hM hr hW t
    rcases hd w hw with hd | hd
    · omega
    · exact hd
  | succ n ih =>
    intro b evs hn h
    by_cases ho : b.over = true
    · exact ⟨[], _, rfl, ho⟩
    · rw [over_iff] at ho
      push Not at ho
      obtain ⟨t, w, hw, hne⟩ := ho
      obtain ⟨r, e, h1, hd⟩ := h.step (big := big) ok hT0 hT hB hM hr hW t
      have hlt : r.1.todo f.n T (ks.length + 1) < b.todo f.n T (ks.length + 1) := by
        rcases hd w hw with hd | ⟨i, hi⟩
        · exact hd
        · exact absurd hi (hne i)
      obtain ⟨sched, q, e2, ho⟩ := ih (by omega) h1
      exact ⟨t :: sched, (q.1, r.2 ++ q.2), by rw [State.run, e, Res.bind_ok, e2, Res.bind_ok], ho⟩

theorem start_get {M : Model α} {db : Reader} {t : Nat} (h : t < T) : (start T M db).workers[t]? = some (.next (wrap32 (t : Int))) := by
  simp [start, h]

theorem Inv.init (hT0 : 0 < T) (hT : f.n + T < 2147483648) (hM : M0.Shaped B ⟨f.h, f.w, 1⟩ ks M0.labels)
    {db : Reader} {cur : Nat} (hdb : db.On f cur) : Inv E conv f M0 B T ⟨f.h, f.w, 1⟩ ks (start T M0 db) [] := by
  have hw : ∀ t : Nat, t < T → wrap32 (t : Int) = (t : Int) := by intro t ht; unfold wrap32; omega
  refine ⟨hM, rfl, ⟨cur, hdb⟩, by simp [start], ?_, ?_, by simp, rfl⟩
  · intro t w ht
    have h1 : t < T := by simpa [start] using (List.getElem?_eq_some_iff.1 ht).1
    rw [start_get h1] at ht
    obtain rfl := Option.some.inj ht
    exact ⟨t, hw t h1, Nat.mod_eq_of_lt h1, by omega⟩
  · intro i
    rw [if_neg]
    · rfl
    · rintro ⟨_, h⟩
      have hlt := Nat.mod_lt i hT0
      have := h (.next (wrap32 ((i % T : Nat) : Int))) (by rw [start_get hlt])
      rw [Pc.pos, hw _ hlt] at this
      have := Nat.mod_le i T
      omega

/-- At the end every image has been classified once. -/
theorem Inv.perm {s : Shape} {b : State α} {evs : List Event} (h : Inv E conv f M0 B T s ks b evs) (ho : b.over = true) :
    (evs.map Event.image).Perm ((List.range f.n).map fun i : Nat => (i : Int)) := by
  rw [over_iff] at ho
  rw [List.perm_iff_count]
  intro a
  have hmem : a ∈ evs.map Event.image → ∃ i : Nat, i < f.n ∧ a = i := by
    intro ha
    obtain ⟨e, he, rfl⟩ := List.mem_map.1 ha
    obtain ⟨i, hi, h1, _⟩ := h.events e he
    exact ⟨i, hi, h1⟩
  by_cases ha : ∃ i : Nat, i < f.n ∧ a = i
  · obtain ⟨i, hi, rfl⟩ := ha
    rw [h.once i, if_pos]
    · symm
      refine List.count_eq_one_of_mem ?_ (List.mem_map.2 ⟨i, List.mem_range.2 hi, rfl⟩)
      exact List.nodup_range.map (fun a b h => by simpa using h)
    · refine ⟨hi, fun w hw => ?_⟩
      obtain ⟨j, rfl⟩ := ho _ w hw
      obtain ⟨m, rfl, hm, hle⟩ := h.workers _ _ hw
      show (i : Int) < (m : Int)
      omega
  · rw [List.count_eq_zero_of_not_mem (fun hc => ha (hmem hc)), List.count_eq_zero_of_not_mem]
    rintro hc
    obtain ⟨i, hi, rfl⟩ := List.mem_map.1 hc
    exact ha ⟨i, List.mem_range.1 hi, rfl⟩

end Cnn.Validate
