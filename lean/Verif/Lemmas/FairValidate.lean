import Verif.Lemmas.ValidateRun
import Verif.Lemmas.Fair
/-!
# How many steps a thread of the validation makes (C94)
-/
set_option linter.unusedSectionVars false
namespace Cnn.Validate
open Model Mnist Train
variable {α : Type} [Zero α] [One α] [Add α] [Sub α] [Mul α] [Div α] [Neg α]

/-- The images left to a thread at image `m`: every `T`th of those below `n`. -/
def left (n T m : Nat) : Nat := (n - m + T - 1) / T

theorem left_next {n T m : Nat} (hT : 0 < T) (h : m < n) : left n T m = left n T (m + T) + 1 := by
  unfold left
  by_cases hm : m + T ≤ n
  · rw [show n - m + T - 1 = n - (m + T) + T - 1 + T by omega, Nat.add_div_right _ hT]
  · rw [show n - (m + T) + T - 1 = T - 1 by omega, Nat.div_eq_of_lt (by omega : T - 1 < T), show n - m + T - 1 = (n - m - 1) + T by omega,
      Nat.add_div_right _ hT, Nat.div_eq_of_lt (by omega)]

theorem left_end {n T m : Nat} (hT : 0 < T) (h : n ≤ m) : left n T m = 0 := by
  unfold left
  rw [Nat.sub_eq_zero_of_le h, Nat.div_eq_of_lt (by omega)]

/-- Steps a thread has yet to make; `L` layers. -/
def Pc.togo (n T L : Nat) : Pc α → Nat
  | .next i => left n T i.toNat * (L + 2) + 1
  | .forward i _ k _ => left n T (i.toNat + T) * (L + 2) + 1 + (L - k) + 1
  | .done _ => 0

/-- The number of the image is in the range of `int`. -/
def Pc.Near (n T : Nat) : Pc α → Prop
  | .next i => 0 ≤ i ∧ i < n + T
  | .forward i _ _ _ => 0 ≤ i ∧ i < n
  | .done _ => True

theorem step_near {S : Setup α} {n : Nat} (hn : S.num.toNat = n) (hT0 : 0 < S.workers) (hT : n + S.workers < 2147483648) {t : Nat} {sh : Shared α} {p : Pc α}
    {a : Pc α × Shared α × List Event} (hp : p.Near n S.workers) (h : p.step S t sh = .ok a) :
    a.2.1.model.layers.length = sh.model.layers.length ∧ a.1.Near n S.workers ∧
    a.1.togo n S.workers sh.model.layers.length = p.togo n S.workers sh.model.layers.length - 1 := by
  cases p with
  | next i =>
    obtain ⟨h0, h1⟩ := hp
    simp only [Pc.step] at h
    split at h
    · rename_i hi
      split at h
      · obtain ⟨s, -, h⟩ := Res.bind_eq_ok h
        obtain rfl := Res.ok.inj h
        refine ⟨rfl, ⟨h0, by omega⟩, ?_⟩
        simp only [Pc.togo]
        rw [left_next (m := i.toNat) hT0 (by omega), Nat.add_mul]
        omega
      all_goals simp at h
    · rename_i hi
      obtain rfl := Res.ok.inj h
      refine ⟨rfl, trivial, ?_⟩
      simp only [Pc.togo]
      rw [left_end hT0 (by omega)]
      omega
  | forward i im k s =>
    obtain ⟨h0, h1⟩ := hp
    simp only [Pc.step] at h
    split at h
    · obtain ⟨r, hr, h⟩ := Res.bind_eq_ok h
      obtain rfl := Res.ok.inj h
      refine ⟨(forwardStep_label hr).2.2, ⟨h0, h1⟩, ?_⟩
      simp only [Pc.togo]
      omega
    · obtain ⟨r, -, h⟩ := Res.bind_eq_ok h
      obtain ⟨l, -, h⟩ := Res.bind_eq_ok h
      obtain rfl := Res.ok.inj h
      have hw : wrap32 (i + S.workers) = i + S.workers := by unfold wrap32; omega
      refine ⟨rfl, ?_, ?_⟩
      · simp only [Pc.Near]
        rw [hw]
        omega
      · simp only [Pc.togo]
        rw [hw, show (i + (S.workers : Int)).toNat = i.toNat + S.workers by omega]
        omega
  | done i =>
    obtain rfl := Res.ok.inj h
    exact ⟨rfl, trivial, rfl⟩

theorem run_near {S : Setup α} {n : Nat} (hn : S.num.toNat = n) (hT0 : 0 < S.workers) (hT : n + S.workers < 2147483648) (sched : List Nat) :
    ∀ {b : State α} {r : State α × List Event}, (∀ (t : Nat) (w : Pc α), b.workers[t]? = some w → w.Near n S.workers) → b.run S sched = .ok r →
    r.1.workers.length = b.workers.length ∧ ∀ (t : Nat) (w : Pc α), b.workers[t]? = some w → ∃ w', r.1.workers[t]? = some w' ∧
      w'.togo n S.workers b.shared.model.layers.length = w.togo n S.workers b.shared.model.layers.length - sched.count t := by
  induction sched with
  | nil =>
    intro b r _ h
    obtain rfl := Res.ok.inj h
    exact ⟨rfl, fun t w hw => ⟨w, hw, by simp⟩⟩
  | cons u ts ih =>
    intro b r hb h
    rw [State.run] at h
    obtain ⟨a, ha, h⟩ := Res.bind_eq_ok h
    obtain ⟨q, hq, h⟩ := Res.bind_eq_ok h
    obtain rfl := Res.ok.inj h
    unfold State.step at ha
    cases hu : b.workers[u]? with
    | none =>
      rw [hu] at ha
      obtain rfl := Res.ok.inj ha
      obtain ⟨h1, h2⟩ := ih hb hq
      refine ⟨h1, fun t w hw => ?_⟩
      have : u ≠ t := by rintro rfl; rw [hw] at hu; cases hu
      rw [List.count_cons_of_ne this]
      exact h2 t w hw
    | some v =>
      rw [hu] at ha
      simp only at ha
      obtain ⟨c, hc, ha⟩ := Res.bind_eq_ok ha
      obtain rfl := Res.ok.inj ha
      obtain ⟨g1, g2, g3⟩ := step_near hn hT0 hT (hb u v hu) (terminate_ok hc)
      have hlt : u < b.workers.length := (List.getElem?_eq_some_iff.1 hu).1
      obtain ⟨h1, h2⟩ := ih (b := ⟨c.2.1, b.workers.set u c.1⟩) (fun t w hw => by
        by_cases e : u = t
        · subst e
          rw [List.getElem?_set_self hlt] at hw
          obtain rfl := Option.some.inj hw
          exact g2
        · rw [List.getElem?_set_ne e] at hw
          exact hb t w hw) hq
      simp only [List.length_set] at h1
      simp only at h2
      rw [g1] at h2
      refine ⟨h1, fun t w hw => ?_⟩
      by_cases e : u = t
      · subst e
        obtain rfl := Option.some.inj (hu.symm.trans hw)
        obtain ⟨w', hw', e'⟩ := h2 u c.1 (by rw [List.getElem?_set_self hlt])
        refine ⟨w', hw', ?_⟩
        rw [e', g3, List.count_cons_self]
        omega
      · obtain ⟨w', hw', e'⟩ := h2 t w (by rw [List.getElem?_set_ne e]; exact hw)
        exact ⟨w', hw', by rw [e', List.count_cons_of_ne e]⟩

theorem count_fair {E : Env α} {conv : F32 → α} {big : Bool} {lim : Nat} {images labels : Option (List UInt8)} {db : Reader}
    (hdb : Reader.new big images labels = .ok db) {n : Nat} (hn : (wrap32 db.numImages).toNat = n) {T : Nat} (hT0 : 0 < T)
    (hT : n + T < 2147483648) {sched : List Nat} {M : Model α} {o : Option (State α × List Event)}
    (h : count E conv big lim images labels T sched M = .ok o) :
    o ≠ none ↔ ∀ t < T, left n T t * (M.layers.length + 2) + 1 ≤ sched.count t := by
  unfold count at h
  rw [hdb, Res.bind_ok, if_neg (by omega)] at h
  obtain ⟨r, hr, h⟩ := Res.bind_eq_ok h
  obtain rfl := Res.ok.inj h
  have hw : ∀ t : Nat, t < T → wrap32 (t : Int) = (t : Int) := by intro t ht; unfold wrap32; omega
  rw [Int.toNat_natCast] at hr
  have init : ∀ (t : Nat) (w : Pc α), (start T M db).workers[t]? = some w ↔ t < T ∧ w = .next (t : Int) := by
    intro t w
    constructor
    · intro ht
      have h1 : t < T := by simpa [start] using (List.getElem?_eq_some_iff.1 ht).1
      rw [start_get h1] at ht
      obtain rfl := Option.some.inj ht
      exact ⟨h1, by rw [hw t h1]⟩
    · rintro ⟨h1, rfl⟩
      rw [start_get h1, hw t h1]
  obtain ⟨h1, h2⟩ := run_near (S := ⟨E, conv, big, lim, wrap32 db.numImages, T⟩) hn hT0 hT sched (by
    intro t w ht
    obtain ⟨h1, rfl⟩ := (init t w).1 ht
    exact ⟨by omega, by simp only; omega⟩) hr
  have hlen : (start T M db).workers.length = T := by simp [start]
  have done0 : ∀ w : Pc α, w.togo n T M.layers.length = 0 ↔ (match w with | .done _ => true | _ => false) = true := by
    intro w; cases w <;> simp [Pc.togo]
  have : r.1.over = true ↔ ∀ t < T, left n T t * (M.layers.length + 2) + 1 ≤ sched.count t := by
    rw [State.over, List.all_eq_true]
    constructor
    · intro ho t ht
      obtain ⟨w', hw', e⟩ := h2 t _ ((init t _).2 ⟨ht, rfl⟩)
      have := (done0 w').2 (ho w' (List.mem_of_getElem? hw'))
      simp only [Pc.togo, Int.toNat_natCast] at e
      have e : w'.togo n T M.layers.length = left n T t * (M.layers.length + 2) + 1 - sched.count t := e
      omega
    · intro hf w hw
      obtain ⟨t, ht⟩ := List.mem_iff_getElem?.1 hw
      have hlt : t < T := by
        have := (List.getElem?_eq_some_iff.1 ht).1
        omega
      obtain ⟨w', hw', e⟩ := h2 t _ ((init t _).2 ⟨hlt, rfl⟩)
      obtain rfl := Option.some.inj (ht.symm.trans hw')
      have e : w.togo n T M.layers.length = left n T t * (M.layers.length + 2) + 1 - sched.count t := e
      have := hf t hlt
      exact (done0 w).1 (by omega)
  rw [← this]
  by_cases ho : r.1.over = true <;> simp [ho]

end Cnn.Validate
