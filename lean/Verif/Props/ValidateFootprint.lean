import Verif.Lemmas.ValidateFootprint
import Verif.Props.Validate
/-!
# Property C100: data races between validation threads
-/
set_option linter.unusedSectionVars false
namespace Cnn.Validate
open Model Mnist
variable {α : Type} [Zero α] [One α] [Add α] [Sub α] [Mul α] [Div α] [Neg α]

/-- C100 What a step of a thread accesses is what `reads` and `writes` say. First half: put anything into a location it does not access; the step does the
same and leaves the location as it is. -/
theorem C100_unaffected (S : Setup α) (t : Nat) (sh any : Shared α) (p : Pc α) (l : Loc) (h : ¬ Touches S.num sh.model p l) :
    p.step S t (any.copy sh l) = (fun r => (r.1, any.copy r.2.1 l, r.2.2)) <$> p.step S t sh :=
  step_copy S t any sh p (fun h' => h (Or.inl h')) (fun h' => h (Or.inr h'))

/-- C100 Second half: the state after a step is that before it except for the locations written. -/
theorem C100_changes (S : Setup α) (t : Nat) (sh : Shared α) (p : Pc α) (r : Pc α × Shared α × List Event) (h : p.step S t sh = .ok r) :
    r.2.1 = r.2.1.copies (p.writes S.num sh.model) sh := step_writes h

/-- C100 In every state that the threads can reach, on whatever files, two threads are in a data race exactly if both are about to call the same pooling
layer; the location is the layer's record for batch slot 0. The fully connected layers have been used before. -/
theorem C100_races (S : Setup α) (T : Nat) (M : Model α) (db : Reader) (hM : ∀ l ∈ M.layers, ∀ L, l.body = .connected L → L.initialized = true)
    (sched : List Nat) (r : State α × List Event) (hr : (start T M db).run S sched = .ok r) (t u : Nat) (l : Loc) :
    r.1.Races S.num t u l ↔ t ≠ u ∧ ∃ k P, l = .layer k (.slot 0) ∧ M.bodyAt k = some (.pooling P) ∧ At r.1 t k ∧ At r.1 u k := by
  have hR : M.Ready := by
    intro l hl
    have := hM l hl
    cases hb : l.body with
    | connected L => exact this L hb
    | _ => trivial
  have hb : r.1.shared.model.bare = M.bare := run_bare hR sched (b := start T M db) rfl hr
  constructor
  · intro h
    refine ⟨h.1, ?_⟩
    obtain ⟨k, h1, h2, ⟨rfl, hP⟩ | ⟨_, L, hL, hi⟩⟩ := races_only h
    · obtain ⟨P, hP⟩ := (bodyAt_pooling hb k).1 hP
      exact ⟨k, P, rfl, hP, h1, h2⟩
    · unfold bodyAt at hL
      obtain ⟨m, hm, hL⟩ := Option.map_eq_some_iff.1 hL
      have := hR.of_bare hb m (List.mem_of_getElem? hm)
      rw [hL] at this
      have : L.initialized = true := this
      rw [hi] at this
      cases this
  · rintro ⟨htu, k, P, rfl, hP, h1, h2⟩
    obtain ⟨Q, hQ⟩ := (bodyAt_pooling hb k).2 ⟨P, hP⟩
    exact races_pooling htu hQ h1 h2

/-- C100 So without pooling layers there is no data race, whatever the number of threads. -/
theorem C100_no_pooling (S : Setup α) (T : Nat) (M : Model α) (db : Reader) (hM : ∀ l ∈ M.layers, ∀ L, l.body = .connected L → L.initialized = true)
    (hP : ∀ l ∈ M.layers, ∀ P, l.body ≠ .pooling P) (sched : List Nat) (r : State α × List Event) (hr : (start T M db).run S sched = .ok r)
    (t u : Nat) (l : Loc) : ¬ r.1.Races S.num t u l := by
  intro h
  obtain ⟨_, k, P, _, h, _⟩ := (C100_races S T M db hM sched r hr t u l).1 h
  unfold bodyAt at h
  obtain ⟨m, hm, h⟩ := Option.map_eq_some_iff.1 h
  exact hP m (List.mem_of_getElem? hm) P h

/-- C100 With a pooling layer, two threads and two images there always is one: threads 0 and 1 can get to where both write the record of the layer. -/
theorem C100_reached (E : Env α) (conv : F32 → α) (big : Bool) (lim : Nat) (f : Content) (ok : f.Ok lim) (M : Model α) (B : Nat) (ks : List LayerKind)
    (hM : M.Trained B ⟨f.h, f.w, 1⟩ ks) (hB : 0 < B) (hk : KindsWork true ⟨f.h, f.w, 1⟩ ks) (T : Nat) (hT2 : 2 ≤ T) (hT : f.n + T < 2147483648)
    (hn : 2 ≤ f.n) (k : Nat) (P : Pooling) (hP : M.bodyAt k = some (.pooling P)) :
    ∃ R, Reader.new big (some f.images) (some f.labels) = .ok R ∧ ∃ sched r, (start T M R).run ⟨E, conv, big, lim, f.n, T⟩ sched = .ok r ∧
      r.1.Races f.n 0 1 (.layer k (.slot 0)) := by
  have hkl : k ≤ ks.length := by
    have h1 := hM.shaped.count
    unfold bodyAt at hP
    obtain ⟨m, hm, _⟩ := Option.map_eq_some_iff.1 hP
    have := (List.getElem?_eq_some_iff.1 hm).1
    omega
  obtain ⟨R, e, sched, r, hr, h0, h1, hb⟩ := C73_race E conv big lim f ok M B ks hM hB hk T hT2 hT hn k hkl
  obtain ⟨Q, hQ⟩ := (bodyAt_pooling hb k).2 ⟨P, hP⟩
  exact ⟨R, e, sched, r, hr, races_pooling (by decide) hQ h0 h1⟩

/-- C100 A model of which nothing is known, in any state: the only other data race is on the weights of a fully connected layer not used before. -/
theorem C100_first_use (num : Int) (b : State α) (t u : Nat) (l : Loc) (h : b.Races num t u l) :
    ∃ k, At b t k ∧ At b u k ∧ ((l = .layer k (.slot 0) ∧ ∃ P, b.shared.model.bodyAt k = some (.pooling P)) ∨
      (l = .layer k .params ∧ ∃ L, b.shared.model.bodyAt k = some (.connected L) ∧ L.initialized = false)) := races_only h

/-- C72 in full for models without pooling layers: with any number of threads, no two of which are ever in a data race, the count is the number of images
the model classifies correctly. -/
theorem C72_no_pooling (E : Env α) (conv : F32 → α) (big : Bool) (lim : Nat) (f : Content) (ok : f.Ok lim) (M : Model α) (B : Nat) (ks : List LayerKind)
    (hM : M.Trained B ⟨f.h, f.w, 1⟩ ks) (hB : 0 < B) (hk : KindsWork true ⟨f.h, f.w, 1⟩ ks) (hP : ∀ l ∈ M.layers, ∀ P, l.body ≠ .pooling P)
    (T : Nat) (hT0 : 0 < T) (hT : f.n + T < 2147483648) (sched : List Nat) :
    ∃ R r, Reader.new big (some f.images) (some f.labels) = .ok R ∧ (start T M R).run ⟨E, conv, big, lim, f.n, T⟩ sched = .ok r ∧
      (∀ t u l, ¬ r.1.Races f.n t u l) ∧ (r.1.over →
        count E conv big lim (some f.images) (some f.labels) T sched M = .ok (some r) ∧
        (r.2.map Event.image).Perm ((List.range f.n).map fun i : Nat => (i : Int)) ∧
        (∀ p : Nat → Bool, (∀ i < f.n, p i = true ↔ Right E conv f M i) → r.1.shared.correct = ((List.range f.n).countP p : Nat)) ∧
        ∀ X : Matrix α, X.Has ⟨f.h, f.w, 1⟩ → ∀ l, Predicts E r.1.shared.model X l ↔ Predicts E M X l) := by
  obtain ⟨R, e, h⟩ := new_on big ok
  obtain ⟨o, e1, h1⟩ := C72_count_partial E conv big lim f ok M B ks hM hB hk T hT0 hT sched
  have e2 := count_of_new (E := E) (conv := conv) (T := T) (sched := sched) (M := M) ok e h
  rw [e1] at e2
  obtain ⟨r, hr, e3⟩ := Res.bind_eq_ok e2.symm
  have hI : ∀ l ∈ M.layers, ∀ L, l.body = .connected L → L.initialized = true := fun l hl L hL => by
    have := hM.ready l hl
    rw [hL] at this
    exact this
  refine ⟨R, r, e, hr, fun t u l => C100_no_pooling ⟨E, conv, big, lim, f.n, T⟩ T M R hI hP sched r hr t u l, fun ho => ?_⟩
  rw [if_pos ho] at e3
  obtain rfl := Res.ok.inj e3
  obtain ⟨h2, _, h3, _, _, h6⟩ := h1 r.1 r.2 rfl
  exact ⟨e1, h2, h3, h6⟩

/-- Two threads, two images, a pooling layer. -/
example : ∃ R, Reader.new true (some twoPixels.images) (some twoPixels.labels) = .ok R ∧ ∃ sched r,
    (start 2 poolModel R).run ⟨plainEnv, value, true, 1000, 2, 2⟩ sched = .ok r ∧ r.1.Races 2 0 1 (.layer 0 (.slot 0)) :=
  C100_reached plainEnv value true 1000 twoPixels twoPixels_ok poolModel 1 _ poolModel_trained (by decide) poolModel_works 2 (by decide) (by decide) (by decide)
    0 ⟨⟨1, 1⟩, ⟨1, 1⟩, .max, [Matrix.empty]⟩ rfl

/-- An output layer only. -/
def outModel : Model ℚ := ⟨[⟨"S".toList, .softmax ⟨1, 0, false⟩⟩], ["0".toList], true, 0, 0, 0, 0⟩

theorem outModel_trained : outModel.Trained 1 ⟨1, 1, 1⟩ [] := by
  refine ⟨⟨rfl, ?_, ⟨_, _, rfl, rfl, rfl⟩, Or.inl rfl⟩, ?_⟩
  · intro i L k _ hk
    exact absurd hk (by simp)
  · intro l hl
    obtain rfl := List.mem_singleton.1 (show l ∈ [_] from hl)
    trivial

/-- The hypotheses of `C72_no_pooling` and `C100_no_pooling` are met by it; three threads. -/
example (sched : List Nat) : ∃ R r, Reader.new true (some twoPixels.images) (some twoPixels.labels) = .ok R ∧
    (start 3 outModel R).run ⟨plainEnv, value, true, 1000, 2, 3⟩ sched = .ok r ∧ ∀ t u l, ¬ r.1.Races 2 t u l := by
  obtain ⟨R, r, h1, h2, h3, _⟩ := C72_no_pooling plainEnv value true 1000 twoPixels twoPixels_ok outModel 1 [] outModel_trained (by decide) trivial
    (by
      intro l hl P
      obtain rfl := List.mem_singleton.1 (show l ∈ [_] from hl)
      simp) 3 (by decide) (by decide) sched
  exact ⟨R, r, h1, h2, h3⟩

/-- Two threads at a fully connected layer not used before are in a data race on its weights. -/
example : State.Races (α := ℚ) 2 ⟨⟨⟨[⟨"C".toList, .connected ⟨Matrix.empty, Matrix.empty, ⟨0, 0, 0⟩, false, [], []⟩⟩], [], true, 0, 0, 1, 0⟩, ⟨.ofBytes [], .ofBytes [], 0, 0, 0, 0⟩, 0⟩,
    [.forward 0 ⟨Matrix.empty, 0⟩ 0 (Matrix.empty, []), .forward 1 ⟨Matrix.empty, 0⟩ 0 (Matrix.empty, [])]⟩ 0 1 (.layer 0 .params) :=
  ⟨by decide, fun h => h, _, _, rfl, rfl, Or.inl ⟨by simp [Pc.writes, Body.forwardWrites], Or.inl (by simp [Pc.reads, Body.forwardReads])⟩⟩

end Cnn.Validate
