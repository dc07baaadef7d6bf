import Verif.Lemmas.Labels
import Verif.Props.Train
/-!
# Training: C52
-/
namespace Cnn
open Train

/-- The full claim: in every execution of a batch the output layer back-propagates every sample with the sample's label. -/
def C52_claim : Prop := ∀ (E : Env ℝ) (B T : Nat) (sh : Shared ℝ) (s : Batch ℝ) (sched : List Nat)
  (r : Batch ℝ × List (Event ℝ)), startBatch B T sh = .ok s → s.run E sched = .ok r →
  ∀ t slot x used, (t, slot, x, used) ∈ grads r.2 → used = sh.model.labelIndex x.label

section
variable {α : Type} [Zero α] [One α] [Add α] [Sub α] [Mul α] [Div α] [Neg α]

/-- C52, what happens in every execution: the output layer back-propagates with the label that was stored last, by whichever
thread; the thread's own label was stored before, but not necessarily last. -/
theorem C52_last_writer (E : Env α) (B T : Nat) (hB : B < 2147483648) (sh : Shared α) (s : Batch α)
    (h : startBatch B T sh = .ok s) (sched : List Nat) (r : Batch α × List (Event α)) (hr : s.run E sched = .ok r)
    (pre post : List (Event α)) (t slot : Nat) (x : Sample α) (used : Nat)
    (he : r.2 = pre ++ Event.grad t slot x used :: post) :
    (t, slot, x) ∈ labelled pre ∧ ∃ e, (labelled pre).getLast? = some e ∧ used = sh.model.labelIndex e.2.2.label := by
  obtain ⟨w, _, rfl⟩ := startBatch_inv hB h
  have h0 : LInv sh.model (⟨sh, (List.range T).map (fun t => (min ((t + 1) * w) B, Pc.fetch (t * w)))⟩ : Batch α) [] := by
    refine ⟨rfl, by simp [labelled], ?_, by simp [UsesLast]⟩
    intro t c slot x r n d ht
    simp [List.getElem?_map] at ht
  exact (h0.run hr).last pre post t slot x used he

/-- C52 for the executions in which no other thread stores a label between a thread's storing its own and its using it.
Missing: all other executions with two or more threads, where the claim is false (`C52_violated`). -/
theorem C52_undisturbed_partial (E : Env α) (B T : Nat) (hB : B < 2147483648) (sh : Shared α) (s : Batch α)
    (h : startBatch B T sh = .ok s) (sched : List Nat) (r : Batch α × List (Event α)) (hr : s.run E sched = .ok r)
    (pre post : List (Event α)) (t slot : Nat) (x : Sample α) (used : Nat)
    (he : r.2 = pre ++ Event.grad t slot x used :: post) (hu : (labelled pre).getLast? = some (t, slot, x)) :
    used = sh.model.labelIndex x.label := by
  obtain ⟨_, e, h1, h2⟩ := C52_last_writer E B T hB sh s h sched r hr pre post t slot x used he
  rw [hu] at h1
  obtain rfl := Option.some.inj h1
  exact h2

/-- C52 for training with one thread. -/
theorem C52_one_thread_partial (E : Env α) (B : Nat) (hB : B < 2147483648) (sh : Shared α) (s : Batch α)
    (h : startBatch B 1 sh = .ok s) (sched : List Nat) (r : Batch α × List (Event α)) (hr : s.run E sched = .ok r) :
    ∀ t slot x used, (t, slot, x, used) ∈ grads r.2 → used = sh.model.labelIndex x.label := by
  obtain ⟨w, _, rfl⟩ := startBatch_inv (B := B) (T := 1) hB h
  have h0 : OneInv sh.model (⟨sh, (List.range 1).map (fun t => (min ((t + 1) * w) B, Pc.fetch (t * w)))⟩ : Batch α) [] := by
    refine ⟨by simp, rfl, ?_, by simp [UsesOwn, grads]⟩
    intro c slot x r n d ht
    simp at ht
  exact (h0.run hr).own

end

/-- The softmax model over "a", "b" with the given label stored. -/
def twoClasses (S : Softmax) : Model ℝ :=
  { (softmaxModel ["a".toList, "b".toList] : Model ℝ) with layers := [⟨"SoftmaxOutput".toList, .softmax S⟩] }

/-- Everything that happens to the input (0,1). -/
theorem twoClasses_run : ∃ (A R0 P R1 : Matrix ℝ) (res : Results ℝ) (ra rb : Results ℝ) (D : Nat → Matrix ℝ),
    Model.forwardBegin exactEnv ⟨dimN 2 1 1, [0, 1]⟩ = .ok (A, [R0]) ∧
    (∀ t k b, Model.forwardStep exactEnv b ((A, [R0]), twoClasses ⟨2, t, k⟩) 0 = .ok ((P, [R0, R1]), twoClasses ⟨2, t, k⟩)) ∧
    (∀ t k, Model.forwardEnd exactEnv (twoClasses ⟨2, t, k⟩) P [R0, R1] = .ok res) ∧
    (∀ t k, (twoClasses ⟨2, t, k⟩).backwardBegin exactEnv res "a".toList = .ok (ra, twoClasses ⟨2, 0, true⟩)) ∧
    (∀ t k, (twoClasses ⟨2, t, k⟩).backwardBegin exactEnv res "b".toList = .ok (rb, twoClasses ⟨2, 1, true⟩)) ∧
    (∀ t < 2, ∀ b, Model.backwardStep exactEnv ra b (Matrix.empty, twoClasses ⟨2, t, true⟩) 0 =
      .ok (D t, twoClasses ⟨2, t, true⟩)) := by
  have hX : (⟨dimN 2 1 1, [0, 1]⟩ : Matrix ℝ).Shows 2 1 1 (fun i _ _ => i) := by
    refine Matrix.Shows.of_vals ⟨by omega, by omega, by omega, by omega⟩ rfl ?_
    simp [List.range_succ]
  obtain ⟨A, e0, s0⟩ := Matrix.ofExpr_shows hX.expr (id : ℝ → ℝ)
  obtain ⟨R0, f0, t0⟩ := Matrix.ofExpr_shows s0.expr (id : ℝ → ℝ)
  obtain ⟨P, e1, d1, s1⟩ := softmax_forward (S := Softmax.new 2) (M := A) (n := 2) (v := fun i => i) (Or.inr s0) rfl
  have hs1 : P.Shows 2 1 1 (fun i _ _ => softmax 2 (fun i => i) i) := by
    rcases s1 with s1 | s1
    · have := s1.dim.symm.trans (d1.trans s0.dim)
      rw [dimN_inj] at this
      omega
    · exact s1
  obtain ⟨R1, f1, t1⟩ := Matrix.ofExpr_shows hs1.expr (id : ℝ → ℝ)
  obtain ⟨q, hq, eq⟩ := MExpr.bestElem_inside (fun a b => Num.real.lt a b) hs1.expr
  have hd := MExpr.iterAt_diff (X := 2) (Y := 1) (Z := 1) (n := q) (by omega) (by omega)
  have hmax : MExpr.maxIndexFlat Num.real.lt P.expr = .ok q := by
    rw [MExpr.maxIndexFlat, eq, Res.bind_ok, show P.expr.dim = dimN 2 1 1 from hs1.dim, hd, u64_nat (by omega)]
  obtain ⟨R0', g0, u0⟩ := Matrix.ofExpr_shows t0.expr (id : ℝ → ℝ)
  obtain ⟨R1', g1, u1⟩ := Matrix.ofExpr_shows t1.expr (id : ℝ → ℝ)
  have hD : ∀ t, ∃ D, t < 2 → Softmax.getdLdX R1' t = .ok D := by
    intro t
    by_cases ht : t < 2
    · refine ⟨⟨R1'.dim, R1'.vals.set t (flatOf 2 1 (fun i _ _ => id (id (softmax 2 (fun i => i) i))) t - 1)⟩, fun _ => ?_⟩
      unfold Softmax.getdLdX
      rw [u1.flat_lt (n := t) (by omega), Res.bind_ok, Matrix.setFlat, if_pos (by rw [u1.length]; omega)]
      rfl
    · exact ⟨Matrix.empty, fun h => absurd h ht⟩
  choose D hD using hD
  have hend : ∀ t k, Model.forwardEnd exactEnv (twoClasses ⟨2, t, k⟩) P [R0, R1] =
      .ok ⟨none, q, none, -1, flatOf 2 1 (fun i _ _ => softmax 2 (fun i => i) i) q, [R0, R1]⟩ := by
    intro t k
    exact Model.forwardEnd_eq (E := exactEnv) (M := twoClasses ⟨2, t, k⟩) (A := P) (rec := [R0, R1])
      (by rw [hs1.dim, MExpr.sizeD_dimN hs1.good]; rfl) hmax (hs1.flat_lt hq)
  have hbeg : ∀ (lab : List Char) (j : Nat), j < 2 → (∀ S, (twoClasses S).labelIndex lab = j) → ∀ t k,
      (twoClasses ⟨2, t, k⟩).backwardBegin exactEnv
        ⟨none, q, none, -1, flatOf 2 1 (fun i _ _ => softmax 2 (fun i => i) i) q, [R0, R1]⟩ lab =
      .ok (⟨some lab, q, some j, Num.real.max (-1 * Num.real.log2 (flatOf 2 1 (fun i _ _ => id (id (softmax 2 (fun i => i) i))) j
        + Num.real.eps)) 0, flatOf 2 1 (fun i _ _ => softmax 2 (fun i => i) i) q, [R0, R1]⟩, twoClasses ⟨2, j, true⟩) := by
    intro lab j hj hlab t k
    simp only [Model.backwardBegin, Model.assignLoss, hlab, List.getLast?_cons_cons, List.getLast?_singleton,
      Res.ofOption_some, Res.bind_ok, g1, lossFcn, u1.flat_lt (n := j) (by omega)]
    show (do
      let __ ← (Softmax.assignTrueLabel ⟨2, t, k⟩ j).1
      Res.ok (_, (twoClasses ⟨2, t, k⟩).setBody 0 (.softmax (Softmax.assignTrueLabel ⟨2, t, k⟩ j).2))) = _
    rw [Softmax.assignTrueLabel, if_neg (by simp only; omega)]
    rfl
  refine ⟨A, R0, P, R1, _, _, _, D, ?_, ?_, hend, hbeg "a".toList 0 (by omega) (fun _ => by rfl),
    hbeg "b".toList 1 (by omega) (fun _ => by rfl), ?_⟩
  · unfold Model.forwardBegin Model.record
    rw [e0, Res.bind_ok]
    show (Matrix.ofExpr id A.expr >>= _) = _
    rw [f0]
    rfl
  · intro t k b
    have e1' : (⟨2, t, k⟩ : Softmax).forward Num.real A = .ok P := e1
    show ((do
      let r ← (do
        let Y ← (⟨2, t, k⟩ : Softmax).forward Num.real A
        Res.ok (Y, (Body.softmax ⟨2, t, k⟩ : Body ℝ)))
      Res.ok (r.1, (twoClasses ⟨2, t, k⟩).setBody 0 r.2)) >>= _) = _
    rw [e1']
    simp only [Res.bind_ok]
    show (Matrix.ofExpr id P.expr >>= _) = _
    rw [f1]
    rfl
  · intro t ht b
    show (do
      let X ← Matrix.ofExpr id R0.expr
      let Z ← Matrix.ofExpr id R1.expr
      let q ← (do
        let D ← (⟨2, t, true⟩ : Softmax).backward X Z Matrix.empty
        Res.ok (D, (Body.softmax ⟨2, t, true⟩ : Body ℝ)))
      Res.ok (q.1, (twoClasses ⟨2, t, true⟩).setBody 0 q.2)) = _
    rw [g0, Res.bind_ok, g1, Res.bind_ok]
    show (do
      let q ← (do
        let D ← Softmax.getdLdX R1' t
        Res.ok (D, (Body.softmax ⟨2, t, true⟩ : Body ℝ)))
      Res.ok (q.1, (twoClasses ⟨2, t, true⟩).setBody 0 q.2)) = _
    rw [hD t ht]
    rfl

theorem run_cons {α : Type} [Zero α] [One α] [Add α] [Sub α] [Mul α] [Div α] [Neg α] {E : Env α} {s : Batch α} {t : Nat}
    {ts : List Nat} {a b : Batch α × List (Event α)} (h1 : s.step E t = .ok a) (h2 : a.1.run E ts = .ok b) :
    s.run E (t :: ts) = .ok (b.1, a.2 ++ b.2) := by
  rw [Batch.run, h1, Res.bind_ok, h2, Res.bind_ok]

theorem step_eq {α : Type} [Zero α] [One α] [Add α] [Sub α] [Mul α] [Div α] [Neg α] {E : Env α} {s : Batch α} {t : Nat}
    {w : Nat × Pc α} {a : Pc α × Shared α × List (Event α)} (h1 : s.workers[t]? = some w)
    (h2 : w.2.step E t w.1 s.shared = .ok a) : s.step E t = .ok (⟨a.2.1, s.workers.set t (w.1, a.1)⟩, a.2.2) := by
  simp only [Batch.step, h1, h2, terminate, Res.bind_ok]

/-- C52 is false with two threads: thread 0 stores label "a", thread 1 stores label "b", and then thread 0 computes the
gradient of its sample with label "b". -/
theorem C52_violated : ¬ C52_claim := by
  intro hc
  obtain ⟨A, R0, P, R1, res, ra, rb, D, h1, h2, h3, h4, h5, h6⟩ := twoClasses_run
  have hst : startBatch (2 : Nat) (2 : Nat) (⟨twoClasses ⟨2, 0, false⟩,
      [⟨⟨dimN 2 1 1, [0, 1]⟩, "a".toList⟩, ⟨⟨dimN 2 1 1, [0, 1]⟩, "b".toList⟩], 0⟩ : Shared ℝ) = .ok
      ⟨_, [(1, .fetch 0), (2, .fetch 1)]⟩ := startBatch_eq 2 2 (by omega) (by omega) (by omega) _
  have hrun : ∃ r : Batch ℝ × List (Event ℝ), (⟨⟨twoClasses ⟨2, 0, false⟩,
      [⟨⟨dimN 2 1 1, [0, 1]⟩, "a".toList⟩, ⟨⟨dimN 2 1 1, [0, 1]⟩, "b".toList⟩], 0⟩,
      [(1, .fetch 0), (2, .fetch 1)]⟩ : Batch ℝ).run exactEnv
      [0, 1, 0, 1, 0, 1, 0, 1, 0] = .ok r ∧ (0, 0, ⟨⟨dimN 2 1 1, [0, 1]⟩, "a".toList⟩, 1) ∈ grads r.2 := by
    have f1 : ∀ (M : Model ℝ) (t slot c : Nat) (x : Sample ℝ) (rest : List (Sample ℝ)), slot < c →
        x.data = ⟨dimN 2 1 1, [0, 1]⟩ → (Pc.fetch slot).step exactEnv t c ⟨M, x :: rest, 0⟩ =
          .ok (.forward slot x 0 (A, [R0]), ⟨M, rest, 0⟩, [.fetch t slot x]) := by
      intro M t slot c x rest hc hx
      simp only [Pc.step, if_pos hc, hx, h1, Res.bind_ok]
    have f2 : ∀ (tl : Nat) (k : Bool) (t slot c : Nat) (x : Sample ℝ) (src : List (Sample ℝ)),
        (Pc.forward slot x 0 (A, [R0])).step exactEnv t c ⟨twoClasses ⟨2, tl, k⟩, src, 0⟩ =
          .ok (.forward slot x 1 (P, [R0, R1]), ⟨twoClasses ⟨2, tl, k⟩, src, 0⟩, []) := by
      intro tl k t slot c x src
      simp only [Pc.step, h2, Res.bind_ok]
      rfl
    have f3 : ∀ (tl : Nat) (k : Bool) (t slot c : Nat) (x : Sample ℝ) (src : List (Sample ℝ)),
        (Pc.forward slot x 1 (P, [R0, R1])).step exactEnv t c ⟨twoClasses ⟨2, tl, k⟩, src, 0⟩ =
          .ok (.label slot x res, ⟨twoClasses ⟨2, tl, k⟩, src, 0⟩, []) := by
      intro tl k t slot c x src
      simp only [Pc.step, h3, Res.bind_ok]
      rfl
    have f4 : ∀ (tl : Nat) (k : Bool) (t slot c : Nat) (D : Matrix ℝ) (src : List (Sample ℝ)),
        (Pc.label slot ⟨D, "a".toList⟩ res).step exactEnv t c ⟨twoClasses ⟨2, tl, k⟩, src, 0⟩ =
          .ok (.backward slot ⟨D, "a".toList⟩ ra 1 Matrix.empty, ⟨twoClasses ⟨2, 0, true⟩, src, 0⟩,
            [.label t slot ⟨D, "a".toList⟩]) := by
      intro tl k t slot c D src
      simp only [Pc.step, h4, Res.bind_ok]
      rfl
    have f5 : ∀ (tl : Nat) (k : Bool) (t slot c : Nat) (D : Matrix ℝ) (src : List (Sample ℝ)),
        (Pc.label slot ⟨D, "b".toList⟩ res).step exactEnv t c ⟨twoClasses ⟨2, tl, k⟩, src, 0⟩ =
          .ok (.backward slot ⟨D, "b".toList⟩ rb 1 Matrix.empty, ⟨twoClasses ⟨2, 1, true⟩, src, 0⟩,
            [.label t slot ⟨D, "b".toList⟩]) := by
      intro tl k t slot c D src
      simp only [Pc.step, h5, Res.bind_ok]
      rfl
    have f6 : ∀ (t slot c : Nat) (x : Sample ℝ) (src : List (Sample ℝ)),
        (Pc.backward slot x ra 1 Matrix.empty).step exactEnv t c ⟨twoClasses ⟨2, 1, true⟩, src, 0⟩ =
          .ok (.backward slot x ra 0 (D 1), ⟨twoClasses ⟨2, 1, true⟩, src, 0⟩, [.grad t slot x 1]) := by
      intro t slot c x src
      simp only [Pc.step, h6 1 (by omega), Res.bind_ok]
      rfl
    refine ⟨_, run_cons (step_eq rfl (f1 _ _ _ _ _ _ (by omega) rfl)) <|
      run_cons (step_eq rfl (f1 _ _ _ _ _ _ (by omega) rfl)) <|
      run_cons (step_eq rfl (f2 _ _ _ _ _ _ _)) <| run_cons (step_eq rfl (f2 _ _ _ _ _ _ _)) <|
      run_cons (step_eq rfl (f3 _ _ _ _ _ _ _)) <| run_cons (step_eq rfl (f3 _ _ _ _ _ _ _)) <|
      run_cons (step_eq rfl (f4 _ _ _ _ _ _ _)) <| run_cons (step_eq rfl (f5 _ _ _ _ _ _ _)) <|
      run_cons (step_eq rfl (f6 _ _ _ _ _)) rfl, ?_⟩
    simp [grads]
  obtain ⟨r, hr, hm⟩ := hrun
  have := hc exactEnv 2 2 _ _ _ r hst hr _ _ _ _ hm
  exact absurd this (by decide)

end Cnn
