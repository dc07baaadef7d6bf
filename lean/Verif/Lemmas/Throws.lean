import Verif.Lemmas.Room
import Verif.Model.Train
import Verif.Lemmas.Expr
import Verif.Lemmas.Labels
import Verif.Lemmas.Partition
/-!
# Which exceptions a computation can throw
-/
namespace Cnn

/-- Every exception that `x` throws satisfies `S`. -/
def Res.Throws {β : Type} (S : Exc → Prop) (x : Res β) : Prop := ∀ e, x = .throw e → S e

namespace Res.Throws
variable {β γ : Type} {S : Exc → Prop}

theorem ok (a : β) : Res.Throws S (.ok a) := by intro e h; cases h
theorem ub : Res.Throws S (.ub : Res β) := by intro e h; cases h
theorem abort : Res.Throws S (.abort : Res β) := by intro e h; cases h
theorem throw {e : Exc} (h : S e) : Res.Throws S (.throw e : Res β) := by intro e' h'; cases h'; exact h

theorem bind {x : Res β} {f : β → Res γ} (hx : Res.Throws S x) (hf : ∀ a, x = .ok a → Res.Throws S (f a)) : Res.Throws S (x >>= f) := by
  cases x with
  | ok a => exact hf a rfl
  | throw e => exact throw (hx e rfl)
  | ub => exact ub
  | abort => exact abort

theorem mono {S' : Exc → Prop} {x : Res β} (hx : Res.Throws S x) (h : ∀ e, S e → S' e) : Res.Throws S' x := fun e he => h e (hx e he)

theorem ofOption (o : Option β) : Res.Throws S (Res.ofOption o) := by cases o; exacts [ub, ok _]

theorem chk (n : Int) : Res.Throws S (Cnn.chk n) := by unfold Cnn.chk; split; exacts [ok _, ub]

theorem foldlM {f : γ → β → Res γ} (h : ∀ s a, Res.Throws S (f s a)) (l : List β) (s : γ) : Res.Throws S (l.foldlM f s) := by
  induction l generalizing s with
  | nil => exact ok _
  | cons a l ih => rw [List.foldlM_cons]; exact bind (h s a) fun s' _ => ih s'

theorem mapM {f : β → Res γ} (h : ∀ a, Res.Throws S (f a)) (l : List β) : Res.Throws S (l.mapM f) := by
  induction l with
  | nil => exact ok _
  | cons a l ih => rw [List.mapM_cons]; exact bind (h a) fun b _ => bind ih fun bs _ => ok _

theorem loop {last : Iter} {body : γ → Iter → Res γ} (h : ∀ s it, Res.Throws S (body s it)) (n : Nat) (it : Iter) (s : γ) :
    Res.Throws S (Iter.loop last body n it s) := by
  induction n generalizing it s with
  | zero => unfold Iter.loop; split; exacts [ok _, ub]
  | succ n ih => unfold Iter.loop; split; exacts [ok _, bind (h s it) fun s' _ => ih _ s']

theorem forRange {d : Dim3} {body : γ → Iter → Res γ} (h : ∀ s it, Res.Throws S (body s it)) (s : γ) : Res.Throws S (Cnn.forRange d body s) :=
  loop h _ _ _

end Res.Throws

open Res

/-- What building a matrix and the sizes of operands give rise to. -/
def Exc.ofSize (e : Exc) : Prop := e = .length ∨ e = .matrixSize

section
variable {α : Type}

theorem Matrix.flat_throws {S : Exc → Prop} (M : Matrix α) (n : Nat) : Throws S (M.flat n) := .ofOption _

theorem Matrix.setFlat_throws {S : Exc → Prop} (M : Matrix α) (n : Nat) (v : α) : Throws S (M.setFlat n v) := by
  unfold Matrix.setFlat; split; exacts [.ok _, .ub]

theorem Matrix.ofDim_throws (d : Dim3) (v : α) : Throws Exc.ofSize (Matrix.ofDim d v) := by
  unfold Matrix.ofDim vecSize Dim3.volume
  refine .bind (.bind (.bind (.chk _) fun _ _ => .chk _) fun n _ => ?_) fun _ _ => .ok _
  split
  exacts [.throw (Or.inl rfl), .ok _]

theorem Matrix.opAssign_throws {β : Type} (op : α → β → α) (M : Matrix α) (d : Dim3) (get : Matrix α → Dim3 → Res β)
    (h : ∀ M i, Throws Exc.ofSize (get M i)) : Throws Exc.ofSize (M.opAssign op d get) := by
  unfold Matrix.opAssign Matrix.checkSize
  refine .bind ?_ fun _ _ => .forRange (fun s it => .bind (h _ _) fun _ _ => .bind (Matrix.flat_throws _ _) fun _ _ => Matrix.setFlat_throws _ _ _) _
  split
  exacts [.throw (Or.inr rfl), .ok _]

theorem Matrix.opScalar_throws {β : Type} (op : α → β → α) (M : Matrix α) (s : Matrix α → Res β)
    (h : ∀ M, Throws Exc.ofSize (s M)) : Throws Exc.ofSize (M.opScalar op s) :=
  .forRange (fun _ _ => .bind (Matrix.flat_throws _ _) fun _ _ => .bind (h _) fun _ _ => Matrix.setFlat_throws _ _ _) _

variable [Zero α] [One α] [Add α] [Sub α] [Mul α] [Div α] [Neg α]

omit [One α] [Neg α] in
theorem applyGrads_throws (N : Num α) (lr : α) (W B : Matrix α) (wG bG : List (Matrix α)) : Throws Exc.ofSize (applyGrads N lr W B wG bG) := by
  unfold applyGrads
  refine .bind (Matrix.ofDim_throws _ _) fun _ _ => .bind (Matrix.ofDim_throws _ _) fun _ _ => .bind (.foldlM (fun s i => ?_) _ _) fun _ _ =>
    .bind (Matrix.opScalar_throws _ _ _ fun _ => .ok _) fun _ _ => .bind (Matrix.opScalar_throws _ _ _ fun _ => .ok _) fun _ _ =>
    .bind (Matrix.opAssign_throws _ _ _ _ fun _ i => ?_) fun _ _ => .bind (Matrix.opAssign_throws _ _ _ _ fun _ i => ?_) fun _ _ => .ok _
  · exact .bind (.ofOption _) fun _ _ => .bind (Matrix.opAssign_throws _ _ _ _ fun _ i => Matrix.flat_throws _ _) fun _ _ =>
      .bind (.ofOption _) fun _ _ => .bind (Matrix.opAssign_throws _ _ _ _ fun _ i => Matrix.flat_throws _ _) fun _ _ => .ok _
  · exact .bind (Matrix.flat_throws _ _) fun _ _ => .ok _
  · exact .bind (Matrix.flat_throws _ _) fun _ _ => .ok _

omit [One α] [Neg α] in
theorem Model.applyBatch_throws (N : Num α) (lr : α) (M : Model α) : Throws Exc.ofSize (M.applyBatch N lr) := by
  refine .bind (.mapM (fun l => .bind ?_ fun _ _ => .ok _) _) fun _ _ => .ok _
  cases l.body with
  | kernel K => exact .bind (.bind (applyGrads_throws _ _ _ _ _ _) fun _ _ => .ok _) fun _ _ => .ok _
  | pooling P => exact .ok _
  | connected L => exact .bind (.bind (applyGrads_throws _ _ _ _ _ _) fun _ _ => .ok _) fun _ _ => .ok _
  | activation A => exact .ok _
  | softmax S => exact .ok _

namespace Train

theorem workCount_throws {S : Exc → Prop} (b t : Int) : Throws S (workCount b t) := by
  unfold workCount; split; exacts [.ub, .chk _]

omit [Zero α] [One α] [Add α] [Sub α] [Mul α] [Div α] [Neg α] in
theorem startBatch_throws {S : Exc → Prop} (b t : Int) (sh : Shared α) : Throws S (startBatch b t sh) := by
  unfold startBatch workRange
  exact .bind (workCount_throws _ _) fun _ _ => .bind (.mapM (fun _ => .bind (.bind (.chk _) fun _ _ => .bind (.chk _) fun _ _ => .ok _) fun _ _ => .ok _) _)
    fun _ _ => .ok _

theorem terminate_throws {S : Exc → Prop} {β : Type} (x : Res β) : Throws S (terminate x) := by
  cases x
  exacts [.ok _, .abort, .ub, .abort]

theorem run_throws {S : Exc → Prop} (E : Env α) (sched : List Nat) (s : Batch α) : Throws S (s.run E sched) := by
  induction sched generalizing s with
  | nil => exact .ok _
  | cons t ts ih =>
    unfold Batch.run
    refine .bind ?_ fun _ _ => .bind (ih _) fun _ _ => .ok _
    unfold Batch.step
    split
    · exact .ok _
    · exact .bind (terminate_throws _) fun _ _ => .ok _

theorem runBatch_throws (E : Env α) (p : Hyper α) (sched : List Nat) (sh : Shared α) : Throws Exc.ofSize (runBatch E p sched sh) := by
  unfold runBatch
  refine .bind (startBatch_throws _ _ _) fun _ _ => .bind (run_throws _ _ _) fun _ _ => ?_
  split
  exacts [.bind (Model.applyBatch_throws _ _ _) fun _ _ => .ok _, .ok _]

theorem runBatches_throws (E : Env α) (p : Hyper α) (scheds : List (List Nat)) (sh : Shared α) : Throws Exc.ofSize (runBatches E p scheds sh) := by
  induction scheds generalizing sh with
  | nil => exact .ok _
  | cons c cs ih =>
    unfold runBatches
    refine .bind (runBatch_throws _ _ _ _) fun a _ => ?_
    cases a with
    | none => exact .ok _
    | some r =>
      refine .bind (ih _) fun b _ => ?_
      cases b <;> exact .ok _

theorem runEpoch_throws (E : Env α) (p : Hyper α) (size : Nat) (scheds : List (List Nat)) (sh : Shared α) :
    Throws Exc.ofSize (runEpoch E p size scheds sh) := by
  unfold runEpoch
  split
  · exact .throw (Or.inl rfl)
  · refine .bind (workCount_throws _ _) fun _ _ => ?_
    split
    · exact .throw (Or.inl rfl)
    · refine .bind (by unfold numBatches; split; exacts [.ub, .chk _]) fun _ _ => ?_
      split
      exacts [runBatches_throws _ _ _ _, .ok _]

theorem train_throws (E : Env α) (p : Hyper α) (size : Nat) (epochs : List (List (List Nat) × List (Sample α))) (M : Model α) :
    Throws Exc.ofSize (train E p size epochs M) := by
  unfold train
  refine .bind (by unfold Model.room; split; exacts [.throw (Or.inl rfl), .ok _]) fun _ _ => ?_
  split
  · refine .foldlM (fun s e => ?_) _ _
    cases s with
    | none => exact .ok _
    | some M => exact .bind (runEpoch_throws _ _ _ _ _) fun _ _ => .ok _
  · exact .ok _

/-! ### Exceptions end the program -/

/-- A thread whose forward propagation is going to throw, and which is left to run, ends the program. -/
theorem run_forward_throws {E : Env α} {e : Exc} {x : Sample α} {cut slot t n : Nat} : ∀ (m i : Nat) (s : Matrix α × List (Matrix α)) (b : Batch α),
    i + m = n → b.shared.model.layers.length = n → b.workers[t]? = some (cut, .forward slot x i s) →
    ((List.range' i m).foldlM (Model.forwardStep E slot) (s, b.shared.model) >>= fun q => Model.forwardEnd E q.2 q.1.1 q.1.2) = .throw e →
    ∀ k, m + 1 ≤ k → ∀ rest, b.run E (List.replicate k t ++ rest) = .abort := by
  intro m
  induction m with
  | zero =>
    intro i s b hi hn hw h k hk rest
    obtain ⟨k, rfl⟩ : ∃ j, k = j + 1 := ⟨k - 1, by omega⟩
    rw [List.replicate_succ, List.cons_append, Batch.run, Batch.step, hw]
    simp only [Pc.step, show ¬ i < b.shared.model.layers.length by omega, if_false]
    simp only [List.range'_zero, List.foldlM_nil] at h
    rw [show Model.forwardEnd E b.shared.model s.1 s.2 = .throw e from h]
    rfl
  | succ m ih =>
    intro i s b hi hn hw h k hk rest
    obtain ⟨k, rfl⟩ : ∃ j, k = j + 1 := ⟨k - 1, by omega⟩
    rw [List.replicate_succ, List.cons_append, Batch.run, Batch.step, hw]
    simp only [Pc.step, show i < b.shared.model.layers.length by omega, if_true]
    rw [List.range'_succ, List.foldlM_cons] at h
    cases hs : Model.forwardStep E slot (s, b.shared.model) i with
    | throw e' => rfl
    | ub => rw [hs] at h; cases h
    | abort => rw [hs] at h; cases h
    | ok r =>
      rw [hs] at h
      simp only [Res.bind_ok, terminate]
      have hlt : t < b.workers.length := (List.getElem?_eq_some_iff.1 hw).1
      rw [Res.bind_ok] at h
      rw [ih (i + 1) r.1 ⟨{ b.shared with model := r.2 }, b.workers.set t (cut, .forward slot x (i + 1) r.1)⟩ (by omega) ((forwardStep_label hs).2.2.trans hn)
        (by simp [hlt]) h k (by omega) rest]
      rfl

/-- The first sample of training makes `forwardPropagation` throw: if the first thread comes to work on it alone, the program ends. -/
theorem train_terminates {E : Env α} {p : Hyper α} {B T : Nat} (hB0 : 0 < B) (hB : B < 2 ^ 24) (hT0 : 0 < T) (hT : T < 2147483648) (hp : p.batch = B) (hpT : p.threads = T)
    {size : Nat} (hs : size < 2 ^ 24) {x : Sample α} {xs : List (Sample α)} {M : Model α} {e : Exc}
    (h : (M.setBatchSize B).forwardPropagation E x.data 0 = .throw e) {k : Nat} (hk : M.layers.length + 2 ≤ k) {rest : List Nat} {cs : List (List Nat)}
    {epochs : List (List (List Nat) × List (Sample α))} (hc : cs.length + 1 = (size + B - 1) / B) (he : epochs.length + 1 = p.epochs.toNat) :
    train E p size (((List.replicate k 0 ++ rest) :: cs, x :: xs) :: epochs) M = .abort := by
  have hrun : runBatch E p (List.replicate k 0 ++ rest) ⟨M.setBatchSize (u64 p.batch), x :: xs, 0⟩ = .abort := by
    have hu : u64 p.batch = B := by rw [hp]; unfold u64; omega
    have hshare : 0 < share B T := by unfold share; exact Nat.div_pos (by omega) hT0
    unfold runBatch
    rw [hp, hpT, startBatch_eq B T hB hT0 hT, Res.bind_ok, show u64 (B : Int) = B by rw [← hp]; exact hu]
    obtain ⟨k, rfl⟩ : ∃ j, k = j + 1 := ⟨k - 1, by omega⟩
    obtain ⟨T, rfl⟩ : ∃ j, T = j + 1 := ⟨T - 1, by omega⟩
    rw [List.replicate_succ, List.cons_append, Batch.run, Batch.step]
    simp only [List.range_succ_eq_map, List.map_cons, List.getElem?_cons_zero, Pc.step]
    rw [if_pos (by rw [Nat.zero_mul, Nat.zero_add, Nat.one_mul]; exact lt_min hshare hB0)]
    unfold Model.forwardPropagation at h
    cases hb : Model.forwardBegin E x.data with
    | throw e' => rfl
    | ub => rw [hb] at h; cases h
    | abort => rw [hb] at h; cases h
    | ok s =>
      rw [hb] at h
      simp only [Res.bind_ok, terminate]
      have hl : (M.setBatchSize B).layers.length = M.layers.length := by simp [Model.setBatchSize]
      rw [run_forward_throws (n := M.layers.length) (slot := 0 * share B (T + 1)) (x := x) (cut := min ((0 + 1) * share B (T + 1)) B) (e := e)
        M.layers.length 0 s _ (by omega) hl rfl ?_ k (by omega) rest]
      · rfl
      · rw [← List.range_eq_range', Nat.zero_mul, ← hl]
        rw [Res.bind_ok] at h
        cases hf : (List.range (M.setBatchSize B).layers.length).foldlM (Model.forwardStep E 0) (s, M.setBatchSize B) with
        | throw e' => rw [hf] at h; simpa using h
        | ub => rw [hf] at h; cases h
        | abort => rw [hf] at h; cases h
        | ok q =>
          rw [hf, Res.bind_ok] at h
          rw [Res.bind_ok]
          cases he : Model.forwardEnd E q.2 q.1.1 q.1.2 with
          | throw e' => rw [he] at h; simpa using h
          | ub => rw [he] at h; cases h
          | abort => rw [he] at h; cases h
          | ok r => rw [he] at h; cases h
  unfold train
  rw [Model.room_nonneg (by omega), Res.bind_ok, if_pos (by rw [List.length_cons]; exact he), List.foldlM_cons]
  have hep : runEpoch E p size ((List.replicate k 0 ++ rest) :: cs) ⟨M.setBatchSize (u64 p.batch), x :: xs, 0⟩ = .abort := by
    unfold runEpoch
    rw [if_neg (by omega), hp, hpT, workCount_eq B T hB hT0, Res.bind_ok, if_neg (by omega), numBatches_eq size B hs hB0, Res.bind_ok,
      if_pos (by rw [List.length_cons, hc]; rfl), runBatches]
    rw [← hp, hrun]
    rfl
  simp only
  rw [hep]
  rfl

end Train
end
end Cnn
