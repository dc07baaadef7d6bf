import Verif.Lemmas.Feed
import Verif.Lemmas.AccuracyRun
import Verif.Props.Train
/-!
# Property C81: training and its data source
-/
namespace Cnn.Feed
open Train
variable {σ α : Type} [Zero α] [One α] [Add α] [Sub α] [Mul α] [Div α] [Neg α]

theorem train_like (G : Source σ α) (E : Env α) (p : Hyper α) (n : Nat) (sources rest : List (List (Sample α))) (scheds : List (List (List Nat)))
    (hl : scheds.length = sources.length) (M : Model α) (g : σ) (h : Feeds G n (sources ++ rest) g) :
    Res.Like (OptRel fun r q => r.1 = q.1 ∧ r.2.2 = q.2.map (fun h => (h, n)) ∧ Feeds G n rest r.2.1) (Feed.train G E p scheds M g)
      (report E p n (scheds.zip sources) M) := by
  unfold Feed.train report
  rcases M.room_cases p.batch with hroom | ⟨-, hroom⟩
  swap
  · rw [hroom]; exact rfl
  rw [hroom, Res.bind_ok, Res.bind_ok, List.length_zip, hl, Nat.min_self]
  split
  · exact trainLoop_rel rest sources scheds hl h
  · trivial

/-- C81 Whatever the class of the data source and the schedules: `train` ends (or fails) exactly as the training on the lists of samples the source serves between the
resets, with the same model and the same reported numbers. -/
theorem C81_train (G : Source σ α) (E : Env α) (p : Hyper α) (n : Nat) (sources : List (List (Sample α))) (scheds : List (List (List Nat)))
    (hl : scheds.length = sources.length) (M : Model α) (g : σ) (h : Feeds G n sources g) :
    (do let r ← Feed.train G E p scheds M g; Res.ok (r.map fun r : Model α × σ × List (Nat × Nat) => (r.1, r.2.2))) =
      (do let r ← report E p n (scheds.zip sources) M; Res.ok (r.map fun r : Model α × List Nat => (r.1, r.2.map fun k => (k, n)))) := by
  have := train_like G E p n sources [] scheds hl M g (by rw [List.append_nil]; exact h)
  refine (this.bind (S := fun a b => a = b) ?_).eq
  intro r q hr
  match r, q, hr with
  | none, none, _ => rfl
  | some r, some q, ⟨h1, h2, _⟩ =>
    show some (r.1, r.2.2) = some (q.1, _)
    rw [h1, h2]

/-- C81 … in particular the model is the one `train` makes of these lists. -/
theorem C81_model (G : Source σ α) (E : Env α) (p : Hyper α) (n : Nat) (sources : List (List (Sample α))) (scheds : List (List (List Nat)))
    (hl : scheds.length = sources.length) (M : Model α) (g : σ) (h : Feeds G n sources g) :
    (do let r ← Feed.train G E p scheds M g; Res.ok (r.map Prod.fst)) = Train.train E p n (scheds.zip sources) M := by
  rw [← report_train]
  have := train_like G E p n sources [] scheds hl M g (by rw [List.append_nil]; exact h)
  refine (this.bind (S := fun a b => a = b) ?_).eq
  intro r q hr
  match r, q, hr with
  | none, none, _ => rfl
  | some r, some q, ⟨h1, h2, _⟩ => exact congrArg some h1

/-- C81 When training ends the source has been reset as often as there were epochs: what it would serve in the following epochs is what is left of the lists, so
that another training goes on with them. -/
theorem C81_again (G : Source σ α) (E : Env α) (p : Hyper α) (n : Nat) (sources rest : List (List (Sample α))) (scheds : List (List (List Nat)))
    (hl : scheds.length = sources.length) (M : Model α) (g : σ) (h : Feeds G n (sources ++ rest) g) (M' : Model α) (g' : σ) (es : List (Nat × Nat))
    (e : Feed.train G E p scheds M g = .ok (some (M', g', es))) : Feeds G n rest g' ∧ es.length = p.epochs.toNat ∧ ∀ k ∈ es, k.2 = n := by
  have := train_like G E p n sources rest scheds hl M g h
  rw [e] at this
  cases hr : report E p n (scheds.zip sources) M with
  | ok o =>
    rw [hr] at this
    match o, this with
    | some q, ⟨_, h2, h3⟩ =>
      refine ⟨h3, ?_, ?_⟩
      · show es.length = _
        have h2 : es = _ := h2
        rw [h2, List.length_map]
        unfold report at hr
        obtain ⟨_, _, hr⟩ := Res.bind_eq_ok hr
        by_cases hlen : (scheds.zip sources).length = p.epochs.toNat
        · rw [if_pos hlen] at hr
          rw [← hlen]
          exact reportLoop_length hr
        · rw [if_neg hlen] at hr; cases hr
      · intro k hk
        have h2 : es = _ := h2
        rw [h2] at hk
        obtain ⟨a, _, rfl⟩ := List.mem_map.1 hk
        rfl
  | throw x => rw [hr] at this; exact this.elim
  | ub => rw [hr] at this; exact this.elim
  | abort => rw [hr] at this; exact this.elim

/-- C81 `getNextDataPoint` is never called on a source that has no data: a source may do anything in that case without making a difference. -/
theorem C81_asks_first (G G' : Source σ α) (h : SameUse G G') (E : Env α) (p : Hyper α) (scheds : List (List (List Nat))) (M : Model α) (g : σ) :
    Feed.train G E p scheds M g = Feed.train G' E p scheds M g := by
  unfold Feed.train
  rw [trainLoop_same h]

/-- C81 for a list of samples served again and again. -/
theorem C81_list (l : List (Sample α)) (E : Env α) (p : Hyper α) (scheds : List (List (List Nat))) (M : Model α) :
    (do let r ← Feed.train (ofList l) E p scheds M 0; Res.ok (r.map Prod.fst)) = Train.train E p l.length (scheds.zip (List.replicate scheds.length l)) M :=
  C81_model (ofList l) E p l.length _ scheds (by simp) M 0 (ofList_feeds l _)

/-- Two epochs of three samples with two threads and batches of two: the source has been reset, and two samples of three were classified correctly in each epoch. -/
example : (Feed.train (ofList [toySample 1 2 "a", toySample 3 4 "b", toySample 5 6 "a"]) toyEnv ⟨1, 2, 2, 2⟩
      (List.replicate 2 [[0, 1, 0, 1, 1, 0, 0, 1, 0, 1, 0, 1, 0, 1], [1, 0, 0, 1, 1, 1, 1, 1, 1, 1]]) (softmaxModel ["a".toList, "b".toList]) 0 >>= fun q =>
      .ok (q.map fun r => r.2)) = .ok (some (0, [(2, 3), (2, 3)])) := by rfl

end Cnn.Feed
