import Verif.Model.Overlap
/-!
# Fair schedules (C94)
-/
namespace Cnn

/-- Each of the threads `0`, …, `T - 1` makes at least `n` steps. -/
def Fair (T n : Nat) (sched : List Nat) : Prop := ∀ t < T, n ≤ sched.count t

/-- Each thread gets on at least `n` times; what it does in between (reading again, writing into its own slot) does not count. -/
def FairActs {α : Type} (T n : Nat) (sched : List (Nat × Overlap.Act α)) : Prop :=
  ∀ t < T, n ≤ sched.countP fun a => match a with
    | (u, .next) => u == t
    | _ => false

/-- An endless schedule in which each thread gets its turn again and again. -/
def FairForever (T : Nat) (σ : Nat → Nat) : Prop := ∀ t < T, ∀ k, ∃ j, k ≤ j ∧ σ j = t

end Cnn
