import Verif.Model.Feed
/-!
# Specification vocabulary for data sources (C81)
-/
namespace Cnn.Feed
variable {σ α : Type}

/-- Asked again and again, the source in state `g` serves the samples of the list and no more; all the time its state satisfies `Q`. -/
def Serves (G : Source σ α) (Q : σ → Prop) : List (Sample α) → σ → Prop
  | [], g => Q g ∧ G.has g = false
  | x :: l, g => Q g ∧ G.has g = true ∧ ∃ g', G.next g = (.ok x, g') ∧ Serves G Q l g'

/-- The source reports the size `n` all the time, and serves the samples of the first list, after a reset (which may come early) those of the
second, and so on; it can be reset once more at the end. -/
def Feeds (G : Source σ α) (n : Nat) : List (List (Sample α)) → σ → Prop
  | [], _ => True
  | l :: ls, g => Serves G (fun g => G.size g = n ∧ ∃ g', G.reset g = (.ok (), g') ∧ Feeds G n ls g') l g

/-- Two sources that cannot be told apart by somebody who asks `hasAvailableData` before each `getNextDataPoint`. -/
structure SameUse (G G' : Source σ α) : Prop where
  has : G.has = G'.has
  size : G.size = G'.size
  reset : G.reset = G'.reset
  next : ∀ g, G.has g = true → G.next g = G'.next g

/-- The simplest source: a list of samples and a position in it. -/
def ofList (l : List (Sample α)) : Source Nat α where
  has i := decide (i < l.length)
  next i := match l[i]? with
    | some x => (.ok x, i + 1)
    | none => (.ub, i)
  size _ := l.length
  reset _ := (.ok (), 0)

end Cnn.Feed
