import Verif.Spec.GradRounding
import Verif.Spec.Descent
/-!
# A rounded training step (C99)

How far the parameters after a batch may be from `w - rate * (mean of the exact gradients)`.
-/
namespace Cnn

/-- A training sample as numbers: the input `x`, the errors of its entries, the index of the label. -/
structure Datum where
  x : Tensor
  err : Tensor
  label : Nat

/-- The sample `u` is `d`: its entries are finite and off from those of `d` by at most the errors, its label is the given one (the first occurrence). -/
structure Sample.Near {α : Type} [Zero α] [One α] [Add α] [Sub α] [Mul α] [Div α] [Neg α] {N : Num α} {p : Precision} (F : Floating N p)
    (labels : List (List Char)) (s : Shape) (u : Sample α) (d : Datum) : Prop where
  data : u.data.Near F s d.x d.err
  label : labels[d.label]? = some u.label
  first : ∀ t < d.label, labels[t]? ≠ some u.label

/-- The same inputs, each with the label of some sample of the batch. -/
def Datum.Relabels (d d' : List Datum) : Prop :=
  d'.map (fun d => (d.x, d.err)) = d.map (fun d => (d.x, d.err)) ∧ ∀ e ∈ d', ∃ f ∈ d, e.label = f.label

/-- Nothing overflows in the two passes of a sample, and the inputs of softmax are off by at most `ε`. -/
def Datum.Passes (p : Precision) (q : Conversion) (ls : List NetLayer) (s : Shape) (n : Nat) (ε : ℝ) (d : Datum) : Prop :=
  NetInRange p ls s d.x d.err ∧ (∀ t < n, flatOf (netOut ls s).X (netOut ls s).Y (netErr p ls s d.x d.err) t ≤ ε) ∧
  (∀ t < n, 2 * (|flatOf (netOut ls s).X (netOut ls s).Y (netEval ls s d.x) t| + ε) ≤ p.Ω) ∧ NetBackRoom p q n d.label ε true ls s d.x d.err

namespace Precision

/-- The mean of some numbers. -/
noncomputable def mean (gs : List (ℝ × ℝ)) : ℝ := (gs.map (·.1)).sum / gs.length

/-- The error of the computed sum of numbers that are off by at most the second components. -/
noncomputable def totalErr (p : Precision) (gs : List (ℝ × ℝ)) : ℝ :=
  p.grown gs.length 0 (gs.map fun g => |g.1| + g.2).sum (gs.map fun g => |g.1|).sum

/-- The error of the computed mean. -/
noncomputable def meanErr (p : Precision) (gs : List (ℝ × ℝ)) : ℝ :=
  p.totalErr gs / gs.length + (p.u * (|mean gs| + p.totalErr gs / gs.length) + p.η)

/-- The error of the rate times the mean. -/
noncomputable def shiftErr (p : Precision) (r : ℝ) (gs : List (ℝ × ℝ)) : ℝ :=
  p.grown 1 1 (|r| * (|mean gs| + p.meanErr gs)) (|r| * |mean gs|)

/-- The error of the new parameter. -/
noncomputable def stepErr (p : Precision) (r w : ℝ) (gs : List (ℝ × ℝ)) : ℝ :=
  p.grown 1 0 (|w - r * mean gs| + p.shiftErr r gs) |w - r * mean gs|

/-- Nothing overflows in computing the new parameter. -/
def StepRoom (p : Precision) (r w : ℝ) (gs : List (ℝ × ℝ)) : Prop :=
  p.Room gs.length 0 (gs.map fun g => |g.1| + g.2).sum ∧ |mean gs| + p.totalErr gs / gs.length ≤ p.Ω ∧
  |r| * (|mean gs| + p.meanErr gs) ≤ p.Ω ∧ |w - r * mean gs| + p.shiftErr r gs ≤ p.Ω

end Precision

/-- The gradients of a batch for one weight of layer `i`, with their errors. -/
noncomputable def weightTerms (p : Precision) (q : Conversion) (n : Nat) (ε : ℝ) (i : Nat) (ls : List NetLayer) (s : Shape) (ds : List Datum)
    (a b c : Nat) : List (ℝ × ℝ) :=
  ds.map fun d => (netWeightGrad n d.label i ls s d.x a b c, netWeightErr p q n d.label ε i ls s d.x d.err a b c)

/-- For one bias. -/
noncomputable def biasTerms (p : Precision) (q : Conversion) (n : Nat) (ε : ℝ) (i : Nat) (ls : List NetLayer) (s : Shape) (ds : List Datum)
    (f : Nat) : List (ℝ × ℝ) :=
  ds.map fun d => (netBiasGrad n d.label i ls s d.x f, netBiasErr p q n d.label ε i ls s d.x d.err f)

/-- Nothing overflows in the update. -/
def NetStepRoom (p : Precision) (q : Conversion) (r : ℝ) (n : Nat) (ε : ℝ) (ls : List NetLayer) (s : Shape) (ds : List Datum) : Prop :=
  ∀ i l w β, ls[i]? = some l → l.params = some (w, β) →
    (∀ a < (l.weightShape (netOut (ls.take i) s)).X, ∀ b < (l.weightShape (netOut (ls.take i) s)).Y, ∀ c < (l.weightShape (netOut (ls.take i) s)).Z,
      p.StepRoom r (w a b c) (weightTerms p q n ε i ls s ds a b c)) ∧
    ∀ f < l.biasCount, p.StepRoom r (β f) (biasTerms p q n ε i ls s ds f)

/-- `ls'` is the network `ls` in which each parameter has been moved by the rate times the mean of the exact gradients, up to `stepErr`. -/
def NetStep (p : Precision) (q : Conversion) (r : ℝ) (n : Nat) (ε : ℝ) (s : Shape) (ds : List Datum) (ls ls' : List NetLayer) : Prop :=
  ls'.length = ls.length ∧ ∀ i l, ls[i]? = some l → ∃ w' β', ls'[i]? = some (l.withParams w' β') ∧ ∀ w β, l.params = some (w, β) →
    (∀ a < (l.weightShape (netOut (ls.take i) s)).X, ∀ b < (l.weightShape (netOut (ls.take i) s)).Y, ∀ c < (l.weightShape (netOut (ls.take i) s)).Z,
      |w' a b c - (w a b c - r * Precision.mean (weightTerms p q n ε i ls s ds a b c))| ≤ p.stepErr r (w a b c) (weightTerms p q n ε i ls s ds a b c)) ∧
    ∀ f < l.biasCount, |β' f - (β f - r * Precision.mean (biasTerms p q n ε i ls s ds f))| ≤ p.stepErr r (β f) (biasTerms p q n ε i ls s ds f)

/-- Whatever labels are used, nothing overflows in the batch. -/
def RoomFor (p : Precision) (q : Conversion) (r : ℝ) (n : Nat) (ε : ℝ) (s : Shape) (ds : List Datum) (ls : List NetLayer) : Prop :=
  ∀ ds', Datum.Relabels ds ds' → (∀ d ∈ ds', d.Passes p q ls s n ε) ∧ NetStepRoom p q r n ε ls s ds'

/-- `ls'` is reached from `ls` by such steps, one for each batch. -/
def NetSteps (p : Precision) (q : Conversion) (r : ℝ) (n : Nat) (ε : ℝ) (s : Shape) : List (List Datum) → List NetLayer → List NetLayer → Prop
  | [], ls, ls' => ls' = ls
  | d :: ds, ls, ls' => ∃ m, NetStep p q r n ε s d ls m ∧ NetSteps p q r n ε s ds m ls'

/-- Nothing overflows in the batches, whichever networks within the errors are reached. -/
def RoomAlong (p : Precision) (q : Conversion) (r : ℝ) (n : Nat) (ε : ℝ) (s : Shape) : List (List Datum) → List NetLayer → Prop
  | [], _ => True
  | d :: ds, ls => RoomFor p q r n ε s d ls ∧ ∀ d' m, Datum.Relabels d d' → NetStep p q r n ε s d' ls m → RoomAlong p q r n ε s ds m

/-- The source serves full batches of `B` samples, which are the given ones up to their errors, and no more. -/
def ServesNear {α : Type} [Zero α] [One α] [Add α] [Sub α] [Mul α] [Div α] [Neg α] {N : Num α} {p : Precision} (F : Floating N p)
    (labels : List (List Char)) (s : Shape) (B : Nat) : List (Sample α) → List (List Datum) → Prop
  | source, [] => source = []
  | source, d :: ds => d.length = B ∧ List.Forall₂ (Sample.Near F labels s) (source.take B) d ∧ ServesNear F labels s B (source.drop B) ds

end Cnn
