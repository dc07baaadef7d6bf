import Verif.Spec.Net
/-!
# Gradient descent on a network (C65)
-/
namespace Cnn

/-- A training sample as numbers: the input shows the table `d.1`, the label is the `d.2`-th one (its first occurrence). -/
structure Sample.Is (labels : List (List Char)) (s : Shape) (x : Sample ℝ) (d : Tensor × Nat) : Prop where
  data : x.data.Shows s.X s.Y s.Z d.1
  label : labels[d.2]? = some x.label
  first : ∀ t < d.2, labels[t]? ≠ some x.label

/-- The mean of the losses of a network over some samples. -/
noncomputable def meanLoss (s : Shape) (n : Nat) (data : List (Tensor × Nat)) (ls : List NetLayer) : ℝ :=
  (data.map fun d => netLoss ls s n d.2 d.1).sum / data.length

/-- One step of gradient descent for a function `f` of networks: every weight and every bias decreases by `rate` times the
partial derivative of `f` with respect to it. -/
noncomputable def descend (rate : ℝ) (f : List NetLayer → ℝ) (ls : List NetLayer) : List NetLayer :=
  ls.mapIdx fun i l =>
    match l.params with
    | none => l
    | some (w, β) => l.withParams
        (fun a b c => w a b c - rate * deriv (fun v => f (ls.set i (l.withParams (w.update a b c v) β))) (w a b c))
        (fun k => β k - rate * deriv (fun v => f (ls.set i (l.withParams w (Function.update β k v)))) (β k))

/-- The partial derivatives of `f` exist at `ls`. -/
def HasPartials (s : Shape) (f : List NetLayer → ℝ) (ls : List NetLayer) : Prop :=
  ∀ i l w β, ls[i]? = some l → l.params = some (w, β) →
    (∀ a < (l.weightShape (netOut (ls.take i) s)).X, ∀ b < (l.weightShape (netOut (ls.take i) s)).Y,
      ∀ c < (l.weightShape (netOut (ls.take i) s)).Z,
      DifferentiableAt ℝ (fun v => f (ls.set i (l.withParams (w.update a b c v) β))) (w a b c)) ∧
    ∀ k < l.biasCount, DifferentiableAt ℝ (fun v => f (ls.set i (l.withParams w (Function.update β k v)))) (β k)

/-- Gradient descent over a sequence of batches, on the mean loss of each. -/
noncomputable def descents (rate : ℝ) (s : Shape) (n : Nat) : List (List (Tensor × Nat)) → List NetLayer → List NetLayer
  | [], ls => ls
  | d :: ds, ls => descents rate s n ds (descend rate (meanLoss s n d) ls)

/-- During this, each network is differentiable, layer by layer, at the samples of the next batch. -/
def SmoothAlong (rate : ℝ) (s : Shape) (n : Nat) : List (List (Tensor × Nat)) → List NetLayer → Prop
  | [], _ => True
  | d :: ds, ls => (∀ e ∈ d, NetSmooth ls s e.1) ∧ SmoothAlong rate s n ds (descend rate (meanLoss s n d) ls)

/-- The source serves full batches of `B` samples, which are the given ones, and no more. -/
def Serves (labels : List (List Char)) (s : Shape) (B : Nat) : List (Sample ℝ) → List (List (Tensor × Nat)) → Prop
  | source, [] => source = []
  | source, d :: ds => d.length = B ∧ List.Forall₂ (Sample.Is labels s) (source.take B) d ∧ Serves labels s B (source.drop B) ds

/-- The same inputs, each with the label of some sample of the batch. -/
def Relabels (d d' : List (Tensor × Nat)) : Prop := d'.map Prod.fst = d.map Prod.fst ∧ ∀ e ∈ d', ∃ f ∈ d, e.2 = f.2

end Cnn
