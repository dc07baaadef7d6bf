import Verif.Spec.StepRounding
/-!
# Rounded training steps with remembered gradients (C99)

As Spec/Stale.lean, for rounded arithmetic: a step uses what all slots contain. A slot keeps the gradient of the sample that
used it last, computed for the network of that time.
-/
namespace Cnn

/-- A remembered gradient: the network and the sample it was computed for. -/
abbrev Kept := List NetLayer × Datum

/-- The remembered gradients for one weight of layer `i`, with their errors. -/
noncomputable def keptWeights (p : Precision) (q : Conversion) (n : Nat) (ε : ℝ) (i : Nat) (s : Shape) (mem : List Kept) (a b c : Nat) : List (ℝ × ℝ) :=
  mem.map fun m => (netWeightGrad n m.2.label i m.1 s m.2.x a b c, netWeightErr p q n m.2.label ε i m.1 s m.2.x m.2.err a b c)

/-- For one bias. -/
noncomputable def keptBiases (p : Precision) (q : Conversion) (n : Nat) (ε : ℝ) (i : Nat) (s : Shape) (mem : List Kept) (f : Nat) : List (ℝ × ℝ) :=
  mem.map fun m => (netBiasGrad n m.2.label i m.1 s m.2.x f, netBiasErr p q n m.2.label ε i m.1 s m.2.x m.2.err f)

/-- Nothing overflows in the update. -/
def KeptStepRoom (p : Precision) (q : Conversion) (r : ℝ) (n : Nat) (ε : ℝ) (s : Shape) (mem : List Kept) (ls : List NetLayer) : Prop :=
  ∀ i l w β, ls[i]? = some l → l.params = some (w, β) →
    (∀ a < (l.weightShape (netOut (ls.take i) s)).X, ∀ b < (l.weightShape (netOut (ls.take i) s)).Y, ∀ c < (l.weightShape (netOut (ls.take i) s)).Z,
      p.StepRoom r (w a b c) (keptWeights p q n ε i s mem a b c)) ∧
    ∀ f < l.biasCount, p.StepRoom r (β f) (keptBiases p q n ε i s mem f)

/-- `ls'` is the network `ls` in which each parameter has been moved by the rate times the mean of the remembered exact gradients, up to `stepErr`. -/
def KeptStep (p : Precision) (q : Conversion) (r : ℝ) (n : Nat) (ε : ℝ) (s : Shape) (mem : List Kept) (ls ls' : List NetLayer) : Prop :=
  ls'.length = ls.length ∧ ∀ i l, ls[i]? = some l → ∃ w' β', ls'[i]? = some (l.withParams w' β') ∧ ∀ w β, l.params = some (w, β) →
    (∀ a < (l.weightShape (netOut (ls.take i) s)).X, ∀ b < (l.weightShape (netOut (ls.take i) s)).Y, ∀ c < (l.weightShape (netOut (ls.take i) s)).Z,
      |w' a b c - (w a b c - r * Precision.mean (keptWeights p q n ε i s mem a b c))| ≤ p.stepErr r (w a b c) (keptWeights p q n ε i s mem a b c)) ∧
    ∀ f < l.biasCount, |β' f - (β f - r * Precision.mean (keptBiases p q n ε i s mem f))| ≤ p.stepErr r (β f) (keptBiases p q n ε i s mem f)

/-- How a batch `d`, processed by the network `ls`, changes what is remembered. -/
abbrev Refilling := List NetLayer → List Datum → List Kept → List Kept → Prop

/-- The samples use the slots from the first on, with their own labels (one thread). -/
def InOrder : Refilling := fun ls d mem mem' => mem' = d.map (fun e => (ls, e)) ++ mem.drop d.length

/-- Each input with the label of some sample of the batch and, for the slots that are left over, some of what was remembered
before (any number of threads). -/
def AnyOrder : Refilling := fun ls d mem mem' => ∃ d' kept, Datum.Relabels d d' ∧ kept.Subperm mem ∧ kept.length = mem.length - d.length ∧
  mem'.Perm (d'.map (fun e => (ls, e)) ++ kept)

/-- `ls'` is reached from `ls` by such steps, one for each batch. -/
def KeptSteps (R : Refilling) (p : Precision) (q : Conversion) (r : ℝ) (n : Nat) (ε : ℝ) (s : Shape) :
    List (List Datum) → List Kept → List NetLayer → List Kept → List NetLayer → Prop
  | [], mem, ls, mem', ls' => mem' = mem ∧ ls' = ls
  | d :: ds, mem, ls, mem', ls' => ∃ mem₁ m, R ls d mem mem₁ ∧ KeptStep p q r n ε s mem₁ ls m ∧ KeptSteps R p q r n ε s ds mem₁ m mem' ls'

/-- Nothing overflows in the batches, whichever networks within the errors are reached. -/
def KeptRoom (R : Refilling) (p : Precision) (q : Conversion) (r : ℝ) (n : Nat) (ε : ℝ) (s : Shape) : List (List Datum) → List Kept → List NetLayer → Prop
  | [], _, _ => True
  | d :: ds, mem, ls => (∀ d', Datum.Relabels d d' → ∀ e ∈ d', e.Passes p q ls s n ε) ∧
      ∀ mem₁, R ls d mem mem₁ → KeptStepRoom p q r n ε s mem₁ ls ∧ ∀ m, KeptStep p q r n ε s mem₁ ls m → KeptRoom R p q r n ε s ds mem₁ m

end Cnn
