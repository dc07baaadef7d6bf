import Verif.Spec.Descent
/-!
# Gradient descent with remembered gradients (C82)

The program has one slot per sample of a batch. A slot keeps the gradient of the sample that used it last, and a step uses
all slots. If a batch has fewer samples than there are slots, the step also uses gradients of earlier samples, which belong
to earlier networks. Here this is described without reference to the program.

The gradient of a network `ls` at a sample `x` is taken of the network `rep ls x`: of `ls` itself, or of the network that
back-propagation differentiates in its place (C83).
-/
namespace Cnn

/-- A remembered gradient: the network and the sample it was computed for. -/
abbrev Remembered := List NetLayer × (Tensor × Nat)

/-- The partial derivative, with respect to a weight of layer `i`, of the loss of a network for a sample. -/
noncomputable def weightPartial (s : Shape) (n : Nat) (m : Remembered) (i a b c : Nat) : ℝ :=
  match m.1[i]? with
  | none => 0
  | some l =>
    match l.params with
    | none => 0
    | some (w, β) => deriv (fun v => netLoss (m.1.set i (l.withParams (w.update a b c v) β)) s n m.2.2 m.2.1) (w a b c)

/-- The partial derivative, with respect to a bias of layer `i`, of the loss of a network for a sample. -/
noncomputable def biasPartial (s : Shape) (n : Nat) (m : Remembered) (i k : Nat) : ℝ :=
  match m.1[i]? with
  | none => 0
  | some l =>
    match l.params with
    | none => 0
    | some (w, β) => deriv (fun v => netLoss (m.1.set i (l.withParams w (Function.update β k v))) s n m.2.2 m.2.1) (β k)

/-- The network whose loss is differentiated. -/
abbrev Rep := List NetLayer → Tensor → List NetLayer

/-- The network itself. -/
abbrev itself : Rep := fun ls _ => ls

/-- One step: every weight and every bias decreases by `rate` times the mean of the remembered partial derivatives. -/
noncomputable def memStep (rep : Rep) (rate : ℝ) (s : Shape) (n : Nat) (mem : List Remembered) (ls : List NetLayer) : List NetLayer :=
  ls.mapIdx fun i l =>
    match l.params with
    | none => l
    | some (w, β) => l.withParams
        (fun a b c => w a b c - rate * ((mem.map fun m => weightPartial s n (rep m.1 m.2.1, m.2) i a b c).sum / mem.length))
        (fun k => β k - rate * ((mem.map fun m => biasPartial s n (rep m.1 m.2.1, m.2) i k).sum / mem.length))

/-- The batches of `B` samples, one after the other; the last one has what is left. -/
def batchesOf {β : Type} (B : Nat) (l : List β) : List (List β) :=
  (List.range ((l.length + B - 1) / B)).map fun k => (l.drop (k * B)).take B

/-- What is remembered after a batch in which the samples use the slots from the first on. -/
def refill (ls : List NetLayer) (d : List (Tensor × Nat)) (mem : List Remembered) : List Remembered :=
  d.map (fun e => (ls, e)) ++ mem.drop d.length

/-- The training over some batches: what is remembered, and the network. -/
noncomputable def staleDescents (rep : Rep) (rate : ℝ) (s : Shape) (n : Nat) : List (List (Tensor × Nat)) → List Remembered → List NetLayer → List NetLayer
  | [], _, ls => ls
  | d :: ds, mem, ls => staleDescents rep rate s n ds (refill ls d mem) (memStep rep rate s n (refill ls d mem) ls)

/-- During this, each network is differentiable, layer by layer, at the samples of the next batch. -/
def StaleSmooth (rate : ℝ) (s : Shape) (n : Nat) : List (List (Tensor × Nat)) → List Remembered → List NetLayer → Prop
  | [], _, _ => True
  | d :: ds, mem, ls => (∀ e ∈ d, NetSmooth ls s e.1) ∧ StaleSmooth rate s n ds (refill ls d mem) (memStep itself rate s n (refill ls d mem) ls)

/-! ## Any number of threads -/

/-- What can be remembered after a batch: each input of the batch with the label of some sample of the batch and, for the
slots that are left over, some of what was remembered before. -/
def Refills (ls : List NetLayer) (d : List (Tensor × Nat)) (mem mem' : List Remembered) : Prop :=
  ∃ d' kept, Relabels d d' ∧ kept.Subperm mem ∧ kept.length = mem.length - d.length ∧
    mem'.Perm (d'.map (fun e => (ls, e)) ++ kept)

/-- The networks that training over some batches can lead to. -/
def StaleLeads (rep : Rep) (rate : ℝ) (s : Shape) (n : Nat) : List (List (Tensor × Nat)) → List Remembered → List NetLayer → List NetLayer → Prop
  | [], _, ls, out => out = ls
  | d :: ds, mem, ls, out => ∃ mem', Refills ls d mem mem' ∧ StaleLeads rep rate s n ds mem' (memStep rep rate s n mem' ls) out

/-- On the way, all networks are differentiable, layer by layer, at the samples of the next batch. -/
def StaleSmoothAll (rate : ℝ) (s : Shape) (n : Nat) : List (List (Tensor × Nat)) → List Remembered → List NetLayer → Prop
  | [], _, _ => True
  | d :: ds, mem, ls => (∀ e ∈ d, NetSmooth ls s e.1) ∧
      ∀ mem', Refills ls d mem mem' → StaleSmoothAll rate s n ds mem' (memStep itself rate s n mem' ls)

end Cnn
