import Verif.Lemmas.OverlapTrain
import Verif.Props.Train
import Verif.Props.Safe
/-!
# Property C76: layer calls of different threads that overlap in time do not disturb each other
-/
namespace Cnn
namespace Overlap
open Train Model
section
variable {α : Type} [Zero α] [One α] [Add α] [Sub α] [Mul α] [Div α] [Neg α]

/-- C76 Let the calls of layers overlap in time in any way, each reading the members of its layer at any time and leaving anything in its
batch slot until it ends. What training then does, one can also get if the calls follow one another: the outcome (the
trained model, an exception, undefined behaviour) is the same for some order of the threads. The fully connected layers must have been
used before (on first use: C56); batch sizes are `int`s. -/
theorem C76_overlap (E : Env α) (p : Hyper α) (hB : p.batch < 2147483648) (size : Nat) (M : Model α)
    (hM : ∀ l ∈ M.layers, ∀ L, l.body = .connected L → L.initialized = true)
    (fine : List (List (List (Nat × Act α)) × List (Sample α))) :
    ∃ epochs : List (List (List Nat) × List (Sample α)), epochs.map Prod.snd = fine.map Prod.snd ∧
      Overlap.train E p size fine M = Train.train E p size epochs M := by
  have hR : M.Ready := by
    intro l hl
    have := hM l hl
    cases hb : l.body with
    | connected L => exact this L hb
    | _ => trivial
  obtain ⟨coarse, h1, h2⟩ := epochs_from (E := E) hB size fine (hR.setBatchSize (u64 p.batch))
  refine ⟨coarse, h1, ?_⟩
  have hl : coarse.length = fine.length := by
    have := congrArg List.length h1
    simpa using this
  rw [train_room, Train.train_room, hl, h2]

/-- C76 Conversely, every training in which the calls follow one another is one in which they may overlap. -/
theorem C76_sequential (E : Env α) (p : Hyper α) (hB : p.batch < 2147483648) (size : Nat) (M : Model α)
    (hM : ∀ l ∈ M.layers, ∀ L, l.body = .connected L → L.initialized = true)
    (epochs : List (List (List Nat) × List (Sample α))) :
    ∃ fine : List (List (List (Nat × Act α)) × List (Sample α)), fine.map Prod.snd = epochs.map Prod.snd ∧
      Overlap.train E p size fine M = Train.train E p size epochs M := by
  have hR : M.Ready := by
    intro l hl
    have := hM l hl
    cases hb : l.body with
    | connected L => exact this L hb
    | _ => trivial
  obtain ⟨fine, h1, h2⟩ := epochs_to (E := E) hB size epochs (hR.setBatchSize (u64 p.batch))
  refine ⟨fine, h1, ?_⟩
  have hl : fine.length = epochs.length := by
    have := congrArg List.length h1
    simpa using this
  rw [train_room, Train.train_room, hl, h2]

/-- C76 So whatever holds of the outcome of training whichever thread makes the next call also holds if calls overlap. -/
theorem C76_iff (E : Env α) (p : Hyper α) (hB : p.batch < 2147483648) (size : Nat) (M : Model α)
    (hM : ∀ l ∈ M.layers, ∀ L, l.body = .connected L → L.initialized = true) (sources : List (List (Sample α)))
    (Q : Res (Option (Model α)) → Prop) :
    (∀ epochs : List (List (List Nat) × List (Sample α)), epochs.map Prod.snd = sources → Q (Train.train E p size epochs M)) ↔
    (∀ fine : List (List (List (Nat × Act α)) × List (Sample α)), fine.map Prod.snd = sources → Q (Overlap.train E p size fine M)) := by
  constructor
  · intro h fine hf
    obtain ⟨epochs, h1, h2⟩ := C76_overlap E p hB size M hM fine
    rw [h2]
    exact h epochs (h1.trans hf)
  · intro h epochs he
    obtain ⟨fine, h1, h2⟩ := C76_sequential E p hB size M hM epochs
    rw [← h2]
    exact h fine (h1.trans he)

/-- C76 with C70: a model of layers that fit, the fully connected ones used before, is trained without failing, overlapping calls
included, and can then be used. -/
theorem C76_safe (E : Env α) (hE : E.order = .dimsFirst) (p : Hyper α) (B T : Nat) (hp : p.batch = B) (hq : p.threads = T)
    (h0 : 0 < B) (hB : B < 2 ^ 24) (hT0 : 0 < T) (hT : T < 2147483648) (size : Nat) (hs0 : 0 < size) (hsz : size < 2 ^ 24)
    (M : Model α) (hM0 : ∀ l ∈ M.layers, ∀ L, l.body = .connected L → L.initialized = true) (s : Shape) (ks : List LayerKind)
    (hM : M.Runs s ks) (hk : KindsWork true s ks) (fine : List (List (List (Nat × Act α)) × List (Sample α)))
    (hx : ∀ e ∈ fine, ∀ x ∈ e.2, x.Fits s M.labels) (hfull : ∀ e ∈ fine.head?, B ≤ e.2.length) :
    ∃ o, Overlap.train E p size fine M = .ok o ∧ ∀ M', o = some M' → M'.Runs s ks ∧
      ∀ X : Matrix α, X.Has s → ∀ b < B, ∃ r M'', M'.forwardPropagation E X b = .ok (r, M'') ∧ r.labelIdx < M.labels.length := by
  obtain ⟨epochs, h1, h2⟩ := C76_overlap E p (by omega) size M hM0 fine
  have hx' : ∀ e ∈ epochs, ∀ x ∈ e.2, x.Fits s M.labels := by
    intro e he x hxe
    have : e.2 ∈ fine.map Prod.snd := h1 ▸ List.mem_map.2 ⟨e, he, rfl⟩
    obtain ⟨e', he', h⟩ := List.mem_map.1 this
    exact hx e' he' x (h ▸ hxe)
  have hfull' : ∀ e ∈ epochs.head?, B ≤ e.2.length := by
    intro e he
    have h3 : e.2 ∈ (epochs.map Prod.snd).head? := by rw [List.head?_map]; exact Option.mem_map_of_mem _ he
    rw [h1, List.head?_map] at h3
    obtain ⟨e', he', h⟩ := Option.mem_map.1 h3
    rw [← h]
    exact hfull e' he'
  obtain ⟨o, ho⟩ := C70_train_partial E hE p B T hp hq h0 hB hT0 hT size hs0 hsz M s ks hM hk epochs hx' hfull'
  refine ⟨o, h2.trans ho, fun M' hM' => ?_⟩
  obtain ⟨a1, _, a3⟩ := C70_trained_partial E hE p B T hp hq h0 hB hT0 hT size hs0 hsz M s ks hM hk epochs hx' hfull' M' (hM' ▸ ho)
  refine ⟨a1, fun X hX b hb => ?_⟩
  obtain ⟨r, M'', h3, h4, _⟩ := a3 X hX b hb
  exact ⟨r, M'', h3, h4⟩

end

/-! A concrete case: two threads in the backward calls of one fully connected layer at the same time. -/

/-- A fully connected layer that has been used, with two slots. -/
def usedLayer (g : List (Matrix Int)) : Body Int :=
  .connected ⟨⟨dimN 2 2 1, [1, 2, 3, 4]⟩, ⟨dimN 2 1 1, [0, 0]⟩, dimN 2 1 1, true, g, g⟩

/-- This layer and an output layer. -/
def usedModel : Model Int :=
  let M : Model Int := softmaxModel ["a".toList, "b".toList]
  { M with layers := ⟨"c".toList, usedLayer (emptyGrads 2)⟩ :: M.layers }

/-- Rubbish. -/
def rubbish : Body Int := usedLayer [⟨dimN 1 1 1, [77]⟩, ⟨dimN 1 1 1, [88]⟩]

/-- Both threads are in their calls at the same time, forward and backward, and both leave rubbish in their slots for a while. -/
def together : List (Nat × Act Int) :=
  [(0, .next), (1, .next), (0, .next), (1, .next), (0, .write rubbish), (1, .look), (1, .next), (0, .next), (0, .next), (0, .next),
    (1, .next), (1, .next), (0, .next), (0, .next), (1, .next), (1, .next), (0, .next), (1, .next), (0, .write rubbish), (1, .write rubbish),
    (1, .look), (0, .look), (1, .next), (0, .next), (0, .next), (0, .next), (1, .next), (1, .next)]

/-- One call after the other. -/
def inTurn : List Nat := List.replicate 9 0 ++ List.replicate 9 1

def twoSamples : Shared Int := ⟨usedModel, [toySample 1 2 "a", toySample 3 4 "b"], 0⟩

/-- The weights of the first layer. -/
def weightsOf : Option (Shared Int × List (Event Int)) → Option (List Int)
  | some r => match (r.1.model.bodyAt 0) with
    | some (.connected L) => some (L.weights.vals ++ L.biases.vals)
    | _ => none
  | none => none

example : ∀ l ∈ usedModel.layers, ∀ L, l.body = .connected L → L.initialized = true := by
  intro l hl L hL
  rcases List.mem_cons.1 hl with rfl | hl
  · obtain rfl := Body.connected.inj hL
    rfl
  · obtain rfl := List.mem_singleton.1 (show l ∈ [_] from hl)
    exact absurd hL (by intro h; cases h)

/-- Both ways the weights and biases are the same, and not those at the beginning. -/
example : (Overlap.runBatch toyEnv ⟨1, 2, 2, 1⟩ together twoSamples >>= fun r => .ok (weightsOf r)) = .ok (some [2, 4, 4, 6, 1, 1]) ∧
    (Train.runBatch toyEnv ⟨1, 2, 2, 1⟩ inTurn twoSamples >>= fun r => .ok (weightsOf r)) = .ok (some [2, 4, 4, 6, 1, 1]) := ⟨by rfl, by rfl⟩

/-- Meanwhile there is rubbish in the slots. -/
example : (startBatch 2 2 ({ twoSamples with model := usedModel.setBatchSize 2 }) >>= fun s =>
    (⟨s.shared, s.workers.map fun w => ⟨w.1, w.2, none⟩⟩ : Batch Int).run toyEnv (together.take 20) >>= fun r =>
      .ok (r.1.shared.model.bodyAt 0)) = .ok (some rubbish) := by rfl

end Overlap
end Cnn
