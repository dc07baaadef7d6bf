import Verif.Lemmas.RaceAbort
import Verif.Props.Overlap
import Verif.Props.Main
/-!
# Property C80: training a network from the first call of its layers on
-/
set_option linter.unusedSectionVars false
namespace Cnn.Race
open Train Model
section
variable {α : Type} [Zero α] [One α] [Add α] [Sub α] [Mul α] [Div α] [Neg α]

/-- C80 as stated: a network of layers that fit together is built and trained on fitting samples; the threads may overlap inside the
forward calls of the fully connected layers, from the first call on. Then training does not fail. -/
def C80_claim (E : Env α) (rnd : Nat → Nat → Nat → α) : Prop :=
  ∀ (ks : List LayerKind) (labels : List (List Char)) (s : Shape) (p : Hyper α) (B T size : Nat) (M : Model α)
    (epochs : List (List (List Nat) × List (Sample α))), 0 < s.X * s.Y * s.Z → KindsWork true s ks →
    (kindsOut ks s = ⟨labels.length, 1, 1⟩ ∨ kindsOut ks s = ⟨1, labels.length, 1⟩) → p.batch = B → p.threads = T → 0 < B → B < 2 ^ 24 →
    0 < T → T < 2147483648 → 0 < size → size < 2 ^ 24 → buildModel E.num E.draws ks labels = .ok M →
    (∀ e ∈ epochs, ∀ x ∈ e.2, x.Fits s labels) → (∀ e ∈ epochs.head?, B ≤ e.2.length) → ∃ o, Race.train E rnd p size epochs M = .ok o

/-- C80 is false, whatever the network: if it has a fully connected layer, there are at least two threads and the batches are of at least two samples,
then for all data, random numbers and parameters there is an order of the steps in which the program is terminated. The layer is marked as
initialised before its weights exist (ConnectedLayer.cpp:53-57), so another thread compares the size of no weights with the size expected, and
its exception leaves the thread. -/
theorem C80_abort (E : Env α) (rnd : Nat → Nat → Nat → α) (ks : List LayerKind) (labels : List (List Char)) (s : Shape) (hs : 0 < s.X * s.Y * s.Z)
    (hk : KindsWork true s ks) (hout : kindsOut ks s = ⟨labels.length, 1, 1⟩ ∨ kindsOut ks s = ⟨1, labels.length, 1⟩) (n : Nat) (hn : .full n ∈ ks)
    (p : Hyper α) (B T : Nat) (hp : p.batch = B) (hq : p.threads = T) (h2 : 2 ≤ B) (hB : B < 2 ^ 24) (hT2 : 2 ≤ T) (hT : T < 2147483648)
    (size : Nat) (hs0 : 0 < size) (hsz : size < 2 ^ 24) (sources : List (List (Sample α))) (hl : sources.length = p.epochs.toNat)
    (first : List (Sample α)) (hf : sources.head? = some first) (hlen : 2 ≤ first.length) (hx : ∀ x ∈ first, x.data.Has s) :
    ∃ M, buildModel E.num E.draws ks labels = .ok M ∧
      ∃ epochs : List (List (List Nat) × List (Sample α)), epochs.map Prod.snd = sources ∧ Race.train E rnd p size epochs M = .abort := by
  obtain ⟨M, e, _, hR⟩ := buildModel_runs E.num E.draws ks labels hk hs hout
  refine ⟨M, e, ?_⟩
  obtain ⟨i, hi⟩ := List.mem_iff_getElem?.1 hn
  obtain ⟨L, h3, h4, h5⟩ := buildModel_new e hi
  cases sources with
  | nil => cases hf
  | cons a more =>
    obtain rfl := Option.some.inj hf
    match a, hlen, hx with
    | x :: y :: rest, _, hx =>
      rw [List.length_cons] at hl
      exact abort_train E rnd hp hq h2 hB hT2 hT (by omega) hs0 hsz hk hR hi h3 h4 h5 (hx x (by simp)) (hx y (by simp)) more hl

/-- C80 So the property does not hold, whatever the arithmetic and the random numbers. -/
theorem C80_violated (E : Env α) (rnd : Nat → Nat → Nat → α) : ¬ C80_claim E rnd := by
  intro h
  have hx : (⟨⟨dimN 1 1 1, [0]⟩, ['a']⟩ : Sample α).data.Has ⟨1, 1, 1⟩ :=
    ⟨fun _ _ _ => 0, ⟨⟨by decide, by decide, by decide, by decide⟩, rfl, rfl, fun i hi j hj k hk => by
      obtain rfl : i = 0 := by change i < 1 at hi; omega
      obtain rfl : j = 0 := by change j < 1 at hj; omega
      obtain rfl : k = 0 := by change k < 1 at hk; omega
      rfl⟩⟩
  obtain ⟨M, e, epochs, h1, h2⟩ := C80_abort E rnd [.full 1] [['a']] ⟨1, 1, 1⟩ (by decide) ⟨⟨by decide, by decide⟩, trivial⟩ (Or.inl rfl) 1 (by simp)
    ⟨0, 2, 2, 1⟩ 2 2 rfl rfl (by decide) (by decide) (by decide) (by decide) 2 (by decide) (by decide)
    [[⟨⟨dimN 1 1 1, [0]⟩, ['a']⟩, ⟨⟨dimN 1 1 1, [0]⟩, ['a']⟩]] rfl _ rfl (by simp) (by
      intro x hx'
      simp only [List.mem_cons, List.not_mem_nil, or_false, or_self] at hx'
      rw [hx']
      exact hx)
  have hmem : ∀ e ∈ epochs, e.2 = [⟨⟨dimN 1 1 1, [0]⟩, ['a']⟩, ⟨⟨dimN 1 1 1, [0]⟩, ['a']⟩] := by
    intro e he
    have : e.2 ∈ epochs.map Prod.snd := List.mem_map.2 ⟨e, he, rfl⟩
    rw [h1] at this
    exact List.mem_singleton.1 this
  obtain ⟨o, ho⟩ := h [.full 1] [['a']] ⟨1, 1, 1⟩ ⟨0, 2, 2, 1⟩ 2 2 2 M epochs (by decide) ⟨⟨by decide, by decide⟩, trivial⟩ (Or.inl rfl) rfl rfl (by decide)
    (by decide) (by decide) (by decide) (by decide) (by decide) e (by
      intro e he x hxe
      rw [hmem e he] at hxe
      simp only [List.mem_cons, List.not_mem_nil, or_false, or_self] at hxe
      rw [hxe]
      exact ⟨hx, by simp⟩) (by
      intro e he
      rw [hmem e (List.mem_of_mem_head? he)]
      exact le_refl 2)
  rw [h2] at ho
  cases ho

/-- C80 In particular main.cpp: on a machine with at least two cores, whatever the files contain, there is an order of the steps in which the
training of main.cpp:166-172 terminates the program. -/
theorem C80_program (H : Main.Host α) (rnd : Nat → Nat → Nat → α) (rate : α) (f g : Mnist.Content) (hs : Main.Suits H.lim H.cores f g) (hc : 2 ≤ H.cores) :
    ∃ G M sources scheds, Mnist.newGenerator H.big H.lim (some f.images) (some f.labels) = .ok G ∧ Main.network H.env.num H.env.draws = .ok M ∧
      Feed.Feeds (Main.source H.conv H.big H.lim) (Mnist.size G) sources G ∧ sources.length = 2 ∧
      Race.train H.env rnd (Main.hyper rate H.cores) (Mnist.size G) (List.zip scheds sources) M = .abort := by
  obtain ⟨G, M, l, e0, e1, hl, hR, e2, h3, h4, h5⟩ := Main.before_training H f g hs
  have hthr := Main.hyper_threads (rate := rate) hs.threads
  have ht1 : Main.threads H.cores < 2147483648 := by have := hs.threads; omega
  have hn := hs.enough
  have hfew := hs.few
  have hsz : Mnist.size G = f.n - 1 := by
    have := e2 1
    match l, h5, this with
    | x :: l, _, h => exact h.1.1
    | [], h5, _ => simp at h5; omega
  obtain ⟨M', e', epochs, k1, k2⟩ := C80_abort H.env rnd Main.kinds Main.labels Main.image (by decide) Main.kinds_work (Or.inl Main.kinds_out) 10 (by simp [Main.kinds])
    (Main.hyper rate H.cores) 32 (Main.threads H.cores) rfl hthr (by decide) (by decide) (by unfold Main.threads; omega) ht1 (f.n - 1) (by omega) (by omega) [l, l] rfl l rfl
    (by rw [h5]; omega) (fun x hx => (h4 x hx).1)
  rw [Main.network_eq, e'] at e1
  obtain rfl := Res.ok.inj e1
  refine ⟨G, M', [l, l], epochs.map Prod.fst, e0, by rw [Main.network_eq]; exact e', by rw [hsz]; exact e2 2, rfl, ?_⟩
  rw [hsz, ← k1, List.zip_map', List.map_id']
  exact k2

/-- C80 holds for one thread: cutting the calls makes no difference, … -/
theorem C80_one_thread (E : Env α) (rnd : Nat → Nat → Nat → α) (hd : rnd 0 = E.draws) (p : Hyper α) (hp : p.threads = 1) (size : Nat) (M : Model α)
    (fine : List (List (List Nat) × List (Sample α))) :
    ∃ epochs : List (List (List Nat) × List (Sample α)), epochs.map Prod.snd = fine.map Prod.snd ∧ Race.train E rnd p size fine M = Train.train E p size epochs M := by
  obtain ⟨bs, h1, h2⟩ := train_transfer (P := fun _ => True) (f := runBatch E rnd p) (g := Train.runBatch E p)
    (fun sh _ a => runBatch_one hd hp a) (fun _ _ _ _ _ => trivial) p size fine M trivial
  exact ⟨bs, h1, by rw [train_eq, train_eq', h2]⟩

/-- … and if all fully connected layers have been used before, with any number of threads. -/
theorem C80_used (E : Env α) (rnd : Nat → Nat → Nat → α) (p : Hyper α) (size : Nat) (M : Model α)
    (hM : ∀ l ∈ M.layers, ∀ L, l.body = .connected L → L.initialized = true) (fine : List (List (List Nat) × List (Sample α))) :
    ∃ epochs : List (List (List Nat) × List (Sample α)), epochs.map Prod.snd = fine.map Prod.snd ∧ Race.train E rnd p size fine M = Train.train E p size epochs M := by
  have hR : M.Ready := by
    intro l hl
    have := hM l hl
    cases hb : l.body with
    | connected L => exact this L hb
    | _ => trivial
  obtain ⟨bs, h1, h2⟩ := train_transfer (P := Model.Ready) (f := runBatch E rnd p) (g := Train.runBatch E p)
    (fun sh h a => runBatch_used h a) (fun sh a r h e => Sim.done h a r e) p size fine M (hR.setBatchSize _)
  exact ⟨bs, h1, by rw [train_eq, train_eq', h2]⟩

/-- C80 What can happen when calls are single steps can happen in this model too (all threads drawing the same numbers). -/
theorem C80_includes (E : Env α) (p : Hyper α) (size : Nat) (M : Model α) (epochs : List (List (List Nat) × List (Sample α))) :
    ∃ fine : List (List (List Nat) × List (Sample α)), fine.map Prod.snd = epochs.map Prod.snd ∧
      Race.train E (fun _ => E.draws) p size fine M = Train.train E p size epochs M := by
  obtain ⟨bs, h1, h2⟩ := train_transfer (P := fun _ => True) (f := Train.runBatch E p) (g := runBatch E (fun _ => E.draws) p)
    (fun sh _ a => runBatch_to (fun _ => rfl) a) (fun _ _ _ _ _ => trivial) p size epochs M trivial
  exact ⟨bs, h1, by rw [train_eq, train_eq', h2]⟩

/-- C80 for one thread or used layers: training does not fail, and the trained model can be used. What is missing is the first use by several
threads, where the property is false. -/
theorem C80_safe_partial (E : Env α) (rnd : Nat → Nat → Nat → α) (hE : E.order = .dimsFirst) (p : Hyper α) (B T : Nat) (hp : p.batch = B) (hq : p.threads = T)
    (h0 : 0 < B) (hB : B < 2 ^ 24) (hT0 : 0 < T) (hT : T < 2147483648) (size : Nat) (hs0 : 0 < size) (hsz : size < 2 ^ 24)
    (M : Model α) (s : Shape) (ks : List LayerKind) (hM : M.Runs s ks) (hk : KindsWork true s ks)
    (hone : (T = 1 ∧ rnd 0 = E.draws) ∨ ∀ l ∈ M.layers, ∀ L, l.body = .connected L → L.initialized = true)
    (fine : List (List (List Nat) × List (Sample α))) (hx : ∀ e ∈ fine, ∀ x ∈ e.2, x.Fits s M.labels) (hfull : ∀ e ∈ fine.head?, B ≤ e.2.length) :
    ∃ o, Race.train E rnd p size fine M = .ok o ∧ ∀ M', o = some M' → M'.Runs s ks ∧
      ∀ X : Matrix α, X.Has s → ∀ b < B, ∃ r M'', M'.forwardPropagation E X b = .ok (r, M'') ∧ r.labelIdx < M.labels.length := by
  have : ∃ epochs : List (List (List Nat) × List (Sample α)), epochs.map Prod.snd = fine.map Prod.snd ∧ Race.train E rnd p size fine M = Train.train E p size epochs M := by
    rcases hone with ⟨h1, hd⟩ | h1
    · exact C80_one_thread E rnd hd p (by rw [hq, h1]; rfl) size M fine
    · exact C80_used E rnd p size M h1 fine
  obtain ⟨epochs, h1, h2⟩ := this
  have hx' : ∀ e ∈ epochs, ∀ x ∈ e.2, x.Fits s M.labels := by
    intro e he x hxe
    have : e.2 ∈ fine.map Prod.snd := h1 ▸ List.mem_map.2 ⟨e, he, rfl⟩
    obtain ⟨e', he', h⟩ := List.mem_map.1 this
    exact hx e' he' x (h ▸ hxe)
  have hfull' : ∀ e ∈ epochs.head?, B ≤ e.2.length := by
    intro e he
    have h3 : e.2 ∈ (epochs.map Prod.snd).head? := by rw [List.head?_map]; exact Option.mem_map_of_mem _ he
    rw [h1, List.head?_map] at h3
    obtain ⟨e', he', h⟩ := Option.mem_map.1 h3
    rw [← h]
    exact hfull e' he'
  obtain ⟨o, ho⟩ := C70_train_partial E hE p B T hp hq h0 hB hT0 hT size hs0 hsz M s ks hM hk epochs hx' hfull'
  refine ⟨o, h2.trans ho, fun M' hM' => ?_⟩
  obtain ⟨a1, _, a3⟩ := C70_trained_partial E hE p B T hp hq h0 hB hT0 hT size hs0 hsz M s ks hM hk epochs hx' hfull' M' (hM' ▸ ho)
  refine ⟨a1, fun X hX b hb => ?_⟩
  obtain ⟨r, M'', h3, h4, _⟩ := a3 X hX b hb
  exact ⟨r, M'', h3, h4⟩

end

/-! Concrete cases: a network with one fully connected layer and two outputs, two threads, two samples. -/

/-- All weights drawn are 1; normalising divides by 1. -/
def onesEnv : Env Int := { toyEnv with draws := fun _ _ => 1 }

def smallNet : Res (Model Int) := buildModel onesEnv.num onesEnv.draws [.full 2] ["a".toList, "b".toList]

def smallTrain (threads : Int) (sched : List Nat) : Res (Option (Model Int)) := smallNet >>= fun M =>
  Race.train onesEnv (fun _ => onesEnv.draws) ⟨1, 2, threads, 1⟩ 2 [([sched], [toySample 1 2 "a", toySample 3 4 "b"])] M

/-- Both threads fetch a sample, the first marks the layer as initialised, the second compares the sizes. -/
example : smallTrain 2 [0, 1, 0, 0, 0, 1, 1, 1] = .abort := by rfl

/-- One after the other, and with one thread, training ends. -/
example : ∃ M, smallTrain 2 (List.replicate 24 0 ++ List.replicate 24 1) = .ok (some M) := ⟨_, rfl⟩
example : ∃ M, smallTrain 1 (List.replicate 48 0) = .ok (some M) := ⟨_, rfl⟩

/-- A schedule on which both threads are inside a call of the layer at the same time, the second after the layer was initialised. -/
example : ∃ M, smallTrain 2 ([0, 1] ++ List.replicate 9 0 ++ [1, 1, 0, 1, 1, 0] ++ List.replicate 12 1 ++ List.replicate 12 0) = .ok (some M) := ⟨_, rfl⟩

end Cnn.Race
