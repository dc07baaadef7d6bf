import Verif.Model.FirstUse
import Verif.Lemmas.Connected
/-!
# C56: concurrent first use of a fully connected layer
-/
namespace Cnn.FirstUse
variable {α : Type} {n m X Y Z : Nat} [Zero α] [Add α] [Mul α] [Div α]

/-- C56 as stated: `n` outputs, inputs with `m` entries each. -/
def C56_claim (N : Num α) : Prop :=
  ∀ (n : Nat) (L : Connected α) (calls : List (Input α × (Nat → α))) (m : Nat) (sched : List Nat), 0 < n →
    Connected.new n = .ok L → n * m < 2147483648 → (∀ c ∈ calls, c.1.count = m) →
    ∃ w, ∃ β : Nat → α, ∀ (t : Nat) c r, calls[t]? = some c →
      ((start L (calls.map fun c => (c.1.mat, c.2))).run N sched).result t = some r →
      ∃ out, r = .ok out ∧ out.Shows n 1 1 (fun i _ _ => affine w β m (flatOf c.1.X c.1.Y c.1.entry) i)

/-- A call that is not interrupted does what the sequential model `Connected.forward` says. -/
theorem C56_alone (N : Num α) (L : Connected α) (M out : Matrix α) (draws : Nat → α)
    (h : (L.forward N draws M).1 = .ok out) :
    let s := (start L [(M, draws)]).run N (List.replicate 11 0)
    s.result 0 = some (.ok out) ∧ s.layer = (L.forward N draws M).2 := by
  unfold Connected.forward Connected.checkSize at h ⊢
  cases he : L.expected M with
  | throw x => simp [he] at h
  | ub => simp [he] at h
  | abort => simp [he] at h
  | ok e =>
    cases hi : L.initialized with
    | true =>
      by_cases hd : L.weights.dim = e
      · simp [he, hi, hd] at h
        simp [State.run, List.replicate, State.step, step, next, start, State.result, he, hi, hd, h]
      · simp [he, hi, hd] at h
    | false =>
      cases hw : L.initWeights N draws e with
      | throw x => simp [he, hi, hw] at h
      | ub => simp [he, hi, hw] at h
      | abort => simp [he, hi, hw] at h
      | ok r =>
        obtain ⟨W, B⟩ := r
        simp [he, hi, hw] at h
        have hw0 := hw
        unfold Connected.initWeights initParams at hw
        obtain ⟨W0, e0, hw⟩ := Res.bind_eq_ok hw
        obtain ⟨W1, e1, hw⟩ := Res.bind_eq_ok hw
        obtain ⟨B1, e2, hw⟩ := Res.bind_eq_ok hw
        obtain ⟨W2, e3, hw⟩ := Res.bind_eq_ok hw
        obtain ⟨B2, e4, hw⟩ := Res.bind_eq_ok hw
        simp only [Res.ok.injEq, Prod.mk.injEq] at hw
        obtain ⟨rfl, rfl⟩ := hw
        simp [State.run, List.replicate, State.step, step, next, start, State.result, he, hi, e0, e1, e2, e3, e4, h, hw0]

/-- What every thread knows in a layer that has fixed its size. -/
def Calm (n m : Nat) (w : Nat → Nat → α) (β : Nat → α) (i : Input α) (th : Thread α) : Prop :=
  th.input = i.mat ∧
    match th.pc with
    | .size => True
    | .test e => e = dimN n i.count 1
    | .compare e => e = dimN n i.count 1
    | .compute => i.count = m
    | .done r => if i.count = m then ∃ out, r = .ok out ∧ out.Shows n 1 1 (fun p _ _ => affine w β m (flatOf i.X i.Y i.entry) p)
        else r = .throw .modelLayer
    | _ => False

theorem Calm.step {L : Connected α} {w : Nat → Nat → α} {β : Nat → α} {i : Input α} {th : Thread α} (N : Num α)
    (hL : L.Is n m w β) (h : Calm n m w β i th) :
    (FirstUse.step N L th).2 = L ∧ Calm n m w β i { th with pc := (FirstUse.step N L th).1 } := by
  obtain ⟨pc, M, draws⟩ := th
  obtain ⟨hin, hpc⟩ := h
  simp only at hin
  subst hin
  have hexp := Connected.expected_eq hL.biases i.shows'
  cases pc <;> simp only at hpc <;>
    simp only [FirstUse.step, hexp, next, hL.initialized, if_true, Calm, true_and, hL.weights.dim]
  case size => rfl
  case test => exact hpc
  case compare e =>
    subst hpc
    by_cases hc : i.count = m
    · rw [if_pos (by simp [hc])]; exact hc
    · rw [if_neg]
      · simp [hc]
      · intro hh
        simp only [dimN, Dim3.mk.injEq, Int.natCast_inj] at hh
        exact hc hh.2.1.symm
  case compute =>
    subst hpc
    simp only [if_true]
    exact Connected.compute_shows hL i.shows'
  case done r => exact hpc

/-- C56 for a layer whose size is fixed (loaded, or used once before the threads start): in every interleaving of any
number of calls the layer stays as it is, calls with the right number of entries return `w·v + β`, all with the same
weights, and the others throw `ModelLayerException`. Missing: the first use itself. -/
theorem C56_initialised_partial (N : Num α) (L : Connected α) (w : Nat → Nat → α) (β : Nat → α) (hL : L.Is n m w β)
    (calls : List (Input α × (Nat → α))) (sched : List Nat) :
    let s := (start L (calls.map fun c => (c.1.mat, c.2))).run N sched
    s.layer = L ∧ ∀ (t : Nat) c r, calls[t]? = some c → s.result t = some r →
      if c.1.count = m then
        ∃ out, r = .ok out ∧ out.Shows n 1 1 (fun i _ _ => affine w β m (flatOf c.1.X c.1.Y c.1.entry) i)
      else r = .throw .modelLayer := by
  have key : ∀ (sched : List Nat) (s : State α), s.layer = L →
      (∀ (t : Nat) c, calls[t]? = some c → ∃ th, s.threads[t]? = some th ∧ Calm n m w β c.1 th) →
      s.threads.length = calls.length →
      (s.run N sched).layer = L ∧
      (∀ (t : Nat) c, calls[t]? = some c → ∃ th, (s.run N sched).threads[t]? = some th ∧ Calm n m w β c.1 th) := by
    intro sched
    induction sched with
    | nil => intro s h1 h2 _; exact ⟨h1, h2⟩
    | cons a l ih =>
      intro s h1 h2 hlen
      have hrun : s.run N (a :: l) = (s.step N a).run N l := rfl
      rw [hrun]
      cases hth : s.threads[a]? with
      | none =>
        have hs : s.step N a = s := by unfold State.step; rw [hth]
        rw [hs]
        exact ih s h1 h2 hlen
      | some th =>
        have hs : s.step N a = ⟨(FirstUse.step N L th).2, s.threads.set a { th with pc := (FirstUse.step N L th).1 }⟩ := by
          unfold State.step; rw [hth, h1]
        rw [hs]
        have ha : a < calls.length := by
          rw [← hlen]; exact (List.getElem?_eq_some_iff.mp hth).1
        obtain ⟨th', e', hc⟩ := h2 a _ (List.getElem?_eq_getElem ha)
        obtain rfl : th = th' := by rw [hth] at e'; exact Option.some.inj e'
        obtain ⟨k1, k2⟩ := hc.step N hL
        refine ih _ k1 ?_ (by simp [hlen])
        intro t c hcall
        by_cases hta : t = a
        · subst hta
          refine ⟨_, by rw [List.getElem?_set_self (by omega)], ?_⟩
          rw [List.getElem?_eq_getElem ha] at hcall
          obtain rfl := Option.some.inj hcall
          exact k2
        · obtain ⟨th₂, e2, c2⟩ := h2 t c hcall
          exact ⟨th₂, by rw [List.getElem?_set_ne (Ne.symm hta)]; exact e2, c2⟩
  intro s
  obtain ⟨k1, k2⟩ := key sched (start L (calls.map fun c => (c.1.mat, c.2))) rfl (by
    intro t c hc
    refine ⟨⟨.size, c.1.mat, c.2⟩, ?_, rfl, trivial⟩
    simp [start, hc]) (by simp [start])
  refine ⟨k1, ?_⟩
  intro t c r hc hr
  obtain ⟨th, e, _, hpc⟩ := k2 t c hc
  have hs : s.threads[t]? = some th := e
  unfold State.result at hr
  rw [hs] at hr
  obtain ⟨pc, M, d⟩ := th
  cases pc <;> simp at hr
  subst hr
  exact hpc

/-- C56 is violated, always in the same way: whatever the size of the layer, its inputs and the random numbers, if the
first thread is interrupted right after it set `initialized_`, the second call throws `ModelLayerException` (which in a
worker thread ends the program). -/
theorem C56_throws (N : Num α) (L : Connected α) (hn : 0 < n) (hn' : n < 2147483648) (hL : Connected.new n = .ok L) (i j : Input α)
    (d₁ d₂ : Nat → α) :
    ((start L [(i.mat, d₁), (j.mat, d₂)]).run N [0, 0, 0, 1, 1, 1]).result 1 = some (.throw .modelLayer) := by
  obtain ⟨B, eB, sB⟩ := Matrix.ofDim_shows (X := n) (Y := 1) (Z := 1) ⟨hn, by decide, by decide, by omega⟩ (0 : α)
  have hnew : L.initialized = false ∧ L.biases = B ∧ L.weights.dim = 0 := by
    unfold Connected.new at hL
    obtain ⟨W, e1, hL⟩ := Res.bind_eq_ok hL
    rw [wrap32_nat hn'] at hL
    have : (⟨((n : Nat) : Int), 1, 1⟩ : Dim3) = dimN n 1 1 := rfl
    rw [this, eB, Res.bind_ok] at hL
    obtain rfl := Res.ok.inj hL
    refine ⟨rfl, rfl, ?_⟩
    unfold Matrix.ofDim at e1
    obtain ⟨k, _, e1⟩ := Res.bind_eq_ok e1
    obtain rfl := Res.ok.inj e1
    rfl
  obtain ⟨h1, h2, h3⟩ := hnew
  have e1 : L.expected i.mat = .ok (dimN n i.count 1) := Connected.expected_eq (h2 ▸ sB) i.shows'
  have e2 : ({ L with initialized := true } : Connected α).expected j.mat = .ok (dimN n j.count 1) :=
    Connected.expected_eq (L := { L with initialized := true }) (h2 ▸ sB) j.shows'
  have hne : ¬ ((0 : Dim3) = dimN n j.count 1) := by
    intro h
    have : (0 : Int) = (n : Int) := congrArg Dim3.x h
    omega
  simp [State.run, State.step, step, next, start, State.result, e1, e2, h1, h3, hne]

/-- Hence the claim fails for every arithmetic. -/
theorem C56_violated (N : Num α) : ¬ C56_claim N := by
  intro h
  obtain ⟨W, eW⟩ : ∃ L : Connected α, Connected.new 1 = .ok L := ⟨_, rfl⟩
  let i : Input α := ⟨1, 1, 1, fun _ _ _ => 0, ⟨dimN 1 1 1, [0]⟩, ⟨by decide, by decide, by decide, by decide⟩, rfl, rfl, by
    intro i hi j hj k hk
    obtain rfl : i = 0 := by omega
    obtain rfl : j = 0 := by omega
    obtain rfl : k = 0 := by omega
    rfl⟩
  obtain ⟨w, β, hh⟩ := h 1 W [(i, fun _ => 0), (i, fun _ => 0)] 1 [0, 0, 0, 1, 1, 1] (by decide) eW (by decide)
    (by intro c hc; simp at hc; rw [hc]; rfl)
  obtain ⟨out, ho, _⟩ := hh 1 _ _ rfl (C56_throws N W (by decide) (by decide) eW i i _ _)
  exact absurd ho (by simp)

/-- The other way to go wrong, without an exception: two threads both see a fresh layer (one output, one input), the
first finishes with its own weight 1 and returns 3, then the second starts over, so that the layer ends with weight -1 and
the second call returns -3 for the same input. -/
def intN : Num Int := ⟨id, id, id, id, fun n => n, fun a b => decide (a < b), 0, 0, 0⟩

def freshOne : Connected Int := ⟨⟨0, []⟩, ⟨dimN 1 1 1, [0]⟩, 0, false, [], []⟩

example : Connected.new 1 = .ok freshOne := by decide

def twoFirst : State Int := (start freshOne [(⟨dimN 1 1 1, [2]⟩, fun _ => 1), (⟨dimN 1 1 1, [2]⟩, fun _ => -1)]).run intN
  ([0, 0, 1, 1] ++ List.replicate 8 0 ++ List.replicate 8 1)

theorem C56_two_weights :
    twoFirst.result 0 = some (.ok ⟨dimN 1 1 1, [3]⟩) ∧ twoFirst.result 1 = some (.ok ⟨dimN 1 1 1, [-3]⟩) ∧
      twoFirst.layer.weights = ⟨dimN 1 1 1, [-1]⟩ := by decide

/-- Non-vacuity of `C56_alone` and `C56_initialised_partial`. -/
example : ((start freshOne [(⟨dimN 1 1 1, [2]⟩, fun _ => 1)]).run intN (List.replicate 11 0)).result 0 =
    some (.ok ⟨dimN 1 1 1, [3]⟩) := by decide

example : (⟨⟨dimN 1 1 1, [2]⟩, ⟨dimN 1 1 1, [5]⟩, 0, true, [], []⟩ : Connected Int).Is 1 1 (fun _ _ => 2) (fun _ => 5) :=
  ⟨⟨⟨by decide, by decide, by decide, by decide⟩, rfl, rfl, by decide⟩,
    ⟨⟨by decide, by decide, by decide, by decide⟩, rfl, rfl, by decide⟩, rfl⟩

end Cnn.FirstUse
