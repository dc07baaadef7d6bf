import Verif.Props.NotANumber
import Verif.Props.Overlap
import Verif.Props.Fair
/-!
# Property C97 with calls of layers that overlap in time
-/
namespace Cnn
open Model Train
variable {α : Type} [Zero α] [One α] [Add α] [Sub α] [Mul α] [Div α] [Neg α]

/-- C97 with calls that overlap in time: a parameter that is NaN stays NaN. -/
theorem C97_overlap_stay (E : Env α) (nan : α → Prop) (hnan : Absorbs E nan) (hE : E.order = .dimsFirst) (p : Hyper α) (B T : Nat) (hp : p.batch = B) (hq : p.threads = T)
    (h0 : 0 < B) (hB : B < 2 ^ 24) (hT0 : 0 < T) (hT : T < 2147483648) (size : Nat) (hs0 : 0 < size) (hsz : size < 2 ^ 24)
    (M : Model α) (s : Shape) (ks : List LayerKind) (hM : M.Runs s ks) (hk : KindsWork true s ks) (hu : M.Used)
    (epochs : List (List (List (Nat × Overlap.Act α)) × List (Sample α))) (hx : ∀ e ∈ epochs, ∀ x ∈ e.2, x.Fits s M.labels)
    (hfull : ∀ e ∈ epochs.head?, B ≤ e.2.length) (M' : Model α) (h : Overlap.train E p size epochs M = .ok (some M')) :
    ∀ i k, ks[i]? = some k → k.learns = true → ∃ W Bi W' Bi', M.params i = some (W, Bi) ∧ M'.params i = some (W', Bi') ∧
      W.StillNaN nan W' ∧ Bi.StillNaN nan Bi' := by
  obtain ⟨fs, f1, f2⟩ := Overlap.C76_overlap E p (by omega) size M hu epochs
  rw [f2] at h
  refine C97_stay E nan hnan hE p B T hp hq h0 hB hT0 hT size hs0 hsz M s ks hM hk hu fs ?_ ?_ M' h
  · intro e he x hxe
    have : e.2 ∈ epochs.map Prod.snd := f1 ▸ List.mem_map_of_mem he
    obtain ⟨e', he', hee⟩ := List.mem_map.1 this
    exact hx e' he' x (hee ▸ hxe)
  · intro e he
    have h2 : (fs.map Prod.snd).head? = some e.2 := by rw [List.head?_map, he]; rfl
    rw [f1, List.head?_map] at h2
    obtain ⟨e', he', hee⟩ := Option.map_eq_some_iff.1 h2
    rw [← hee]
    exact hfull e' he'

/-- C97 with calls that overlap in time: one sample that is answered with NaN in the first batch ruins the whole training. -/
theorem C97_overlap_train (E : Env α) (nan : α → Prop) (hnan : Absorbs E nan) (hE : E.order = .dimsFirst) (p : Hyper α) (B T : Nat) (hp : p.batch = B) (hq : p.threads = T)
    (h0 : 0 < B) (hB : B < 2 ^ 24) (hT0 : 0 < T) (hT : T < 2147483648) (size : Nat) (hs0 : 0 < size) (hsz : size < 2 ^ 24)
    (M : Model α) (s : Shape) (ks : List LayerKind) (hM : M.Runs s ks) (hk : KindsWork true s ks) (hu : M.Used)
    (epochs : List (List (List (Nat × Overlap.Act α)) × List (Sample α))) (hx : ∀ e ∈ epochs, ∀ x ∈ e.2, x.Fits s M.labels)
    (hfull : ∀ e ∈ epochs.head?, B ≤ e.2.length) (e : List (List (Nat × Overlap.Act α)) × List (Sample α)) (he : epochs.head? = some e)
    (x : Sample α) (hmem : x ∈ e.2.take B) (b : Nat) (hn : (M.setBatchSize B).AnswersNaN nan E x.data b)
    (M' : Model α) (h : Overlap.train E p size epochs M = .ok (some M')) :
    (∀ i k, ks[i]? = some k → k.learns = true → ∃ W Bi, M'.params i = some (W, Bi) ∧ Ruined nan (kindsOut (ks.take i) s) (ks.drop (i + 1)) W Bi k) ∧
    ∀ k, ks.getLast? = some k → k.learns = true → ∀ X : Matrix α, X.Has s → ∀ b < B, M'.Useless nan E X b := by
  obtain ⟨fs, f1, f2⟩ := Overlap.C76_overlap E p (by omega) size M hu epochs
  rw [f2] at h
  obtain ⟨f, hf, hfe⟩ : ∃ f, fs.head? = some f ∧ f.2 = e.2 := by
    have h2 : (fs.map Prod.snd).head? = some e.2 := by rw [f1, List.head?_map, he]; rfl
    rw [List.head?_map] at h2
    exact Option.map_eq_some_iff.1 h2
  refine C97_train E nan hnan hE p B T hp hq h0 hB hT0 hT size hs0 hsz M s ks hM hk hu fs ?_ ?_ f hf x (hfe ▸ hmem) b hn M' h
  · intro e he x hxe
    have : e.2 ∈ epochs.map Prod.snd := f1 ▸ List.mem_map_of_mem he
    obtain ⟨e', he', hee⟩ := List.mem_map.1 this
    exact hx e' he' x (hee ▸ hxe)
  · intro f' hf'
    obtain rfl : f' = f := Option.some.inj ((show fs.head? = some f' from hf').symm.trans hf)
    rw [hfe]
    exact hfull e he

/-- Two threads whose calls overlap train a network of finite parameters on one sample, and all answers are NaN afterwards. -/
example : ∃ (epoch : List (List (Nat × Overlap.Act Double)) × List (Sample Double)) (N : Model Double), epoch.2 = [roundSample] ∧
    Overlap.train doubleEnv ⟨1, 1, 2, 1⟩ 1 [epoch] (roundModel (bigDouble 900)) = .ok (some N) ∧
    ∀ X : Matrix Double, X.Has ⟨1, 1, 1⟩ → N.Useless (· = .nan) doubleEnv X 0 := by
  have hx : ∀ x ∈ [roundSample], x.Fits ⟨1, 1, 1⟩ (roundModel (bigDouble 900)).labels := by simpa using roundSample_fits _
  have hf : FairActs 2 18 ((List.replicate 18 [((1 : Nat), (.next : Overlap.Act Double)), (0, .look), (0, .next)]).flatten) := by
    intro t ht
    obtain rfl | rfl : t = 0 ∨ t = 1 := by omega
    · simp [List.replicate_succ]
    · simp [List.replicate_succ]
  obtain ⟨N, h, _⟩ := C94_overlap_trains doubleEnv rfl ⟨1, 1, 2, 1⟩ 1 2 rfl rfl (by decide) (by decide) (by decide) (by decide) 1
    (by decide) (by decide) (roundModel (bigDouble 900)) (roundModel_used _) ⟨1, 1, 1⟩ [.full 2] (roundModel_runs _) roundKinds_work
    [([(List.replicate 18 [(1, .next), (0, .look), (0, .next)]).flatten], [roundSample])] (by simpa using hx) (by simp) rfl (by simp) (by
      intro e he sched hs
      obtain rfl := List.mem_singleton.1 he
      obtain rfl := List.mem_singleton.1 hs
      exact hf)
  exact ⟨_, N, rfl, h, fun X hX => (C97_overlap_train doubleEnv _ C97_double rfl ⟨1, 1, 2, 1⟩ 1 2 rfl rfl (by decide) (by decide) (by decide) (by decide) 1
    (by decide) (by decide) (roundModel (bigDouble 900)) ⟨1, 1, 1⟩ [.full 2] (roundModel_runs _) roundKinds_work (roundModel_used _) _ (by simpa using hx)
    (by simp) _ rfl roundSample (by simp) 0 roundModel_overflows N h).2 (.full 2) rfl rfl X hX 0 (by decide)⟩

end Cnn
