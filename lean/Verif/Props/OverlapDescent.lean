import Verif.Props.Overlap
import Verif.Props.Accuracy
import Verif.Props.Stale
import Verif.Props.Surrogate
import Verif.Props.TrainUpdate
/-!
# Properties C53, C68, C79, C82 and C83 with layer calls that overlap in time

For models whose fully connected layers have been used before a call of a layer need not be one step of a thread (Model/Overlap.lean).
-/
namespace Cnn
namespace Overlap
open Train Model

theorem ready_of_prepared {α : Type} {M : Model α} {n : Nat} (h : M.Prepared n) : M.Ready := by
  intro l hl
  have := h l hl
  cases hb : l.body with
  | connected L => rw [hb] at this; exact this.1
  | _ => trivial

theorem denotesAll_used {b : Nat} {first : Bool} {s : Shape} {Bs : List (Body ℝ)} {ls : List NetLayer} (h : DenotesAll b first s Bs ls) :
    ∀ L, Body.connected L ∈ Bs → L.initialized = true := by
  induction Bs generalizing first s ls with
  | nil => intro L hL; cases hL
  | cons B Bs ih =>
    cases ls with
    | nil => exact h.elim
    | cons l ls =>
      intro L hL
      rcases List.mem_cons.1 hL with rfl | hL
      · have := h.1
        cases l with
        | full n w β => exact this.1.initialized
        | _ => exact this.elim
      · exact ih h.2 L hL

theorem denotes_used {M : Model ℝ} {b : Nat} {s : Shape} {ls : List NetLayer} {n : Nat} (h : M.Denotes b s ls n) :
    ∀ l ∈ M.layers, ∀ L, l.body = .connected L → L.initialized = true := by
  intro l hl L hL
  obtain ⟨Bs, S, h1, h2, _⟩ := h.layers
  have : l.body ∈ Bs ++ [.softmax S] := h1 ▸ List.mem_map.2 ⟨l, hl, rfl⟩
  rw [hL] at this
  rcases List.mem_append.1 this with hm | hm
  · exact denotesAll_used h2 L hm
  · exact absurd (List.mem_singleton.1 hm) (by intro h; cases h)

theorem same_sources {α β γ δ : Type} {R : β → γ → Prop} {xs : List (α × β)} {ys : List (δ × β)} {es : List γ}
    (h : ys.map Prod.snd = xs.map Prod.snd) (hx : List.Forall₂ (fun e es => R e.2 es) xs es) : List.Forall₂ (fun e es => R e.2 es) ys es := by
  have h1 : List.Forall₂ R (xs.map Prod.snd) es := List.forall₂_map_left_iff.2 hx
  rw [← h] at h1
  exact List.forall₂_map_left_iff.1 h1

/-- C53 with overlapping calls: after a full batch each sample has entered the update once, with its own label or with the label of another sample of the batch. -/
theorem C53_overlap_partial {α : Type} [Field α] (E : Env α) (p : Hyper α) (B T : Nat) (hp : p.batch = B) (hq : p.threads = T) (hB : B < 2 ^ 24)
    (sh : Shared α) (hM : sh.model.Prepared B) (hfull : B ≤ sh.source.length)
    (hal : ∀ x ∈ sh.source.take B, ∀ y ∈ sh.source.take B, ∃ m, alone E sh.model ⟨x.data, y.label⟩ = .ok m)
    (sched : List (Nat × Act α)) (q : Shared α × List (Event α)) (h : runBatch E p sched sh = .ok (some q)) :
    ∃ used : List (Sample α), used.map (·.data) = (sh.source.take B).map (·.data) ∧
      (∀ u ∈ used, ∃ y ∈ sh.source.take B, u.label = y.label) ∧
      ∀ (i : Nat) (W Bi : Matrix α) (X Y Z F : Nat) (w : Nat → Nat → Nat → α) (β : Nat → α), sh.model.params i = some (W, Bi) →
        W.Shows X Y Z w → Bi.Shows F 1 1 (fun f _ _ => β f) →
        ∃ (g : Sample α → Nat → Nat → Nat → α) (c : Sample α → Nat → α),
          (∀ u ∈ used, ∃ G H, ownGrads E sh.model u i = some (G, H) ∧ G.Reads X Y Z (g u) ∧ H.Reads F 1 1 (fun f _ _ => c u f)) ∧
          ∃ W' B', q.1.model.params i = some (W', B') ∧
            W'.Shows X Y Z (fun a b d => w a b d - p.rate * ((used.map (g · a b d)).sum / E.num.ofNat B)) ∧
            B'.Shows F 1 1 (fun f _ _ => β f - p.rate * ((used.map (c · f)).sum / E.num.ofNat B)) := by
  obtain ⟨coarse, hc⟩ := (runBatch_from (E := E) hp hq (by omega) (ready_of_prepared hM)).1 sched
  exact C53_any_labels_partial E p B T hp hq hB sh hM hfull hal coarse q (hc ▸ h)

/-- C79 with overlapping calls: the samples counted in a batch are those of the batch which the model classifies correctly. -/
theorem C79_overlap_partial {α : Type} [Zero α] [One α] [Add α] [Sub α] [Mul α] [Div α] [Neg α] (E : Env α) (hE : E.order = .dimsFirst) (p : Hyper α) (B T : Nat)
    (hp : p.batch = B) (hq : p.threads = T) (h0 : 0 < B) (hB : B < 2 ^ 24) (hT0 : 0 < T) (hT : T < 2147483648) (M : Model α) (s : Shape)
    (ks : List LayerKind) (hM : M.Runs s ks) (hM0 : ∀ l ∈ M.layers, ∀ L, l.body = .connected L → L.initialized = true) (hk : KindsWork true s ks)
    (hs : M.Sized B) (source : List (Sample α)) (hx : ∀ x ∈ source, x.Fits s M.labels) (hfull : B ≤ source.length) (sched : List (Nat × Act α)) (n : Nat)
    (sh : Shared α) (evs : List (Event α)) (h : runBatch E p sched ⟨M, source, n⟩ = .ok (some (sh, evs))) :
    sh.hits = n + M.score E (source.take B) := by
  have hR : M.Ready := by
    intro l hl
    have := hM0 l hl
    cases hb : l.body with
    | connected L => exact this L hb
    | _ => trivial
  obtain ⟨coarse, hc⟩ := (runBatch_from (E := E) (sh := ⟨M, source, n⟩) hp hq (by omega) hR).1 sched
  exact C79_batch_partial E hE p B T hp hq h0 hB hT0 hT M s ks hM hk hs source hx hfull coarse n sh evs (hc ▸ h)

/-- C68 with overlapping calls, for all numbers of threads and all schedules. -/
theorem C68_overlap_partial (E : Env ℝ) (hE : E.Exact) (p : Hyper ℝ) (B T k : Nat) (hp : p.batch = B) (hq : p.threads = T)
    (h0 : 0 < B) (hB : B < 2 ^ 24) (hT0 : 0 < T) (hT : T < 2147483648) (hsz : B * k < 2 ^ 24) (M : Model ℝ) (b : Nat) (s : Shape)
    (ls : List NetLayer) (n : Nat) (hD : M.Denotes b s ls n) (hfit : NetFits ls s) (htr : NetTrains true ls s)
    (dss : List (List (List (Tensor × Nat)))) (hk : ∀ ds ∈ dss, ds.length = k)
    (hsm : ∀ ds', List.Forall₂ Relabels dss.flatten ds' → SmoothAlong p.rate s n ds' ls)
    (fine : List (List (List (Nat × Act ℝ)) × List (Sample ℝ))) (he : List.Forall₂ (fun e ds => Serves M.labels s B e.2 ds) fine dss) :
    (∃ o, train E p (B * k) fine M = .ok o) ∧
    ∀ M', train E p (B * k) fine M = .ok (some M') →
      ∃ ds', List.Forall₂ Relabels dss.flatten ds' ∧ M'.Denotes 0 s (descents p.rate s n ds' ls) n := by
  obtain ⟨epochs, h1, h2⟩ := C76_overlap E p (by omega) (B * k) M (denotes_used hD) fine
  rw [h2]
  exact C68_train_partial E hE p B T k hp hq h0 hB hT0 hT hsz M b s ls n hD hfit htr dss hk hsm epochs (same_sources (R := fun e ds => Serves M.labels s B e ds) h1 he)

/-- C82 with overlapping calls. -/
theorem C82_overlap_partial (E : Env ℝ) (hE : E.Exact) (p : Hyper ℝ) (B T size : Nat) (hp : p.batch = B) (hq : p.threads = T)
    (h0 : 0 < B) (hT0 : 0 < T) (hT : T < 2147483648) (hBs : B ≤ size) (hsz : size < 2 ^ 24) (M : Model ℝ) (b : Nat) (s : Shape)
    (ls : List NetLayer) (n : Nat) (hD : M.Denotes b s ls n) (hfit : NetFits ls s) (htr : NetTrains true ls s)
    (ess : List (List (Tensor × Nat))) (hk : ∀ es ∈ ess, es.length = size)
    (hsm : StaleSmoothAll p.rate s n (ess.flatMap (batchesOf B)) [] ls) (fine : List (List (List (Nat × Act ℝ)) × List (Sample ℝ)))
    (he : List.Forall₂ (fun e es => List.Forall₂ (Sample.Is M.labels s) e.2 es) fine ess) :
    (∃ o, train E p size fine M = .ok o) ∧
    ∀ M', train E p size fine M = .ok (some M') →
      ∃ out, StaleLeads itself p.rate s n (ess.flatMap (batchesOf B)) [] ls out ∧ M'.Denotes 0 s out n := by
  obtain ⟨epochs, h1, h2⟩ := C76_overlap E p (by omega) size M (denotes_used hD) fine
  rw [h2]
  exact C82_threads_partial E hE p B T size hp hq h0 hT0 hT hBs hsz M b s ls n hD hfit htr ess hk hsm epochs
    (same_sources (R := fun e es => List.Forall₂ (Sample.Is M.labels s) e es) h1 he)

/-- C83 with overlapping calls: no condition on activations, kinks or ties; the second part says that there are completed runs. -/
theorem C83_overlap_partial (E : Env ℝ) (hE : E.Exact) (p : Hyper ℝ) (B T size : Nat) (hp : p.batch = B) (hq : p.threads = T)
    (h0 : 0 < B) (hT0 : 0 < T) (hT : T < 2147483648) (hBs : B ≤ size) (hsz : size < 2 ^ 24) (M : Model ℝ) (b : Nat) (s : Shape)
    (ls : List NetLayer) (n : Nat) (hD : M.Denotes b s ls n) (hfit : NetFits ls s) (htr : NetTrains true ls s)
    (ess : List (List (Tensor × Nat))) (hk : ∀ es ∈ ess, es.length = size) :
    (∀ fine : List (List (List (Nat × Act ℝ)) × List (Sample ℝ)),
      List.Forall₂ (fun e es => List.Forall₂ (Sample.Is M.labels s) e.2 es) fine ess →
      (∃ o, train E p size fine M = .ok o) ∧
      ∀ M', train E p size fine M = .ok (some M') →
        ∃ out, StaleLeads (fun ls x => netSurrogate ls s x) p.rate s n (ess.flatMap (batchesOf B)) [] ls out ∧ M'.Denotes 0 s out n) ∧
    (ess.length = p.epochs.toNat → ∀ srcs : List (List (Sample ℝ)), List.Forall₂ (List.Forall₂ (Sample.Is M.labels s)) srcs ess →
      ∃ fine M', fine.map Prod.snd = srcs ∧ train E p size fine M = .ok (some M')) := by
  obtain ⟨a1, a2⟩ := C83_threads_partial E hE p B T size hp hq h0 hT0 hT hBs hsz M b s ls n hD hfit htr ess hk
  constructor
  · intro fine he
    obtain ⟨epochs, h1, h2⟩ := C76_overlap E p (by omega) size M (denotes_used hD) fine
    rw [h2]
    exact a1 epochs (same_sources (R := fun e es => List.Forall₂ (Sample.Is M.labels s) e es) h1 he)
  · intro hep srcs hsrc
    obtain ⟨epochs, M', h1, h2⟩ := a2 hep srcs hsrc
    obtain ⟨fine, h3, h4⟩ := C76_sequential E p (by omega) size M (denotes_used hD) epochs
    exact ⟨fine, M', h3.trans h1, h4.trans h2⟩

/-- The network of C83 with a sigmoid layer, trained by two threads with overlapping calls. -/
example : ∃ fine M', train exactEnv ⟨1, 2, 2, 1⟩ 3 fine sigmoidModel = .ok (some M') := by
  obtain ⟨_, h2⟩ := C83_overlap_partial exactEnv ⟨rfl, rfl, rfl⟩ ⟨1, 2, 2, 1⟩ 2 2 3 rfl rfl (by omega) (by omega) (by omega) (by omega) (by omega)
    sigmoidModel 0 ⟨1, 1, 1⟩ _ 2 sigmoidModel_denotes sigmoidNet_fits sigmoidNet_trains [Train.shortData] (by simp [Train.shortData])
  obtain ⟨fine, M', _, h4⟩ := h2 rfl [Train.shortSource] (.cons Train.shortSource_is .nil)
  exact ⟨fine, M', h4⟩

end Overlap
end Cnn
