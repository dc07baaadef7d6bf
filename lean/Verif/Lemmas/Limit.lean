import Verif.Lemmas.Family
import Verif.Lemmas.Shows
/-!
# Training in arithmetics of growing precision
-/
set_option linter.unusedSectionVars false
namespace Cnn
open Res Filter Topology

/-! ## Comparisons -/

section
variable {α β : Type} [Zero α] [One α] [Add α] [Sub α] [Mul α] [Div α] [Neg α] [Zero β] [One β] [Add β] [Sub β] [Mul β] [Div β] [Neg β]
variable {E : Env α} {val : α → ℝ} {E' : Env β} {φ : α → β}

theorem bestElem_alike {X : Matrix α} (h : ∀ a ∈ X.vals, ∀ b ∈ X.vals, Alike E E' φ a b) :
    MExpr.bestElem (fun a b => E'.num.lt a b) (X.map φ).expr = MExpr.bestElem (fun a b => E.num.lt a b) X.expr := by
  rw [Matrix.expr_map]
  exact MExpr.bestElem_map fun it it' a b ha hb => h a (Matrix.mem_of_flat ha) b (Matrix.mem_of_flat hb)

theorem max_alike {X : Matrix α} (h : ∀ a ∈ X.vals, ∀ b ∈ X.vals, Alike E E' φ a b) :
    MExpr.max E'.num.lt (X.map φ).expr = φ <$> MExpr.max E.num.lt X.expr := by
  unfold MExpr.max
  rw [bestElem_alike h, map_res_bind]
  exact bind_congr' rfl fun it => by rw [Matrix.expr_map]; rfl

theorem endOk_alike {X : Matrix α} (h : ∀ a ∈ X.vals, ∀ b ∈ X.vals, Alike E E' φ a b) : Train.EndOk E E' φ X := by
  intro i c hi hc
  refine ⟨i, φ c, ?_, ?_⟩
  · unfold MExpr.maxIndexFlat at hi ⊢
    rw [bestElem_alike h]
    exact hi
  · rw [Matrix.flat_map, hc]; rfl

theorem fwd_alike (h : Hom E val E' φ) {X : Matrix α} (h1 : ∀ a ∈ X.vals, ∀ b ∈ X.vals, Alike E E' φ a b)
    (h2 : ∀ a ∈ X.vals, Alike E E' φ 0 a) (h3 : ∀ a ∈ X.vals, Alike E E' φ (E.num.slopeF * a) a) (b : Body α) : b.FwdAlike E E' φ X := by
  cases b with
  | pooling P => exact fun _ => h1
  | activation A => exact fun a ha => h.eval_map A.fn a (fun _ => h2 a ha) (fun _ => h3 a ha)
  | softmax S => exact max_alike h1
  | _ => trivial

theorem bwd_alike (h : Hom E val E' φ) {Z : Matrix α} (h2 : ∀ a ∈ Z.vals, Alike E E' φ 0 a) (b : Body α) : b.BwdAlike E E' φ Z := by
  cases b with
  | activation A => exact fun a ha => h.grad_map A.gradFn a (fun _ => h2 a ha)
  | _ => trivial

end

theorem eventually_list {ι σ : Type} {U : Filter ι} (l : List σ) {p : ι → σ → Prop} (h : ∀ a, ∀ᶠ k in U, p k a) : ∀ᶠ k in U, ∀ a ∈ l, p k a := by
  induction l with
  | nil => exact .of_forall fun k a ha => by simp at ha
  | cons a l ih =>
    filter_upwards [h a, ih] with k h1 h2 b hb
    rcases List.mem_cons.1 hb with rfl | hb
    · exact h1
    · exact h2 b hb

namespace Family
variable {F : Family}
open Family.Lim

/-- Every step of a thread can be followed by most arithmetics. -/
theorem step_ok (M : Model F.Lim) (pc : Train.Pc F.Lim) : ∀ᶠ k in F.U, Train.StepOk True (env F) (F.arith k).env (at' k) M pc := by
  cases pc with
  | forward s x i q =>
    filter_upwards [eventually_list q.1.vals fun a => eventually_list q.1.vals fun b => alike a b, eventually_list q.1.vals fun a => alike 0 a,
      eventually_list q.1.vals fun a => alike ((env F).num.slopeF * a) a] with k h1 h2 h3
    exact ⟨fun l _ => fwd_alike (hom k) h1 h2 h3 _, fun _ _ => endOk_alike h1⟩
  | backward s x r n G =>
    cases n with
    | zero => exact .of_forall fun k => trivial
    | succ i =>
      cases hZ : r.inputs[i + 1]? with
      | none =>
        refine .of_forall fun k Z Z' l hZ' => ?_
        rw [hZ] at hZ'
        cases hZ'
      | some Z =>
        cases hZ' : Matrix.ofExpr id Z.expr with
        | ok Z' =>
          filter_upwards [eventually_list Z'.vals fun a => alike 0 a] with k h2
          intro Z1 Z2 l h3 h4 _
          rw [hZ] at h3
          cases h3
          rw [hZ'] at h4
          cases h4
          exact bwd_alike (hom k) h2 _
        | _ =>
          refine .of_forall fun k Z1 Z2 l h3 h4 => ?_
          rw [hZ] at h3
          cases h3
          rw [hZ'] at h4
          cases h4
  | _ => exact .of_forall fun k => trivial

theorem steady_sane {α : Type} [Zero α] [One α] [Add α] [Sub α] [Mul α] [Div α] [Neg α] {D : Nat → Prop} : Steady fun i (b : Body α) => b.Sane (D i) := fun _ _ _ h hl => Body.Like.sane hl h

theorem follow (F : Family) : Train.Follow True (env F) (val (F := F)) F.U (fun k => (F.arith k).env) (fun k => at' k)
    (fun i b => b.Sane (∀ n, F.draw i n ≠ 0)) where
  hom := hom
  steady := steady_sane
  sane i b h := by
    have : ∀ n, val ((env F).draws i n) = F.draw i n := fun n => val_mk (conv_near fun k => F.draws k i n)
    simpa only [this] using h
  step M pc _ := step_ok M pc

/-! ## Sequences of objects -/

theorem list_lift {σ τ : Type} {σ' : ℕ → Type} {R : ∀ k, σ' k → τ → Prop} (f : ∀ k, σ → σ' k) (g : σ → τ)
    (h : ∀ (a : ∀ k, σ' k) x, (∀ k, R k (a k) x) → ∃ t, (∀ k, f k t = a k) ∧ g t = x) (l : ∀ k, List (σ' k)) (L : List τ)
    (hl : ∀ k, List.Forall₂ (R k) (l k) L) : ∃ t : List σ, (∀ k, t.map (f k) = l k) ∧ t.map g = L := by
  induction L generalizing l with
  | nil => exact ⟨[], fun k => by rw [List.forall₂_nil_right_iff.1 (hl k)]; rfl, rfl⟩
  | cons x L ih =>
    have : ∀ k, ∃ a r, l k = a :: r ∧ R k a x ∧ List.Forall₂ (R k) r L := by
      intro k
      obtain ⟨a, r, h1, h2, h3⟩ := List.forall₂_cons_right_iff.1 (hl k)
      exact ⟨a, r, h3, h1, h2⟩
    choose a r h1 h2 h3 using this
    obtain ⟨t, h4, h5⟩ := h a x h2
    obtain ⟨ts, h6, h7⟩ := ih r h3
    exact ⟨t :: ts, fun k => by rw [List.map_cons, h4, h6, h1], by rw [List.map_cons, h5, h7]⟩

abbrev Close (F : Family) (k : Nat) := (F.arith k).Near (F.δ k)

theorem num_lift (a : ∀ k, (F.arith k).carrier) (x : ℝ) (h : ∀ k, F.Close k (a k) x) : ∃ t : F.Lim, (∀ k, at' k t = a k) ∧ val t = x :=
  ⟨Lim.mk (conv_near h), fun _ => rfl, val_mk (conv_near h)⟩

theorem matrix_lift (M : ∀ k, Matrix (F.arith k).carrier) (X : Matrix ℝ) (h : ∀ k, (M k).Rel (F.Close k) X) :
    ∃ t : Matrix F.Lim, (∀ k, t.map (at' k) = M k) ∧ t.map val = X := by
  obtain ⟨t, h1, h2⟩ := list_lift (fun k => at' k) val num_lift (fun k => (M k).vals) X.vals fun k => (h k).vals
  refine ⟨⟨X.dim, t⟩, fun k => ?_, ?_⟩
  · show (⟨X.dim, t.map (at' k)⟩ : Matrix _) = M k
    rw [h1, ← (h k).dim]
  · show (⟨X.dim, t.map val⟩ : Matrix _) = X
    rw [h2]

theorem body_lift (b : ∀ k, Body (F.arith k).carrier) (B : Body ℝ) (h : ∀ k, (b k).Rel (F.Close k) B) :
    ∃ t : Body F.Lim, (∀ k, t.map (at' k) = b k) ∧ t.map val = B := by
  cases B with
  | kernel K =>
    have : ∀ k, ∃ K', b k = .kernel K' ∧ K'.Rel (F.Close k) K := by
      intro k
      have := h k
      generalize b k = c at this
      cases this with
      | kernel h => exact ⟨_, rfl, h⟩
    choose K' h1 h2 using this
    obtain ⟨w, w1, w2⟩ := matrix_lift (fun k => (K' k).weights) _ fun k => (h2 k).weights
    obtain ⟨β, β1, β2⟩ := matrix_lift (fun k => (K' k).biases) _ fun k => (h2 k).biases
    obtain ⟨wg, wg1, wg2⟩ := list_lift (fun k => Matrix.map (at' k)) (Matrix.map val) matrix_lift (fun k => (K' k).wGrads) _ fun k => (h2 k).wGrads
    obtain ⟨bg, bg1, bg2⟩ := list_lift (fun k => Matrix.map (at' k)) (Matrix.map val) matrix_lift (fun k => (K' k).bGrads) _ fun k => (h2 k).bGrads
    refine ⟨.kernel ⟨K.dim, K.numFilters, K.stride, w, β, wg, bg⟩, fun k => ?_, ?_⟩
    · simp only [Body.map, Kernel.map, w1, β1, wg1, bg1, h1, ← (h2 k).dim, ← (h2 k).num, ← (h2 k).stride]
    · simp only [Body.map, Kernel.map, w2, β2, wg2, bg2]
  | connected L =>
    have : ∀ k, ∃ L', b k = .connected L' ∧ L'.Rel (F.Close k) L := by
      intro k
      have := h k
      generalize b k = c at this
      cases this with
      | connected h => exact ⟨_, rfl, h⟩
    choose L' h1 h2 using this
    obtain ⟨w, w1, w2⟩ := matrix_lift (fun k => (L' k).weights) _ fun k => (h2 k).weights
    obtain ⟨β, β1, β2⟩ := matrix_lift (fun k => (L' k).biases) _ fun k => (h2 k).biases
    obtain ⟨wg, wg1, wg2⟩ := list_lift (fun k => Matrix.map (at' k)) (Matrix.map val) matrix_lift (fun k => (L' k).wGrads) _ fun k => (h2 k).wGrads
    obtain ⟨bg, bg1, bg2⟩ := list_lift (fun k => Matrix.map (at' k)) (Matrix.map val) matrix_lift (fun k => (L' k).bGrads) _ fun k => (h2 k).bGrads
    refine ⟨.connected ⟨w, β, L.inputDim, L.initialized, wg, bg⟩, fun k => ?_, ?_⟩
    · simp only [Body.map, Connected.map, w1, β1, wg1, bg1, h1, ← (h2 k).inputDim, ← (h2 k).initialized]
    · simp only [Body.map, Connected.map, w2, β2, wg2, bg2]
  | pooling P =>
    refine ⟨.pooling P, fun k => ?_, rfl⟩
    have := h k
    generalize b k = c at this
    cases this; rfl
  | activation A =>
    refine ⟨.activation A, fun k => ?_, rfl⟩
    have := h k
    generalize b k = c at this
    cases this; rfl
  | softmax S =>
    refine ⟨.softmax S, fun k => ?_, rfl⟩
    have := h k
    generalize b k = c at this
    cases this; rfl

theorem layer_lift (l : ∀ k, Layer (F.arith k).carrier) (L : Layer ℝ) (h : ∀ k, (l k).Rel (F.Close k) L) :
    ∃ t : Layer F.Lim, (∀ k, t.map (at' k) = l k) ∧ t.map val = L := by
  obtain ⟨b, h1, h2⟩ := body_lift (fun k => (l k).body) L.body fun k => (h k).body
  refine ⟨⟨L.name, b⟩, fun k => ?_, ?_⟩
  · simp only [Layer.map, h1, ← (h k).name]
  · simp only [Layer.map, h2]

theorem model_lift (M : ∀ k, Model (F.arith k).carrier) (X : Model ℝ) (h : ∀ k, (M k).Rel (F.Close k) X) :
    ∃ t : Model F.Lim, (∀ k, t.map (at' k) = M k) ∧ t.map val = X := by
  obtain ⟨ls, h1, h2⟩ := list_lift (fun k => Layer.map (at' k)) (Layer.map val) layer_lift (fun k => (M k).layers) X.layers fun k => (h k).layers
  refine ⟨⟨ls, X.labels, X.softmax, X.kernels, X.poolings, X.connecteds, X.activations⟩, fun k => ?_, ?_⟩
  · simp only [Model.map, h1, ← (h k).labels, ← (h k).softmax, ← (h k).kernels, ← (h k).poolings, ← (h k).connecteds, ← (h k).activations]
  · simp only [Model.map, h2]

theorem sample_lift (x : ∀ k, Sample (F.arith k).carrier) (X : Sample ℝ) (h : ∀ k, (x k).Rel (F.Close k) X) :
    ∃ t : Sample F.Lim, (∀ k, t.map (at' k) = x k) ∧ t.map val = X := by
  obtain ⟨b, h1, h2⟩ := matrix_lift (fun k => (x k).data) X.data fun k => (h k).data
  refine ⟨⟨b, X.label⟩, fun k => ?_, ?_⟩
  · simp only [Sample.map, h1, ← (h k).label]
  · simp only [Sample.map, h2]

theorem epoch_lift (x : ∀ k, List (List Nat) × List (Sample (F.arith k).carrier)) (X : List (List Nat) × List (Sample ℝ))
    (h : ∀ k, EpochRel (F.Close k) (x k) X) :
    ∃ t : List (List Nat) × List (Sample F.Lim), (∀ k, (t.1, t.2.map (Sample.map (at' k))) = x k) ∧ (t.1, t.2.map (Sample.map val)) = X := by
  obtain ⟨b, h1, h2⟩ := list_lift (fun k => Sample.map (at' k)) (Sample.map val) sample_lift (fun k => (x k).2) X.2 fun k => (h k).2
  refine ⟨(X.1, b), fun k => ?_, ?_⟩
  · simp only [h1, ← (h k).1]
  · simp only [h2]

theorem hyper_lift (p : ∀ k, Hyper (F.arith k).carrier) (P : Hyper ℝ) (h : ∀ k, (p k).Rel (F.Close k) P) :
    ∃ t : Hyper F.Lim, (∀ k, t.map (at' k) = p k) ∧ t.map val = P := by
  obtain ⟨r, h1, h2⟩ := num_lift (fun k => (p k).rate) P.rate fun k => (h k).rate
  refine ⟨⟨r, P.batch, P.threads, P.epochs⟩, fun k => ?_, ?_⟩
  · simp only [Hyper.map, h1, ← (h k).batch, ← (h k).threads, ← (h k).epochs]
  · simp only [Hyper.map, h2]

/-! ## Most members of a sequence are close to the limit -/

variable {ε : ℝ}

theorem num_near (hε : 0 < ε) (a : F.Lim) : ∀ᶠ k in F.U, (F.arith k).Near ε (at' k a) (val a) := by
  have h : Tendsto (fun k => |(F.arith k).float.val (a.1 k) - val a|) F.U (𝓝 0) := by
    have := (a.conv.2.sub_const (val a)).abs
    simpa using this
  filter_upwards [a.conv.1, h.eventually_lt_const hε] with k h1 h2 using ⟨h1, h2.le⟩

theorem list_near {σ τ : Type} {σ' : ℕ → Type} {R : ∀ k, σ' k → τ → Prop} (f : ∀ k, σ → σ' k) (g : σ → τ)
    (h : ∀ t, ∀ᶠ k in F.U, R k (f k t) (g t)) (l : List σ) : ∀ᶠ k in F.U, List.Forall₂ (R k) (l.map (f k)) (l.map g) := by
  induction l with
  | nil => exact .of_forall fun k => .nil
  | cons a l ih =>
    filter_upwards [h a, ih] with k h1 h2 using .cons h1 h2

theorem matrix_near (hε : 0 < ε) (M : Matrix F.Lim) : ∀ᶠ k in F.U, (M.map (at' k)).Rel ((F.arith k).Near ε) (M.map val) := by
  filter_upwards [list_near (R := fun k => (F.arith k).Near ε) (fun k => at' k) val (num_near hε) M.vals] with k h using ⟨rfl, h⟩

theorem body_near (hε : 0 < ε) (b : Body F.Lim) : ∀ᶠ k in F.U, (b.map (at' k)).Rel ((F.arith k).Near ε) (b.map val) := by
  cases b with
  | kernel K =>
    filter_upwards [matrix_near hε K.weights, matrix_near hε K.biases,
      list_near (R := fun k => Matrix.Rel ((F.arith k).Near ε)) (fun k => Matrix.map (at' k)) (Matrix.map val) (matrix_near hε) K.wGrads,
      list_near (R := fun k => Matrix.Rel ((F.arith k).Near ε)) (fun k => Matrix.map (at' k)) (Matrix.map val) (matrix_near hε) K.bGrads]
      with k h1 h2 h3 h4 using .kernel ⟨rfl, rfl, rfl, h1, h2, h3, h4⟩
  | connected L =>
    filter_upwards [matrix_near hε L.weights, matrix_near hε L.biases,
      list_near (R := fun k => Matrix.Rel ((F.arith k).Near ε)) (fun k => Matrix.map (at' k)) (Matrix.map val) (matrix_near hε) L.wGrads,
      list_near (R := fun k => Matrix.Rel ((F.arith k).Near ε)) (fun k => Matrix.map (at' k)) (Matrix.map val) (matrix_near hε) L.bGrads]
      with k h1 h2 h3 h4 using .connected ⟨h1, h2, rfl, rfl, h3, h4⟩
  | pooling P => exact .of_forall fun k => .pooling P
  | activation A => exact .of_forall fun k => .activation A
  | softmax S => exact .of_forall fun k => .softmax S

theorem model_near (hε : 0 < ε) (M : Model F.Lim) : ∀ᶠ k in F.U, (M.map (at' k)).Rel ((F.arith k).Near ε) (M.map val) := by
  filter_upwards [list_near (R := fun k => Layer.Rel ((F.arith k).Near ε)) (fun k => Layer.map (at' k)) (Layer.map val)
    (fun l => (body_near hε l.body).mono fun k h => ⟨rfl, h⟩) M.layers] with k h using ⟨h, rfl, rfl, rfl, rfl, rfl, rfl⟩

end Family

/-! ## Sizes -/

section
variable {α β : Type} [Zero α] [One α] [Add α] [Sub α] [Mul α] [Div α] [Neg α] [Zero β] [One β] [Add β] [Sub β] [Mul β] [Div β] [Neg β] {φ : α → β}

theorem Matrix.shows_of_map {M : Matrix α} {X Y Z : Nat} {f : Nat → Nat → Nat → β} (h : (M.map φ).Shows X Y Z f) : ∃ g, M.Shows X Y Z g := by
  have hr : ∀ i j k, i < X ∧ j < Y ∧ k < Z → ∃ a, M.read (dimN i j k) = .ok a := by
    rintro i j k ⟨hi, hj, hk⟩
    have := h.entry i hi j hj k hk
    rw [Matrix.read_map] at this
    cases e : M.read (dimN i j k) with
    | ok a => exact ⟨a, rfl⟩
    | _ => rw [e] at this; cases this
  have : Nonempty α := ⟨0⟩
  choose! g hg using hr
  refine ⟨g, h.good, h.dim, ?_, fun i hi j hj k hk => hg i j k ⟨hi, hj, hk⟩⟩
  have := h.length
  rwa [Matrix.map_vals, List.length_map] at this

theorem Matrix.has_of_map {M : Matrix α} {s : Shape} (h : (M.map φ).Has s) : M.Has s := by
  obtain ⟨f, h⟩ := h
  exact Matrix.shows_of_map h

theorem Body.runs_of_map {b : Body α} {first : Bool} {s : Shape} {k : LayerKind} (h : (b.map φ).Runs first s k) : b.Runs first s k := by
  cases b with
  | kernel K =>
    cases k with
    | conv A B C F =>
      obtain ⟨w, β, h⟩ := h
      obtain ⟨w', hw⟩ := Matrix.shows_of_map h.weights
      obtain ⟨β', hβ⟩ := Matrix.shows_of_map h.biases
      refine ⟨w', fun f => β' f 0 0, h.dim, h.num, h.stride, hw, hβ.congr fun i _ j hj k hk => ?_⟩
      obtain rfl : j = 0 := by omega
      obtain rfl : k = 0 := by omega
      rfl
    | _ => exact h.elim
  | connected L =>
    cases k with
    | full n =>
      rcases h with ⟨w, β, h, h'⟩ | ⟨h1, h2⟩
      · obtain ⟨w', hw⟩ := Matrix.shows_of_map h.weights
        obtain ⟨β', hβ⟩ := Matrix.shows_of_map h.biases
        refine .inl ⟨fun i k => w' i k 0, fun f => β' f 0 0, ⟨hw.congr fun i _ j _ k hk => ?_, hβ.congr fun i _ j hj k hk => ?_, h.initialized⟩, h'⟩
        · obtain rfl : k = 0 := by omega
          rfl
        · obtain rfl : j = 0 := by omega
          obtain rfl : k = 0 := by omega
          rfl
      · exact .inr ⟨h1, Matrix.has_of_map h2⟩
    | _ => exact h.elim
  | pooling P => cases k <;> exact h
  | activation A => cases k <;> exact h
  | softmax S => cases k <;> exact h

theorem Model.runs_of_map {M : Model α} {s : Shape} {ks : List LayerKind} (h : (M.map φ).Runs s ks) : M.Runs s ks := by
  refine ⟨by rw [← Model.map_length (φ := φ)]; exact h.count, fun i L k hL hk => ?_, ?_, h.output⟩
  · exact Body.runs_of_map (h.layers i (L.map φ) k (by rw [Model.map_layers, hL]; rfl) hk)
  · obtain ⟨L, S, h1, h2, h3⟩ := h.last
    rw [Model.map_layers] at h1
    cases e : M.layers[ks.length]? with
    | none => rw [e] at h1; cases h1
    | some l =>
      rw [e] at h1
      cases h1
      refine ⟨l, S, rfl, ?_, h3⟩
      obtain ⟨name, b⟩ := l
      cases b with
      | softmax S' => cases h2; rfl
      | _ => cases h2

theorem kindsWork_get {first : Bool} {s : Shape} {ks : List LayerKind} (h : KindsWork first s ks) {i : Nat} {k : LayerKind} (hk : ks[i]? = some k) :
    ∃ f s', k.Works f s' := by
  induction ks generalizing first s i with
  | nil => simp at hk
  | cons a ks ih =>
    cases i with
    | zero => cases hk; exact ⟨_, _, h.1⟩
    | succ i => exact ih h.2 hk

theorem Model.sane_of {M : Model α} {s : Shape} {ks : List LayerKind} (hM : M.Runs s ks) (hk : KindsWork true s ks) (ha : KindsAvg ks) {D : Nat → Prop}
    (hd : ∀ (i : Nat) (l : Layer α) (L : Connected α), M.layers[i]? = some l → l.body = .connected L → L.initialized = true ∨ D i) {n : Nat} (hn : n ≠ 0) :
    (M.setBatchSize n).All fun i b => b.Sane (D i) := by
  intro i l hl
  unfold Model.setBatchSize at hl
  simp only [List.getElem?_map] at hl
  cases e : M.layers[i]? with
  | none => rw [e] at hl; cases hl
  | some l' =>
    rw [e] at hl
    cases hl
    obtain ⟨name, b⟩ := l'
    cases b with
    | kernel K => exact ⟨by simpa [Kernel.setBatchSize, emptyGrads] using hn, by simpa [Kernel.setBatchSize, emptyGrads] using hn⟩
    | connected L =>
      exact ⟨⟨by simpa [Connected.setBatchSize, emptyGrads] using hn, by simpa [Connected.setBatchSize, emptyGrads] using hn⟩, hd i _ L e rfl⟩
    | pooling P =>
      show Pooling.Sane _
      intro ht
      have hi : i < ks.length := by
        obtain ⟨L, S, h1, h2, _⟩ := hM.last
        have h3 : i < M.layers.length := (List.getElem?_eq_some_iff.1 e).1
        rw [hM.count] at h3
        by_contra hne
        obtain rfl : i = ks.length := by omega
        rw [e] at h1
        cases h1
        cases h2
      have hks : ks[i]? = some ks[i] := List.getElem?_eq_getElem hi
      have hr := hM.layers i _ _ e hks
      have hmem : ks[i] ∈ ks := List.getElem_mem hi
      obtain ⟨f, s', hw⟩ := kindsWork_get hk hks
      cases ek : ks[i] with
      | pool t px py sx sy =>
        rw [ek] at hr hw hmem
        obtain ⟨h1, h2, h3⟩ := hr
        have ht' : P.type = .avg := ht
        rw [ht'] at h1
        subst h1
        have hbig := ha px py sx sy hmem
        have hx := hw.px0
        have hy := hw.py0
        show 0 < P.dim.x ∧ 0 < P.dim.y ∧ P.dim.x * P.dim.y < 2147483648
        rw [h2]
        dsimp only
        refine ⟨by exact_mod_cast hx, by exact_mod_cast hy, by exact_mod_cast hbig⟩
      | _ => rw [ek] at hr; exact hr.elim
    | _ => trivial

end

/-! ## Exact values -/

section
variable {α : Type} [Zero α] [One α] [Add α] [Sub α] [Mul α] [Div α] [Neg α] {E : Env α} {val : α → ℝ}

/-- Ties do not change the value of the largest entry. -/
theorem max_val (h : Ideal E val) (X : Matrix α) : MExpr.max Num.real.lt (X.map val).expr = val <$> MExpr.max E.num.lt X.expr := by
  have hd : ∀ it, (X.map val).expr.deref it = val <$> X.expr.deref it := fun it => by rw [Matrix.expr_map]; rfl
  have key : ∀ (last : Iter) (n : Nat) (it r r' : Iter), (X.map val).expr.deref r' = val <$> X.expr.deref r →
      (Iter.loop last (fun (result : Iter) it => do
        let a ← (X.map val).expr.deref result
        let b ← (X.map val).expr.deref it
        .ok (if Num.real.lt a b then it else result)) n it r' >>= (X.map val).expr.deref) =
      val <$> (Iter.loop last (fun (result : Iter) it => do
        let a ← X.expr.deref result
        let b ← X.expr.deref it
        .ok (if E.num.lt a b then it else result)) n it r >>= X.expr.deref) := by
    intro last n
    induction n with
    | zero =>
      intro it r r' hr
      unfold Iter.loop
      split
      · rw [bind_ok, bind_ok]; exact hr
      · rfl
    | succ n ih =>
      intro it r r' hr
      unfold Iter.loop
      split
      · rw [bind_ok, bind_ok]; exact hr
      · rw [hr, hd]
        cases ha : X.expr.deref r with
        | ok a =>
          cases hb : X.expr.deref it with
          | ok b =>
            simp only [map_ok, bind_ok]
            refine ih it.next _ _ ?_
            rw [ha, map_ok] at hr
            by_cases hlt : val a < val b
            · have h1 : Num.real.lt (val a) (val b) = true := decide_eq_true hlt
              rw [h1, h.less a b hlt, if_pos rfl, if_pos rfl]
              exact hd it
            · have h1 : Num.real.lt (val a) (val b) = false := decide_eq_false hlt
              rw [h1, if_neg Bool.false_ne_true, hr]
              cases h2 : E.num.lt a b with
              | false => rw [if_neg Bool.false_ne_true, ha, map_ok]
              | true =>
                rw [if_pos rfl, hb, map_ok]
                have : ¬val b < val a := fun h3 => by rw [h.notLess a b h3] at h2; cases h2
                rw [le_antisymm (not_lt.1 this) (not_lt.1 hlt)]
          | _ => rfl
        | _ => rfl
  unfold MExpr.max MExpr.bestElem
  rw [show (X.map val).expr.dim = X.expr.dim from rfl]
  split
  · rw [bind_ok, bind_ok]; exact hd _
  · exact key _ _ _ _ _ (hd _)

/-- The environment of exact arithmetic with the random numbers `d`. -/
noncomputable def exactWith (d : Nat → Nat → ℝ) : Env ℝ := ⟨Num.real, d, id, .dimsFirst⟩

theorem hom_val (h : Ideal E val) (ho : E.order = .dimsFirst) {d : Nat → Nat → ℝ} (hd : ∀ i n, val (E.draws i n) = d i n) :
    Hom E val (exactWith d) val where
  ideal := h
  zero := h.zero
  add := h.add
  mul := h.mul
  one := h.one
  neg := h.neg
  sub := h.sub
  div := h.div
  exp := h.exp
  tanh := h.tanh
  sqrt := h.sqrt
  ofNat := h.ofNat
  slopeF := h.slopeF
  slopeD := h.slopeD
  toFloat := h.toFloat
  draws := hd
  order := ho.symm

theorem follow_val (h : Ideal E val) (ho : E.order = .dimsFirst) {d : Nat → Nat → ℝ} (hd : ∀ i n, val (E.draws i n) = d i n) :
    Train.Follow False E val (pure () : Filter Unit) (fun _ => exactWith d) (fun _ => val)
      (fun i b => b.Sane (∀ n, d i n ≠ 0) ∧ b.Smooth) where
  hom _ := hom_val h ho hd
  steady i b b' hb hl := by
    refine ⟨Family.steady_sane (D := fun i => ∀ n, d i n ≠ 0) i b b' hb.1 hl, ?_⟩
    have := hb.2
    cases b <;> cases b' <;> first | trivial | exact hl.elim | skip
    · exact hl.1.trans this
    · exact (show _ = _ from hl) ▸ this
  sane i b hb := by simpa only [hd] using hb.1
  step M pc hM := by
    rw [eventually_pure]
    have hf := hom_val h ho hd
    cases pc with
    | forward s x i q =>
      refine ⟨fun l hl => ?_, fun f => f.elim⟩
      have := (hM i l hl).2
      generalize l.body = b at this
      cases b with
      | pooling P => exact fun hne => absurd this hne
      | activation A =>
        obtain ⟨f, rfl, hf'⟩ := this
        exact fun a _ => hf.eval_map f a (by rintro rfl; simp at hf') (by rintro rfl; simp at hf')
      | softmax S => exact max_val h q.1
      | _ => trivial
    | backward s x r n G =>
      cases n with
      | zero => trivial
      | succ i =>
        intro Z Z' l _ _ hl
        have := (hM i l hl).2
        generalize l.body = b at this
        cases b with
        | activation A =>
          obtain ⟨f, rfl, hf'⟩ := this
          exact fun a _ => hf.grad_map f a (by rintro (rfl | rfl) <;> simp at hf')
        | _ => trivial
    | _ => trivial

end
end Cnn
