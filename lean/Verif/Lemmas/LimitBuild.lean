import Verif.Lemmas.Limit
import Verif.Lemmas.ShapeBuild
import Mathlib.Order.Filter.Ultrafilter.Basic
/-!
# Building a model as the precision grows (C87)
-/
set_option linter.unusedSectionVars false
namespace Cnn
open Res

section
variable {α β : Type} [Zero α] [One α] [Add α] [Sub α] [Mul α] [Div α] [Neg α] [Zero β] [One β] [Add β] [Sub β] [Mul β] [Div β] [Neg β]
variable {E : Env α} {val : α → ℝ} {E' : Env β} {φ : α → β}

theorem Kernel.new_map (h : Hom E val E' φ) (draws : Nat → α) (hd : ∀ n, val (draws n) ≠ 0) (dim : Dim3) (n stride : Nat) :
    Kernel.new E'.num (fun n => φ (draws n)) dim n stride = Kernel.map φ <$> Kernel.new E.num draws dim n stride := by
  unfold Kernel.new
  rw [map_res_bind, ← h.zero, Matrix.ofDim_map, bind_res_map]
  refine bind_congr' rfl fun W => ?_
  rw [map_res_bind, Matrix.ofDim_map, bind_res_map]
  refine bind_congr' rfl fun B => ?_
  rw [map_res_bind, initParams_map h draws hd, bind_res_map]
  exact bind_congr' rfl fun r => rfl

theorem Connected.new_map (h : Hom E val E' φ) (n : Nat) : (Connected.new n : Res (Connected β)) = Connected.map φ <$> (Connected.new n : Res (Connected α)) := by
  unfold Connected.new
  rw [map_res_bind, ← h.zero, Matrix.ofDim_map, bind_res_map]
  refine bind_congr' rfl fun W => ?_
  rw [map_res_bind, Matrix.ofDim_map, bind_res_map]
  exact bind_congr' rfl fun B => rfl

theorem Model.append_map (M : Model α) (name : List Char) (b : Body α) : (M.append name b).map φ = (M.map φ).append name (b.map φ) := by
  unfold Model.append Model.map
  simp [Layer.map]

theorem LayerKind.add_map (h : Hom E val E' φ) (draws : Nat → α) (hd : ∀ n, val (draws n) ≠ 0) (M : Model α) (k : LayerKind) :
    k.add E'.num (fun n => φ (draws n)) (M.map φ) = Model.map φ <$> k.add E.num draws M := by
  cases k with
  | conv A B C F =>
    show Model.addKernel _ _ _ _ _ = _ <$> Model.addKernel _ _ _ _ _
    unfold Model.addKernel
    rw [map_res_bind, Kernel.new_map h draws hd, bind_res_map]
    refine bind_congr' rfl fun K => ?_
    show Res.ok _ = Res.ok _
    simp [Model.map, Model.append, Layer.map, Body.map]
  | pool t px py sx sy =>
    show Res.ok _ = Res.ok _
    simp [Model.addPooling, Model.map, Model.append, Layer.map, Body.map]
  | full n =>
    show Model.addConnected _ _ = _ <$> Model.addConnected _ _
    unfold Model.addConnected
    rw [map_res_bind, Connected.new_map h, bind_res_map]
    refine bind_congr' rfl fun K => ?_
    show Res.ok _ = Res.ok _
    simp [Model.map, Model.append, Layer.map, Body.map]
  | act f =>
    show Res.ok _ = Res.ok _
    simp [Model.addActivation, Model.map, Model.append, Layer.map, Body.map]

theorem addLayers_map (h : Hom E val E' φ) (draws : Nat → Nat → α) (hd : ∀ i n, val (draws i n) ≠ 0) (ks : List LayerKind) (i : Nat) (M : Model α) :
    addLayers E'.num (fun i n => φ (draws i n)) i ks (M.map φ) = Model.map φ <$> addLayers E.num draws i ks M := by
  induction ks generalizing i M with
  | nil => rfl
  | cons k ks ih =>
    show k.add E'.num (fun n => φ (draws i n)) (M.map φ) >>= _ = _ <$> (k.add E.num (draws i) M >>= _)
    rw [map_res_bind, LayerKind.add_map h (draws i) (hd i), bind_res_map]
    exact bind_congr' rfl fun M => ih (i + 1) M

theorem buildModel_map (h : Hom E val E' φ) (draws : Nat → Nat → α) (hd : ∀ i n, val (draws i n) ≠ 0) (ks : List LayerKind) (labels : List (List Char)) :
    buildModel E'.num (fun i n => φ (draws i n)) ks labels = Model.map φ <$> buildModel E.num draws ks labels := by
  unfold buildModel
  rw [map_res_bind, show (Model.new : Model β) = (Model.new : Model α).map φ from rfl, addLayers_map h draws hd, bind_res_map]
  refine bind_congr' rfl fun M => ?_
  show Res.ok _ = Res.ok _
  simp [Model.setOutputLabels, Model.map, Model.append, Layer.map, Body.map]

end

open Filter Topology in
/-- A model built in rounded arithmetic is close to the one built without rounding. -/
theorem build_near (d : Nat → Nat → ℝ) (hd : ∀ i n, d i n ≠ 0) (ks : List LayerKind) (labels : List (List Char)) (s : Shape)
    (hs : 0 < s.X * s.Y * s.Z) (hk : KindsWork true s ks) (hout : kindsOut ks s = ⟨labels.length, 1, 1⟩ ∨ kindsOut ks s = ⟨1, labels.length, 1⟩)
    (ε : ℝ) (hε : 0 < ε) :
    ∃ δ > 0, ∀ A : Arith, A.Sharp δ → (∀ i n, A.Near δ (A.env.draws i n) (d i n)) →
      ∃ M' M, buildModel A.env.num A.env.draws ks labels = .ok M' ∧ buildModel Num.real d ks labels = .ok M ∧ M'.Rel (A.Near ε) M := by
  by_contra hne
  push Not at hne
  have hpos : ∀ k : ℕ, (0 : ℝ) < 1 / (k + 1) := fun k => by positivity
  have hbad := fun k : ℕ => hne (1 / (k + 1)) (hpos k)
  choose A h1 h2 h6 using hbad
  let F : Family := ⟨A, fun k => 1 / ((k : ℝ) + 1), hyperfilter ℕ, h1, hpos,
    tendsto_one_div_add_atTop_nhds_zero_nat.mono_left (Nat.hyperfilter_le_atTop), d, h2⟩
  have hv : ∀ i n, Family.Lim.val ((Family.Lim.env F).draws i n) = d i n := fun i n => Family.Lim.val_mk (Family.conv_near fun k => F.draws k i n)
  have hv0 : ∀ i n, Family.Lim.val ((Family.Lim.env F).draws i n) ≠ 0 := fun i n => by rw [hv]; exact hd i n
  obtain ⟨M, e, _, _⟩ := buildModel_runs (Family.Lim.env F).num (Family.Lim.env F).draws ks labels hk hs hout
  obtain ⟨k, hk'⟩ := (Family.model_near hε M).exists
  refine h6 k (M.map (Family.Lim.at' k)) (M.map Family.Lim.val) ?_ ?_ hk'
  · have := buildModel_map (Family.Lim.hom (F := F) k) (Family.Lim.env F).draws hv0 ks labels
    rw [e] at this
    exact this
  · have := buildModel_map (hom_val (Family.Lim.ideal F) rfl hv) (Family.Lim.env F).draws hv0 ks labels
    rw [e] at this
    simp only [hv] at this
    exact this

theorem Arith.Near.mono {A : Arith} {ε ε' : ℝ} (h : ε ≤ ε') {a : A.carrier} {x : ℝ} (ha : A.Near ε a x) : A.Near ε' a x := ⟨ha.1, ha.2.trans h⟩

theorem Hyper.Rel.mono {α β : Type} {R R' : α → β → Prop} (h : ∀ a b, R a b → R' a b) {p : Hyper α} {p' : Hyper β} (hp : p.Rel R p') : p.Rel R' p' :=
  ⟨h _ _ hp.rate, hp.batch, hp.threads, hp.epochs⟩

theorem EpochRel.mono {α β : Type} {R R' : α → β → Prop} (h : ∀ a b, R a b → R' a b) {e : List (List Nat) × List (Sample α)}
    {e' : List (List Nat) × List (Sample β)} (hp : EpochRel R e e') : EpochRel R' e e' :=
  ⟨hp.1, hp.2.imp fun _ _ hx => ⟨⟨hx.data.dim, hx.data.vals.imp h⟩, hx.label⟩⟩

end Cnn
