import Verif.Lemmas.NetModel
/-! The derivative of the loss when all parameters of a network move at the same time. -/
namespace Cnn
open Finset

/-- Sums of tables. -/
def Tensor.add (u v : Tensor) : Tensor := fun i j k => u i j k + v i j k

/-- The parameters of `l` move along curves. -/
def ParamCurve (l : NetLayer) (s : Shape) (W : ℝ → Tensor) (W' : Tensor) (B : ℝ → Nat → ℝ) (B' : Nat → ℝ) (θ : ℝ) : Prop :=
  ∀ w β, l.params = some (w, β) → Curve (l.weightShape s) w W W' θ ∧ B θ = β ∧ ∀ f < l.biasCount, HasDerivAt (fun τ => B τ f) (B' f) θ

/-- The derivative of a layer at the input `x` is a sum of a part for the input, `Λ`, and a part for the parameters. -/
structure LayerJoint (l : NetLayer) (s : Shape) (x : Tensor) (Λ : Tensor → Tensor) : Prop where
  add : ∀ u v, Λ (u.add v) = (Λ u).add (Λ v)
  curve : ∀ θ W W' B B', ParamCurve l s W W' B B' θ → ∃ P : Tensor, ∀ γ γ', Curve s x γ γ' θ →
    Curve (l.out s) (l.eval s x) (fun τ => (l.withParams (W τ) (B τ)).eval s (γ τ)) ((Λ γ').add P) θ

theorem withParams_same {l : NetLayer} {w : Tensor} {β : Nat → ℝ} (h : l.params = some (w, β)) : l.withParams w β = l := by
  cases l <;> simp only [NetLayer.params, Option.some.injEq, Prod.mk.injEq, reduceCtorEq] at h <;> obtain ⟨rfl, rfl⟩ := h <;> rfl

theorem withParams_none {l : NetLayer} (w : Tensor) (β : Nat → ℝ) (h : l.params = none) : l.withParams w β = l := by
  cases l <;> first | rfl | simp [NetLayer.params] at h

/-- The parameters stand still. -/
theorem LayerJoint.still {l : NetLayer} {s : Shape} {x : Tensor} {Λ : Tensor → Tensor} (h : LayerJoint l s x Λ) {θ : ℝ} {γ : ℝ → Tensor} {γ' : Tensor}
    (hγ : Curve s x γ γ' θ) : Curve (l.out s) (l.eval s x) (fun τ => l.eval s (γ τ)) (Λ γ') θ := by
  obtain ⟨w, β, hP, hl⟩ : ∃ w β, ParamCurve l s (fun _ => w) (fun _ _ _ => 0) (fun _ => β) (fun _ => 0) θ ∧ l.withParams w β = l := by
    cases hp : l.params with
    | none => exact ⟨fun _ _ _ => 0, fun _ => 0, fun w β h => (by rw [hp] at h; cases h), withParams_none _ _ hp⟩
    | some v =>
      obtain ⟨w, β⟩ := v
      refine ⟨w, β, fun w' β' h => ?_, withParams_same hp⟩
      rw [hp] at h
      obtain ⟨rfl, rfl⟩ := Prod.mk.inj (Option.some.inj h)
      exact ⟨⟨rfl, fun _ _ _ _ _ _ => hasDerivAt_const _ _⟩, rfl, fun _ _ => hasDerivAt_const _ _⟩
  obtain ⟨P, hc⟩ := h.curve θ _ _ _ _ hP
  simp only [hl] at hc
  have hconst : Curve s x (fun _ => x) (fun _ _ _ => 0) θ := ⟨rfl, fun i _ j _ k _ => hasDerivAt_const _ _⟩
  have hzero : Λ (fun _ _ _ => 0) = fun _ _ _ => 0 := by
    have := h.add (fun _ _ _ => 0) (fun _ _ _ => 0)
    have e : Tensor.add (fun _ _ _ => 0) (fun _ _ _ => 0) = fun _ _ _ => 0 := by funext i j k; simp [Tensor.add]
    rw [e] at this
    funext i j k
    have := congrFun (congrFun (congrFun this i) j) k
    simp only [Tensor.add] at this
    linarith
  have h0 := hc _ _ hconst
  have h1 := hc _ _ hγ
  refine ⟨h1.start, fun i hi j hj k hk => (h1.deriv i hi j hj k hk).congr_deriv ?_⟩
  have := (h0.deriv i hi j hj k hk).unique (hasDerivAt_const θ _)
  rw [hzero] at this
  simp only [Tensor.add, zero_add] at this
  simp only [Tensor.add, this, add_zero]

theorem conv_joint {A B C F : Nat} {w : Tensor} {β : Nat → ℝ} {s : Shape} (x : Tensor) (hf : NetLayer.Fits s (.conv A B C F w β)) :
    LayerJoint (.conv A B C F w β) s x (fun γ' i j f => ∑ c ∈ range C, ∑ a ∈ range A, ∑ b ∈ range B, γ' (i + a) (j + b) c * w a b (f * C + c)) := by
  obtain ⟨hZ, hc⟩ := hf
  have hA := hc.x
  have hB := hc.y
  constructor
  · intro u v
    funext i j f
    simp only [Tensor.add, add_mul, sum_add_distrib]
  · intro θ W W' Bc B' hP
    obtain ⟨hW, hB0, hB'⟩ := hP w β rfl
    refine ⟨fun i j f => B' f + ∑ c ∈ range C, ∑ a ∈ range A, ∑ b ∈ range B, x (i + a) (j + b) c * W' a b (f * C + c), fun γ γ' hγ => ⟨?_, ?_⟩⟩
    · simp only [hW.start, hB0, hγ.start]; rfl
    · intro i hi j hj f hf
      simp only [NetLayer.out] at hi hj hf
      simp only [NetLayer.eval, NetLayer.withParams, convLayer]
      have : HasDerivAt (fun τ => Bc τ f + ∑ c ∈ range C, ∑ a ∈ range A, ∑ b ∈ range B, γ τ (i + a) (j + b) c * W τ a b (f * C + c))
          (B' f + ∑ c ∈ range C, ∑ a ∈ range A, ∑ b ∈ range B, (γ' (i + a) (j + b) c * w a b (f * C + c) + x (i + a) (j + b) c * W' a b (f * C + c))) θ := by
        refine (hB' f hf).fun_add ?_
        refine HasDerivAt.fun_sum fun c hc => HasDerivAt.fun_sum fun a ha => HasDerivAt.fun_sum fun b hb => ?_
        simp only [mem_range] at hc ha hb
        have hs := Kernel.slot_le (C := C) hf
        have := (hγ.deriv (i + a) (by omega) (j + b) (by omega) c (by omega)).fun_mul (hW.deriv a ha b hb (f * C + c) (by simp only [NetLayer.weightShape]; omega))
        simpa only [hW.start, hγ.start] using this
      refine this.congr_deriv ?_
      simp only [Tensor.add, sum_add_distrib]
      ring

theorem full_joint {n : Nat} {w : Tensor} {β : Nat → ℝ} {s : Shape} (x : Tensor) :
    LayerJoint (.full n w β) s x (fun γ' i _ _ => ∑ k ∈ range (s.X * s.Y * s.Z), w i k 0 * flatOf s.X s.Y γ' k) := by
  constructor
  · intro u v
    funext i j f
    simp only [Tensor.add, flatOf, mul_add, sum_add_distrib]
  · intro θ W W' Bc B' hP
    obtain ⟨hW, hB0, hB'⟩ := hP w β rfl
    refine ⟨fun i _ _ => B' i + ∑ k ∈ range (s.X * s.Y * s.Z), W' i k 0 * flatOf s.X s.Y x k, fun γ γ' hγ => ⟨?_, ?_⟩⟩
    · simp only [hW.start, hB0, hγ.start]; rfl
    · intro i hi j hj f hf
      simp only [NetLayer.eval, NetLayer.withParams]
      have : HasDerivAt (fun τ => Bc τ i + ∑ k ∈ range (s.X * s.Y * s.Z), W τ i k 0 * flatOf s.X s.Y (γ τ) k)
          (B' i + ∑ k ∈ range (s.X * s.Y * s.Z), (W' i k 0 * flatOf s.X s.Y x k + w i k 0 * flatOf s.X s.Y γ' k)) θ := by
        refine (hB' i hi).fun_add (HasDerivAt.fun_sum fun k hk => ?_)
        rw [mem_range] at hk
        have hX : 0 < s.X := Nat.pos_of_ne_zero fun h => by simp [h] at hk
        have hY : 0 < s.Y := Nat.pos_of_ne_zero fun h => by simp [h] at hk
        obtain ⟨u1, u2, u3⟩ := unflat_lt hX hY hk
        have := (hW.deriv i hi k hk 0 (by simp [NetLayer.weightShape])).fun_mul (hγ.deriv _ u1 _ u2 _ u3)
        simp only [hW.start, hγ.start] at this
        exact this
      refine this.congr_deriv ?_
      simp only [Tensor.add, sum_add_distrib]
      ring

/-- A layer without parameters. -/
theorem LayerJoint.of_curve {l : NetLayer} {s : Shape} {x : Tensor} {Λ : Tensor → Tensor} (hp : l.params = none) (hadd : ∀ u v, Λ (u.add v) = (Λ u).add (Λ v))
    (h : ∀ θ γ γ', Curve s x γ γ' θ → Curve (l.out s) (l.eval s x) (fun τ => l.eval s (γ τ)) (Λ γ') θ) : LayerJoint l s x Λ := by
  refine ⟨hadd, fun θ W W' B B' _ => ⟨fun _ _ _ => 0, fun γ γ' hγ => ?_⟩⟩
  have e : (Λ γ').add (fun _ _ _ => 0) = Λ γ' := by funext i j k; simp [Tensor.add]
  rw [e]
  have : ∀ τ, l.withParams (W τ) (B τ) = l := by
    intro τ
    cases l <;> first | rfl | simp [NetLayer.params] at hp
  simp only [this]
  exact h θ γ γ' hγ

theorem act_joint {f : ActFn} {s : Shape} (x r : Tensor)
    (h : ∀ i < s.X, ∀ j < s.Y, ∀ k < s.Z, HasDerivAt (actSpec f) (r i j k) (x i j k)) :
    LayerJoint (.act f) s x (fun γ' i j k => r i j k * γ' i j k) := by
  refine .of_curve rfl (fun u v => by funext i j k; simp only [Tensor.add, mul_add]) fun θ γ γ' hγ => ⟨by simp only [hγ.start], ?_⟩
  intro i hi j hj k hk
  have h1 := h i hi j hj k hk
  have h2 := hγ.deriv i hi j hj k hk
  have e : x i j k = (fun τ => γ τ i j k) θ := by rw [← hγ.start]
  rw [e] at h1
  exact h1.comp θ h2

theorem avg_joint {px py sx sy : Nat} {s : Shape} (x : Tensor) (hf : PoolFits s.X s.Y px py sx sy) :
    LayerJoint (.pool .avg px py sx sy) s x (fun γ' i j k => (∑ a ∈ range px, ∑ c ∈ range py, γ' (i * sx + a) (j * sy + c) k) / ((px : ℝ) * (py : ℝ))) := by
  refine .of_curve rfl (fun u v => by funext i j k; simp only [Tensor.add, sum_add_distrib, add_div]) fun θ γ γ' hγ => ⟨by simp only [hγ.start], ?_⟩
  intro i hi j hj k hk
  simp only [NetLayer.out] at hi hj hk
  have hx := windows_inside hf.x hi
  have hy := windows_inside hf.y hj
  simp only [NetLayer.eval]
  refine HasDerivAt.div_const (HasDerivAt.fun_sum fun a ha => HasDerivAt.fun_sum fun c hc => ?_) _
  simp only [mem_range] at ha hc
  exact hγ.deriv _ (by omega) _ (by omega) _ hk

theorem select_joint {l : NetLayer} {px py sx sy : Nat} {s : Shape} (x : Tensor) (hp : l.params = none) (p q : Nat → Nat → Nat → Nat)
    (hf : PoolFits s.X s.Y px py sx sy) (ho : l.out s = ⟨windows s.X px sx, windows s.Y py sy, s.Z⟩)
    (hin : ∀ i < windows s.X px sx, ∀ j < windows s.Y py sy, ∀ k < s.Z, p i j k < px ∧ q i j k < py)
    (hloc : ∀ θ γ γ', Curve s x γ γ' θ → ∀ i < windows s.X px sx, ∀ j < windows s.Y py sy, ∀ k < s.Z,
      (fun τ => l.eval s (γ τ) i j k) =ᶠ[nhds θ] fun τ => γ τ (i * sx + p i j k) (j * sy + q i j k) k) :
    LayerJoint l s x (fun γ' i j k => γ' (i * sx + p i j k) (j * sy + q i j k) k) := by
  refine .of_curve hp (fun u v => rfl) fun θ γ γ' hγ => ⟨by simp only [hγ.start], ?_⟩
  rw [ho]
  intro i hi j hj k hk
  obtain ⟨h1, h2⟩ := hin i hi j hj k hk
  have hx := windows_inside hf.x hi
  have hy := windows_inside hf.y hj
  exact (hγ.deriv _ (by omega) _ (by omega) _ hk).congr_of_eventuallyEq (hloc θ γ γ' hγ i hi j hj k hk)

/-- All layers have such derivatives at the inputs they receive. -/
def NetJoint : List NetLayer → Shape → Tensor → Prop
  | [], _, _ => True
  | l :: ls, s, x => (∃ Λ, LayerJoint l s x Λ) ∧ NetJoint ls (l.out s) (l.eval s x)

theorem layer_joint {l : NetLayer} {s : Shape} {x : Tensor} (hf : l.Fits s) (hs : l.Smooth s x) (hg : ∀ X Y u v m c, l ≠ .gate X Y u v m c) :
    ∃ Λ, LayerJoint l s x Λ := by
  classical
  cases l with
  | conv A B C F w β => exact ⟨_, conv_joint x hf⟩
  | full n w β => exact ⟨_, full_joint x⟩
  | gate X Y u v m c => exact absurd rfl (hg X Y u v m c)
  | act f =>
    rcases hs with rfl | ⟨rfl, h⟩
    · exact ⟨_, act_joint x (fun _ _ _ => 1) fun i _ j _ k _ => hasDerivAt_id' _⟩
    · exact ⟨_, act_joint x (fun i j k => if 0 < x i j k then 1 else 0) fun i hi j hj k hk => relu_deriv (h i hi j hj k hk)⟩
  | pool t px py sx sy =>
    cases t with
    | avg => exact ⟨_, avg_joint x hf⟩
    | max =>
      have hs : ∀ i j k, ∃ p q, i < windows s.X px sx → j < windows s.Y py sy → k < s.Z → p < px ∧ q < py ∧
          ∀ a < px, ∀ c < py, ¬ (a = p ∧ c = q) → x (i * sx + a) (j * sy + c) k < x (i * sx + p) (j * sy + q) k := by
        intro i j k
        by_cases h : i < windows s.X px sx ∧ j < windows s.Y py sy ∧ k < s.Z
        · obtain ⟨p, hp, q, hq, hm⟩ := hs i h.1 j h.2.1 k h.2.2
          exact ⟨p, q, fun _ _ _ => ⟨hp, hq, hm⟩⟩
        · exact ⟨0, 0, fun h1 h2 h3 => absurd ⟨h1, h2, h3⟩ h⟩
      choose p q hpq using hs
      refine ⟨_, select_joint x rfl p q hf rfl (fun i hi j hj k hk => ⟨(hpq i j k hi hj hk).1, (hpq i j k hi hj hk).2.1⟩) ?_⟩
      intro θ γ γ' hγ i hi j hj k hk
      obtain ⟨h1, h2, h3⟩ := hpq i j k hi hj hk
      exact max_local hf hγ hi hj hk h1 h2 h3
    | min =>
      have hs : ∀ i j k, ∃ p q, i < windows s.X px sx → j < windows s.Y py sy → k < s.Z → p < px ∧ q < py ∧
          ∀ a < px, ∀ c < py, ¬ (a = p ∧ c = q) → x (i * sx + p) (j * sy + q) k < x (i * sx + a) (j * sy + c) k := by
        intro i j k
        by_cases h : i < windows s.X px sx ∧ j < windows s.Y py sy ∧ k < s.Z
        · obtain ⟨p, hp, q, hq, hm⟩ := hs i h.1 j h.2.1 k h.2.2
          exact ⟨p, q, fun _ _ _ => ⟨hp, hq, hm⟩⟩
        · exact ⟨0, 0, fun h1 h2 h3 => absurd ⟨h1, h2, h3⟩ h⟩
      choose p q hpq using hs
      refine ⟨_, select_joint x rfl p q hf rfl (fun i hi j hj k hk => ⟨(hpq i j k hi hj hk).1, (hpq i j k hi hj hk).2.1⟩) ?_⟩
      intro θ γ γ' hγ i hi j hj k hk
      obtain ⟨h1, h2, h3⟩ := hpq i j k hi hj hk
      exact min_local hf hγ hi hj hk h1 h2 h3

theorem net_joint {ls : List NetLayer} {s : Shape} {x : Tensor} (hf : NetFits ls s) (hs : NetSmooth ls s x)
    (hg : ∀ l ∈ ls, ∀ X Y u v m c, l ≠ .gate X Y u v m c) : NetJoint ls s x := by
  induction ls generalizing s x with
  | nil => trivial
  | cons l ls ih => exact ⟨layer_joint hf.1 hs.1 (hg l (by simp)), ih hf.2 hs.2 fun l hl => hg l (List.mem_cons_of_mem _ hl)⟩

/-- The network with other parameters. -/
def netWith (ls : List NetLayer) (W : Nat → Tensor) (B : Nat → Nat → ℝ) : List NetLayer := ls.mapIdx fun i l => l.withParams (W i) (B i)

theorem netWith_cons (l : NetLayer) (ls : List NetLayer) (W : Nat → Tensor) (B : Nat → Nat → ℝ) :
    netWith (l :: ls) W B = l.withParams (W 0) (B 0) :: netWith ls (fun i => W (i + 1)) (fun i => B (i + 1)) := by
  simp [netWith, List.mapIdx_cons]

theorem netLoss_cons (l : NetLayer) (ls : List NetLayer) (s : Shape) (n t : Nat) (x : Tensor) :
    netLoss (l :: ls) s n t x = netLoss ls (l.out s) n t (l.eval s x) := rfl

/-- The loss when all parameters and the input move: the derivative is the sum of the derivatives for each layer on its own, and the one for the input. -/
theorem net_total {ls : List NetLayer} {s : Shape} {x : Tensor} {n t : Nat} (ht : t < n)
    (hn : (netOut ls s).X * (netOut ls s).Y * (netOut ls s).Z = n) (hJ : NetJoint ls s x) :
    ∃ G : Tensor → ℝ, (∀ u v, G (u.add v) = G u + G v) ∧
      (∀ θ γ γ', Curve s x γ γ' θ → HasDerivAt (fun τ => netLoss ls s n t (γ τ)) (G γ') θ) ∧
      ∀ (θ : ℝ) (W : Nat → ℝ → Tensor) (W' : Nat → Tensor) (B : Nat → ℝ → Nat → ℝ) (B' : Nat → Nat → ℝ),
        (∀ i l, ls[i]? = some l → ParamCurve l (netOut (ls.take i) s) (W i) (W' i) (B i) (B' i) θ) →
        ∃ D : Nat → ℝ, (∀ i l, ls[i]? = some l → HasDerivAt (fun τ => netLoss (ls.set i (l.withParams (W i τ) (B i τ))) s n t x) (D i) θ) ∧
          ∀ γ γ', Curve s x γ γ' θ → HasDerivAt (fun τ => netLoss (netWith ls (fun i => W i τ) (fun i => B i τ)) s n t (γ τ))
            (G γ' + ∑ i ∈ range ls.length, D i) θ := by
  induction ls generalizing s x with
  | nil =>
    have hn : s.X * s.Y * s.Z = n := hn
    have hX : 0 < s.X := Nat.pos_of_ne_zero fun h => by simp [h] at hn; omega
    have hY : 0 < s.Y := Nat.pos_of_ne_zero fun h => by simp [h] at hn; omega
    have key : ∀ θ γ γ', Curve s x γ γ' θ → HasDerivAt (fun τ => netLoss [] s n t (γ τ))
        (∑ i ∈ range n, (softmax n (flatOf s.X s.Y x) i - if i = t then 1 else 0) * flatOf s.X s.Y γ' i) θ := by
      intro θ γ γ' hγ
      have h := softmax_curve ht (fun τ => flatOf s.X s.Y (γ τ)) (flatOf s.X s.Y γ') θ (by
        intro i hi
        obtain ⟨u1, u2, u3⟩ := unflat_lt hX hY (hn ▸ hi)
        exact hγ.deriv _ u1 _ u2 _ u3)
      simp only [hγ.start] at h
      exact h
    refine ⟨fun γ' => ∑ i ∈ range n, (softmax n (flatOf s.X s.Y x) i - if i = t then 1 else 0) * flatOf s.X s.Y γ' i, ?_, key, ?_⟩
    · intro u v
      simp only [Tensor.add, flatOf, mul_add, sum_add_distrib]
    · intro θ W W' B B' _
      refine ⟨fun _ => 0, by simp, fun γ γ' hγ => ?_⟩
      refine (key θ γ γ' hγ).congr_deriv ?_
      simp
  | cons l ls ih =>
    obtain ⟨⟨Λ, hΛ⟩, hJ⟩ := hJ
    obtain ⟨G, hG, g1, g2⟩ := ih (s := l.out s) (x := l.eval s x) hn hJ
    have still : ∀ θ γ γ', Curve s x γ γ' θ → Curve (l.out s) (l.eval s x) (fun τ => l.eval s (γ τ)) (Λ γ') θ := fun θ γ γ' hγ => hΛ.still hγ
    refine ⟨fun γ' => G (Λ γ'), fun u v => by simp only [hΛ.add, hG], fun θ γ γ' hγ => g1 θ _ _ (still θ γ γ' hγ), ?_⟩
    intro θ W W' B B' hP
    obtain ⟨P, hPc⟩ := hΛ.curve θ (W 0) (W' 0) (B 0) (B' 0) (hP 0 l rfl)
    obtain ⟨D, d1, d2⟩ := g2 θ (fun i => W (i + 1)) (fun i => W' (i + 1)) (fun i => B (i + 1)) (fun i => B' (i + 1)) (fun i m hm => hP (i + 1) m (by simpa using hm))
    have hzero : Λ (fun _ _ _ => 0) = fun _ _ _ => 0 := by
      have := hΛ.add (fun _ _ _ => 0) (fun _ _ _ => 0)
      have e : Tensor.add (fun _ _ _ => 0) (fun _ _ _ => 0) = fun _ _ _ => 0 := by funext i j k; simp [Tensor.add]
      rw [e] at this
      funext i j k
      have := congrFun (congrFun (congrFun this i) j) k
      simp only [Tensor.add] at this
      linarith
    have hconst : Curve s x (fun _ => x) (fun _ _ _ => 0) θ := ⟨rfl, fun i _ j _ k _ => hasDerivAt_const _ _⟩
    refine ⟨fun i => Nat.casesOn i (G P) D, ?_, ?_⟩
    · intro i m hm
      cases i with
      | zero =>
        obtain rfl : l = m := by simpa using hm
        have := g1 θ _ _ (hPc _ _ hconst)
        rw [hG, hzero] at this
        have h0 : G (fun _ _ _ => 0) = 0 := by
          have := hG (fun _ _ _ => 0) (fun _ _ _ => 0)
          have e : Tensor.add (fun _ _ _ => 0) (fun _ _ _ => 0) = fun _ _ _ => 0 := by funext i j k; simp [Tensor.add]
          rw [e] at this
          linarith
        rw [h0, zero_add] at this
        refine this.congr_of_eventuallyEq (Filter.Eventually.of_forall fun τ => ?_)
        simp only [List.set_cons_zero, netLoss_cons, withParams_out]
      | succ i =>
        have := d1 i m (by simpa using hm)
        refine this.congr_of_eventuallyEq (Filter.Eventually.of_forall fun τ => ?_)
        simp only [List.set_cons_succ, netLoss_cons]
    · intro γ γ' hγ
      have := d2 _ _ (hPc γ γ' hγ)
      rw [hG] at this
      have e : G (Λ γ') + ∑ i ∈ range (l :: ls).length, (Nat.casesOn i (G P) D : ℝ) = G (Λ γ') + G P + ∑ i ∈ range ls.length, D i := by
        rw [List.length_cons, sum_range_succ']
        show G (Λ γ') + (∑ i ∈ range ls.length, D i + G P) = _
        ring
      rw [e]
      refine this.congr_of_eventuallyEq (Filter.Eventually.of_forall fun τ => ?_)
      simp only [netWith_cons, netLoss_cons, withParams_out]

end Cnn
