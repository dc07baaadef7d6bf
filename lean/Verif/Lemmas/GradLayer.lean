import Verif.Lemmas.GradEntry
import Verif.Lemmas.GradOrder
import Verif.Lemmas.RoundingModel
/-! Back-propagation through one layer in rounded arithmetic (C98). -/
namespace Cnn
open Finset

variable {α : Type} [Zero α] [One α] [Add α] [Sub α] [Mul α] [Div α] [Neg α] {E : Env α} {p : Precision} {F : Floating E.num p} {q : Conversion}

/-- The back-propagation of a layer object that has made `yo` of the input `y`. -/
def Body.BacksNear (F : Floating E.num p) (q : Conversion) (b : Nat) (first : Bool) (s : Shape) (l : NetLayer) (x e : Tensor)
    (y yo : Nat → Nat → Nat → α) (body : Body α) : Prop :=
  l.Trains first s → ∀ (G X Z : Matrix α) (g d : Tensor), G.Near F (l.out s) g d → X.Shows s.X s.Y s.Z (fun i j k => E.toFloat (y i j k)) →
    Z.Shows (l.out s).X (l.out s).Y (l.out s).Z (fun i j k => E.toFloat (yo i j k)) → NetLayer.RecRoom q s x e →
    NetLayer.RecRoom q (l.out s) (l.eval s x) (l.err p s x e) → (first = true ∨ l.PullRoom p q s x e g d) → l.ParamRoom p q s x e g d →
    ∃ D body', body.backward E.num .dimsFirst X Z G b first = .ok (D, body') ∧
      (first = false → D.Near F s (l.pull s x g) (l.pullErr p q s x e g d)) ∧
      (l.params ≠ none → ∃ DW DB, body'.stored b = some (DW, DB) ∧ DW.Near F (l.weightShape s) (l.weightGrad s x g) (l.weightErr p q s x e g d) ∧
        DB.Near F ⟨l.biasCount, 1, 1⟩ (fun f _ _ => l.biasGrad s g f) (fun f _ _ => l.biasErr p s g d f))

theorem Floating.Appr.grown_zero {k : Nat} {M m : ℝ} {a : α} {y : ℝ} (h : Floating.Appr F k M m a y) : F.Fin a ∧ |F.val a - y| ≤ p.grown k 0 M m :=
  Floating.Appr.grown (n := 0) (by simpa using h)

theorem flat2 {β : Type} [AddCommMonoid β] (W H : Nat) (T : Nat → Nat → β) :
    ∑ m ∈ range (W * H), T (m % W) (m / W % H) = ∑ a ∈ range W, ∑ c ∈ range H, T a c := by
  rw [← Floating.total_layer (W := W) (H := H) (Z := 1) (k := 0) Nat.one_pos T, Nat.mul_one]
  refine sum_congr rfl fun m hm => ?_
  rw [if_pos]
  rw [Nat.div_div_eq_div_mul]
  exact Nat.div_eq_of_lt (mem_range.1 hm)

theorem conv_backs (hp : p.Ok) (hE : E.Rounds F q) {K : Kernel α} {A B C M : Nat} {w : Tensor} {β : Nat → ℝ} {b : Nat} {first : Bool} {s : Shape} {x e : Tensor}
    {y yo : Nat → Nat → Nat → α} (hB : (Body.kernel K).Holds F b s (.conv A B C M w β)) (hR : (Body.kernel K).Slotted b first s)
    (hf : (NetLayer.conv A B C M w β).Fits s)
    (hy : ∀ i < s.X, ∀ j < s.Y, ∀ k < s.Z, F.Fin (y i j k) ∧ |F.val (y i j k) - x i j k| ≤ e i j k) :
    (Body.kernel K).BacksNear F q b first s (.conv A B C M w β) x e y yo := by
  intro htr G X' Z' g d hG hX' hZ' hr1 hr2 hpr hpa
  obtain ⟨w', β', hK, hw', _⟩ := hB
  obtain ⟨hw, hb⟩ := hR
  obtain ⟨hz, hfit⟩ := hf
  obtain ⟨g', hG, hg⟩ := hG
  simp only [NetLayer.out] at hG hg
  have hrec : ∀ i < s.X, ∀ j < s.Y, ∀ k < s.Z, F.Fin (E.toFloat (y i j k)) ∧ |F.val (E.toFloat (y i j k)) - x i j k| ≤ NetLayer.recErr q x e i j k :=
    fun i hi j hj k hk => Floating.rec_near hE (hy i hi j hj k hk).1 (hy i hi j hj k hk).2 (hr1 i hi j hj k hk)
  have hXC : X'.Shows s.X s.Y C (fun i j k => E.toFloat (y i j k)) := hz ▸ hX'
  obtain ⟨DW, eW, sW⟩ := Kernel.getdLdW_shows hK hXC hfit hG
  obtain ⟨DB, eB, sB⟩ := Kernel.getdLdB_ordered hK hG
  have hx := hfit.x
  have hy' := hfit.y
  have hC := (Kernel.sizes hK).2.2.1
  have hst : (Body.kernel { K with wGrads := K.wGrads.set b DW, bGrads := K.bGrads.set b DB }).stored b = some (DW, DB) := by
    simp [Body.stored, hw, hb]
  have nW : DW.Near F ((NetLayer.conv A B C M w β).weightShape s) ((NetLayer.conv A B C M w β).weightGrad s x g)
      ((NetLayer.conv A B C M w β).weightErr p q s x e g d) := by
    refine ⟨_, sW, ?_⟩
    intro a ha b hb m hm
    have ha : a < A := ha
    have hb : b < B := hb
    have hm : m < C * M := hm
    have hmc : m % C < s.Z := by rw [hz]; exact Nat.mod_lt _ hC
    have hmd : m / C < M := Nat.div_lt_of_lt_mul hm
    have hr := hpa.1 a ha b hb m hm
    unfold Precision.Room at hr
    simp only [NetLayer.weightDepth, NetLayer.weightProducts, NetLayer.weightGrad] at hr
    rw [add_comm _ 1] at hr
    have := Floating.Appr.dot2 (F := F) hp (s.X - A + 1) (s.Y - B + 1) (a := fun i j => E.toFloat (y (a + i) (b + j) (m % C))) (b := fun i j => g' i j (m / C))
      (g := fun i j => x (a + i) (b + j) (m % C)) (d := fun i j => NetLayer.recErr q x e (a + i) (b + j) (m % C)) (x := fun i j => g i j (m / C))
      (e := fun i j => d i j (m / C)) (fun i hi j hj => hrec _ (by omega) _ (by omega) _ hmc) (fun i hi j hj => hg i hi j hj _ hmd) hr
    rw [add_comm 1] at this
    exact this.grown
  have nB : DB.Near F ⟨(NetLayer.conv A B C M w β).biasCount, 1, 1⟩ (fun f _ _ => (NetLayer.conv A B C M w β).biasGrad s g f)
      (fun f _ _ => (NetLayer.conv A B C M w β).biasErr p s g d f) := by
    refine ⟨_, sB, ?_⟩
    intro f hf j hj k hk
    have hf : f < M := hf
    have hr := hpa.2 f hf
    unfold Precision.Room at hr
    simp only [NetLayer.biasDepth, NetLayer.biasGrad, Nat.cast_zero, zero_mul, add_zero] at hr
    rw [← flat2 _ _ (fun i j => NetLayer.upto g d i j f)] at hr
    have := Floating.Appr.sumTo (F := F) hp (k := 0) ((s.X - A + 1) * (s.Y - B + 1))
      (M := fun m => NetLayer.upto g d (m % (s.X - A + 1)) (m / (s.X - A + 1) % (s.Y - B + 1)) f)
      (m := fun m => NetLayer.mags g (m % (s.X - A + 1)) (m / (s.X - A + 1) % (s.Y - B + 1)) f)
      (z := fun m => g (m % (s.X - A + 1)) (m / (s.X - A + 1) % (s.Y - B + 1)) f)
      (t := fun m => g' (m % (s.X - A + 1)) (m / (s.X - A + 1) % (s.Y - B + 1)) f) (fun m hm => by
        obtain ⟨g1, g2⟩ := hg _ (Nat.mod_lt m (by omega)) _ (Nat.mod_lt (m / (s.X - A + 1)) (by omega)) f hf
        exact Floating.Appr.of g1 g2) (by rw [zero_add]; exact hr)
    rw [zero_add, flat2 _ _ (fun i j => NetLayer.upto g d i j f), flat2 _ _ (fun i j => NetLayer.mags g i j f), flat2 _ _ (fun i j => g i j f)] at this
    refine ⟨this.fin, ?_⟩
    simp only [NetLayer.biasErr, Precision.grown, NetLayer.biasDepth, NetLayer.biasGrad, Nat.cast_zero, zero_mul, add_zero]
    exact this.err
  cases first with
  | true =>
    refine ⟨Matrix.empty, .kernel { K with wGrads := K.wGrads.set b DW, bGrads := K.bGrads.set b DB }, ?_, by simp, ?_⟩
    · simp only [Body.backward]
      unfold Kernel.backward
      rw [eW, Res.bind_ok, setSlot, if_pos hw, Res.bind_ok, eB, Res.bind_ok, setSlot, if_pos hb]
      rfl
    · exact fun _ => ⟨DW, DB, hst, nW, nB⟩
  | false =>
    simp only [NetLayer.Trains, Bool.false_eq_true, false_or] at htr hpr
    obtain ⟨hsq, hpad⟩ := htr
    have hG' : G.Shows (s.X - A + 1) (s.X - A + 1) M g' := by rw [hsq] at hG ⊢; exact hG
    obtain ⟨D, eD, sD⟩ := Kernel.getdLdX_shows hK hXC (S := s.X - A + 1) (by omega) (by omega) (by omega) hG'
      (by rw [← hsq] at hpad; simpa using hpad)
    refine ⟨D, .kernel { K with wGrads := K.wGrads.set b DW, bGrads := K.bGrads.set b DB }, ?_, ?_, ?_⟩
    · simp only [Body.backward]
      unfold Kernel.backward
      rw [eW, Res.bind_ok, setSlot, if_pos hw, Res.bind_ok, eB, Res.bind_ok, setSlot, if_pos hb]
      simp only [Res.bind_ok, Bool.false_eq_true, if_false]
      rw [eD]; rfl
    · intro _
      refine ⟨_, by rw [hz]; exact sD, ?_⟩
      intro i hi j hj k hk
      have hr := hpr.1 i hi j hj k hk
      simp only [NetLayer.pullErr, NetLayer.pullDepth, NetLayer.pullProducts, NetLayer.pullLarge, NetLayer.pullSmall, ← hsq] at hr ⊢
      exact (Floating.conv_pull hp x rfl (by rw [hsq]) hw' (fun i hi j hj k hk => hg i hi j (by rw [← hsq]; exact hj) k hk) (by omega) hr).grown
    · exact fun _ => ⟨DW, DB, hst, nW, nB⟩

theorem full_backs (hp : p.Ok) (hE : E.Rounds F q) {L : Connected α} {n : Nat} {w : Tensor} {β : Nat → ℝ} {b : Nat} {first : Bool} {s : Shape} {x e : Tensor}
    {y yo : Nat → Nat → Nat → α} (hB : (Body.connected L).Holds F b s (.full n w β)) (hR : (Body.connected L).Slotted b first s)
    (hy : ∀ i < s.X, ∀ j < s.Y, ∀ k < s.Z, F.Fin (y i j k) ∧ |F.val (y i j k) - x i j k| ≤ e i j k) :
    (Body.connected L).BacksNear F q b first s (.full n w β) x e y yo := by
  intro htr G X' Z' g d hG hX' hZ' hr1 hr2 hpr hpa
  obtain ⟨w', β', hL, hw', _⟩ := hB
  obtain ⟨hw, hb, hid⟩ := hR
  obtain ⟨g', hG, hg⟩ := hG
  simp only [NetLayer.out] at hG hg
  have hrec : ∀ i < s.X, ∀ j < s.Y, ∀ k < s.Z, F.Fin (E.toFloat (y i j k)) ∧ |F.val (E.toFloat (y i j k)) - x i j k| ≤ NetLayer.recErr q x e i j k :=
    fun i hi j hj k hk => Floating.rec_near hE (hy i hi j hj k hk).1 (hy i hi j hj k hk).2 (hr1 i hi j hj k hk)
  have hG1 : G.Shows n 1 1 (fun i _ _ => g' i 0 0) := hG.congr (by
    intro i _ j hj k hk
    obtain rfl : j = 0 := by omega
    obtain rfl : k = 0 := by omega
    rfl)
  obtain ⟨DW, eW, sW⟩ := Connected.getdLdW_shows hX' hG1 hL.weights.good
  have hst : (Body.connected { L with wGrads := L.wGrads.set b DW, bGrads := L.bGrads.set b G }).stored b = some (DW, G) := by
    simp [Body.stored, hw, hb]
  have nW : DW.Near F ((NetLayer.full n w β).weightShape s) ((NetLayer.full n w β).weightGrad s x g)
      ((NetLayer.full n w β).weightErr p q s x e g d) := by
    refine ⟨_, sW, ?_⟩
    intro i hi k hk c hc
    have hi : i < n := hi
    have hk : k < s.X * s.Y * s.Z := hk
    obtain ⟨k1, k2, k3⟩ := unflat_lt hX'.good.x hX'.good.y hk
    have hr := hpa.1 i hi k hk c hc
    unfold Precision.Room at hr
    simp only [NetLayer.weightDepth, NetLayer.weightProducts, NetLayer.weightGrad] at hr
    have := Floating.Appr.dot (F := F) hp 1 (a := fun _ => g' i 0 0) (b := fun _ => flatOf s.X s.Y (fun i j k => E.toFloat (y i j k)) k)
      (g := fun _ => g i 0 0) (d := fun _ => d i 0 0) (x := fun _ => flatOf s.X s.Y x k) (e := fun _ => flatOf s.X s.Y (NetLayer.recErr q x e) k)
      (fun _ _ => hg i hi 0 Nat.one_pos 0 Nat.one_pos) (fun _ _ => hrec _ k1 _ k2 _ k3) (by rw [sum_range_one]; exact hr)
    rw [sum_range_one, sum_range_one, sum_range_one] at this
    exact this.grown
  have nB : G.Near F ⟨(NetLayer.full n w β).biasCount, 1, 1⟩ (fun f _ _ => (NetLayer.full n w β).biasGrad s g f)
      (fun f _ _ => (NetLayer.full n w β).biasErr p s g d f) := by
    refine ⟨_, hG1, ?_⟩
    intro f hf j hj k hk
    obtain ⟨g1, g2⟩ := hg f hf 0 Nat.one_pos 0 Nat.one_pos
    refine ⟨g1, ?_⟩
    simpa [NetLayer.biasErr, Precision.grown, NetLayer.biasDepth, NetLayer.biasGrad, NetLayer.upto, NetLayer.mags] using g2
  cases first with
  | true =>
    refine ⟨Matrix.empty, .connected { L with wGrads := L.wGrads.set b DW, bGrads := L.bGrads.set b G }, ?_, by simp, ?_⟩
    · simp only [Body.backward]
      unfold Connected.backward
      rw [eW, Res.bind_ok, setSlot, if_pos hw, Res.bind_ok, setSlot, if_pos hb, Res.bind_ok]
      rfl
    · exact fun _ => ⟨DW, G, hst, nW, nB⟩
  | false =>
    have hid : L.inputDim = dimN s.X s.Y s.Z := by simpa using hid
    simp only [Bool.false_eq_true, false_or] at hpr
    obtain ⟨D, eD, sD⟩ := Connected.getdLdX_shows hL hid hX'.good.x hX'.good.y hG1
    refine ⟨D, .connected { L with wGrads := L.wGrads.set b DW, bGrads := L.bGrads.set b G }, ?_, ?_, ?_⟩
    · simp only [Body.backward]
      unfold Connected.backward
      rw [eW, Res.bind_ok, setSlot, if_pos hw, Res.bind_ok, setSlot, if_pos hb, Res.bind_ok]
      simp only [Bool.false_eq_true, if_false]
      rw [eD]; rfl
    · intro _
      refine ⟨_, sD, ?_⟩
      intro i hi j hj k hk
      have hr := hpr.1 i hi j hj k hk
      unfold Precision.Room at hr
      have hfl : fl s.X s.Y i j k < s.X * s.Y * s.Z := fl_lt hi hj hk
      have h := Floating.Appr.dot (F := F) hp n (a := fun m => w' m (fl s.X s.Y i j k)) (b := fun m => g' m 0 0) (g := fun m => w m (fl s.X s.Y i j k) 0)
        (d := fun _ => 0) (x := fun m => g m 0 0) (e := fun m => d m 0 0) (fun m hm => by
          obtain ⟨a, b⟩ := hw' m hm _ hfl
          exact ⟨a, by rw [b]; simp⟩) (fun m hm => hg m hm 0 Nat.one_pos 0 Nat.one_pos) (by
          simp only [add_zero]
          rw [add_comm 1 n]
          exact hr)
      simp only [add_zero] at h
      rw [add_comm 1 n] at h
      exact h.grown
    · exact fun _ => ⟨DW, G, hst, nW, nB⟩

theorem act_backs (hp : p.Ok) (hE : E.Rounds F q) {f : ActFn} {b : Nat} {first : Bool} {s : Shape} {x e : Tensor} {y yo : Nat → Nat → Nat → α}
    (hy : ∀ i < s.X, ∀ j < s.Y, ∀ k < s.Z, F.Fin (y i j k) ∧ |F.val (y i j k) - x i j k| ≤ e i j k)
    (hyo : ∀ i < s.X, ∀ j < s.Y, ∀ k < s.Z, F.Fin (yo i j k) ∧
      |F.val (yo i j k) - (NetLayer.act f).eval s x i j k| ≤ (NetLayer.act f).err p s x e i j k)
    (hf : ∀ i < s.X, ∀ j < s.Y, ∀ k < s.Z, yo i j k = f.eval E.num (y i j k)) :
    (Body.activation (Activation.new f) : Body α).BacksNear F q b first s (.act f) x e y yo := by
  intro htr G X' Z' g d hG hX' hZ' hr1 hr2 hpr hpa
  obtain ⟨g', hG, hg⟩ := hG
  simp only [NetLayer.out] at hG hZ' hg hr2
  obtain ⟨H, e1, s1⟩ := Matrix.ofExpr_shows (MExpr.un_shows (f.grad E.num) hZ'.expr) id
  obtain ⟨T, e2, s2⟩ := MExpr.bin_shows (· * ·) hG.expr s1.expr
  obtain ⟨D, e3, s3⟩ := Matrix.ofExpr_shows s2 id
  refine ⟨D, .activation (Activation.new f), ?_, ?_, fun h => absurd rfl h⟩
  · simp [Body.backward, Activation.backward, Activation.gradient, Activation.new, e1, e2, e3]
  · intro hfirst
    have hpr := hpr.resolve_left (by simp [hfirst])
    refine ⟨_, s3, ?_⟩
    intro i hi j hj k hk
    obtain ⟨g1, g2⟩ := hg i hi j hj k hk
    obtain ⟨y1, y2⟩ := hy i hi j hj k hk
    obtain ⟨o1, o2⟩ := hyo i hi j hj k hk
    obtain ⟨r1, r2⟩ := Floating.rec_near hE o1 o2 (hr2 i hi j hj k hk)
    obtain ⟨t1, t2⟩ := Floating.slope_near hp hE f y1 y2 (by rw [hf i hi j hj k hk]) r1 r2 (hpr.2 i hi j hj k hk)
    have hr := hpr.1 i hi j hj k hk
    refine Floating.mul_near hp g1 g2 t1 t2 ?_
    have h0 : 0 ≤ (|g i j k| + d i j k) * (|actSlope f (actSpec f (x i j k))| + p.slopeErr (x i j k) (e i j k)
        (NetLayer.recErr q ((NetLayer.act f).eval s x) ((NetLayer.act f).err p s x e) i j k) f) :=
      mul_nonneg ((abs_nonneg _).trans (abs_le_of_near g2)) ((abs_nonneg _).trans (abs_le_of_near t2))
    have := hp.η0
    exact Floating.le_of_room hp (by
      simp only [NetLayer.pullProducts, NetLayer.pullLarge, NetLayer.upto, Nat.cast_one, one_mul]
      linarith) (by
      simp only [NetLayer.pullProducts, NetLayer.pullLarge, NetLayer.upto, Nat.cast_one, one_mul]
      linarith) hr

theorem avg_backs (hp : p.Ok) {P : Pooling} {px py sx sy : Nat} {b : Nat} {first : Bool} {s : Shape} {x e : Tensor} {y yo : Nat → Nat → Nat → α}
    (hB : (Body.pooling P).Holds F b s (.pool .avg px py sx sy)) (hf : (NetLayer.pool .avg px py sx sy).Fits s) (ind : Matrix Dim3) :
    (Body.pooling { P with indices := P.indices.set b ind }).BacksNear F q b first s (.pool .avg px py sx sy) x e y yo := by
  intro htr G X' Z' g d hG hX' hZ' hr1 hr2 hpr hpa
  obtain ⟨ht, hd, hs, hb⟩ := hB
  have hf : PoolFits s.X s.Y px py sx sy := hf
  obtain ⟨g', hG, hg⟩ := hG
  simp only [NetLayer.out] at hG hg
  obtain ⟨D, eD, sD⟩ := Pooling.backward_avg_ordered E.num { P with indices := P.indices.set b ind } X' Z' G b hX'.dim hX'.good
    hd hs hf (by simpa using hb) ht g' hG
  refine ⟨D, .pooling { P with indices := P.indices.set b ind }, by simp only [Body.backward, eD, Res.bind_ok], ?_, fun h => absurd rfl h⟩
  intro hfirst
  have hpr := hpr.resolve_left (by simp [hfirst])
  refine ⟨_, sD, ?_⟩
  intro i hi j hj k hk
  exact (Floating.avg_pull hp (Nat.mul_pos hf.px0 hf.py0) (lt_of_le_of_lt (Nat.mul_le_mul hf.x hf.y) hX'.good.bounds.1) hg x hk
    (hpr.1 i hi j hj k hk)).grown

theorem select_backs (hp : p.Ok) {P : Pooling} {t : PoolType} {px py sx sy : Nat} {b : Nat} {first : Bool} {s : Shape} {x e : Tensor}
    {y yo : Nat → Nat → Nat → α} (hB : (Body.pooling P).Holds F b s (.pool t px py sx sy)) (hf : (NetLayer.pool t px py sx sy).Fits s)
    (hy : ∀ i < s.X, ∀ j < s.Y, ∀ k < s.Z, F.Fin (y i j k) ∧ |F.val (y i j k) - x i j k| ≤ e i j k) (hav : t ≠ .avg) {ind : Matrix Dim3}
    {u v : Nat → Nat → Nat → Nat} (hind : ind.Shows (windows s.X px sx) (windows s.Y py sy) s.Z (fun i j k => dimN (u i j k) (v i j k) k))
    (hsel : ∀ i < windows s.X px sx, ∀ j < windows s.Y py sy, ∀ k < s.Z,
        (i * sx ≤ u i j k ∧ u i j k < i * sx + px) ∧ (j * sy ≤ v i j k ∧ v i j k < j * sy + py) ∧
        (Pooling.Ordered E.num P.type s.X s.Y s.Z y →
          ∀ a < px, ∀ c < py, Pooling.better E.num P.type (y (u i j k) (v i j k) k) (y (i * sx + a) (j * sy + c) k) = false)) :
    (Body.pooling { P with indices := P.indices.set b ind }).BacksNear F q b first s (.pool t px py sx sy) x e y yo := by
  intro htr G X' Z' g d hG hX' hZ' hr1 hr2 hpr hpa
  obtain ⟨ht, hd, hs, hb⟩ := hB
  have hf : PoolFits s.X s.Y px py sx sy := hf
  obtain ⟨g', hG, hg⟩ := hG
  simp only [NetLayer.out] at hG hg
  have hbox : ∀ a < windows s.X px sx, ∀ c < windows s.Y py sy, ∀ i j, NetLayer.Inside px py sx sy a c i j → i < s.X ∧ j < s.Y := by
    intro a ha c hc i j h
    have := windows_inside hf.x ha
    have := windows_inside hf.y hc
    unfold NetLayer.Inside at h
    omega
  have hin : ∀ i < windows s.X px sx, ∀ j < windows s.Y py sy, ∀ k < s.Z, u i j k < s.X ∧ v i j k < s.Y := fun i hi j hj k hk =>
    hbox i hi j hj _ _ ⟨(hsel i hi j hj k hk).1, (hsel i hi j hj k hk).2.1⟩
  obtain ⟨D, eD, sD⟩ := Pooling.backward_select_ordered E.num { P with indices := P.indices.set b ind } X' Z' G b ind hX'.dim hX'.good
    (by show P.type ≠ _; rw [ht]; exact hav) (by simp [hb]) u v (fun _ _ k => k) hind
    (fun i hi j hj k hk => ⟨(hin i hi j hj k hk).1, (hin i hi j hj k hk).2, hk⟩) g' hG
  refine ⟨D, .pooling { P with indices := P.indices.set b ind }, by simp only [Body.backward, eD, Res.bind_ok], ?_, fun h => absurd rfl h⟩
  intro hfirst
  have hpr := hpr.resolve_left (by simp [hfirst])
  refine ⟨_, sD, ?_⟩
  intro i hi j hj k hk
  have hr := hpr.1 i hi j hj k hk
  rw [ht] at hsel
  have e1 : ∀ {a c i' j' : Nat}, NetLayer.Inside px py sx sy a c i' j' → a * sx + (i' - a * sx) = i' ∧ c * sy + (j' - c * sy) = j' ∧
      i' - a * sx < px ∧ j' - c * sy < py := by
    intro a c i' j' h
    unfold NetLayer.Inside at h
    omega
  cases t with
  | avg => exact absurd rfl hav
  | max =>
    refine (Floating.select_pull (F := F) hp (R := (· < ·)) (y := fun i j k => F.val (y i j k)) (x := x) (lo := fun i j k => x i j k - e i j k)
      (hi := fun i j k => x i j k + e i j k)
      (U' := fun a c k => a * sx + NetLayer.chosen (· ≤ ·) px py sx sy x a c k % px)
      (V' := fun a c k => c * sy + NetLayer.chosen (· ≤ ·) px py sx sy x a c k / px) (by intro a b c h1 h2; linarith) ?_ hf ?_ ?_ hg hk hr).grown_zero
    · intro i hi j hj k hk
      have h := abs_le.1 (hy i hi j hj k hk).2
      have := (abs_nonneg _).trans (hy i hi j hj k hk).2
      refine ⟨?_, ?_, ?_, ?_⟩ <;> linarith
    · intro a ha c hc k hk
      obtain ⟨h1, h2, h3⟩ := hsel a ha c hc k hk
      have h3 := h3 ⟨F.Fin, Floating.weakOn_lt, fun i hi j hj k hk => (hy i hi j hj k hk).1⟩
      refine ⟨⟨h1, h2⟩, ?_⟩
      intro i' j' h
      obtain ⟨p1, p2, p3, p4⟩ := e1 h
      have h4 := h3 _ p3 _ p4
      rw [p1, p2] at h4
      obtain ⟨b1, b2⟩ := hbox a ha c hc i' j' h
      have h4 : ¬ E.num.lt (y (u a c k) (v a c k) k) (y i' j' k) = true := by simpa [Pooling.better] using h4
      rwa [F.lt _ _ (hy _ (hin a ha c hc k hk).1 _ (hin a ha c hc k hk).2 k hk).1 (hy _ b1 _ b2 k hk).1] at h4
    · intro a ha c hc k hk
      obtain ⟨h1, h2, h3⟩ := NetLayer.chosen_mem (le := (· ≤ ·)) sx sy x a c k hf.px0
        (exists_max_image (range (px * py)) _ ⟨0, mem_range.2 (Nat.mul_pos hf.px0 hf.py0)⟩)
      refine ⟨⟨⟨Nat.le_add_right _ _, Nat.add_lt_add_left h1 _⟩, Nat.le_add_right _ _, Nat.add_lt_add_left h2 _⟩, ?_⟩
      intro i' j' h
      obtain ⟨p1, p2, p3, p4⟩ := e1 h
      have h4 := h3 _ p3 _ p4
      rw [p1, p2] at h4
      exact not_lt.2 h4
  | min =>
    refine (Floating.select_pull (F := F) hp (R := (· > ·)) (y := fun i j k => F.val (y i j k)) (x := x) (lo := fun i j k => x i j k + e i j k)
      (hi := fun i j k => x i j k - e i j k)
      (U' := fun a c k => a * sx + NetLayer.chosen (· ≥ ·) px py sx sy x a c k % px)
      (V' := fun a c k => c * sy + NetLayer.chosen (· ≥ ·) px py sx sy x a c k / px) (by intro a b c h1 h2; linarith) ?_ hf ?_ ?_ hg hk hr).grown_zero
    · intro i hi j hj k hk
      have h := abs_le.1 (hy i hi j hj k hk).2
      have := (abs_nonneg _).trans (hy i hi j hj k hk).2
      refine ⟨?_, ?_, ?_, ?_⟩ <;> linarith
    · intro a ha c hc k hk
      obtain ⟨h1, h2, h3⟩ := hsel a ha c hc k hk
      have h3 := h3 ⟨F.Fin, Floating.weakOn_gt, fun i hi j hj k hk => (hy i hi j hj k hk).1⟩
      refine ⟨⟨h1, h2⟩, ?_⟩
      intro i' j' h
      obtain ⟨p1, p2, p3, p4⟩ := e1 h
      have h4 := h3 _ p3 _ p4
      rw [p1, p2] at h4
      obtain ⟨b1, b2⟩ := hbox a ha c hc i' j' h
      have h4 : ¬ E.num.lt (y i' j' k) (y (u a c k) (v a c k) k) = true := by simpa [Pooling.better] using h4
      rwa [F.lt _ _ (hy _ b1 _ b2 k hk).1 (hy _ (hin a ha c hc k hk).1 _ (hin a ha c hc k hk).2 k hk).1] at h4
    · intro a ha c hc k hk
      obtain ⟨h1, h2, h3⟩ := NetLayer.chosen_mem (le := (· ≥ ·)) sx sy x a c k hf.px0
        (exists_min_image (range (px * py)) (fun m => x (a * sx + m % px) (c * sy + m / px) k) ⟨0, mem_range.2 (Nat.mul_pos hf.px0 hf.py0)⟩)
      refine ⟨⟨⟨Nat.le_add_right _ _, Nat.add_lt_add_left h1 _⟩, Nat.le_add_right _ _, Nat.add_lt_add_left h2 _⟩, ?_⟩
      intro i' j' h
      obtain ⟨p1, p2, p3, p4⟩ := e1 h
      have h4 := h3 _ p3 _ p4
      rw [p1, p2] at h4
      exact not_lt.2 h4

/-- One layer, forward and backward. -/
theorem layer_backs (hp : p.Ok) (hE : E.Rounds F q) {B : Body α} {b : Nat} {first : Bool} {s : Shape} {l : NetLayer} (draws : Nat → α) (hB : B.Holds F b s l)
    (hR : B.Slotted b first s) (hf : l.Fits s) {X : Matrix α} {x e : Tensor} {y : Nat → Nat → Nat → α} (hX : X.Shows s.X s.Y s.Z y)
    (hy : ∀ i < s.X, ∀ j < s.Y, ∀ k < s.Z, F.Fin (y i j k) ∧ |F.val (y i j k) - x i j k| ≤ e i j k) (hr : l.InRange p s x e) :
    ∃ out B' yo, B.forward E.num draws X b = .ok (out, B') ∧ out.Shows (l.out s).X (l.out s).Y (l.out s).Z yo ∧
      (∀ i < (l.out s).X, ∀ j < (l.out s).Y, ∀ k < (l.out s).Z, F.Fin (yo i j k) ∧ |F.val (yo i j k) - l.eval s x i j k| ≤ l.err p s x e i j k) ∧
      B'.BacksNear F q b first s l x e y yo := by
  obtain ⟨out, B', eo, yo, so, hyo⟩ := layer_near hp draws hB hf ⟨y, hX, hy⟩ hr
  refine ⟨out, B', yo, eo, so, hyo, ?_⟩
  match B, l, hB with
  | .kernel K, .conv A B C M w β, hB =>
    have hB' := hB
    obtain ⟨w', β', hK, _⟩ := hB'
    have hX' := hX
    rw [hf.1] at hX'
    obtain ⟨out', eo', _⟩ := C33_entries K w' y β' X hK hX' hf.2
    simp only [Body.forward, eo', Res.bind_ok, Res.ok.injEq, Prod.mk.injEq] at eo
    obtain ⟨_, rfl⟩ := eo
    exact conv_backs hp hE hB hR hf hy
  | .connected L, .full n w β, hB =>
    have hB' := hB
    obtain ⟨w', β', hL, _⟩ := hB'
    have h := C37_forward E.num draws L w' β' X y hL hX
    rw [if_pos rfl] at h
    obtain ⟨out', eo', _⟩ := h
    simp only [Body.forward, eo', Res.bind_ok, Res.ok.injEq, Prod.mk.injEq] at eo
    obtain ⟨_, rfl⟩ := eo
    exact full_backs hp hE hB hR hy
  | .activation A, .act f, hB =>
    obtain rfl : A = Activation.new f := hB
    obtain ⟨out', eo', so'⟩ := C23_entrywise E.num f X y hX
    simp only [Body.forward, eo', Res.bind_ok, Res.ok.injEq, Prod.mk.injEq] at eo
    obtain ⟨rfl, rfl⟩ := eo
    refine act_backs hp hE hy hyo ?_
    intro i hi j hj k hk
    have h1 := so.entry i hi j hj k hk
    have h2 := so'.entry i hi j hj k hk
    exact Res.ok.inj (h1.symm.trans h2)
  | .pooling P, .pool t px py sx sy, hB =>
    have hB' := hB
    obtain ⟨ht, hd, hs, hb⟩ := hB'
    by_cases hav : t = .avg
    · subst hav
      obtain ⟨out', ind, eo', _⟩ := Pooling.forward_avg_ordered E.num P X y b hX hd hs hf hb ht
      simp only [Body.forward, eo', Res.bind_ok, Res.ok.injEq, Prod.mk.injEq] at eo
      obtain ⟨_, rfl⟩ := eo
      exact avg_backs hp hB hf ind
    · obtain ⟨out', ind, u, v, eo', _, hind, hsel⟩ := Pooling.forward_select E.num P X y b hX hd hs hf hb (by rw [ht]; exact hav)
      simp only [Body.forward, eo', Res.bind_ok, Res.ok.injEq, Prod.mk.injEq] at eo
      obtain ⟨_, rfl⟩ := eo
      exact select_backs hp hB hf hy hav hind fun i hi j hj k hk =>
        ⟨(hsel i hi j hj k hk).1, (hsel i hi j hj k hk).2.1, (hsel i hi j hj k hk).2.2.1⟩

end Cnn
