import Verif.Lemmas.GradClose
/-! The entries of the gradients of one layer in rounded arithmetic (C98). -/
namespace Cnn
open Finset
namespace Floating
variable {α : Type} [Zero α] [One α] [Add α] [Sub α] [Mul α] [Div α] [Neg α] {N : Num α} {p : Precision} {F : Floating N p}

theorem le_of_room (hp : p.Ok) {k : Nat} {t T : ℝ} (ht : t ≤ T) (h0 : 0 ≤ T) (h : (1 + p.u) ^ k * T ≤ p.Ω) : t ≤ p.Ω :=
  ht.trans ((le_mul_of_one_le_left h0 (one_le_pow hp k)).trans h)

/-- A scalar product. -/
theorem Appr.dot (hp : p.Ok) (n : Nat) {a b : Nat → α} {g d x e : Nat → ℝ} (ha : ∀ i < n, F.Fin (a i) ∧ |F.val (a i) - g i| ≤ d i)
    (hb : ∀ i < n, F.Fin (b i) ∧ |F.val (b i) - x i| ≤ e i)
    (hr : (1 + p.u) ^ (1 + n) * (∑ i ∈ range n, (|g i| + d i) * (|x i| + e i) + n * p.η) ≤ p.Ω) :
    Appr F (1 + n) (∑ i ∈ range n, (|g i| + d i) * (|x i| + e i) + n * p.η) (∑ i ∈ range n, |g i| * |x i|) (Cnn.sumTo n fun i => a i * b i)
      (∑ i ∈ range n, g i * x i) := by
  have hη : ∑ i ∈ range n, (|g i| + d i) * (|x i| + e i) + n * p.η = ∑ i ∈ range n, ((|g i| + d i) * (|x i| + e i) + p.η) := by
    rw [sum_add_distrib]; simp
  rw [hη] at hr ⊢
  have h0 : ∀ i < n, 0 ≤ (|g i| + d i) * (|x i| + e i) := fun i hi =>
    mul_nonneg ((abs_nonneg _).trans (abs_le_of_near (ha i hi).2)) ((abs_nonneg _).trans (abs_le_of_near (hb i hi).2))
  have h1 : ∀ i ∈ range n, 0 ≤ (|g i| + d i) * (|x i| + e i) + p.η := fun i hi => add_nonneg (h0 i (mem_range.1 hi)) hp.η0
  refine Appr.sumTo hp n (fun i hi => ?_) hr
  refine Appr.mul hp (ha i hi).1 (ha i hi).2 (hb i hi).1 (hb i hi).2 (le_of_room hp ?_ (sum_nonneg h1) hr)
  exact le_trans (le_add_of_nonneg_right hp.η0) (single_le_sum h1 (mem_range.2 hi))

/-- Two nested loops. -/
theorem Appr.dot2 (hp : p.Ok) (r n : Nat) {a b : Nat → Nat → α} {g d x e : Nat → Nat → ℝ}
    (ha : ∀ i < r, ∀ j < n, F.Fin (a i j) ∧ |F.val (a i j) - g i j| ≤ d i j) (hb : ∀ i < r, ∀ j < n, F.Fin (b i j) ∧ |F.val (b i j) - x i j| ≤ e i j)
    (hr : (1 + p.u) ^ (1 + r * n) * (∑ i ∈ range r, ∑ j ∈ range n, (|g i j| + d i j) * (|x i j| + e i j) + (r * n : Nat) * p.η) ≤ p.Ω) :
    Appr F (1 + r * n) (∑ i ∈ range r, ∑ j ∈ range n, (|g i j| + d i j) * (|x i j| + e i j) + (r * n : Nat) * p.η)
      (∑ i ∈ range r, ∑ j ∈ range n, |g i j| * |x i j|) (Cnn.sumTo2 r n fun i j => a i j * b i j) (∑ i ∈ range r, ∑ j ∈ range n, g i j * x i j) := by
  have hη : ∑ i ∈ range r, ∑ j ∈ range n, (|g i j| + d i j) * (|x i j| + e i j) + (r * n : Nat) * p.η =
      ∑ i ∈ range r, ∑ j ∈ range n, ((|g i j| + d i j) * (|x i j| + e i j) + p.η) := by
    simp only [sum_add_distrib, sum_const, card_range, nsmul_eq_mul]; push_cast; ring
  rw [hη] at hr ⊢
  have h0 : ∀ i < r, ∀ j < n, 0 ≤ (|g i j| + d i j) * (|x i j| + e i j) := fun i hi j hj =>
    mul_nonneg ((abs_nonneg _).trans (abs_le_of_near (ha i hi j hj).2)) ((abs_nonneg _).trans (abs_le_of_near (hb i hi j hj).2))
  have h1 : ∀ i < r, ∀ j ∈ range n, 0 ≤ (|g i j| + d i j) * (|x i j| + e i j) + p.η := fun i hi j hj => add_nonneg (h0 i hi j (mem_range.1 hj)) hp.η0
  have h2 : ∀ i ∈ range r, 0 ≤ ∑ j ∈ range n, ((|g i j| + d i j) * (|x i j| + e i j) + p.η) := fun i hi => sum_nonneg (h1 i (mem_range.1 hi))
  refine Appr.sumTo2 hp r n (fun i hi j hj => ?_) hr
  refine Appr.mul hp (ha i hi j hj).1 (ha i hi j hj).2 (hb i hi j hj).1 (hb i hi j hj).2 (le_of_room hp ?_ (sum_nonneg h2) hr)
  exact le_trans (le_add_of_nonneg_right hp.η0) ((single_le_sum (h1 i hi) (mem_range.2 hj)).trans
    (single_le_sum (f := fun i => ∑ j ∈ range n, ((|g i j| + d i j) * (|x i j| + e i j) + p.η)) h2 (mem_range.2 hi)))

/-- The numbers recorded as `float`. -/
theorem rec_near {E : Env α} {F : Floating E.num p} {q : Conversion} (hE : E.Rounds F q) {a : α} {x e : ℝ} (ha : F.Fin a)
    (hx : |F.val a - x| ≤ e) (hr : |x| + e ≤ q.Ω) : F.Fin (E.toFloat a) ∧ |F.val (E.toFloat a) - x| ≤ q.err x e := by
  have h1 := abs_le_of_near hx
  obtain ⟨h2, h3⟩ := hE.toFloat a ha (h1.trans hr)
  refine ⟨h2, ?_⟩
  have := abs_sub_le (F.val (E.toFloat a)) (F.val a) x
  have := mul_le_mul_of_nonneg_left h1 hE.u0
  unfold Conversion.err
  linarith

/-! ### Convolution -/

theorem conv_pull (hp : p.Ok) {A B C M S : Nat} {w : Tensor} {β : Nat → ℝ} {w' : Nat → Nat → Nat → α} {s : Shape} {g d : Tensor} {g' : Nat → Nat → Nat → α} (x : Tensor)
    (hX : s.X - A + 1 = S) (hY : s.Y - B + 1 = S)
    (hw : ∀ a < A, ∀ b < B, ∀ c < C * M, F.Fin (w' a b c) ∧ F.val (w' a b c) = w a b c)
    (hg : ∀ i < S, ∀ j < S, ∀ k < M, F.Fin (g' i j k) ∧ |F.val (g' i j k) - g i j k| ≤ d i j k) {i j c : Nat} (hc : c < C)
    (hr : p.Room (S * S + M + 1) (M * (S * S)) ((NetLayer.conv A B C M (fun a b c => |w a b c|) β).pull s x (NetLayer.upto g d) i j c)) :
    Appr F (S * S + M + 1) ((NetLayer.conv A B C M (fun a b c => |w a b c|) β).pull s x (NetLayer.upto g d) i j c + (M * (S * S) : Nat) * p.η)
      ((NetLayer.conv A B C M (fun a b c => |w a b c|) β).pull s x (NetLayer.mags g) i j c)
      (sumTo M fun f => Kernel.gradTerm A B C S w' g' f i j c) ((NetLayer.conv A B C M w β).pull s x g i j c) := by
  have key : ∀ w g : Tensor, (NetLayer.conv A B C M w β).pull s x g i j c = ∑ f ∈ range M, ∑ a ∈ range S, ∑ b ∈ range S,
      Kernel.pad A B S w (f * C + c) (i + a) (j + b) * g (S - 1 - a) (S - 1 - b) f := by
    intro w g
    simp only [NetLayer.pull, hX, hY]
    refine sum_congr rfl fun f _ => ?_
    rw [← Kernel.gradTerm_eq (S := S), Kernel.gradTerm, sumTo2_eq]
  rw [key, key, key]
  unfold Precision.Room at hr
  rw [key] at hr
  have hpad : ∀ m u v, Kernel.pad A B S (fun a b c => |w a b c|) m u v = |Kernel.pad A B S w m u v| := by
    intro m u v
    unfold Kernel.pad
    split <;> simp
  simp only [hpad, NetLayer.upto, NetLayer.mags] at hr ⊢
  have hη : ((M * (S * S) : Nat) : ℝ) * p.η = ∑ f ∈ range M, ((S * S : Nat) : ℝ) * p.η := by simp; ring
  rw [hη, ← sum_add_distrib] at hr ⊢
  have hpw : ∀ f < M, ∀ u v, F.Fin (Kernel.pad A B S w' (f * C + c) u v) ∧
      |F.val (Kernel.pad A B S w' (f * C + c) u v) - Kernel.pad A B S w (f * C + c) u v| ≤ 0 := by
    intro f hf u v
    unfold Kernel.pad
    split
    · rename_i h
      obtain ⟨h1, h2⟩ := hw (u - (S - 1)) (by omega) (v - (S - 1)) (by omega) (f * C + c) (by nlinarith)
      exact ⟨h1, by rw [h2]; simp⟩
    · exact ⟨F.zero.1, by rw [F.zero.2]; simp⟩
  have hgg : ∀ f < M, ∀ a < S, ∀ b < S, F.Fin (g' (S - 1 - a) (S - 1 - b) f) ∧
      |F.val (g' (S - 1 - a) (S - 1 - b) f) - g (S - 1 - a) (S - 1 - b) f| ≤ d (S - 1 - a) (S - 1 - b) f := fun f hf a ha b hb =>
    hg _ (by omega) _ (by omega) f hf
  have h0 : ∀ f ∈ range M, 0 ≤ ∑ a ∈ range S, ∑ b ∈ range S, |Kernel.pad A B S w (f * C + c) (i + a) (j + b)| *
      (|g (S - 1 - a) (S - 1 - b) f| + d (S - 1 - a) (S - 1 - b) f) + ((S * S : Nat) : ℝ) * p.η := by
    intro f hf
    have hf := mem_range.1 hf
    refine add_nonneg (sum_nonneg fun a ha => sum_nonneg fun b hb => mul_nonneg (abs_nonneg _) ((abs_nonneg _).trans (abs_le_of_near (hgg f hf a (mem_range.1 ha) b (mem_range.1 hb)).2))) ?_
    exact mul_nonneg (Nat.cast_nonneg _) hp.η0
  have := Appr.sumTo (F := F) hp (k := 1 + S * S) M (t := fun f => Kernel.gradTerm A B C S w' g' f i j c)
    (z := fun f => ∑ a ∈ range S, ∑ b ∈ range S, Kernel.pad A B S w (f * C + c) (i + a) (j + b) * g (S - 1 - a) (S - 1 - b) f)
    (m := fun f => ∑ a ∈ range S, ∑ b ∈ range S, |Kernel.pad A B S w (f * C + c) (i + a) (j + b)| * |g (S - 1 - a) (S - 1 - b) f|)
    (M := fun f => ∑ a ∈ range S, ∑ b ∈ range S, |Kernel.pad A B S w (f * C + c) (i + a) (j + b)| *
      (|g (S - 1 - a) (S - 1 - b) f| + d (S - 1 - a) (S - 1 - b) f) + ((S * S : Nat) : ℝ) * p.η) (by
    intro f hf
    have := Appr.dot2 (F := F) hp S S (a := fun a b => Kernel.pad A B S w' (f * C + c) (i + a) (j + b)) (b := fun a b => g' (S - 1 - a) (S - 1 - b) f)
      (g := fun a b => Kernel.pad A B S w (f * C + c) (i + a) (j + b)) (d := fun _ _ => 0) (x := fun a b => g (S - 1 - a) (S - 1 - b) f)
      (e := fun a b => d (S - 1 - a) (S - 1 - b) f) (fun a _ b _ => hpw f hf _ _) (fun a ha b hb => hgg f hf a ha b hb) (by
        simp only [add_zero]
        refine le_trans (mul_le_mul (pow_mono hp (show 1 + S * S ≤ S * S + M + 1 by omega)) (single_le_sum h0 (mem_range.2 hf)) (h0 f (mem_range.2 hf)) (pow_pos' hp _).le) hr)
    simpa only [add_zero, Kernel.gradTerm] using this) (by
      rw [show 1 + S * S + M = S * S + M + 1 by omega]; exact hr)
  rw [show 1 + S * S + M = S * S + M + 1 by omega] at this
  exact this

/-! ### Pooling -/

theorem total_layer {β : Type} [AddCommMonoid β] {W H Z k : Nat} (hk : k < Z) (T : Nat → Nat → β) :
    ∑ m ∈ range (W * H * Z), (if m / W / H = k then T (m % W) (m / W % H) else 0) = ∑ a ∈ range W, ∑ c ∈ range H, T a c := by
  rw [sum_flat W H Z (fun a c l => if l = k then T a c else 0)]
  unfold total
  refine sum_congr rfl fun a _ => sum_congr rfl fun c _ => ?_
  rw [sum_ite_eq' (range Z) k (fun _ => T a c), if_pos (mem_range.2 hk)]

/-- The sum over the windows, in one channel. -/
theorem Appr.windows (hp : p.Ok) {K W H Z k : Nat} (hW : 0 < W) (hH : 0 < H) (hk : k < Z) {Q : Nat → Nat → Nat → Bool} {I : Nat → Nat → Prop}
    [∀ a c, Decidable (I a c)] {M m z : Nat → Nat → ℝ} {t : Nat → Nat → Nat → α} (hQ : ∀ a c l, Q a c l = true → l = k)
    (hc : ∀ a < W, ∀ c < H, Q a c k = true → I a c ∧ Appr F K (M a c) (m a c) (t a c k) (z a c))
    (hs : ∀ a < W, ∀ c < H, Q a c k = false → 0 ≤ M a c ∧ |z a c| ≤ M a c - m a c)
    (hr : (1 + p.u) ^ (K + ∑ a ∈ range W, ∑ c ∈ range H, if I a c then 1 else 0) * (∑ a ∈ range W, ∑ c ∈ range H, M a c) ≤ p.Ω) :
    Appr F (K + ∑ a ∈ range W, ∑ c ∈ range H, if I a c then 1 else 0) (∑ a ∈ range W, ∑ c ∈ range H, M a c) (∑ a ∈ range W, ∑ c ∈ range H, m a c)
      (Cnn.pickTo (W * H * Z) (fun r => Q (r % W) (r / W % H) (r / W / H)) (fun r => t (r % W) (r / W % H) (r / W / H)))
      (∑ a ∈ range W, ∑ c ∈ range H, z a c) := by
  rw [← total_layer (W := W) (H := H) hk M] at hr ⊢
  rw [← total_layer (W := W) (H := H) hk m, ← total_layer (W := W) (H := H) hk z]
  have hd : ∑ a ∈ range W, ∑ c ∈ range H, (if I a c then 1 else 0) =
      ∑ r ∈ range (W * H * Z), if decide (r / W / H = k ∧ I (r % W) (r / W % H)) = true then 1 else 0 := by
    rw [← total_layer (W := W) (H := H) hk]
    refine sum_congr rfl fun r _ => ?_
    by_cases h : r / W / H = k <;> simp [h]
  rw [hd] at hr ⊢
  refine Appr.pickTo hp _ ?_ ?_ hr
  · intro r hr hq
    obtain ⟨h1, h2, h3⟩ := unflat_lt hW hH hr
    have e := hQ _ _ _ hq
    rw [e] at hq ⊢
    obtain ⟨q1, q2⟩ := hc _ h1 _ h2 hq
    simp only [if_true]
    exact ⟨by simpa using q1, q2⟩
  · intro r hr hq
    obtain ⟨h1, h2, h3⟩ := unflat_lt hW hH hr
    by_cases e : r / W / H = k
    · rw [e] at hq ⊢
      simp only [if_true]
      exact hs _ h1 _ h2 hq
    · simp [e]

theorem inBox_iff (px py sx sy a c l i j k : Nat) : inBox (a * sx) (c * sy) l px py 1 i j k ↔ NetLayer.Inside px py sx sy a c i j ∧ l = k := by
  unfold inBox NetLayer.Inside
  omega

theorem avg_pull (hp : p.Ok) {s : Shape} {px py sx sy : Nat} (hpx : 0 < px * py) (hlt : px * py < 2147483648) {g d : Tensor} {g' : Nat → Nat → Nat → α}
    (hg : ∀ i < windows s.X px sx, ∀ j < windows s.Y py sy, ∀ k < s.Z, F.Fin (g' i j k) ∧ |F.val (g' i j k) - g i j k| ≤ d i j k) (x : Tensor)
    {i j k : Nat} (hk : k < s.Z)
    (hr : p.Room (NetLayer.cover s px py sx sy i j + 1) (NetLayer.cover s px py sx sy i j)
      ((NetLayer.pool .avg px py sx sy).pull s x (NetLayer.upto g d) i j k)) :
    Appr F (NetLayer.cover s px py sx sy i j + 1) ((NetLayer.pool .avg px py sx sy).pull s x (NetLayer.upto g d) i j k + NetLayer.cover s px py sx sy i j * p.η)
      ((NetLayer.pool .avg px py sx sy).pull s x (NetLayer.mags g) i j k)
      (Cnn.pickTo (Cnn.windows s.X px sx * Cnn.windows s.Y py sy * s.Z)
        (fun m => decide (inBox (m % Cnn.windows s.X px sx * sx) (m / Cnn.windows s.X px sx % Cnn.windows s.Y py sy * sy) (m / Cnn.windows s.X px sx / Cnn.windows s.Y py sy) px py 1 i j k))
        (fun m => g' (m % Cnn.windows s.X px sx) (m / Cnn.windows s.X px sx % Cnn.windows s.Y py sy) (m / Cnn.windows s.X px sx / Cnn.windows s.Y py sy) / N.ofNat (px * py)))
      ((NetLayer.pool .avg px py sx sy).pull s x g i j k) := by
  classical
  obtain ⟨o1, o2⟩ := F.ofNat (px * py) hlt
  have hc1 : (1 : ℝ) ≤ ((px * py : Nat) : ℝ) := by exact_mod_cast hpx
  have hc0 : (0 : ℝ) < ((px * py : Nat) : ℝ) := by linarith
  have hM : (NetLayer.pool .avg px py sx sy).pull s x (NetLayer.upto g d) i j k + NetLayer.cover s px py sx sy i j * p.η =
      ∑ a ∈ range (Cnn.windows s.X px sx), ∑ c ∈ range (Cnn.windows s.Y py sy), if NetLayer.Inside px py sx sy a c i j then
        (|g a c k| + d a c k) / ((px * py : Nat) : ℝ) + p.η else 0 := by
    simp only [NetLayer.pull, NetLayer.gather, NetLayer.cover, NetLayer.upto]
    push_cast
    rw [sum_mul, ← sum_add_distrib]
    refine sum_congr rfl fun a _ => ?_
    rw [sum_mul, ← sum_add_distrib]
    refine sum_congr rfl fun c _ => ?_
    split <;> simp
  have hpl : ∀ g : Tensor, (NetLayer.pool .avg px py sx sy).pull s x g i j k =
      ∑ a ∈ range (Cnn.windows s.X px sx), ∑ c ∈ range (Cnn.windows s.Y py sy), if NetLayer.Inside px py sx sy a c i j then
        g a c k / ((px * py : Nat) : ℝ) else 0 := by
    intro g
    simp only [NetLayer.pull, NetLayer.gather]
    push_cast
    refine sum_congr rfl fun a _ => sum_congr rfl fun c _ => ?_
    split <;> simp
  unfold Precision.Room at hr
  rw [hM, add_comm (NetLayer.cover s px py sx sy i j)] at hr
  rw [hM, hpl (NetLayer.mags g), hpl g, add_comm (NetLayer.cover s px py sx sy i j)]
  have hpos : ∀ a < Cnn.windows s.X px sx, ∀ c < Cnn.windows s.Y py sy, 0 ≤ (|g a c k| + d a c k) / ((px * py : Nat) : ℝ) := fun a ha c hc =>
    div_nonneg ((abs_nonneg _).trans (abs_le_of_near (hg a ha c hc k hk).2)) hc0.le
  have hpos' : ∀ a < Cnn.windows s.X px sx, ∀ c ∈ range (Cnn.windows s.Y py sy), 0 ≤ if NetLayer.Inside px py sx sy a c i j then
        (|g a c k| + d a c k) / ((px * py : Nat) : ℝ) + p.η else 0 := by
    intro a ha c hc
    split
    · exact add_nonneg (hpos a ha c (mem_range.1 hc)) hp.η0
    · exact le_rfl
  refine Appr.windows (Q := fun a c l => decide (inBox (a * sx) (c * sy) l px py 1 i j k)) (I := fun a c => NetLayer.Inside px py sx sy a c i j)
    (t := fun a c l => g' a c l / N.ofNat (px * py)) hp (windows_pos _ _ _) (windows_pos _ _ _) hk ?_ ?_ ?_ hr
  · intro a c l h
    exact ((inBox_iff ..).1 (of_decide_eq_true h)).2
  · intro a ha c hc h
    have hin := ((inBox_iff ..).1 (of_decide_eq_true h)).1
    refine ⟨hin, ?_⟩
    have hle := le_of_room hp ((single_le_sum (hpos' a ha) (mem_range.2 hc)).trans (single_le_sum (f := fun a => ∑ c ∈ range (Cnn.windows s.Y py sy),
      if NetLayer.Inside px py sx sy a c i j then (|g a c k| + d a c k) / ((px * py : Nat) : ℝ) + p.η else 0)
      (fun a ha => sum_nonneg (hpos' a (mem_range.1 ha))) (mem_range.2 ha))) (sum_nonneg fun a ha => sum_nonneg (hpos' a (mem_range.1 ha))) hr
    simp only [if_pos hin] at hle ⊢
    obtain ⟨g1, g2⟩ := hg a ha c hc k hk
    have q1 : |F.val (g' a c k) / F.val (N.ofNat (px * py))| ≤ (|g a c k| + d a c k) / ((px * py : Nat) : ℝ) := by
      rw [o2, abs_div, abs_of_pos hc0]
      exact div_le_div_of_nonneg_right (abs_le_of_near g2) hc0.le
    obtain ⟨d1, d2⟩ := F.div _ _ g1 o1 (by rw [o2]; exact hc0.ne') (q1.trans (by linarith [hp.η0]))
    have q2 := mul_le_mul_of_nonneg_left q1 hp.u0
    have q3 := mul_nonneg hp.u0 hp.η0
    refine ⟨d1, ?_, ?_⟩
    · have := abs_le_of_near d2
      rw [pow_one]
      linarith
    · have q4 : |F.val (g' a c k) / F.val (N.ofNat (px * py)) - g a c k / ((px * py : Nat) : ℝ)| ≤ d a c k / ((px * py : Nat) : ℝ) := by
        rw [o2, ← sub_div, abs_div, abs_of_pos hc0]
        exact div_le_div_of_nonneg_right g2 hc0.le
      have := abs_sub_le (F.val (g' a c k / N.ofNat (px * py))) (F.val (g' a c k) / F.val (N.ofNat (px * py))) (g a c k / ((px * py : Nat) : ℝ))
      have e : (|g a c k| + d a c k) / ((px * py : Nat) : ℝ) = |g a c k| / ((px * py : Nat) : ℝ) + d a c k / ((px * py : Nat) : ℝ) := add_div _ _ _
      simp only [NetLayer.mags]
      rw [pow_one]
      linarith
  · intro a ha c hc h
    have hin : ¬ NetLayer.Inside px py sx sy a c i j := fun hin => (of_decide_eq_false h) ((inBox_iff ..).2 ⟨hin, rfl⟩)
    simp [hin]

/-! MAX and MIN: which entry of a window may be, and which must be, the best one. -/

section
variable {R : ℝ → ℝ → Prop} {px py sx sy a c i j k : Nat} {lo hi v : Tensor}

theorem best_possible (hR : ∀ a b c, ¬ R a b → ¬ R b c → ¬ R a c) (hin : NetLayer.Inside px py sx sy a c i j)
    (hlo : ∀ i' j', NetLayer.Inside px py sx sy a c i' j' → ¬ R (v i' j' k) (lo i' j' k) ∧ ¬ R (hi i' j' k) (v i' j' k))
    (best : ∀ i' j', NetLayer.Inside px py sx sy a c i' j' → ¬ R (v i j k) (v i' j' k)) : NetLayer.Possible R px py sx sy lo hi a c i j k :=
  ⟨hin, fun i' j' h' _ => hR _ _ _ (hR _ _ _ (hlo i j hin).2 (best i' j' h')) (hlo i' j' h').1⟩

theorem sure_best (hR : ∀ a b c, ¬ R a b → ¬ R b c → ¬ R a c) {P Q : Nat} (hin : NetLayer.Inside px py sx sy a c P Q)
    (hlo : ∀ i' j', NetLayer.Inside px py sx sy a c i' j' → ¬ R (v i' j' k) (lo i' j' k) ∧ ¬ R (hi i' j' k) (v i' j' k))
    (best : ∀ i' j', NetLayer.Inside px py sx sy a c i' j' → ¬ R (v P Q k) (v i' j' k)) (h : NetLayer.Sure R px py sx sy lo hi a c i j k) :
    P = i ∧ Q = j := by
  by_contra hne
  exact hR _ _ _ (hR _ _ _ (hlo P Q hin).2 (best i j h.1)) (hlo i j h.1).1 (h.2 P Q hin hne)

/-- The gradient of a MAX or MIN layer: `(U, V)` are the entries that the program chose, `(U', V')` those that it should have chosen. -/
theorem select_pull (hp : p.Ok) (hR : ∀ a b c, ¬ R a b → ¬ R b c → ¬ R a c) {s : Shape} {x : Tensor} {y : Tensor}
    {U V U' V' : Nat → Nat → Nat → Nat}
    (hlo : ∀ i < s.X, ∀ j < s.Y, ∀ k < s.Z, ¬ R (y i j k) (lo i j k) ∧ ¬ R (hi i j k) (y i j k) ∧ ¬ R (x i j k) (lo i j k) ∧ ¬ R (hi i j k) (x i j k))
    (hf : PoolFits s.X s.Y px py sx sy)
    (hy : ∀ a < Cnn.windows s.X px sx, ∀ c < Cnn.windows s.Y py sy, ∀ k < s.Z, NetLayer.Inside px py sx sy a c (U a c k) (V a c k) ∧
      ∀ i' j', NetLayer.Inside px py sx sy a c i' j' → ¬ R (y (U a c k) (V a c k) k) (y i' j' k))
    (hx : ∀ a < Cnn.windows s.X px sx, ∀ c < Cnn.windows s.Y py sy, ∀ k < s.Z, NetLayer.Inside px py sx sy a c (U' a c k) (V' a c k) ∧
      ∀ i' j', NetLayer.Inside px py sx sy a c i' j' → ¬ R (x (U' a c k) (V' a c k) k) (x i' j' k)) {g d : Tensor} {g' : Nat → Nat → Nat → α}
    (hg : ∀ i < Cnn.windows s.X px sx, ∀ j < Cnn.windows s.Y py sy, ∀ k < s.Z, F.Fin (g' i j k) ∧ |F.val (g' i j k) - g i j k| ≤ d i j k)
    (hk : k < s.Z)
    (hr : p.Room (NetLayer.cover s px py sx sy i j) 0 (NetLayer.gather s px py sx sy (NetLayer.Possible R px py sx sy lo hi) (NetLayer.upto g d) i j k)) :
    Appr F (NetLayer.cover s px py sx sy i j) (NetLayer.gather s px py sx sy (NetLayer.Possible R px py sx sy lo hi) (NetLayer.upto g d) i j k)
      (NetLayer.gather s px py sx sy (NetLayer.Sure R px py sx sy lo hi) (NetLayer.mags g) i j k)
      (Cnn.pickTo (Cnn.windows s.X px sx * Cnn.windows s.Y py sy * s.Z)
        (fun m => decide (U (m % Cnn.windows s.X px sx) (m / Cnn.windows s.X px sx % Cnn.windows s.Y py sy) (m / Cnn.windows s.X px sx / Cnn.windows s.Y py sy) = i ∧
          V (m % Cnn.windows s.X px sx) (m / Cnn.windows s.X px sx % Cnn.windows s.Y py sy) (m / Cnn.windows s.X px sx / Cnn.windows s.Y py sy) = j ∧
          m / Cnn.windows s.X px sx / Cnn.windows s.Y py sy = k))
        (fun m => g' (m % Cnn.windows s.X px sx) (m / Cnn.windows s.X px sx % Cnn.windows s.Y py sy) (m / Cnn.windows s.X px sx / Cnn.windows s.Y py sy)))
      (NetLayer.gather s px py sx sy (fun a c i j k => i = U' a c k ∧ j = V' a c k) g i j k) := by
  classical
  have hbox : ∀ a < Cnn.windows s.X px sx, ∀ c < Cnn.windows s.Y py sy, ∀ i' j', NetLayer.Inside px py sx sy a c i' j' → i' < s.X ∧ j' < s.Y := by
    intro a ha c hc i' j' h
    have := windows_inside hf.x ha
    have := windows_inside hf.y hc
    unfold NetLayer.Inside at h
    omega
  have hylo : ∀ a < Cnn.windows s.X px sx, ∀ c < Cnn.windows s.Y py sy, ∀ i' j', NetLayer.Inside px py sx sy a c i' j' →
      ¬ R (y i' j' k) (lo i' j' k) ∧ ¬ R (hi i' j' k) (y i' j' k) := fun a ha c hc i' j' h => by
    obtain ⟨b1, b2⟩ := hbox a ha c hc i' j' h
    obtain ⟨h1, h2, _⟩ := hlo i' b1 j' b2 k hk
    exact ⟨h1, h2⟩
  have hxlo : ∀ a < Cnn.windows s.X px sx, ∀ c < Cnn.windows s.Y py sy, ∀ i' j', NetLayer.Inside px py sx sy a c i' j' →
      ¬ R (x i' j' k) (lo i' j' k) ∧ ¬ R (hi i' j' k) (x i' j' k) := fun a ha c hc i' j' h => by
    obtain ⟨b1, b2⟩ := hbox a ha c hc i' j' h
    obtain ⟨_, _, h1, h2⟩ := hlo i' b1 j' b2 k hk
    exact ⟨h1, h2⟩
  have hd0 : ∀ a < Cnn.windows s.X px sx, ∀ c < Cnn.windows s.Y py sy, 0 ≤ d a c k := fun a ha c hc => (abs_nonneg _).trans (hg a ha c hc k hk).2
  unfold NetLayer.gather
  have h := Appr.windows (F := F) (K := 0) (Q := fun a c l => decide (U a c l = i ∧ V a c l = j ∧ l = k)) (I := fun a c => NetLayer.Inside px py sx sy a c i j)
    (t := fun a c l => g' a c l) (M := fun a c => if NetLayer.Possible R px py sx sy lo hi a c i j k then NetLayer.upto g d a c k else 0)
    (m := fun a c => if NetLayer.Sure R px py sx sy lo hi a c i j k then NetLayer.mags g a c k else 0)
    (z := fun a c => if i = U' a c k ∧ j = V' a c k then g a c k else 0) hp (windows_pos s.X px sx) (windows_pos s.Y py sy) hk
    (fun a c l h => (of_decide_eq_true h).2.2) (by
      intro a ha c hc h
      obtain ⟨rfl, rfl, _⟩ := of_decide_eq_true h
      obtain ⟨hin, best⟩ := hy a ha c hc k hk
      obtain ⟨hin', best'⟩ := hx a ha c hc k hk
      refine ⟨hin, ?_⟩
      rw [if_pos (best_possible hR hin (hylo a ha c hc) best)]
      obtain ⟨g1, g2⟩ := hg a ha c hc k hk
      have g3 := abs_le_of_near g2
      refine ⟨g1, by simpa [NetLayer.upto] using g3, ?_⟩
      rw [pow_zero, one_mul]
      simp only [NetLayer.upto, NetLayer.mags]
      by_cases hs : NetLayer.Sure R px py sx sy lo hi a c (U a c k) (V a c k) k
      · obtain ⟨e1, e2⟩ := sure_best hR hin' (hxlo a ha c hc) best' hs
        rw [if_pos ⟨e1.symm, e2.symm⟩, if_pos hs]
        linarith
      · rw [if_neg hs]
        split
        · linarith [abs_nonneg (g a c k)]
        · simpa using g3) (by
      intro a ha c hc h
      have hne := of_decide_eq_false h
      obtain ⟨hin, best⟩ := hy a ha c hc k hk
      obtain ⟨hin', best'⟩ := hx a ha c hc k hk
      have hns : ¬ NetLayer.Sure R px py sx sy lo hi a c i j k := fun hs => by
        obtain ⟨e1, e2⟩ := sure_best hR hin (hylo a ha c hc) best hs
        exact hne ⟨e1, e2, rfl⟩
      rw [if_neg hns]
      have h0 : 0 ≤ NetLayer.upto g d a c k := add_nonneg (abs_nonneg _) (hd0 a ha c hc)
      constructor
      · split
        · exact h0
        · exact le_rfl
      · by_cases e : i = U' a c k ∧ j = V' a c k
        · obtain ⟨rfl, rfl⟩ := e
          rw [if_pos ⟨rfl, rfl⟩, if_pos (best_possible hR hin' (hxlo a ha c hc) best')]
          simp only [NetLayer.upto]
          linarith [hd0 a ha c hc]
        · rw [if_neg e]
          split
          · simpa using h0
          · simp) (by
      have := hr
      simp only [Precision.Room, Nat.cast_zero, zero_mul, add_zero, NetLayer.gather, NetLayer.cover] at this
      rw [zero_add]
      exact this)
  rw [zero_add] at h
  have e : ∀ a c, (@ite ℝ (i = U' a c k ∧ j = V' a c k) (Classical.propDecidable _) (g a c k) 0) = if i = U' a c k ∧ j = V' a c k then g a c k else 0 :=
    fun a c => by congr
  simp only [NetLayer.cover, e]
  exact h

end
end Floating
end Cnn
