import Verif.Lemmas.Local
import Verif.Props.Train
import Verif.Props.Kernel
import Verif.Spec.Main
import Verif.Model.Double
import Mathlib.Tactic.IntervalCases
/-!
# What an entry of the data depends on (C102), which entry of a window pooling chooses (C103)
-/
set_option linter.unusedSectionVars false
namespace Cnn
variable {α : Type} [Zero α] [One α] [Add α] [Sub α] [Mul α] [Div α] [Neg α]

/-! ## C102 -/

/-- C102: `forwardPropagation` of one model on two inputs — perhaps of different sizes, perhaps in different batch slots — whose
first layers `ks` are convolution, pooling and activation layers. After any number `n` of these layers, the recorded entries
`(i, j, f)` of one pass and `(i', j', f)` of the other are the same number whenever the rectangle of `(i, j)` in one input holds
the same numbers as the rectangle of `(i', j')` in the other. `field` says which rectangle. No law of arithmetic is used: the
numbers are the same bit for bit, infinities and NaNs included. -/
theorem C102_field (E : Env α) (M : Model α) (b b' : Nat) (s s' : Shape) (ks : List LayerKind) (hz : s.Z = s'.Z)
    (hb : ∀ (i : Nat) (k : LayerKind), ks[i]? = some k → ∃ L, M.layers[i]? = some L ∧ L.body.Slides b k ∧ L.body.Slides b' k)
    (hs : KindsSlide ks s) (hs' : KindsSlide ks s') (X X' : Matrix α) (x x' : Nat → Nat → Nat → α) (hX : X.Shows s.X s.Y s.Z x)
    (hX' : X'.Shows s'.X s'.Y s'.Z x') (r r' : Results α) (M₁ M₁' : Model α) (e : M.forwardPropagation E X b = .ok (r, M₁))
    (e' : M.forwardPropagation E X' b' = .ok (r', M₁')) (n : Nat) (hn : n ≤ ks.length) :
    ∃ R R' y y', r.inputs[n]? = some R ∧ r'.inputs[n]? = some R' ∧
      R.Shows (kindsOut (ks.take n) s).X (kindsOut (ks.take n) s).Y (kindsOut (ks.take n) s).Z y ∧
      R'.Shows (kindsOut (ks.take n) s').X (kindsOut (ks.take n) s').Y (kindsOut (ks.take n) s').Z y' ∧
      ∀ i < (kindsOut (ks.take n) s).X, ∀ j < (kindsOut (ks.take n) s).Y, ∀ i' < (kindsOut (ks.take n) s').X, ∀ j' < (kindsOut (ks.take n) s').Y,
        SameField (field (ks.take n)) s.Z x x' i j i' j' → ∀ f < (kindsOut (ks.take n) s).Z, y i j f = y' i' j' f := by
  obtain ⟨t0, t0', e0, e0', h⟩ := Model.slide_steps E M (b := b) (b' := b') hz (by
    intro i k hk
    obtain ⟨L, hL, h1, h2⟩ := hb i k hk
    exact ⟨L.body, by simp [Model.bodyAt, hL], h1, h2⟩) hs hs' hX hX'
  obtain ⟨t, t', et, et', ha, R, R', y, y', hR, hR', hy, hy', hh⟩ := h n hn
  have hlen : n ≤ M.layers.length := by
    by_contra hc
    obtain ⟨k, hk⟩ : ∃ k, ks[M.layers.length]? = some k := ⟨_, List.getElem?_eq_getElem (by omega)⟩
    obtain ⟨L, hL, _⟩ := hb _ k hk
    simp at hL
  have key : ∀ {X : Matrix α} {b : Nat} {t0 : Matrix α × List (Matrix α)} {t : (Matrix α × List (Matrix α)) × Model α} {r : Results α} {M₁ : Model α} {R : Matrix α},
      M.forwardPropagation E X b = .ok (r, M₁) → Model.forwardBegin E X = .ok t0 →
      (List.range n).foldlM (Model.forwardStep E b) (t0, M) = .ok t → t.1.2[n]? = some R → r.inputs[n]? = some R := by
    intro X b t0 t r M₁ R e e0 et hR
    unfold Model.forwardPropagation at e
    rw [e0, Res.bind_ok] at e
    obtain ⟨u, hu, e⟩ := Res.bind_eq_ok e
    obtain ⟨q, hq, e⟩ := Res.bind_eq_ok e
    obtain ⟨rfl, rfl⟩ := Prod.mk.inj (Res.ok.inj e)
    rw [show M.layers.length = n + (M.layers.length - n) by omega, List.range_add, List.foldlM_append, et, Res.bind_ok] at hu
    obtain ⟨more, hm⟩ := Model.forwardStep_keep E b _ hu
    have hin : q.inputs = u.1.2 := by
      unfold Model.forwardEnd at hq
      obtain ⟨N, _, hq⟩ := Res.bind_eq_ok hq
      split_ifs at hq
      obtain ⟨i, _, hq⟩ := Res.bind_eq_ok hq
      obtain ⟨c, _, hq⟩ := Res.bind_eq_ok hq
      rw [← Res.ok.inj hq]
    rw [hin, hm, List.getElem?_append_left (List.getElem?_eq_some_iff.1 hR).1, hR]
  exact ⟨R, R', y, y', key e e0 et hR, key e' e0' et' hR', hy, hy', hh⟩

/-- C102, shifted inputs: if the second input is the first one moved by `dx` and `dy` strides of the first `n` layers (entries moved
in from outside may be anything), then what these layers give is moved by `dx` and `dy` entries. -/
theorem C102_shift (E : Env α) (M : Model α) (b b' : Nat) (s s' : Shape) (ks : List LayerKind) (hz : s.Z = s'.Z)
    (hb : ∀ (i : Nat) (k : LayerKind), ks[i]? = some k → ∃ L, M.layers[i]? = some L ∧ L.body.Slides b k ∧ L.body.Slides b' k)
    (hs : KindsSlide ks s) (hs' : KindsSlide ks s') (X X' : Matrix α) (x x' : Nat → Nat → Nat → α) (hX : X.Shows s.X s.Y s.Z x)
    (hX' : X'.Shows s'.X s'.Y s'.Z x') (r r' : Results α) (M₁ M₁' : Model α) (e : M.forwardPropagation E X b = .ok (r, M₁))
    (e' : M.forwardPropagation E X' b' = .ok (r', M₁')) (n : Nat) (hn : n ≤ ks.length) (dx dy : Nat)
    (hsh : ∀ p < s.X, ∀ q < s.Y, ∀ k < s.Z, p + dx * (field (ks.take n)).sx < s'.X → q + dy * (field (ks.take n)).sy < s'.Y →
      x' (p + dx * (field (ks.take n)).sx) (q + dy * (field (ks.take n)).sy) k = x p q k) :
    ∃ R R' y y', r.inputs[n]? = some R ∧ r'.inputs[n]? = some R' ∧
      R.Shows (kindsOut (ks.take n) s).X (kindsOut (ks.take n) s).Y (kindsOut (ks.take n) s).Z y ∧
      R'.Shows (kindsOut (ks.take n) s').X (kindsOut (ks.take n) s').Y (kindsOut (ks.take n) s').Z y' ∧
      ∀ i < (kindsOut (ks.take n) s).X, ∀ j < (kindsOut (ks.take n) s).Y, i + dx < (kindsOut (ks.take n) s').X → j + dy < (kindsOut (ks.take n) s').Y →
        ∀ f < (kindsOut (ks.take n) s).Z, y' (i + dx) (j + dy) f = y i j f := by
  obtain ⟨R, R', y, y', h1, h2, h3, h4, h⟩ := C102_field E M b b' s s' ks hz hb hs hs' X X' x x' hX hX' r r' M₁ M₁' e e' n hn
  refine ⟨R, R', y, y', h1, h2, h3, h4, ?_⟩
  intro i hi j hj hi' hj' f hf
  refine (h i hi j hj (i + dx) hi' (j + dy) hj' ?_ f hf).symm
  intro a ha c hc k hk
  obtain ⟨p1, p2⟩ := hs.reads hn hi hj ha hc
  obtain ⟨q1, q2⟩ := hs'.reads hn hi' hj' ha hc
  have e : ∀ (i d t a : Nat), (i + d) * t + a = i * t + a + d * t := fun i d t a => by ring
  rw [e] at q1 q2 ⊢
  rw [e]
  exact (hsh _ p1 _ p2 k hk q1 q2).symm

/-- The convolution part of the network of main.cpp: each of its 5 × 5 × 4 results comes from a square of 12 × 12 pixels, and
neighbouring ones are 4 pixels apart. -/
example : field (Main.kinds.take 6) = ⟨12, 12, 4, 4⟩ ∧ KindsSlide (Main.kinds.take 6) Main.image := by
  refine ⟨by decide, ⟨rfl, by decide, by decide, by decide, by decide, by decide⟩, trivial, ?_, ⟨rfl, by decide, by decide, by decide, by decide, by decide⟩, trivial, ?_, trivial⟩
  all_goals exact ⟨by decide, by decide, by decide, by decide, by decide, by decide, by decide, by decide⟩

/-- A 2×1 filter and two labels. -/
def slideModel : Model Int :=
  { (Model.new : Model Int) with
    labels := ["a".toList, "b".toList]
    layers := [⟨[], .kernel ⟨dimN 2 1 1, 1, 1, ⟨dimN 2 1 1, [1, 10]⟩, ⟨dimN 1 1 1, [100]⟩, [Matrix.empty], [Matrix.empty]⟩⟩, ⟨[], .softmax (Softmax.new 2)⟩] }

example : ∃ r r' M₁ M₁', slideModel.forwardPropagation toyEnv ⟨dimN 3 1 1, [1, 2, 3]⟩ 0 = .ok (r, M₁) ∧
    slideModel.forwardPropagation toyEnv ⟨dimN 3 1 1, [2, 3, 9]⟩ 0 = .ok (r', M₁') ∧
    r.inputs[1]? = some ⟨dimN 2 1 1, [121, 132]⟩ ∧ r'.inputs[1]? = some ⟨dimN 2 1 1, [132, 193]⟩ := ⟨_, _, _, _, rfl, rfl, rfl, rfl⟩

theorem slideModel_slides (i : Nat) (k : LayerKind) (h : [LayerKind.conv 2 1 1 1][i]? = some k) :
    ∃ L, slideModel.layers[i]? = some L ∧ L.body.Slides 0 k ∧ L.body.Slides 0 k := by
  have hi : i = 0 := by
    have := (List.getElem?_eq_some_iff.1 h).1
    simpa using this
  subst hi
  obtain rfl : LayerKind.conv 2 1 1 1 = k := by simpa using h
  have : (⟨dimN 2 1 1, 1, 1, ⟨dimN 2 1 1, [1, 10]⟩, ⟨dimN 1 1 1, [100]⟩, [Matrix.empty], [Matrix.empty]⟩ : Kernel Int).Is 2 1 1 1 1
      (fun a _ _ => if a = 0 then 1 else 10) (fun _ => 100) :=
    ⟨rfl, rfl, rfl, Matrix.Shows.of_vals ⟨by decide, by decide, by decide, by decide⟩ rfl (by decide),
      Matrix.Shows.of_vals ⟨by decide, by decide, by decide, by decide⟩ rfl (by decide)⟩
  exact ⟨_, rfl, ⟨_, _, this⟩, ⟨_, _, this⟩⟩

example : KindsSlide [.conv 2 1 1 1] ⟨3, 1, 1⟩ := ⟨⟨rfl, by decide, by decide, by decide, by decide, by decide⟩, trivial⟩

/-- The inputs 1 2 3 and 2 3 9 have 2 3 in common, the rectangles of the outputs 1 and 0. -/
example : SameField (field [.conv 2 1 1 1]) 1 (fun i _ _ => [1, 2, 3].getD i (0 : Int)) (fun i _ _ => [2, 3, 9].getD i 0) 1 0 0 0 := by
  intro a ha c hc k hk
  have ha : a < 2 := ha
  interval_cases a <;> rfl

/-! ## C103 -/

section
variable {X Y Z px py sx sy : Nat}

/-- C103: what MIN and MAX pooling give in any arithmetic, for any behaviour of the comparison: the entry of the window at which a
scan ends that starts at the first entry and moves to a later one when that is smaller (MIN) or greater (MAX) than the entry
kept so far. The recorded index is that of this entry. -/
theorem C103_choice (N : Num α) (P : Pooling) (M : Matrix α) (x : Nat → Nat → Nat → α) (b : Nat) (hM : M.Shows X Y Z x)
    (hd : P.dim = ⟨px, py⟩) (hs : P.stride = ⟨sx, sy⟩) (hf : PoolFits X Y px py sx sy) (hb : b < P.indices.length) (ht : P.type ≠ .avg) :
    ∃ out ind, ∃ p : Nat → Nat → Nat → Nat, P.forward N M b = .ok (out, { P with indices := P.indices.set b ind }) ∧
      (∀ i j k, p i j k = scan (fun a c => if P.type = .min then N.lt c a else N.lt a c) (fun n => x (i * sx + n % px) (j * sy + n / px) k) (px * py)) ∧
      out.Shows (windows X px sx) (windows Y py sy) Z (fun i j k => x (i * sx + p i j k % px) (j * sy + p i j k / px) k) ∧
      ind.Shows (windows X px sx) (windows Y py sy) Z (fun i j k => dimN (i * sx + p i j k % px) (j * sy + p i j k / px) k) := by
  obtain ⟨out, ind, p, e, hp, h1, h2⟩ := Pooling.forward_scan N P M x b hM hd hs hf hb ht
  refine ⟨out, ind, p, e, ?_, h1, h2⟩
  intro i j k
  rw [hp]
  cases htt : P.type with
  | avg => exact absurd htt ht
  | min => simp [Pooling.better]
  | max => simp [Pooling.better]

/-- The comparison with `u` is always false, as with a NaN. -/
def Incomparable (N : Num α) (u : α) : Prop := ∀ a, N.lt u a = false ∧ N.lt a u = false

theorem scan_stuck (r : α → α → Bool) (F : Nat → α) (h : ∀ a, r (F 0) a = false) (n : Nat) : scan r F n = 0 := by
  induction n with
  | zero => rfl
  | succ n ih => rw [scan, ih, h]; rfl

/-- C103: a window that begins with a NaN gives that NaN, whatever else it contains. -/
theorem C103_first (N : Num α) (P : Pooling) (M : Matrix α) (x : Nat → Nat → Nat → α) (b : Nat) (hM : M.Shows X Y Z x)
    (hd : P.dim = ⟨px, py⟩) (hs : P.stride = ⟨sx, sy⟩) (hf : PoolFits X Y px py sx sy) (hb : b < P.indices.length) (ht : P.type ≠ .avg) :
    ∃ out P' f, P.forward N M b = .ok (out, P') ∧ out.Shows (windows X px sx) (windows Y py sy) Z f ∧
      ∀ i < windows X px sx, ∀ j < windows Y py sy, ∀ k < Z, Incomparable N (x (i * sx) (j * sy) k) → f i j k = x (i * sx) (j * sy) k := by
  obtain ⟨out, ind, p, e, hp, h1, _⟩ := C103_choice N P M x b hM hd hs hf hb ht
  refine ⟨out, _, _, e, h1, ?_⟩
  intro i _ j _ k _ hu
  have : p i j k = 0 := by
    rw [hp]
    refine scan_stuck _ _ ?_ _
    intro a
    simp only [Nat.zero_mod, Nat.zero_div, add_zero]
    have := hu a
    split_ifs
    · exact this.2
    · exact this.1
  simp only [this, Nat.zero_mod, Nat.zero_div, add_zero]

theorem scan_numbers (r : α → α → Bool) {S : α → Prop} (hr : MExpr.WeakOn r S) (F : Nat → α) (n : Nat) (hF : ∀ m < n, S (F m) ∨ ∀ a, r a (F m) = false)
    (h0 : 0 < n) (hS : S (F 0)) : S (F (scan r F n)) ∧ ∀ m < n, S (F m) → r (F (scan r F n)) (F m) = false := by
  induction n with
  | zero => exact absurd h0 (lt_irrefl _)
  | succ n ih =>
    rcases Nat.eq_zero_or_pos n with rfl | hn
    · rw [scan_one]
      refine ⟨hS, fun m hm hm' => ?_⟩
      obtain rfl : m = 0 := by omega
      exact hr.irrefl _ hm'
    · obtain ⟨h1, h2⟩ := ih (fun m hm => hF m (by omega)) hn
      rw [scan]
      by_cases c : r (F (scan r F n)) (F n) = true
      · rw [if_pos c]
        have hn' : S (F n) := by
          rcases hF n (by omega) with h | h
          · exact h
          · rw [h] at c; cases c
        refine ⟨hn', fun m hm hm' => ?_⟩
        rcases Nat.lt_or_ge m n with h | h
        · by_contra hc
          have := hr.trans _ _ _ h1 hn' hm' c (by simpa using hc)
          rw [h2 m h hm'] at this
          cases this
        · obtain rfl : m = n := by omega
          exact hr.irrefl _ hm'
      · rw [if_neg c]
        refine ⟨h1, fun m hm hm' => ?_⟩
        rcases Nat.lt_or_ge m n with h | h
        · exact h2 m h hm'
        · obtain rfl : m = n := by omega
          simpa using c

/-- C103: a window that begins with a number gives the greatest (MAX) or smallest (MIN) of its numbers; NaNs at other positions
are skipped. `S` are the numbers, among which the comparison is an order. -/
theorem C103_later_partial (N : Num α) (S : α → Prop) (hN : MExpr.WeakOn (fun a c => N.lt a c) S) (P : Pooling) (M : Matrix α)
    (x : Nat → Nat → Nat → α) (b : Nat) (hM : M.Shows X Y Z x) (hd : P.dim = ⟨px, py⟩) (hs : P.stride = ⟨sx, sy⟩)
    (hf : PoolFits X Y px py sx sy) (hb : b < P.indices.length) (ht : P.type ≠ .avg)
    (hx : ∀ i < X, ∀ j < Y, ∀ k < Z, S (x i j k) ∨ Incomparable N (x i j k)) :
    ∃ out P' f, P.forward N M b = .ok (out, P') ∧ out.Shows (windows X px sx) (windows Y py sy) Z f ∧
      ∀ i < windows X px sx, ∀ j < windows Y py sy, ∀ k < Z, S (x (i * sx) (j * sy) k) →
        S (f i j k) ∧ (∃ a < px, ∃ c < py, f i j k = x (i * sx + a) (j * sy + c) k) ∧
        ∀ a < px, ∀ c < py, S (x (i * sx + a) (j * sy + c) k) →
          (if P.type = .min then N.lt (x (i * sx + a) (j * sy + c) k) (f i j k) else N.lt (f i j k) (x (i * sx + a) (j * sy + c) k)) = false := by
  obtain ⟨out, ind, p, e, hp, h1, _⟩ := C103_choice N P M x b hM hd hs hf hb ht
  refine ⟨out, _, _, e, h1, ?_⟩
  intro i hi j hj k hk h0
  have hn0 : 0 < px * py := Nat.mul_pos hf.px0 hf.py0
  have hr : MExpr.WeakOn (fun a c => if P.type = .min then N.lt c a else N.lt a c) S := by
    by_cases hm : P.type = .min
    · simp only [hm, if_true]
      refine ⟨fun a ha => hN.irrefl a ha, fun a b c ha hb hc h1 h2 => hN.trans c b a hc hb ha h2 h1, fun a b c ha hb hc h1 h2 => ?_⟩
      by_contra hcon
      have h3 : N.lt c b = false := by simpa using hcon
      have := hN.neg c b a hc hb ha h3 h2
      rw [h1] at this
      cases this
    · simp only [hm, if_false]
      exact hN
  obtain ⟨k1, k2⟩ := scan_numbers (S := S) _ hr (fun n => x (i * sx + n % px) (j * sy + n / px) k) (px * py) (by
    intro m hm
    have a1 := windows_inside hf.x hi
    have a2 := windows_inside hf.y hj
    have b1 : m % px < px := Nat.mod_lt _ hf.px0
    have b2 : m / px < py := Nat.div_lt_of_lt_mul hm
    rcases hx (i * sx + m % px) (by omega) (j * sy + m / px) (by omega) k hk with h | h
    · exact Or.inl h
    · refine Or.inr fun a => ?_
      have := h a
      split_ifs
      · exact this.1
      · exact this.2) hn0 (by simpa using h0)
  rw [← hp] at k1 k2
  have hlt : p i j k < px * py := by rw [hp]; exact scan_lt _ _ hn0
  refine ⟨k1, ⟨_, Nat.mod_lt _ hf.px0, _, Nat.div_lt_of_lt_mul hlt, rfl⟩, ?_⟩
  intro a ha c hc hS
  have hm : a + c * px < px * py := by
    calc a + c * px < px + c * px := by omega
      _ = px * (c + 1) := by ring
      _ ≤ px * py := Nat.mul_le_mul_left _ hc
  have e1 : (a + c * px) % px = a := by rw [Nat.add_mul_mod_self_right, Nat.mod_eq_of_lt ha]
  have e2 : (a + c * px) / px = c := by rw [Nat.add_mul_div_right _ _ hf.px0, Nat.div_eq_of_lt ha, zero_add]
  have := k2 _ hm (by simp only [e1, e2]; exact hS)
  simp only [e1, e2] at this
  exact this

end

/-- What one would expect of MAX pooling: a window that contains a number gives a number. -/
def C103_claim : Prop := ∀ (P : Pooling) (M : Matrix Double) (X Y Z px py sx sy : Nat) (x : Nat → Nat → Nat → Double) (b : Nat), M.Shows X Y Z x →
  P.dim = ⟨px, py⟩ → P.stride = ⟨sx, sy⟩ → PoolFits X Y px py sx sy → b < P.indices.length → P.type = .max →
  ∃ out P' f, P.forward Double.arith M b = .ok (out, P') ∧ out.Shows (windows X px sx) (windows Y py sy) Z f ∧
    ∀ i < windows X px sx, ∀ j < windows Y py sy, ∀ k < Z, ∀ a < px, ∀ c < py, (∃ v, x (i * sx + a) (j * sy + c) k = .num v) →
      ∃ v, f i j k = .num v

theorem nan_incomparable : Incomparable Double.arith Double.nan := by
  intro a
  cases a <;> exact ⟨rfl, rfl⟩

/-- C103 is false of the code: MAX pooling of NaN, 5 gives NaN, although 5, NaN gives 5. -/
theorem C103_violated : ¬ C103_claim := by
  intro h
  have hM : (⟨dimN 2 1 1, [.nan, .num 5]⟩ : Matrix Double).Shows 2 1 1 (fun i _ _ => if i = 0 then .nan else .num 5) :=
    Matrix.Shows.of_vals ⟨by decide, by decide, by decide, by decide⟩ rfl (by simp [List.range_succ])
  have hf : PoolFits 2 1 2 1 1 1 := ⟨by decide, by decide, by decide, by decide, by decide, by decide, by decide, by decide⟩
  have hb : 0 < (Pooling.new ⟨2, 1⟩ ⟨1, 1⟩ .max).indices.length := by simp [Pooling.new]
  obtain ⟨out, P', f, e, h1, h2⟩ := h (Pooling.new ⟨2, 1⟩ ⟨1, 1⟩ .max) _ 2 1 1 2 1 1 1 _ 0 hM rfl rfl hf hb rfl
  obtain ⟨out', P'', f', e', h1', h2'⟩ := C103_first Double.arith (Pooling.new ⟨2, 1⟩ ⟨1, 1⟩ .max) _ _ 0 hM rfl rfl hf hb (by simp [Pooling.new])
  rw [e] at e'
  obtain ⟨rfl, rfl⟩ := Prod.mk.inj (Res.ok.inj e')
  have w : 0 < windows 2 2 1 := by decide
  have w' : 0 < windows 1 1 1 := by decide
  obtain ⟨v, hv⟩ := h2 0 w 0 w' 0 Nat.one_pos 1 (by decide) 0 Nat.one_pos ⟨5, rfl⟩
  have hn := h2' 0 w 0 w' 0 Nat.one_pos (by simpa using nan_incomparable)
  have q := (h1.entry 0 w 0 w' 0 Nat.one_pos).symm.trans (h1'.entry 0 w 0 w' 0 Nat.one_pos)
  have q := Res.ok.inj q
  rw [hv, hn] at q
  simp at q

/-- The finite numbers of `double` are ordered by `<`. -/
theorem double_ordered : MExpr.WeakOn (fun a c => Double.arith.lt a c) (fun a : Double => ∃ v, a = .num v) := by
  refine ⟨?_, ?_, ?_⟩
  · rintro a ⟨v, rfl⟩
    simp [Double.arith, Double.lt]
  · rintro a b c ⟨u, rfl⟩ ⟨v, rfl⟩ ⟨w, rfl⟩ h1 h2
    simp [Double.arith, Double.lt] at *
    exact lt_trans h1 h2
  · rintro a b c ⟨u, rfl⟩ ⟨v, rfl⟩ ⟨w, rfl⟩ h1 h2
    simp [Double.arith, Double.lt] at *
    exact lt_of_le_of_lt h1 h2

/-- 5, NaN satisfies the hypotheses of `C103_later_partial`. -/
example : ∀ i < 2, ∀ j < 1, ∀ k < 1, (∃ v, (fun i _ _ => if i = 0 then .num 5 else .nan : Nat → Nat → Nat → Double) i j k = .num v) ∨
    Incomparable Double.arith ((fun i _ _ => if i = 0 then .num 5 else .nan : Nat → Nat → Nat → Double) i j k) := by
  intro i hi j _ k _
  interval_cases i
  · exact Or.inl ⟨5, rfl⟩
  · exact Or.inr nan_incomparable

end Cnn
