import Verif.Spec.NotANumber
import Verif.Lemmas.ShapeModel
/-! Helper lemmas: NaNs through the layers (C97). -/
set_option linter.unusedSectionVars false
namespace Cnn
variable {α : Type} {nan : α → Prop}

theorem Matrix.Lost.has {s : Shape} {M : Matrix α} (h : M.Lost nan s) : M.Has s := h.elim fun f h => ⟨f, h.1⟩

theorem Matrix.Lost.hurt {s : Shape} {M : Matrix α} (h : M.Lost nan s) : M.Hurt nan s := by
  obtain ⟨f, h, hn⟩ := h
  have g := h.good
  exact ⟨f, h, 0, g.x, 0, g.y, 0, g.z, hn 0 g.x 0 g.y 0 g.z⟩

theorem Matrix.Lost.vec {s : Shape} {n : Nat} {M : Matrix α} (h : M.Lost nan s) (hs : s = ⟨n, 1, 1⟩ ∨ s = ⟨1, n, 1⟩) :
    ∃ v, M.IsVec n v ∧ ∀ t < n, nan (v t) := by
  obtain ⟨f, h, hn⟩ := h
  rcases hs with rfl | rfl
  · refine ⟨fun t => f t 0 0, Or.inr (h.congr ?_), fun t ht => hn t ht 0 Nat.one_pos 0 Nat.one_pos⟩
    intro i _ j hj k hk
    obtain rfl : j = 0 := Nat.lt_one_iff.1 hj
    obtain rfl : k = 0 := Nat.lt_one_iff.1 hk
    rfl
  · refine ⟨fun t => f 0 t 0, Or.inl (h.congr ?_), fun t ht => hn 0 Nat.one_pos t ht 0 Nat.one_pos⟩
    intro i hi j _ k hk
    obtain rfl : i = 0 := Nat.lt_one_iff.1 hi
    obtain rfl : k = 0 := Nat.lt_one_iff.1 hk
    rfl

/-- Every channel has a NaN. -/
def Matrix.Weak (nan : α → Prop) (s : Shape) (M : Matrix α) : Prop :=
  ∃ f, M.Shows s.X s.Y s.Z f ∧ ∀ k < s.Z, ∃ i < s.X, ∃ j < s.Y, nan (f i j k)

theorem Matrix.Lost.weak {s : Shape} {M : Matrix α} (h : M.Lost nan s) : M.Weak nan s := by
  obtain ⟨f, h, hn⟩ := h
  have g := h.good
  exact ⟨f, h, fun k hk => ⟨0, g.x, 0, g.y, hn 0 g.x 0 g.y k hk⟩⟩

/-- All entries are NaN, or every channel has one. -/
def Matrix.Bad (nan : α → Prop) (strong : Bool) (s : Shape) (M : Matrix α) : Prop := if strong then M.Lost nan s else M.Weak nan s

theorem Matrix.Bad.weak {t : Bool} {s : Shape} {M : Matrix α} (h : M.Bad nan t s) : M.Weak nan s := by
  cases t with
  | true => exact Matrix.Lost.weak (by simpa [Matrix.Bad] using h)
  | false => simpa [Matrix.Bad] using h

theorem Matrix.Weak.has {s : Shape} {M : Matrix α} (h : M.Weak nan s) : M.Has s := h.elim fun f h => ⟨f, h.1⟩

theorem Matrix.ofExpr_lost [Zero α] {s : Shape} {M : Matrix α} (h : M.Lost nan s) {c : α → α} (hc : ∀ a, nan a → nan (c a)) :
    ∃ R, Matrix.ofExpr c M.expr = .ok R ∧ R.Lost nan s := by
  obtain ⟨f, h, hn⟩ := h
  obtain ⟨R, e, hR⟩ := Matrix.ofExpr_shows h.expr c
  exact ⟨R, e, _, hR, fun i hi j hj k hk => hc _ (hn i hi j hj k hk)⟩

section
variable [Zero α] [One α] [Add α] [Sub α] [Mul α] [Div α] [Neg α] {E : Env α}

namespace Absorbs

theorem foldl (A : Absorbs E nan) {β : Type} (l : List β) (t : β → α) : ∀ a, nan a → nan (l.foldl (fun s k => s + t k) a) := by
  induction l with
  | nil => intro a h; exact h
  | cons b l ih => intro a h; exact ih _ (A.add_left _ _ h)

theorem foldl_mem (A : Absorbs E nan) {β : Type} (l : List β) (t : β → α) : ∀ a, (∃ b ∈ l, nan (t b)) → nan (l.foldl (fun s k => s + t k) a) := by
  induction l with
  | nil => rintro a ⟨b, h, _⟩; simp at h
  | cons b l ih =>
    rintro a ⟨c, hc, hn⟩
    rcases List.mem_cons.1 hc with rfl | hc
    · exact A.foldl l t _ (A.add_right _ _ hn)
    · exact ih _ ⟨c, hc, hn⟩

theorem sumTo (A : Absorbs E nan) {n : Nat} {t : Nat → α} {k : Nat} (hk : k < n) (h : nan (t k)) : nan (Cnn.sumTo n t) :=
  A.foldl_mem _ _ _ ⟨k, List.mem_range.2 hk, h⟩

theorem sumTo2 (A : Absorbs E nan) {m n : Nat} {t : Nat → Nat → α} {i j : Nat} (hi : i < m) (hj : j < n) (h : nan (t i j)) :
    nan (Cnn.sumTo2 m n t) := by
  have keep : ∀ (l : List Nat) (a : α), nan a → nan (l.foldl (fun s x => (List.range n).foldl (fun s y => s + t x y) s) a) := by
    intro l
    induction l with
    | nil => intro a h; exact h
    | cons b l ih => intro a h; exact ih _ (A.foldl _ _ _ h)
  have key : ∀ (l : List Nat) (a : α), i ∈ l → nan (l.foldl (fun s x => (List.range n).foldl (fun s y => s + t x y) s) a) := by
    intro l
    induction l with
    | nil => intro a h; simp at h
    | cons b l ih =>
      intro a hm
      rcases List.mem_cons.1 hm with rfl | hm
      · exact keep l _ (A.foldl_mem _ _ _ ⟨j, List.mem_range.2 hj, h⟩)
      · exact ih _ hm
  exact key _ _ (List.mem_range.2 hi)

end Absorbs

variable (A : Absorbs E nan)
include A

/-- A NaN among the parameters of a convolution: the output has one. -/
theorem Kernel.forward_nan {K : Kernel α} {a b C F X Y : Nat} {w : Nat → Nat → Nat → α} {β : Nat → α} (hK : K.Is a b C F 1 w β) {M : Matrix α}
    {x : Nat → Nat → Nat → α} (hM : M.Shows X Y C x) (hf : ConvFits X Y a b F)
    (hn : (∃ i < a, ∃ j < b, ∃ k < C * F, nan (w i j k)) ∨ ∃ f < F, nan (β f)) :
    ∃ out, K.forward M = .ok out ∧ out.Hurt nan ⟨X - a + 1, Y - b + 1, F⟩ := by
  obtain ⟨out, e, ho⟩ := Kernel.forward_shows hK hM hf
  refine ⟨out, e, _, ho, 0, Nat.succ_pos _, 0, Nat.succ_pos _, ?_⟩
  obtain ⟨_, _, hC0, _⟩ := Kernel.sizes hK
  rcases hn with ⟨i, hi, j, hj, k, hk, hn⟩ | ⟨f, hf, hn⟩
  · refine ⟨k / C, (Nat.div_lt_iff_lt_mul hC0).2 (by rwa [Nat.mul_comm] at hk), ?_⟩
    refine A.add_left _ _ (A.sumTo (k := k % C) (Nat.mod_lt _ hC0) ?_)
    refine A.sumTo2 hi hj (A.mul_right _ _ ?_)
    rwa [Nat.div_add_mod']
  · exact ⟨f, hf, A.add_right _ _ hn⟩

/-- A NaN among the parameters of a fully connected layer. -/
theorem Connected.forward_nan {draws : Nat → α} {L : Connected α} {n X Y Z : Nat} {w : Nat → Nat → α} {β : Nat → α} (hL : L.Is n (X * Y * Z) w β) {M : Matrix α}
    {x : Nat → Nat → Nat → α} (hM : M.Shows X Y Z x) (hn : (∃ i < n, ∃ j < X * Y * Z, nan (w i j)) ∨ ∃ f < n, nan (β f)) :
    ∃ out, L.forward E.num draws M = (.ok out, L) ∧ out.Hurt nan ⟨n, 1, 1⟩ := by
  obtain ⟨out, e, ho⟩ := Connected.compute_shows hL hM
  refine ⟨out, ?_, _, ho, ?_⟩
  · unfold Connected.forward
    rw [Connected.later_check E.num draws hL hM]
    simp [e]
  · rcases hn with ⟨i, hi, j, hj, hn⟩ | ⟨f, hf, hn⟩
    · exact ⟨i, hi, 0, Nat.one_pos, 0, Nat.one_pos, A.add_left _ _ (A.sumTo hj (A.mul_left _ _ hn))⟩
    · exact ⟨f, hf, 0, Nat.one_pos, 0, Nat.one_pos, A.add_right _ _ hn⟩

/-- One NaN among the scores: all probabilities are NaN. -/
theorem Softmax.softMax_nan {M : Matrix α} {s : Shape} (hM : M.Hurt nan s) : ∃ P, Softmax.softMax E.num M = .ok P ∧ P.Lost nan s := by
  obtain ⟨x, hM, a, ha, b, hb, c, hc, hn⟩ := hM
  obtain ⟨n, hn', eb⟩ := MExpr.bestElem_inside (fun a b => E.num.lt a b) hM.expr
  have ed := hM.expr.deref_flat hn'
  generalize hm : x (n % s.X) (n / s.X % s.Y) (n / s.X / s.Y) = m at ed
  have emax : MExpr.max E.num.lt M.expr = .ok m := by
    simp only [MExpr.max, eb, Res.bind_ok, ed]
  obtain ⟨Ex, e2, s2⟩ := Matrix.ofExpr_shows (MExpr.un_shows E.num.exp (MExpr.scal_shows (· - m) hM.expr)) (id : α → α)
  have e3 := MExpr.sum_eq_sumTo s2.expr
  obtain ⟨P, e4, s4⟩ := Matrix.ofExpr_shows (MExpr.scal_shows (· / Cnn.sumTo (s.X * s.Y * s.Z) (fun n =>
    id (E.num.exp (x (n % s.X) (n / s.X % s.Y) (n / s.X / s.Y) - m)))) s2.expr) (id : α → α)
  refine ⟨P, ?_, _, s4, ?_⟩
  · simp only [Softmax.softMax, emax, Res.bind_ok, e2, e3]
    exact e4
  · intro i _ j _ k _
    refine A.div_right _ _ (A.sumTo (k := fl s.X s.Y a b c) (fl_lt ha hb hc) ?_)
    rw [fl_mod ha, fl_div_mod ha hb, fl_div_div ha hb]
    exact A.exp _ (A.sub_left _ _ hn)

theorem Softmax.forward_nan {S : Softmax} {M : Matrix α} {s : Shape} (hM : M.Hurt nan s) (hs : s = ⟨S.count, 1, 1⟩ ∨ s = ⟨1, S.count, 1⟩) :
    ∃ P, S.forward E.num M = .ok P ∧ P.Lost nan s := by
  obtain ⟨P, e, h⟩ := Softmax.softMax_nan A hM
  obtain ⟨x, hM, _⟩ := hM
  obtain ⟨v, hv⟩ := Matrix.Has.vec ⟨x, hM⟩ hs
  obtain ⟨_, _, h1, hr, _⟩ := hv.facts
  refine ⟨P, ?_, h⟩
  unfold Softmax.forward Softmax.checkSize
  rw [if_pos hr, h1]
  simp [e]

/-- The largest of NaNs is the first one. -/
theorem MExpr.bestElem_nan {M : Matrix α} {s : Shape} (hM : M.Lost nan s) : MExpr.bestElem (fun a b => E.num.lt a b) M.expr = .ok (iterAt (dimN s.X s.Y s.Z) 0) := by
  obtain ⟨f, hM, hn⟩ := hM
  have hw : MExpr.WeakOn (fun a b => E.num.lt a b) nan := by
    refine ⟨fun a ha => A.lt_left _ _ ha, fun a b c ha _ _ h _ => ?_, fun a b c ha _ _ _ h => ?_⟩
    · rw [A.lt_left _ _ ha] at h; simp at h
    · rw [A.lt_left _ _ ha] at h; simp at h
  obtain ⟨n, hn', e, _, h2⟩ := MExpr.bestElem_spec (fun a b => E.num.lt a b) hw hM.expr hn
  obtain rfl : n = 0 := by
    by_contra h0
    have := h2 0 (by omega)
    have g := hM.good
    rw [A.lt_left _ _ (by simpa using hn 0 g.x 0 g.y 0 g.z)] at this
    simp at this
  exact e

theorem Model.forwardEnd_nan (M : Model α) {P : Matrix α} {s : Shape} (hP : P.Lost nan s) (hs : s = ⟨M.labels.length, 1, 1⟩ ∨ s = ⟨1, M.labels.length, 1⟩)
    (rec : List (Matrix α)) : ∃ c, Model.forwardEnd E M P rec = .ok ⟨none, 0, none, -1, c, rec⟩ ∧ nan c := by
  have eb := MExpr.bestElem_nan A hP
  obtain ⟨v, hv, hn⟩ := hP.vec hs
  obtain ⟨_, _, h1, _, _⟩ := hv.facts
  obtain ⟨f, hP, hnf⟩ := hP
  have g := hP.good
  have hmax : MExpr.maxIndexFlat E.num.lt P.expr = .ok 0 := by
    rw [MExpr.maxIndexFlat, eb, Res.bind_ok, show P.expr.dim = dimN s.X s.Y s.Z from hP.dim, MExpr.iterAt_diff g.x g.y,
      u64_nat (by omega)]
  have hc := hP.flat_lt (n := 0) (Nat.mul_pos (Nat.mul_pos g.x g.y) g.z)
  refine ⟨E.toFloat (f (0 % s.X) (0 / s.X % s.Y) (0 / s.X / s.Y)), ?_, A.toFloat _ (by simpa using hnf 0 g.x 0 g.y 0 g.z)⟩
  unfold Model.forwardEnd
  rw [h1, Res.bind_ok, if_neg (by simp), hmax, Res.bind_ok, hc]; rfl

/-- The gradient of the scores is NaN if the probabilities are. -/
theorem Softmax.backward_nan {S : Softmax} {X Z D : Matrix α} {s : Shape} (hZ : Z.Lost nan s) (hs : s = ⟨S.count, 1, 1⟩ ∨ s = ⟨1, S.count, 1⟩)
    (hk : S.knows = true) (ht : S.trueLabel < S.count) : ∃ R, S.backward X Z D = .ok R ∧ R.Lost nan s := by
  obtain ⟨v, hv, hnv⟩ := hZ.vec hs
  obtain ⟨f, hZ, hn⟩ := hZ
  have hlt : S.trueLabel < s.X * s.Y * s.Z := by
    rcases hs with rfl | rfl
    · show S.trueLabel < S.count * 1 * 1; omega
    · show S.trueLabel < 1 * S.count * 1; omega
  obtain ⟨R, e, h⟩ := hZ.setFlat hlt (v S.trueLabel - 1)
  refine ⟨R, ?_, _, h, ?_⟩
  · unfold Softmax.backward Softmax.getdLdX
    rw [hk, hv.flat ht]
    exact e
  · intro i hi j hj k hk
    split
    · exact A.sub_left _ _ (hnv _ ht)
    · exact hn i hi j hj k hk

end
end Cnn
