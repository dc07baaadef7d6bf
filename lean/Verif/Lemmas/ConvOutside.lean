import Verif.Lemmas.Expr
import Mathlib.Tactic.Ring
/-! Helper lemmas for C18: reads of the last entry of a strided convolution. -/
namespace Cnn
variable {α σ : Type} {X Y : Nat}

/-- A result that is a value or undefined behaviour (no exception, no abort). -/
def OkUb (r : Res α) : Prop := (∃ v, r = .ok v) ∨ r = .ub

theorem OkUb.ok (v : α) : OkUb (.ok v) := Or.inl ⟨v, rfl⟩

theorem OkUb.bind {β : Type} {r : Res α} {f : α → Res β} (h : OkUb r) (hf : ∀ v, OkUb (f v)) : OkUb (r >>= f) := by
  rcases h with ⟨v, rfl⟩ | rfl
  · exact hf v
  · exact Or.inr rfl

theorem OkUb.bind_ub {β : Type} {r : Res α} {f : α → Res β} (h : OkUb r) (hf : ∀ v, f v = .ub) : (r >>= f) = .ub := by
  rcases h with ⟨v, rfl⟩ | rfl
  · exact hf v
  · rfl

theorem OkUb.foldlM (n : Nat) (body : σ → Nat → Res σ) (h : ∀ s, ∀ k < n, OkUb (body s k)) (s : σ) :
    OkUb ((List.range n).foldlM body s) := by
  induction n with
  | zero => exact OkUb.ok s
  | succ n ih =>
    rw [List.range_succ, List.foldlM_append]
    refine OkUb.bind (ih (fun s k hk => h s k (by omega))) (fun v => ?_)
    simp only [List.foldlM_cons, List.foldlM_nil]
    exact OkUb.bind (h v n (by omega)) (fun v => OkUb.ok v)

theorem OkUb.foldlM_ub {n : Nat} (hn : 0 < n) (body : σ → Nat → Res σ) (h : ∀ s, ∀ k < n, OkUb (body s k))
    (hl : ∀ s, body s (n - 1) = .ub) (s : σ) : (List.range n).foldlM body s = .ub := by
  obtain ⟨m, rfl⟩ : ∃ m, n = m + 1 := ⟨n - 1, by omega⟩
  rw [List.range_succ, List.foldlM_append]
  refine OkUb.bind_ub (OkUb.foldlM m body (fun s k hk => h s k (by omega)) s) (fun v => ?_)
  simp only [List.foldlM_cons, List.foldlM_nil]
  have := hl v
  simp only [Nat.add_sub_cancel] at this
  rw [this]; rfl

theorem OkUb.read (A : Matrix α) (i : Dim3) : OkUb (A.read i) := by
  unfold Matrix.read Matrix.flat
  cases h : A.vals[getIndex A.dim i]? with
  | none => exact Or.inr rfl
  | some v => exact Or.inl ⟨v, rfl⟩

namespace MExpr

theorem convEntry_outside [Zero α] [Add α] [Mul α] {a b s : Nat} (A B : Matrix α) (f g : Nat → Nat → Nat → α)
    (hA : A.Shows X Y 1 f) (hB : B.Shows a b 1 g) (ha : a ≤ X) (hb : b ≤ Y) (hlt : a < X ∨ b < Y)
    (hs : 2 ≤ s) (hs' : s < 2147483648) :
    convEntry A.expr B.expr ⟨s, s⟩ (dimN (X - a) (Y - b) 0) = .ub := by
  have hdB : B.expr.dim = dimN a b 1 := hB.dim
  have gA := hA.good
  have gB := hB.good
  have hbd := gB.bounds
  have hx0 := gB.x
  have hy0 := gB.y
  unfold convEntry
  have e1 : u32 B.expr.dim.x = a := by rw [hdB]; exact u32_nat (by omega)
  have e2 : u32 B.expr.dim.y = b := by rw [hdB]; exact u32_nat (by omega)
  rw [e1, e2]
  have outside : A.expr.get ((⟨((a - 1 : Nat) : Int), ((b - 1 : Nat) : Int), 0⟩ : Dim3) +
      ⟨(dimN (X - a) (Y - b) 0).x * ((s : Nat) : Int), (dimN (X - a) (Y - b) 0).y * ((s : Nat) : Int), 0⟩) = .ub := by
    have e : ((⟨((a - 1 : Nat) : Int), ((b - 1 : Nat) : Int), 0⟩ : Dim3) + ⟨(dimN (X - a) (Y - b) 0).x * ((s : Nat) : Int),
      (dimN (X - a) (Y - b) 0).y * ((s : Nat) : Int), 0⟩) =
        dimN (a - 1 + (X - a) * s) (b - 1 + (Y - b) * s) 0 := by
      simp only [Dim3.add_mk, Dim3.mk.injEq]; push_cast; exact ⟨rfl, rfl, by simp⟩
    rw [e]
    have hidx : getIndex A.dim (dimN (a - 1 + (X - a) * s) (b - 1 + (Y - b) * s) 0) =
        (b - 1 + (Y - b) * s) * X + (a - 1 + (X - a) * s) := by
      have b1 : (b - 1 + (Y - b) * s) ≤ Y * s := by
        calc b - 1 + (Y - b) * s ≤ b * s + (Y - b) * s := by
              have : b - 1 ≤ b * s := le_trans (Nat.sub_le _ _) (Nat.le_mul_of_pos_right _ (by omega))
              omega
          _ = Y * s := by rw [← Nat.add_mul]; congr 1; omega
      have b2 : (a - 1 + (X - a) * s) ≤ X * s := by
        calc a - 1 + (X - a) * s ≤ a * s + (X - a) * s := by
              have : a - 1 ≤ a * s := le_trans (Nat.sub_le _ _) (Nat.le_mul_of_pos_right _ (by omega))
              omega
          _ = X * s := by rw [← Nat.add_mul]; congr 1; omega
      have hXY : X * Y < 2147483648 := by have := gA.small; simpa using this
      have hX : X < 2147483648 := lt_of_le_of_lt (Nat.le_mul_of_pos_right X gA.y) hXY
      have c1 : (b - 1 + (Y - b) * s) * X ≤ 2147483648 * 2147483648 := by
        calc (b - 1 + (Y - b) * s) * X ≤ Y * s * X := Nat.mul_le_mul_right _ b1
          _ = (X * Y) * s := by ring
          _ ≤ 2147483648 * 2147483648 := Nat.mul_le_mul hXY.le hs'.le
      have c2 : (a - 1 + (X - a) * s) ≤ 2147483648 * 2147483648 :=
        le_trans b2 (Nat.mul_le_mul hX.le hs'.le)
      rw [hA.dim]
      simp only [getIndex]
      generalize (b - 1 + (Y - b) * s) = p at *
      generalize (a - 1 + (X - a) * s) = q at *
      have : ((0 : Nat) : Int) * (Y : Int) * (X : Int) + (p : Int) * (X : Int) + (q : Int) = ((p * X + q : Nat) : Int) := by
        push_cast; ring
      rw [this]
      generalize p * X = r at *
      omega
    show A.read _ = .ub
    unfold Matrix.read Matrix.flat
    rw [hidx]
    have hlen : A.vals.length ≤ (b - 1 + (Y - b) * s) * X + (a - 1 + (X - a) * s) := by
      rw [hA.length, Nat.mul_one]
      rcases Nat.lt_or_ge b Y with h | h
      · have : Y ≤ b - 1 + (Y - b) * s := by
          have : (Y - b) * 2 ≤ (Y - b) * s := Nat.mul_le_mul_left _ hs
          omega
        calc X * Y = Y * X := Nat.mul_comm _ _
          _ ≤ (b - 1 + (Y - b) * s) * X := Nat.mul_le_mul_right _ this
          _ ≤ _ := Nat.le_add_right _ _
      · have hY : b = Y := by omega
        have hX : a < X := by omega
        have : X ≤ a - 1 + (X - a) * s := by
          have : (X - a) * 2 ≤ (X - a) * s := Nat.mul_le_mul_left _ hs
          omega
        subst hY
        calc X * b = (b - 1) * X + X := by
              obtain ⟨c, rfl⟩ : ∃ c, b = c + 1 := ⟨b - 1, by omega⟩
              rw [Nat.add_sub_cancel]; ring
          _ ≤ _ := by
              simp only [Nat.sub_self, Nat.zero_mul, Nat.add_zero]
              omega
    rw [List.getElem?_eq_none hlen]
    rfl
  have step : ∀ (x y : Nat) (d : Dim3) (sum : α), OkUb (do
      let p ← A.expr.get ((⟨(x : Int), (y : Int), 0⟩ : Dim3) + d)
      let q ← B.expr.get ⟨(x : Int), (y : Int), 0⟩
      Res.ok (sum + p * q)) := fun x y d sum =>
    OkUb.bind (OkUb.read A _) (fun p => OkUb.bind (OkUb.read B _) (fun q => OkUb.ok _))
  refine OkUb.foldlM_ub hx0 _ (fun s0 x hx => OkUb.foldlM b _ (fun s1 y hy => step x y _ s1) s0) (fun s0 => ?_) 0
  refine OkUb.foldlM_ub hy0 _ (fun s1 y hy => step _ y _ s1) (fun s1 => ?_) s0
  simp only at outside ⊢
  rw [outside]; rfl

end MExpr
end Cnn
