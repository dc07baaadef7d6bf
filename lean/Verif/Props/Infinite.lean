import Verif.Props.Activations
import Verif.Props.Rounding
/-!
# Property C85, continued: activation functions at infinities

An overflow in one layer does not make everything after it infinite: SIGMOID and TANGENT turn infinities into finite numbers.
-/
namespace Cnn

/-- C85: an activation layer in binary64 whose inputs are infinite (`σ`: the negative ones). RELU gives 0 or an infinity, SIGMOID 0 or
1, TANGENT -1 or 1; LINEAR and LEAKY_RELU keep the infinities. -/
theorem C85_infinite_inputs {X Y Z : Nat} (M : Matrix Double) (σ : Nat → Nat → Nat → Bool) (hM : M.Shows X Y Z (fun i j k => .inf (σ i j k))) (f : ActFn) :
    ∃ R, (Activation.new f).forward Double.arith M = .ok R ∧ R.Shows X Y Z (fun i j k =>
      match f with
      | .relu => if σ i j k then .num 0 else .inf false
      | .sigmoid => if σ i j k then .num 0 else .num 1
      | .tangent => if σ i j k then .num (-1) else .num 1
      | _ => .inf (σ i j k)) := by
  obtain ⟨R, h1, h2⟩ := C23_entrywise Double.arith f M _ hM
  refine ⟨R, h1, h2.congr ?_⟩
  intro i _ j _ k _
  have o1 : Double.of 1 = .num 1 := by simpa using Double.of_nat (n := 1) (by norm_num)
  have e1 : (1 : Double) + .num 0 = .num 1 := by
    show Double.of (1 + 0) = _
    rw [add_zero, o1]
  have e2 : (1 : Double) / .num 1 = .num 1 := by
    show (if (1 : ℝ) = 0 then _ else Double.of (1 / 1)) = _
    rw [if_neg one_ne_zero, div_one, o1]
  cases f with
  | relu =>
    cases h : σ i j k
    · simp only [ActFn.eval]; rfl
    · simp only [ActFn.eval]; rfl
  | sigmoid =>
    cases h : σ i j k
    · show (1 : Double) / (1 + .num 0) = .num 1
      rw [e1, e2]
    · rfl
  | linear => rfl
  | tangent =>
    cases h : σ i j k
    · rfl
    · rfl
  | leaky =>
    have hs : ∀ s, (Double.num (13421773 / 2 ^ 27) * Double.inf s : Double) = .inf s := by
      intro s
      show (if (13421773 / 2 ^ 27 : ℝ) = 0 then Double.nan else Double.inf (s != decide ((13421773 / 2 ^ 27 : ℝ) < 0))) = _
      rw [if_neg (by norm_num), decide_eq_false (by norm_num)]
      cases s <;> rfl
    show (if Double.lt (Double.num (13421773 / 2 ^ 27) * Double.inf (σ i j k)) (Double.inf (σ i j k)) then Double.inf (σ i j k) else
      Double.num (13421773 / 2 ^ 27) * Double.inf (σ i j k)) = Double.inf (σ i j k)
    rw [hs, ite_self]

/-- Such a matrix. -/
example : (⟨dimN 1 2 1, [.inf true, .inf false]⟩ : Matrix Double).Shows 1 2 1 (fun i j k => .inf (j = 0)) :=
  Matrix.Shows.of_vals ⟨by decide, by decide, by decide, by decide⟩ rfl (by simp [List.range_succ])

end Cnn
