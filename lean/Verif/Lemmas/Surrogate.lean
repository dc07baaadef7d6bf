import Verif.Spec.Surrogate
import Verif.Lemmas.NetCalc
import Verif.Props.Activations
/-! Helper lemmas: the network that back-propagation differentiates (C83). -/
namespace Cnn
open Finset

/-- The slope of the program is the one of the specification. -/
theorem grad_slope (f : ActFn) (y : ℝ) : f.grad Num.real y = actSlope f y := by
  cases f <;> simp only [ActFn.grad, actSlope, real_lt, decide_eq_true_eq, eval_real, actSpec]
  norm_num [Num.real]

namespace NetLayer

theorem chosen_eq {le : ℝ → ℝ → Prop} {px py sx sy : Nat} {x : Tensor} {i j k p q : Nat} (hp : p < px) (hq : q < py)
    (best : ∀ a < px, ∀ c < py, le (x (i * sx + a) (j * sy + c) k) (x (i * sx + p) (j * sy + q) k))
    (first : ∀ a < px, ∀ c < py, a + c * px < p + q * px → ¬ le (x (i * sx + p) (j * sy + q) k) (x (i * sx + a) (j * sy + c) k)) :
    chosen le px py sx sy x i j k % px = p ∧ chosen le px py sx sy x i j k / px = q := by
  have h1 : (p + q * px) % px = p := by rw [Nat.add_mul_mod_self_right, Nat.mod_eq_of_lt hp]
  have h2 : (p + q * px) / px = q := by rw [Nat.add_mul_div_right _ _ (by omega), Nat.div_eq_of_lt hp, Nat.zero_add]
  have hlt : p + q * px < px * py := by nlinarith
  have hm : p + q * px ∈ {m | m < px * py ∧ ∀ a < px, ∀ c < py, le (x (i * sx + a) (j * sy + c) k) (x (i * sx + m % px) (j * sy + m / px) k)} := by
    refine ⟨hlt, ?_⟩
    rw [h1, h2]; exact best
  have : chosen le px py sx sy x i j k = p + q * px := by
    refine le_antisymm (Nat.sInf_le hm) ?_
    have hs := Nat.sInf_mem ⟨_, hm⟩
    by_contra hlt'
    have hlt' : chosen le px py sx sy x i j k < p + q * px := by omega
    refine first _ (Nat.mod_lt _ (by omega)) _ (Nat.div_lt_of_lt_mul hs.1) ?_ (hs.2 p hp q hq)
    rw [Nat.mod_add_div']; exact hlt'
  rw [this]; exact ⟨h1, h2⟩

theorem chosen_mem {le : ℝ → ℝ → Prop} {px py : Nat} (sx sy : Nat) (x : Tensor) (i j k : Nat) (hx : 0 < px)
    (h : ∃ n ∈ range (px * py), ∀ m ∈ range (px * py), le (x (i * sx + m % px) (j * sy + m / px) k) (x (i * sx + n % px) (j * sy + n / px) k)) :
    chosen le px py sx sy x i j k % px < px ∧ chosen le px py sx sy x i j k / px < py ∧ ∀ a < px, ∀ c < py,
      le (x (i * sx + a) (j * sy + c) k) (x (i * sx + chosen le px py sx sy x i j k % px) (j * sy + chosen le px py sx sy x i j k / px) k) := by
  have : {m | m < px * py ∧ ∀ a < px, ∀ c < py, le (x (i * sx + a) (j * sy + c) k) (x (i * sx + m % px) (j * sy + m / px) k)}.Nonempty := by
    obtain ⟨n, hn, h⟩ := h
    refine ⟨n, mem_range.1 hn, ?_⟩
    intro a ha c hc
    have := h (a + c * px) (mem_range.2 (by nlinarith))
    rwa [Nat.add_mul_mod_self_right, Nat.mod_eq_of_lt ha, Nat.add_mul_div_right _ _ hx, Nat.div_eq_of_lt ha, Nat.zero_add] at this
  have h := Nat.sInf_mem this
  exact ⟨Nat.mod_lt _ hx, Nat.div_lt_of_lt_mul h.1, h.2⟩

theorem chosen_max {px py : Nat} (sx sy : Nat) (x : Tensor) (i j k : Nat) (hx : 0 < px) (hy : 0 < py) :
    x (i * sx + chosen (· ≤ ·) px py sx sy x i j k % px) (j * sy + chosen (· ≤ ·) px py sx sy x i j k / px) k =
      sSup (window px py sx sy x i j k) := by
  obtain ⟨h1, h2, h3⟩ := chosen_mem (le := (· ≤ ·)) sx sy x i j k hx
    (exists_max_image (range (px * py)) _ ⟨0, mem_range.2 (Nat.mul_pos hx hy)⟩)
  exact (window_greatest h1 h2 h3).symm

theorem chosen_min {px py : Nat} (sx sy : Nat) (x : Tensor) (i j k : Nat) (hx : 0 < px) (hy : 0 < py) :
    x (i * sx + chosen (· ≥ ·) px py sx sy x i j k % px) (j * sy + chosen (· ≥ ·) px py sx sy x i j k / px) k =
      sInf (window px py sx sy x i j k) := by
  obtain ⟨h1, h2, h3⟩ := chosen_mem (le := (· ≥ ·)) sx sy x i j k hx
    (exists_min_image (range (px * py)) (fun m => x (i * sx + m % px) (j * sy + m / px) k) ⟨0, mem_range.2 (Nat.mul_pos hx hy)⟩)
  exact (window_least h1 h2 h3).symm

@[simp] theorem surrogate_out (s : Shape) (x : Tensor) (l : NetLayer) : (l.surrogate s x).out s = l.out s := by
  cases l with
  | pool t => cases t <;> rfl
  | _ => rfl

/-- At the input itself, the replacement has the same output. -/
theorem surrogate_eval {s : Shape} {l : NetLayer} (hf : l.Fits s) (x : Tensor) : (l.surrogate s x).eval s x = l.eval s x := by
  cases l with
  | pool t px py sx sy =>
    have hf : PoolFits s.X s.Y px py sx sy := hf
    cases t with
    | max =>
      funext i j k
      simp only [surrogate, selects, eval, one_mul, add_zero]
      exact chosen_max sx sy x i j k hf.px0 hf.py0
    | min =>
      funext i j k
      simp only [surrogate, selects, eval, one_mul, add_zero]
      exact chosen_min sx sy x i j k hf.px0 hf.py0
    | avg => rfl
  | act f =>
    funext i j k
    simp only [surrogate, eval]
    ring
  | _ => rfl

theorem surrogate_of_params {l : NetLayer} (h : l.params ≠ none) (s : Shape) (x : Tensor) : l.surrogate s x = l := by
  cases l with
  | conv => rfl
  | full => rfl
  | _ => exact absurd rfl h

theorem surrogate_params (l : NetLayer) (s : Shape) (x : Tensor) : (l.surrogate s x).params = l.params := by
  cases l with
  | pool t => cases t <;> rfl
  | _ => rfl

/-- A layer whose gradient back-propagation through `l` computes: `l` itself if it is differentiable, or the replacement. -/
def Stands (s : Shape) (x : Tensor) (l l' : NetLayer) : Prop := (l' = l ∧ l.Smooth s x) ∨ l' = l.surrogate s x

theorem Stands.out {s : Shape} {x : Tensor} {l l' : NetLayer} (h : l.Stands s x l') : l'.out s = l.out s := by
  rcases h with ⟨rfl, _⟩ | rfl
  · rfl
  · exact surrogate_out s x l

theorem Stands.eval {s : Shape} {x : Tensor} {l l' : NetLayer} (h : l.Stands s x l') (hf : l.Fits s) : l'.eval s x = l.eval s x := by
  rcases h with ⟨rfl, _⟩ | rfl
  · rfl
  · exact surrogate_eval hf x

theorem Stands.params {s : Shape} {x : Tensor} {l l' : NetLayer} (h : l.Stands s x l') : l'.params = l.params := by
  rcases h with ⟨rfl, _⟩ | rfl
  · rfl
  · exact surrogate_params l s x

theorem Stands.eq {s : Shape} {x : Tensor} {l l' : NetLayer} (h : l.Stands s x l') (hp : l.params ≠ none) : l' = l := by
  rcases h with ⟨rfl, _⟩ | rfl
  · rfl
  · exact surrogate_of_params hp s x

end NetLayer

/-- The same for a network. -/
def NetStands : List NetLayer → Shape → Tensor → List NetLayer → Prop
  | [], _, _, ls' => ls' = []
  | l :: ls, s, x, ls' => ∃ l' r, ls' = l' :: r ∧ l.Stands s x l' ∧ NetStands ls (l.out s) (l.eval s x) r

theorem NetStands.self {ls : List NetLayer} : ∀ {s : Shape} {x : Tensor}, NetSmooth ls s x → NetStands ls s x ls := by
  induction ls with
  | nil => exact fun _ => rfl
  | cons l ls ih => exact fun h => ⟨l, ls, rfl, Or.inl ⟨rfl, h.1⟩, ih h.2⟩

theorem NetStands.surrogate (ls : List NetLayer) : ∀ (s : Shape) (x : Tensor), NetStands ls s x (netSurrogate ls s x) := by
  induction ls with
  | nil => exact fun _ _ => rfl
  | cons l ls ih => exact fun s x => ⟨_, _, rfl, Or.inr rfl, ih _ _⟩

theorem NetStands.length {ls : List NetLayer} : ∀ {s : Shape} {x : Tensor} {ls' : List NetLayer}, NetStands ls s x ls' → ls'.length = ls.length := by
  induction ls with
  | nil => rintro s x ls' rfl; rfl
  | cons l ls ih => rintro s x ls' ⟨l', r, rfl, _, h⟩; simp [ih h]

theorem NetStands.get {ls : List NetLayer} : ∀ {s : Shape} {x : Tensor} {ls' : List NetLayer}, NetStands ls s x ls' → ∀ {i : Nat} {l : NetLayer},
    ls[i]? = some l → l.params ≠ none → ls'[i]? = some l := by
  induction ls with
  | nil => intro s x ls' _ i l hl; simp at hl
  | cons a ls ih =>
    rintro s x ls' ⟨l', r, rfl, h1, h⟩ i l hl hp
    cases i with
    | zero =>
      obtain rfl : a = l := by simpa using hl
      simp [h1.eq hp]
    | succ i => simpa using ih h (by simpa using hl) hp

theorem NetStands.netOut_take {ls : List NetLayer} : ∀ {s : Shape} {x : Tensor} {ls' : List NetLayer}, NetStands ls s x ls' → ∀ (i : Nat),
    netOut (ls'.take i) s = netOut (ls.take i) s := by
  induction ls with
  | nil => rintro s x ls' rfl i; rfl
  | cons a ls ih =>
    rintro s x ls' ⟨l', r, rfl, h1, h⟩ i
    cases i with
    | zero => rfl
    | succ i =>
      simp only [List.take_succ_cons, netOut, h1.out]
      exact ih h i

end Cnn
