import Verif.Spec.CutFile
import Verif.Lemmas.CutLayer
import Verif.Lemmas.Load
/-! Helper lemmas: loading the beginning of a saved model (C96). -/
namespace Cnn
open IStream

theorem Matrix.Shows.last {α : Type} {M : Matrix α} {n : Nat} {β : Nat → α} (h : M.Shows n 1 1 (fun i _ _ => β i)) :
    M.vals.getLast? = some (β (n - 1)) := by
  have hx := h.good.x
  have h1 := Matrix.flat_eq_ok.1 (h.flat_lt (n := n - 1) (by omega))
  rw [Nat.mod_eq_of_lt (by omega)] at h1
  rw [List.getLast?_eq_getElem?, h.length, Nat.mul_one, Nat.mul_one, h1]

theorem Pooling.readType_line (t : PoolType) (R : Pooling) (l : List Char) :
    Pooling.readType (R, ⟨line (Pooling.typeName t) ++ l, false, false⟩) = (.ok (), ({ R with type := t }, ⟨l, false, false⟩)) := by
  unfold Pooling.readType
  simp only
  rw [line_append, getline_line (typeName_line _)]
  cases t <;> rfl

namespace Model
variable {α : Type} [Zero α] [Add α] [Mul α] [Div α] [Inhabited α]

omit [Zero α] [Add α] [Mul α] [Div α] [Inhabited α] in
theorem onLast_fst {τ : Type} (get : Body α → Option τ) (put : τ → Body α) (m : Exec (τ × IStream) Bool) {M : Model α}
    {ls : List (Layer α)} {l : Layer α} {t : τ} {is : IStream} (hM : M.layers = ls ++ [l]) (hg : get l.body = some t) :
    (onLast get put m (M, is)).1 = (m (t, is)).1 := by
  rw [onLast_append get put m hM hg (r := (m (t, is)).1) (t' := (m (t, is)).2.1) (is' := (m (t, is)).2.2) rfl]

/-- The text of a layer ends before its last number. -/
theorem layer_cut (N : Num α) (draws : Nat → Nat → α) (C : Codec α) (hC : C.Lawful) {b : Body α} (hb : b.Storable C)
    {t : List Char} (ht : b.serialize C = .ok t) {p q : List Char} (hp : p ++ q = t)
    (hlen : p.length + (b.lastNumber C).length ≤ t.length) (M : Model α) :
    (loadLayer N draws C b.word (M, ⟨p, false, false⟩)).1.Bad := by
  have fin : ∀ {σ : Type} {n len : Nat} {r : Res Bool × (σ × IStream)}, q ≠ [] → LayerCut q [] n len r → len ≤ n → r.1.Bad := by
    rintro σ n len r hq (⟨p', x', e, -⟩ | h | ⟨x', s', -, -, h⟩) hl
    · exact absurd (List.append_eq_nil_iff.1 e).2 hq
    · exact h
    · omega
  have hq : 0 < (b.lastNumber C).length → q ≠ [] := by
    rintro h rfl
    rw [List.append_nil] at hp
    rw [hp] at hlen
    omega
  cases hb with
  | @kernel A B D F K w β h hw hβ =>
    obtain ⟨t', e, hcut⟩ := Kernel.cut C hC h hw hβ
    obtain rfl : t' = t := Res.ok.inj (e.symm.trans ht)
    simp only [Body.lastNumber, h.biases.last, Option.elim_some, List.length_append] at hlen hq
    obtain ⟨K₀, hs, ea⟩ := addKernel_zero N (draws M.kernels) M
    show (loadLayer N draws C "Kernel".toList _).1.Bad
    unfold loadLayer
    rw [if_pos rfl]
    simp only [ea]
    rw [onLast_fst (ls := M.layers) (l := ⟨layerName "Kernel" (M.kernels + 1), .kernel K₀⟩) (t := K₀) _ _ _ rfl rfl]
    exact fin (hq (by simp)) (hcut p q [] (by rw [hp, List.append_nil]) K₀) (by simp at hlen; omega)
  | @pooling P hx hy hs =>
    obtain rfl : P.serialize = t := Res.ok.inj ht
    simp only [Body.lastNumber, List.length_append] at hlen hq
    show (loadLayer N draws C "Pooling".toList _).1.Bad
    unfold loadLayer
    rw [if_neg (by decide), if_pos rfl]
    rw [onLast_fst (ls := M.layers) (l := ⟨layerName "Pooling" (M.poolings + 1), .pooling (Pooling.new ⟨0, 0⟩ ⟨0, 0⟩ .max)⟩)
      (t := Pooling.new ⟨0, 0⟩ ⟨0, 0⟩ .max) _ _ _ rfl rfl]
    exact fin (hq (by simp)) (Pooling.cut P hx hy p q [] (by rw [hp, List.append_nil]) _) (by simp at hlen; omega)
  | @connected n m L w β h hw hβ =>
    obtain ⟨t', e, hcut⟩ := Connected.cut C hC h hw hβ
    obtain rfl : t' = t := Res.ok.inj (e.symm.trans ht)
    simp only [Body.lastNumber, h.biases.last, Option.elim_some, List.length_append] at hlen hq
    obtain ⟨L₀, ea⟩ : ∃ L₀ : Connected α, M.addConnected 0 =
      .ok { M.append (layerName "FullyConnected" (M.connecteds + 1)) (.connected L₀) with connecteds := M.connecteds + 1 } :=
      ⟨_, rfl⟩
    show (loadLayer N draws C "Connected Layer".toList _).1.Bad
    unfold loadLayer
    rw [if_neg (by decide), if_neg (by decide), if_pos rfl]
    simp only [ea]
    rw [onLast_fst (ls := M.layers) (l := ⟨layerName "FullyConnected" (M.connecteds + 1), .connected L₀⟩) (t := L₀) _ _ _ rfl rfl]
    exact fin (hq (by simp)) (hcut p q [] (by rw [hp, List.append_nil]) L₀) (by simp at hlen; omega)

omit [Zero α] [Add α] [Mul α] [Div α] [Inhabited α] in
theorem readLine_word {w r : List Char} (h0 : w ≠ []) (hw : ∀ c ∈ w, c ≠ '\n') (hr : r = [] ∨ ∃ r', r = '\n' :: r') :
    readLine ⟨w ++ r, false, false⟩ = (w, ⟨w ++ r, false, false⟩) := by
  rcases hr with rfl | ⟨r', rfl⟩
  · have h1 : w.takeWhile (· ≠ '\n') = w := by
      have := List.takeWhile_append_of_pos (l₂ := []) (p := fun c => decide (c ≠ '\n')) (l₁ := w) (by simpa using hw)
      simpa using this
    have h2 : w.dropWhile (· ≠ '\n') = [] := by
      have := List.dropWhile_append_of_pos (l₂ := []) (p := fun c => decide (c ≠ '\n')) (l₁ := w) (by simpa using hw)
      simpa using this
    unfold readLine getline
    simp only [good, Bool.not_false, Bool.and_true, if_true, List.append_nil, h1, h2]
    cases w with
    | nil => exact absurd rfl h0
    | cons c w => rfl
  · exact readLine_line hw

omit [Inhabited α] in
/-- One turn of the loop that ends in failure. -/
theorem loop_bad (N : Num α) (draws : Nat → Nat → α) (C : Codec α) (M : Model α) (fuel i : Nat) {w p : List Char}
    (hw : readLine ⟨p, false, false⟩ = (w, ⟨p, false, false⟩)) (h : (loadLayer N draws C w (M, ⟨p, false, false⟩)).1.Bad) :
    ∃ M', loadLoop N draws C (fuel + 1) (M, ⟨layerHead i ++ p, false, false⟩) = some (.ok false, M') ∨
      loadLoop N draws C (fuel + 1) (M, ⟨layerHead i ++ p, false, false⟩) = some (.ub, M') := by
  obtain ⟨hd, eh, hh⟩ := layerHead_line i
  have e1 : layerHead i ++ p = hd ++ '\n' :: p := by rw [eh]; simp
  rw [e1]
  unfold loadLoop
  simp only
  rw [getline_line hh]
  simp only [Bool.false_eq_true, if_false]
  rw [hw]
  simp only
  generalize loadLayer N draws C w (M, ⟨p, false, false⟩) = r at h ⊢
  obtain ⟨r, s'⟩ := r
  rcases h with h | h | h <;> (simp only at h; subst h)
  · exact ⟨_, .inl rfl⟩
  · exact ⟨_, .inl rfl⟩
  · exact ⟨_, .inr rfl⟩

omit [Inhabited α] in
/-- The file ends in the name of a layer, or before it. -/
theorem loop_stop (N : Num α) (draws : Nat → Nat → α) (C : Codec α) (M : Model α) (fuel i : Nat) {p : List Char}
    (hp : ∀ c ∈ p, c ≠ '\n') (hk : p ∉ keywords) :
    loadLoop N draws C (fuel + 3) (M, ⟨layerHead i ++ p, false, false⟩) = some (.ok true, M) := by
  obtain ⟨hd, eh, hh⟩ := layerHead_line i
  have e1 : layerHead i ++ p = hd ++ '\n' :: p := by rw [eh]; simp
  rw [e1]
  have e3 : ∀ e, getline ⟨[], e, true⟩ = ([], ⟨[], e, true⟩) := by intro e; cases e <;> decide
  rcases p with _ | ⟨c, p⟩
  · have e2 : readLine ⟨[], false, false⟩ = ([], ⟨[], false, true⟩) := by decide
    unfold loadLoop
    simp only [getline_line hh, Bool.false_eq_true, if_false, e2, loadLayer_other N draws C M [] _ hk]
    unfold loadLoop
    simp only [e3, if_true]
  · have h0 := readLine_word (w := c :: p) (r := []) (by simp) hp (.inl rfl)
    rw [List.append_nil] at h0
    have h1 : (getline ⟨c :: p, false, false⟩).2 = ⟨[], true, false⟩ := by
      have h2 : (c :: p).dropWhile (· ≠ '\n') = [] := by
        have := List.dropWhile_append_of_pos (l₂ := []) (p := fun c => decide (c ≠ '\n')) (l₁ := c :: p) (by simpa using hp)
        simpa using this
      unfold getline
      simp only [good, Bool.not_false, Bool.and_true, if_true, h2]
      have : c ≠ '\n' := hp c (by simp)
      simp [this]
    have h4 : readLine ⟨[], true, false⟩ = ([], ⟨[], false, true⟩) := by decide
    unfold loadLoop
    simp only [getline_line hh, Bool.false_eq_true, if_false, h0, loadLayer_other N draws C M _ _ hk]
    unfold loadLoop
    simp only [h1, Bool.false_eq_true, if_false, h4, loadLayer_other N draws C M [] _ (by decide)]
    unfold loadLoop
    simp only [e3, if_true]

/-! ### The labels -/

omit [Zero α] [Add α] [Mul α] [Div α] [Inhabited α]

theorem readLabels_dead (n : Nat) (s : IStream) (h : s.Dead) :
    (readLabels n s).1 = List.replicate n [] ∧ (readLabels n s).2.Dead := by
  induction n generalizing s with
  | zero => exact ⟨rfl, h⟩
  | succ n ih =>
    have e : extractWord s = (none, { s with fail := true }) := by
      unfold IStream.Dead at h
      unfold extractWord sentryWs
      simp only [h, Bool.false_eq_true, if_false]
    have d : (clearLine { s with fail := true }).Dead := clearLine_dead (by simp [IStream.Dead, good])
    rw [readLabels, e]
    obtain ⟨h1, h2⟩ := ih _ d
    exact ⟨by simp only [Option.getD_none, h1, List.replicate_succ], h2⟩

theorem readLabels_cut (a : List (List Char)) (h : ∀ w ∈ a, IsWord w) (n : Nat) :
    (readLabels (a.length + n) ⟨a.flatMap (· ++ ['\n']), false, false⟩).1 = a ++ List.replicate n [] ∧
      (0 < n → (readLabels (a.length + n) ⟨a.flatMap (· ++ ['\n']), false, false⟩).2.Dead) := by
  induction a with
  | nil =>
    cases n with
    | zero => exact ⟨rfl, fun h => absurd h (by omega)⟩
    | succ n =>
      have e : extractWord ⟨[], false, false⟩ = (none, ⟨[], true, true⟩) := by decide
      have d : (clearLine ⟨[], true, true⟩).Dead := clearLine_dead (by simp [IStream.Dead, good])
      simp only [List.flatMap_nil, List.length_nil, Nat.zero_add, List.nil_append]
      rw [readLabels, e]
      obtain ⟨h1, h2⟩ := readLabels_dead n _ d
      exact ⟨by simp only [Option.getD_none, h1, List.replicate_succ], fun _ => h2⟩
  | cons w ws ih =>
    have e : (w :: ws).flatMap (· ++ ['\n']) = w ++ '\n' :: ws.flatMap (· ++ ['\n']) := by simp
    have e2 : (w :: ws).length + n = ws.length + n + 1 := by simp only [List.length_cons]; omega
    rw [e, e2, readLabels, extractWord_word (h w (by simp))]
    simp only
    rw [clearLine_nl']
    obtain ⟨h1, h2⟩ := ih (fun v hv => h v (by simp [hv]))
    exact ⟨by rw [h1]; rfl, h2⟩

end Model
end Cnn
