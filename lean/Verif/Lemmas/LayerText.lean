import Verif.Model.Serialize
import Verif.Spec.Kernel
import Verif.Spec.Connected
import Verif.Lemmas.MatrixText
import Verif.Lemmas.Params
/-! Helper lemmas: layers as text (C44 – C47). -/
namespace Cnn
open IStream

/-! ### Running computations -/

namespace Exec
variable {σ τ β γ : Type}

theorem run_ok {m : Exec σ β} {f : β → Exec σ γ} {s s' : σ} {a : β} (h : m s = (.ok a, s')) : (m >>= f) s = f a s' := by
  show Exec.bind m f s = _
  simp only [Exec.bind, h]

theorem run_throw {m : Exec σ β} {f : β → Exec σ γ} {s s' : σ} {e : Exc} (h : m s = (.throw e, s')) :
    (m >>= f) s = (.throw e, s') := by
  show Exec.bind m f s = _
  simp only [Exec.bind, h]

theorem into_ok {m : Exec IStream β} {put : β → σ → σ} {x : σ} {is is' : IStream} {b : β} (h : m is = (.ok b, is')) :
    Exec.into m put (x, is) = (.ok (), (put b x, is')) := by
  simp only [Exec.into, h]

theorem into_throw {m : Exec IStream β} {put : β → σ → σ} {x : σ} {is is' : IStream} {e : Exc} (h : m is = (.throw e, is')) :
    Exec.into m put (x, is) = (.throw e, (x, is')) := by
  simp only [Exec.into, h]

theorem field_ok {get : σ → τ} {put : τ → σ → σ} {m : Exec (τ × IStream) β} {x : σ} {t t₀ : τ} {is is' : IStream} {r : Res β}
    (h₀ : get x = t₀) (h : m (t₀, is) = (r, (t, is'))) : Exec.field get put m (x, is) = (r, (put t x, is')) := by
  simp only [Exec.field, h₀, h]

end Exec

theorem line_append (s : String) (r : List Char) : line s ++ r = s.toList ++ '\n' :: r := by simp [line]

theorem expectVoid_line' (s : String) (r : List Char) :
    expectVoid s.toList ⟨line s ++ r, false, false⟩ = (.ok (), ⟨r, false, false⟩) := by
  rw [line_append]; exact expectVoid_line

section
variable {α : Type} [Zero α] [Inhabited α]

/-- Saving and reading back a matrix with finite entries. -/
theorem Matrix.round_trip (C : Codec α) (hC : C.Lawful) {X Y Z : Nat} {M : Matrix α} {f : Nat → Nat → Nat → α} (hM : M.Shows X Y Z f)
    (hf : ∀ i < X, ∀ j < Y, ∀ k < Z, C.Finite (f i j k)) :
    ∃ t, ∃ g : Nat → Nat → Nat → α, M.serialize C = .ok t ∧ (∀ i < X, ∀ j < Y, ∀ k < Z, C.Same (g i j k) (f i j k)) ∧
      ∀ (R : Matrix α) (rest : List Char), ∃ M', Matrix.deserialize C (R, ⟨t ++ rest, false, false⟩) =
        (.ok true, (M', ⟨rest, false, false⟩)) ∧ M'.Shows X Y Z g := by
  obtain ⟨g, hg⟩ := hC.readsOn f
  exact ⟨_, g, hM.serialize C, fun i hi j hj k hk => (hg i j k (hf i hi j hj k hk)).2, fun R rest =>
    Matrix.deserialize_text C hM.good (fun x hx y hy z hz => (hg x y z (hf x hx y hy z hz)).1) R rest⟩

theorem Kernel.round_trip (C : Codec α) (hC : C.Lawful) {A B D F s : Nat} {K : Kernel α} {w : Nat → Nat → Nat → α} {β : Nat → α}
    (hK : K.Is A B D F s w β) (hw : ∀ a < A, ∀ b < B, ∀ m < D * F, C.Finite (w a b m)) (hβ : ∀ f < F, C.Finite (β f)) :
    ∃ t, ∃ w' : Nat → Nat → Nat → α, ∃ β' : Nat → α, K.serialize C = .ok t ∧
      (∀ a < A, ∀ b < B, ∀ m < D * F, C.Same (w' a b m) (w a b m)) ∧ (∀ f < F, C.Same (β' f) (β f)) ∧
      (∃ t', t = line "Kernel" ++ t') ∧
      ∀ (R : Kernel α) (rest : List Char), ∃ K', Kernel.deserialize C (R, ⟨t ++ rest, false, false⟩) =
        (.ok true, (K', ⟨rest, false, false⟩)) ∧ K'.Is A B D F R.stride w' β' ∧ K'.wGrads = R.wGrads ∧ K'.bGrads = R.bGrads := by
  obtain ⟨tw, w', ew, sw, rw'⟩ := Matrix.round_trip C hC hK.weights hw
  obtain ⟨tb, β', eb, sb, rb⟩ := Matrix.round_trip C hC hK.biases (fun i hi j _ k _ => hβ i hi)
  have bw := hK.weights.good.bounds
  have bb := hK.biases.good.bounds
  have hD : D < 2147483648 := by
    have h1 := hK.biases.good.x
    have h2 : D ≤ D * F := Nat.le_mul_of_pos_right _ h1
    omega
  refine ⟨_, w', fun f => β' f 0 0, ?_, sw, fun f hf => sb f hf 0 (by decide) 0 (by decide),
    ⟨placeText "x".toList A ++ placeText "y".toList B ++ placeText "z".toList D ++ placeText "n".toList F ++ line "weights" ++ tw ++
      line "biases" ++ tb, by simp only [List.append_assoc]; rfl⟩, ?_⟩
  · unfold Kernel.serialize
    rw [ew, Res.bind_ok, eb, Res.bind_ok, hK.dim, hK.num]
    simp only [List.append_assoc]
  · intro R rest
    obtain ⟨W', e1, s1⟩ := rw' R.weights (line "biases" ++ (tb ++ rest))
    obtain ⟨B', e2, s2⟩ := rb R.biases rest
    refine ⟨{ R with dim := dimN A B D, numFilters := F, weights := W', biases := B' }, ?_, ⟨rfl, rfl, rfl, s1, s2.congr ?_⟩, rfl, rfl⟩
    · unfold Kernel.deserialize
      simp only [List.append_assoc]
      rw [Exec.run_ok (Exec.into_ok (expectVoid_line' _ _)),
        Exec.run_ok (Exec.into_ok (expectInt_place (by unfold I32; omega))),
        Exec.run_ok (Exec.into_ok (expectInt_place (by unfold I32; omega))),
        Exec.run_ok (Exec.into_ok (expectInt_place (by unfold I32; omega))),
        Exec.run_ok (Exec.into_ok (expectUnsigned_place (by omega))),
        Exec.run_ok (Exec.into_ok (expectVoid_line' _ _)),
        Exec.run_ok (Exec.field_ok ?_ e1)]
      simp only [if_true]
      rotate_left
      · rfl
      rw [Exec.run_ok (Exec.into_ok (expectVoid_line' _ _)), Exec.field_ok ?_ e2]
      rfl
    · intro i _ j hj k hk
      obtain rfl : j = 0 := by omega
      obtain rfl : k = 0 := by omega
      rfl

theorem Connected.round_trip (C : Codec α) (hC : C.Lawful) {n m : Nat} {L : Connected α} {w : Nat → Nat → α} {β : Nat → α}
    (hL : L.Is n m w β) (hw : ∀ i < n, ∀ k < m, C.Finite (w i k)) (hβ : ∀ i < n, C.Finite (β i)) :
    ∃ t, ∃ w' : Nat → Nat → α, ∃ β' : Nat → α, L.serialize C = .ok t ∧
      (∀ i < n, ∀ k < m, C.Same (w' i k) (w i k)) ∧ (∀ i < n, C.Same (β' i) (β i)) ∧
      (∃ t', t = line "Connected Layer" ++ t') ∧
      ∀ (R : Connected α) (rest : List Char), ∃ L', Connected.deserialize C (R, ⟨t ++ rest, false, false⟩) =
        (.ok true, (L', ⟨rest, false, false⟩)) ∧ L'.Is n m w' β' ∧ L'.inputDim = R.inputDim ∧
          L'.wGrads = R.wGrads ∧ L'.bGrads = R.bGrads := by
  obtain ⟨tw, w', ew, sw, rw'⟩ := Matrix.round_trip C hC hL.weights (fun i hi j hj k _ => hw i hi j hj)
  obtain ⟨tb, β', eb, sb, rb⟩ := Matrix.round_trip C hC hL.biases (fun i hi j _ k _ => hβ i hi)
  have bw := hL.weights.good.bounds
  refine ⟨_, fun i k => w' i k 0, fun f => β' f 0 0, ?_, fun i hi k hk => sw i hi k hk 0 (by decide),
    fun f hf => sb f hf 0 (by decide) 0 (by decide),
    ⟨placeText "x".toList n ++ placeText "y".toList m ++ line "weights" ++ tw ++ line "biases" ++ tb,
      by simp only [List.append_assoc]; rfl⟩, ?_⟩
  · unfold Connected.serialize
    rw [ew, Res.bind_ok, eb, Res.bind_ok, hL.weights.dim]
    simp only [List.append_assoc]
  · intro R rest
    obtain ⟨W', e1, s1⟩ := rw' R.weights (line "biases" ++ (tb ++ rest))
    obtain ⟨B', e2, s2⟩ := rb R.biases rest
    refine ⟨{ R with weights := W', biases := B', initialized := true }, ?_, ⟨s1.congr ?_, s2.congr ?_, rfl⟩, rfl, rfl, rfl⟩
    · unfold Connected.deserialize
      simp only [List.append_assoc]
      rw [Exec.run_ok (Exec.into_ok (expectVoid_line' _ _)),
        Exec.run_ok (Exec.into_ok (expectInt_place (by unfold I32; omega))),
        Exec.run_ok (Exec.into_ok (expectInt_place (by unfold I32; omega))),
        Exec.run_ok (Exec.into_ok (expectVoid_line' _ _)),
        Exec.run_ok (Exec.field_ok ?_ e1)]
      simp only [if_true]
      rotate_left
      · rfl
      rw [Exec.run_ok (Exec.into_ok (expectVoid_line' _ _)), Exec.run_ok (Exec.field_ok ?_ e2)]
      all_goals rfl
    · intro i _ j _ k hk
      obtain rfl : k = 0 := by omega
      rfl
    · intro i _ j hj k hk
      obtain rfl : j = 0 := by omega
      obtain rfl : k = 0 := by omega
      rfl

end

theorem typeName_line (t : PoolType) : ∀ c ∈ (Pooling.typeName t).toList, c ≠ '\n' := by
  cases t <;> decide

theorem Pooling.deserialize_text (P R : Pooling) (hx : I32 P.dim.x) (hy : I32 P.dim.y) (rest : List Char) :
    Pooling.deserialize (R, ⟨P.serialize ++ rest, false, false⟩) =
      (.ok true, ({ R with type := P.type, dim := P.dim, stride := P.dim }, ⟨rest, false, false⟩)) := by
  have ht : ∀ l, Pooling.readType (R, ⟨line (Pooling.typeName P.type) ++ l, false, false⟩) =
      (.ok (), ({ R with type := P.type }, ⟨l, false, false⟩)) := by
    intro l
    unfold Pooling.readType
    simp only
    rw [line_append, getline_line (typeName_line _)]
    cases P.type <;> rfl
  unfold Pooling.deserialize Pooling.serialize
  simp only [List.append_assoc]
  rw [Exec.run_ok (Exec.into_ok (expectVoid_line' _ _)), Exec.run_ok (ht _),
    Exec.run_ok (Exec.into_ok (expectInt_place hx)), Exec.run_ok (Exec.into_ok (expectInt_place hy)),
    Exec.run_ok (Exec.into_ok (expectVoid_line' _ _)),
    Exec.run_ok (Exec.into_ok (expectInt_place hx)), Exec.run_ok (Exec.into_ok (expectInt_place hy))]
  rfl

theorem actName_line (f : ActFn) : ∀ c ∈ f.name.toList, c ≠ '\n' := by
  cases f <;> decide

theorem ofName_name (f : ActFn) : ActFn.ofName f.name.toList = .ok f := by
  cases f <;> decide

theorem Activation.deserialize_text (A R : Activation) (rest : List Char) :
    Activation.deserialize (R, ⟨A.serialize ++ rest, false, false⟩) = (.ok true, ({ R with tag := A.tag }, ⟨rest, false, false⟩)) := by
  have ht : ∀ l, Activation.readName (R, ⟨line A.tag.name ++ l, false, false⟩) = (.ok (), ({ R with tag := A.tag }, ⟨l, false, false⟩)) := by
    intro l
    unfold Activation.readName
    simp only
    rw [line_append, getline_line (actName_line _)]
    simp only [ofName_name]
  unfold Activation.deserialize Activation.serialize
  simp only [List.append_assoc]
  rw [Exec.run_ok (Exec.into_ok (expectVoid_line' _ _)), Exec.run_ok (ht _)]
  rfl

end Cnn
