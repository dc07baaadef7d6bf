import Verif.Model.Serialize
/-! Helper lemmas: reading never lengthens a stream, so the loop of `loadModel` ends (C49). -/
namespace Cnn
open IStream

namespace IStream

theorem dropWhile_length (p : Char → Bool) (l : List Char) : (l.dropWhile p).length ≤ l.length :=
  (List.dropWhile_suffix p).length_le

theorem sentryWs_shrinks (s : IStream) : s.sentryWs.2.rest.length ≤ s.rest.length := by
  unfold sentryWs
  split
  · split
    · exact Nat.zero_le _
    · rename_i r h
      simp only
      exact dropWhile_length _ _
  · exact le_refl _

theorem dropLine_length (n : Nat) (l : List Char) : (dropLine n l).1.length ≤ l.length := by
  induction l generalizing n with
  | nil => cases n <;> simp [dropLine]
  | cons c l ih =>
    cases n with
    | zero => simp [dropLine]
    | succ n =>
      simp only [dropLine]
      split
      · simp
      · exact (ih n).trans (by simp)

theorem clearLine_shrinks (s : IStream) : s.clearLine.rest.length ≤ s.rest.length := by
  unfold clearLine
  split
  · exact dropLine_length _ _
  · exact le_refl _

theorem getline_shrinks (s : IStream) : s.getline.2.rest.length ≤ s.rest.length := by
  unfold getline
  split
  · have := dropWhile_length (· ≠ '\n') s.rest
    simp only
    split
    · exact Nat.zero_le _
    · rename_i c r h
      rw [h] at this
      simp only [List.length_cons] at this
      simp only
      omega
  · exact le_refl _

/-- A line that is found takes at least one character. -/
theorem getline_lt (s : IStream) (h : s.getline.2.fail = false) : s.getline.2.rest.length < s.rest.length := by
  unfold getline at h ⊢
  split at h
  · rename_i hg
    rw [if_pos hg]
    have hl := dropWhile_length (· ≠ '\n') s.rest
    simp only at h ⊢
    split at h
    · rename_i hd
      simp only at h ⊢
      cases hs : s.rest with
      | nil => simp [hs] at h
      | cons c l => simp
    · rename_i c r hd
      rw [hd] at hl
      simp only [List.length_cons] at hl ⊢
      omega
  · simp at h

theorem readLine_shrinks (s : IStream) : s.readLine.2.rest.length ≤ s.rest.length := by
  unfold readLine
  split
  · simp only
    split
    · exact getline_shrinks s
    · exact le_refl _
  · exact le_refl _

theorem readN_shrinks (s : IStream) (n : Nat) : (s.readN n).2.rest.length ≤ s.rest.length := by
  unfold readN
  split
  · split
    · simp
    · exact Nat.zero_le _
  · exact le_refl _

theorem scanSign_length (l : List Char) : (scanSign l).2.length ≤ l.length := by
  unfold scanSign
  split <;> simp

theorem scanInt_length (l : List Char) : (scanInt l).2.2.length ≤ l.length := by
  unfold scanInt
  exact (dropWhile_length _ _).trans (scanSign_length l)

theorem extractInt_shrinks (s : IStream) : s.extractInt.2.rest.length ≤ s.rest.length := by
  unfold extractInt
  have h := sentryWs_shrinks s
  split
  · rename_i e; rw [e] at h; exact h
  · rename_i s' e
    rw [e] at h
    have h' := (scanInt_length s'.rest).trans h
    simp only
    split
    · exact h'
    · split
      all_goals
        split
        · exact h'
        · split <;> exact h'

theorem extractUnsigned_shrinks (s : IStream) : s.extractUnsigned.2.rest.length ≤ s.rest.length := by
  unfold extractUnsigned
  have h := sentryWs_shrinks s
  split
  · rename_i e; rw [e] at h; exact h
  · rename_i s' e
    rw [e] at h
    have h' := (scanInt_length s'.rest).trans h
    simp only
    split
    · exact h'
    · split <;> exact h'

theorem extractWord_shrinks (s : IStream) : s.extractWord.2.rest.length ≤ s.rest.length := by
  unfold extractWord
  have h := sentryWs_shrinks s
  split
  · rename_i e; rw [e] at h; exact h
  · rename_i s' e
    rw [e] at h
    exact (dropWhile_length _ _).trans h

/-- The end of a number, as in `scanFloat`. -/
theorem scanExp_length (neg : Bool) (ip fp l : List Char) : (if (ip ++ fp).isEmpty then ((none : Option Dec), l)
  else match l with
    | c :: l' =>
      if c = 'e' || c = 'E' then
        let (eneg, ed, r) := scanInt l'
        if ed.isEmpty then (none, r)
        else (some ⟨neg, numeral (ip ++ fp), (if eneg then -(numeral ed : Int) else numeral ed) - fp.length⟩, r)
      else (some ⟨neg, numeral (ip ++ fp), -(fp.length : Int)⟩, l)
    | [] => (some ⟨neg, numeral (ip ++ fp), -(fp.length : Int)⟩, [])).2.length ≤ l.length := by
  split
  · exact le_refl _
  · cases l with
    | nil => exact le_refl _
    | cons c l' =>
      have h5 := scanInt_length l'
      simp only
      split
      · split <;> exact h5.trans (Nat.le_succ _)
      · exact le_refl _

theorem scanFloat_length (l : List Char) : (scanFloat l).2.length ≤ l.length := by
  unfold scanFloat
  have h1 := scanSign_length l
  have h2 := dropWhile_length Char.isDigit (scanSign l).2
  simp only
  split
  · rename_i l' e
    have h3 := dropWhile_length Char.isDigit l'
    rw [e] at h2
    simp only [List.length_cons] at h2
    refine (scanExp_length _ _ _ _).trans ?_
    simp only; omega
  · refine (scanExp_length _ _ _ _).trans ?_
    simp only; omega

theorem extractNum_shrinks {α : Type} [Zero α] (C : Codec α) (s : IStream) : (s.extractNum C).2.rest.length ≤ s.rest.length := by
  unfold extractNum
  have h := sentryWs_shrinks s
  split
  · rename_i e; rw [e] at h; exact h
  · rename_i s' e
    rw [e] at h
    have h' := (scanFloat_length s'.rest).trans h
    split
    · rename_i r hr
      rw [hr] at h'; exact h'
    · rename_i d r hr
      rw [hr] at h'
      exact h'

theorem expectVoid_shrinks (label : List Char) (s : IStream) : (expectVoid label s).2.rest.length ≤ s.rest.length := by
  unfold expectVoid
  have h := readN_shrinks s label.length
  generalize s.readN label.length = r at *
  obtain ⟨got, s'⟩ := r
  simp only at h ⊢
  split
  · exact h
  · exact (clearLine_shrinks _).trans h

theorem expectInt_shrinks (label : List Char) (s : IStream) : (expectInt label s).2.rest.length ≤ s.rest.length := by
  unfold expectInt
  have h := readN_shrinks s label.length
  generalize s.readN label.length = r at *
  obtain ⟨got, s'⟩ := r
  simp only at h ⊢
  split
  · exact h
  · have h' := extractInt_shrinks s'
    split
    · rename_i e; rw [e] at h'; exact ((clearLine_shrinks _).trans h').trans h
    · rename_i e; rw [e] at h'; exact ((clearLine_shrinks _).trans h').trans h

theorem expectUnsigned_shrinks (label : List Char) (s : IStream) : (expectUnsigned label s).2.rest.length ≤ s.rest.length := by
  unfold expectUnsigned
  have h := readN_shrinks s label.length
  generalize s.readN label.length = r at *
  obtain ⟨got, s'⟩ := r
  simp only at h ⊢
  split
  · exact h
  · have h' := extractUnsigned_shrinks s'
    split
    · rename_i e; rw [e] at h'; exact ((clearLine_shrinks _).trans h').trans h
    · rename_i e; rw [e] at h'; exact ((clearLine_shrinks _).trans h').trans h

end IStream

/-! ### Computations that read -/

namespace Exec
variable {σ τ β γ : Type}

/-- The stream never gets longer. -/
def Shrinks (m : Exec (σ × IStream) β) : Prop := ∀ s, (m s).2.2.rest.length ≤ s.2.rest.length

theorem Shrinks.bind {m : Exec (σ × IStream) β} {f : β → Exec (σ × IStream) γ} (hm : m.Shrinks) (hf : ∀ b, (f b).Shrinks) :
    (m >>= f).Shrinks := by
  intro s
  show (Exec.bind m f s).2.2.rest.length ≤ _
  unfold Exec.bind
  have h := hm s
  split
  · rename_i a s' e; rw [e] at h; exact (hf a s').trans h
  all_goals rename_i e; rw [e] at h; exact h

theorem Shrinks.pure (b : β) : (Exec.pure b : Exec (σ × IStream) β).Shrinks := fun _ => le_refl _

theorem Shrinks.into {m : Exec IStream β} {put : β → σ → σ} (h : ∀ s, (m s).2.rest.length ≤ s.rest.length) :
    (Exec.into m put).Shrinks := by
  intro s
  unfold Exec.into
  have := h s.2
  split
  all_goals rename_i e; rw [e] at this; exact this

theorem Shrinks.field {get : σ → τ} {put : τ → σ → σ} {m : Exec (τ × IStream) β} (h : m.Shrinks) :
    (Exec.field get put m).Shrinks := fun s => h (get s.1, s.2)

theorem Shrinks.allM {ι : Type} {body : ι → Exec (σ × IStream) Bool} (h : ∀ i, (body i).Shrinks) (l : List ι) :
    (Exec.allM body l).Shrinks := by
  induction l with
  | nil => exact Shrinks.pure _
  | cons i l ih =>
    exact Shrinks.bind (h i) (fun b => by cases b <;> first | exact Shrinks.pure _ | exact ih)

theorem Shrinks.ite {c : Bool} {m m' : Exec (σ × IStream) β} (h : m.Shrinks) (h' : m'.Shrinks) : (if c then m else m').Shrinks := by
  cases c
  · exact h'
  · exact h

end Exec

section
variable {α : Type} [Zero α]
open Exec

theorem Matrix.deserialize_shrinks (C : Codec α) : (Matrix.deserialize C : Exec (Matrix α × IStream) Bool).Shrinks := by
  intro s
  unfold Matrix.deserialize
  have h1 := extractInt_shrinks s.2
  generalize s.2.extractInt = r1 at *
  obtain ⟨x, s1⟩ := r1
  have h2 := extractInt_shrinks s1
  simp only at h1 ⊢
  generalize s1.extractInt = r2 at *
  obtain ⟨y, s2⟩ := r2
  have h3 := extractInt_shrinks s2
  simp only at h2 ⊢
  generalize s2.extractInt = r3 at *
  obtain ⟨z, s3⟩ := r3
  simp only at h3 ⊢
  have hs : s3.rest.length ≤ s.2.rest.length := h3.trans (h2.trans h1)
  split
  · exact hs
  · refine le_trans ?_ hs
    have hend : (Matrix.endLine : Exec (Matrix α × IStream) Bool).Shrinks := fun s => clearLine_shrinks s.2
    have hcell : ∀ x y z, (Matrix.readCell C x y z : Exec (Matrix α × IStream) Bool).Shrinks := by
      intro x y z s
      unfold Matrix.readCell
      have h := extractNum_shrinks C s.2
      split
      · rename_i e; rw [e] at h; exact h
      · rename_i e; rw [e] at h
        split <;> exact h
    have hres : ∀ d, (Matrix.resizeX d : Exec (Matrix α × IStream) Unit).Shrinks := by
      intro d s
      unfold Matrix.resizeX
      split <;> exact le_refl _
    exact Shrinks.bind (hres _) (fun _ => Shrinks.allM (fun z => Shrinks.bind (Shrinks.allM (fun x =>
      Shrinks.bind (Shrinks.allM (fun y => hcell x y z) _) (fun b => Shrinks.ite hend (Shrinks.pure _))) _)
        (fun b => Shrinks.ite hend (Shrinks.pure _))) _) _

theorem Kernel.deserialize_shrinks (C : Codec α) : (Kernel.deserialize C : Exec (Kernel α × IStream) Bool).Shrinks := by
  unfold Kernel.deserialize
  have hv := fun l => Shrinks.into (put := fun _ (K : Kernel α) => K) (expectVoid_shrinks l)
  refine Shrinks.bind (hv _) fun _ => Shrinks.bind (Shrinks.into (expectInt_shrinks _)) fun _ =>
    Shrinks.bind (Shrinks.into (expectInt_shrinks _)) fun _ => Shrinks.bind (Shrinks.into (expectInt_shrinks _)) fun _ =>
    Shrinks.bind (Shrinks.into (expectUnsigned_shrinks _)) fun _ => Shrinks.bind (hv _) fun _ =>
    Shrinks.bind (Shrinks.field (Matrix.deserialize_shrinks C)) fun b => Shrinks.ite ?_ (Shrinks.pure _)
  exact Shrinks.bind (hv _) fun _ => Shrinks.field (Matrix.deserialize_shrinks C)

theorem Connected.deserialize_shrinks (C : Codec α) : (Connected.deserialize C : Exec (Connected α × IStream) Bool).Shrinks := by
  unfold Connected.deserialize
  have hv := fun l => Shrinks.into (put := fun _ (K : Connected α) => K) (expectVoid_shrinks l)
  have hi := fun l => Shrinks.into (put := fun _ (K : Connected α) => K) (expectInt_shrinks l)
  refine Shrinks.bind (hv _) fun _ => Shrinks.bind (hi _) fun _ => Shrinks.bind (hi _) fun _ => Shrinks.bind (hv _) fun _ =>
    Shrinks.bind (Shrinks.field (Matrix.deserialize_shrinks C)) fun b => Shrinks.ite ?_ (Shrinks.pure _)
  refine Shrinks.bind (hv _) fun _ => Shrinks.bind (Shrinks.field (Matrix.deserialize_shrinks C)) fun b =>
    Shrinks.ite ?_ (Shrinks.pure _)
  exact Shrinks.bind (fun s => le_refl _) fun _ => Shrinks.pure _

end

theorem Pooling.deserialize_shrinks : Pooling.deserialize.Shrinks := by
  unfold Pooling.deserialize
  have hv := fun l => Exec.Shrinks.into (put := fun _ (K : Pooling) => K) (expectVoid_shrinks l)
  have ht : Pooling.readType.Shrinks := by
    intro s
    unfold Pooling.readType
    have h := getline_shrinks s.2
    generalize s.2.getline = r at *
    simp only
    split
    · exact h
    · split
      · exact h
      · split <;> exact h
  exact Exec.Shrinks.bind (hv _) fun _ => Exec.Shrinks.bind ht fun _ =>
    Exec.Shrinks.bind (Exec.Shrinks.into (expectInt_shrinks _)) fun _ =>
    Exec.Shrinks.bind (Exec.Shrinks.into (expectInt_shrinks _)) fun _ => Exec.Shrinks.bind (hv _) fun _ =>
    Exec.Shrinks.bind (Exec.Shrinks.into (expectInt_shrinks _)) fun _ =>
    Exec.Shrinks.bind (Exec.Shrinks.into (expectInt_shrinks _)) fun _ => Exec.Shrinks.pure _

namespace Model
variable {α : Type}

theorem readLabels_shrinks (n : Nat) (s : IStream) : (readLabels n s).2.rest.length ≤ s.rest.length := by
  induction n generalizing s with
  | zero => exact le_refl _
  | succ n ih =>
    unfold readLabels
    have h := extractWord_shrinks s
    generalize s.extractWord = r at *
    obtain ⟨w, s'⟩ := r
    simp only at h ⊢
    exact (ih _).trans ((clearLine_shrinks _).trans h)

theorem loadSoftmax_shrinks : (loadSoftmax : Exec (Model α × IStream) Bool).Shrinks := by
  intro s
  unfold loadSoftmax
  have h := (expectInt_shrinks "Output labels".toList s.2.clearLine.clearLine).trans
    ((clearLine_shrinks _).trans (clearLine_shrinks _))
  simp only
  split
  · rename_i n is e
    rw [e] at h
    split
    · exact h
    · exact (readLabels_shrinks _ _).trans h
  all_goals rename_i e; rw [e] at h; exact h

theorem onLast_shrinks {τ : Type} {get : Body α → Option τ} {put : τ → Body α} {m : Exec (τ × IStream) Bool} (h : m.Shrinks) :
    (onLast get put m).Shrinks := by
  intro s
  unfold onLast
  split
  · split
    · exact h _
    · exact le_refl _
  · exact le_refl _

variable [Zero α] [Add α] [Mul α] [Div α]

theorem loadLayer_shrinks (N : Num α) (draws : Nat → Nat → α) (C : Codec α) (label : List Char) :
    (loadLayer N draws C label).Shrinks := by
  intro s
  unfold loadLayer
  split
  · split
    · exact onLast_shrinks (Kernel.deserialize_shrinks C) _
    all_goals exact le_refl _
  · split
    · exact onLast_shrinks Pooling.deserialize_shrinks _
    · split
      · split
        · exact onLast_shrinks (Connected.deserialize_shrinks C) _
        all_goals exact le_refl _
      · split
        · exact loadSoftmax_shrinks s
        · exact le_refl _

/-- The loop ends: each round takes a line. -/
theorem loadLoop_some (N : Num α) (draws : Nat → Nat → α) (C : Codec α) (fuel : Nat) (M : Model α) (is : IStream)
    (h : is.rest.length < fuel) : ∃ r, loadLoop N draws C fuel (M, is) = some r := by
  induction fuel generalizing M is with
  | zero => omega
  | succ fuel ih =>
    unfold loadLoop
    by_cases hf : is.getline.2.fail = true
    · simp only [hf, if_true]; exact ⟨_, rfl⟩
    · have hlt := getline_lt is (by simpa using hf)
      have h2 := readLine_shrinks is.getline.2
      simp only [hf, Bool.false_eq_true, if_false]
      generalize is.getline.2.readLine = r at *
      obtain ⟨label, is'⟩ := r
      simp only at h2 ⊢
      have h3 := loadLayer_shrinks N draws C label (M, is')
      generalize loadLayer N draws C label (M, is') = r at *
      obtain ⟨r, s⟩ := r
      simp only at h3
      match r with
      | .ok true => exact ih s.1 s.2 (by omega)
      | .ok false => exact ⟨_, rfl⟩
      | .throw .runtime => exact ⟨_, rfl⟩
      | .throw .matrixSize | .throw .matrixTransform | .throw .modelLayer | .throw .outOfRange | .throw .length => exact ⟨_, rfl⟩
      | .ub => exact ⟨_, rfl⟩
      | .abort => exact ⟨_, rfl⟩

/-- More fuel gives the same. -/
theorem loadLoop_mono (N : Num α) (draws : Nat → Nat → α) (C : Codec α) (fuel k : Nat) (s : Model α × IStream) (r : Res Bool × Model α)
    (h : loadLoop N draws C fuel s = some r) : loadLoop N draws C (fuel + k) s = some r := by
  induction fuel generalizing s with
  | zero => simp [loadLoop] at h
  | succ fuel ih =>
    rw [Nat.add_right_comm]
    unfold loadLoop at h ⊢
    simp only at h ⊢
    by_cases hf : s.2.getline.2.fail = true
    · simp only [hf, if_true] at h ⊢; exact h
    · simp only [hf, Bool.false_eq_true, if_false] at h ⊢
      generalize s.2.getline.2.readLine = q at *
      obtain ⟨label, is'⟩ := q
      simp only at h ⊢
      generalize loadLayer N draws C label (s.1, is') = q at *
      obtain ⟨q, s'⟩ := q
      match q with
      | .ok true => exact ih s' h
      | .ok false => exact h
      | .throw .runtime => exact h
      | .throw .matrixSize | .throw .matrixTransform | .throw .modelLayer | .throw .outOfRange | .throw .length => exact h
      | .ub => exact h
      | .abort => exact h

/-- The outcome does not depend on the fuel. -/
theorem loadModel_of_loop (N : Num α) (draws : Nat → Nat → α) (C : Codec α) (M : Model α) (t : List Char) (fuel : Nat)
    (r : Res Bool × Model α) (h : loadLoop N draws C fuel (M, ofText t) = some r) : loadModel N draws C M (some t) = some r := by
  obtain ⟨r', h'⟩ := loadLoop_some N draws C (t.length + 1) M (ofText t) (by simp [ofText])
  have e1 := loadLoop_mono N draws C fuel (t.length + 1) _ _ h
  have e2 := loadLoop_mono N draws C (t.length + 1) fuel _ _ h'
  rw [Nat.add_comm, e2] at e1
  show loadLoop N draws C (t.length + 1) (M, ofText t) = _
  rw [h', Option.some.inj e1]

end Model
end Cnn
