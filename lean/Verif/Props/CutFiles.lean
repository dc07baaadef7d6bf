import Verif.Lemmas.CutModel
import Verif.Lemmas.Codec
import Verif.Props.SavedModels
/-!
# C96: a saved file that ends too early is not taken for a model
-/
namespace Cnn
open IStream

section
variable {α : Type} [Zero α] [Add α] [Mul α] [Div α]

/-- The claim of C96: whenever the beginning of a saved file is loaded successfully, the whole file is, with the same layers
and labels. -/
def C96_claim (C : Codec α) : Prop := ∀ (N : Num α) (draws : Nat → Nat → α) (M : Model α) (file p : List Char),
  M.saveModel C true = (.ok true, some file) → p <+: file → ∀ M', Model.loadModel N draws C Model.new (some p) = some (.ok true, M') →
  ∃ M'', Model.loadModel N draws C Model.new (some file) = some (.ok true, M'') ∧ M'.layers = M''.layers ∧ M'.labels = M''.labels

/-- The names of layers. -/
private def words : List (List Char) :=
  ["Kernel".toList, "Pooling".toList, "Connected Layer".toList, "Activation".toList, "Softmax".toList]

omit [Zero α] [Add α] [Mul α] [Div α] in
private theorem word_mem (b : Body α) : b.word ∈ words := by
  cases b with
  | kernel => exact .head _
  | pooling => exact .tail _ (.head _)
  | connected => exact .tail _ (.tail _ (.head _))
  | activation => exact .tail _ (.tail _ (.tail _ (.head _)))
  | softmax => exact .tail _ (.tail _ (.tail _ (.tail _ (.head _))))

private theorem words_line : ∀ w ∈ words, w ≠ [] ∧ (∀ c ∈ w, c ≠ '\n') ∧
    ∀ p ∈ w.inits, p ≠ w → (∀ c ∈ p, c ≠ '\n') ∧ p ∉ Model.keywords := by decide +kernel

/-- What is saved before a layer, and the layer, are the beginning of the file. -/
private theorem saved_prefix [Inhabited α] (C : Codec α) (hC : C.Lawful) {M : Model α} {ls more : List (Layer α)} {l : Layer α}
    (hM : M.layers = ls ++ l :: more) (hls : ∀ l ∈ ls, l.body.Storable C ∨ Model.isActivation l = true)
    {os t file : List Char} (hos : Model.saveLayers C 0 ls [] = (.ok (), os)) (ht : l.body.serialize C = .ok t)
    (hf : M.saveModel C true = (.ok true, some file)) : os ++ Model.layerHead ls.length ++ t <+: file := by
  obtain ⟨T, n, _, hT, _⟩ := Model.load_all (α := α) ⟨id, id, id, id, fun _ => 0, fun _ _ => false, 0, 0, 0⟩ (fun _ _ => 0) C hC ls hls 0
  have e1 := hT [] []
  rw [List.append_nil, hos] at e1
  obtain rfl : os = T := (Prod.mk.inj e1).2.trans (by simp)
  have mono : ∀ (ls : List (Layer α)) i os, os <+: (Model.saveLayers C i ls os).2 := by
    intro ls
    induction ls with
    | nil => intro i os; exact List.prefix_refl _
    | cons l ls ih =>
      intro i os
      rw [Model.saveLayers]
      cases l.body.serialize C with
      | ok t => exact (((List.prefix_append _ _).trans (List.prefix_append _ _)).trans (ih _ _))
      | throw e => exact List.prefix_append _ _
      | ub => exact List.prefix_append _ _
      | abort => exact List.prefix_append _ _
  have e2 := hT (l :: more) []
  rw [← hM, Model.saveLayers, ht, List.nil_append, Nat.zero_add] at e2
  simp only at e2
  have e3 := mono more (ls.length + 1) (os ++ Model.layerHead ls.length ++ t)
  rw [← e2] at e3
  unfold Model.saveModel at hf
  generalize Model.saveLayers C 0 M.layers [] = r at hf e3
  obtain ⟨r, o⟩ := r
  cases r with
  | ok u =>
    simp only [if_true] at hf
    rw [← Option.some.inj (Prod.mk.inj hf).2]
    exact e3.trans (List.prefix_append _ _)
  | throw e => exact absurd (Prod.mk.inj hf).1 (by simp)
  | ub => exact absurd (Prod.mk.inj hf).1 (by simp)
  | abort => exact absurd (Prod.mk.inj hf).1 (by simp)

/-- Where the layers `ls` have been read, loading goes on with what follows. -/
private theorem load_before [Inhabited α] (C : Codec α) (hC : C.Lawful) (N : Num α) (draws : Nat → Nat → α) {ls : List (Layer α)}
    (hls : ∀ l ∈ ls, l.body.Storable C ∨ Model.isActivation l = true) {os : List Char}
    (hos : Model.saveLayers C 0 ls [] = (.ok (), os)) (R : Model α) :
    ∃ n, ∀ fuel rest, ∃ R' ls', R'.layers = R.layers ++ ls' ∧
      List.Forall₂ (fun l' l => Body.SameAs C l'.body l.body) ls' (ls.filter (!Model.isActivation ·)) ∧
      (R'.labels = R.labels ∧ R'.softmax = R.softmax) ∧
      Model.loadLoop N draws C (fuel + n) (R, ofText (os ++ Model.layerHead ls.length ++ rest)) =
        Model.loadLoop N draws C fuel (R', ⟨Model.layerHead ls.length ++ rest, false, false⟩) := by
  obtain ⟨T, n, _, hT, hl⟩ := Model.load_all N draws C hC ls hls 0
  have e1 := hT [] []
  rw [List.append_nil, hos] at e1
  obtain rfl : os = T := (Prod.mk.inj e1).2.trans (by simp)
  refine ⟨n, fun fuel rest => ?_⟩
  obtain ⟨R', ls', a1, a2, a3, _, a5⟩ := hl R fuel rest
  rw [Nat.zero_add] at a5
  exact ⟨R', ls', a1, a2, a3, by unfold ofText; rw [List.append_assoc]; exact a5⟩

/-- C96 where the file ends inside the text of a layer (behind its name and before its last number), whatever was saved
before and whatever model it is loaded into: the load fails, or a number that was never read is used. Missing: the other
places, see below. -/
theorem C96_inside_partial [Inhabited α] (C : Codec α) (hC : C.Lawful) (M : Model α) (ls more : List (Layer α)) (l : Layer α)
    (hM : M.layers = ls ++ l :: more) (hls : ∀ l ∈ ls, l.body.Storable C ∨ ∃ A, l.body = .activation A) (hl : l.body.Storable C)
    (os t file : List Char) (hos : Model.saveLayers C 0 ls [] = (.ok (), os)) (ht : l.body.serialize C = .ok t)
    (hf : M.saveModel C true = (.ok true, some file)) :
    os ++ Model.layerHead ls.length ++ t <+: file ∧
    ∀ p, p <+: t → l.body.word <+: p → p.length + (l.body.lastNumber C).length ≤ t.length →
      ∀ (N : Num α) (draws : Nat → Nat → α) (R : Model α), ∃ M',
        Model.loadModel N draws C R (some (os ++ Model.layerHead ls.length ++ p)) = some (.ok false, M') ∨
        Model.loadModel N draws C R (some (os ++ Model.layerHead ls.length ++ p)) = some (.ub, M') := by
  have hls' : ∀ l ∈ ls, l.body.Storable C ∨ Model.isActivation l = true := by
    intro l hl
    rcases hls l hl with h | ⟨A, h⟩
    · exact .inl h
    · right; unfold Model.isActivation; rw [h]
  refine ⟨saved_prefix C hC hM hls' hos ht hf, ?_⟩
  rintro p ⟨q, hq⟩ ⟨r, hr⟩ hlen N draws R
  obtain ⟨n, hn⟩ := load_before C hC N draws hls' hos R
  obtain ⟨R', ls', _, _, _, e⟩ := hn 1 p
  have hword : ∃ t', t = l.body.word ++ '\n' :: t' := by
    cases hb : l.body with
    | kernel K =>
      rw [hb] at hl ht
      cases hl with
      | kernel h hw hβ =>
        obtain ⟨t₁, _, _, e, _, _, ⟨t', et⟩, _⟩ := Kernel.round_trip C hC h hw hβ
        obtain rfl : t₁ = t := Res.ok.inj (e.symm.trans ht)
        exact ⟨t', by rw [et, line_append]; rfl⟩
    | pooling P =>
      rw [hb] at ht
      obtain rfl : P.serialize = t := Res.ok.inj ht
      obtain ⟨t', et⟩ : ∃ t', P.serialize = line "Pooling" ++ t' :=
        ⟨_, by unfold Pooling.serialize; simp only [List.append_assoc]; rfl⟩
      exact ⟨t', by rw [et, line_append]; rfl⟩
    | connected L =>
      rw [hb] at hl ht
      cases hl with
      | connected h hw hβ =>
        obtain ⟨t₁, _, _, e, _, _, ⟨t', et⟩, _⟩ := Connected.round_trip C hC h hw hβ
        obtain rfl : t₁ = t := Res.ok.inj (e.symm.trans ht)
        exact ⟨t', by rw [et, line_append]; rfl⟩
    | activation A => rw [hb] at hl; cases hl
    | softmax S => rw [hb] at hl; cases hl
  obtain ⟨t', et⟩ := hword
  have hr' : r = [] ∨ ∃ r', r = '\n' :: r' := by
    rw [← hr, et, List.append_assoc] at hq
    have := List.append_cancel_left hq
    cases r with
    | nil => exact .inl rfl
    | cons c r => exact .inr ⟨r, by rw [List.cons_append] at this; rw [(List.cons.inj this).1]⟩
  have hw := Model.readLine_word (w := l.body.word) (r := r) (words_line _ (word_mem l.body)).1
    (words_line _ (word_mem l.body)).2.1 hr'
  rw [hr] at hw
  have hbad := Model.layer_cut N draws C hC hl ht hq hlen R'
  obtain ⟨M', e'⟩ := Model.loop_bad N draws C R' 0 ls.length hw hbad
  rw [← e] at e'
  exact ⟨M', e'.imp (Model.loadModel_of_loop N draws C R _ _ _) (Model.loadModel_of_loop N draws C R _ _ _)⟩

/-- Between two layers the end of the file is not noticed: if it ends before the name of the next layer is complete,
`loadModel` reports success, with the layers so far and without labels. -/
theorem C96_between [Inhabited α] (C : Codec α) (hC : C.Lawful) (M : Model α) (ls more : List (Layer α)) (l : Layer α)
    (hM : M.layers = ls ++ l :: more) (hls : ∀ l ∈ ls, l.body.Storable C) (os t file : List Char)
    (hos : Model.saveLayers C 0 ls [] = (.ok (), os)) (ht : l.body.serialize C = .ok t)
    (hf : M.saveModel C true = (.ok true, some file)) (p : List Char) (hp : p <+: l.body.word) (hne : p ≠ l.body.word) :
    os ++ Model.layerHead ls.length ++ p <+: file ∧
    ∀ (N : Num α) (draws : Nat → Nat → α), ∃ M',
      Model.loadModel N draws C Model.new (some (os ++ Model.layerHead ls.length ++ p)) = some (.ok true, M') ∧
      List.Forall₂ (fun l' l => Body.SameAs C l'.body l.body) M'.layers ls ∧ M'.labels = [] := by
  have hls' : ∀ l ∈ ls, l.body.Storable C ∨ Model.isActivation l = true := fun l hl => .inl (hls l hl)
  have hfl : ls.filter (!Model.isActivation ·) = ls := by
    rw [List.filter_eq_self]
    intro l hl
    have := hls l hl
    unfold Model.isActivation
    generalize l.body = b at this
    cases this <;> rfl
  have hword : l.body.word <+: t := by
    cases hb : l.body with
    | kernel K =>
      rw [hb] at ht
      simp only [Body.serialize, Kernel.serialize] at ht
      obtain ⟨_, _, ht⟩ := Res.bind_eq_ok ht
      obtain ⟨_, _, ht⟩ := Res.bind_eq_ok ht
      rw [← Res.ok.inj ht]
      simp only [List.append_assoc, line]
      exact List.prefix_append _ _
    | pooling P =>
      rw [hb] at ht
      obtain rfl : P.serialize = t := Res.ok.inj ht
      unfold Pooling.serialize
      simp only [List.append_assoc, line]
      exact List.prefix_append _ _
    | connected L =>
      rw [hb] at ht
      simp only [Body.serialize, Connected.serialize] at ht
      obtain ⟨_, _, ht⟩ := Res.bind_eq_ok ht
      obtain ⟨_, _, ht⟩ := Res.bind_eq_ok ht
      rw [← Res.ok.inj ht]
      simp only [List.append_assoc, line]
      exact List.prefix_append _ _
    | activation A =>
      rw [hb] at ht
      obtain rfl : A.serialize = t := Res.ok.inj ht
      unfold Activation.serialize
      simp only [List.append_assoc, line]
      exact List.prefix_append _ _
    | softmax S =>
      rw [hb] at ht
      obtain rfl : S.serialize = t := Res.ok.inj ht
      unfold Softmax.serialize
      exact List.prefix_append _ _
  have hkey : (∀ c ∈ p, c ≠ '\n') ∧ p ∉ Model.keywords := by
    exact (words_line _ (word_mem l.body)).2.2 p ((List.mem_inits _ _).2 hp) hne
  refine ⟨((List.prefix_append_right_inj _).2 (hp.trans hword)).trans (saved_prefix C hC hM hls' hos ht hf), fun N draws => ?_⟩
  obtain ⟨n, hn⟩ := load_before C hC N draws hls' hos Model.new
  obtain ⟨R', ls', h1, h2, h3, e⟩ := hn 3 p
  rw [Model.loop_stop N draws C R' 0 ls.length hkey.1 hkey.2] at e
  refine ⟨R', Model.loadModel_of_loop N draws C _ _ _ _ e, ?_, h3.1⟩
  rw [h1, show (Model.new : Model α).layers = [] from rfl, List.nil_append, ← hfl]
  exact h2

/-- C96 where the file ends in the two lines behind `Softmax`: the load fails. -/
theorem C96_output_partial [Inhabited α] (C : Codec α) (hC : C.Lawful) (ls : List (Layer α))
    (hls : ∀ l ∈ ls, l.body.Storable C ∨ ∃ A, l.body = .activation A) (os : List Char)
    (hos : Model.saveLayers C 0 ls [] = (.ok (), os)) (p : List Char) (hp : p <+: "Softmax\n\nOutput labels".toList)
    (hw : "Softmax".toList <+: p) (hne : p ≠ "Softmax\n\nOutput labels".toList) (N : Num α) (draws : Nat → Nat → α) (R : Model α) :
    ∃ M', Model.loadModel N draws C R (some (os ++ Model.layerHead ls.length ++ p)) = some (.ok false, M') := by
  have hls' : ∀ l ∈ ls, l.body.Storable C ∨ Model.isActivation l = true := by
    intro l hl
    rcases hls l hl with h | ⟨A, h⟩
    · exact .inl h
    · right; unfold Model.isActivation; rw [h]
  obtain ⟨n, hn⟩ := load_before C hC N draws hls' hos R
  obtain ⟨R', ls', _, _, _, e⟩ := hn 1 p
  have key : ∀ p ∈ ("Softmax\n\nOutput labels".toList).inits, "Softmax".toList <+: p → p ≠ "Softmax\n\nOutput labels".toList →
      readLine ⟨p, false, false⟩ = ("Softmax".toList, ⟨p, false, false⟩) ∧
      (expectInt "Output labels".toList (clearLine (clearLine ⟨p, false, false⟩))).1 = .throw .runtime := by decide +kernel
  obtain ⟨k1, k2⟩ := key p ((List.mem_inits _ _).2 hp) hw hne
  obtain ⟨hd, eh, hh⟩ := Model.layerHead_line ls.length
  have e1 : Model.layerHead ls.length ++ p = hd ++ '\n' :: p := by rw [eh]; simp
  have e2 : ∃ M', Model.loadLoop N draws C 1 (R', ⟨Model.layerHead ls.length ++ p, false, false⟩) = some (.ok false, M') := by
    rw [e1]
    unfold Model.loadLoop
    simp only
    rw [getline_line hh]
    simp only [Bool.false_eq_true, if_false]
    rw [k1]
    simp only
    have : ∃ s', Model.loadLayer N draws C "Softmax".toList (R', ⟨p, false, false⟩) = (.throw .runtime, s') := by
      unfold Model.loadLayer
      rw [if_neg (by decide), if_neg (by decide), if_neg (by decide), if_pos rfl]
      unfold Model.loadSoftmax
      simp only
      generalize expectInt "Output labels".toList (clearLine (clearLine ⟨p, false, false⟩)) = r at k2
      obtain ⟨r, is⟩ := r
      simp only at k2
      subst k2
      exact ⟨_, rfl⟩
    obtain ⟨s', e⟩ := this
    rw [e]
    exact ⟨_, rfl⟩
  obtain ⟨M', e2⟩ := e2
  exact ⟨M', Model.loadModel_of_loop N draws C R _ _ _ (e.trans e2)⟩

/-- Among the labels the end of the file is not noticed: `loadModel` reports success, and the missing labels are empty. -/
theorem C96_labels [Inhabited α] (C : Codec α) (hC : C.Lawful) (ls : List (Layer α)) (hls : ∀ l ∈ ls, l.body.Storable C) (os : List Char)
    (hos : Model.saveLayers C 0 ls [] = (.ok (), os)) (a b : List (List Char)) (ha : ∀ w ∈ a, IsWord w)
    (hn : (a ++ b).length < 2147483648) (N : Num α) (draws : Nat → Nat → α) : ∃ M',
    Model.loadModel N draws C Model.new (some (os ++ Model.layerHead ls.length ++ (line "Softmax" ++ ('\n' ::
      (placeText "Output labels".toList (a ++ b).length ++ a.flatMap (· ++ ['\n'])))))) = some (.ok true, M') ∧
    M'.labels = a ++ List.replicate b.length [] := by
  have hls' : ∀ l ∈ ls, l.body.Storable C ∨ Model.isActivation l = true := fun l hl => .inl (hls l hl)
  obtain ⟨n, hn'⟩ := load_before C hC N draws hls' hos Model.new
  obtain ⟨R', ls', _, _, _, e⟩ := hn' 3 (line "Softmax" ++ ('\n' :: (placeText "Output labels".toList (a ++ b).length ++
    a.flatMap (· ++ ['\n']))))
  obtain ⟨hd, eh, hh⟩ := Model.layerHead_line ls.length
  obtain ⟨c1, c2⟩ := Model.readLabels_cut a ha b.length
  have hsoft : Model.loadSoftmax (R', ⟨line "Softmax" ++ ('\n' :: (placeText "Output labels".toList (a ++ b).length ++
      a.flatMap (· ++ ['\n']))), false, false⟩) = (.ok true, (R'.setOutputLabels (a ++ List.replicate b.length []) true,
        (Model.readLabels (a.length + b.length) ⟨a.flatMap (· ++ ['\n']), false, false⟩).2)) := by
    unfold Model.loadSoftmax
    simp only
    rw [line_append, clearLine_nl (by decide) (by decide), clearLine_nl', expectInt_place (by unfold I32; omega)]
    simp only
    rw [if_neg (by omega), Int.toNat_natCast, List.length_append, c1]
  have hend : ∀ s : IStream, (s = ⟨[], false, false⟩ ∨ s.Dead) → ∀ M : Model α, Model.loadLoop N draws C 2 (M, s) = some (.ok true, M) := by
    rintro s (rfl | hs) M
    · have e1 : getline ⟨[], false, false⟩ = ([], ⟨[], true, true⟩) := by decide
      unfold Model.loadLoop
      simp only [e1, if_true]
    · unfold IStream.Dead at hs
      unfold Model.loadLoop getline
      simp only [hs, Bool.false_eq_true, if_false, if_true]
  have hfin : Model.loadLoop N draws C 3 (R', ⟨Model.layerHead ls.length ++ (line "Softmax" ++ ('\n' ::
      (placeText "Output labels".toList (a ++ b).length ++ a.flatMap (· ++ ['\n'])))), false, false⟩) =
      some (.ok true, R'.setOutputLabels (a ++ List.replicate b.length []) true) := by
    have e1 : Model.layerHead ls.length ++ (line "Softmax" ++ ('\n' :: (placeText "Output labels".toList (a ++ b).length ++
        a.flatMap (· ++ ['\n'])))) = hd ++ '\n' :: ("Softmax".toList ++ '\n' :: ('\n' ::
        (placeText "Output labels".toList (a ++ b).length ++ a.flatMap (· ++ ['\n'])))) := by
      rw [eh, line_append]; simp
    rw [e1]
    refine (Model.loop_step N draws C R' 2 hh (by decide) (s' := (_, (Model.readLabels (a.length + b.length)
      ⟨a.flatMap (· ++ ['\n']), false, false⟩).2)) ?_).trans (hend _ ?_ _)
    · unfold Model.loadLayer
      rw [if_neg (by decide), if_neg (by decide), if_neg (by decide), if_pos rfl, ← line_append]
      exact hsoft
    · rcases Nat.eq_zero_or_pos b.length with h0 | h0
      · left
        have := Model.readLabels_text a ha []
        rw [List.append_nil] at this
        rw [h0, Nat.add_zero, this]
      · exact .inr (c2 h0)
  exact ⟨_, Model.loadModel_of_loop N draws C _ _ _ _ (e.trans hfin), rfl⟩

/-- In the last number of a layer the end of the file is not noticed: a pooling layer is loaded with what is there of its
second stride. -/
theorem C96_number (C : Codec α) (P : Pooling) (hx : I32 P.dim.x) (n : Nat) (hy : P.dim.y = n) (hn : n < 2147483648)
    (p d e : List Char) (hd : d ≠ []) (hde : natText n = d ++ e) (hp : P.serialize = p ++ (e ++ ['\n'])) (N : Num α)
    (draws : Nat → Nat → α) : ∃ M' l P', Model.loadModel N draws C Model.new (some (Model.layerHead 0 ++ p)) = some (.ok true, M') ∧
      M'.layers = [l] ∧ l.body = .pooling P' ∧ P'.dim = P.dim ∧ P'.stride = ⟨P.dim.x, numeral d⟩ := by
  have hyI : I32 P.dim.y := by rw [hy]; unfold I32; omega
  have hdig : ∀ c ∈ d, c.isDigit = true := fun c hc => natText_isDigit n c (by rw [hde]; simp [hc])
  have hle : numeral d < 2147483648 := lt_of_le_of_lt (numeral_prefix hde) hn
  have ep : p = line "Pooling" ++ (line (Pooling.typeName P.type) ++ (placeText "x".toList P.dim.x ++ (placeText "y".toList P.dim.y ++
      (line "stride" ++ (placeText "x".toList P.dim.x ++ ("y".toList ++ (' ' :: d))))))) := by
    refine List.append_cancel_right (bs := e ++ ['\n']) ?_
    have e1 : placeText "y".toList P.dim.y = "y".toList ++ (' ' :: (d ++ (e ++ ['\n']))) := by
      rw [hy]; unfold placeText intText; rw [if_neg (by omega), Int.natAbs_natCast, hde]; simp
    rw [← hp]
    unfold Pooling.serialize
    simp only [List.append_assoc, List.cons_append]
    congr 6
  have hr := Pooling.readType_line P.type
  have hfin : ∀ R : Pooling, Exec.into (expectInt "y".toList) (fun v (P : Pooling) => { P with stride := { P.stride with y := v } })
      (R, ⟨"y".toList ++ (' ' :: d), false, false⟩) =
      (.ok (), ({ R with stride := { R.stride with y := numeral d } }, ⟨[], true, true⟩)) := by
    intro R
    refine Exec.into_ok ?_
    have h1 := readN_append "y".toList (' ' :: d)
    have h2 := extractInt_end (ws := [' ']) (by simp [isWs]) hdig hd hle
    unfold expectInt
    simp only [h1, ne_eq, not_true_eq_false, if_false]
    rw [List.singleton_append] at h2
    rw [h2]
    rfl
  have hdes : ∀ R : Pooling, Pooling.deserialize (R, ⟨p, false, false⟩) =
      (.ok true, ({ R with type := P.type, dim := P.dim, stride := ⟨P.dim.x, numeral d⟩ }, ⟨[], true, true⟩)) := by
    intro R
    rw [ep]
    unfold Pooling.deserialize
    rw [Exec.run_ok (Exec.into_ok (expectVoid_line' _ _)), Exec.run_ok (hr _ _),
      Exec.run_ok (Exec.into_ok (expectInt_place hx)), Exec.run_ok (Exec.into_ok (expectInt_place hyI)),
      Exec.run_ok (Exec.into_ok (expectVoid_line' _ _)),
      Exec.run_ok (Exec.into_ok (expectInt_place hx)), Exec.run_ok (hfin _)]
    rfl
  obtain ⟨hd', eh, hh⟩ := Model.layerHead_line 0
  obtain ⟨p', ep'⟩ : ∃ p', p = "Pooling".toList ++ '\n' :: p' := ⟨_, by rw [ep, line_append]⟩
  have e1 : Model.layerHead 0 ++ p = hd' ++ '\n' :: ("Pooling".toList ++ '\n' :: p') := by rw [eh, ep']; simp
  have e2 : ∃ M' : Model α, Model.loadLayer N draws C "Pooling".toList (Model.new, ⟨p, false, false⟩) =
      (.ok true, (M', ⟨[], true, true⟩)) ∧ M'.layers = [⟨Model.layerName "Pooling" 1,
        .pooling ⟨P.dim, ⟨P.dim.x, numeral d⟩, P.type, [Matrix.empty]⟩⟩] := by
    refine ⟨{ (Model.new : Model α).append (Model.layerName "Pooling" 1) (.pooling ⟨P.dim, ⟨P.dim.x, numeral d⟩, P.type, [Matrix.empty]⟩) with
      poolings := 1 }, ?_, rfl⟩
    unfold Model.loadLayer
    rw [if_neg (by decide), if_pos rfl]
    refine (Model.onLast_append _ Body.pooling Pooling.deserialize (ls := (Model.new : Model α).layers)
      (l := ⟨Model.layerName "Pooling" 1, .pooling (Pooling.new ⟨0, 0⟩ ⟨0, 0⟩ .max)⟩) ?_ ?_ (hdes (Pooling.new ⟨0, 0⟩ ⟨0, 0⟩ .max))).trans ?_ <;>
      rfl
  obtain ⟨M', e2, e3⟩ := e2
  refine ⟨M', _, _, Model.loadModel_of_loop N draws C _ _ 2 _ ?_, e3, rfl, rfl, rfl⟩
  unfold ofText
  rw [e1]
  rw [ep'] at e2
  rw [Model.loop_step N draws C _ 1 hh (by decide) e2]
  have e4 : getline ⟨[], true, true⟩ = ([], ⟨[], true, true⟩) := by decide
  unfold Model.loadLoop
  simp only [e4, if_true]

/-- Behind the name of a dimension the end of the file makes the load use a number that was never read. -/
theorem C96_undefined (N : Num α) (draws : Nat → Nat → α) (C : Codec α) (R : Model α) (i : Nat) (p : List Char)
    (hp : p = "Kernel\nx".toList ∨ p = "Kernel\nx ".toList) :
    ∃ M', Model.loadModel N draws C R (some (Model.layerHead i ++ p)) = some (.ub, M') := by
  obtain ⟨K₀, hs, ea⟩ := Model.addKernel_zero N (draws R.kernels) R
  obtain ⟨hd, eh, hh⟩ := Model.layerHead_line i
  obtain ⟨v, ev, hv⟩ : ∃ v, p = "Kernel".toList ++ '\n' :: v ∧ (expectInt "x".toList ⟨v, false, false⟩).1 = .ub := by
    rcases hp with rfl | rfl
    · exact ⟨"x".toList, by decide, by decide⟩
    · exact ⟨"x ".toList, by decide, by decide⟩
  have e1 : Model.layerHead i ++ p = hd ++ '\n' :: ("Kernel".toList ++ '\n' :: v) := by rw [eh, ev]; simp
  have ed : ∀ K : Kernel α, (Kernel.deserialize C (K, ⟨"Kernel".toList ++ '\n' :: v, false, false⟩)).1 = .ub := by
    intro K
    unfold Kernel.deserialize
    rw [Exec.run_ok (Exec.into_ok expectVoid_line)]
    show (Exec.bind _ _ _).1 = _
    unfold Exec.bind Exec.into
    generalize expectInt "x".toList ⟨v, false, false⟩ = r at hv
    obtain ⟨r, s⟩ := r
    simp only at hv
    subst hv
    rfl
  have el : (Model.loadLayer N draws C "Kernel".toList (R, ⟨"Kernel".toList ++ '\n' :: v, false, false⟩)).1 = .ub := by
    unfold Model.loadLayer
    rw [if_pos rfl]
    simp only [ea]
    rw [Model.onLast_fst (ls := R.layers) (l := ⟨Model.layerName "Kernel" (R.kernels + 1), .kernel K₀⟩) (t := K₀) _ _ _ rfl rfl]
    exact ed K₀
  have eloop : ∃ M', Model.loadLoop N draws C 1 (R, ofText (Model.layerHead i ++ p)) = some (.ub, M') := by
    unfold ofText
    rw [e1]
    unfold Model.loadLoop
    simp only
    rw [getline_line hh]
    simp only [Bool.false_eq_true, if_false]
    rw [readLine_line (by decide)]
    simp only
    generalize Model.loadLayer N draws C "Kernel".toList (R, ⟨"Kernel".toList ++ '\n' :: v, false, false⟩) = r at el
    obtain ⟨r, s⟩ := r
    simp only at el
    subst el
    exact ⟨_, rfl⟩
  obtain ⟨M', e⟩ := eloop
  exact ⟨M', Model.loadModel_of_loop N draws C _ _ _ _ e⟩

/-- The claim fails: a saved model of one pooling layer and the output loses its output and labels when the file ends behind
the pooling layer. -/
theorem C96_violated [Inhabited α] (C : Codec α) (hC : C.Lawful) : ¬ C96_claim C := by
  intro h
  let N : Num α := ⟨id, id, id, id, fun _ => 0, fun _ _ => false, 0, 0, 0⟩
  let P : Pooling := Pooling.new ⟨2, 2⟩ ⟨2, 2⟩ .max
  let M : Model α := ((Model.new : Model α).addPooling ⟨2, 2⟩ ⟨2, 2⟩ .max).setOutputLabels ["a".toList] true
  have hst : Body.Storable C (.pooling P) := .pooling (by decide) (by decide) rfl
  have hls : ∀ l ∈ [(⟨Model.layerName "Pooling" 1, .pooling P⟩ : Layer α)], l.body.Storable C := by
    intro l hl
    rw [List.mem_singleton.1 hl]; exact hst
  obtain ⟨file, e, hload⟩ := C48_load C hC M [⟨Model.layerName "Pooling" 1, .pooling P⟩]
    ⟨"SoftmaxOutput".toList, .softmax (Softmax.new 1)⟩ (Softmax.new 1) rfl rfl (fun l hl => .inl (hls l hl))
    (by intro w hw; rw [List.mem_singleton.1 hw]; exact ⟨by decide, by decide⟩) (show (1 : Nat) < 2147483648 by decide)
  obtain ⟨hpre, hb⟩ := C96_between C hC M [⟨Model.layerName "Pooling" 1, .pooling P⟩] []
    ⟨"SoftmaxOutput".toList, .softmax (Softmax.new 1)⟩ rfl hls _ _ file rfl rfl e [] (List.nil_prefix)
    (show [] ≠ "Softmax".toList by decide)
  obtain ⟨M', e1, _, h1⟩ := hb N (fun _ _ => 0)
  obtain ⟨M'', e2, _, h2⟩ := h N (fun _ _ => 0) M file _ e hpre M' e1
  obtain ⟨M₃, ls', e3, _, _, h3, _⟩ := hload N (fun _ _ => 0) Model.new
  obtain rfl : M₃ = M'' := (Prod.mk.inj (Option.some.inj (e3.symm.trans e2))).2
  rw [h1, h3] at h2
  exact absurd (show ([] : List (List Char)) = ["a".toList] from h2) (by decide)

end

/-- A layer of one neuron whose bias is 12: if the file ends in the bias, the bias read is 1; one character before, reading
fails. -/
example :
    (Matrix.deserialize (Ieee.codec .binary64) (Matrix.empty, ofText "1 1 1\n\n       12".toList)).1 = .ok true ∧
    (Matrix.deserialize (Ieee.codec .binary64) (Matrix.empty, ofText "1 1 1\n\n       1".toList)).1 = .ok true ∧
    (Matrix.deserialize (Ieee.codec .binary64) (Matrix.empty, ofText "1 1 1\n\n       1".toList)).2.1.vals.map Ieee.fixed =
      [some ⟨false, 1000000⟩] ∧
    (Matrix.deserialize (Ieee.codec .binary64) (Matrix.empty, ofText "1 1 1\n\n       ".toList)).1 = .ok false := by
  decide +kernel

/-- Cases of `C96_inside_partial`, `C96_between` and `C96_number`: a pooling layer of 2 × 10 cells. -/
example : (Pooling.new ⟨2, 10⟩ ⟨2, 10⟩ .max).serialize = "Pooling\nMAX\nx 2\ny 10\nstride\nx 2\n".toList ++ "y 10\n".toList ∧
    "Pooling".toList <+: "Pooling\nMAX\nx 2\ny 10\nstride\nx 2\ny ".toList ∧
    ("Pooling\nMAX\nx 2\ny 10\nstride\nx 2\ny ".toList).length + (Body.lastNumber (Ieee.codec .binary64)
      (.pooling (Pooling.new ⟨2, 10⟩ ⟨2, 10⟩ .max))).length ≤ ((Pooling.new ⟨2, 10⟩ ⟨2, 10⟩ .max).serialize).length ∧
    Body.Storable (Ieee.codec .binary64) (.pooling (Pooling.new ⟨2, 10⟩ ⟨2, 10⟩ .max)) ∧
    natText 10 = ['1'] ++ ['0'] :=
  ⟨by decide +kernel, by decide, by decide +kernel, .pooling (by decide) (by decide) rfl, by decide +kernel⟩

end Cnn
