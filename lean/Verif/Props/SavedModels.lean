import Verif.Lemmas.Load
import Verif.Props.SavedLayers
import Verif.Lemmas.Codec
import Verif.Props.Text
/-!
# C48, C49, C62, C66: saving, loading and building models
-/
namespace Cnn
open IStream

section
variable {α : Type} [Zero α] [Add α] [Mul α] [Div α]

/-! ## C62 -/

/-- A call of one of the four functions that add a layer. -/
inductive AddCall (α : Type) where
  | kernel (size : Dim3) (count : Nat) (draws : Nat → α)
  | pooling (size stride : Dim2) (type : PoolType)
  | connected (n : Nat)
  | activation (f : ActFn)

/-- The call. -/
def AddCall.run (N : Num α) (M : Model α) : AddCall α → Res (Model α)
  | .kernel size count draws => M.addKernel N draws size count
  | .pooling size stride type => .ok (M.addPooling size stride type)
  | .connected n => M.addConnected n
  | .activation f => .ok (M.addActivation f)

/-- The layer the call is to add. -/
def AddCall.Makes (N : Num α) (c : AddCall α) (b : Body α) : Prop :=
  match c with
  | .kernel size count draws => ∃ K, Kernel.new N draws size (u32 count) 1 = .ok K ∧ b = .kernel K
  | .pooling size stride type => b = .pooling (Pooling.new size stride type)
  | .connected n => ∃ L, Connected.new (u32 n) = .ok L ∧ b = .connected L
  | .activation f => b = .activation (Activation.new f)

/-- One call: one layer at the end, with its proper name; everything else stays. -/
theorem C62_call (N : Num α) (c : AddCall α) (M M' : Model α) (hc : M.Counted) (h : c.run N M = .ok M') :
    ∃ l, M'.layers = M.layers ++ [l] ∧ c.Makes N l.body ∧ l.name = properName M.layers l.body ∧ M'.Counted ∧
      M'.labels = M.labels ∧ M'.softmax = M.softmax := by
  cases c with
  | kernel size count draws =>
    simp only [AddCall.run, Model.addKernel] at h
    obtain ⟨K, e, h⟩ := Res.bind_eq_ok h
    obtain rfl := Res.ok.inj h
    refine ⟨⟨_, .kernel K⟩, rfl, ⟨K, e, rfl⟩, ?_, ⟨?_, ?_, ?_, ?_⟩, rfl, rfl⟩
    · simp only [properName, Body.kind, Model.layerName, ← hc.kernels]
    · simp only [Model.append, countKind_append, ← hc.kernels]; rfl
    · simp only [Model.append, countKind_append, ← hc.poolings]; rfl
    · simp only [Model.append, countKind_append, ← hc.connecteds]; rfl
    · simp only [Model.append, countKind_append, ← hc.activations]; rfl
  | pooling size stride type =>
    obtain rfl := Res.ok.inj h
    refine ⟨⟨_, .pooling _⟩, rfl, rfl, ?_, ⟨?_, ?_, ?_, ?_⟩, rfl, rfl⟩
    · simp only [properName, Body.kind, Model.layerName, ← hc.poolings]
    · simp only [Model.addPooling, Model.append, countKind_append, ← hc.kernels]; rfl
    · simp only [Model.addPooling, Model.append, countKind_append, ← hc.poolings]; rfl
    · simp only [Model.addPooling, Model.append, countKind_append, ← hc.connecteds]; rfl
    · simp only [Model.addPooling, Model.append, countKind_append, ← hc.activations]; rfl
  | connected n =>
    simp only [AddCall.run, Model.addConnected] at h
    obtain ⟨L, e, h⟩ := Res.bind_eq_ok h
    obtain rfl := Res.ok.inj h
    refine ⟨⟨_, .connected L⟩, rfl, ⟨L, e, rfl⟩, ?_, ⟨?_, ?_, ?_, ?_⟩, rfl, rfl⟩
    · simp only [properName, Body.kind, Model.layerName, ← hc.connecteds]
    · simp only [Model.append, countKind_append, ← hc.kernels]; rfl
    · simp only [Model.append, countKind_append, ← hc.poolings]; rfl
    · simp only [Model.append, countKind_append, ← hc.connecteds]; rfl
    · simp only [Model.append, countKind_append, ← hc.activations]; rfl
  | activation f =>
    obtain rfl := Res.ok.inj h
    refine ⟨⟨_, .activation _⟩, rfl, rfl, ?_, ⟨?_, ?_, ?_, ?_⟩, rfl, rfl⟩
    · simp only [properName, Body.kind, Model.layerName, ← hc.activations]
    · simp only [Model.addActivation, Model.append, countKind_append, ← hc.kernels]; rfl
    · simp only [Model.addActivation, Model.append, countKind_append, ← hc.poolings]; rfl
    · simp only [Model.addActivation, Model.append, countKind_append, ← hc.connecteds]; rfl
    · simp only [Model.addActivation, Model.append, countKind_append, ← hc.activations]; rfl

/-- C62: any sequence of calls on a new model gives one layer for each call, in order, the `n`-th of a class being named
`Kind_n`. -/
theorem C62_layers (N : Num α) (calls : List (AddCall α)) (M : Model α)
    (h : calls.foldlM (fun M c => c.run N M) Model.new = .ok M) :
    List.Forall₂ (fun c (l : Layer α) => c.Makes N l.body) calls M.layers ∧ Named M.layers := by
  suffices ∀ (calls : List (AddCall α)) (M₀ M : Model α), M₀.Counted → Named M₀.layers →
      calls.foldlM (fun M c => c.run N M) M₀ = .ok M →
      ∃ ls, M.layers = M₀.layers ++ ls ∧ List.Forall₂ (fun c (l : Layer α) => c.Makes N l.body) calls ls ∧ Named M.layers by
    obtain ⟨ls, e, hf, hn⟩ := this calls Model.new M Model.counted_new Named.nil h
    rw [e]
    exact ⟨hf, e ▸ hn⟩
  intro calls
  induction calls with
  | nil =>
    intro M₀ M _ hn h
    obtain rfl := Res.ok.inj h
    exact ⟨[], by simp, .nil, hn⟩
  | cons c cs ih =>
    intro M₀ M hc hn h
    rw [List.foldlM_cons] at h
    obtain ⟨M₁, e1, h⟩ := Res.bind_eq_ok h
    obtain ⟨l, e2, hm, hl, hc1, _⟩ := C62_call N c M₀ M₁ hc e1
    obtain ⟨ls, e3, hf, hn'⟩ := ih M₁ M hc1 (by rw [e2]; exact hn.snoc hl) h
    exact ⟨l :: ls, by rw [e3, e2]; simp, .cons hm hf, hn'⟩

/-- The words in the names start differently. -/
private theorem kind_inj {k k' : String} {r r' : List Char} (h : k ∈ ["Kernel", "Pooling", "FullyConnected", "Activation"])
    (h' : k' ∈ ["Kernel", "Pooling", "FullyConnected", "Activation"]) (e : k.toList ++ '_' :: r = k'.toList ++ '_' :: r') :
    k = k' ∧ r = r' := by
  simp only [List.mem_cons, List.not_mem_nil, or_false] at h h'
  rcases h with rfl | rfl | rfl | rfl <;> rcases h' with rfl | rfl | rfl | rfl <;>
    first
    | exact ⟨rfl, by simpa using e⟩
    | exact absurd (congrArg List.head? e) (by simp)

/-- … so names never repeat. -/
theorem C62_distinct (N : Num α) (calls : List (AddCall α)) (M : Model α)
    (h : calls.foldlM (fun M c => c.run N M) Model.new = .ok M) : (M.layers.map Layer.name).Nodup := by
  obtain ⟨hf, hn⟩ := C62_layers N calls M h
  have hk : ∀ l ∈ M.layers, ∃ k ∈ ["Kernel", "Pooling", "FullyConnected", "Activation"], l.body.kind = some k := by
    intro l hl
    obtain ⟨c, _, hc⟩ : ∃ c ∈ calls, c.Makes N l.body := by
      clear h hn
      generalize M.layers = ls at *
      induction hf with
      | nil => simp at hl
      | cons hm _ ih =>
        rcases List.mem_cons.1 hl with rfl | hl
        · exact ⟨_, by simp, hm⟩
        · obtain ⟨c, hc, hm⟩ := ih hl
          exact ⟨c, by simp [hc], hm⟩
    cases c with
    | kernel => obtain ⟨K, _, e⟩ := hc; exact ⟨"Kernel", by simp, by rw [e]; rfl⟩
    | pooling => exact ⟨"Pooling", by simp, by rw [hc]; rfl⟩
    | connected => obtain ⟨K, _, e⟩ := hc; exact ⟨"FullyConnected", by simp, by rw [e]; rfl⟩
    | activation => exact ⟨"Activation", by simp, by rw [hc]; rfl⟩
  rw [List.nodup_iff_pairwise_ne, List.pairwise_map, List.pairwise_iff_getElem]
  intro i j hi hj hij e
  have ei : M.layers = M.layers.take i ++ M.layers[i] :: M.layers.drop (i + 1) := by simp
  have ej : M.layers = M.layers.take j ++ M.layers[j] :: M.layers.drop (j + 1) := by simp
  rw [hn _ _ _ ei, hn _ _ _ ej] at e
  obtain ⟨k, hk1, ek⟩ := hk _ (List.getElem_mem hi)
  obtain ⟨k', hk1', ek'⟩ := hk _ (List.getElem_mem hj)
  simp only [properName, ek, ek'] at e
  obtain ⟨rfl, e⟩ := kind_inj hk1 hk1' e
  have e := congrArg numeral e
  rw [numeral_natText, numeral_natText] at e
  have hsplit : M.layers.take j = M.layers.take i ++ M.layers[i] :: (M.layers.take j).drop (i + 1) := by
    have h1 : i < (M.layers.take j).length := by simp; omega
    have h2 := List.take_append_drop i (M.layers.take j)
    rw [List.drop_eq_getElem_cons h1, List.take_take, List.getElem_take, Nat.min_eq_left (by omega)] at h2
    exact h2.symm
  rw [hsplit, countKind_append] at e
  have : countKind k (M.layers[i] :: (M.layers.take j).drop (i + 1)) ≥ 1 := by
    simp [countKind, ek]
  omega

end

private theorem ofDim_negative {α : Type} {d : Dim3} {k : Int} (hx : chk (d.x * d.y) = .ok (d.x * d.y))
    (hv : d.x * d.y * d.z = k) (hI : I32 k) (h0 : k < 0) (v : α) : Matrix.ofDim d v = .throw .length := by
  unfold Matrix.ofDim vecSize Dim3.volume
  rw [hx, Res.bind_ok, hv, chk_ok hI, Res.bind_ok, if_pos h0]
  rfl

private theorem wrap32_large {n : Nat} (h : 2147483648 ≤ n) (h' : n < 4294967296) :
    I32 (wrap32 (n : Int)) ∧ wrap32 (n : Int) < 0 := by
  unfold I32 wrap32; omega

private theorem u32_small {n : Nat} (h' : n < 4294967296) : u32 ((n : Nat) : Int) = n := by
  unfold u32; omega

/-- A number of neurons or filters that fits `unsigned` but not `int` is refused by `std::length_error`; the model is not
changed, as the layer is never added. -/
theorem C62_too_many {α : Type} [Zero α] [Add α] [Mul α] [Div α] (N : Num α) (M : Model α) (n : Nat) (h : 2147483648 ≤ n)
    (h' : n < 4294967296) :
    AddCall.run N M (.connected n) = .throw .length ∧
    ∀ draws, AddCall.run N M (.kernel ⟨1, 1, 1⟩ n draws) = .throw .length := by
  obtain ⟨hI, h0⟩ := wrap32_large h h'
  have hu := u32_small h'
  clear h h'
  constructor
  · unfold AddCall.run Model.addConnected Connected.new
    simp only []
    rw [hu]
    generalize wrap32 (n : Int) = k at hI h0
    have hb : Matrix.ofDim ⟨k, 1, 1⟩ (0 : α) = .throw .length :=
      ofDim_negative (by simp only [mul_one]; exact chk_ok hI) (by simp only [mul_one]) hI h0 0
    rw [hb]
    have h00 : Matrix.ofDim 0 (0 : α) = .ok ⟨0, []⟩ := rfl
    rw [h00]
    rfl
  · intro draws
    unfold AddCall.run Model.addKernel Kernel.new
    simp only []
    rw [hu, one_mul]
    generalize wrap32 (n : Int) = k at hI h0
    have hb : Matrix.ofDim ⟨1, 1, k⟩ (0 : α) = .throw .length :=
      ofDim_negative (chk_ok (by unfold I32; simp only []; omega)) (by simp only [one_mul]) hI h0 0
    rw [hb]
    rfl

/-- Such numbers exist. -/
example : 2147483648 ≤ 4000000000 ∧ 4000000000 < 4294967296 := by decide

/-- Some integer arithmetic for examples. -/
def exampleNum : Num Int := ⟨id, id, id, id, fun n => n, fun a b => decide (a < b), 0, 0, 0⟩

/-- A sequence of calls that all succeed, a convolution among them. -/
example : (([AddCall.kernel ⟨1, 2, 1⟩ 1 (fun _ => 1), .activation .relu, .pooling ⟨2, 2⟩ ⟨2, 2⟩ .max, .activation .relu,
      .pooling ⟨2, 2⟩ ⟨2, 2⟩ .avg, .connected 10].foldlM (fun M c => c.run exampleNum M) (Model.new : Model Int)) >>=
      fun M => .ok (M.layers.map Layer.name)) =
    .ok ["Kernel_1".toList, "Activation_1".toList, "Pooling_1".toList, "Activation_2".toList, "Pooling_2".toList,
      "FullyConnected_1".toList] := by decide +kernel

section
variable {α : Type} [Zero α] [Add α] [Mul α] [Div α]

/-! ## C48 -/

private theorem labelText_eq (labels : List (List Char)) : Model.labelText labels = '\n' :: ("Output labels".toList ++ ' ' ::
    (natText labels.length ++ '\n' :: (labels.flatMap (· ++ ['\n']) ++ ['\n']))) := by
  have : "\nOutput labels ".toList = '\n' :: ("Output labels".toList ++ [' ']) := by decide
  unfold Model.labelText
  rw [this]
  simp only [List.append_assoc, List.cons_append, List.nil_append]

/-- The claim of C48: what `saveModel` writes, `loadModel` reads back into a new model. -/
def C48_claim (C : Codec α) : Prop := ∀ (N : Num α) (draws : Nat → Nat → α) (M : Model α) (file : List Char),
  M.saveModel C true = (.ok true, some file) →
  ∃ M', Model.loadModel N draws C Model.new (some file) = some (.ok true, M') ∧ M'.SameAs C M

/-- What loading does with a saved model, in general: the receiver `R` may have layers already, and there may be activation
layers. The loaded layers are appended; activation layers are skipped without a message; the labels are read and
replace those of `R`. -/
theorem C48_load [Inhabited α] (C : Codec α) (hC : C.Lawful) (M : Model α) (ls : List (Layer α)) (S : Layer α) (n : Softmax)
    (hM : M.layers = ls ++ [S]) (hS : S.body = .softmax n)
    (hls : ∀ l ∈ ls, l.body.Storable C ∨ ∃ A, l.body = .activation A) (hw : ∀ w ∈ M.labels, IsWord w)
    (hn : M.labels.length < 2147483648) :
    ∃ file, M.saveModel C true = (.ok true, some file) ∧ ∀ (N : Num α) (draws : Nat → Nat → α) (R : Model α),
      ∃ M' ls', Model.loadModel N draws C R (some file) = some (.ok true, M') ∧
        M'.layers = R.layers ++ ls' ++ [⟨"SoftmaxOutput".toList, .softmax (Softmax.new M.labels.length)⟩] ∧
        List.Forall₂ (fun l' l => Body.SameAs C l'.body l.body) ls'
          (ls.filter (fun l => match l.body with | .activation _ => false | _ => true)) ∧
        M'.labels = M.labels ∧ M'.softmax = true ∧ (R.Counted → Named R.layers → Named M'.layers) := by
  have hls' : ∀ l ∈ ls, l.body.Storable C ∨ Model.isActivation l = true := by
    intro l hl
    rcases hls l hl with h | ⟨A, h⟩
    · exact .inl h
    · right; unfold Model.isActivation; rw [h]
  have hfilter : ls.filter (fun l => match l.body with | .activation _ => false | _ => true) = ls.filter (!Model.isActivation ·) := by
    congr 1
    funext l
    unfold Model.isActivation
    cases l.body <;> rfl
  have hall := fun N draws => Model.load_all N draws C hC ls hls' 0
  have hsave : ∃ T, Model.saveLayers C 0 M.layers [] = (.ok (), T ++ Model.layerHead ls.length ++ line "Softmax") ∧
      ∀ N draws, ∃ n, ∀ (M : Model α) (fuel : Nat) (rest : List Char), ∃ M' ls', M'.layers = M.layers ++ ls' ∧
        List.Forall₂ (fun l' l => Body.SameAs C l'.body l.body) ls' (ls.filter (!Model.isActivation ·)) ∧
        (M'.labels = M.labels ∧ M'.softmax = M.softmax) ∧
        (M.Counted → M'.Counted ∧ (Named M.layers → Named M'.layers)) ∧
        Model.loadLoop N draws C (fuel + n) (M, ⟨T ++ (Model.layerHead ls.length ++ rest), false, false⟩) =
          Model.loadLoop N draws C fuel (M', ⟨Model.layerHead ls.length ++ rest, false, false⟩) := by
    obtain ⟨T, _, _, hT, _⟩ := hall ⟨id, id, id, id, fun _ => 0, fun _ _ => false, 0, 0, 0⟩ (fun _ _ => 0)
    refine ⟨T, ?_, ?_⟩
    · rw [hM, hT]
      simp only [Model.saveLayers, hS, Body.serialize, Softmax.serialize, List.nil_append, Nat.zero_add]
    · intro N draws
      obtain ⟨T', n, _, hT', h⟩ := hall N draws
      have : T' = T := by
        have e1 := hT [] []
        have e2 := hT' [] []
        rw [e1] at e2
        simp only [Model.saveLayers, List.nil_append] at e2
        exact (Prod.mk.inj e2).2.symm
      subst this
      simp only [Nat.zero_add] at h
      exact ⟨n, h⟩
  obtain ⟨T, hT, hload⟩ := hsave
  refine ⟨T ++ Model.layerHead ls.length ++ line "Softmax" ++ Model.labelText M.labels, ?_, ?_⟩
  · unfold Model.saveModel
    simp only [hT, if_true]
  · intro N draws R
    obtain ⟨n, h⟩ := hload N draws
    obtain ⟨M₁, ls', a1, a2, a3, a4, a5⟩ := h R 3 (line "Softmax" ++ Model.labelText M.labels)
    refine ⟨M₁.setOutputLabels M.labels true, ls', ?_, ?_, hfilter ▸ a2, rfl, rfl, ?_⟩
    · refine Model.loadModel_of_loop N draws C R _ (3 + n) _ ?_
      have e0 : T ++ Model.layerHead ls.length ++ line "Softmax" ++ Model.labelText M.labels =
          T ++ (Model.layerHead ls.length ++ (line "Softmax" ++ Model.labelText M.labels)) := by simp
      unfold ofText
      rw [e0, a5]
      obtain ⟨hd, eh, hh⟩ := Model.layerHead_line ls.length
      have e1 : Model.layerHead ls.length ++ (line "Softmax" ++ Model.labelText M.labels) =
          hd ++ '\n' :: ("Softmax".toList ++ '\n' :: Model.labelText M.labels) := by rw [eh]; simp [line]
      rw [e1]
      refine (Model.loop_step N draws C M₁ 2 (s' := (M₁.setOutputLabels M.labels true, ⟨['\n'], false, false⟩)) hh (by decide)
        ?_).trans (Model.loop_end N draws C _ 0)
      · unfold Model.loadLayer
        rw [if_neg (by decide), if_neg (by decide), if_neg (by decide), if_pos rfl]
        have e2 : "Softmax".toList ++ '\n' :: Model.labelText M.labels = line "Softmax" ++ ('\n' :: ("Output labels".toList ++ ' ' ::
            (natText M.labels.length ++ '\n' :: (M.labels.flatMap (· ++ ['\n']) ++ ['\n'])))) := by
          rw [labelText_eq, line_append]
        rw [e2]
        exact Model.loadSoftmax_text M₁ M.labels hw hn ['\n']
    · simp only [Model.setOutputLabels, if_true, Model.append, a1]
    · intro hc hnm
      obtain ⟨_, c2⟩ := a4 hc
      have := c2 hnm
      simp only [Model.setOutputLabels, if_true, Model.append]
      exact this.snoc rfl

/-- C48 for models of convolutions with stride 1, pooling layers whose stride is the pool size and fully connected layers
that have been used, ending in the softmax output, with labels of one word each, loaded into a new model: layers,
names, labels and output are reproduced, parameters to six decimals.
Missing: other layers and labels, refuted below. -/
theorem C48_round_trip_partial [Inhabited α] (C : Codec α) (hC : C.Lawful) (M : Model α) (ls : List (Layer α)) (n : Softmax)
    (hM : M.layers = ls ++ [⟨"SoftmaxOutput".toList, .softmax n⟩]) (hc : n.count = M.labels.length) (hs : M.softmax = true)
    (hnm : Named ls) (hls : ∀ l ∈ ls, l.body.Storable C) (hw : ∀ w ∈ M.labels, IsWord w) (hn : M.labels.length < 2147483648) :
    ∃ file, M.saveModel C true = (.ok true, some file) ∧ ∀ (N : Num α) (draws : Nat → Nat → α),
      ∃ M', Model.loadModel N draws C Model.new (some file) = some (.ok true, M') ∧ M'.SameAs C M := by
  obtain ⟨file, e, h⟩ := C48_load C hC M ls _ n hM rfl (fun l hl => .inl (hls l hl)) hw hn
  refine ⟨file, e, fun N draws => ?_⟩
  obtain ⟨M', ls', e', hl, hf, h1, h2, h3⟩ := h N draws Model.new
  refine ⟨M', e', ⟨?_, h1, h2.trans hs.symm⟩⟩
  have hfl : ls.filter (fun l => match l.body with | .activation _ => false | _ => true) = ls := by
    rw [List.filter_eq_self]
    intro l hl
    have := hls l hl
    generalize l.body = b at this
    cases this <;> rfl
  rw [hfl] at hf
  have hl' : M'.layers = ls' ++ [⟨"SoftmaxOutput".toList, .softmax (Softmax.new M.labels.length)⟩] := by
    rw [hl]; rfl
  refine Named.same ?_ (h3 Model.counted_new Named.nil) ?_
  · rw [hl', hM]
    refine List.rel_append hf (.cons ?_ .nil)
    show (Softmax.new M.labels.length).count = n.count
    exact hc.symm
  · rw [hM]; exact hnm.snoc rfl

/-- Activation layers are lost: whatever function, a model of one activation layer and the output loads as the output
alone, and `loadModel` reports success. -/
theorem C48_activation_lost [Inhabited α] (C : Codec α) (hC : C.Lawful) (N : Num α) (draws : Nat → Nat → α) (f : ActFn)
    (labels : List (List Char)) (hw : ∀ w ∈ labels, IsWord w) (hn : labels.length < 2147483648) :
    ∃ file M', (((Model.new : Model α).addActivation f).setOutputLabels labels true).saveModel C true = (.ok true, some file) ∧
      Model.loadModel N draws C Model.new (some file) = some (.ok true, M') ∧
      M'.layers.map Layer.name = ["SoftmaxOutput".toList] := by
  obtain ⟨file, e, h⟩ := C48_load C hC (((Model.new : Model α).addActivation f).setOutputLabels labels true) _ _ _ rfl rfl
    (by intro l hl; right
        simp only [Model.addActivation, Model.append, Model.new, List.nil_append, List.mem_singleton] at hl
        exact ⟨_, by rw [hl]⟩) hw hn
  obtain ⟨M', ls', e', hl, hf, _⟩ := h N draws Model.new
  refine ⟨file, M', e, e', ?_⟩
  cases hf
  rw [hl]; rfl

/-- The claim fails. -/
theorem C48_violated [Inhabited α] (C : Codec α) (hC : C.Lawful) : ¬ C48_claim C := by
  intro h
  have N : Num α := ⟨id, id, id, id, fun _ => 0, fun _ _ => false, 0, 0, 0⟩
  obtain ⟨file, M', e, e', hl⟩ := C48_activation_lost C hC N (fun _ _ => 0) .relu [] (by simp) (by decide)
  obtain ⟨M'', e'', hs⟩ := h N (fun _ _ => 0) _ file e
  rw [e'] at e''
  obtain rfl : M' = M'' := (Prod.mk.inj (Option.some.inj e'')).2
  have h1 := hs.layers.length_eq
  have h2 := congrArg List.length hl
  simp only [List.length_map, List.length_singleton] at h2
  rw [h2] at h1
  have h3 : (((Model.new : Model α).addActivation .relu).setOutputLabels [] true).layers.length = 2 := rfl
  rw [h3] at h1
  exact absurd h1 (by decide)

/-- A label of several words is cut after the first. -/
theorem C48_label_cut [Inhabited α] (C : Codec α) (N : Num α) (draws : Nat → Nat → α) (w r : List Char) (hw : IsWord w)
    (hr : ∀ c ∈ r, c ≠ '\n') (hlen : r.length < 2147483646) :
    ∃ file M', ((Model.new : Model α).setOutputLabels [w ++ ' ' :: r] true).saveModel C true = (.ok true, some file) ∧
      Model.loadModel N draws C Model.new (some file) = some (.ok true, M') ∧ M'.labels = [w] := by
  refine ⟨_, (Model.new : Model α).setOutputLabels [w] true, rfl, ?_, rfl⟩
  refine Model.loadModel_of_loop N draws C _ _ 3 _ ?_
  obtain ⟨hd, eh, hh⟩ := Model.layerHead_line 0
  have e1 : [] ++ Model.layerHead 0 ++ Softmax.serialize (Softmax.new 1) ++ Model.labelText [w ++ ' ' :: r] =
      hd ++ '\n' :: ("Softmax".toList ++ '\n' :: Model.labelText [w ++ ' ' :: r]) := by
    rw [eh]; simp [Softmax.serialize, line]
  show Model.loadLoop N draws C 3 (Model.new, ofText ([] ++ Model.layerHead 0 ++ Softmax.serialize (Softmax.new 1) ++
    Model.labelText [w ++ ' ' :: r])) = _
  unfold ofText
  rw [e1]
  refine (Model.loop_step N draws C Model.new 2 (s' := ((Model.new : Model α).setOutputLabels [w] true, ⟨['\n'], false, false⟩)) hh
    (by decide) ?_).trans (Model.loop_end N draws C _ 0)
  · unfold Model.loadLayer
    rw [if_neg (by decide), if_neg (by decide), if_neg (by decide), if_pos rfl]
    have e2 : "Softmax".toList ++ '\n' :: Model.labelText [w ++ ' ' :: r] = line "Softmax" ++ ('\n' :: (placeText "Output labels".toList
        ((1 : Nat) : Int) ++ (w ++ ' ' :: (r ++ '\n' :: ['\n'])))) := by
      rw [labelText_eq, line_append, ← Model.placeText_nat]
      simp only [List.length_singleton, List.flatMap_cons, List.flatMap_nil, List.append_assoc, List.cons_append, List.nil_append]
    unfold Model.loadSoftmax
    simp only
    rw [e2, line_append, clearLine_nl (by decide) (by decide), clearLine_nl', expectInt_place (by decide)]
    simp only
    rw [if_neg (by decide)]
    have e3 : Model.readLabels (((1 : Nat) : Int).toNat) ⟨w ++ ' ' :: (r ++ '\n' :: ['\n']), false, false⟩ =
        ([w], ⟨['\n'], false, false⟩) := by
      rw [Int.toNat_natCast, Model.readLabels, extractWord_stop hw (by decide)]
      simp only
      rw [show ' ' :: (r ++ '\n' :: ['\n']) = (' ' :: r) ++ '\n' :: ['\n'] from rfl, clearLine_nl (by
        intro c hc
        rcases List.mem_cons.1 hc with rfl | hc
        · decide
        · exact hr c hc) (by simp only [List.length_cons]; omega)]
      rfl
    rw [e3]

/-- The labels of a model without softmax output are lost … -/
theorem C48_labels_lost (C : Codec α) (N : Num α) (draws : Nat → Nat → α) :
    ∃ file, ((Model.new : Model α).setOutputLabels ["cat".toList] false).saveModel C true = (.ok true, some file) ∧
      Model.loadModel N draws C Model.new (some file) = some (.ok true, (Model.new : Model α)) := by
  refine ⟨"\nOutput labels 1\ncat\n\n".toList, ?_, ?_⟩
  · have : Model.labelText ["cat".toList] = "\nOutput labels 1\ncat\n\n".toList := by decide +kernel
    rw [← this]; rfl
  · refine Model.loadModel_of_loop N draws C _ _ 5 _ ?_
    exact ((Model.loop_step N draws C Model.new 4 (head := []) (label := "Output labels 1".toList) (r := "cat\n\n".toList)
      (by decide) (by decide) (Model.loadLayer_other N draws C _ _ _ (by decide))).trans
      ((Model.loop_step N draws C Model.new 3 (head := "Output labels 1".toList) (label := "cat".toList) (r := "\n".toList)
      (by decide) (by decide) (Model.loadLayer_other N draws C _ _ _ (by decide))).trans
      ((Model.loop_step N draws C Model.new 2 (head := "cat".toList) (label := []) (r := [])
      (by decide) (by decide) (Model.loadLayer_other N draws C _ _ _ (by decide))).trans
      (Model.loop_end N draws C _ 0))))

/-- … or taken for layers: with the label `Kernel` the saved model cannot be loaded. -/
theorem C48_label_as_layer (C : Codec α) (N : Num α) (draws : Nat → Nat → α) :
    ∃ file M', ((Model.new : Model α).setOutputLabels ["Kernel".toList] false).saveModel C true = (.ok true, some file) ∧
      Model.loadModel N draws C Model.new (some file) = some (.ok false, M') := by
  obtain ⟨s', e, _⟩ := Model.load_kernel_bad N draws C Model.new "\n".toList (by decide)
  refine ⟨"\nOutput labels 1\nKernel\n\n".toList, s'.1, ?_, ?_⟩
  · have : Model.labelText ["Kernel".toList] = "\nOutput labels 1\nKernel\n\n".toList := by decide +kernel
    rw [← this]; rfl
  · refine Model.loadModel_of_loop N draws C _ _ 5 _ ?_
    exact ((Model.loop_step N draws C Model.new 4 (head := []) (label := "Output labels 1".toList) (r := "Kernel\n\n".toList)
      (by decide) (by decide) (Model.loadLayer_other N draws C _ _ _ (by decide))).trans
      (Model.loop_runtime N draws C Model.new 3 (head := "Output labels 1".toList) (label := "Kernel".toList) (r := "\n".toList)
        (by decide) (by decide) e))

end

/-- A convolution of stride 1. -/
def exampleKernelS : Kernel (Ieee Fmt.binary32) := { exampleKernel32 with stride := 1 }

/-- A fully connected layer that has been used. -/
def exampleConnectedS : Connected (Ieee Fmt.binary32) :=
  ⟨⟨dimN 2 3 1, [0, 0, 0, 0, 0, 0]⟩, ⟨dimN 2 1 1, [0, 0]⟩, dimN 3 1 1, true, [], []⟩

/-- A model with a convolution, a pooling and a fully connected layer and two labels. -/
def exampleModelS : Model (Ieee Fmt.binary32) :=
  ⟨[⟨"Kernel_1".toList, .kernel exampleKernelS⟩, ⟨"Pooling_1".toList, .pooling (Pooling.new ⟨2, 2⟩ ⟨2, 2⟩ .avg)⟩,
    ⟨"FullyConnected_1".toList, .connected exampleConnectedS⟩, ⟨"SoftmaxOutput".toList, .softmax (Softmax.new 2)⟩],
    ["a".toList, "b".toList], true, 1, 1, 1, 0⟩

/-- The hypotheses of `C48_round_trip_partial` are met by it, whatever the arithmetic. -/
example [Add (Ieee Fmt.binary32)] [Mul (Ieee Fmt.binary32)] [Div (Ieee Fmt.binary32)] : ∃ file, exampleModelS.saveModel (Ieee.codec Fmt.binary32) true = (.ok true, some file) ∧
    ∀ (N : Num (Ieee Fmt.binary32)) (draws : Nat → Nat → Ieee Fmt.binary32),
      ∃ M', Model.loadModel N draws (Ieee.codec Fmt.binary32) Model.new (some file) = some (.ok true, M') ∧
        M'.SameAs (Ieee.codec Fmt.binary32) exampleModelS := by
  have hK : exampleKernelS.Is 1 2 1 2 1 (fun _ _ _ => 0) (fun _ => 0) :=
    ⟨rfl, rfl, rfl, Matrix.Shows.of_vals ⟨by decide, by decide, by decide, by decide⟩ rfl (by rfl),
      Matrix.Shows.of_vals ⟨by decide, by decide, by decide, by decide⟩ rfl (by rfl)⟩
  have hL : exampleConnectedS.Is 2 3 (fun _ _ => 0) (fun _ => 0) :=
    ⟨Matrix.Shows.of_vals ⟨by decide, by decide, by decide, by decide⟩ rfl (by rfl),
      Matrix.Shows.of_vals ⟨by decide, by decide, by decide, by decide⟩ rfl (by rfl), rfl⟩
  refine C48_round_trip_partial _ (Ieee.lawful _) exampleModelS _ _
    (List.dropLast_append_getLast (l := exampleModelS.layers) (by simp [exampleModelS])).symm rfl rfl ?_ ?_ ?_ (by decide)
  rotate_left
  · intro l hl
    simp only [exampleModelS, List.dropLast, List.mem_cons, List.not_mem_nil, or_false] at hl
    rcases hl with rfl | rfl | rfl
    · exact .kernel hK (fun _ _ _ _ _ _ => finite_zero32) (fun _ _ => finite_zero32)
    · exact .pooling (by decide) (by decide) rfl
    · exact .connected hL (fun _ _ _ _ => finite_zero32) (fun _ _ => finite_zero32)
  · unfold IsWord; decide
  · have e : natText 1 = ['1'] := by decide +kernel
    refine Named.snoc (ls := [_, _]) (Named.snoc (ls := [_]) (Named.snoc (ls := []) Named.nil ?_) ?_) ?_ <;>
      simp [properName, Body.kind, countKind, e]

section
variable {α : Type} [Zero α] [Add α] [Mul α] [Div α]

/-! ## C49 -/

/-- The loop of `loadModel` ends for every file and every model it is called on. -/
theorem C49_terminates (N : Num α) (draws : Nat → Nat → α) (C : Codec α) (M : Model α) (file : Option (List Char)) :
    ∃ r, Model.loadModel N draws C M file = some r := by
  cases file with
  | none => exact ⟨_, rfl⟩
  | some t => exact Model.loadLoop_some N draws C _ M (ofText t) (by simp [ofText])

/-- The claim of C49. -/
def C49_claim (C : Codec α) : Prop := ∀ (N : Num α) (draws : Nat → Nat → α) (M : Model α),
  (∃ M', Model.loadModel N draws C M none = some (.ok false, M')) ∧
  (∀ t : List Char, ¬ "(0) ----------\n".toList <+: t → ∃ M', Model.loadModel N draws C M (some t) = some (.ok false, M')) ∧
  (M.saveModel C false).1 = .ok false

/-- A file that cannot be opened counts as loaded; the model is unchanged. -/
theorem C49_missing (N : Num α) (draws : Nat → Nat → α) (C : Codec α) (M : Model α) :
    Model.loadModel N draws C M none = some (.ok true, M) := rfl

omit [Zero α] [Add α] [Mul α] [Div α] in
/-- The outcome of `saveModel` does not depend on whether the file could be opened. -/
theorem C49_unwritable (C : Codec α) (M : Model α) : (M.saveModel C false).1 = (M.saveModel C true).1 ∧ (M.saveModel C false).2 = none := by
  unfold Model.saveModel
  simp only
  split <;> exact ⟨rfl, rfl⟩

/-- The result is not an exception. -/
private def Calm {β : Type} (r : Res β) : Prop := ∀ e, r ≠ .throw e

private theorem Calm.bind {β γ : Type} {x : Res β} {k : β → Res γ} (hx : Calm x) (hk : ∀ a, Calm (k a)) : Calm (x >>= k) := by
  cases x with
  | ok a => exact hk a
  | throw e => exact absurd rfl (hx e)
  | ub | abort => intro e h; cases h

private theorem Calm.foldlM {β γ : Type} (f : β → γ → Res β) (hf : ∀ b c, Calm (f b c)) (l : List γ) : ∀ b, Calm (l.foldlM f b) := by
  induction l with
  | nil => intro b e h; cases h
  | cons c cs ih => intro b; rw [List.foldlM_cons]; exact (hf b c).bind ih

private theorem Calm.ok {β : Type} (a : β) : Calm (Res.ok a) := fun e h => by cases h

omit [Zero α] [Add α] [Mul α] [Div α] in
private theorem serialize_calm (C : Codec α) (A : Matrix α) : Calm (A.serialize C) := by
  unfold Matrix.serialize
  refine Calm.foldlM _ (fun os z => Calm.bind (Calm.foldlM _ (fun os x => Calm.bind (Calm.foldlM _ (fun os y => Calm.bind ?_ fun _ =>
    Calm.ok _) _ _) fun _ => Calm.ok _) _ _) fun _ => Calm.ok _) _ _
  unfold Matrix.entryText Matrix.read Matrix.flat
  refine Calm.bind ?_ fun _ => Calm.ok _
  intro e h
  cases hv : A.vals[getIndex A.dim ⟨x, y, z⟩]? <;> rw [hv] at h <;> cases h

omit [Zero α] [Add α] [Mul α] [Div α] in
/-- `saveModel` never reports failure: it never returns `false`, whatever the model and whether or not the file can be written. -/
theorem C49_never_false (C : Codec α) (M : Model α) (opened : Bool) : (M.saveModel C opened).1 ≠ .ok false := by
  have hb : ∀ b : Body α, Calm (b.serialize C) := by
    intro b
    cases b with
    | kernel K => exact (serialize_calm C _).bind fun _ => (serialize_calm C _).bind fun _ => Calm.ok _
    | connected L => exact (serialize_calm C _).bind fun _ => (serialize_calm C _).bind fun _ => Calm.ok _
    | pooling | activation | softmax => exact Calm.ok _
  have hl : ∀ (ls : List (Layer α)) (i : Nat) (os : List Char) (e : Exc), (Model.saveLayers C i ls os).1 ≠ .throw e := by
    intro ls
    induction ls with
    | nil => intro i os e h; cases h
    | cons l ls ih =>
      intro i os e h
      unfold Model.saveLayers at h
      cases hs : l.body.serialize C with
      | ok t => rw [hs] at h; exact ih _ _ e h
      | throw e' => exact hb l.body e' hs
      | ub | abort => rw [hs] at h; cases h
  unfold Model.saveModel
  simp only
  have := hl M.layers 0 []
  generalize Model.saveLayers C 0 M.layers [] = r at this
  obtain ⟨r, os⟩ := r
  cases r with
  | ok u => simp
  | throw e => exact absurd rfl (this e)
  | ub | abort => simp

/-- A file in which no line after the first is the name of a layer is accepted, and nothing is loaded. -/
theorem C49_no_layers (N : Num α) (draws : Nat → Nat → α) (C : Codec α) (M : Model α) (t : List Char)
    (h : ∀ pre s, t = pre ++ '\n' :: s →
      s.takeWhile (· ≠ '\n') ∉ ["Kernel".toList, "Pooling".toList, "Connected Layer".toList, "Softmax".toList]) :
    Model.loadModel N draws C M (some t) = some (.ok true, M) := by
  suffices ∀ (fuel : Nat) (s : IStream), s.rest.length < fuel → (∃ pre, t = pre ++ s.rest) →
      Model.loadLoop N draws C fuel (M, s) = some (.ok true, M) from
    this (t.length + 1) (ofText t) (by simp [ofText]) ⟨[], rfl⟩
  intro fuel
  induction fuel with
  | zero => intro s hs; omega
  | succ fuel ih =>
    intro s hs ⟨pre, hpre⟩
    unfold Model.loadLoop
    simp only
    by_cases hf : s.getline.2.fail = true
    · simp only [hf, if_true]
    · have hlt := getline_lt s (by simpa using hf)
      have hsuf : ∃ a, s.rest = a ++ s.getline.2.rest ∧ (s.getline.2.rest = [] ∨ ∃ b, a = b ++ ['\n']) := by
        have hg : s.good = true := by
          by_contra hg
          apply hf
          unfold getline
          rw [if_neg hg]
        have hap := List.takeWhile_append_dropWhile (p := (· ≠ '\n')) (l := s.rest)
        have hhead := List.head?_dropWhile_not (· ≠ '\n') s.rest
        unfold getline
        rw [if_pos hg]
        simp only
        cases hd : s.rest.dropWhile (· ≠ '\n') with
        | nil => exact ⟨s.rest, by simp, .inl rfl⟩
        | cons c r =>
          rw [hd] at hap hhead
          simp only [List.head?_cons] at hhead
          have hc : c = '\n' := by simpa using hhead
          subst hc
          exact ⟨s.rest.takeWhile (· ≠ '\n') ++ ['\n'], by rw [List.append_assoc]; exact hap.symm, .inr ⟨_, rfl⟩⟩
      obtain ⟨a, ha, hend⟩ := hsuf
      simp only [hf, Bool.false_eq_true, if_false]
      have hlabel : s.getline.2.readLine.1 ∉ Model.keywords ∧ s.getline.2.readLine.2.rest.length ≤ s.getline.2.rest.length ∧
          ∃ pre, t = pre ++ s.getline.2.readLine.2.rest := by
        generalize s.getline.2 = s' at *
        unfold readLine
        by_cases hg : s'.good = true
        · rw [if_pos hg]
          have hgl : s'.getline.1 = s'.rest.takeWhile (· ≠ '\n') := by
            unfold getline
            rw [if_pos hg]
            simp only
            split <;> rfl
          have hnot : s'.getline.1 ∉ Model.keywords := by
            rw [hgl]
            rcases hend with h0 | ⟨b, rfl⟩
            · rw [h0]; decide
            · exact h (pre ++ b) s'.rest (by rw [hpre, ha]; simp)
          simp only
          by_cases hf2 : s'.getline.2.fail = true
          · rw [if_pos hf2]
            refine ⟨hnot, getline_shrinks s', ?_⟩
            have : s'.getline.2.rest = [] := by
              unfold getline at hf2 ⊢
              rw [if_pos hg] at hf2 ⊢
              simp only at hf2 ⊢
              split at hf2
              · rfl
              · simp at hf2
            exact ⟨t, by simp [this]⟩
          · rw [if_neg hf2]
            exact ⟨hnot, le_refl _, pre ++ a, by rw [hpre, ha]; simp⟩
        · rw [if_neg hg]
          exact ⟨show [] ∉ Model.keywords by decide, le_refl _, pre ++ a, by rw [hpre, ha]; simp⟩
      generalize hq : s.getline.2.readLine = q at hlabel ⊢
      obtain ⟨label, is'⟩ := q
      simp only at hlabel ⊢
      rw [Model.loadLayer_other N draws C M label is' hlabel.1]
      exact ih is' (by have := hlabel.2.1; omega) hlabel.2.2

/-- The claim fails, in all three parts: a missing file, a file that is not a model, an unwritable file. -/
theorem C49_violated (C : Codec α) : ¬ C49_claim C ∧
    (∃ t : List Char, ¬ "(0) ----------\n".toList <+: t ∧ ∀ (N : Num α) (draws : Nat → Nat → α) (M : Model α),
      Model.loadModel N draws C M (some t) = some (.ok true, M)) ∧
    ((Model.new : Model α).saveModel C false).1 = .ok true := by
  refine ⟨?_, ⟨"hello\nworld".toList, by decide, ?_⟩, rfl⟩
  · intro h
    obtain ⟨M', e⟩ := (h ⟨id, id, id, id, fun _ => 0, fun _ _ => false, 0, 0, 0⟩ (fun _ _ => 0) Model.new).1
    rw [C49_missing] at e
    exact absurd (congrArg Prod.fst (Option.some.inj e)) (by simp)
  · intro N draws M
    refine C49_no_layers N draws C M _ ?_
    intro pre s e
    have hs : s = "world".toList := by
      have e' : "hello".toList ++ '\n' :: "world".toList = pre ++ '\n' :: s := by rw [← e]; decide
      rcases List.append_eq_append_iff.1 e' with ⟨as, h1, h2⟩ | ⟨bs, h1, h2⟩
      · cases as with
        | nil => simpa using h2.symm
        | cons c as =>
          simp only [List.cons_append, List.cons.injEq] at h2
          have : '\n' ∈ "world".toList := by rw [h2.2]; simp
          exact absurd this (by decide)
      · cases bs with
        | nil => simpa using h2
        | cons c bs =>
          simp only [List.cons_append, List.cons.injEq] at h2
          have : '\n' ∈ "hello".toList := by rw [h1, ← h2.1]; simp
          exact absurd this (by decide)
    rw [hs]; decide

/-- What is reported, for every model `M` and first line: a convolution or fully connected layer that does not go on with
`x`, a pooling layer of an unknown type. Missing: everything else. -/
theorem C49_reported_partial (N : Num α) (draws : Nat → Nat → α) (C : Codec α) (M : Model α) (head : List Char)
    (hh : ∀ c ∈ head, c ≠ '\n') :
    (∀ rest, ¬ "x".toList <+: rest → ∃ M', Model.loadModel N draws C M (some (head ++ "\nKernel\n".toList ++ rest)) = some (.ok false, M')) ∧
    (∀ rest, ¬ "x".toList <+: rest →
      ∃ M', Model.loadModel N draws C M (some (head ++ "\nConnected Layer\n".toList ++ rest)) = some (.ok false, M')) ∧
    (∀ name rest, (∀ c ∈ name, c ≠ '\n') → name ∉ ["MAX".toList, "MIN".toList, "AVG".toList] →
      ∃ M', Model.loadModel N draws C M (some (head ++ "\nPooling\n".toList ++ name ++ '\n' :: rest)) = some (.ok false, M')) := by
  refine ⟨fun rest h => ?_, fun rest h => ?_, fun name rest hn h => ?_⟩
  · obtain ⟨s', e, _⟩ := Model.load_kernel_bad N draws C M rest (C41_mismatch_partial "x".toList rest h (by decide)).2.1
    refine ⟨s'.1, Model.loadModel_of_loop N draws C M _ 1 _ ?_⟩
    have : head ++ "\nKernel\n".toList ++ rest = head ++ '\n' :: ("Kernel".toList ++ '\n' :: rest) := by simp
    unfold ofText
    rw [this]
    exact Model.loop_runtime N draws C M 0 hh (by decide) e
  · obtain ⟨s', e⟩ := Model.load_connected_bad N draws C M rest (C41_mismatch_partial "x".toList rest h (by decide)).2.1
    refine ⟨s'.1, Model.loadModel_of_loop N draws C M _ 1 _ ?_⟩
    have : head ++ "\nConnected Layer\n".toList ++ rest = head ++ '\n' :: ("Connected Layer".toList ++ '\n' :: rest) := by simp
    unfold ofText
    rw [this]
    exact Model.loop_runtime N draws C M 0 hh (by decide) e
  · simp only [List.mem_cons, List.not_mem_nil, or_false, not_or] at h
    obtain ⟨s', e⟩ := Model.load_pooling_bad N draws C M name rest hn h
    refine ⟨s'.1, Model.loadModel_of_loop N draws C M _ 1 _ ?_⟩
    have : head ++ "\nPooling\n".toList ++ name ++ '\n' :: rest = head ++ '\n' :: ("Pooling".toList ++ '\n' :: (name ++ '\n' :: rest)) := by
      simp
    unfold ofText
    rw [this]
    exact Model.loop_runtime N draws C M 0 hh (by decide) e

/-- A negative number of labels is not reported but ends in `std::length_error`, which `loadModel` does not catch. -/
theorem C49_escapes (N : Num α) (draws : Nat → Nat → α) (C : Codec α) (M : Model α) (head rest : List Char)
    (hh : ∀ c ∈ head, c ≠ '\n') (n : Int) (hn : I32 n) (h0 : n < 0) :
    Model.loadModel N draws C M (some (head ++ "\nSoftmax\n\n".toList ++ placeText "Output labels".toList n ++ rest)) =
      some (.throw .length, M) := by
  refine Model.loadModel_of_loop N draws C M _ 1 _ ?_
  have e0 : head ++ "\nSoftmax\n\n".toList ++ placeText "Output labels".toList n ++ rest =
      head ++ '\n' :: ("Softmax".toList ++ '\n' :: ('\n' :: (placeText "Output labels".toList n ++ rest))) := by
    have : "\nSoftmax\n\n".toList = '\n' :: ("Softmax".toList ++ ['\n', '\n']) := by decide
    rw [this]
    simp only [List.append_assoc, List.cons_append, List.nil_append]
  unfold ofText
  rw [e0]
  unfold Model.loadLoop
  simp only
  rw [getline_line hh]
  simp only [Bool.false_eq_true, if_false]
  rw [readLine_line (by decide)]
  simp only
  unfold Model.loadLayer
  rw [if_neg (by decide), if_neg (by decide), if_neg (by decide), if_pos rfl]
  unfold Model.loadSoftmax
  simp only
  rw [clearLine_nl (by decide) (by decide), clearLine_nl', expectInt_place hn]
  simp only [if_pos h0]

/-- Dimensions of a matrix whose product is negative are not reported either: `std::length_error` leaves `loadModel`. -/
theorem C49_negative_dims (N : Num α) (draws : Nat → Nat → α) (C : Codec α) (M : Model α) (head rest : List Char)
    (hh : ∀ c ∈ head, c ≠ '\n') (a b x y z v : Int) (ha : I32 a) (hb : I32 b) (hx : I32 x) (hy : I32 y) (hz : I32 z)
    (hv : Dim3.volume ⟨x, y, z⟩ = .ok v) (h0 : v < 0) :
    ∃ M', Model.loadModel N draws C M (some (head ++ '\n' :: (line "Connected Layer" ++ (placeText "x".toList a ++
      (placeText "y".toList b ++ (line "weights" ++ (intText x ++ ' ' :: (intText y ++ ' ' :: (intText z ++ '\n' :: rest))))))))) =
      some (.throw .length, M') := by
  have hs : ∀ R : Matrix α, ∃ R' is', Matrix.deserialize C (R, ⟨intText x ++ ' ' :: (intText y ++ ' ' :: (intText z ++ '\n' :: rest)), false, false⟩) =
      (.throw .length, (R', is')) := by
    intro R
    have e1 := extractInt_text (ws := []) (r := ' ' :: (intText y ++ ' ' :: (intText z ++ '\n' :: rest))) hx (by simp) (by rintro c ⟨⟩; decide)
    have e2 := extractInt_text (ws := [' ']) (r := ' ' :: (intText z ++ '\n' :: rest)) hy (by simp [isWs]) (by rintro c ⟨⟩; decide)
    have e3 := extractInt_text (ws := [' ']) (r := '\n' :: rest) hz (by simp [isWs]) (by rintro c ⟨⟩; decide)
    simp only [List.nil_append, List.cons_append, List.isEmpty_cons] at e1 e2 e3
    refine ⟨⟨⟨x, y, z⟩, R.vals⟩, ⟨'\n' :: rest, false, false⟩, ?_⟩
    have er : Matrix.resizeX (α := α) ⟨x, y, z⟩ (R, ⟨'\n' :: rest, false, false⟩) =
        (.throw .length, (⟨⟨x, y, z⟩, R.vals⟩, ⟨'\n' :: rest, false, false⟩)) := by
      unfold Matrix.resizeX
      have : R.resize ⟨x, y, z⟩ 0 = .throw .length := by
        unfold Matrix.resize vecSize
        rw [hv, Res.bind_ok, if_pos h0]; rfl
      simp only [this]
    unfold Matrix.deserialize
    simp only [e1, e2, e3, Option.getD_some]
    rw [if_neg (by simp)]
    unfold Exec.bind
    rw [er]
  obtain ⟨L₀, ea⟩ : ∃ L₀ : Connected α, M.addConnected 0 =
      .ok { M.append (Model.layerName "FullyConnected" (M.connecteds + 1)) (.connected L₀) with connecteds := M.connecteds + 1 } :=
    ⟨_, rfl⟩
  obtain ⟨R', is', es⟩ := hs L₀.weights
  have ed : Connected.deserialize C (L₀, ⟨line "Connected Layer" ++ (placeText "x".toList a ++ (placeText "y".toList b ++
      (line "weights" ++ (intText x ++ ' ' :: (intText y ++ ' ' :: (intText z ++ '\n' :: rest)))))), false, false⟩) =
      (.throw .length, ({ L₀ with weights := R' }, is')) := by
    unfold Connected.deserialize
    rw [Exec.run_ok (Exec.into_ok (expectVoid_line' _ _)), Exec.run_ok (Exec.into_ok (expectInt_place ha)),
      Exec.run_ok (Exec.into_ok (expectInt_place hb)), Exec.run_ok (Exec.into_ok (expectVoid_line' _ _)), Exec.run_throw]
    unfold Exec.field
    simp only [es]
  refine ⟨{ M.append (Model.layerName "FullyConnected" (M.connecteds + 1)) (.connected { L₀ with weights := R' }) with
    connecteds := M.connecteds + 1 }, Model.loadModel_of_loop N draws C M _ 1 _ ?_⟩
  unfold ofText Model.loadLoop
  simp only
  rw [getline_line hh]
  simp only [Bool.false_eq_true, if_false]
  rw [line_append, readLine_line (by decide), ← line_append]
  simp only
  unfold Model.loadLayer
  rw [if_neg (by decide), if_neg (by decide), if_pos rfl]
  simp only [ea]
  rw [Model.onLast_append _ Body.connected (Connected.deserialize C) (ls := M.layers)
    (l := ⟨Model.layerName "FullyConnected" (M.connecteds + 1), .connected L₀⟩) rfl rfl ed]
  rfl

example : Dim3.volume ⟨-3, 2, 1⟩ = .ok (-6) ∧ I32 (-3) := by decide

/-! ## C66 -/

/-- The claim of C66 for files of the format of data/trained_model.model_data, whose layers have the activation
function in the line after `Kernel`. -/
def C66_claim (C : Codec α) : Prop := ∀ (N : Num α) (draws : Nat → Nat → α) (rest : List Char),
  ∃ M', Model.loadModel N draws C Model.new (some ("(0) ----------\nKernel\nRELU\n".toList ++ rest)) = some (.ok true, M')

/-- Every file of that format is rejected at its first convolution layer, whatever the activation function and whatever
follows; the model is left with the layer. The first 27 characters of the shipped file are
`(0) ----------⏎Kernel⏎RELU⏎`. -/
theorem C66_rejected (N : Num α) (draws : Nat → Nat → α) (C : Codec α) (f : ActFn) (rest : List Char) :
    ∃ M', Model.loadModel N draws C Model.new (some ("(0) ----------\nKernel\n".toList ++ f.name.toList ++ '\n' :: rest)) =
      some (.ok false, M') ∧ M'.layers.length = 1 := by
  have hx : ¬ "x".toList <+: f.name.toList ++ '\n' :: rest := by
    intro h
    obtain ⟨t, ht⟩ := h
    have := congrArg List.head? ht
    cases f <;> exact absurd this (by simp [ActFn.name])
  obtain ⟨s', e, hl, _⟩ := Model.load_kernel_bad N draws C Model.new _ (C41_mismatch_partial "x".toList _ hx (by decide)).2.1
  refine ⟨s'.1, Model.loadModel_of_loop N draws C _ _ 1 _ ?_, by rw [hl]; rfl⟩
  have e0 : "(0) ----------\nKernel\n".toList ++ f.name.toList ++ '\n' :: rest =
      "(0) ----------".toList ++ '\n' :: ("Kernel".toList ++ '\n' :: (f.name.toList ++ '\n' :: rest)) := by
    have : "(0) ----------\nKernel\n".toList = "(0) ----------".toList ++ '\n' :: ("Kernel".toList ++ ['\n']) := by decide
    rw [this]
    simp only [List.append_assoc, List.cons_append, List.nil_append]
  unfold ofText
  rw [e0]
  exact Model.loop_runtime N draws C _ 0 (by decide) (by decide) e

/-- So the claim fails. -/
theorem C66_violated (C : Codec α) : ¬ C66_claim C := by
  intro h
  obtain ⟨M', e⟩ := h ⟨id, id, id, id, fun _ => 0, fun _ _ => false, 0, 0, 0⟩ (fun _ _ => 0) []
  obtain ⟨M'', e', _⟩ := C66_rejected ⟨id, id, id, id, fun _ => 0, fun _ _ => false, 0, 0, 0⟩ (fun _ _ => 0) C .relu []
  have : "(0) ----------\nKernel\n".toList ++ ActFn.relu.name.toList ++ '\n' :: [] =
      "(0) ----------\nKernel\nRELU\n".toList ++ [] := by decide
  rw [this, e] at e'
  exact absurd (congrArg Prod.fst (Option.some.inj e')) (by simp)

end
end Cnn
