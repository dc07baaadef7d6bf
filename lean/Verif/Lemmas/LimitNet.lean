import Verif.Lemmas.Limit
import Verif.Lemmas.NetTrain
import Verif.Spec.Build
/-!
# Networks of given layers as models of given kinds (C87)
-/
set_option linter.unusedSectionVars false
namespace Cnn
open Res

/-- The kind of a layer; no layer object computes a gate. -/
def NetLayer.kind : NetLayer → LayerKind
  | .conv A B C F _ _ => .conv A B C F
  | .pool t px py sx sy => .pool t px py sx sy
  | .full n _ _ => .full n
  | .act f => .act f
  | .gate .. => .act .linear

theorem Body.Denotes.runs {b : Nat} {first : Bool} {s : Shape} {B : Body ℝ} {l : NetLayer} (h : B.Denotes b first s l) :
    B.Runs first s l.kind ∧ l.kind.out s = l.out s := by
  cases B <;> cases l <;> first | exact h.elim | skip
  · exact ⟨⟨_, _, h.1⟩, rfl⟩
  · exact ⟨⟨h.1, h.2.1, h.2.2.1⟩, rfl⟩
  · exact ⟨.inl ⟨_, _, h.1, h.2.2.2⟩, rfl⟩
  · exact ⟨trivial, rfl⟩

theorem Body.Denotes.works {b : Nat} {first : Bool} {s : Shape} {B : Body ℝ} {l : NetLayer} (h : B.Denotes b first s l) (hf : l.Fits s)
    (ht : l.Trains first s) : l.kind.Works first s := by
  cases B <;> cases l <;> first | exact h.elim | skip
  · next K A B C F w β =>
    have hw := h.1.weights.good
    have hz := hw.z
    have h0 : 0 < C ∧ 0 < F := ⟨Nat.pos_of_ne_zero (by rintro rfl; simp at hz), Nat.pos_of_ne_zero (by rintro rfl; simp at hz)⟩
    exact ⟨⟨hw.x, hw.y, h0.1, h0.2, hw.small⟩, hf.1, hf.2, ht⟩
  · exact hf
  · next L n w β =>
    have hw := h.1.weights.good
    exact ⟨hw.x, by simpa using hw.small⟩
  · trivial

theorem DenotesAll.runs {b : Nat} {first : Bool} {s : Shape} {Bs : List (Body ℝ)} {ls : List NetLayer} (h : DenotesAll b first s Bs ls)
    (hf : NetFits ls s) (ht : NetTrains first ls s) :
    Bs.length = ls.length ∧ KindsWork first s (ls.map NetLayer.kind) ∧ kindsOut (ls.map NetLayer.kind) s = netOut ls s ∧
      ∀ (i : Nat) (B : Body ℝ) (k : LayerKind), Bs[i]? = some B → (ls.map NetLayer.kind)[i]? = some k →
        B.Runs (first && decide (i = 0)) (kindsOut ((ls.map NetLayer.kind).take i) s) k := by
  induction ls generalizing first s Bs with
  | nil =>
    cases Bs with
    | nil => exact ⟨rfl, trivial, rfl, fun i B k h => by simp at h⟩
    | cons B Bs => exact h.elim
  | cons l ls ih =>
    cases Bs with
    | nil => exact h.elim
    | cons B Bs =>
      obtain ⟨h1, h2⟩ := h
      obtain ⟨r1, r2⟩ := h1.runs
      obtain ⟨i1, i2, i3, i4⟩ := ih h2 hf.2 ht.2
      refine ⟨by simp [i1], ⟨h1.works hf.1 ht.1, by rw [r2]; exact i2⟩, ?_, ?_⟩
      · show kindsOut _ (l.kind.out s) = netOut ls (l.out s)
        rw [r2]; exact i3
      · intro i B' k hB hk
        cases i with
        | zero =>
          cases hB
          cases hk
          simpa [kindsOut] using r1
        | succ i =>
          have := i4 i B' k hB hk
          show B'.Runs _ (kindsOut _ (l.kind.out s)) k
          rw [r2]
          simpa using this

theorem Model.Denotes.runs {M : Model ℝ} {b : Nat} {s : Shape} {ls : List NetLayer} {n : Nat} (h : M.Denotes b s ls n) (hf : NetFits ls s)
    (ht : NetTrains true ls s) : M.Runs s (ls.map NetLayer.kind) ∧ KindsWork true s (ls.map NetLayer.kind) := by
  obtain ⟨⟨Bs, S, h1, h2, h3⟩, h4, h5⟩ := h
  obtain ⟨i1, i2, i3, i4⟩ := h2.runs hf ht
  have hlen : M.layers.length = Bs.length + 1 := by
    have := congrArg List.length h1
    simpa using this
  have hget : ∀ i : Nat, (M.layers[i]?).map Layer.body = (Bs ++ [.softmax S])[i]? := fun i => by rw [← h1, List.getElem?_map]
  refine ⟨⟨by simp [hlen, i1], fun i L k hL hk => ?_, ?_, ?_⟩, i2⟩
  · have hi : i < Bs.length := by
      have := (List.getElem?_eq_some_iff.1 hk).1
      simpa [i1] using this
    have hB := hget i
    rw [hL, List.getElem?_append_left hi] at hB
    have := i4 i L.body k hB.symm hk
    simpa using this
  · have hB := hget Bs.length
    rw [List.getElem?_append_right (le_refl _), Nat.sub_self] at hB
    simp only [List.length_map, ← i1]
    cases e : M.layers[Bs.length]? with
    | none => rw [e] at hB; cases hB
    | some L =>
      rw [e] at hB
      refine ⟨L, S, rfl, ?_, by rw [h3, h4]⟩
      simpa using hB
  · rw [i3, h4]; exact h5

theorem Model.Denotes.smooth {M : Model ℝ} {b : Nat} {s : Shape} {ls : List NetLayer} {n : Nat} (h : M.Denotes b s ls n)
    (he : ∀ l ∈ ls, l.Even) : M.Smooth := by
  obtain ⟨⟨Bs, S, h1, h2, h3⟩, h4, h5⟩ := h
  have key : ∀ (Bs : List (Body ℝ)) (ls : List NetLayer) (first : Bool) (s : Shape), DenotesAll b first s Bs ls → (∀ l ∈ ls, l.Even) →
      ∀ B ∈ Bs, B.Smooth := by
    intro Bs
    induction Bs with
    | nil => intro ls first s _ _ B hB; simp at hB
    | cons B Bs ih =>
      intro ls first s h hl B' hB'
      cases ls with
      | nil => exact h.elim
      | cons l ls =>
        rcases List.mem_cons.1 hB' with rfl | hB'
        · have h1 := h.1
          have h2 := hl l (by simp)
          cases B' <;> cases l <;> first | exact h1.elim | trivial | skip
          · exact h1.1.trans h2.1
          · exact ⟨_, h1, h2⟩
        · exact ih ls _ _ h.2 (fun l hl' => hl l (List.mem_cons_of_mem _ hl')) B' hB'
  intro i l hl
  have : l.body ∈ Bs ++ [.softmax S] := by
    rw [← h1]
    exact List.mem_map_of_mem (List.mem_of_getElem? hl)
  rcases List.mem_append.1 this with h | h
  · exact key Bs ls true s h2 he _ h
  · rw [List.mem_singleton.1 h]; trivial

theorem kindsAvg_of_even {ls : List NetLayer} (he : ∀ l ∈ ls, l.Even) : KindsAvg (ls.map NetLayer.kind) := by
  intro px py sx sy h
  obtain ⟨l, hl, e⟩ := List.mem_map.1 h
  have := he l hl
  cases l <;> simp [NetLayer.kind] at e
  obtain ⟨rfl, rfl, rfl, rfl, rfl⟩ := e
  exact this.2

theorem Model.Denotes.drawn {M : Model ℝ} {b : Nat} {s : Shape} {ls : List NetLayer} {n : Nat} (h : M.Denotes b s ls n) (d : Nat → Nat → ℝ) :
    M.Drawn d := by
  obtain ⟨⟨Bs, S, h1, h2, h3⟩, h4, h5⟩ := h
  have key : ∀ (Bs : List (Body ℝ)) (ls : List NetLayer) (first : Bool) (s : Shape), DenotesAll b first s Bs ls →
      ∀ L, Body.connected L ∈ Bs → L.initialized = true := by
    intro Bs
    induction Bs with
    | nil => intro ls first s _ B hB; simp at hB
    | cons B Bs ih =>
      intro ls first s h L hB'
      cases ls with
      | nil => exact h.elim
      | cons l ls =>
        rcases List.mem_cons.1 hB' with rfl | hB'
        · have h1 := h.1
          cases l <;> first | exact h1.elim | skip
          exact h1.1.initialized
        · exact ih ls _ _ h.2 L hB'
  intro i l L hl hL
  have : l.body ∈ Bs ++ [.softmax S] := by
    rw [← h1]
    exact List.mem_map_of_mem (List.mem_of_getElem? hl)
  rw [hL] at this
  rcases List.mem_append.1 this with h | h
  · exact .inl (key Bs ls true s h2 L h)
  · cases List.mem_singleton.1 h

/-- The same for a network that is still to be built. -/
theorem kinds_of_drawn (d : Nat → Nat → ℝ) (ks : List LayerKind) (i : Nat) (first : Bool) (s : Shape) (hs : AllSized d i s ks)
    (hf : NetFits (drawnNet d i s ks) s) (ht : NetTrains first (drawnNet d i s ks) s) :
    KindsWork first s ks ∧ kindsOut ks s = netOut (drawnNet d i s ks) s := by
  induction ks generalizing i first s with
  | nil => exact ⟨trivial, rfl⟩
  | cons k ks ih =>
    have e : k.out s = (k.drawn (d i) s).out s := by cases k <;> rfl
    have hw : k.Works first s := by
      have h1 := hs.1
      have h2 := hf.1
      have h3 := ht.1
      cases k with
      | conv A B C F => exact ⟨h1, h2.1, h2.2, h3⟩
      | pool t px py sx sy => exact h2
      | full n => exact ⟨h1.1, h1.2.2⟩
      | act f => trivial
    obtain ⟨i1, i2⟩ := ih (i + 1) false _ hs.2 hf.2 ht.2
    exact ⟨⟨hw, by rw [e]; exact i1⟩, by
      show kindsOut ks (k.out s) = _
      rw [e]; exact i2⟩

theorem kindsAvg_of_drawn {d : Nat → Nat → ℝ} {ks : List LayerKind} {i : Nat} {s : Shape} (he : ∀ l ∈ drawnNet d i s ks, l.Even) : KindsAvg ks := by
  intro px py sx sy h
  induction ks generalizing i s with
  | nil => simp at h
  | cons k ks ih =>
    rcases List.mem_cons.1 h with rfl | h
    · have := he (.pool .avg px py sx sy) (by
        show NetLayer.pool .avg px py sx sy ∈ LayerKind.drawn (d i) s (.pool .avg px py sx sy) :: _
        exact List.mem_cons_self)
      exact this.2
    · exact ih (fun l hl => he l (List.mem_cons_of_mem _ hl)) h

theorem Model.append_smooth {M : Model ℝ} (h : ∀ l ∈ M.layers, l.body.Smooth) (name : List Char) {b : Body ℝ} (hb : b.Smooth) :
    ∀ l ∈ (M.append name b).layers, l.body.Smooth := by
  intro l hl
  rcases List.mem_append.1 hl with hl | hl
  · exact h l hl
  · rw [List.mem_singleton.1 hl]; exact hb

theorem add_smooth {N : Num ℝ} {draws : Nat → ℝ} {M M' : Model ℝ} {k : LayerKind} {d : Nat → ℝ} {s : Shape} (hk : (k.drawn d s).Even)
    (h : ∀ l ∈ M.layers, l.body.Smooth) (e : k.add N draws M = .ok M') : ∀ l ∈ M'.layers, l.body.Smooth := by
  cases k with
  | conv A B C F =>
    obtain ⟨K, _, e⟩ := Res.bind_eq_ok e
    cases e
    exact Model.append_smooth h _ trivial
  | pool t px py sx sy =>
    cases e
    exact Model.append_smooth h _ (b := .pooling (Pooling.new ⟨px, py⟩ ⟨sx, sy⟩ t)) hk.1
  | full n =>
    obtain ⟨K, _, e⟩ := Res.bind_eq_ok e
    cases e
    exact Model.append_smooth h _ trivial
  | act f =>
    cases e
    exact Model.append_smooth h _ (b := .activation (Activation.new f)) ⟨f, rfl, hk⟩

theorem addLayers_smooth {N : Num ℝ} {draws : Nat → Nat → ℝ} {d : Nat → Nat → ℝ} {ks : List LayerKind} {i j : Nat} {s : Shape} {M M' : Model ℝ}
    (hk : ∀ l ∈ drawnNet d j s ks, l.Even) (h : ∀ l ∈ M.layers, l.body.Smooth) (e : addLayers N draws i ks M = .ok M') :
    ∀ l ∈ M'.layers, l.body.Smooth := by
  induction ks generalizing i j s M with
  | nil => cases e; exact h
  | cons k ks ih =>
    obtain ⟨M1, e1, e2⟩ := Res.bind_eq_ok e
    exact ih (fun l hl => hk l (List.mem_cons_of_mem _ hl)) (add_smooth (hk _ List.mem_cons_self) h e1) e2

theorem build_smooth {N : Num ℝ} {draws d : Nat → Nat → ℝ} {ks : List LayerKind} {labels : List (List Char)} {s : Shape} {M : Model ℝ}
    (hk : ∀ l ∈ drawnNet d 0 s ks, l.Even) (e : buildModel N draws ks labels = .ok M) : M.Smooth := by
  obtain ⟨M1, e1, e2⟩ := Res.bind_eq_ok e
  cases e2
  have h := addLayers_smooth hk (by simp [Model.new]) e1
  exact fun i l hl => Model.append_smooth (M := { M1 with labels := labels, softmax := true }) h _ (b := .softmax (Softmax.new labels.length)) trivial l (List.mem_of_getElem? hl)

end Cnn
