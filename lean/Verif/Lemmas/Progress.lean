import Verif.Lemmas.SlotAlone
/-! Helper lemmas: if all samples can be processed alone, no schedule of a batch fails, and a batch comes to its end (C53). -/
set_option linter.unusedSectionVars false
namespace Cnn
variable {α : Type} [Zero α] [One α] [Add α] [Sub α] [Mul α] [Div α] [Neg α]

theorem map_ok_inv {β γ : Type} {f : β → γ} {x : Res β} (h : ∃ c, f <$> x = .ok c) : ∃ a, x = .ok a := by
  obtain ⟨c, h⟩ := h
  obtain ⟨a, e, _⟩ := map_eq_ok h
  exact ⟨a, e⟩

namespace Model

theorem Outputs.unnorm {M : Model α} {n b : Nat} (h : (M.norm b).Outputs n) : M.Outputs n := by
  obtain ⟨y, S, o1, o2, o3⟩ : (M.see b).Outputs n := h.untell
  rw [List.getLast?_eq_getElem?, see_get] at o1
  obtain ⟨z, hz, rfl⟩ := Option.map_eq_some_iff.1 o1
  rw [show (M.see b).layers.length = M.layers.length by simp [see]] at hz
  refine ⟨z, S, by rw [List.getLast?_eq_getElem?]; exact hz, ?_, o3⟩
  cases hb : z.body <;> simp only [hb, Body.see] at o2 <;> first | exact o2 | exact absurd o2 (by simp)

end Model

namespace Train
open Model

theorem soloF_prefix {E : Env α} {m : Model α} {x : Sample α} {n k : Nat} (hk : k ≤ n) {r} (h : soloF E m x n = .ok r) :
    ∃ q, soloF E m x k = .ok q := by
  induction n generalizing r with
  | zero =>
    obtain rfl : k = 0 := by omega
    exact ⟨r, h⟩
  | succ n ih =>
    rcases Nat.lt_or_ge k (n + 1) with hlt | hge
    · rw [soloF_succ] at h
      obtain ⟨s, e, _⟩ := Res.bind_eq_ok h
      exact ih (by omega) e
    · obtain rfl : k = n + 1 := by omega
      exact ⟨r, h⟩

theorem soloB_prefix {E : Env α} {res : Results α} {m : Model α} {n k : Nat} (hk : k ≤ n) {r} (h : soloB E res m n 0 = .ok r) :
    ∃ q, soloB E res m n k = .ok q := by
  induction k with
  | zero => exact ⟨r, h⟩
  | succ k ih =>
    obtain ⟨q, e⟩ := ih (by omega)
    rw [soloB_succ _ _ _ _ _ (by omega)] at e
    obtain ⟨s, e, _⟩ := Res.bind_eq_ok e
    exact ⟨s, e⟩

theorem soloB_congr (E : Env α) {r r' : Results α} (h : r.inputs = r'.inputs) (m : Model α) (n k : Nat) :
    soloB E r m n k = soloB E r' m n k := by
  unfold soloB
  congr 1
  funext s i
  exact backwardStep_congr E h 0 i s

theorem assignLoss_inputs {E : Env α} {M : Model α} {r r' : Results α} {lab : List Char} (h : M.assignLoss E r lab = .ok r') :
    r'.inputs = r.inputs := by
  unfold assignLoss at h
  obtain ⟨_, _, h⟩ := Res.bind_eq_ok h
  obtain ⟨_, _, h⟩ := Res.bind_eq_ok h
  obtain ⟨_, _, h⟩ := Res.bind_eq_ok h
  obtain rfl := Res.ok.inj h
  rfl

/-- All samples can be processed alone on every slot, with the label of any of them. -/
def Runs (E : Env α) (M : Model α) (B : Nat) (src : List (Sample α)) : Prop :=
  ∀ slot < B, ∀ x ∈ src, ∀ y ∈ src, ∃ m, Solo E (M.norm slot) x (M.labelIndex y.label) m

theorem Runs.of_alone {E : Env α} {M : Model α} {B : Nat} {src : List (Sample α)} (hM : M.Prepared B)
    (h : ∀ x ∈ src, ∀ y ∈ src, ∃ m, alone E M ⟨x.data, y.label⟩ = .ok m) : Runs E M B src := by
  intro slot hs x hx y hy
  obtain ⟨m1, h1⟩ := h x hx x hx
  obtain ⟨m2, h2⟩ := h x hx y hy
  obtain ⟨s, m, r0, r, d, n, a1, a2, a3, a4, a5, a6⟩ := alone_solo (hM.setBatchSize_ready 1) h1
  obtain ⟨s', m', r0', r', d', n', b1, b2, b3, b4, b5, b6⟩ := alone_solo (hM.setBatchSize_ready 1) h2
  have e : (s, m) = (s', m') := Res.ok.inj (a1.symm.trans b1)
  obtain ⟨rfl, rfl⟩ := Prod.mk.inj e
  have e : r0 = r0' := Res.ok.inj (a2.symm.trans b2)
  subst e
  have hin : r'.inputs = r.inputs := (assignLoss_inputs b3).trans (assignLoss_inputs a3).symm
  have : Solo E ((M.setBatchSize 1).tell 0) x (M.labelIndex y.label) m2 :=
    ⟨s, m, r0, r, d', n, a1, a2, a3, a4, a5, by rw [soloB_congr E hin.symm]; exact b6⟩
  obtain ⟨m3, e3, _⟩ := this.same (hM.same hs).symm
  exact ⟨m3, e3⟩

/-- The labels stored and used are labels of the samples. -/
structure PInv (M0 : Model α) (src0 : List (Sample α)) (s : Batch α) (evs : List (Event α)) : Prop where
  told : ∀ (t c slot : Nat) (x : Sample α) (r : Results α) (n : Nat) (d : Matrix α), s.workers[t]? = some (c, Pc.backward slot x r n d) →
    ∃ y ∈ src0, s.shared.model.tell (M0.labelIndex y.label) = s.shared.model
  used : ∀ (t slot : Nat) (x : Sample α) (l : Nat), (t, slot, x, l) ∈ grads evs → ∃ y ∈ src0, l = M0.labelIndex y.label

theorem tell_forwardStep {E : Env α} {b i l : Nat} {s : Matrix α × List (Matrix α)} {M : Model α} {r}
    (hM : M.tell l = M) (h : forwardStep E b (s, M) i = .ok r) : r.2.tell l = r.2 := by
  have := forwardStep_tell E b i l s M
  rw [hM, h] at this
  exact (congrArg Prod.snd (Res.ok.inj this)).symm

theorem storedLabel_tell {M : Model α} {n l : Nat} (ho : M.Outputs n) (hM : M.tell l = M) : storedLabel M = some l := by
  obtain ⟨y, S, e1, e2, e3⟩ := ho
  have hlen : 0 < M.layers.length := by
    cases h : M.layers with
    | nil => rw [h] at e1; simp at e1
    | cons a l => simp
  rw [storedLabel_eq, ← hM, List.getLast?_eq_getElem?, tell_get_last _ _ _ (by simp; omega)]
  rw [List.getLast?_eq_getElem?] at e1
  simp [e1, e2, Body.tell, outLabel]

theorem tell_backwardStep {E : Env α} {res : Results α} {b i l n : Nat} {d : Matrix α} {M : Model α} {q}
    (ho : M.Outputs n) (hM : M.tell l = M) (h : backwardStep E res b (d, M) i = .ok q) : q.2.tell l = q.2 := by
  by_cases hi : i + 1 = M.layers.length
  · unfold backwardStep at h
    obtain ⟨X, _, h⟩ := Res.bind_eq_ok h
    obtain ⟨Z, _, h⟩ := Res.bind_eq_ok h
    obtain ⟨y, hy, h⟩ := Res.bind_eq_ok h
    obtain ⟨X', _, h⟩ := Res.bind_eq_ok h
    obtain ⟨Z', _, h⟩ := Res.bind_eq_ok h
    obtain ⟨z, hz, h⟩ := Res.bind_eq_ok h
    obtain rfl := Res.ok.inj h
    have hy : M.layers[i]? = some y := ofOption_eq hy
    obtain ⟨y', S, e1, e2, _⟩ := ho
    rw [List.getLast?_eq_getElem?, show M.layers.length - 1 = i by omega, hy] at e1
    obtain rfl := Option.some.inj e1
    rw [e2] at hz
    obtain ⟨D, _, hz⟩ := Res.bind_eq_ok hz
    obtain rfl := Res.ok.inj hz
    have e3 : (M.setBody i (.softmax S)) = M := by
      refine Model.ext ?_ rfl rfl rfl rfl rfl rfl
      apply List.ext_getElem?
      intro j
      simp only [setBody, List.getElem?_modify]
      by_cases hj : i = j
      · subst hj; simp [hy, ← e2]
      · simp [hj]
    simp only [e3]
    exact hM
  · have := backwardStep_tell E res b i l d M hi
    rw [hM, h] at this
    exact (congrArg Prod.snd (Res.ok.inj this)).symm

theorem tell_norm_see {M : Model α} {b l : Nat} (hM : M.tell l = M) : (M.norm b).tell l = M.see b := by
  rw [norm, tell_tell, ← see_tell, hM]

theorem BInv.mem_take {T B w : Nat} {src0 : List (Sample α)} {s : Batch α} {evs : List (Event α)}
    (h : BInv T B w src0 s evs) : ∀ e ∈ fetches evs, e.2.2 ∈ src0.take B := by
  intro e he
  have hle := h.le
  rw [← h.source, List.take_append, List.take_of_length_le (by rw [List.length_map]; omega)]
  exact List.mem_append_left _ (List.mem_map.2 ⟨e, he, rfl⟩)

/-- No thread can fail. -/
theorem step_ok {E : Env α} {M0 : Model α} {T B w : Nat} {src0 : List (Sample α)} {s : Batch α} {evs : List (Event α)}
    (hR : Runs E M0 B (src0.take B)) (hG : GInv E M0 s evs) (hB : BInv T B w src0 s evs) (hP : PInv M0 (src0.take B) s evs)
    (t : Nat) : ∃ r, s.step E t = .ok r := by
  unfold Batch.step
  cases hw : s.workers[t]? with
  | none => exact ⟨_, rfl⟩
  | some v =>
    obtain ⟨c, p⟩ := v
    have hT := hB.thread t _ hw
    have hcut : c = min ((t + 1) * w) B := hT.cut
    have hW : Work E M0 s.shared.model evs t p := hG.work t _ hw
    have hlen := bare_len hG.bare
    have hlab := bare_labels hG.bare
    have hbusy : ∀ x, p.busy = some x → p.slot < B ∧ x ∈ src0.take B := by
      intro x hx
      have hm := (hT.busy x hx x).2 rfl
      exact ⟨by have := (hB.range hm).2.2; simp only at this; omega, hB.mem_take _ hm⟩
    suffices h : ∃ a, p.step E t c s.shared = .ok a by
      obtain ⟨a, ha⟩ := h
      exact ⟨({ shared := a.2.1, workers := s.workers.set t (c, a.1) }, a.2.2), by simp only [ha, terminate, Res.bind_ok]⟩
    cases p with
    | fetch slot =>
      simp only [Pc.step]
      by_cases hc : slot < c
      · rw [if_pos hc]
        cases hsrc : s.shared.source with
        | nil => exact ⟨_, rfl⟩
        | cons x rest =>
          have hx : x ∈ src0.take B := by
            have hmv : Moves t c s.shared.source (Pc.fetch slot) (.forward slot x 0 (Matrix.empty, [])) rest [.fetch t slot x] :=
              .fetch hc hsrc rfl rfl rfl rfl rfl
            have hB' : BInv T B w src0 _ (evs ++ [.fetch t slot x]) := hB.move (sh := { s.shared with source := rest }) hw hmv
            exact hB'.mem_take (t, slot, x) (by simp [fetches])
          obtain ⟨m, s1, m1, r0, r, d, n, h1, _⟩ := hR slot (by omega) x hx x hx
          obtain ⟨q, hq⟩ := soloF_prefix (Nat.zero_le _) h1
          unfold soloF at hq
          obtain ⟨b, hb, _⟩ := Res.bind_eq_ok hq
          exact ⟨_, by simp only [hb, Res.bind_ok]; rfl⟩
      · rw [if_neg hc]; exact ⟨_, rfl⟩
    | done slot => exact ⟨_, rfl⟩
    | forward slot x i s1 =>
      obtain ⟨hs, hx⟩ := hbusy x rfl
      obtain ⟨hi, hf⟩ := hW
      obtain ⟨m, s2, m1, r0, r, d, n, h1, h2, _⟩ := hR slot hs x hx x hx
      simp only [Pc.step]
      by_cases hc : i < s.shared.model.layers.length
      · rw [if_pos hc]
        obtain ⟨q, hq⟩ := soloF_prefix (k := i + 1) (by rw [norm_length]; omega) h1
        rw [soloF_succ, hf, Res.bind_ok, forwardStep_norm] at hq
        obtain ⟨a, ha⟩ := map_ok_inv ⟨q, hq⟩
        exact ⟨_, by rw [ha, Res.bind_ok]⟩
      · rw [if_neg hc]
        obtain rfl : i = M0.layers.length := by omega
        rw [norm_length] at h1
        have e := Res.ok.inj (h1.symm.trans hf)
        obtain ⟨rfl, rfl⟩ := Prod.mk.inj e
        have : forwardEnd E s.shared.model s2.1 s2.2 = .ok r0 := by
          rw [← h2]; exact forwardEnd_congr E hlab _ _
        exact ⟨_, by rw [this, Res.bind_ok]⟩
    | label slot x r =>
      obtain ⟨hs, hx⟩ := hbusy x rfl
      obtain ⟨s1, hf, hr⟩ := hW
      obtain ⟨m, s2, m1, r0, r', d, n, h1, h2, h3, h4, h5, _⟩ := hR slot hs x hx x hx
      rw [norm_length] at h1
      have e := Res.ok.inj (h1.symm.trans hf)
      obtain ⟨rfl, rfl⟩ := Prod.mk.inj e
      have e : r0 = r := Res.ok.inj (h2.symm.trans hr)
      subst e
      have ho : s.shared.model.Outputs n := by
        exact h4.unnorm.of_bare hG.bare
      have hb := backwardBegin_of (E := E) (M := s.shared.model) (r := r0) (r' := r') (lab := x.label)
        (by rw [← h3]; exact assignLoss_congr E hlab _ _) ho (by rw [labelIndex, hlab]; exact h5)
      exact ⟨_, by simp only [Pc.step, hb, Res.bind_ok]; rfl⟩
    | backward slot x r k d =>
      obtain ⟨hs, hx⟩ := hbusy x rfl
      cases k with
      | zero => exact ⟨_, rfl⟩
      | succ i =>
        obtain ⟨s1, m1, r0, n, g1, g2, g3, g4, g5, g6, g7⟩ := hW
        suffices h : ∃ a, backwardStep E r slot (d, s.shared.model) i = .ok a by
          obtain ⟨a, ha⟩ := h
          exact ⟨_, by simp only [Pc.step, ha, Res.bind_ok]; rfl⟩
        have solo : ∀ y ∈ src0.take B, ∃ q, soloB E r (m1.tell (M0.labelIndex y.label)) M0.layers.length 0 = .ok q := by
          intro y hy
          obtain ⟨m, s2, m2, r0', r', d', n', h1, h2, h3, h4, h5, h6⟩ := hR slot hs x hx y hy
          rw [norm_length] at h1 h6
          obtain ⟨rfl, rfl⟩ := Prod.mk.inj (Res.ok.inj (h1.symm.trans g1))
          have e : r0' = r0 := Res.ok.inj (h2.symm.trans g2)
          subst e
          have e : r' = r := Res.ok.inj (h3.symm.trans g3)
          subst e
          exact ⟨_, h6⟩
        rcases g7 with ⟨g7, rfl, rfl⟩ | ⟨g7, l, g8, g9⟩
        · obtain ⟨y, hy, hty⟩ := hP.told t c slot x r (i + 1) Matrix.empty hw
          obtain ⟨q, hq⟩ := solo y hy
          obtain ⟨q', hq'⟩ := soloB_prefix (k := i) (by omega) hq
          rw [soloB_succ _ _ _ _ _ (by omega), g7, soloB_self, Res.bind_ok, tell_norm_see hty, backwardStep_see] at hq'
          exact map_ok_inv ⟨q', hq'⟩
        · obtain ⟨y, hy, rfl⟩ := hP.used t slot x l g8
          obtain ⟨q, hq⟩ := solo y hy
          obtain ⟨q', hq'⟩ := soloB_prefix (k := i) (by omega) hq
          rw [soloB_succ _ _ _ _ _ (by omega), g9, Res.bind_ok, backwardStep_tell _ _ _ _ _ _ _ (by simp; omega)] at hq'
          have := map_ok_inv ⟨q', hq'⟩
          obtain ⟨a, ha⟩ := this
          rw [Model.norm, backwardStep_tell _ _ _ _ _ _ _ (by simp; omega), backwardStep_see] at ha
          exact map_ok_inv (map_ok_inv ⟨a, ha⟩)

theorem PInv.step {E : Env α} {M0 : Model α} {T B w : Nat} {src0 : List (Sample α)} {s : Batch α} {evs : List (Event α)}
    (hG : GInv E M0 s evs) (hB : BInv T B w src0 s evs) (hP : PInv M0 (src0.take B) s evs)
    {t : Nat} {r : Batch α × List (Event α)} (hr : s.step E t = .ok r) : PInv M0 (src0.take B) r.1 (evs ++ r.2) := by
  unfold Batch.step at hr
  cases hw : s.workers[t]? with
  | none =>
    rw [hw] at hr
    obtain rfl := Res.ok.inj hr
    rw [List.append_nil]; exact hP
  | some v =>
    rw [hw] at hr
    simp only at hr
    obtain ⟨a, ha, hr⟩ := Res.bind_eq_ok hr
    obtain rfl := Res.ok.inj hr
    have ha := terminate_ok ha
    obtain ⟨c, p⟩ := v
    obtain ⟨q, sh', ev⟩ := a
    have ht : t < s.workers.length := (List.getElem?_eq_some_iff.1 hw).1
    have hT := hB.thread t _ hw
    have hlab := bare_labels hG.bare
    have hW : Work E M0 s.shared.model evs t p := hG.work t _ hw
    simp only at ha hT ⊢
    -- the change of the model keeps a label that is known
    have keep : (∀ slot x res, p ≠ .label slot x res) → ∀ y, s.shared.model.tell y = s.shared.model → sh'.model.tell y = sh'.model := by
      intro hp y hy
      cases p with
      | fetch slot =>
        simp only [Pc.step] at ha
        split at ha
        · split at ha
          · obtain ⟨_, h2⟩ := Prod.mk.inj (Res.ok.inj ha)
            obtain ⟨rfl, _⟩ := Prod.mk.inj h2
            exact hy
          · obtain ⟨s', _, ha⟩ := Res.bind_eq_ok ha
            obtain ⟨_, h2⟩ := Prod.mk.inj (Res.ok.inj ha)
            obtain ⟨rfl, _⟩ := Prod.mk.inj h2
            exact hy
        · obtain ⟨_, h2⟩ := Prod.mk.inj (Res.ok.inj ha)
          obtain ⟨rfl, _⟩ := Prod.mk.inj h2
          exact hy
      | done slot =>
        obtain ⟨_, h2⟩ := Prod.mk.inj (Res.ok.inj ha)
        obtain ⟨rfl, _⟩ := Prod.mk.inj h2
        exact hy
      | forward slot x i s1 =>
        simp only [Pc.step] at ha
        split at ha
        · obtain ⟨s', hs', ha⟩ := Res.bind_eq_ok ha
          obtain ⟨_, h2⟩ := Prod.mk.inj (Res.ok.inj ha)
          obtain ⟨rfl, _⟩ := Prod.mk.inj h2
          exact tell_forwardStep hy hs'
        · obtain ⟨s', hs', ha⟩ := Res.bind_eq_ok ha
          obtain ⟨_, h2⟩ := Prod.mk.inj (Res.ok.inj ha)
          obtain ⟨rfl, _⟩ := Prod.mk.inj h2
          exact hy
      | label slot x res => exact absurd rfl (hp slot x res)
      | backward slot x res k d =>
        cases k with
        | zero =>
          obtain ⟨_, h2⟩ := Prod.mk.inj (Res.ok.inj ha)
          obtain ⟨rfl, _⟩ := Prod.mk.inj h2
          exact hy
        | succ i =>
          simp only [Pc.step] at ha
          obtain ⟨s', hs', ha⟩ := Res.bind_eq_ok ha
          obtain ⟨_, h2⟩ := Prod.mk.inj (Res.ok.inj ha)
          obtain ⟨rfl, _⟩ := Prod.mk.inj h2
          obtain ⟨s1, m1, r0, n, g1, g2, g3, g4, _⟩ := hW
          have ho : s.shared.model.Outputs n := by
            exact g4.unnorm.of_bare hG.bare
          exact tell_backwardStep ho hy hs'
    -- a thread that enters the back-propagation has stored its label
    have enter : ∀ slot x res, p = .label slot x res → ∃ y ∈ src0.take B, sh'.model.tell (M0.labelIndex y.label) = sh'.model := by
      intro slot x res hp
      subst hp
      have hx : x ∈ src0.take B := hB.mem_take _ ((hT.busy x rfl x).2 rfl)
      simp only [Pc.step] at ha
      obtain ⟨b, hb, ha⟩ := Res.bind_eq_ok ha
      obtain ⟨_, h2⟩ := Prod.mk.inj (Res.ok.inj ha)
      obtain ⟨rfl, _⟩ := Prod.mk.inj h2
      obtain ⟨_, e, _⟩ := backwardBegin_inv hb
      refine ⟨x, hx, ?_⟩
      simp only
      rw [e, show s.shared.model.labelIndex x.label = M0.labelIndex x.label by rw [labelIndex, hlab]; rfl, tell_tell]
    have back : ∀ slot x res n d, q = .backward slot x res n d →
        (∃ slot x res, p = .label slot x res) ∨ ∃ slot x res n d, p = .backward slot x res n d := by
      intro slot x res n d hq
      subst hq
      cases p with
      | fetch slot =>
        simp only [Pc.step] at ha
        split at ha
        · split at ha
          · obtain ⟨h1, _⟩ := Prod.mk.inj (Res.ok.inj ha)
            exact absurd h1 (by simp)
          · obtain ⟨s', _, ha⟩ := Res.bind_eq_ok ha
            obtain ⟨h1, _⟩ := Prod.mk.inj (Res.ok.inj ha)
            exact absurd h1 (by simp)
        · obtain ⟨h1, _⟩ := Prod.mk.inj (Res.ok.inj ha)
          exact absurd h1 (by simp)
      | done slot =>
        obtain ⟨h1, _⟩ := Prod.mk.inj (Res.ok.inj ha)
        exact absurd h1 (by simp)
      | forward slot x i s1 =>
        simp only [Pc.step] at ha
        split at ha
        · obtain ⟨s', hs', ha⟩ := Res.bind_eq_ok ha
          obtain ⟨h1, _⟩ := Prod.mk.inj (Res.ok.inj ha)
          exact absurd h1 (by simp)
        · obtain ⟨s', hs', ha⟩ := Res.bind_eq_ok ha
          obtain ⟨h1, _⟩ := Prod.mk.inj (Res.ok.inj ha)
          exact absurd h1 (by simp)
      | label slot x res => exact Or.inl ⟨_, _, _, rfl⟩
      | backward slot x res k d => exact Or.inr ⟨_, _, _, _, _, rfl⟩
    refine ⟨?_, ?_⟩
    · intro u c' slot x res n d hu
      simp only at hu ⊢
      by_cases hl : ∃ slot x res, p = .label slot x res
      · obtain ⟨slot', x', res', hp⟩ := hl
        exact enter slot' x' res' hp
      · have hl' : ∀ slot x res, p ≠ .label slot x res := fun a b c h => hl ⟨a, b, c, h⟩
        by_cases htu : t = u
        · subst htu
          rw [List.getElem?_set_self ht] at hu
          obtain ⟨_, h2⟩ := Prod.mk.inj (Option.some.inj hu)
          rcases back _ _ _ _ _ h2 with h | ⟨a1, a2, a3, a4, a5, h⟩
          · exact absurd h hl
          · subst h
            obtain ⟨y, hy, e⟩ := hP.told t c _ _ _ _ _ hw
            exact ⟨y, hy, keep hl' _ e⟩
        · rw [List.getElem?_set_ne htu] at hu
          obtain ⟨y, hy, e⟩ := hP.told u c' _ _ _ _ _ hu
          exact ⟨y, hy, keep hl' _ e⟩
    · intro u slot x l hm
      rw [grads_append, List.mem_append] at hm
      rcases hm with hm | hm
      · exact hP.used u slot x l hm
      · cases p with
        | backward slot' x' res k d =>
          cases k with
          | zero =>
            obtain ⟨_, h2⟩ := Prod.mk.inj (Res.ok.inj ha)
            obtain ⟨_, rfl⟩ := Prod.mk.inj h2
            simp [grads] at hm
          | succ i =>
            simp only [Pc.step] at ha
            obtain ⟨s', hs', ha⟩ := Res.bind_eq_ok ha
            obtain ⟨_, h2⟩ := Prod.mk.inj (Res.ok.inj ha)
            obtain ⟨_, rfl⟩ := Prod.mk.inj h2
            unfold gradEvent at hm
            split at hm
            · split at hm
              · rename_i l' hl'
                simp only [grads, List.filterMap_cons, List.filterMap_nil, List.mem_singleton, Prod.mk.injEq] at hm
                obtain ⟨_, _, _, rfl⟩ := hm
                obtain ⟨y, hy, e⟩ := hP.told t c _ _ _ _ _ hw
                refine ⟨y, hy, ?_⟩
                obtain ⟨s1, m1, r0, n, g1, g2, g3, g4, _⟩ := hW
                have ho : s.shared.model.Outputs n := by
                  exact g4.unnorm.of_bare hG.bare
                have := storedLabel_tell ho e
                rw [hl'] at this
                exact Option.some.inj this
              · simp [grads] at hm
            · simp [grads] at hm
        | fetch slot =>
          simp only [Pc.step] at ha
          split at ha
          · split at ha
            · obtain ⟨_, h2⟩ := Prod.mk.inj (Res.ok.inj ha)
              obtain ⟨_, rfl⟩ := Prod.mk.inj h2
              simp [grads] at hm
            · obtain ⟨s', _, ha⟩ := Res.bind_eq_ok ha
              obtain ⟨_, h2⟩ := Prod.mk.inj (Res.ok.inj ha)
              obtain ⟨_, rfl⟩ := Prod.mk.inj h2
              simp [grads] at hm
          · obtain ⟨_, h2⟩ := Prod.mk.inj (Res.ok.inj ha)
            obtain ⟨_, rfl⟩ := Prod.mk.inj h2
            simp [grads] at hm
        | done slot =>
          obtain ⟨_, h2⟩ := Prod.mk.inj (Res.ok.inj ha)
          obtain ⟨_, rfl⟩ := Prod.mk.inj h2
          simp [grads] at hm
        | forward slot x i s1 =>
          simp only [Pc.step] at ha
          split at ha
          · obtain ⟨s', hs', ha⟩ := Res.bind_eq_ok ha
            obtain ⟨_, h2⟩ := Prod.mk.inj (Res.ok.inj ha)
            obtain ⟨_, rfl⟩ := Prod.mk.inj h2
            simp [grads] at hm
          · obtain ⟨s', hs', ha⟩ := Res.bind_eq_ok ha
            obtain ⟨_, h2⟩ := Prod.mk.inj (Res.ok.inj ha)
            obtain ⟨_, rfl⟩ := Prod.mk.inj h2
            simp [grads] at hm
        | label slot x res =>
          simp only [Pc.step] at ha
          obtain ⟨s', hs', ha⟩ := Res.bind_eq_ok ha
          obtain ⟨_, h2⟩ := Prod.mk.inj (Res.ok.inj ha)
          obtain ⟨_, rfl⟩ := Prod.mk.inj h2
          simp [grads] at hm

/-- No schedule fails. -/
theorem run_ok {E : Env α} {M0 : Model α} {T B w : Nat} {src0 : List (Sample α)} (hR : Runs E M0 B (src0.take B)) (hM0 : M0.Ready)
    (sched : List Nat) : ∀ {s : Batch α} {evs : List (Event α)}, GInv E M0 s evs → BInv T B w src0 s evs → PInv M0 (src0.take B) s evs →
      ∃ r, s.run E sched = .ok r := by
  induction sched with
  | nil => intro s evs _ _ _; exact ⟨_, rfl⟩
  | cons t ts ih =>
    intro s evs hG hB hP
    obtain ⟨a, ha⟩ := step_ok hR hG hB hP t
    obtain ⟨b, hb⟩ := ih (hG.step hM0 hB ha) (hB.step ha) (hP.step hG hB ha)
    exact ⟨_, by rw [Batch.run, ha, Res.bind_ok, hb, Res.bind_ok]⟩

/-- How many steps a thread has to make at most before it takes another sample. -/
def Pc.todo (n : Nat) : Pc α → Nat
  | .fetch _ => 1
  | .forward _ _ i _ => (n - i) + n + 4
  | .label _ _ _ => n + 3
  | .backward _ _ _ k _ => k + 2
  | .done _ => 0

/-- How many steps are left at most. -/
def Batch.todo (s : Batch α) : Nat :=
  s.shared.source.length * (2 * s.shared.model.layers.length + 4) + (s.workers.map fun w => w.2.todo s.shared.model.layers.length).sum

theorem step_todo {E : Env α} {t c : Nat} {sh : Shared α} {p : Pc α} {a : Pc α × Shared α × List (Event α)}
    (h : p.step E t c sh = .ok a) (hd : p.isDone = false) :
    a.2.1.model.layers.length = sh.model.layers.length ∧
    a.2.1.source.length * (2 * sh.model.layers.length + 4) + a.1.todo sh.model.layers.length <
      sh.source.length * (2 * sh.model.layers.length + 4) + p.todo sh.model.layers.length := by
  cases p with
  | fetch slot =>
    simp only [Pc.step] at h
    split at h
    · split at h
      · obtain rfl := Res.ok.inj h
        exact ⟨rfl, by simp [Pc.todo]⟩
      · rename_i x rest hs
        obtain ⟨s', _, h⟩ := Res.bind_eq_ok h
        obtain rfl := Res.ok.inj h
        refine ⟨rfl, ?_⟩
        simp only [Pc.todo, hs, List.length_cons, Nat.succ_mul]
        omega
    · obtain rfl := Res.ok.inj h
      exact ⟨rfl, by simp [Pc.todo]⟩
  | done slot => exact absurd hd (by simp [Pc.isDone])
  | forward slot x i s1 =>
    simp only [Pc.step] at h
    split at h
    · obtain ⟨s', hs', h⟩ := Res.bind_eq_ok h
      obtain rfl := Res.ok.inj h
      refine ⟨(forwardStep_label hs').2.2, ?_⟩
      simp only [Pc.todo]
      omega
    · obtain ⟨s', hs', h⟩ := Res.bind_eq_ok h
      obtain rfl := Res.ok.inj h
      refine ⟨rfl, ?_⟩
      simp only [Pc.todo]
      omega
  | label slot x res =>
    simp only [Pc.step] at h
    obtain ⟨s', hs', h⟩ := Res.bind_eq_ok h
    obtain rfl := Res.ok.inj h
    refine ⟨?_, ?_⟩
    · rw [(backwardBegin_inv hs').2.1]; simp
    · simp only [Pc.todo]
      omega
  | backward slot x res k d =>
    cases k with
    | zero =>
      obtain rfl := Res.ok.inj h
      refine ⟨rfl, ?_⟩
      simp only [Pc.todo]
      omega
    | succ i =>
      simp only [Pc.step] at h
      obtain ⟨s', hs', h⟩ := Res.bind_eq_ok h
      obtain rfl := Res.ok.inj h
      refine ⟨(backwardStep_label hs').2.2, ?_⟩
      simp only [Pc.todo]
      omega

theorem sum_set (l : List Nat) (i a : Nat) (h : i < l.length) : (l.set i a).sum + l[i] = l.sum + a := by
  induction l generalizing i with
  | nil => simp at h
  | cons b l ih =>
    cases i with
    | zero => simp; omega
    | succ i =>
      simp only [List.set_cons_succ, List.sum_cons, List.getElem_cons_succ]
      have := ih i (by simpa using h)
      omega

theorem batchStep_todo {E : Env α} {s : Batch α} {t : Nat} {v : Nat × Pc α} {r : Batch α × List (Event α)}
    (hv : s.workers[t]? = some v) (hd : v.2.isDone = false) (hr : s.step E t = .ok r) : r.1.todo < s.todo := by
  unfold Batch.step at hr
  rw [hv] at hr
  simp only at hr
  obtain ⟨a, ha, hr⟩ := Res.bind_eq_ok hr
  obtain rfl := Res.ok.inj hr
  have ha := terminate_ok ha
  obtain ⟨h1, h2⟩ := step_todo ha hd
  have ht : t < s.workers.length := (List.getElem?_eq_some_iff.1 hv).1
  have hvt : s.workers[t] = v := (List.getElem?_eq_some_iff.1 hv).2
  unfold Batch.todo
  simp only [h1, List.map_set]
  have := sum_set (s.workers.map fun w => w.2.todo s.shared.model.layers.length) t (a.1.todo s.shared.model.layers.length)
    (by simpa using ht)
  simp only [List.getElem_map, hvt] at this
  omega

/-- A batch can come to its end. -/
theorem run_ends {E : Env α} {M0 : Model α} {T B w : Nat} {src0 : List (Sample α)} (hR : Runs E M0 B (src0.take B)) (hM0 : M0.Ready) :
    ∀ (n : Nat) {s : Batch α} {evs : List (Event α)}, s.todo ≤ n → GInv E M0 s evs → BInv T B w src0 s evs → PInv M0 (src0.take B) s evs →
      ∃ sched r, s.run E sched = .ok r ∧ r.1.over = true := by
  intro n
  induction n with
  | zero =>
    intro s evs hn _ _ _
    refine ⟨[], _, rfl, ?_⟩
    rw [Batch.over, List.all_eq_true]
    intro v hv
    obtain ⟨t, ht⟩ := List.mem_iff_getElem?.1 hv
    have hsum : v.2.todo s.shared.model.layers.length ≤ (s.workers.map fun w => w.2.todo s.shared.model.layers.length).sum :=
      List.single_le_sum (by simp) _ (List.mem_map.2 ⟨v, hv, rfl⟩)
    unfold Batch.todo at hn
    have : v.2.todo s.shared.model.layers.length = 0 := by omega
    obtain ⟨c, p⟩ := v
    cases p <;> simp [Pc.todo] at this ⊢
  | succ n ih =>
    intro s evs hn hG hB hP
    by_cases ho : s.over = true
    · exact ⟨[], _, rfl, ho⟩
    · have : ∃ v ∈ s.workers, v.2.isDone = false := by
        rw [Batch.over, List.all_eq_true] at ho
        push Not at ho
        obtain ⟨v, hv, hd⟩ := ho
        refine ⟨v, hv, ?_⟩
        obtain ⟨c, p⟩ := v
        cases p <;> simp [Pc.isDone] at hd ⊢
      obtain ⟨v, hv, hd⟩ := this
      obtain ⟨t, ht⟩ := List.mem_iff_getElem?.1 hv
      obtain ⟨a, ha⟩ := step_ok hR hG hB hP t
      have hlt := batchStep_todo ht hd ha
      obtain ⟨sched, b, hb, hbo⟩ := ih (by omega) (hG.step hM0 hB ha) (hB.step ha) (hP.step hG hB ha)
      exact ⟨t :: sched, (b.1, a.2 ++ b.2), by rw [Batch.run, ha, Res.bind_ok, hb, Res.bind_ok], hbo⟩

end Train
end Cnn
