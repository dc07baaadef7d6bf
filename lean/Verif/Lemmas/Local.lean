import Verif.Lemmas.Scan
import Verif.Lemmas.ShapeModel
import Mathlib.Tactic.Ring
/-! Helper lemmas: entries of the data after some layers are determined by a rectangle of the input (C102). -/
set_option linter.unusedSectionVars false
namespace Cnn
variable {α : Type} [Zero α] [One α] [Add α] [Sub α] [Mul α] [Div α] [Neg α]

theorem sumTo2_congr {A B : Nat} {t u : Nat → Nat → α} (h : ∀ a < A, ∀ b < B, t a b = u a b) : sumTo2 A B t = sumTo2 A B u := by
  unfold sumTo2
  refine List.foldl_ext _ _ _ fun s a ha => List.foldl_ext _ _ _ fun s b hb => ?_
  rw [h a (List.mem_range.1 ha) b (List.mem_range.1 hb)]

/-- Two results of a layer agree wherever the windows do. -/
def LayerKind.Agree (k : LayerKind) (s s' : Shape) (x x' : Nat → Nat → Nat → α) (Y Y' : Matrix α) : Prop :=
  ∃ y y', Y.Shows (k.out s).X (k.out s).Y (k.out s).Z y ∧ Y'.Shows (k.out s').X (k.out s').Y (k.out s').Z y' ∧
    ∀ i < (k.out s).X, ∀ j < (k.out s).Y, ∀ i' < (k.out s').X, ∀ j' < (k.out s').Y, SameField k.field s.Z x x' i j i' j' →
      ∀ f < (k.out s).Z, y i j f = y' i' j' f

theorem Kernel.slides_pair {K : Kernel α} {A B C F : Nat} {w : Nat → Nat → Nat → α} {β : Nat → α} (hK : K.Is A B C F 1 w β) {s s' : Shape}
    (hs : (LayerKind.conv A B C F).Slides s.X s.Y s.Z) (hs' : (LayerKind.conv A B C F).Slides s'.X s'.Y s'.Z) {M M' : Matrix α}
    {x x' : Nat → Nat → Nat → α} (hM : M.Shows s.X s.Y s.Z x) (hM' : M'.Shows s'.X s'.Y s'.Z x') :
    ∃ Y Y', K.forward M = .ok Y ∧ K.forward M' = .ok Y' ∧ (LayerKind.conv A B C F).Agree s s' x x' Y Y' := by
  obtain ⟨hZ, _, _, hf⟩ := hs
  obtain ⟨hZ', _, _, hf'⟩ := hs'
  rw [hZ] at hM
  rw [hZ'] at hM'
  obtain ⟨o, e, ho⟩ := Kernel.forward_shows hK hM hf
  obtain ⟨o', e', ho'⟩ := Kernel.forward_shows hK hM' hf'
  refine ⟨o, o', e, e', _, _, ho, ho', ?_⟩
  intro i _ j _ i' _ j' _ hw f _
  have : sumTo C (fun c => sumTo2 A B (fun a b => x (i + a) (j + b) c * w a b (f * C + c))) =
      sumTo C (fun c => sumTo2 A B (fun a b => x' (i' + a) (j' + b) c * w a b (f * C + c))) := by
    refine sumTo_congr fun c hc => sumTo2_congr fun a ha b hb => ?_
    have := hw a ha b hb c (by omega)
    simp only [LayerKind.field, mul_one] at this
    rw [this]
  exact congrArg (· + β f) this

theorem Pooling.slides_pair (N : Num α) {P : Pooling} {t : PoolType} {px py sx sy b b' : Nat} (hd : P.dim = ⟨px, py⟩) (hst : P.stride = ⟨sx, sy⟩)
    (hb : b < P.indices.length) (hb' : b' < P.indices.length) {s s' : Shape}
    (hs : PoolFits s.X s.Y px py sx sy) (hs' : PoolFits s'.X s'.Y px py sx sy) {M M' : Matrix α}
    {x x' : Nat → Nat → Nat → α} (hM : M.Shows s.X s.Y s.Z x) (hM' : M'.Shows s'.X s'.Y s'.Z x') :
    ∃ Y Y' P1 P1', P.forward N M b = .ok (Y, P1) ∧ P.forward N M' b' = .ok (Y', P1') ∧ (LayerKind.pool t px py sx sy).Agree s s' x x' Y Y' := by
  by_cases hav : P.type = .avg
  · obtain ⟨o, ind, e, ho⟩ := Pooling.forward_avg_ordered N P M x b hM hd hst hs hb hav
    obtain ⟨o', ind', e', ho'⟩ := Pooling.forward_avg_ordered N P M' x' b' hM' hd hst hs' hb' hav
    refine ⟨o, o', _, _, e, e', _, _, ho, ho', ?_⟩
    intro i _ j _ i' _ j' _ hw f hf
    have : sumTo (px * py) (fun n => x (i * sx + n % px) (j * sy + n / px) f) = sumTo (px * py) (fun n => x' (i' * sx + n % px) (j' * sy + n / px) f) :=
      sumTo_congr fun n hn => hw (n % px) (Nat.mod_lt _ hs.px0) (n / px) (Nat.div_lt_of_lt_mul hn) f hf
    simp only [this]
  · obtain ⟨o, ind, p, e, hp, ho, _⟩ := Pooling.forward_scan N P M x b hM hd hst hs hb hav
    obtain ⟨o', ind', p', e', hp', ho', _⟩ := Pooling.forward_scan N P M' x' b' hM' hd hst hs' hb' hav
    refine ⟨o, o', _, _, e, e', _, _, ho, ho', ?_⟩
    intro i _ j _ i' _ j' _ hw f hf
    have hn0 : 0 < px * py := Nat.mul_pos hs.px0 hs.py0
    have hpp : p i j f = p' i' j' f := by
      rw [hp, hp']
      exact (scan_congr _ fun n hn => hw (n % px) (Nat.mod_lt _ hs.px0) (n / px) (Nat.div_lt_of_lt_mul hn) f hf).1
    have hl : p i j f < px * py := by rw [hp]; exact scan_lt _ _ hn0
    have := hw (p i j f % px) (Nat.mod_lt _ hs.px0) (p i j f / px) (Nat.div_lt_of_lt_mul hl) f hf
    simp only [← hpp]
    exact this

theorem Activation.slides_pair (N : Num α) (A : Activation) (g : ActFn) {s s' : Shape} {M M' : Matrix α}
    {x x' : Nat → Nat → Nat → α} (hM : M.Shows s.X s.Y s.Z x) (hM' : M'.Shows s'.X s'.Y s'.Z x') :
    ∃ Y Y', A.forward N M = .ok Y ∧ A.forward N M' = .ok Y' ∧ (LayerKind.act g).Agree s s' x x' Y Y' := by
  obtain ⟨o, e, ho⟩ := Matrix.ofExpr_shows (MExpr.un_shows (A.fn.eval N) hM.expr) (id : α → α)
  obtain ⟨o', e', ho'⟩ := Matrix.ofExpr_shows (MExpr.un_shows (A.fn.eval N) hM'.expr) (id : α → α)
  refine ⟨o, o', e, e', _, _, ho, ho', ?_⟩
  intro i _ j _ i' _ j' _ hw f hf
  have := hw 0 Nat.one_pos 0 Nat.one_pos f hf
  simp only [LayerKind.field, mul_one, add_zero] at this
  simp only [this]

/-- One layer on two inputs. -/
theorem Body.slides_pair (N : Num α) (d : Nat → α) {b b' : Nat} {body : Body α} {k : LayerKind} (h : body.Slides b k) (h' : body.Slides b' k)
    {s s' : Shape} (hz : s.Z = s'.Z) (hs : k.Slides s.X s.Y s.Z) (hs' : k.Slides s'.X s'.Y s'.Z) {M M' : Matrix α} {x x' : Nat → Nat → Nat → α}
    (hM : M.Shows s.X s.Y s.Z x) (hM' : M'.Shows s'.X s'.Y s'.Z x') :
    ∃ Y B Y' B', body.forward N d M b = .ok (Y, B) ∧ body.forward N d M' b' = .ok (Y', B') ∧ (k.out s).Z = (k.out s').Z ∧ k.Agree s s' x x' Y Y' := by
  cases body with
  | kernel K =>
    cases k with
    | conv A B C F =>
      obtain ⟨w, β, hK⟩ := h
      obtain ⟨Y, Y', e, e', ha⟩ := Kernel.slides_pair hK hs hs' hM hM'
      exact ⟨Y, .kernel K, Y', .kernel K, by unfold forward; dsimp only; rw [e]; rfl, by unfold forward; dsimp only; rw [e']; rfl, rfl, ha⟩
    | pool | full | act => exact absurd h id
  | pooling P =>
    cases k with
    | pool t px py sx sy =>
      obtain ⟨ht, hd, hst, hb⟩ := h
      obtain ⟨_, _, _, hb'⟩ := h'
      obtain ⟨Y, Y', P1, P1', e, e', ha⟩ := Pooling.slides_pair N (t := t) hd hst hb hb' hs hs' hM hM'
      exact ⟨Y, .pooling P1, Y', .pooling P1', by unfold forward; dsimp only; rw [e]; rfl, by unfold forward; dsimp only; rw [e']; rfl, hz, ha⟩
    | conv | full | act => exact absurd h id
  | activation A =>
    cases k with
    | act g =>
      obtain ⟨Y, Y', e, e', ha⟩ := Activation.slides_pair N A g hM hM'
      exact ⟨Y, .activation A, Y', .activation A, by unfold forward; dsimp only; rw [e]; rfl, by unfold forward; dsimp only; rw [e']; rfl, hz, ha⟩
    | conv | full | pool => exact absurd h id
  | connected L => exact absurd h id
  | softmax S => exact absurd h id

theorem SameField.after {f : Field} {k : LayerKind} {Z : Nat} {x x' : Nat → Nat → Nat → α} {i j i' j' : Nat} (h : SameField (f.after k) Z x x' i j i' j')
    {a c : Nat} (ha : a < k.field.w) (hc : c < k.field.h) : SameField f Z x x' (i * k.field.sx + a) (j * k.field.sy + c) (i' * k.field.sx + a) (j' * k.field.sy + c) := by
  intro p hp q hq z hz
  have e : ∀ (i s t a p : Nat), (i * s + a) * t + p = i * (s * t) + (a * t + p) := fun i s t a p => by ring
  have m : ∀ {a w t : Nat}, a < w → a * t ≤ (w - 1) * t := fun h => Nat.mul_le_mul_right _ (by omega)
  rw [e, e, e, e]
  have h1 := m (t := f.sx) ha
  have h2 := m (t := f.sy) hc
  exact h (a * f.sx + p) (by simp only [Field.after]; omega) (c * f.sy + q) (by simp only [Field.after]; omega) z hz

/-- The window of an output lies inside the input. -/
theorem LayerKind.reads {k : LayerKind} {s : Shape} (h : k.Slides s.X s.Y s.Z) {i j a c : Nat} (hi : i < (k.out s).X) (hj : j < (k.out s).Y)
    (ha : a < k.field.w) (hc : c < k.field.h) : i * k.field.sx + a < s.X ∧ j * k.field.sy + c < s.Y := by
  cases k with
  | conv A B C F =>
    have h1 := h.2.2.2.x
    have h2 := h.2.2.2.y
    simp only [out, field] at *
    omega
  | pool t px py sx sy =>
    have hf : PoolFits s.X s.Y px py sx sy := h
    have h1 := windows_inside hf.x hi
    have h2 := windows_inside hf.y hj
    simp only [field] at *
    omega
  | full n => exact absurd h id
  | act f =>
    simp only [out, field] at *
    omega

theorem LayerKind.field_pos {k : LayerKind} {X Y Z : Nat} (h : k.Slides X Y Z) : 0 < k.field.w ∧ 0 < k.field.h := by
  cases k with
  | conv A B C F => exact ⟨h.2.1, h.2.2.1⟩
  | pool t px py sx sy =>
    have hf : PoolFits X Y px py sx sy := h
    exact ⟨hf.px0, hf.py0⟩
  | full n => exact absurd h id
  | act f => exact ⟨Nat.one_pos, Nat.one_pos⟩

theorem KindsSlide.at {s : Shape} {ks : List LayerKind} (h : KindsSlide ks s) {i : Nat} {k : LayerKind} (hk : ks[i]? = some k) :
    k.Slides (shapeAt ks s i).X (shapeAt ks s i).Y (shapeAt ks s i).Z := by
  induction ks generalizing s i with
  | nil => simp at hk
  | cons a ks ih =>
    cases i with
    | zero =>
      obtain rfl : a = k := by simpa using hk
      simpa [shapeAt, kindsOut] using h.1
    | succ i =>
      have := ih h.2 (by simpa using hk)
      simpa [shapeAt, kindsOut] using this

theorem field_snoc (ks : List LayerKind) (k : LayerKind) : field (ks ++ [k]) = (field ks).after k := by simp [field, List.foldl_append]

theorem field_size_pos (ks : List LayerKind) (m : Nat) : 0 < (field (ks.take m)).w ∧ 0 < (field (ks.take m)).h := by
  induction m with
  | zero => simp [field]
  | succ m ih =>
    rw [List.take_add_one]
    cases hk : ks[m]? with
    | none => simpa using ih
    | some k =>
      rw [Option.toList_some, field_snoc]
      simp only [Field.after]
      omega

/-- The rectangle of an output lies inside the input. -/
theorem KindsSlide.reads {s : Shape} {ks : List LayerKind} (h : KindsSlide ks s) {m : Nat} (hm : m ≤ ks.length) {i j a c : Nat}
    (hi : i < (shapeAt ks s m).X) (hj : j < (shapeAt ks s m).Y) (ha : a < (field (ks.take m)).w) (hc : c < (field (ks.take m)).h) :
    i * (field (ks.take m)).sx + a < s.X ∧ j * (field (ks.take m)).sy + c < s.Y := by
  induction m generalizing i j a c with
  | zero =>
    simp only [shapeAt, List.take_zero, kindsOut, field, List.foldl_nil] at *
    omega
  | succ m ih =>
    obtain ⟨k, hk⟩ : ∃ k, ks[m]? = some k := ⟨_, List.getElem?_eq_getElem (by omega)⟩
    rw [List.take_add_one, hk, Option.toList_some, field_snoc] at ha hc ⊢
    rw [shapeAt_succ hk] at hi hj
    have hs := h.at hk
    obtain ⟨w0, h0⟩ := LayerKind.field_pos hs
    obtain ⟨r1, r2⟩ := LayerKind.reads hs hi hj (Nat.sub_lt w0 Nat.one_pos) (Nat.sub_lt h0 Nat.one_pos)
    have e : ∀ (i s t a : Nat), (i * s + a) * t = i * (s * t) + a * t := fun i s t a => by ring
    simp only [Field.after] at ha hc ⊢
    generalize hf : field (ks.take m) = f at *
    have pw : 0 < f.w ∧ 0 < f.h := by
      rw [← hf]
      exact field_size_pos ks m
    obtain ⟨q1, q2⟩ := ih (by omega) r1 r2 (Nat.sub_lt pw.1 Nat.one_pos) (Nat.sub_lt pw.2 Nat.one_pos)
    rw [e] at q1 q2
    omega

namespace Model

/-- The later layers only append to the records. -/
theorem forwardStep_keep (E : Env α) (b : Nat) (l : List Nat) {s t : (Matrix α × List (Matrix α)) × Model α} (h : l.foldlM (forwardStep E b) s = .ok t) :
    ∃ more, t.1.2 = s.1.2 ++ more := by
  induction l generalizing s with
  | nil =>
    obtain rfl : s = t := by simpa using h
    exact ⟨[], by simp⟩
  | cons i l ih =>
    rw [List.foldlM_cons] at h
    obtain ⟨u, hu, h⟩ := Res.bind_eq_ok h
    obtain ⟨more, hm⟩ := ih h
    unfold forwardStep at hu
    obtain ⟨r, _, hu⟩ := Res.bind_eq_ok hu
    obtain ⟨R, _, hu⟩ := Res.bind_eq_ok hu
    obtain rfl := Res.ok.inj hu
    exact ⟨[R] ++ more, by rw [hm]; simp⟩

/-- The state of two passes after `m` of the layers. -/
structure Alike (M : Model α) (s s' : Shape) (ks : List LayerKind) (x x' : Nat → Nat → Nat → α) (m : Nat) (t t' : (Matrix α × List (Matrix α)) × Model α) : Prop where
  depth : (shapeAt ks s m).Z = (shapeAt ks s' m).Z
  len : t.1.2.length = m + 1
  len' : t'.1.2.length = m + 1
  rest : ∀ j, m ≤ j → t.2.bodyAt j = M.bodyAt j
  rest' : ∀ j, m ≤ j → t'.2.bodyAt j = M.bodyAt j
  data : ∃ y y', t.1.1.Shows (shapeAt ks s m).X (shapeAt ks s m).Y (shapeAt ks s m).Z y ∧
    t'.1.1.Shows (shapeAt ks s' m).X (shapeAt ks s' m).Y (shapeAt ks s' m).Z y' ∧
    ∀ i < (shapeAt ks s m).X, ∀ j < (shapeAt ks s m).Y, ∀ i' < (shapeAt ks s' m).X, ∀ j' < (shapeAt ks s' m).Y,
      SameField (field (ks.take m)) s.Z x x' i j i' j' → ∀ f < (shapeAt ks s m).Z, y i j f = y' i' j' f

/-- The records of the data after `m` layers. -/
def AlikeRecords (s s' : Shape) (ks : List LayerKind) (x x' : Nat → Nat → Nat → α) (m : Nat) (rec rec' : List (Matrix α)) : Prop :=
  ∃ R R' y y', rec[m]? = some R ∧ rec'[m]? = some R' ∧ R.Shows (shapeAt ks s m).X (shapeAt ks s m).Y (shapeAt ks s m).Z y ∧
    R'.Shows (shapeAt ks s' m).X (shapeAt ks s' m).Y (shapeAt ks s' m).Z y' ∧
    ∀ i < (shapeAt ks s m).X, ∀ j < (shapeAt ks s m).Y, ∀ i' < (shapeAt ks s' m).X, ∀ j' < (shapeAt ks s' m).Y,
      SameField (field (ks.take m)) s.Z x x' i j i' j' → ∀ f < (shapeAt ks s m).Z, y i j f = y' i' j' f

/-- Both passes get through the layers that slide a window. -/
theorem slide_steps (E : Env α) (M : Model α) {b b' : Nat} {s s' : Shape} {ks : List LayerKind} (hz : s.Z = s'.Z)
    (hb : ∀ (i : Nat) (k : LayerKind), ks[i]? = some k → ∃ B, M.bodyAt i = some B ∧ B.Slides b k ∧ B.Slides b' k)
    (hs : KindsSlide ks s)
    (hs' : KindsSlide ks s')
    {X X' : Matrix α} {x x' : Nat → Nat → Nat → α} (hX : X.Shows s.X s.Y s.Z x) (hX' : X'.Shows s'.X s'.Y s'.Z x') :
    ∃ t0 t0', forwardBegin E X = .ok t0 ∧ forwardBegin E X' = .ok t0' ∧ ∀ m ≤ ks.length,
      ∃ t t', (List.range m).foldlM (forwardStep E b) (t0, M) = .ok t ∧ (List.range m).foldlM (forwardStep E b') (t0', M) = .ok t' ∧
        Alike M s s' ks x x' m t t' ∧ AlikeRecords s s' ks x x' m t.1.2 t'.1.2 := by
  obtain ⟨A, e1, h1⟩ := Matrix.ofExpr_shows hX.expr (id : α → α)
  obtain ⟨R, e2, h2⟩ := Matrix.ofExpr_shows h1.expr E.toFloat
  obtain ⟨A', e1', h1'⟩ := Matrix.ofExpr_shows hX'.expr (id : α → α)
  obtain ⟨R', e2', h2'⟩ := Matrix.ofExpr_shows h1'.expr E.toFloat
  refine ⟨(A, [R]), (A', [R']), by unfold forwardBegin record; rw [e1, Res.bind_ok, e2, Res.bind_ok],
    by unfold forwardBegin record; rw [e1', Res.bind_ok, e2', Res.bind_ok], ?_⟩
  intro m
  induction m with
  | zero =>
    intro _
    have key : ∀ i j i' j', SameField (field (ks.take 0)) s.Z x x' i j i' j' → ∀ f < s.Z, x i j f = x' i' j' f := by
      intro i j i' j' h f hf
      have := h 0 Nat.one_pos 0 Nat.one_pos f hf
      simpa [field] using this
    refine ⟨_, _, rfl, rfl, ⟨hz, rfl, rfl, fun _ _ => rfl, fun _ _ => rfl, _, _, h1, h1', ?_⟩, R, R', _, _, rfl, rfl, h2, h2', ?_⟩
    · intro i _ j _ i' _ j' _ h f hf
      exact key i j i' j' h f hf
    · intro i _ j _ i' _ j' _ h f hf
      exact congrArg E.toFloat (key i j i' j' h f hf)
  | succ m ih =>
    intro hm
    obtain ⟨t, t', et, et', ha, _⟩ := ih (by omega)
    obtain ⟨k, hk⟩ : ∃ k, ks[m]? = some k := ⟨_, List.getElem?_eq_getElem (by omega)⟩
    obtain ⟨B, hB, hsl, hsl'⟩ := hb m k hk
    obtain ⟨y, y', hy, hy', hyy⟩ := ha.data
    obtain ⟨Y, B1, Y', B1', f1, f1', hz1, v, v', hv, hv', hvv⟩ := Body.slides_pair E.num (E.draws m) hsl hsl' ha.depth (hs.at hk) (hs'.at hk) hy hy'
    rw [← shapeAt_succ hk] at hv hvv hz1
    rw [← shapeAt_succ hk] at hv' hvv hz1
    obtain ⟨R, g2, hR⟩ := Matrix.ofExpr_shows hv.expr E.toFloat
    obtain ⟨R', g2', hR'⟩ := Matrix.ofExpr_shows hv'.expr E.toFloat
    have step : ∀ (c : Nat) (u : (Matrix α × List (Matrix α)) × Model α) (Y : Matrix α) (B1 : Body α) (R : Matrix α), u.2.bodyAt m = some B →
        B.forward E.num (E.draws m) u.1.1 c = .ok (Y, B1) → Matrix.ofExpr E.toFloat Y.expr = .ok R →
        forwardStep E c u m = .ok ((Y, u.1.2 ++ [R]), u.2.setBody m B1) := by
      intro c u Y B1 R hu hf hR
      unfold bodyAt at hu
      rw [Option.map_eq_some_iff] at hu
      obtain ⟨L, hL, rfl⟩ := hu
      unfold forwardStep forwardLayer record
      rw [hL]
      show (((Res.ok L >>= fun l => _) >>= fun r => _ : Res _)) = _
      rw [Res.bind_ok, hf, Res.bind_ok, Res.bind_ok, hR, Res.bind_ok]
    have key : ∀ i < (shapeAt ks s (m + 1)).X, ∀ j < (shapeAt ks s (m + 1)).Y, ∀ i' < (shapeAt ks s' (m + 1)).X, ∀ j' < (shapeAt ks s' (m + 1)).Y,
        SameField (field (ks.take (m + 1))) s.Z x x' i j i' j' → ∀ f < (shapeAt ks s (m + 1)).Z, v i j f = v' i' j' f := by
      intro i hi j hj i' hi' j' hj' h
      refine hvv i hi j hj i' hi' j' hj' ?_
      rw [List.take_add_one, hk, Option.toList_some, field_snoc] at h
      intro a ha' c hc
      obtain ⟨r1, r2⟩ := LayerKind.reads (hs.at hk) (shapeAt_succ hk ▸ hi) (shapeAt_succ hk ▸ hj) ha' hc
      obtain ⟨r1', r2'⟩ := LayerKind.reads (hs'.at hk) (shapeAt_succ hk ▸ hi') (shapeAt_succ hk ▸ hj') ha' hc
      exact hyy _ r1 _ r2 _ r1' _ r2' (h.after ha' hc)
    refine ⟨_, _, by rw [List.range_succ, List.foldlM_append, et, Res.bind_ok, List.foldlM_cons, step b t Y B1 R ((ha.rest m le_rfl).trans hB) f1 g2]; rfl,
      by rw [List.range_succ, List.foldlM_append, et', Res.bind_ok, List.foldlM_cons, step b' t' Y' B1' R' ((ha.rest' m le_rfl).trans hB) f1' g2']; rfl,
      ⟨hz1, by simp [ha.len], by simp [ha.len'], ?_, ?_, v, v', hv, hv', key⟩, R, R', _, _, ?_, ?_, hR, hR', ?_⟩
    · intro j hj
      rw [setBody_bodyAt, if_neg (by omega)]
      exact ha.rest j (by omega)
    · intro j hj
      rw [setBody_bodyAt, if_neg (by omega)]
      exact ha.rest' j (by omega)
    · simp [← ha.len]
    · simp [← ha.len']
    · intro i hi j hj i' hi' j' hj' h f hf
      exact congrArg E.toFloat (key i hi j hj i' hi' j' hj' h f hf)

end Model
end Cnn
