import Verif.Spec.Network
import Verif.Lemmas.Shows
import Verif.Lemmas.Expr
/-! Helper lemmas about propagation through a model. -/
namespace Cnn
namespace Model
variable {α : Type} [Zero α] [One α] [Add α] [Sub α] [Mul α] [Div α] [Neg α]

/-- The model with the states of the first `n` layers replaced. -/
def upTo (M : Model α) (bodies : Nat → Body α) (n : Nat) : Model α :=
  { M with layers := M.layers.mapIdx (fun i l => if i < n then { l with body := bodies i } else l) }

omit [Zero α] [One α] [Add α] [Sub α] [Mul α] [Div α] [Neg α] in
theorem upTo_zero (M : Model α) (bodies : Nat → Body α) : M.upTo bodies 0 = M := by
  have : M.layers.mapIdx (fun i l => if i < 0 then { l with body := bodies i } else l) = M.layers := by
    apply List.ext_getElem?
    intro i
    rw [List.getElem?_mapIdx]
    simp
  unfold upTo
  rw [this]

omit [Zero α] [One α] [Add α] [Sub α] [Mul α] [Div α] [Neg α] in
theorem upTo_all (M : Model α) (bodies : Nat → Body α) : M.upTo bodies M.layers.length = M.withBodies bodies := by
  unfold upTo withBodies
  congr 1
  apply List.ext_getElem?
  intro i
  rw [List.getElem?_mapIdx, List.getElem?_mapIdx]
  by_cases h : i < M.layers.length
  · simp [h]
  · rw [List.getElem?_eq_none (by omega)]; rfl

omit [Zero α] [One α] [Add α] [Sub α] [Mul α] [Div α] [Neg α] in
theorem upTo_congr (M : Model α) (b c : Nat → Body α) (n : Nat) (h : ∀ i < n, b i = c i) : M.upTo b n = M.upTo c n := by
  unfold upTo
  congr 1
  apply List.ext_getElem?
  intro i
  rw [List.getElem?_mapIdx, List.getElem?_mapIdx]
  congr 1
  funext l
  by_cases hi : i < n
  · simp [hi, h i hi]
  · simp [hi]

omit [Zero α] [One α] [Add α] [Sub α] [Mul α] [Div α] [Neg α] in
theorem upTo_get (M : Model α) (bodies : Nat → Body α) (n : Nat) : (M.upTo bodies n).layers[n]? = M.layers[n]? := by
  simp only [upTo]
  rw [List.getElem?_mapIdx]
  simp

omit [Zero α] [One α] [Add α] [Sub α] [Mul α] [Div α] [Neg α] in
theorem upTo_set (M : Model α) (bodies : Nat → Body α) (n : Nat) :
    (M.upTo bodies n).setBody n (bodies n) = M.upTo bodies (n + 1) := by
  simp only [upTo, setBody]
  congr 1
  apply List.ext_getElem?
  intro i
  rw [List.getElem?_modify, List.getElem?_mapIdx, List.getElem?_mapIdx]
  rcases M.layers[i]? with _ | l
  · simp
  · by_cases h : n = i
    · subst h; simp
    · have : (i < n + 1) ↔ i < n := by omega
      by_cases h2 : i < n <;> simp [h, this, h2]

/-- The loop over the first `n` layers, if all of them and all conversions succeed. -/
theorem forward_fold {E : Env α} {M : Model α} {b : Nat} {outs recs : Nat → Matrix α} {bodies : Nat → Body α}
    (hl : ∀ (i : Nat) (l : Layer α), M.layers[i]? = some l → l.body.forward E.num (E.draws i) (outs i) b = .ok (outs (i + 1), bodies i))
    (n : Nat) (hn : n ≤ M.layers.length) (hr : ∀ i, 1 ≤ i → i ≤ n → record E (outs i) = .ok (recs i)) :
    (List.range n).foldlM (forwardStep E b) ((outs 0, [recs 0]), M) =
      .ok ((outs n, (List.range (n + 1)).map recs), M.upTo bodies n) := by
  induction n with
  | zero => simp [upTo_zero]
  | succ n ih =>
    rw [List.range_succ, List.foldlM_append, ih (by omega) (fun i h1 h2 => hr i h1 (by omega))]
    have hg : M.layers[n]? = some M.layers[n] := List.getElem?_eq_getElem (by omega)
    simp only [Res.bind_ok, List.foldlM_cons, List.foldlM_nil, forwardStep, forwardLayer, upTo_get, hg, Res.ofOption_some,
      hl n _ hg, hr (n + 1) (by omega) (by omega), Res.pure_eq, upTo_set]
    rw [List.range_succ (n := n + 1), List.map_append]
    rfl

/-- Conversely a loop that succeeds has called all layers with success. -/
theorem forward_fold_inv {E : Env α} {M : Model α} {b : Nat} {A R : Matrix α} (n : Nat) (hn : n ≤ M.layers.length)
    {s : (Matrix α × List (Matrix α)) × Model α}
    (h : (List.range n).foldlM (forwardStep E b) ((A, [R]), M) = .ok s) :
    ∃ (outs recs : Nat → Matrix α) (bodies : Nat → Body α), outs 0 = A ∧ recs 0 = R ∧
      (∀ i < n, ∀ l, M.layers[i]? = some l → l.body.forward E.num (E.draws i) (outs i) b = .ok (outs (i + 1), bodies i)) ∧
      (∀ i, 1 ≤ i → i ≤ n → record E (outs i) = .ok (recs i)) ∧
      s = ((outs n, (List.range (n + 1)).map recs), M.upTo bodies n) := by
  induction n generalizing s with
  | zero =>
    refine ⟨fun _ => A, fun _ => R, fun _ => .softmax (Softmax.new 0), rfl, rfl, by omega, by omega, ?_⟩
    rw [upTo_zero]
    exact (Res.ok.inj h).symm
  | succ n ih =>
    rw [List.range_succ, List.foldlM_append] at h
    obtain ⟨t, ht, h⟩ := Res.bind_eq_ok h
    obtain ⟨outs, recs, bodies, h0, h1, h2, h3, rfl⟩ := ih (by omega) ht
    have hg : M.layers[n]? = some M.layers[n] := List.getElem?_eq_getElem (by omega)
    simp only [List.foldlM_cons, List.foldlM_nil, forwardStep, forwardLayer, upTo_get, hg, Res.ofOption_some,
      Res.bind_ok, Res.pure_eq] at h
    obtain ⟨q, hq, h⟩ := Res.bind_eq_ok h
    obtain ⟨u, hu, hq⟩ := Res.bind_eq_ok hq
    obtain ⟨v, hv, hu⟩ := Res.bind_eq_ok hu
    obtain ⟨w, hw, hq⟩ := Res.bind_eq_ok hq
    obtain rfl := Res.ok.inj hu
    obtain rfl := Res.ok.inj hq
    obtain rfl := Res.ok.inj h
    refine ⟨fun i => if i ≤ n then outs i else v.1, fun i => if i ≤ n then recs i else w,
      fun i => if i < n then bodies i else v.2, by simp [h0], by simp [h1], ?_, ?_, ?_⟩
    · intro i hi l hl
      by_cases h : i < n
      · simpa [h.le, h, Nat.succ_le_of_lt h] using h2 i h l hl
      · obtain rfl : i = n := by omega
        rw [hg] at hl
        obtain rfl := Option.some.inj hl
        simpa using hv
    · intro i hi1 hi2
      by_cases h : i ≤ n
      · simpa [h] using h3 i hi1 h
      · obtain rfl : i = n + 1 := by omega
        simpa using hw
    · have e : M.upTo bodies n = M.upTo (fun i => if i < n then bodies i else v.2) n :=
        upTo_congr _ _ _ _ (fun i hi => by simp [hi])
      have e2 := upTo_set M (fun i => if i < n then bodies i else v.2) n
      rw [← e] at e2
      simp only [lt_self_iff_false, if_false] at e2
      rw [← e2]
      refine Prod.ext (Prod.ext ?_ ?_) rfl
      · simp
      · rw [List.range_succ (n := n + 1), List.map_append]
        simp only [List.map_cons, List.map_nil, Nat.not_succ_le_self, if_false]
        congr 1
        refine List.map_congr_left ?_
        intro i hi
        rw [List.mem_range] at hi
        rw [if_pos (by omega)]

omit [Zero α] [Add α] [Sub α] [Mul α] [Div α] in
theorem forwardEnd_inv {E : Env α} {M : Model α} {A : Matrix α} {rec : List (Matrix α)} {r : Results α}
    (h : forwardEnd E M A rec = .ok r) : Matrix.sizeD A.dim = .ok M.labels.length ∧
      ∃ i c, MExpr.maxIndexFlat E.num.lt A.expr = .ok i ∧ A.flat i = .ok c ∧ r = ⟨none, i, none, -1, E.toFloat c, rec⟩ := by
  unfold forwardEnd at h
  obtain ⟨n, hn, h⟩ := Res.bind_eq_ok h
  by_cases hnl : n = M.labels.length
  · rw [if_neg (by simpa using hnl)] at h
    obtain ⟨m, hm, h⟩ := Res.bind_eq_ok h
    obtain ⟨c, hc, h⟩ := Res.bind_eq_ok h
    exact ⟨hnl ▸ hn, m, c, hm, hc, (Res.ok.inj h).symm⟩
  · rw [if_pos hnl] at h
    exact absurd h (by simp)

omit [Zero α] [Add α] [Sub α] [Mul α] [Div α] in
theorem forwardEnd_eq {E : Env α} {M : Model α} {A : Matrix α} {rec : List (Matrix α)} {i : Nat} {c : α}
    (hn : Matrix.sizeD A.dim = .ok M.labels.length) (hi : MExpr.maxIndexFlat E.num.lt A.expr = .ok i)
    (hc : A.flat i = .ok c) : forwardEnd E M A rec = .ok ⟨none, i, none, -1, E.toFloat c, rec⟩ := by
  unfold forwardEnd
  rw [hn, Res.bind_ok, if_neg (by simp), hi, Res.bind_ok, hc, Res.bind_ok]

omit [Zero α] [Add α] [Sub α] [Mul α] [Div α] in
theorem forwardEnd_abort {E : Env α} {M : Model α} {A : Matrix α} {rec : List (Matrix α)} {n : Nat}
    (hn : Matrix.sizeD A.dim = .ok n) (h : n ≠ M.labels.length) : forwardEnd E M A rec = .abort := by
  unfold forwardEnd
  rw [hn, Res.bind_ok, if_pos h]

end Model
end Cnn
