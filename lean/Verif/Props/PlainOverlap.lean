import Verif.Lemmas.Sources
import Verif.Props.Dark
import Verif.Props.OffUnits
import Verif.Props.Overlap
import Verif.Props.PlainTwins
/-!
# Properties C105, C106 and C108 with calls of layers that overlap in time, in any arithmetic
-/
namespace Cnn
namespace Overlap
open Train Model
variable {α : Type} [Zero α] [One α] [Add α] [Sub α] [Mul α] [Div α] [Neg α]

/-- C106 with calls that overlap in time, without any law of arithmetic. -/
theorem C106_overlap_any (E : Env α) (hE : E.order = .dimsFirst) (p : Hyper α) (B T : Nat) (hp : p.batch = B) (hq : p.threads = T)
    (h0 : 0 < B) (hB : B < 2 ^ 24) (hT0 : 0 < T) (hT : T < 2147483648) (size : Nat) (hs0 : 0 < size) (hsz : size < 2 ^ 24)
    (M : Model α) (s : Shape) (ks : List LayerKind) (hM : M.Runs s ks) (hk : KindsWork true s ks) (hu : M.Used) (l m n : Nat) (f : ActFn)
    (hk0 : ks[l]? = some (.full m)) (hk1 : ks[l + 1]? = some (.act f)) (hk2 : ks[l + 2]? = some (.full n)) (i j : Nat) (hi : i < m) (hj : j < m)
    (ht : M.TwinUnits l m ((shapeAt ks s l).X * (shapeAt ks s l).Y * (shapeAt ks s l).Z) n i j)
    (fine : List (List (List (Nat × Act α)) × List (Sample α))) (hx : ∀ e ∈ fine, ∀ x ∈ e.2, x.Fits s M.labels)
    (hfull : ∀ e ∈ fine.head?, B ≤ e.2.length) (M' : Model α) (h : Overlap.train E p size fine M = .ok (some M')) :
    M'.TwinUnits l m ((shapeAt ks s l).X * (shapeAt ks s l).Y * (shapeAt ks s l).Z) n i j := by
  obtain ⟨epochs, h1, h2⟩ := C76_overlap E p (by omega) size M hu fine
  rw [h2] at h
  exact C106_any E hE p B T hp hq h0 hB hT0 hT size hs0 hsz M s ks hM hk hu l m n f hk0 hk1 hk2 i j hi hj ht epochs
    (sources_all (P := fun xs => ∀ x ∈ xs, x.Fits s M.labels) h1 hx) (sources_head (P := fun xs => B ≤ xs.length) h1 hfull) M' h

/-- C105 with calls that overlap in time, in any arithmetic with the laws named. -/
theorem C105_overlap_any (E : Env α) (nan : α → Prop) (hnan : Absorbs E nan) (hE : E.order = .dimsFirst) (p : Hyper α) (B T : Nat) (hzero : ZeroKept E nan p.rate B)
    (hoff0 : ZeroOff E nan) (hp : p.batch = B) (hq : p.threads = T) (h0 : 0 < B) (hB : B < 2 ^ 24) (hT0 : 0 < T) (hT : T < 2147483648)
    (size : Nat) (hs0 : 0 < size) (hsz : size < 2 ^ 24) (M : Model α) (s : Shape) (m : Nat) (ks : List LayerKind)
    (hM : M.Runs s (.full m :: .act .relu :: ks)) (hk : KindsWork true s (.full m :: .act .relu :: ks)) (hu : M.Used) (hrelu : M.ReluAt 1)
    (i : Nat) (hi : i < m) (fine : List (List (List (Nat × Act α)) × List (Sample α)))
    (hx : ∀ e ∈ fine, ∀ x ∈ e.2, x.Fits s M.labels) (hoff : ∀ e ∈ fine, ∀ x ∈ e.2, M.OffFor E s m i x)
    (hfull : ∀ e ∈ fine.head?, B ≤ e.2.length) (M' : Model α) (h : Overlap.train E p size fine M = .ok (some M')) :
    KeptUnit nan m (s.X * s.Y * s.Z) i M M' ∧ ∀ e ∈ fine, ∀ x ∈ e.2, M'.OffFor E s m i x := by
  obtain ⟨epochs, h1, h2⟩ := C76_overlap E p (by omega) size M hu fine
  rw [h2] at h
  obtain ⟨k1, k2⟩ := C105_any E nan hnan hE p B T hzero hoff0 hp hq h0 hB hT0 hT size hs0 hsz M s m ks hM hk hu hrelu i hi epochs
    (sources_all (P := fun xs => ∀ x ∈ xs, x.Fits s M.labels) h1 hx) (sources_all (P := fun xs => ∀ x ∈ xs, M.OffFor E s m i x) h1 hoff)
    (sources_head (P := fun xs => B ≤ xs.length) h1 hfull) M' h
  exact ⟨k1, sources_all (P := fun xs => ∀ x ∈ xs, M'.OffFor E s m i x) h1.symm k2⟩

/-- C108 with calls that overlap in time, in any arithmetic with the laws named. -/
theorem C108_overlap (E : Env α) (nan : α → Prop) (hnan : Absorbs E nan) (hE : E.order = .dimsFirst) (p : Hyper α) (B T : Nat) (hzero : ZeroKept E nan p.rate B)
    (hp : p.batch = B) (hq : p.threads = T) (h0 : 0 < B) (hB : B < 2 ^ 24) (hT0 : 0 < T) (hT : T < 2147483648) (size : Nat) (hs0 : 0 < size) (hsz : size < 2 ^ 24)
    (M : Model α) (s : Shape) (n : Nat) (ks : List LayerKind) (hM : M.Runs s (.full n :: ks)) (hk : KindsWork true s (.full n :: ks)) (hu : M.Used)
    (a c e : Nat) (ha : a < s.X) (hc : c < s.Y) (he : e < s.Z) (fine : List (List (List (Nat × Act α)) × List (Sample α)))
    (hx : ∀ ep ∈ fine, ∀ x ∈ ep.2, x.Fits s M.labels) (hd : ∀ ep ∈ fine, ∀ x ∈ ep.2, x.Dark s a c e)
    (hfull : ∀ ep ∈ fine.head?, B ≤ ep.2.length) (M' : Model α) (h : Overlap.train E p size fine M = .ok (some M')) :
    KeptColumn nan n (s.X * s.Y * s.Z) (a + c * s.X + e * (s.X * s.Y)) M M' := by
  obtain ⟨epochs, h1, h2⟩ := C76_overlap E p (by omega) size M hu fine
  rw [h2] at h
  exact C108_train E nan hnan hE p B T hzero hp hq h0 hB hT0 hT size hs0 hsz M s n ks hM hk hu a c e ha hc he epochs
    (sources_all (P := fun xs => ∀ x ∈ xs, x.Fits s M.labels) h1 hx) (sources_all (P := fun xs => ∀ x ∈ xs, x.Dark s a c e) h1 hd)
    (sources_head (P := fun xs => B ≤ xs.length) h1 hfull) M' h

/-- C105 in binary64 with calls that overlap in time. -/
theorem C105_overlap_binary64 (draws : Nat → Nat → Binary64) (p : Hyper Binary64) (hrate : p.rate.1.Fin) (B T : Nat)
    (hp : p.batch = B) (hq : p.threads = T) (h0 : 0 < B) (hB : B < 2 ^ 24) (hT0 : 0 < T) (hT : T < 2147483648)
    (size : Nat) (hs0 : 0 < size) (hsz : size < 2 ^ 24) (M : Model Binary64) (s : Shape) (m : Nat) (ks : List LayerKind)
    (hM : M.Runs s (.full m :: .act .relu :: ks)) (hk : KindsWork true s (.full m :: .act .relu :: ks)) (hu : M.Used) (hrelu : M.ReluAt 1)
    (i : Nat) (hi : i < m) (fine : List (List (List (Nat × Act Binary64)) × List (Sample Binary64)))
    (hx : ∀ e ∈ fine, ∀ x ∈ e.2, x.Fits s M.labels) (hoff : ∀ e ∈ fine, ∀ x ∈ e.2, M.OffFor (binary64Env draws) s m i x)
    (hfull : ∀ e ∈ fine.head?, B ≤ e.2.length) (M' : Model Binary64) (h : Overlap.train (binary64Env draws) p size fine M = .ok (some M')) :
    KeptUnit Binary64.IsNaN m (s.X * s.Y * s.Z) i M M' ∧ ∀ e ∈ fine, ∀ x ∈ e.2, M'.OffFor (binary64Env draws) s m i x :=
  C105_overlap_any _ _ (C108_nan draws) rfl p B T (C108_zero draws p.rate hrate B h0 hB) (C105_zero draws) hp hq h0 hB hT0 hT size hs0 hsz M s m ks hM hk
    hu hrelu i hi fine hx hoff hfull M' h

/-- C108 in binary64 with calls that overlap in time. -/
theorem C108_overlap_binary64 (draws : Nat → Nat → Binary64) (p : Hyper Binary64) (hrate : p.rate.1.Fin) (B T : Nat)
    (hp : p.batch = B) (hq : p.threads = T) (h0 : 0 < B) (hB : B < 2 ^ 24) (hT0 : 0 < T) (hT : T < 2147483648) (size : Nat) (hs0 : 0 < size) (hsz : size < 2 ^ 24)
    (M : Model Binary64) (s : Shape) (n : Nat) (ks : List LayerKind) (hM : M.Runs s (.full n :: ks)) (hk : KindsWork true s (.full n :: ks)) (hu : M.Used)
    (a c e : Nat) (ha : a < s.X) (hc : c < s.Y) (he : e < s.Z) (fine : List (List (List (Nat × Act Binary64)) × List (Sample Binary64)))
    (hx : ∀ ep ∈ fine, ∀ x ∈ ep.2, x.Fits s M.labels) (hd : ∀ ep ∈ fine, ∀ x ∈ ep.2, x.Dark s a c e)
    (hfull : ∀ ep ∈ fine.head?, B ≤ ep.2.length) (M' : Model Binary64) (h : Overlap.train (binary64Env draws) p size fine M = .ok (some M')) :
    KeptColumn Binary64.IsNaN n (s.X * s.Y * s.Z) (a + c * s.X + e * (s.X * s.Y)) M M' :=
  C108_overlap _ _ (C108_nan draws) rfl p B T (C108_zero draws p.rate hrate B h0 hB) hp hq h0 hB hT0 hT size hs0 hsz M s n ks hM hk hu a c e ha hc he fine hx hd
    hfull M' h

/-! ## They apply -/

/-- Two images, two threads, binary64, calls that may overlap: there is such a training that ends, and its result has twin units. -/
example (u v w x y : Binary64) : ∃ (fine : List (List (List (Nat × Act Binary64)) × List (Sample Binary64))) (N : Model Binary64),
    fine.map Prod.snd = [[⟨⟨dimN 1 1 1, [x]⟩, "a".toList⟩, ⟨⟨dimN 1 1 1, [y]⟩, "b".toList⟩]] ∧
    Overlap.train (binary64Env fun _ _ => 0) ⟨1, 2, 2, 1⟩ 2 fine (plainTwinModel u v w) = .ok (some N) ∧ N.TwinUnits 0 2 1 2 0 1 := by
  have hfit : ∀ z ∈ [(⟨⟨dimN 1 1 1, [x]⟩, "a".toList⟩ : Sample Binary64), ⟨⟨dimN 1 1 1, [y]⟩, "b".toList⟩], z.Fits ⟨1, 1, 1⟩ (plainTwinModel u v w).labels := by
    intro z hz
    simp only [List.mem_cons, List.not_mem_nil, or_false] at hz
    rcases hz with rfl | rfl
    · exact ⟨⟨fun _ _ _ => x, Matrix.Shows.of_vals ⟨by decide, by decide, by decide, by decide⟩ rfl (by simp)⟩, by simp [plainTwinModel]⟩
    · exact ⟨⟨fun _ _ _ => y, Matrix.Shows.of_vals ⟨by decide, by decide, by decide, by decide⟩ rfl (by simp)⟩, by simp [plainTwinModel]⟩
  have hk : KindsWork true ⟨1, 1, 1⟩ [.full 2, .act .tangent, .full 2] := ⟨⟨by decide, by decide⟩, trivial, ⟨by decide, by decide⟩, trivial⟩
  obtain ⟨es, N, h1, h2⟩ := C70_train_ends (binary64Env fun _ _ => 0) rfl ⟨1, 2, 2, 1⟩ 2 2 rfl rfl (by decide) (by decide) (by decide) (by decide) 2
    (by decide) (by decide) (plainTwinModel u v w) ⟨1, 1, 1⟩ [.full 2, .act .tangent, .full 2] (plainTwinModel_runs _ _ _) hk _ rfl
    (by intro e he z hz; rw [List.mem_singleton] at he; subst he; exact hfit z hz) (by simp)
  obtain ⟨fine, h3, h4⟩ := C76_sequential (binary64Env fun _ _ => 0) ⟨1, 2, 2, 1⟩ (by decide) 2 (plainTwinModel u v w) (plainTwinModel_used u v w) es
  have hes : ∀ e ∈ fine, e.2 = [(⟨⟨dimN 1 1 1, [x]⟩, "a".toList⟩ : Sample Binary64), ⟨⟨dimN 1 1 1, [y]⟩, "b".toList⟩] := by
    intro e he
    have : e.2 ∈ fine.map Prod.snd := List.mem_map.2 ⟨e, he, rfl⟩
    rw [h3, h1] at this
    simpa using this
  rw [← h4] at h2
  refine ⟨fine, N, h3.trans h1, h2, ?_⟩
  exact C106_overlap_any _ rfl ⟨1, 2, 2, 1⟩ 2 2 rfl rfl (by decide) (by decide) (by decide) (by decide) 2 (by decide) (by decide) _ ⟨1, 1, 1⟩ _
    (plainTwinModel_runs u v w) hk (plainTwinModel_used u v w) 0 2 2 .tangent rfl rfl rfl 0 1 (by decide) (by decide)
    ⟨_, _, _, _, _, _, _, rfl, rfl, (plainTwinFirst_shows u v).1, (plainTwinFirst_shows u v).2, (plainTwinSecond_shows w).1, fun _ _ => rfl, rfl, fun _ _ => rfl⟩
    fine (fun e he z hz => hfit z (by rw [← hes e he]; exact hz)) (fun e he => by rw [hes e (List.mem_of_mem_head? he)]; simp) N h2

/-- The same for a unit that is off. -/
example (u w x y : Binary64) : ∃ (fine : List (List (List (Nat × Act Binary64)) × List (Sample Binary64))) (N : Model Binary64), fine.map Prod.snd = [[⟨⟨dimN 1 1 1, [x]⟩, "a".toList⟩, ⟨⟨dimN 1 1 1, [y]⟩, "b".toList⟩]] ∧
    Overlap.train (binary64Env fun _ _ => 0) ⟨1, 2, 2, 1⟩ 2 fine (offReluModel u w) = .ok (some N) ∧ KeptUnit Binary64.IsNaN 2 1 1 (offReluModel u w) N ∧
    ∀ e ∈ fine, ∀ z ∈ e.2, N.OffFor (binary64Env fun _ _ => 0) ⟨1, 1, 1⟩ 2 1 z := by
  have hfit : ∀ z ∈ [(⟨⟨dimN 1 1 1, [x]⟩, "a".toList⟩ : Sample Binary64), ⟨⟨dimN 1 1 1, [y]⟩, "b".toList⟩], z.Fits ⟨1, 1, 1⟩ (offReluModel u w).labels ∧
      (offReluModel u w).OffFor (binary64Env fun _ _ => 0) ⟨1, 1, 1⟩ 2 1 z := by
    intro z hz
    simp only [List.mem_cons, List.not_mem_nil, or_false] at hz
    rcases hz with rfl | rfl
    · exact ⟨⟨⟨fun _ _ _ => x, Matrix.Shows.of_vals ⟨by decide, by decide, by decide, by decide⟩ rfl (by simp)⟩, by simp [offReluModel]⟩, offReluModel_off _ _ _ _⟩
    · exact ⟨⟨⟨fun _ _ _ => y, Matrix.Shows.of_vals ⟨by decide, by decide, by decide, by decide⟩ rfl (by simp)⟩, by simp [offReluModel]⟩, offReluModel_off _ _ _ _⟩
  have hk : KindsWork true ⟨1, 1, 1⟩ [.full 2, .act .relu, .full 2] := ⟨⟨by decide, by decide⟩, trivial, ⟨by decide, by decide⟩, trivial⟩
  obtain ⟨es, N, h1, h2⟩ := C70_train_ends (binary64Env fun _ _ => 0) rfl ⟨1, 2, 2, 1⟩ 2 2 rfl rfl (by decide) (by decide) (by decide) (by decide) 2
    (by decide) (by decide) (offReluModel u w) ⟨1, 1, 1⟩ [.full 2, .act .relu, .full 2] (offReluModel_runs _ _) hk _ rfl
    (by intro e he z hz; rw [List.mem_singleton] at he; subst he; exact (hfit z hz).1) (by simp)
  obtain ⟨fine, h3, h4⟩ := C76_sequential (binary64Env fun _ _ => 0) ⟨1, 2, 2, 1⟩ (by decide) 2 (offReluModel u w) (offReluModel_used u w) es
  have hes : ∀ e ∈ fine, e.2 = [(⟨⟨dimN 1 1 1, [x]⟩, "a".toList⟩ : Sample Binary64), ⟨⟨dimN 1 1 1, [y]⟩, "b".toList⟩] := by
    intro e he
    have : e.2 ∈ fine.map Prod.snd := List.mem_map.2 ⟨e, he, rfl⟩
    rw [h3, h1] at this
    simpa using this
  rw [← h4] at h2
  refine ⟨fine, N, h3.trans h1, h2, ?_⟩
  exact C105_overlap_binary64 _ ⟨1, 2, 2, 1⟩ ⟨1, rfl, Double.real64_one⟩ 2 2 rfl rfl (by decide) (by decide) (by decide) (by decide) 2 (by decide) (by decide)
    (offReluModel u w) ⟨1, 1, 1⟩ 2 [.full 2] (offReluModel_runs u w) hk (offReluModel_used u w) ⟨_, _, rfl, rfl, rfl, rfl⟩ 1 (by decide)
    fine (fun e he z hz => (hfit z (by rw [← hes e he]; exact hz)).1) (fun e he z hz => (hfit z (by rw [← hes e he]; exact hz)).2)
    (fun e he => by rw [hes e (List.mem_of_mem_head? he)]; simp) N h2

/-- The same for a pixel that is 0 in all images. -/
example (u v w x y : Binary64) : ∃ (fine : List (List (List (Nat × Act Binary64)) × List (Sample Binary64))) (N : Model Binary64), fine.map Prod.snd = [[darkSample x "a", darkSample y "b"]] ∧
    Overlap.train (binary64Env fun _ _ => 0) ⟨1, 2, 2, 1⟩ 2 fine (darkModel u v w) = .ok (some N) ∧
    KeptColumn Binary64.IsNaN 2 2 1 (darkModel u v w) N := by
  have hx : ∀ z ∈ [darkSample x "a", darkSample y "b"], z.Fits ⟨2, 1, 1⟩ (darkModel u v w).labels ∧ z.Dark ⟨2, 1, 1⟩ 1 0 0 := by
    intro z hz
    simp only [List.mem_cons, List.not_mem_nil, or_false] at hz
    rcases hz with rfl | rfl
    · exact ⟨⟨⟨_, darkSample_shows _ _⟩, by simp [darkModel, darkSample]⟩, _, darkSample_shows _ _, rfl⟩
    · exact ⟨⟨⟨_, darkSample_shows _ _⟩, by simp [darkModel, darkSample]⟩, _, darkSample_shows _ _, rfl⟩
  have hk : KindsWork true ⟨2, 1, 1⟩ [.full 2] := ⟨⟨by decide, by decide⟩, trivial⟩
  obtain ⟨es, N, h1, h2⟩ := C70_train_ends (binary64Env fun _ _ => 0) rfl ⟨1, 2, 2, 1⟩ 2 2 rfl rfl (by decide) (by decide) (by decide) (by decide) 2
    (by decide) (by decide) (darkModel u v w) ⟨2, 1, 1⟩ [.full 2] (darkModel_runs _ _ _) hk [[darkSample x "a", darkSample y "b"]] rfl
    (by intro e he z hz; rw [List.mem_singleton] at he; subst he; exact (hx z hz).1) (by simp)
  obtain ⟨fine, h3, h4⟩ := C76_sequential (binary64Env fun _ _ => 0) ⟨1, 2, 2, 1⟩ (by decide) 2 (darkModel u v w) (darkModel_used u v w) es
  have hes : ∀ e ∈ fine, e.2 = [darkSample x "a", darkSample y "b"] := by
    intro e he
    have : e.2 ∈ fine.map Prod.snd := List.mem_map.2 ⟨e, he, rfl⟩
    rw [h3, h1] at this
    simpa using this
  rw [← h4] at h2
  refine ⟨fine, N, h3.trans h1, h2, ?_⟩
  exact C108_overlap_binary64 _ ⟨1, 2, 2, 1⟩ ⟨1, rfl, Double.real64_one⟩ 2 2 rfl rfl (by decide) (by decide) (by decide) (by decide) 2 (by decide) (by decide) (darkModel u v w) ⟨2, 1, 1⟩ 2 []
    (darkModel_runs _ _ _) hk (darkModel_used _ _ _) 1 0 0 (by decide) (by decide) (by decide) fine (fun e he z hz => (hx z (by rw [← hes e he]; exact hz)).1)
    (fun e he z hz => (hx z (by rw [← hes e he]; exact hz)).2) (fun e he => by rw [hes e (List.mem_of_mem_head? he)]; simp) N h2

end Overlap
end Cnn
