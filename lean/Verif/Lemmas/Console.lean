import Verif.Spec.Console
import Verif.Lemmas.Terminal
import Verif.Props.Display
import Mathlib.Tactic.Ring
import Mathlib.Tactic.FieldSimp
/-! Helper lemmas: what the pieces of the console output do to a terminal. -/
namespace Cnn
namespace Console
open Terminal

/-! ### The bar -/

theorem keeps_nat {r : ℚ → ℚ} {p : Nat} (h : KeepsBits r p) {n : Nat} (hn : n ≤ 2 ^ p) : r n = n := by
  have := h n 0 (by rw [abs_of_nonneg (by positivity)]; exact_mod_cast hn) (by decide)
  simpa using this

/-- Between two neighbours on a grid. -/
theorem keeps_near {r : ℚ → ℚ} {p : Nat} (hr : Rounding r) (h : KeepsBits r p) {q : ℚ} (h0 : 0 ≤ q) {k : Nat} (hk : k ≤ 100) (h1 : q * 2 ^ k + 1 ≤ 2 ^ p) :
    q - 1 / 2 ^ k < r q ∧ r q < q + 1 / 2 ^ k := by
  have hp : (0 : ℚ) < 2 ^ k := by positivity
  have hf0 : 0 ≤ ⌊q * 2 ^ k⌋ := Int.floor_nonneg.2 (by positivity)
  have hfl := Int.floor_le (q * 2 ^ k)
  have hlt := Int.lt_floor_add_one (q * 2 ^ k)
  have hce := Int.le_ceil (q * 2 ^ k)
  have hcl := Int.ceil_lt_add_one (q * 2 ^ k)
  have hc0 : 0 ≤ ⌈q * 2 ^ k⌉ := Int.ceil_nonneg (by positivity)
  have e1 := h ⌊q * 2 ^ k⌋ k (by
    rw [abs_of_nonneg hf0]
    have : ((⌊q * 2 ^ k⌋ : ℤ) : ℚ) ≤ ((2 ^ p : ℤ) : ℚ) := by push_cast; linarith
    exact_mod_cast this) hk
  have e2 := h ⌈q * 2 ^ k⌉ k (by
    rw [abs_of_nonneg hc0]
    have : ((⌈q * 2 ^ k⌉ : ℤ) : ℚ) ≤ ((2 ^ p : ℤ) : ℚ) := by push_cast; linarith
    exact_mod_cast this) hk
  have m1 := hr.mono ((⌊q * 2 ^ k⌋ : ℤ) / 2 ^ k) q ((div_le_iff₀ hp).2 hfl)
  have m2 := hr.mono q ((⌈q * 2 ^ k⌉ : ℤ) / 2 ^ k) ((le_div_iff₀ hp).2 hce)
  rw [e1] at m1
  rw [e2] at m2
  constructor
  · refine lt_of_lt_of_le ?_ m1
    rw [lt_div_iff₀ hp, sub_mul, one_div, inv_mul_cancel₀ hp.ne']
    linarith
  · refine lt_of_le_of_lt m2 ?_
    rw [div_lt_iff₀ hp, add_mul, one_div, inv_mul_cancel₀ hp.ne']
    linarith

/-- The filled part after batch `n` of `K`. -/
theorem filled_eq {r32 : ℚ → ℚ} (h32 : Rounding r32) (k32 : KeepsBits r32 24) {K n : Nat} (hK : K ≤ 2 ^ 23) (hn : n < K) :
    ∃ f, barFilled r32 (r32 n) (r32 K) 50 = .ok f ∧ f < 50 ∧ (f : ℚ) ≤ 50 * n / K + 1 / 1000 ∧ 50 * (n : ℚ) / K < f + 1 + 1 / 1000 := by
  have hKp : (0 : ℚ) < K := by exact_mod_cast (by omega : 0 < K)
  have hnK : (n : ℚ) + 1 ≤ K := by exact_mod_cast hn
  have hn0 : (0 : ℚ) ≤ n := by positivity
  have hK23 : (K : ℚ) ≤ 2 ^ 23 := by exact_mod_cast hK
  have e50 : r32 ((50 : Nat) : ℚ) = (50 : Nat) := keeps_nat k32 (by norm_num)
  rw [keeps_nat k32 (show n ≤ 2 ^ 24 by omega), keeps_nat k32 (show K ≤ 2 ^ 24 by omega)]
  obtain ⟨f, e, _, hf⟩ := barFilled_spec h32 hKp (by norm_num) e50 hn0 (by linarith)
  refine ⟨f, e, ?_⟩
  obtain ⟨q, hq⟩ : ∃ q, q = (n : ℚ) / K := ⟨_, rfl⟩
  have hq0 : 0 ≤ q := by rw [hq]; positivity
  have hq1 : q ≤ ((2 ^ 23 - 1 : ℤ) : ℚ) / 2 ^ 23 := by
    rw [hq, div_le_iff₀ hKp]
    have : (K : ℚ) / 2 ^ 23 ≤ 1 := by rw [div_le_one (by norm_num)]; exact hK23
    have e2 : ((2 ^ 23 - 1 : ℤ) : ℚ) / 2 ^ 23 * K = K - K / 2 ^ 23 := by norm_num; ring
    rw [e2]
    linarith
  rw [← hq] at hf
  have r1 : r32 q ≤ ((2 ^ 23 - 1 : ℤ) : ℚ) / 2 ^ 23 := by
    rw [← k32 (2 ^ 23 - 1) 23 (by norm_num) (by norm_num)]
    exact h32.mono _ _ hq1
  have r0 : 0 ≤ r32 q := h32.nonneg hq0
  have hqlt : q < 1 := lt_of_le_of_lt hq1 (by norm_num)
  obtain ⟨n1, n2⟩ := keeps_near h32 k32 hq0 (k := 23) (by norm_num) (by norm_num; linarith)
  have r50 : r32 q * (50 : Nat) ≤ ((50 * 2 ^ 18 - 1 : ℤ) : ℚ) / 2 ^ 18 := by
    push_cast
    have : r32 q * 50 ≤ ((2 ^ 23 - 1 : ℤ) : ℚ) / 2 ^ 23 * 50 := mul_le_mul_of_nonneg_right r1 (by norm_num)
    refine this.trans ?_
    norm_num
  obtain ⟨n3, n4⟩ := keeps_near h32 k32 (q := r32 q * (50 : Nat)) (by positivity) (k := 18) (by norm_num) (by
    push_cast at r50 ⊢
    norm_num at r50 ⊢
    linarith)
  have r2 : r32 (r32 q * (50 : Nat)) ≤ ((50 * 2 ^ 18 - 1 : ℤ) : ℚ) / 2 ^ 18 := by
    rw [← k32 (50 * 2 ^ 18 - 1) 18 (by norm_num) (by norm_num)]
    exact h32.mono _ _ r50
  have hfl := Int.floor_le (r32 (r32 q * (50 : Nat)))
  have hfu := Int.lt_floor_add_one (r32 (r32 q * (50 : Nat)))
  have hfq : ((f : ℚ)) = (⌊r32 (r32 q * (50 : Nat))⌋ : ℤ) := by exact_mod_cast hf
  rw [← hfq] at hfl hfu
  have e50q : 50 * (n : ℚ) / K = 50 * q := by rw [hq]; ring
  rw [e50q]
  push_cast at n3 n4 r2 hfl hfu
  refine ⟨?_, ?_, ?_⟩
  · have : (f : ℚ) < 50 := by norm_num at r2; linarith
    exact_mod_cast this
  · norm_num at n1 n2 n3 n4
    linarith
  · norm_num at n1 n2 n3 n4
    linarith

/-- The percentage after batch `n` of `K`. -/
theorem percent_eq {r32 r64 : ℚ → ℚ} (k32 : KeepsBits r32 24) (h64 : Rounding r64) (k64 : KeepsBits r64 53) {K n : Nat} (hK : K ≤ 2 ^ 23) (hn : n < K) :
    barPercent r64 (r32 n) (r32 K) = .ok ((100 * n / K + 1 : Nat) : Int) := by
  have hK0 : 0 < K := by omega
  have hKp : (0 : ℚ) < K := by exact_mod_cast hK0
  have hK23 : (K : ℚ) ≤ 2 ^ 23 := by exact_mod_cast hK
  rw [keeps_nat k32 (show n ≤ 2 ^ 24 by omega), keeps_nat k32 (show K ≤ 2 ^ 24 by omega)]
  obtain ⟨m, hm⟩ : ∃ m, m = 100 * n / K := ⟨_, rfl⟩
  have hm1 : m * K ≤ 100 * n := by rw [hm]; exact Nat.div_mul_le_self _ _
  have hm2 : 100 * n + 1 ≤ (m + 1) * K := by
    have := Nat.lt_div_mul_add (a := 100 * n) hK0
    rw [← hm] at this
    rw [Nat.add_mul]
    omega
  have hm3 : m < 100 := by rw [hm]; exact Nat.div_lt_of_lt_mul (by omega)
  rw [← hm]
  have e1 : r64 (100 * (n : ℚ)) = 100 * n := by
    have := keeps_nat k64 (n := 100 * n) (by have : n ≤ 2 ^ 23 := by omega
                                             norm_num at this ⊢; omega)
    push_cast at this
    exact this
  have hq1 : (m : ℚ) ≤ 100 * n / K := by rw [le_div_iff₀ hKp]; exact_mod_cast hm1
  have hq2 : 100 * (n : ℚ) / K ≤ (((m + 1) * 2 ^ 23 - 1 : ℤ) : ℚ) / 2 ^ 23 := by
    rw [div_le_iff₀ hKp]
    have h2 : 100 * (n : ℚ) + 1 ≤ (m + 1) * K := by exact_mod_cast hm2
    have h3 : (K : ℚ) / 2 ^ 23 ≤ 1 := by rw [div_le_one (by norm_num)]; exact hK23
    have e2 : (((m + 1) * 2 ^ 23 - 1 : ℤ) : ℚ) / 2 ^ 23 * K = (m + 1) * K - K / 2 ^ 23 := by norm_num; ring
    rw [e2]
    linarith
  have hmq : (m : ℚ) < 100 := by exact_mod_cast hm3
  have s1 : (m : ℚ) ≤ r64 (100 * (n : ℚ) / K) := by
    rw [← keeps_nat k64 (n := m) (by norm_num; omega)]
    exact h64.mono _ _ hq1
  have s2 : r64 (100 * (n : ℚ) / K) ≤ (((m + 1) * 2 ^ 23 - 1 : ℤ) : ℚ) / 2 ^ 23 := by
    rw [← k64 ((m + 1) * 2 ^ 23 - 1) 23 (by rw [abs_of_nonneg (by push_cast; omega)]; push_cast; omega) (by norm_num)]
    exact h64.mono _ _ hq2
  have s3 : ((m + 1 : Nat) : ℚ) ≤ r64 (r64 (100 * (n : ℚ) / K) + 1) := by
    rw [← keeps_nat k64 (n := m + 1) (by norm_num; omega)]
    exact h64.mono _ _ (by push_cast; linarith)
  have s4 : r64 (r64 (100 * (n : ℚ) / K) + 1) ≤ (((m + 2) * 2 ^ 23 - 1 : ℤ) : ℚ) / 2 ^ 23 := by
    rw [← k64 ((m + 2) * 2 ^ 23 - 1) 23 (by rw [abs_of_nonneg (by push_cast; omega)]; push_cast; omega) (by norm_num)]
    refine h64.mono _ _ ?_
    push_cast at s2 ⊢
    norm_num at s2 ⊢
    linarith
  have s5 : r64 (r64 (100 * (n : ℚ) / K) + 1) < m + 2 := by
    push_cast at s4
    norm_num at s4
    linarith
  push_cast at s3
  have hm0 : (0 : ℚ) ≤ m := by positivity
  unfold barPercent
  rw [if_neg hKp.ne', e1]
  dsimp only
  rw [if_pos ⟨by linarith, by linarith⟩, if_pos (by linarith)]
  refine congrArg Res.ok ?_
  show ⌊r64 (r64 (100 * (n : ℚ) / K) + 1)⌋ = _
  rw [Int.floor_eq_iff]
  push_cast
  exact ⟨s3, by linarith⟩

theorem intText_nat (n : Nat) : intText (n : Int) = natText n := by
  unfold intText
  rw [if_neg (by omega)]
  rfl

theorem barText_lt {f : Nat} (hf : f < 50) : barText f 50 = '[' :: List.replicate f '=' ++ List.replicate (49 - f) ' ' ++ [']'] := by
  have e1 : wrap32 ((f : Int) + 1) = ((f + 1 : Nat) : Int) := by
    have := wrap32_nat (n := f + 1) (by omega)
    push_cast at this ⊢; exact this
  have e2 : wrap32 (u64 (((50 : Nat) : Int) - f)) = ((50 - f : Nat) : Int) := by
    have : u64 (((50 : Nat) : Int) - f) = ((50 - f : Nat) : Int) := by unfold u64; omega
    rw [this]; exact wrap32_nat (by omega)
  have e3 : 50 - f - 1 = 49 - f := by omega
  unfold barText
  rw [e1, e2]
  simp [padRight, padLeft, e3]

theorem batchBar_eq {r32 r64 : ℚ → ℚ} (h32 : Rounding r32) (k32 : KeepsBits r32 24) (h64 : Rounding r64) (k64 : KeepsBits r64 53) {K n : Nat}
    (hK : K ≤ 2 ^ 23) (hn : n < K) :
    ∃ f, batchBar r32 r64 K n = .ok (csi "?25l" ++ '\r' :: progress f (100 * n / K + 1) ++ csi "?25h") ∧ f < 50 ∧
      (f : ℚ) ≤ 50 * n / K + 1 / 1000 ∧ 50 * (n : ℚ) / K < f + 1 + 1 / 1000 := by
  obtain ⟨f, e, h1, h2⟩ := filled_eq h32 k32 hK hn
  refine ⟨f, ?_, h1, h2⟩
  unfold batchBar bar loadingBar
  rw [e, Res.bind_ok, percent_eq k32 h64 k64 hK hn, Res.bind_ok, Res.bind_ok, intText_nat, barText_lt h1]
  simp [progress, padLeft]

theorem progress_length {f p : Nat} (hf : f < 50) (hp : p < 1000) : (progress f p).length = 56 := by
  have := IStream.natText_length (n := p) (k := 3) (by omega) (by omega)
  simp [progress]
  omega

theorem plain_append {a b : List Char} (ha : Plain a) (hb : Plain b) : Plain (a ++ b) := by
  intro c hc
  rcases List.mem_append.1 hc with h | h
  · exact ha c h
  · exact hb c h

theorem plain_cons {c : Char} {b : List Char} (ha : c ≠ '\n' ∧ c ≠ '\r' ∧ c ≠ '\t' ∧ c ≠ Char.ofNat 27) (hb : Plain b) : Plain (c :: b) := by
  intro d hd
  rcases List.mem_cons.1 hd with rfl | h
  · exact ha
  · exact hb d h

theorem plain_replicate {c : Char} (n : Nat) (ha : c ≠ '\n' ∧ c ≠ '\r' ∧ c ≠ '\t' ∧ c ≠ Char.ofNat 27) : Plain (List.replicate n c) := by
  intro d hd
  rw [List.eq_of_mem_replicate hd]
  exact ha

theorem plain_nil : Plain [] := by simp [Plain]

theorem progress_plain (f p : Nat) : Plain (progress f p) :=
  plain_append (plain_append (plain_cons (by decide) (plain_replicate _ (by decide))) (plain_replicate _ (by decide)))
    (plain_cons (by decide) (plain_cons (by decide) (plain_append (plain_append (plain_replicate _ (by decide)) (natText_plain p))
      (plain_cons (by decide) plain_nil))))

/-- A progress line over one of the same width. -/
theorem write_bar (t : Terminal) (hm : t.mode = .text) (hb : t.bg = none) (txt : List Char) (hp : Plain txt) (hl : t.line.length ≤ txt.length)
    (s : List Char) :
    t.write ((csi "?25l" ++ '\r' :: txt ++ csi "?25h") ++ s) = ({ t with line := plain txt, col := txt.length, cursor := true } : Terminal).write s := by
  rw [List.append_assoc, List.append_assoc, write_hide t hm]
  rw [List.cons_append, write_return { t with cursor := false } hm, write_append,
    write_text txt hp ⟨t.above, t.line, 0, false, t.bg, t.mode⟩ hm (by simp)]
  simp only [hb, List.take_zero, List.nil_append, Nat.zero_add]
  rw [List.drop_eq_nil_of_le hl, List.append_nil]
  exact write_unhide ⟨t.above, plain txt, txt.length, false, none, t.mode⟩ hm s

theorem mapM_split {β γ : Type} {g : β → Res γ} {a b : List β} {x y : List γ} (ha : a.mapM g = .ok x) (hb : b.mapM g = .ok y) :
    (a ++ b).mapM g = .ok (x ++ y) := by
  rw [List.mapM_append, ha, Res.bind_ok, hb, Res.bind_ok]
  rfl

theorem mapM_one {β γ : Type} {g : β → Res γ} {a : β} {x : γ} (h : g a = .ok x) : [a].mapM g = .ok [x] := by
  rw [List.mapM_cons, h]
  rfl

/-- The first `n + 1` batches. -/
theorem write_bars {r32 r64 : ℚ → ℚ} (h32 : Rounding r32) (k32 : KeepsBits r32 24) (h64 : Rounding r64) (k64 : KeepsBits r64 53) {K : Nat}
    (hK : K ≤ 2 ^ 23) : ∀ n, n < K → ∃ s, ∃ f : Nat, bars r32 r64 K (n + 1) = .ok s ∧ f < 50 ∧
      (f : ℚ) ≤ 50 * n / K + 1 / 1000 ∧ 50 * (n : ℚ) / K < f + 1 + 1 / 1000 ∧
      ∀ t : Terminal, t.Fresh → t.write s = { t with line := plain (progress f (100 * n / K + 1)), col := 56 } := by
  have small : ∀ n, n < K → 100 * n / K + 1 < 1000 := by
    intro n hn
    have : 100 * n / K < 100 := Nat.div_lt_of_lt_mul (by omega)
    omega
  intro n
  induction n with
  | zero =>
    intro hn
    obtain ⟨f, e, h1, h2, h3⟩ := batchBar_eq h32 k32 h64 k64 hK hn
    refine ⟨_, f, by unfold bars; rw [show List.range (0 + 1) = [0] from rfl, mapM_one e, Res.bind_ok], h1, h2, h3, fun t ht => ?_⟩
    have := write_bar t ht.mode ht.bg (progress f (100 * 0 / K + 1)) (progress_plain _ _) (by rw [ht.line]; simp) []
    simp only [List.flatten_cons, List.flatten_nil]
    rw [this, progress_length h1 (small 0 hn), write_nil, ← ht.cursor]
  | succ n ih =>
    intro hn
    obtain ⟨s, g, e0, hg, _, _, e1⟩ := ih (by omega)
    obtain ⟨f, e, h1, h2, h3⟩ := batchBar_eq h32 k32 h64 k64 hK hn
    unfold bars at e0
    obtain ⟨l, el, e0⟩ := Res.bind_eq_ok e0
    have e0 := Res.ok.inj e0
    refine ⟨_, f, by
      unfold bars
      rw [List.range_succ, mapM_split el (mapM_one e), Res.bind_ok], h1, h2, h3, fun t ht => ?_⟩
    rw [List.flatten_append, e0, write_append, e1 t ht]
    have := write_bar { t with line := plain (progress g (100 * n / K + 1)), col := 56 } ht.mode ht.bg (progress f (100 * (n + 1) / K + 1)) (progress_plain _ _)
      (by
        show (plain (progress g (100 * n / K + 1))).length ≤ _
        unfold plain
        rw [List.length_map, progress_length hg (small n (by omega)), progress_length h1 (small (n + 1) hn)]) []
    simp only [List.flatten_cons, List.flatten_nil]
    rw [this, progress_length h1 (small (n + 1) hn), write_nil, ← ht.cursor]

/-! ### Lines -/

/-- On a terminal at the start of a line, the text adds these lines and leaves the terminal at the start of the next. -/
def Prints (s : List Char) (ls : List (List Cell)) : Prop := ∀ t : Terminal, t.Fresh → t.write s = { t with above := t.above ++ ls }

theorem Prints.append {a b : List Char} {k l : List (List Cell)} (ha : Prints a k) (hb : Prints b l) : Prints (a ++ b) (k ++ l) := by
  intro t ht
  rw [write_append, ha t ht, hb ⟨t.above ++ k, t.line, t.col, t.cursor, t.bg, t.mode⟩ ⟨⟨ht.cursor, ht.bg, ht.mode⟩, ht.line, ht.col⟩]
  simp

theorem Prints.nil : Prints [] [] := by
  intro t _
  simp [write_nil]

theorem Prints.line {s : List Char} (hs : Plain s) : Prints (s ++ ['\n']) [plain s] := by
  intro t ht
  rw [write_append, write_end s hs t ht.mode (by rw [ht.line, ht.col]; rfl)]
  obtain ⟨a, l, c, u, b, m⟩ := t
  obtain ⟨⟨_, rfl, rfl⟩, rfl, rfl⟩ := ht
  rfl

/-- A line that begins with a tab. -/
theorem Prints.tab {c : Char} {s : List Char} (hs : Plain (c :: s)) : Prints ('\t' :: c :: s ++ ['\n']) [plain (List.replicate 8 ' ' ++ c :: s)] := by
  intro t ht
  obtain ⟨a, l, k, u, b, m⟩ := t
  obtain ⟨⟨_, rfl, rfl⟩, rfl, rfl⟩ := ht
  obtain ⟨h1, h2, h3, h4⟩ := hs c (by simp)
  have e : ((⟨a, [], 0, u, none, .text⟩ : Terminal).receive '\t').receive c = ⟨a, plain (List.replicate 8 ' ' ++ [c]), 9, u, none, .text⟩ := by
    have e0 : (⟨a, [], 0, u, none, .text⟩ : Terminal).receive '\t' = ⟨a, [], 8, u, none, .text⟩ := by
      simp [receive, show1]
    rw [e0]
    unfold receive
    simp only [if_neg h4]
    unfold show1
    rw [if_neg h1, if_neg h2, if_neg h3]
    rfl
  rw [List.cons_append, List.cons_append, write_cons, write_cons, e, write_append,
    write_end s (fun d hd => hs d (by simp [hd])) _ rfl (by simp [plain])]
  show (⟨a ++ [_], [], 0, u, none, .text⟩ : Terminal) = _
  simp [plain]

theorem Prints.newline : Prints ['\n'] [[]] := by
  intro t ht
  rw [write_newline t ht.mode, write_nil]
  obtain ⟨a, l, c, u, b, m⟩ := t
  obtain ⟨⟨_, rfl, rfl⟩, rfl, rfl⟩ := ht
  rfl

theorem Prints.flatMap {β : Type} {g : β → List Char} {k : β → List (List Cell)} : ∀ l : List β, (∀ b ∈ l, Prints (g b) (k b)) →
    Prints (l.flatMap g) (l.flatMap k)
  | [], _ => Prints.nil
  | b :: l, h => by
    rw [List.flatMap_cons, List.flatMap_cons]
    exact (h b (by simp)).append (Prints.flatMap l fun c hc => h c (by simp [hc]))

/-! ### Pictures -/

theorem two_blanks : Plain [' ', ' '] := by unfold Plain; decide
theorem three_blanks : Plain [' ', ' ', ' '] := by unfold Plain; decide

/-- One place of a picture. -/
theorem write_place (t : Terminal) (hm : t.mode = .text) (hc : t.col = t.line.length) (p : List Nat) (hp : p.length = 1 ∨ p.length = 3) (s : List Char) :
    ∃ c, t.write (place p ++ s) = (⟨t.above, t.line ++ square p, (t.line ++ square p).length, t.cursor, c, .text⟩ : Terminal).write s := by
  match p, hp with
  | [c], _ =>
    refine ⟨some (c, c, c), ?_⟩
    have e : place [c] ++ s = csi "48;2;" ++ natText c ++ ';' :: natText c ++ ';' :: natText c ++ 'm' :: ([' ', ' '] ++ s) := by
      simp [place, greyPlace]
    rw [e, write_colour t hm c c c, write_append, write_end _ two_blanks ⟨t.above, t.line, t.col, t.cursor, some (c, c, c), t.mode⟩ hm hc]
    rw [hm, hc]
    simp [square, List.replicate]
  | [r, g, b], _ =>
    refine ⟨some (r, g, b), ?_⟩
    have e : place [r, g, b] ++ s = csi "48;2;" ++ natText r ++ ';' :: natText g ++ ';' :: natText b ++ 'm' :: ([' ', ' ', ' '] ++ s) := by
      simp [place, colourPlace, csi]
    rw [e, write_colour t hm r g b, write_append, write_end _ three_blanks ⟨t.above, t.line, t.col, t.cursor, some (r, g, b), t.mode⟩ hm hc]
    rw [hm, hc]
    simp [square, List.replicate]
  | [], h => exact absurd h (by simp)
  | [_, _], h => exact absurd h (by simp)
  | _ :: _ :: _ :: _ :: _, h => exact absurd h (by simp)

theorem write_row : ∀ (row : List (List Nat)), (∀ p ∈ row, p.length = 1 ∨ p.length = 3) → ∀ t : Terminal, t.mode = .text → t.col = t.line.length →
    t.write (row.flatMap place ++ (csi "0m" ++ ['\n'])) = ⟨t.above ++ [t.line ++ row.flatMap square], [], 0, t.cursor, none, .text⟩ := by
  intro row
  induction row with
  | nil =>
    intro _ t hm _
    rw [List.flatMap_nil, List.nil_append, write_reset t hm, write_newline { t with bg := none } hm, write_nil, hm]
    simp
  | cons p row ih =>
    intro hp t hm hc
    rw [List.flatMap_cons, List.append_assoc]
    obtain ⟨c, e⟩ := write_place t hm hc p (hp p (by simp)) (row.flatMap place ++ (csi "0m" ++ ['\n']))
    rw [e, ih (fun q hq => hp q (by simp [hq])) _ rfl rfl]
    simp

theorem Prints.picture {rows : List (List (List Nat))} (h : ∀ row ∈ rows, ∀ p ∈ row, p.length = 1 ∨ p.length = 3) : Prints (picture rows) (screen rows) := by
  have : screen rows = rows.flatMap fun row => [row.flatMap square] := by
    unfold screen
    rw [List.map_eq_flatMap]
  rw [this]
  refine Prints.flatMap rows fun row hr t ht => ?_
  rw [write_row row (h row hr) t ht.mode (by rw [ht.line, ht.col]; rfl)]
  obtain ⟨a, l, c, u, b, m⟩ := t
  obtain ⟨⟨_, rfl, rfl⟩, rfl, rfl⟩ := ht
  simp

end Console
end Cnn
