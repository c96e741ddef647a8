import Verif.Lemmas.Number
import Verif.Props.FromPost
/-!
Property C69: `minSize` and `maxSize` with every argument, in the floating-point arithmetic of JavaScript; and from_post with Numbers as they are.
-/
namespace Yenc.Props
open Yenc Spec Js

variable {eimpl : Enc.Impl} {lib : Lib}

/-! ### Strings of digits -/

theorem digits_isDigit {s : Str} (h : isNumber s = true) : ∀ c ∈ s, Number.isDigit c = true := by
  simp only [isNumber, Bool.and_eq_true, List.all_eq_true] at h
  intro c hc
  have := h.2 c hc
  simpa [Number.isDigit] using this

theorem takeWhile_all {α : Type} {p : α → Bool} (s : List α) (h : ∀ c ∈ s, p c = true) : s.takeWhile p = s ∧ s.dropWhile p = [] := by
  induction s with
  | nil => simp
  | cons a s ih =>
    have h1 := h a (by simp)
    have h2 := ih fun c hc => h c (by simp [hc])
    simp [List.takeWhile_cons, List.dropWhile_cons, h1, h2]

/-- A string of digits is converted to the Number nearest to its value. -/
theorem ofStr_digits {s : Str} (h : isNumber s = true) : Number.ofStr s = Number.rnd (decVal s : ℕ) := by
  have hd := digits_isDigit h
  have hne : s ≠ [] := by rintro rfl; simp [isNumber] at h
  have hsp : ∀ c, Number.isDigit c = true → isSpace c = false := by
    intro c hc
    simp only [Number.isDigit, Bool.and_eq_true, decide_eq_true_eq] at hc
    simp only [isSpace, Bool.or_eq_false_iff, Bool.and_eq_false_iff, decide_eq_false_iff_not]
    omega
  have ht : trim s = s := trim_eq s (fun c hc => hsp c (hd c (List.mem_of_mem_head? hc))) (fun c hc => hsp c (hd c (List.mem_of_mem_getLast? hc)))
  have key : ∀ t : Str, t ≠ [] → (∀ c ∈ t, Number.isDigit c = true) → Number.signedDec false t = Number.rnd (decVal t : ℕ) := by
    intro t ht htd
    obtain ⟨t1, t2⟩ := takeWhile_all t htd
    unfold Number.signedDec
    rw [if_neg]
    · simp only [Number.unsignedDec, t1, t2, Number.fraction, ht, List.append_nil, false_and, if_false, Number.exponent, List.length_nil]
      simp [Number.digitsVal, decVal]
    · rintro rfl
      exact absurd (htd 73 (by decide)) (by decide)
  unfold Number.ofStr
  rw [ht, if_neg hne, ← key s hne hd]
  unfold Number.numericLiteral
  split
  · exact absurd (hd 43 (by simp)) (by decide)
  · exact absurd (hd 45 (by simp)) (by decide)
  · rename_i x t
    have hx := hd x (by simp)
    simp only [Number.isDigit, Bool.and_eq_true, decide_eq_true_eq] at hx
    have h1 : ¬ (x = 120 ∨ x = 88) := by omega
    have h2 : ¬ (x = 111 ∨ x = 79) := by omega
    have h3 : ¬ (x = 98 ∨ x = 66) := by omega
    simp only [h1, h2, h3, if_false, if_true]
  · rfl

/-- The laws from_post needs hold for Numbers as they are, so that C45, C46 and C60-C65 hold with them. -/
theorem jsEnv_lawful : jsEnv.Lawful where
  utf8 := rfl
  num n _ := by
    show Number.ofStr (dec n) = Number.rnd n
    rw [ofStr_digits (isNumber_dec n), decVal_dec]
  lt a b ha hb := by
    show Number.lt (Number.rnd a) (Number.rnd b) = _
    rw [Number.rnd_nat ha, Number.rnd_nat hb]
    simp [Number.lt]
  ne a b ha hb := by
    show Number.ne (Number.rnd a) (Number.rnd b) = _
    rw [Number.rnd_nat ha, Number.rnd_nat hb]
    simp [Number.ne]
  range b e hb he := by
    show Number.add (Number.sub (Number.rnd e) (Number.rnd b)) (.fin 1) = Number.rnd ((e + 1 - b : ℕ) : ℚ)
    rw [Number.rnd_nat he, Number.rnd_nat (hb.trans he)]
    have h1 : Number.sub (.fin e) (.fin b) = .fin ((e - b : ℕ) : ℚ) := by
      have := Number.rnd_nat (n := e - b) (by omega)
      simp only [Number.sub, Number.neg, Number.add]
      rw [← this]; congr 1; push_cast [hb]; ring
    rw [h1]
    simp only [Number.add]
    congr 1; push_cast [hb, show b ≤ e + 1 by omega]; ring

/-! ### `minSize` and `maxSize` -/

theorem falsy_nat {n : ℕ} : (Number.fin (n : ℚ)).falsy = decide (n = 0) := by
  simp [Number.falsy]

theorem lineSizeN_nat (ls : ℕ) : lineSizeN (some (.fin ls)) = .fin ((if ls = 0 then 128 else ls : ℕ) : ℚ) := by
  by_cases h : ls = 0
  · simp [lineSizeN, Number.falsy, h]
  · simp [lineSizeN, falsy_nat, h]

theorem add_fin_nat (a b : ℕ) (q : ℚ) (hq : q = b) (h : a + b ≤ 2 ^ 53) : Number.add (.fin a) (.fin q) = .fin ((a + b : ℕ) : ℚ) := by
  rw [hq]; exact Number.add_nat h

theorem mul_two_nat (a : ℕ) (h : 2 * a ≤ 2 ^ 53) : Number.mul (.fin 2) (.fin a) = .fin ((2 * a : ℕ) : ℚ) := by
  have := Number.mul_nat (a := 2) (b := a) h
  push_cast at this ⊢; exact this

/-- The value for a length, factor and line size such that no intermediate result is rounded. -/
theorem maxSizeN_two (len ls : ℕ) (hlen : len ≠ 0) (h : len ≤ 2 ^ 50) (hl1 : 1 ≤ ls) (hl : ls ≤ 2 ^ 53) (lso ro : Option Number)
    (h1 : lineSizeN lso = .fin ls) (h2 : escFactor ro = .fin 2) :
    maxSizeN (some (.fin len)) lso ro = .ret (.fin ((2 * len + 2 * (2 * len / ls) + 66 : ℕ) : ℚ)) := by
  have e1 : Number.mul (.fin (len : ℚ)) (.fin 2) = .fin ((2 * len : ℕ) : ℚ) := by
    have := Number.mul_nat (a := len) (b := 2) (by omega)
    push_cast at this ⊢; rw [this, mul_comm]
  have hq : 2 * len / ls ≤ 2 * len := Nat.div_le_self _ _
  simp only [maxSizeN, falsy_nat, hlen, decide_false, Bool.false_eq_true, if_false, h1, h2]
  rw [if_neg (by simp [Number.lt])]
  rw [e1, Number.floor_div (by omega) hl1 hl, mul_two_nat _ (by omega)]
  have e2 : Number.ceil (.fin ((2 * len : ℕ) : ℚ)) = .fin ((2 * len : ℕ) : ℚ) := by
    simp only [Number.ceil, Int.ceil_natCast, Int.cast_natCast]
  rw [e2, Number.add_nat (by omega), add_fin_nat _ 2 2 (by norm_num) (by omega), add_fin_nat _ 64 64 (by norm_num) (by omega)]

/-- C69: for lengths up to `2^50`, floating-point arithmetic makes no difference: `maxSize` without an escape ratio, or with ratio 1, and `minSize` are the integer formulas; the
line size may be left out or zero, meaning 128.  A length of zero (or `NaN`, or left out) gives zero. -/
theorem C69_exact (len ls : ℕ) (hlen : len ≠ 0) (h : len ≤ 2 ^ 50) (hl1 : 1 ≤ ls) (hl : ls ≤ 2 ^ 53) (lso : Option Number)
    (hls : lso = some (.fin ls) ∨ ls = 128 ∧ (lso = none ∨ lso = some (.fin 0) ∨ lso = some .nan)) :
    (∀ ro, ro = none ∨ ro = some .nan ∨ ro = some (.fin 1) →
      maxSizeN (some (.fin len)) lso ro = .ret (.fin ((2 * len + 2 * (2 * len / ls) + 66 : ℕ) : ℚ))) ∧
    minSizeN (some (.fin len)) lso = .fin ((len + 2 * (len / ls) : ℕ) : ℚ) ∧
    ∀ n, n = none ∨ n = some (.fin 0) ∨ n = some .nan → (∀ ro, maxSizeN n lso ro = .ret (.fin 0)) ∧ minSizeN n lso = .fin 0 := by
  have hL : lineSizeN lso = .fin ls := by
    rcases hls with rfl | ⟨rfl, rfl | rfl | rfl⟩
    · rw [lineSizeN_nat, if_neg (by omega)]
    all_goals norm_num [lineSizeN, Number.falsy]
  refine ⟨?_, ?_, ?_⟩
  · intro ro hro
    refine maxSizeN_two len ls hlen h hl1 hl lso ro hL ?_
    rcases hro with rfl | rfl | rfl
    · rfl
    · simp [escFactor, Number.falsy, Number.ne]
    · have := Number.add_nat (a := 1) (b := 1) (by norm_num)
      have hf : (Number.fin 1).falsy = false := by simp [Number.falsy]
      simp only [escFactor, hf, Bool.false_and, Bool.false_eq_true, if_false]
      norm_num at this; exact this
  · have hq : len / ls ≤ len := Nat.div_le_self _ _
    simp only [minSizeN, falsy_nat, hlen, decide_false, Bool.false_eq_true, if_false, hL]
    rw [Number.floor_div (by omega) hl1 hl, mul_two_nat _ (by omega), Number.add_nat (by omega)]
  · rintro n (rfl | rfl | rfl) <;> simp [maxSizeN, minSizeN, Number.falsy]

example : maxSizeN (some (.fin 1000)) none none = .ret (.fin 2096) := by
  have := (C69_exact 1000 128 (by decide) (by decide) (by decide) (by decide) none (.inr ⟨rfl, .inl rfl⟩)).1 none (.inl rfl)
  norm_num at this; exact this

/-- C69: the integer functions used elsewhere in the model are what JavaScript computes. -/
theorem C69_integral (len ls : ℕ) (h : len ≤ 2 ^ 50) (hl : ls ≤ 2 ^ 53) :
    maxSizeN (some (.fin len)) (some (.fin ls)) none = .ret (.fin (Js.maxSize len ls : ℕ)) ∧
    minSizeN (some (.fin len)) (some (.fin ls)) = .fin (Js.minSize len ls : ℕ) := by
  by_cases h0 : len = 0
  · subst h0; simp [maxSizeN, minSizeN, Number.falsy, Js.maxSize, Js.minSize]
  by_cases hl0 : ls = 0
  · subst hl0
    obtain ⟨a, b, -⟩ := C69_exact len 128 h0 h (by decide) (by decide) (some (.fin 0)) (.inr ⟨rfl, .inr (.inl rfl)⟩)
    have := a none (.inl rfl)
    rw [show ((0 : ℕ) : ℚ) = 0 by norm_num, this, b]
    simp only [Js.maxSize, Js.minSize, if_neg h0, if_true]
    rw [Nat.mul_comm len 2]; constructor <;> simp [add_assoc] <;> norm_num
  · obtain ⟨a, b, -⟩ := C69_exact len ls h0 h (by omega) hl (some (.fin ls)) (.inl rfl)
    rw [a none (.inl rfl), b]
    simp only [Js.maxSize, Js.minSize, if_neg h0, if_neg hl0]
    rw [Nat.mul_comm len 2]; constructor <;> simp [add_assoc] <;> norm_num

example := C69_integral 1000000 128 (by decide) (by decide)

/-! ### Escape ratios -/

theorem abs_bounds {a b c : ℚ} (h : |a - b| ≤ c) : b - c ≤ a ∧ a ≤ b + c := by
  rw [abs_le] at h; constructor <;> linarith [h.1, h.2]

/-- The arithmetic of `maxSize` with an escape ratio: `P` is the product, `Q` the quotient, `k` the line breaks of an encoding with `n` other characters. -/
theorem ratio_bound {L x ρ P b Q : ℚ} (n k col ls : ℕ) (hL0 : 1 ≤ L) (hL : L ≤ 2 ^ 50) (hx1 : 1 ≤ x) (hx2 : x ≤ 2) (hρ : |ρ - x| ≤ x / 2 ^ 53) (hρ1 : 1 ≤ ρ) (hρ2 : ρ ≤ 2)
    (hP : |P - L * ρ| ≤ L * ρ / 2 ^ 53) (hb : b = ls) (hb1 : 1 ≤ ls) (hQ : |Q - P / b| ≤ |P / b| / 2 ^ 53) :
    |P - L * x| ≤ 1 / 2 ∧ |Q - P / b| ≤ 1 / 2 ∧ ((n : ℚ) ≤ L * x → (k = 0 ∨ ls * k + 1 ≤ col + n) → col < ls → (n : ℤ) ≤ ⌈P⌉ ∧ (k : ℤ) - 1 ≤ ⌊Q⌋) := by
  have hb0 : (1 : ℚ) ≤ b := by rw [hb]; exact_mod_cast hb1
  have e1 : |P - L * x| ≤ 1 / 2 := by
    have a1 : |L * ρ - L * x| ≤ L * (x / 2 ^ 53) := by
      rw [← mul_sub, abs_mul, abs_of_nonneg (by linarith)]; gcongr
    have a2 : L * (x / 2 ^ 53) ≤ 2 ^ 50 * (2 / 2 ^ 53) := by gcongr
    have a3 : L * ρ / 2 ^ 53 ≤ 2 ^ 50 * 2 / 2 ^ 53 := by gcongr
    have a4 := abs_add_le (P - L * ρ) (L * ρ - L * x)
    rw [sub_add_sub_cancel] at a4
    norm_num at a2 a3
    linarith
  have hxL : 1 ≤ L * x := by nlinarith
  have hxL2 : L * x ≤ 2 ^ 51 := by
    calc L * x ≤ 2 ^ 50 * 2 := by gcongr
      _ = 2 ^ 51 := by norm_num
  obtain ⟨p1, p2⟩ := abs_bounds e1
  have hP0 : 0 < P := by linarith
  have hPb : 0 < P / b := div_pos hP0 (by linarith)
  have e2 : |Q - P / b| ≤ 1 / 2 / b := by
    refine hQ.trans ?_
    rw [abs_of_pos hPb, div_right_comm]
    refine div_le_div_of_nonneg_right ?_ (by linarith)
    rw [div_le_iff₀ (by norm_num)]
    norm_num at hxL2 ⊢; linarith
  have e3 : 1 / 2 / b ≤ 1 / 2 := div_le_self (by norm_num) hb0
  refine ⟨e1, e2.trans e3, fun hn hk hcol => ⟨?_, ?_⟩⟩
  · have : ((n : ℤ) : ℚ) - 1 < P := by push_cast; linarith
    have h2 : ((n : ℤ) : ℚ) - 1 < ⌈P⌉ := lt_of_lt_of_le this (Int.le_ceil P)
    have h3 : (n : ℤ) - 1 < ⌈P⌉ := by exact_mod_cast h2
    omega
  · obtain ⟨q1, q2⟩ := abs_bounds e2
    rcases hk with rfl | hk
    · have : (-1 : ℤ) ≤ ⌊Q⌋ := Int.le_floor.2 (by push_cast; linarith)
      simpa using this
    · rw [Int.le_floor]
      push_cast
      have h4 : (ls : ℚ) * k + 1 ≤ col + n := by exact_mod_cast hk
      have h5 : (col : ℚ) + 1 ≤ ls := by exact_mod_cast hcol
      rw [← hb] at h4 h5
      have h6 : ((k : ℚ) - 1) * b + 3 / 2 ≤ P := by nlinarith
      have h7 : (k : ℚ) - 1 + 3 / 2 / b ≤ P / b := by
        rw [le_div_iff₀ (by linarith), add_mul, div_mul_cancel₀ _ (by linarith)]; exact h6
      have h8 : (0 : ℚ) ≤ 1 / b := by positivity
      have h9 : 3 / 2 / b = 1 / 2 / b + 1 / b := by field_simp; norm_num
      linarith

theorem escFactor_fin (r : ℚ) : escFactor (some (.fin r)) = Number.rnd (r + 1) := by
  by_cases h : r = 0
  · subst h; simp [escFactor, Number.ne, Number.add]
  · simp [escFactor, Number.falsy, h, Number.add]

/-- C69, which escape ratios are accepted: a finite ratio makes `maxSize` throw iff it is below `-2^-54` or above `1 + 2^-52`, that is, outside [0, 1] by more than rounding hides;
infinite ratios always throw. -/
theorem C69_ratio_range (len r : ℚ) (hlen : len ≠ 0) (lso : Option Number) :
    ((∃ msg, maxSizeN (some (.fin len)) lso (some (.fin r)) = .throw msg) ↔ r < -(1 / 2 ^ 54) ∨ 1 + 1 / 2 ^ 52 < r) ∧
    ((∃ m, maxSizeN (some (.fin len)) lso (some (.fin r)) = .ret m) ↔ ¬ (r < -(1 / 2 ^ 54) ∨ 1 + 1 / 2 ^ 52 < r)) ∧
    ∀ neg, ∃ msg, maxSizeN (some (.fin len)) lso (some (.inf neg)) = .throw msg := by
  have hf : (Number.fin len).falsy = false := by simp [Number.falsy, hlen]
  have h1 : (Number.lt (Number.rnd (r + 1)) (.fin 1) || Number.lt (.fin 2) (Number.rnd (r + 1))) = true ↔ r < -(1 / 2 ^ 54) ∨ 1 + 1 / 2 ^ 52 < r := by
    rw [Bool.or_eq_true, Number.rnd_lt_one, Number.two_lt_rnd]
    constructor
    · rintro (h | h)
      · left; linarith
      · right; linarith
    · rintro (h | h)
      · left; linarith
      · right; linarith
  simp only [maxSizeN, hf, Bool.false_eq_true, if_false, escFactor_fin]
  refine ⟨?_, ?_, ?_⟩
  · rw [← h1]
    constructor
    · rintro ⟨m, h⟩
      by_contra hc
      rw [if_neg hc] at h; cases h
    · intro h; rw [if_pos h]; exact ⟨_, rfl⟩
  · rw [← h1]
    constructor
    · rintro ⟨m, h⟩ hc
      rw [if_pos hc] at h; cases h
    · intro h; rw [if_neg h]; exact ⟨_, rfl⟩
  · intro neg
    have : escFactor (some (.inf neg)) = .inf neg := by simp [escFactor, Number.falsy, Number.add]
    rw [this]
    cases neg <;> simp [Number.lt]

/-- the Number after 1 is accepted although it is greater than 1 -/
example : ∃ m, maxSizeN (some (.fin 1000)) none (some (.fin (1 + 1 / 2 ^ 52))) = .ret m :=
  (C69_ratio_range 1000 (1 + 1 / 2 ^ 52) (by norm_num) none).2.1.2 (by norm_num)

example : ∃ msg, maxSizeN (some (.fin 1000)) none (some (.fin (-1 / 10))) = .throw msg :=
  (C69_ratio_range 1000 (-1 / 10) (by norm_num) none).1.2 (by norm_num)

/-- C69, escape ratios: for every ratio in [0, 1] and at most `2^50` bytes of data, if at most that part of the bytes is escaped (the encoding contains that many `=`) then the encoding fits
into `maxSize` with that ratio, with 64 bytes to spare.  And the result is what the ratio promises, up to the fixed padding and rounding. -/
theorem C69_ratio (he : Enc.IsImpl eimpl) (d : List Byte) (ls col : Nat) (h1 : 1 ≤ ls) (h2 : ls + 6 < 2 ^ 31) (h3 : col < ls) (hlen : d.length ≤ 2 ^ 50) (hne : d ≠ [])
    (r : ℚ) (r0 : 0 ≤ r) (r1 : r ≤ 1) :
    ∃ e m, Enc.apiEncode eimpl [.buffer d, .int ls, .int col] = .ret e ∧
      maxSizeN (some (.fin d.length)) (some (.fin ls)) (some (.fin r)) = .ret (.fin m) ∧
      ((e.count EQ : ℚ) ≤ r * d.length → (e.length : ℚ) + 64 ≤ m) ∧
      m ≤ (1 + r) * d.length + 2 * ((1 + r) * d.length / ls) + 72 := by
  obtain ⟨k, k1, k2⟩ := Enc.encode_size_esc ls h1 true col d
  have hE := C03_encode_reference he d ls col h1 h2 h3
  generalize Spec.encode ls true col d = e at *
  have hd0 : d.length ≠ 0 := by simpa using hne
  generalize d.length = len at *
  have hL0 : (1 : ℚ) ≤ len := by exact_mod_cast (by omega : 1 ≤ len)
  have hL : (len : ℚ) ≤ 2 ^ 50 := by exact_mod_cast hlen
  have hls : (1 : ℚ) ≤ ls := by exact_mod_cast h1
  have hb : (ls : ℚ) ≤ 2 ^ 53 := by exact_mod_cast (by omega : ls ≤ 2 ^ 53)
  have tiny : ∀ x : ℚ, (2 : ℚ) ^ (-60 : ℤ) ≤ x → (2 : ℚ) ^ (-1022 : ℤ) ≤ |x| := by
    intro x hx
    refine le_trans ?_ (hx.trans (le_abs_self x))
    exact zpow_le_zpow_right₀ (by norm_num) (by norm_num)
  have big : ∀ x : ℚ, 0 ≤ x → x ≤ 2 ^ 60 → |x| ≤ 2 ^ 1000 := by
    intro x hx hx2
    rw [abs_of_nonneg hx]
    exact hx2.trans (pow_le_pow_right₀ (by norm_num) (by norm_num))
  -- the factor
  have hx1 : (1 : ℚ) ≤ r + 1 := by linarith
  have hx2 : r + 1 ≤ (2 : ℚ) := by linarith
  have er : Number.rnd (r + 1) = .fin (Number.rounded (r + 1)) := Number.rnd_fin (big _ (by linarith) (by norm_num; linarith))
  have hρ := Number.rounded_rel (tiny (r + 1) (by norm_num; linarith))
  rw [abs_of_pos (show 0 < r + 1 by linarith)] at hρ
  have hρ1 : 1 ≤ Number.rounded (r + 1) := by
    by_contra hc
    have := (Number.rounded_lt_one (r + 1)).1 (not_le.1 hc)
    norm_num at this; linarith
  have hρ2 : Number.rounded (r + 1) ≤ 2 := by
    by_contra hc
    have := (Number.two_lt_rounded (r + 1)).1 (not_le.1 hc)
    norm_num at this; linarith
  generalize hρe : Number.rounded (r + 1) = ρ at *
  -- the product
  have hp0 : (1 : ℚ) ≤ len * ρ := by nlinarith
  have hp1 : (len : ℚ) * ρ ≤ 2 ^ 51 := by
    calc (len : ℚ) * ρ ≤ 2 ^ 50 * 2 := by gcongr
      _ = 2 ^ 51 := by norm_num
  have ep : Number.mul (.fin len) (.fin ρ) = .fin (Number.rounded (len * ρ)) := Number.rnd_fin (big _ (by linarith) (by norm_num at hp1 ⊢; linarith))
  have hP := Number.rounded_rel (tiny (len * ρ) (by norm_num; linarith))
  rw [abs_of_pos (show 0 < (len : ℚ) * ρ by linarith)] at hP
  have hPlo : 1 / 2 ≤ Number.rounded (len * ρ) := by
    have := (abs_bounds hP).1
    norm_num at this ⊢; linarith
  have hPhi : Number.rounded (len * ρ) ≤ 2 ^ 51 + 1 := by
    have := (abs_bounds hP).2
    norm_num at this hp1 ⊢; linarith
  generalize hPe : Number.rounded (len * ρ) = P at *
  -- the quotient
  have hq0 : (2 : ℚ) ^ (-60 : ℤ) ≤ P / ls := by
    rw [le_div_iff₀ (by linarith)]
    have : (2 : ℚ) ^ (-60 : ℤ) * ls ≤ 2 ^ (-60 : ℤ) * 2 ^ 53 := by gcongr
    norm_num at this ⊢; linarith
  have hq1 : P / ls ≤ 2 ^ 51 + 1 := (div_le_self (by linarith) hls).trans hPhi
  have eq : Number.div (.fin P) (.fin ls) = .fin (Number.rounded (P / ls)) := by
    simp only [Number.div]
    rw [if_neg (by linarith)]
    exact Number.rnd_fin (big _ (by positivity) (by norm_num at hq1 ⊢; linarith))
  have hQ := Number.rounded_rel (tiny (P / ls) hq0)
  have hQ0 : 0 ≤ Number.rounded (P / ls) := Number.rounded_nonneg (by positivity)
  generalize hQe : Number.rounded (P / ls) = Q at *
  obtain ⟨b1, b2, b3⟩ := ratio_bound (n := len + e.count EQ) (k := k) (col := col) (ls := ls) hL0 hL hx1 hx2 hρ hρ1 hρ2 hP rfl h1 hQ
  obtain ⟨A, hA⟩ : ∃ A : ℕ, ⌈P⌉ = A := ⟨⌈P⌉.toNat, (Int.toNat_of_nonneg (Int.ceil_nonneg (by linarith))).symm⟩
  obtain ⟨B, hB⟩ : ∃ B : ℕ, ⌊Q⌋ = B := ⟨⌊Q⌋.toNat, (Int.toNat_of_nonneg (Int.floor_nonneg.2 hQ0)).symm⟩
  have hAP : (A : ℚ) < P + 1 := by have := Int.ceil_lt_add_one P; rw [hA] at this; exact_mod_cast this
  have hBQ : (B : ℚ) ≤ Q := by have := Int.floor_le Q; rw [hB] at this; exact_mod_cast this
  have hQP := (abs_bounds b2).2
  have hA2 : A ≤ 2 ^ 51 + 2 := by
    have : (A : ℚ) ≤ ((2 ^ 51 + 2 : ℕ) : ℚ) := by push_cast; linarith
    exact_mod_cast this
  have hB2 : B ≤ 2 ^ 51 + 2 := by
    have : (B : ℚ) ≤ ((2 ^ 51 + 2 : ℕ) : ℚ) := by push_cast; linarith
    exact_mod_cast this
  refine ⟨e, ((A + 2 * B + 2 + 64 : ℕ) : ℚ), hE, ?_, ?_, ?_⟩
  · have hf : (Number.fin (len : ℚ)).falsy = false := by rw [falsy_nat]; simpa using hd0
    have hl : lineSizeN (some (.fin ls)) = .fin (ls : ℚ) := by rw [lineSizeN_nat, if_neg (by omega)]
    simp only [maxSizeN, hf, Bool.false_eq_true, if_false, escFactor_fin, er, hl, ep, eq, Number.ceil, Number.floor, hA, hB, Int.cast_natCast]
    rw [if_neg]
    · rw [mul_two_nat _ (by omega), Number.add_nat (by omega), add_fin_nat _ 2 2 (by norm_num) (by omega), add_fin_nat _ 64 64 (by norm_num) (by omega)]
    · simp [Number.lt, hρ1, hρ2]
  · intro hc
    obtain ⟨c1, c2⟩ := b3 (by push_cast; linarith) k2 h3
    rw [hA] at c1; rw [hB] at c2
    have : e.length + 64 ≤ A + 2 * B + 2 + 64 := by omega
    exact_mod_cast this
  · have hPx := (abs_bounds b1).2
    have e1 : P / ls ≤ (1 + r) * len / ls + 1 / 2 := by
      have : P / ls ≤ ((1 + r) * len + 1 / 2) / ls := by gcongr; linarith
      rw [add_div] at this
      have h5 : (1 : ℚ) / 2 / ls ≤ 1 / 2 := div_le_self (by norm_num) hls
      linarith
    push_cast
    linarith

-- seven of ten bytes escaped
example : ∃ e m, Enc.apiEncode Enc.encodeGeneric [.buffer sample, .int (128 : ℕ), .int (0 : ℕ)] = .ret e ∧
    maxSizeN (some (.fin sample.length)) (some (.fin (128 : ℕ))) (some (.fin (7 / 10))) = .ret (.fin m) ∧ (e.length : ℚ) + 64 ≤ m := by
  obtain ⟨e, m, h1, h2, h3, _⟩ := C69_ratio .generic sample 128 0 (by decide) (by decide) (by decide) (by decide) (by decide) (7 / 10) (by norm_num) (by norm_num)
  refine ⟨e, m, h1, h2, h3 ?_⟩
  have h4 := (C03_encode_reference .generic sample 128 0 (by decide) (by decide) (by decide)).symm.trans h1
  have h5 : e.count EQ ≤ 7 := by
    have : Spec.encode 128 true 0 sample = e := by simpa using h4
    rw [← this]; decide
  have h6 : (e.count EQ : ℚ) ≤ 7 := by exact_mod_cast h5
  have h7 : (sample.length : ℚ) = 10 := by norm_num [sample]
  rw [h7]; linarith

/-! ### from_post with Numbers as they are -/

example : Number.ofStr (lit " 0x1F ") = .fin 31 ∧ Number.ofStr (lit "-1.5e1") = .fin (-15) ∧ Number.ofStr (lit "1,5") = .nan ∧ Number.ofStr [] = .fin 0 ∧
    Number.ofStr (lit "0.1") = .fin (3602879701896397 / 2 ^ 55) ∧ Number.ofStr (lit "1e400") = .inf false := by decide +kernel

/-- C61, with any decimal text as the claimed size (leading zeros, any number of digits): "data_size_mismatch" is reported iff its value is not the length of the data. -/
theorem C61_size_digits (h : lib.IsLib) (data : List Byte) (isRaw : Bool) (p : Js.Post) (hp : fromPost lib jsEnv data isRaw = .ret (.ok p))
    (out : List Byte) (ho : p.data = some out) (hlen : out.length < 2 ^ 53) (size : Str) (hf : field p "end" "size" = some size) (hd : isNumber size = true) :
    "data_size_mismatch" ∈ p.warnings ↔ decVal size ≠ out.length := by
  obtain ⟨⟨size', h1, _, h2⟩, _⟩ := C61_warnings_exact h data isRaw p hp out ho _ (Crc.crc1_spec 0 out)
  rw [hf, Option.some.injEq] at h1
  subst h1
  rw [h2]
  show Number.ne (Number.ofStr size) (Number.rnd (out.length : ℕ)) = true ↔ _
  rw [ofStr_digits hd, Number.rnd_nat hlen.le]
  generalize decVal size = v
  generalize out.length = n at *
  by_cases hv : v ≤ 2 ^ 53
  · rw [Number.rnd_nat hv]; simp [Number.ne]
  · refine ⟨fun _ => by omega, fun _ => ?_⟩
    unfold Number.rnd
    split
    · simp [Number.ne]
    · have hv1 : (9007199254740993 : ℚ) ≤ v := by exact_mod_cast (by omega : 9007199254740993 ≤ v)
      have hn1 : (n : ℚ) + 1 ≤ 2 ^ 53 := by exact_mod_cast hlen
      have hpos : (0 : ℚ) < v := by linarith
      have h4 := Number.rounded_rel (x := (v : ℚ)) (by
        rw [abs_of_pos hpos]
        calc (2 : ℚ) ^ (-1022 : ℤ) ≤ 2 ^ (0 : ℤ) := zpow_le_zpow_right₀ (by norm_num) (by norm_num)
          _ ≤ v := by rw [zpow_zero]; linarith)
      rw [abs_of_pos hpos] at h4
      have h5 := (abs_bounds h4).1
      have h6 : (n : ℚ) < Number.rounded v := by norm_num at h5 hn1; linarith
      simp [Number.ne, h6.ne']

set_option maxRecDepth 8000 in
/-- C64 in numbers does not extend beyond `2^53`: sizes there are rounded, and a range of one byte more than the size claimed is not reported. -/
theorem C64_large_false :
    (fun o => match o with | .ret (.ok p) => some (field p "part" "begin", field p "part" "end", field p "end" "size", p.warnings) | _ => none)
      (fromPost genericLib jsEnv (text ("=ybegin part=1 total=1 line=128 size=9007199254740993 name=n\r\n" ++
        "=ypart begin=1 end=9007199254740993\r\n=yend size=9007199254740992 part=1\r\n")) false) =
    some (some (lit "1"), some (lit "9007199254740993"), some (lit "9007199254740992"), ["data_size_mismatch"]) := by
  decide +kernel

end Yenc.Props
