import Verif.Model.Number
import Verif.Lemmas.JsFromPost
import Verif.Lemmas.EncEsc
import Mathlib.Tactic.Linarith
import Mathlib.Tactic.NormNum
import Mathlib.Tactic.Positivity
import Mathlib.Tactic.FieldSimp
/-! Numbers: exactness, rounding errors, comparisons near the limits. -/
namespace Yenc.Js.Number
open Yenc

/-! ### Rounding to an integer -/

theorem roundEven_int (n : ℤ) : roundEven n = n := by
  unfold roundEven
  rw [if_pos (by simp)]; simp

theorem roundEven_err (q : ℚ) : |(roundEven q : ℚ) - q| ≤ 1 / 2 := by
  have h1 := Int.floor_le q
  have h2 := Int.lt_floor_add_one q
  unfold roundEven
  by_cases a : q - ⌊q⌋ < 1 / 2
  · rw [if_pos a, abs_le]; constructor <;> linarith
  · rw [if_neg a]
    by_cases b : 1 / 2 < q - ⌊q⌋
    · rw [if_pos b, abs_le]; push_cast; constructor <;> linarith
    · rw [if_neg b]
      by_cases c : ⌊q⌋ % 2 = 0
      · rw [if_pos c, abs_le]; constructor <;> linarith
      · rw [if_neg c, abs_le]; push_cast; constructor <;> linarith

theorem roundEven_ge {q : ℚ} {n : ℤ} (h : (n : ℚ) ≤ q) : n ≤ roundEven q := by
  have h1 : n ≤ ⌊q⌋ := Int.le_floor.2 h
  unfold roundEven
  by_cases a : q - ⌊q⌋ < 1 / 2
  · rw [if_pos a]; exact h1
  · rw [if_neg a]
    by_cases b : 1 / 2 < q - ⌊q⌋
    · rw [if_pos b]; omega
    · rw [if_neg b]
      by_cases c : ⌊q⌋ % 2 = 0
      · rw [if_pos c]; exact h1
      · rw [if_neg c]; omega

theorem roundEven_le {q : ℚ} {n : ℤ} (h : q ≤ n) : roundEven q ≤ n := by
  have h0 := roundEven_err q
  rw [abs_le] at h0
  by_contra hc
  have : n + 1 ≤ roundEven q := by omega
  have : (n : ℚ) + 1 ≤ roundEven q := by exact_mod_cast this
  linarith

/-- Rounds up to the even `n`, including ties. -/
theorem roundEven_ge_half {q : ℚ} {n : ℤ} (hn : n % 2 = 0) (h : (n : ℚ) - 1 / 2 ≤ q) : n ≤ roundEven q := by
  by_cases hq : (n : ℚ) ≤ q
  · exact roundEven_ge hq
  · have hf : ⌊q⌋ = n - 1 := by
      rw [Int.floor_eq_iff]; push_cast; constructor <;> linarith
    unfold roundEven
    rw [hf]; push_cast
    rw [if_neg (by linarith)]
    split
    · omega
    · rw [if_neg (by omega)]; omega

theorem roundEven_le_half {q : ℚ} {n : ℤ} (hn : n % 2 = 0) (h : q ≤ (n : ℚ) + 1 / 2) : roundEven q ≤ n := by
  by_cases hq : q ≤ (n : ℚ)
  · exact roundEven_le hq
  · have hf : ⌊q⌋ = n := by
      rw [Int.floor_eq_iff]; constructor <;> linarith
    unfold roundEven
    rw [hf]
    by_cases a : q - n < 1 / 2
    · rw [if_pos a]
    · rw [if_neg a, if_neg (by linarith), if_pos hn]

/-! ### Rounding to a binary64 number -/

theorem two_zpow_pos (e : ℤ) : (0 : ℚ) < 2 ^ e := zpow_pos (by norm_num) e

theorem rounded_err (x : ℚ) : |rounded x - x| ≤ 2 ^ lastPlace x / 2 := by
  have h := roundEven_err (x / 2 ^ lastPlace x)
  have hp := two_zpow_pos (lastPlace x)
  unfold rounded
  generalize (2 : ℚ) ^ lastPlace x = t at *
  have hx : x / t * t = x := div_mul_cancel₀ _ hp.ne'
  have : (roundEven (x / t) : ℚ) * t - x = ((roundEven (x / t) : ℚ) - x / t) * t := by rw [sub_mul, hx]
  rw [this, abs_mul, abs_of_pos hp]
  calc |(roundEven (x / t) : ℚ) - x / t| * t ≤ 1 / 2 * t := by gcongr
    _ = t / 2 := by ring

theorem rounded_exact {x : ℚ} (k : ℤ) (h : x = k * 2 ^ lastPlace x) : rounded x = x := by
  have hp := two_zpow_pos (lastPlace x)
  unfold rounded
  have : x / 2 ^ lastPlace x = k := by rw [div_eq_iff hp.ne']; exact h
  rw [this, roundEven_int]; exact h.symm

theorem two_zpow_log {x : ℚ} (h : x ≠ 0) : (2 : ℚ) ^ Int.log 2 |x| ≤ |x| := by
  have := Int.zpow_log_le_self (b := 2) (r := |x|) (by norm_num) (abs_pos.2 h)
  exact_mod_cast this

theorem lt_two_zpow_log (x : ℚ) : |x| < (2 : ℚ) ^ (Int.log 2 |x| + 1) := by
  have := Int.lt_zpow_succ_log_self (b := 2) (by norm_num) |x|
  exact_mod_cast this

/-- Relative error, for numbers that are not very small. -/
theorem rounded_rel {x : ℚ} (h : (2 : ℚ) ^ (-1022 : ℤ) ≤ |x|) : |rounded x - x| ≤ |x| / 2 ^ 53 := by
  have h0 : x ≠ 0 := by
    rintro rfl
    have := two_zpow_pos (-1022)
    rw [abs_zero] at h; exact absurd h (not_le.2 this)
  have h1 := two_zpow_log h0
  have hl : (-1022 : ℤ) ≤ Int.log 2 |x| := by
    have := (Int.zpow_le_iff_le_log (b := 2) (r := |x|) (x := -1022) (by norm_num) (abs_pos.2 h0)).1 (by exact_mod_cast h)
    exact this
  have e : lastPlace x = Int.log 2 |x| - 52 := by unfold lastPlace; omega
  refine (rounded_err x).trans ?_
  rw [e, zpow_sub₀ (by norm_num)]
  have : (2 : ℚ) ^ (52 : ℤ) = 2 ^ 52 := by norm_cast
  rw [this]
  have : (2 : ℚ) ^ Int.log 2 |x| / 2 ^ 52 / 2 = 2 ^ Int.log 2 |x| / 2 ^ 53 := by rw [div_div]; norm_num
  rw [this]
  gcongr

theorem rounded_zero : rounded 0 = 0 := by
  unfold rounded
  have : roundEven (0 / 2 ^ lastPlace 0) = 0 := by rw [zero_div]; exact_mod_cast roundEven_int 0
  rw [this]; simp

theorem rounded_nonneg {x : ℚ} (h : 0 ≤ x) : 0 ≤ rounded x := by
  unfold rounded
  have h1 : (0 : ℤ) ≤ roundEven (x / 2 ^ lastPlace x) := roundEven_ge (by push_cast; exact div_nonneg h (two_zpow_pos _).le)
  have : (0 : ℚ) ≤ roundEven (x / 2 ^ lastPlace x) := by exact_mod_cast h1
  exact mul_nonneg this (two_zpow_pos _).le

/-- Error of a quotient or product of reasonable size. -/
theorem rounded_rel' {x : ℚ} (h : x = 0 ∨ (2 : ℚ) ^ (-1022 : ℤ) ≤ |x|) : |rounded x - x| ≤ |x| / 2 ^ 53 := by
  rcases h with rfl | h
  · simp [rounded_zero]
  · exact rounded_rel h

theorem rnd_fin {x : ℚ} (h : |x| ≤ 2 ^ 1000) : rnd x = fin (rounded x) := by
  unfold rnd
  rw [if_neg]
  rw [not_le]
  have h1 : |rounded x| ≤ 2 ^ 1001 := by
    by_cases hx : (2 : ℚ) ^ (-1022 : ℤ) ≤ |x|
    · have h2 := rounded_rel hx
      have h3 : |rounded x| ≤ |rounded x - x| + |x| := by
        have := abs_add_le (rounded x - x) x
        rwa [sub_add_cancel] at this
      have h4 : |x| / 2 ^ 53 ≤ |x| := div_le_self (abs_nonneg _) (by norm_num)
      have : (2 : ℚ) ^ 1001 = 2 * 2 ^ 1000 := by rw [pow_succ]; ring
      rw [this]; clear this hx; generalize (2 : ℚ) ^ 1000 = B at *; linarith
    · have e : lastPlace x ≤ 0 := by
        have : Int.log 2 |x| < 1 := by
          by_contra hc
          by_cases h0 : x = 0
          · subst h0; simp at hc
          have h5 := two_zpow_log h0
          have h6 : (2 : ℚ) ^ (-1022 : ℤ) ≤ 2 ^ Int.log 2 |x| := zpow_le_zpow_right₀ (by norm_num) (by omega)
          linarith
        unfold lastPlace; omega
      have h2 := rounded_err x
      have h3 : |rounded x| ≤ |rounded x - x| + |x| := by
        have := abs_add_le (rounded x - x) x
        rwa [sub_add_cancel] at this
      have h4 : (2 : ℚ) ^ lastPlace x ≤ 1 := by
        have := zpow_le_zpow_right₀ (a := (2 : ℚ)) (by norm_num) e
        simpa using this
      have : (2 : ℚ) ^ 1001 = 2 * 2 ^ 1000 := by rw [pow_succ]; ring
      have h7 : (1 : ℚ) ≤ 2 ^ 1000 := one_le_pow₀ (by norm_num)
      rw [this]; clear this hx; generalize (2 : ℚ) ^ 1000 = B at *; linarith
  exact h1.trans_lt (pow_lt_pow_right₀ (by norm_num) (by norm_num))

/-- Integers up to `2^53` are exact. -/
theorem rounded_int {n : ℤ} (h : |n| ≤ 2 ^ 53) : rounded (n : ℚ) = n := by
  by_cases h0 : n = 0
  · subst h0; exact_mod_cast rounded_zero
  have hn : (n : ℚ) ≠ 0 := by exact_mod_cast h0
  have e1 : lastPlace (n : ℚ) = Int.log 2 |(n : ℚ)| - 52 := by
    have : (0 : ℤ) ≤ Int.log 2 |(n : ℚ)| := by
      have := (Int.zpow_le_iff_le_log (b := 2) (r := |(n : ℚ)|) (x := 0) (by norm_num) (abs_pos.2 hn)).1
      apply this
      rw [zpow_zero]
      have : (1 : ℤ) ≤ |n| := Int.one_le_abs h0
      exact_mod_cast this
    unfold lastPlace; omega
  have hle : (2 : ℚ) ^ Int.log 2 |(n : ℚ)| ≤ 2 ^ (53 : ℤ) := by
    refine (two_zpow_log hn).trans ?_
    have : (|n| : ℤ) ≤ 2 ^ 53 := h
    have h2 : ((|n| : ℤ) : ℚ) ≤ ((2 ^ 53 : ℤ) : ℚ) := by exact_mod_cast this
    push_cast at h2
    have : (2 : ℚ) ^ (53 : ℤ) = 2 ^ 53 := by norm_cast
    rw [this]; exact h2
  have hlog : Int.log 2 |(n : ℚ)| ≤ 53 := (zpow_le_zpow_iff_right₀ (by norm_num)).1 hle
  by_cases h53 : Int.log 2 |(n : ℚ)| = 53
  · have h1 := two_zpow_log hn
    rw [h53] at h1
    have h2 : (2 : ℚ) ^ (53 : ℤ) = 2 ^ 53 := by norm_cast
    rw [h2] at h1
    have h3 : (2 ^ 53 : ℤ) ≤ |n| := by exact_mod_cast h1
    have h4 : |n| = 2 ^ 53 := le_antisymm h h3
    have e2 : lastPlace (n : ℚ) = 1 := by rw [e1, h53]; norm_num
    rcases abs_eq (by norm_num) |>.1 h4 with h5 | h5
    · exact rounded_exact (2 ^ 52) (by rw [e2, h5]; norm_num)
    · exact rounded_exact (-2 ^ 52) (by rw [e2, h5]; norm_num)
  · obtain ⟨k, hk⟩ : ∃ k : ℕ, lastPlace (n : ℚ) = -(k : ℤ) := ⟨(-lastPlace (n : ℚ)).toNat, by omega⟩
    refine rounded_exact (n * 2 ^ k) ?_
    rw [hk, zpow_neg, zpow_natCast]
    push_cast
    rw [mul_assoc, mul_inv_cancel₀ (by positivity), mul_one]

theorem abs_le_big {x : ℚ} (h : |x| ≤ 2 ^ 200) : |x| ≤ 2 ^ 1000 := h.trans (pow_le_pow_right₀ (by norm_num) (by norm_num))

theorem rnd_int {n : ℤ} (h : |n| ≤ 2 ^ 53) : rnd (n : ℚ) = fin n := by
  rw [rnd_fin, rounded_int h]
  apply abs_le_big
  have : ((|n| : ℤ) : ℚ) ≤ ((2 ^ 53 : ℤ) : ℚ) := by exact_mod_cast h
  push_cast at this
  exact this.trans (by norm_num)

theorem rnd_nat {n : ℕ} (h : n ≤ 2 ^ 53) : rnd (n : ℚ) = fin n := by
  have := rnd_int (n := (n : ℤ)) (by rw [abs_of_nonneg (by omega)]; exact_mod_cast h)
  exact_mod_cast this

/-- Quotients of integers have the right integer part. -/
theorem floor_rounded_div {a b : ℕ} (ha : a < 2 ^ 53) (hb : 1 ≤ b) (hb2 : b ≤ 2 ^ 53) : ⌊rounded ((a : ℚ) / b)⌋ = ((a / b : ℕ) : ℤ) := by
  have hb0 : (0 : ℚ) < b := by exact_mod_cast hb
  obtain ⟨k, r, hk, hr, ha2⟩ : ∃ k r, a / b = k ∧ r < b ∧ a = b * k + r := ⟨a / b, a % b, rfl, Nat.mod_lt _ hb, (Nat.div_add_mod a b).symm⟩
  rw [hk]
  have hkb : (k : ℚ) * b + r = a := by rw [ha2]; push_cast; ring
  have hk53 : k ≤ 2 ^ 53 := by
    have := Nat.div_le_self a b
    omega
  by_cases hr0 : r = 0
  · have : (a : ℚ) / b = ((k : ℤ) : ℚ) := by
      rw [div_eq_iff hb0.ne', ← hkb, hr0]; push_cast; ring
    rw [this, rounded_int (by rw [abs_of_nonneg (by omega)]; exact_mod_cast hk53), Int.floor_intCast]
  · have hq0 : (1 : ℚ) / b ≤ a / b := by
      gcongr
      have : 1 ≤ a := by omega
      exact_mod_cast this
    have hb53 : (b : ℚ) ≤ 2 ^ 53 := by exact_mod_cast hb2
    have hpos : (0 : ℚ) < a / b := lt_of_lt_of_le (by positivity) hq0
    have hsm : (2 : ℚ) ^ (-1022 : ℤ) ≤ |(a : ℚ) / b| := by
      rw [abs_of_pos hpos]
      refine le_trans ?_ hq0
      calc (2 : ℚ) ^ (-1022 : ℤ) ≤ 2 ^ (-53 : ℤ) := zpow_le_zpow_right₀ (by norm_num) (by norm_num)
        _ = 1 / 2 ^ 53 := by norm_num
        _ ≤ 1 / b := by gcongr
    have he := rounded_rel hsm
    rw [abs_of_pos hpos, abs_le] at he
    have hlt : (a : ℚ) / b / 2 ^ 53 < 1 / b := by
      rw [div_div, mul_comm, ← div_div]
      gcongr
      rw [div_lt_one (by positivity)]
      exact_mod_cast ha
    have h1 : (k : ℚ) + 1 / b ≤ a / b := by
      rw [← hkb, add_div, mul_div_assoc, div_self hb0.ne', mul_one]
      have : (1 : ℚ) ≤ r := by exact_mod_cast Nat.one_le_iff_ne_zero.2 hr0
      gcongr
    have h2 : (a : ℚ) / b ≤ k + 1 - 1 / b := by
      have : (r : ℚ) + 1 ≤ b := by exact_mod_cast hr
      have h3 : (r : ℚ) / b + 1 / b ≤ 1 := by rw [← add_div, div_le_one hb0]; exact this
      rw [← hkb, add_div, mul_div_assoc, div_self hb0.ne', mul_one]
      linarith
    rw [Int.floor_eq_iff]
    push_cast
    constructor <;> linarith

theorem floor_div {a b : ℕ} (ha : a < 2 ^ 53) (hb : 1 ≤ b) (hb2 : b ≤ 2 ^ 53) : floor (div (fin a) (fin b)) = fin ((a / b : ℕ) : ℚ) := by
  have hb0 : (b : ℚ) ≠ 0 := by exact_mod_cast (by omega : b ≠ 0)
  have hb1 : (1 : ℚ) ≤ b := by exact_mod_cast hb
  simp only [div, if_neg hb0]
  rw [rnd_fin]
  · simp only [floor, floor_rounded_div ha hb hb2]; push_cast; rfl
  · apply abs_le_big
    rw [abs_of_nonneg (by positivity)]
    have h1 : (a : ℚ) / b ≤ a := div_le_self (by positivity) hb1
    have h2 : (a : ℚ) ≤ 2 ^ 53 := by exact_mod_cast ha.le
    exact (h1.trans h2).trans (by norm_num)

theorem add_nat {a b : ℕ} (h : a + b ≤ 2 ^ 53) : add (fin a) (fin b) = fin ((a + b : ℕ) : ℚ) := by
  have := rnd_nat h
  simp only [add]; push_cast at this ⊢; exact this

theorem mul_nat {a b : ℕ} (h : a * b ≤ 2 ^ 53) : mul (fin a) (fin b) = fin ((a * b : ℕ) : ℚ) := by
  have := rnd_nat h
  simp only [mul]; push_cast at this ⊢; exact this

/-! ### Near 1 and 2 -/

theorem lastPlace_eq {x : ℚ} (k : ℤ) (hk : -1022 ≤ k) (h1 : (2 : ℚ) ^ k ≤ x) (h2 : x < (2 : ℚ) ^ (k + 1)) : lastPlace x = k - 52 := by
  have hx : 0 < x := lt_of_lt_of_le (two_zpow_pos k) h1
  have ha : |x| = x := abs_of_pos hx
  have e1 : k ≤ Int.log 2 |x| := (Int.zpow_le_iff_le_log (b := 2) (by norm_num) (by rw [ha]; exact hx)).1 (by rw [ha]; exact_mod_cast h1)
  have e2 : Int.log 2 |x| < k + 1 := (Int.lt_zpow_iff_log_lt (b := 2) (by norm_num) (by rw [ha]; exact hx)).1 (by rw [ha]; exact_mod_cast h2)
  unfold lastPlace; omega

theorem rounded_ge {x : ℚ} {n k : ℤ} (hk : lastPlace x = k) (h : (n : ℚ) * 2 ^ k ≤ x) : (n : ℚ) * 2 ^ k ≤ rounded x := by
  unfold rounded
  rw [hk]
  have hp := two_zpow_pos k
  have := roundEven_ge (q := x / 2 ^ k) (n := n) (by rw [le_div_iff₀ hp]; exact h)
  have : (n : ℚ) ≤ roundEven (x / 2 ^ k) := by exact_mod_cast this
  gcongr

theorem rounded_le {x : ℚ} {n k : ℤ} (hk : lastPlace x = k) (h : x ≤ (n : ℚ) * 2 ^ k) : rounded x ≤ (n : ℚ) * 2 ^ k := by
  unfold rounded
  rw [hk]
  have hp := two_zpow_pos k
  have := roundEven_le (q := x / 2 ^ k) (n := n) (by rw [div_le_iff₀ hp]; exact h)
  have : (roundEven (x / 2 ^ k) : ℚ) ≤ n := by exact_mod_cast this
  gcongr

theorem rounded_nonpos {x : ℚ} (h : x ≤ 0) : rounded x ≤ 0 := by
  have := rounded_le (x := x) (n := 0) rfl (by simpa using h)
  simpa using this

/-- A number is rounded to less than 1 iff it is less than one by more than a quarter of the spacing above 1. -/
theorem rounded_lt_one (x : ℚ) : rounded x < 1 ↔ x < 1 - 1 / 2 ^ 54 := by
  by_cases h0 : x ≤ 0
  · have := rounded_nonpos h0
    constructor <;> intro _ <;> norm_num at * <;> linarith
  rw [not_le] at h0
  by_cases h1 : x < 1 / 2
  · have hl : lastPlace x ≤ -54 := by
      have : Int.log 2 |x| < -1 := (Int.lt_zpow_iff_log_lt (b := 2) (by norm_num) (abs_pos.2 h0.ne')).1 (by rw [abs_of_pos h0]; norm_num; linarith)
      unfold lastPlace; omega
    have h2 := (abs_le.1 (rounded_err x)).2
    have h3 : (2 : ℚ) ^ lastPlace x ≤ 2 ^ (-54 : ℤ) := zpow_le_zpow_right₀ (by norm_num) hl
    norm_num at h3
    constructor <;> intro _ <;> norm_num <;> linarith
  rw [not_lt] at h1
  by_cases h2 : x < 1
  · have hl : lastPlace x = -53 := by
      have := lastPlace_eq (x := x) (-1) (by norm_num) (by norm_num; linarith) (by norm_num; exact h2)
      omega
    have e : rounded x = roundEven (x * 2 ^ 53) / 2 ^ 53 := by
      unfold rounded
      rw [hl, show (2 : ℚ) ^ (-53 : ℤ) = (2 ^ 53)⁻¹ by norm_cast, div_inv_eq_mul, div_eq_mul_inv]
    rw [e, div_lt_one (by norm_num)]
    have key : roundEven (x * 2 ^ 53) < 2 ^ 53 ↔ x < 1 - 1 / 2 ^ 54 := by
      constructor
      · intro hlt
        by_contra hc
        have := roundEven_ge_half (q := x * 2 ^ 53) (n := 2 ^ 53) (by norm_num) (by norm_num at hc ⊢; linarith)
        omega
      · intro hlt
        by_contra hc
        have h3 := (abs_le.1 (roundEven_err (x * 2 ^ 53))).2
        have h4 : ((2 ^ 53 : ℤ) : ℚ) ≤ roundEven (x * 2 ^ 53) := by exact_mod_cast not_lt.1 hc
        norm_num at h4 hlt h3
        linarith
    rw [← key]
    constructor
    · intro h; exact_mod_cast h
    · intro h; exact_mod_cast h
  rw [not_lt] at h2
  have hge : 1 ≤ rounded x := by
    by_cases h3 : x < 2
    · have hl := lastPlace_eq (x := x) 0 (by norm_num) (by norm_num; exact h2) (by norm_num; exact h3)
      have := rounded_ge (n := 2 ^ 52) hl (by norm_num; exact h2)
      norm_num at this; exact this
    · have h4 := rounded_rel (x := x) (by
        rw [abs_of_pos h0]
        calc (2 : ℚ) ^ (-1022 : ℤ) ≤ 2 ^ (0 : ℤ) := zpow_le_zpow_right₀ (by norm_num) (by norm_num)
          _ ≤ x := by simpa using h2)
      rw [abs_of_pos h0] at h4
      have h5 := (abs_le.1 h4).1
      norm_num at h5
      linarith
  constructor <;> intro _ <;> norm_num at * <;> linarith

/-- A number is rounded to more than 2 iff it exceeds 2 by more than half the spacing there. -/
theorem two_lt_rounded (x : ℚ) : 2 < rounded x ↔ 2 + 1 / 2 ^ 52 < x := by
  by_cases h0 : x ≤ 0
  · have := rounded_nonpos h0
    constructor <;> intro _ <;> norm_num at * <;> linarith
  rw [not_le] at h0
  by_cases h1 : x < 1
  · have := (rounded_lt_one x)
    by_cases h2 : x < 1 - 1 / 2 ^ 54
    · have := this.2 h2
      constructor <;> intro _ <;> norm_num at * <;> linarith
    · have hl : lastPlace x = -53 := by
        have := lastPlace_eq (x := x) (-1) (by norm_num) (by norm_num at *; linarith) (by norm_num; exact h1)
        omega
      have := rounded_le (n := 2 ^ 53) hl (by norm_num; linarith)
      norm_num at this
      constructor <;> intro _ <;> norm_num at * <;> linarith
  rw [not_lt] at h1
  by_cases h2 : x < 2
  · have hl := lastPlace_eq (x := x) 0 (by norm_num) (by norm_num; exact h1) (by norm_num; exact h2)
    have := rounded_le (n := 2 ^ 53) hl (by norm_num; exact h2.le)
    norm_num at this
    constructor <;> intro _ <;> norm_num at * <;> linarith
  rw [not_lt] at h2
  by_cases h3 : x < 4
  · have hl : lastPlace x = -51 := by
      have := lastPlace_eq (x := x) 1 (by norm_num) (by norm_num; exact h2) (by norm_num; exact h3)
      omega
    have e : rounded x = roundEven (x * 2 ^ 51) / 2 ^ 51 := by
      unfold rounded
      rw [hl, show (2 : ℚ) ^ (-51 : ℤ) = (2 ^ 51)⁻¹ by norm_cast, div_inv_eq_mul, div_eq_mul_inv]
    have key : 2 ^ 52 < roundEven (x * 2 ^ 51) ↔ 2 + 1 / 2 ^ 52 < x := by
      constructor
      · intro hlt
        by_contra hc
        have := roundEven_le_half (q := x * 2 ^ 51) (n := 2 ^ 52) (by norm_num) (by norm_num at hc ⊢; linarith)
        omega
      · intro hlt
        by_contra hc
        have h3 := (abs_le.1 (roundEven_err (x * 2 ^ 51))).1
        have h4 : (roundEven (x * 2 ^ 51) : ℚ) ≤ ((2 ^ 52 : ℤ) : ℚ) := by exact_mod_cast not_lt.1 hc
        norm_num at h4 hlt h3
        linarith
    rw [← key, e, lt_div_iff₀ (by norm_num)]
    constructor
    · intro h
      have : ((2 ^ 52 : ℤ) : ℚ) < roundEven (x * 2 ^ 51) := by norm_num at h ⊢; exact h
      exact_mod_cast this
    · intro h
      have : ((2 ^ 52 : ℤ) : ℚ) < roundEven (x * 2 ^ 51) := by exact_mod_cast h
      norm_num at this ⊢; exact this
  · have h4 := rounded_rel (x := x) (by
      rw [abs_of_pos h0]
      calc (2 : ℚ) ^ (-1022 : ℤ) ≤ 2 ^ (0 : ℤ) := zpow_le_zpow_right₀ (by norm_num) (by norm_num)
        _ ≤ x := by simpa using h1)
    rw [abs_of_pos h0] at h4
    have h5 := (abs_le.1 h4).1
    norm_num at h5
    constructor <;> intro _ <;> norm_num at * <;> linarith

theorem rnd_lt_one (x : ℚ) : lt (rnd x) (fin 1) = true ↔ x < 1 - 1 / 2 ^ 54 := by
  unfold rnd
  split
  · rename_i h
    simp only [lt, decide_eq_true_eq]
    by_cases hx : x < 0
    · refine ⟨fun _ => ?_, fun _ => hx⟩
      norm_num; linarith
    · have h1 := rounded_nonneg (not_lt.1 hx)
      rw [abs_of_nonneg h1] at h
      have h2 : ¬ rounded x < 1 := by
        have : (1 : ℚ) ≤ 2 ^ 1024 := one_le_pow₀ (by norm_num)
        exact not_lt.2 (this.trans h)
      rw [rounded_lt_one] at h2
      exact ⟨fun h => absurd h hx, fun h => absurd h h2⟩
  · simp only [lt, decide_eq_true_eq]; exact rounded_lt_one x

theorem two_lt_rnd (x : ℚ) : lt (fin 2) (rnd x) = true ↔ 2 + 1 / 2 ^ 52 < x := by
  unfold rnd
  split
  · rename_i h
    simp only [lt, Bool.not_eq_true', decide_eq_false_iff_not, not_lt]
    by_cases hx : x < 0
    · refine ⟨fun h => absurd hx (not_lt.2 h), fun h => ?_⟩
      norm_num at h; linarith
    · have h1 := rounded_nonneg (not_lt.1 hx)
      rw [abs_of_nonneg h1] at h
      have h2 : 2 < rounded x := by
        have : (2 : ℚ) < 2 ^ 1024 := by
          calc (2 : ℚ) < 2 ^ 2 := by norm_num
            _ ≤ 2 ^ 1024 := pow_le_pow_right₀ (by norm_num) (by norm_num)
        exact this.trans_le h
      rw [two_lt_rounded] at h2
      exact ⟨fun _ => h2, fun _ => not_lt.1 hx⟩
  · simp only [lt, decide_eq_true_eq]; exact two_lt_rounded x

end Yenc.Js.Number
