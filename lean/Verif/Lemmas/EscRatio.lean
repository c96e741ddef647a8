import Verif.Spec.YEnc
import Mathlib.Algebra.BigOperators.Fin
import Mathlib.Data.Fintype.BigOperators
import Mathlib.Algebra.BigOperators.Ring.Finset
import Mathlib.Algebra.Order.BigOperators.Group.Finset
import Mathlib.Tactic.Linarith
import Mathlib.Tactic.Ring
import Mathlib.Tactic.FieldSimp
import Mathlib.Tactic.NormNum
/-! How many bytes are escaped on average. -/
namespace Yenc.Ratio
open Yenc Spec

/-- The bytes `d` as a list. -/
def bytes {n : Nat} (d : Fin n → Fin 256) : List Byte := List.ofFn fun i => BitVec.ofFin (d i)

/-- Number of escape characters in the encoding. -/
def esc (ls col : Nat) (d : List Byte) : Nat := (encode ls true col d).count EQ

/-- Is the byte escaped? -/
def isEsc (ls col : Nat) (last : Bool) (c : Fin 256) : Bool := mustEscape ls col last (BitVec.ofFin c + 42#8)

theorem count_encChar : ∀ (col0 lastcol last : Bool) (c : Fin 256),
    ((if (critical (BitVec.ofFin c + 42#8) || (BitVec.ofFin c + 42#8 = DOT && col0) || ((BitVec.ofFin c + 42#8 = TAB || BitVec.ofFin c + 42#8 = SP) && (col0 || lastcol || last))) = true
      then [EQ, BitVec.ofFin c + 42#8 + 64#8] else [BitVec.ofFin c + 42#8]).count EQ) =
      (if (critical (BitVec.ofFin c + 42#8) || (BitVec.ofFin c + 42#8 = DOT && col0) || ((BitVec.ofFin c + 42#8 = TAB || BitVec.ofFin c + 42#8 = SP) && (col0 || lastcol || last))) = true
      then 1 else 0) := by decide +kernel

theorem card_esc : ∀ (col0 lastcol last : Bool), (Finset.univ.filter fun c : Fin 256 =>
    (critical (BitVec.ofFin c + 42#8) || (BitVec.ofFin c + 42#8 = DOT && col0) || ((BitVec.ofFin c + 42#8 = TAB || BitVec.ofFin c + 42#8 = SP) && (col0 || lastcol || last))) = true).card =
      if col0 then 7 else if lastcol || last then 6 else 4 := by decide +kernel

theorem encChar_count (ls col : Nat) (last : Bool) (c : Fin 256) :
    (encChar ls col last (BitVec.ofFin c + 42#8)).count EQ = if isEsc ls col last c then 1 else 0 := by
  have := count_encChar (decide (col = 0)) (decide (col + 1 = ls)) last c
  simpa [encChar, isEsc, mustEscape] using this

theorem encChar_len (ls col : Nat) (last : Bool) (c : Fin 256) :
    (encChar ls col last (BitVec.ofFin c + 42#8)).length = if isEsc ls col last c then 2 else 1 := by
  unfold encChar isEsc; split <;> rfl

/-- How many of the 256 bytes are escaped. -/
def num (ls col : Nat) (last : Bool) : Nat := if col = 0 then 7 else if col + 1 = ls ∨ last = true then 6 else 4

theorem isEsc_card (ls col : Nat) (last : Bool) : (Finset.univ.filter fun c : Fin 256 => isEsc ls col last c = true).card = num ls col last := by
  refine (show _ = _ from card_esc (decide (col = 0)) (decide (col + 1 = ls)) last).trans ?_
  simp [num]

/-- The column where the next character really goes. -/
def norm (ls col : Nat) : Nat := if ls ≤ col then 0 else col

theorem esc_cons (ls col : Nat) (c : Fin 256) (cs : List Byte) : esc ls col (BitVec.ofFin c :: cs) =
    if isEsc ls (norm ls col) cs.isEmpty c then 1 + esc ls (norm ls col + 2) cs else esc ls (norm ls col + 1) cs := by
  unfold esc norm
  rw [encode]
  by_cases h : ls ≤ col
  · simp only [h, if_true, Bool.true_and, List.cons_append, List.count_cons, List.count_append, encChar_count, encChar_len, show (CR == EQ) = false by decide, show (LF == EQ) = false by decide,
      Bool.false_eq_true, if_false]
    split <;> simp
  · simp only [h, if_false, Bool.true_and, List.count_append, encChar_count, encChar_len]
    split <;> simp

/-- Sum over all data of `n` bytes. -/
def total (ls col n : Nat) : Nat := ∑ d : Fin n → Fin 256, esc ls col (bytes d)

theorem total_zero (ls col : Nat) : total ls col 0 = 0 := by
  simp [total, bytes, esc, encode]

theorem total_succ (ls col n : Nat) : total ls col (n + 1) =
    num ls (norm ls col) (n == 0) * (256 ^ n + total ls (norm ls col + 2) n) + (256 - num ls (norm ls col) (n == 0)) * total ls (norm ls col + 1) n := by
  unfold total
  rw [← (Fin.consEquiv fun _ => Fin 256).sum_comp, Fintype.sum_prod_type]
  have e : ∀ (c : Fin 256), (∑ d : Fin n → Fin 256, esc ls col (bytes ((Fin.consEquiv fun _ => Fin 256) (c, d)))) =
      if isEsc ls (norm ls col) (n == 0) c then 256 ^ n + ∑ d : Fin n → Fin 256, esc ls (norm ls col + 2) (bytes d)
        else ∑ d : Fin n → Fin 256, esc ls (norm ls col + 1) (bytes d) := by
    intro c
    have e1 : ∀ d : Fin n → Fin 256, esc ls col (bytes ((Fin.consEquiv fun _ => Fin 256) (c, d))) =
        if isEsc ls (norm ls col) (n == 0) c then 1 + esc ls (norm ls col + 2) (bytes d) else esc ls (norm ls col + 1) (bytes d) := by
      intro d
      have hb : bytes ((Fin.consEquiv fun _ => Fin 256) (c, d)) = BitVec.ofFin c :: bytes d := by
        unfold bytes; rw [List.ofFn_succ]; rfl
      have hl : (bytes d).isEmpty = (n == 0) := by
        unfold bytes
        cases n <;> simp
      rw [hb, esc_cons, hl]
    simp only [e1]
    split
    · rw [Finset.sum_add_distrib]; simp
    · rfl
  simp only [e]
  rw [Finset.sum_ite]
  simp only [Finset.sum_const, smul_eq_mul]
  rw [isEsc_card]
  congr 2
  have := Finset.card_filter_add_card_filter_not (s := (Finset.univ : Finset (Fin 256))) (fun c => isEsc ls (norm ls col) (n == 0) c = true)
  rw [isEsc_card] at this
  simp only [Finset.card_univ, Fintype.card_fin] at this
  omega

/-- The mean. -/
def mean (ls col n : Nat) : ℚ := total ls col n / 256 ^ n

theorem mean_zero (ls col : Nat) : mean ls col 0 = 0 := by simp [mean, total_zero]

theorem num_le (ls col : Nat) (last : Bool) : num ls col last ≤ 7 := by unfold num; split <;> [skip; split] <;> omega

theorem mean_succ (ls col n : Nat) : mean ls col (n + 1) =
    (num ls (norm ls col) (n == 0) : ℚ) / 256 * (1 + mean ls (norm ls col + 2) n) + (1 - (num ls (norm ls col) (n == 0) : ℚ) / 256) * mean ls (norm ls col + 1) n := by
  unfold mean
  rw [total_succ]
  have := num_le ls (norm ls col) (n == 0)
  push_cast [Nat.cast_sub (show num ls (norm ls col) (n == 0) ≤ 256 by omega)]
  have h : (256 : ℚ) ^ n ≠ 0 := by positivity
  rw [pow_succ]
  field_simp

/-! ### Bounds -/

theorem norm_lt (ls col : Nat) (h : 1 ≤ ls) : norm ls col < ls := by unfold norm; split <;> omega

theorem norm_of_lt {ls col : Nat} (h : col < ls) : norm ls col = col := by unfold norm; rw [if_neg (by omega)]

theorem norm_of_le {ls col : Nat} (h : ls ≤ col) : norm ls col = 0 := by unfold norm; rw [if_pos h]

/-- The potential for the upper bound. -/
def phi (s : ℚ) (c : Nat) : ℚ := if c = 0 then 5 + 3 * s / 256 else 2 + s * c

theorem mean_upper (ls : Nat) (h1 : 1 ≤ ls) (s : ℚ) (hs : s * ls = 5) (n col : Nat) :
    256 * mean ls col n ≤ (4 + s * (65 / 64)) * n + phi s (norm ls col) := by
  have hl : (1 : ℚ) ≤ ls := by exact_mod_cast h1
  have s0 : 0 < s := by
    by_contra hc
    nlinarith
  have s5 : s ≤ 5 := by nlinarith
  have p2 : ∀ c, 2 ≤ phi s c := by
    intro c; unfold phi; split
    · linarith
    · have : (0 : ℚ) ≤ c := by positivity
      nlinarith
  have pn : ∀ c, 1 ≤ c → phi s (norm ls c) ≤ 2 + s * c := by
    intro c hc
    rcases Nat.lt_or_ge c ls with h | h
    · rw [norm_of_lt h, phi, if_neg (by omega)]
    · rw [norm_of_le h, phi, if_pos rfl]
      have : (ls : ℚ) ≤ c := by exact_mod_cast h
      nlinarith
  induction n generalizing col with
  | zero =>
    rw [mean_zero]
    have := p2 (norm ls col)
    simp only [Nat.cast_zero]; linarith
  | succ n ih =>
    rw [mean_succ]
    have hc := norm_lt ls col h1
    generalize norm ls col = c at hc
    have i1 := ih (c + 1)
    have i2 := ih (c + 2)
    have q1 := pn (c + 1) (by omega)
    have q2 := pn (c + 2) (by omega)
    push_cast at *
    cases n with
    | zero =>
      simp only [mean_zero, Nat.cast_zero]
      have := p2 c
      by_cases h0 : c = 0
      · have : phi s c = 5 + 3 * s / 256 := by rw [phi, if_pos h0]
        have : num ls c (0 == 0) = 7 := by rw [num, if_pos h0]
        rw [this]; push_cast; linarith
      · have : (num ls c (0 == 0) : ℚ) ≤ 6 := by
          have : num ls c (0 == 0) ≤ 6 := by rw [num, if_neg h0]; split <;> omega
          exact_mod_cast this
        linarith
    | succ m =>
      have hb : (m + 1 == 0) = false := rfl
      rw [hb]
      push_cast at *
      by_cases h0 : c = 0
      · have e : num ls c false = 7 := by rw [num, if_pos h0]
        have e2 : phi s c = 5 + 3 * s / 256 := by rw [phi, if_pos h0]
        have e3 : (c : ℚ) = 0 := by rw [h0]; simp
        rw [e, e2]
        rw [e3] at q1 q2
        push_cast
        linarith
      · have e2 : phi s c = 2 + s * c := by rw [phi, if_neg h0]
        rw [e2]
        by_cases hl : c + 1 = ls
        · have e : num ls c false = 6 := by rw [num, if_neg h0, if_pos (.inl hl)]
          have z : phi s 0 = 5 + 3 * s / 256 := by rw [phi, if_pos rfl]
          rw [norm_of_le (show ls ≤ c + 1 by omega), z] at i1
          rw [norm_of_le (show ls ≤ c + 2 by omega), z] at i2
          have e4 : s * c + s = 5 := by
            have : (ls : ℚ) = c + 1 := by rw [← hl]; push_cast; ring
            rw [this] at hs; linarith
          rw [e]; push_cast
          linarith
        · have e : num ls c false = 4 := by rw [num, if_neg h0, if_neg (by simp [hl])]
          rw [e]; push_cast
          linarith

/-- The potential for the lower bound. -/
def psi (r : ℚ) (ls c : Nat) : ℚ := if c = 0 then 3 else if c + 1 = ls then 5 - r * (65 / 64) else r * c

theorem mean_lower (ls : Nat) (h1 : 3 ≤ ls) (r : ℚ) (hr : r * (ls + 1 / 64) = 5 - 1 / 32) (n col : Nat) :
    (4 + r * (65 / 64)) * n + psi r ls (norm ls col) - 5 ≤ 256 * mean ls col n := by
  have hl : (3 : ℚ) ≤ ls := by exact_mod_cast h1
  have r0 : 0 < r := by
    by_contra hc
    nlinarith
  have r2 : r ≤ 5 / 3 := by nlinarith
  have pu : ∀ c, c < ls → psi r ls c ≤ 5 := by
    intro c hc; unfold psi; split
    · norm_num
    · split
      · nlinarith
      · have : (c : ℚ) ≤ ls := by exact_mod_cast hc.le
        nlinarith
  have pl : ∀ c, 1 ≤ c → c < ls → r * c ≤ psi r ls c := by
    intro c h0 hc
    rw [psi, if_neg (by omega)]
    split
    · rename_i h
      have : (ls : ℚ) = c + 1 := by rw [← h]; push_cast; ring
      rw [this] at hr; nlinarith
    · exact le_refl _
  induction n generalizing col with
  | zero =>
    rw [mean_zero]
    have := pu (norm ls col) (norm_lt ls col (by omega))
    simp only [Nat.cast_zero]; linarith
  | succ n ih =>
    rw [mean_succ]
    have hc := norm_lt ls col (by omega)
    generalize norm ls col = c at hc
    have i1 := ih (c + 1)
    have i2 := ih (c + 2)
    push_cast at *
    cases n with
    | zero =>
      simp only [mean_zero, Nat.cast_zero]
      by_cases h0 : c = 0
      · have : psi r ls c = 3 := by rw [psi, if_pos h0]
        have : num ls c (0 == 0) = 7 := by rw [num, if_pos h0]
        rw [this]; push_cast; linarith
      · have : num ls c (0 == 0) = 6 := by rw [num, if_neg h0, if_pos (by simp)]
        rw [this]; push_cast
        have := pu c hc
        by_cases hl : c + 1 = ls
        · have : psi r ls c = 5 - r * (65 / 64) := by rw [psi, if_neg h0, if_pos hl]
          linarith
        · have : psi r ls c = r * c := by rw [psi, if_neg h0, if_neg hl]
          have : (c : ℚ) + 2 ≤ ls := by exact_mod_cast (show c + 2 ≤ ls by omega)
          nlinarith
    | succ m =>
      have hb : (m + 1 == 0) = false := rfl
      rw [hb]
      push_cast at *
      by_cases h0 : c = 0
      · have e : num ls c false = 7 := by rw [num, if_pos h0]
        have e2 : psi r ls c = 3 := by rw [psi, if_pos h0]
        have q1 := pl (c + 1) (by omega) (by omega)
        have q2 := pl (c + 2) (by omega) (by omega)
        rw [norm_of_lt (by omega)] at i1 i2
        rw [e, e2]
        have e3 : (c : ℚ) = 0 := by rw [h0]; simp
        push_cast at *
        rw [e3] at q1 q2
        linarith
      · by_cases hl : c + 1 = ls
        · have e : num ls c false = 6 := by rw [num, if_neg h0, if_pos (.inl hl)]
          have z : psi r ls 0 = 3 := by rw [psi, if_pos rfl]
          have e2 : psi r ls c = 5 - r * (65 / 64) := by rw [psi, if_neg h0, if_pos hl]
          rw [norm_of_le (show ls ≤ c + 1 by omega), z] at i1
          rw [norm_of_le (show ls ≤ c + 2 by omega), z] at i2
          rw [e, e2]; push_cast
          linarith
        · have e : num ls c false = 4 := by rw [num, if_neg h0, if_neg (by simp [hl])]
          have e2 : psi r ls c = r * c := by rw [psi, if_neg h0, if_neg hl]
          rw [norm_of_lt (show c + 1 < ls by omega)] at i1
          by_cases hl2 : c + 2 = ls
          · have z : psi r ls 0 = 3 := by rw [psi, if_pos rfl]
            have e3 : psi r ls (c + 1) = 5 - r * (65 / 64) := by rw [psi, if_neg (by omega), if_pos (by omega)]
            rw [norm_of_le (show ls ≤ c + 2 by omega), z] at i2
            rw [e3] at i1
            have e4 : (ls : ℚ) = c + 2 := by rw [← hl2]; push_cast; ring
            rw [e4] at hr
            rw [e, e2]; push_cast
            linarith
          · have q1 := pl (c + 1) (by omega) (by omega)
            have q2 := pl (c + 2) (by omega) (by omega)
            rw [norm_of_lt (show c + 2 < ls by omega)] at i2
            rw [e, e2]; push_cast at *
            linarith

end Yenc.Ratio
