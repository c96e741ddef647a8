import Verif.Lemmas.EncSize
/-! The largest and the smallest size of an encoding. -/
namespace Yenc.Enc
open Yenc

/-- Line breaks that can follow when `r` more characters of two bytes fit on the line and `h` on a whole one. -/
theorem breaks_step {n h r : Nat} (hh : 1 ≤ h) (hr : r ≤ h) (hn : 1 ≤ n) : (n + 1 - 1 + h - r) / h = if r = 0 then 1 + (n - 1 + h - (h - 1)) / h else (n - 1 + h - (r - 1)) / h := by
  split
  · rename_i h0
    subst h0
    rw [show n + 1 - 1 + h - 0 = n + h by omega, Nat.add_div_right _ (by omega), show n - 1 + h - (h - 1) = n by omega]
    omega
  · congr 1; omega

/-- No encoding is longer. -/
theorem encode_le_worst (ls : Nat) (hls : 1 ≤ ls) (fin : Bool) (col : Nat) (src : List Byte) (hne : src ≠ []) :
    (Spec.encode ls fin col src).length ≤ 2 * src.length + 2 * ((src.length - 1 + (ls + 1) / 2 - (ls - col + 1) / 2) / ((ls + 1) / 2)) := by
  induction src generalizing col with
  | nil => exact absurd rfl hne
  | cons c cs ih =>
    have hh : 1 ≤ (ls + 1) / 2 := by omega
    have hrec : ∀ col', (Spec.encode ls fin col' cs).length ≤ 2 * cs.length +
        (if cs = [] then 0 else 2 * ((cs.length - 1 + (ls + 1) / 2 - (ls - col' + 1) / 2) / ((ls + 1) / 2))) := by
      intro col'
      by_cases hcs : cs = []
      · subst hcs; simp [Spec.encode]
      · rw [if_neg hcs]; exact ih col' hcs
    have hpos : cs ≠ [] → 1 ≤ cs.length := List.length_pos_iff.mpr
    by_cases h : ls ≤ col
    · rw [encode_cons_ge _ _ _ _ _ h]
      have hw := encChar_length ls 0 (fin && cs.isEmpty) (c + 42#8)
      generalize Spec.encChar ls 0 (fin && cs.isEmpty) (c + 42#8) = s at *
      have := hrec s.length
      have e : (ls - col + 1) / 2 = 0 := by omega
      rw [e]
      simp only [List.length_cons, List.length_append]
      by_cases hcs : cs = []
      · subst hcs
        simp only [List.length_nil, if_true] at *
        rw [show 0 + 1 - 1 + (ls + 1) / 2 - 0 = (ls + 1) / 2 by omega, Nat.div_self (by omega)]
        omega
      · rw [if_neg hcs] at this
        rw [breaks_step hh (by omega) (hpos hcs), if_pos rfl]
        have : (cs.length - 1 + (ls + 1) / 2 - (ls - s.length + 1) / 2) / ((ls + 1) / 2) ≤ (cs.length - 1 + (ls + 1) / 2 - ((ls + 1) / 2 - 1)) / ((ls + 1) / 2) :=
          Nat.div_le_div_right (by omega)
        omega
    · rw [encode_cons_lt _ _ _ _ _ (by omega)]
      have hw := encChar_length ls col (fin && cs.isEmpty) (c + 42#8)
      generalize Spec.encChar ls col (fin && cs.isEmpty) (c + 42#8) = s at *
      have := hrec (col + s.length)
      simp only [List.length_cons, List.length_append]
      by_cases hcs : cs = []
      · subst hcs
        simp only [List.length_nil, if_true] at *
        omega
      · rw [if_neg hcs] at this
        rw [breaks_step hh (by omega) (hpos hcs), if_neg (by omega)]
        have : (cs.length - 1 + (ls + 1) / 2 - (ls - (col + s.length) + 1) / 2) / ((ls + 1) / 2) ≤ (cs.length - 1 + (ls + 1) / 2 - ((ls - col + 1) / 2 - 1)) / ((ls + 1) / 2) :=
          Nat.div_le_div_right (by omega)
        omega

/-- The encoding of bytes that are all escaped. -/
theorem encode_worst (ls : Nat) (hls : 1 ≤ ls) (fin : Bool) (col n : Nat) :
    (Spec.encode ls fin col (List.replicate (n + 1) 214#8)).length = 2 * (n + 1) + 2 * ((n + (ls + 1) / 2 - (ls - col + 1) / 2) / ((ls + 1) / 2)) := by
  have hc : ∀ col last, (Spec.encChar ls col last (214#8 + 42#8)).length = 2 := by
    intro col last
    rw [Spec.encChar, if_pos (by simp [Spec.mustEscape, Spec.critical, show (214#8 + 42#8 : Byte) = NUL by decide])]
    rfl
  have hh : 1 ≤ (ls + 1) / 2 := by omega
  induction n generalizing col with
  | zero =>
    by_cases h : ls ≤ col
    · rw [List.replicate_succ, encode_cons_ge _ _ _ _ _ h]
      simp only [List.replicate_zero, Spec.encode, List.length_cons, List.length_append, hc, List.length_nil]
      rw [show (ls - col + 1) / 2 = 0 by omega, Nat.sub_zero, Nat.zero_add ((ls + 1) / 2), Nat.div_self (by omega)]
    · rw [List.replicate_succ, encode_cons_lt _ _ _ _ _ (by omega)]
      simp only [List.replicate_zero, Spec.encode, List.length_append, hc, List.length_nil]
      rw [Nat.div_eq_of_lt (by omega)]
  | succ n ih =>
    have key := breaks_step (n := n + 1) (h := (ls + 1) / 2) (r := (ls - col + 1) / 2) hh (by omega) (by omega)
    rw [show n + 1 + 1 - 1 = n + 1 by omega, show n + 1 - 1 = n by omega] at key
    rw [List.replicate_succ, key]
    by_cases h : ls ≤ col
    · rw [encode_cons_ge _ _ _ _ _ h]
      simp only [List.length_cons, List.length_append, hc, ih]
      rw [if_pos (by omega), show (ls - 2 + 1) / 2 = (ls + 1) / 2 - 1 by omega]
      omega
    · rw [encode_cons_lt _ _ _ _ _ (by omega)]
      simp only [List.length_append, hc, ih]
      rw [if_neg (by omega), show (ls - (col + 2) + 1) / 2 = (ls - col + 1) / 2 - 1 by omega]
      omega

/-- No encoding is shorter. -/
theorem encode_ge_best (ls : Nat) (hls : 1 ≤ ls) (fin : Bool) (col : Nat) (hcol : col < ls) (src : List Byte) (hne : src ≠ []) :
    src.length + 2 * ((src.length - 1 + col) / ls) ≤ (Spec.encode ls fin col src).length := by
  obtain ⟨n, k, h1, h2, h3, h4, h5⟩ := encode_size ls hls fin col src
  have hpos : 1 ≤ src.length := List.length_pos_iff.mpr hne
  have : (src.length - 1 + col) / ls ≤ k := by
    have : (src.length - 1 + col) / ls < k + 1 := by
      rw [Nat.div_lt_iff_lt_mul (by omega), Nat.mul_comm, Nat.mul_add]; omega
    omega
  omega

/-- The encoding of bytes none of which is escaped. -/
theorem encode_best (ls : Nat) (hls : 1 ≤ ls) (fin : Bool) (col : Nat) (hcol : col ≤ ls) (n : Nat) :
    (Spec.encode ls fin col (List.replicate (n + 1) 0#8)).length = n + 1 + 2 * ((n + col) / ls) := by
  have hc : ∀ col last, (Spec.encChar ls col last (0#8 + 42#8)).length = 1 := by
    intro col last
    rw [Spec.encChar, if_neg (by simp [Spec.mustEscape, Spec.critical, show ¬ (42#8 : Byte) = NUL by decide, show ¬ (42#8 : Byte) = CR by decide, show ¬ (42#8 : Byte) = LF by decide, show ¬ (42#8 : Byte) = EQ by decide,
      show ¬ (42#8 : Byte) = DOT by decide, show ¬ (42#8 : Byte) = TAB by decide, show ¬ (42#8 : Byte) = SP by decide])]
    rfl
  induction n generalizing col with
  | zero =>
    by_cases h : ls ≤ col
    · have : col = ls := by omega
      subst this
      rw [List.replicate_succ, encode_cons_ge _ _ _ _ _ h]
      simp only [List.replicate_zero, Spec.encode, List.length_cons, List.length_append, hc, List.length_nil]
      rw [Nat.zero_add col, Nat.div_self (by omega)]
    · rw [List.replicate_succ, encode_cons_lt _ _ _ _ _ (by omega)]
      simp only [List.replicate_zero, Spec.encode, List.length_append, hc, List.length_nil]
      rw [Nat.div_eq_of_lt (by omega)]
  | succ n ih =>
    rw [List.replicate_succ]
    by_cases h : ls ≤ col
    · have : col = ls := by omega
      subst this
      rw [encode_cons_ge _ _ _ _ _ h]
      simp only [List.length_cons, List.length_append, hc, ih 1 (by omega)]
      rw [Nat.add_div_right _ (by omega)]
      omega
    · rw [encode_cons_lt _ _ _ _ _ (by omega)]
      simp only [List.length_append, hc, ih (col + 1) (by omega)]
      rw [show n + (col + 1) = n + 1 + col by omega]
      omega

end Yenc.Enc
