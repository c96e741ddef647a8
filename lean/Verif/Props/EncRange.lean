import Verif.Lemmas.EncRange
import Verif.Props.Encode
/-! C103: the largest and the smallest size of encoded data. -/
namespace Yenc.Props
open Spec

variable {eimpl : Enc.Impl}

/-- Line breaks in the encoding of `n` bytes that are all escaped: `⌈ls / 2⌉` bytes fill a line, the first line has room for `⌈(ls - col) / 2⌉`, and no break follows the last byte. -/
def mostBreaks (ls col n : Nat) : Nat := (n - 1 + ((ls + 1) / 2 - (ls - col + 1) / 2)) / ((ls + 1) / 2)

/-- Line breaks in the encoding of `n` bytes none of which is escaped. -/
def fewestBreaks (ls col n : Nat) : Nat := (n - 1 + col) / ls

theorem mostBreaks_eq (ls col n : Nat) : mostBreaks ls col n = (n - 1 + (ls + 1) / 2 - (ls - col + 1) / 2) / ((ls + 1) / 2) := by
  unfold mostBreaks
  congr 1
  omega

/-- The largest size that `encode` can return for `n` bytes is `2 * n + 2 * mostBreaks`: none is larger, and there is data for which it is reached. -/
theorem C103_largest (he : Enc.IsImpl eimpl) (ls col n : Nat) (h1 : 1 ≤ ls) (h2 : ls + 6 < 2 ^ 31) (h3 : col < ls) (hn : 1 ≤ n) :
    (∀ d : List Byte, d.length = n → ∃ e, Enc.apiEncode eimpl [.buffer d, .int ls, .int col] = .ret e ∧ e.length ≤ 2 * n + 2 * mostBreaks ls col n) ∧
    (∃ (d e : List Byte), d.length = n ∧ Enc.apiEncode eimpl [.buffer d, .int ls, .int col] = .ret e ∧ e.length = 2 * n + 2 * mostBreaks ls col n) := by
  rw [mostBreaks_eq]
  constructor
  · rintro d rfl
    exact ⟨_, C03_encode_reference he d ls col h1 h2 h3, Enc.encode_le_worst ls h1 true col d (by intro h; subst h; simp at hn)⟩
  · obtain ⟨m, rfl⟩ : ∃ m, n = m + 1 := ⟨n - 1, by omega⟩
    exact ⟨List.replicate (m + 1) 214#8, _, by simp, C03_encode_reference he _ ls col h1 h2 h3, Enc.encode_worst ls h1 true col m⟩

/-- 750000 bytes with the usual lines of 128 take at most 1523436 bytes. -/
example : 2 * 750000 + 2 * mostBreaks 128 0 750000 = 1523436 := by decide

/-- The smallest size that `encode` can return for `n` bytes is `n + 2 * fewestBreaks`. -/
theorem C103_smallest (he : Enc.IsImpl eimpl) (ls col n : Nat) (h1 : 1 ≤ ls) (h2 : ls + 6 < 2 ^ 31) (h3 : col < ls) (hn : 1 ≤ n) :
    (∀ d : List Byte, d.length = n → ∃ e, Enc.apiEncode eimpl [.buffer d, .int ls, .int col] = .ret e ∧ n + 2 * fewestBreaks ls col n ≤ e.length) ∧
    (∃ (d e : List Byte), d.length = n ∧ Enc.apiEncode eimpl [.buffer d, .int ls, .int col] = .ret e ∧ e.length = n + 2 * fewestBreaks ls col n) := by
  unfold fewestBreaks
  constructor
  · rintro d rfl
    exact ⟨_, C03_encode_reference he d ls col h1 h2 h3, Enc.encode_ge_best ls h1 true col h3 d (by intro h; subst h; simp at hn)⟩
  · obtain ⟨m, rfl⟩ : ∃ m, n = m + 1 := ⟨n - 1, by omega⟩
    exact ⟨List.replicate (m + 1) 0#8, _, by simp, C03_encode_reference he _ ls col h1 h2 h3, Enc.encode_best ls h1 true col (by omega) m⟩

example : 750000 + 2 * fewestBreaks 128 0 750000 = 761718 := by decide

/-- `maxSize` for lines of an even length is 66 or 68 bytes more than the largest size: 64 bytes which vectorised code may overwrite, and one or two line breaks. -/
theorem C103_maxSize_even (ls n : Nat) (h1 : 2 ≤ ls) (he : ls % 2 = 0) (hn : 1 ≤ n) :
    Js.maxSize n ls = 2 * n + 2 * mostBreaks ls 0 n + (if n % (ls / 2) = 0 then 68 else 66) := by
  obtain ⟨h, rfl⟩ : ∃ h, ls = 2 * h := ⟨ls / 2, by omega⟩
  have e1 : mostBreaks (2 * h) 0 n = (n - 1) / h := by
    unfold mostBreaks
    rw [show (2 * h + 1) / 2 = h by omega, show (2 * h - 0 + 1) / 2 = h by omega, Nat.sub_self, Nat.add_zero]
  have e2 : n * 2 / (2 * h) = n / h := by rw [Nat.mul_comm n 2, Nat.mul_div_mul_left _ _ (by omega)]
  unfold Js.maxSize
  rw [if_neg (by omega), if_neg (by omega), e1, e2, show 2 * h / 2 = h by omega]
  obtain ⟨m, rfl⟩ : ∃ m, n = m + 1 := ⟨n - 1, by omega⟩
  rw [show m + 1 - 1 = m by omega, Nat.succ_div]
  by_cases hd : h ∣ m + 1
  · rw [if_pos hd, if_pos (Nat.mod_eq_zero_of_dvd hd)]; omega
  · rw [if_neg hd, if_neg (fun h => hd (Nat.dvd_of_mod_eq_zero h))]; omega

example : Js.maxSize 750000 128 = 1523436 + 66 := by decide

/-- For lines of an odd length it is more and more too large: the code takes a line to be full after `ls` columns, but the last character of a full line of escapes ends in column `ls + 1`. -/
theorem C103_maxSize_odd (h n : Nat) (hn : 1 ≤ n) :
    2 * n + 2 * mostBreaks (2 * h + 1) 0 n + 66 ≤ Js.maxSize n (2 * h + 1) ∧
    ∀ k, 1 ≤ k → n = (2 * h + 1) * (h + 1) * k → Js.maxSize n (2 * h + 1) = 2 * n + 2 * mostBreaks (2 * h + 1) 0 n + 68 + 2 * k := by
  have e1 : mostBreaks (2 * h + 1) 0 n = (n - 1) / (h + 1) := by
    unfold mostBreaks
    rw [show (2 * h + 1 + 1) / 2 = h + 1 by omega, show (2 * h + 1 - 0 + 1) / 2 = h + 1 by omega, Nat.sub_self, Nat.add_zero]
  unfold Js.maxSize
  rw [if_neg (by omega), if_neg (by omega), e1]
  constructor
  · have : (n - 1) / (h + 1) ≤ n * 2 / (2 * h + 1) := by
      rw [Nat.le_div_iff_mul_le (by omega)]
      have := Nat.div_mul_le_self (n - 1) (h + 1)
      generalize (n - 1) / (h + 1) = q at *
      rw [Nat.mul_add] at this ⊢
      have : q * (2 * h) = 2 * (q * h) := by rw [Nat.mul_left_comm]
      omega
    omega
  · rintro k hk rfl
    have d1 : (2 * h + 1) * (h + 1) * k * 2 / (2 * h + 1) = (h + 1) * k * 2 := by
      rw [Nat.mul_assoc, Nat.mul_assoc, Nat.mul_div_cancel_left _ (by omega), Nat.mul_assoc]
    have d2 : ((2 * h + 1) * (h + 1) * k - 1) / (h + 1) = (2 * h + 1) * k - 1 := by
      have : (2 * h + 1) * (h + 1) * k = (h + 1) * ((2 * h + 1) * k) := by rw [Nat.mul_comm (2 * h + 1), Nat.mul_assoc]
      rw [this]
      have hp : 1 ≤ (2 * h + 1) * k := Nat.mul_pos (by omega) hk
      generalize (2 * h + 1) * k = q at *
      obtain ⟨r, rfl⟩ : ∃ r, q = r + 1 := ⟨q - 1, by omega⟩
      rw [Nat.mul_add, show (h + 1) * r + (h + 1) * 1 - 1 = h + (h + 1) * r by omega, Nat.add_mul_div_left _ _ (by omega), Nat.div_eq_of_lt (by omega)]
      omega
    rw [d1, d2]
    have : (h + 1) * k * 2 = (2 * h + 1) * k + k := by
      have e : (2 * h + 1) * k + k = (2 * h + 1 + 1) * k := by rw [Nat.add_mul (2 * h + 1) 1 k, Nat.one_mul]
      rw [e, show 2 * h + 1 + 1 = (h + 1) * 2 by omega, Nat.mul_right_comm]
    have hp : 1 ≤ (2 * h + 1) * k := Nat.mul_pos (by omega) hk
    omega

example : Js.maxSize (127 * 64 * 92) 127 = 2 * (127 * 64 * 92) + 2 * mostBreaks 127 0 (127 * 64 * 92) + 68 + 2 * 92 := by decide

end Yenc.Props
