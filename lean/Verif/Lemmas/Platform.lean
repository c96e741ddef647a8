import Verif.Lemmas.Api
import Verif.Model.Platform
/-! Size computations that do not wrap. -/
namespace Yenc

theorem Platform.size_of_lt (P : Platform) {n : Nat} (h : n < 2 ^ P.bits) : P.size n = n := Nat.mod_eq_of_lt h

/-- If the sum fits, none of the operations wraps. -/
theorem Platform.maxSize_eq (P : Platform) (len ls : Nat) (h : 2 * len + 2 * (2 * len / ls) + 66 < 2 ^ P.bits) :
    P.maxSize len ls = 2 * len + 2 * (2 * len / ls) + 2 + (if P.avx256 then 64 else 32) := by
  have hp : (if P.avx256 then 64 else 32 : Nat) ≤ 64 := by split <;> omega
  unfold Platform.maxSize
  rw [Nat.mul_comm len 2]
  generalize (if P.avx256 then 64 else 32 : Nat) = pad at *
  have h1 : P.size (2 * len) = 2 * len := P.size_of_lt (by omega)
  simp only [h1]
  have h2 : P.size (2 * len + 2 + pad) = 2 * len + 2 + pad := P.size_of_lt (by omega)
  rw [h2]
  by_cases h128 : ls = 128
  · subst h128
    have e : 2 * len / 128 = len >>> 6 := by rw [Nat.shiftRight_eq_div_pow]; omega
    rw [if_pos rfl, ← e, P.size_of_lt (n := 2 * (2 * len / 128)) (by omega), P.size_of_lt (by omega)]
    omega
  · rw [if_neg h128, P.size_of_lt (n := 2 * (2 * len / ls)) (by omega), P.size_of_lt (by omega)]
    omega

namespace Enc

/-- What becomes of the line size and column arguments. -/
theorem lineArgs_cases (ls col : Int) :
    (∃ m, lineArgs [.int ls, .int col] = .throw m) ∨
      ∃ a b : Nat, lineArgs [.int ls, .int col] = .ret ((a : Int), (b : Int)) ∧ 1 ≤ a ∧ b < a ∧ (a : Int) = if toInt32 ls = 0 then 128 else toInt32 ls := by
  simp only [lineArgs, argToInt, Outcome.bind]
  generalize hl : (if toInt32 ls = 0 then 128 else toInt32 ls) = l
  have hl0 : l ≠ 0 := by subst hl; split <;> omega
  by_cases h1 : l < 0
  · left; exact ⟨_, by rw [if_pos h1]⟩
  · rw [if_neg h1]
    by_cases h2 : toInt32 col > l ∨ toInt32 col < 0
    · left; exact ⟨_, by rw [if_pos h2]⟩
    · right
      rw [if_neg h2]
      by_cases h3 : toInt32 col = l
      · exact ⟨l.toNat, 0, by rw [if_pos h3, Int.toNat_of_nonneg (by omega)]; rfl, by omega, by omega, by omega⟩
      · exact ⟨l.toNat, (toInt32 col).toNat, by
          rw [if_neg h3, Int.toNat_of_nonneg (by omega), Int.toNat_of_nonneg (by omega)], by omega, by omega, by omega⟩

/-- Running into a buffer of `YENC_MAX_SIZE` bytes, 32 bytes of padding being enough. -/
theorem runInto_pad {n : Nat} {impl : Impl} (h : CorrectTo n impl) (ls col : Nat) (src : List Byte) (fin : Bool) (hls : 1 ≤ ls) (hls2 : ls + n < 2 ^ 31)
    (hcol : col < ls) (hne : src ≠ []) (size : Nat) (hs : 2 * src.length + 2 * (2 * src.length / ls) + 34 ≤ size) :
    ∃ col', runInto impl ls col src fin size = .ret (Spec.encode ls fin col src, col') := by
  obtain ⟨w, col', h1, h2, h3, h4⟩ := h ls col src fin hls hls2 hcol hne
  refine ⟨col', ?_⟩
  have h5 := encode_length_le ls hls fin col hcol src
  unfold runInto
  rw [h1]
  simp only
  rw [if_pos (by rw [h2] at h3 ⊢; omega), h2]

/-- ... into a buffer that is too small. -/
theorem runInto_short {n : Nat} {impl : Impl} (h : CorrectTo n impl) (ls col : Nat) (src : List Byte) (fin : Bool) (hls : 1 ≤ ls) (hls2 : ls + n < 2 ^ 31)
    (hcol : col < ls) (hne : src ≠ []) (size : Nat) (hs : size < (Spec.encode ls fin col src).length) : runInto impl ls col src fin size = .ub := by
  obtain ⟨w, col', h1, h2, h3, h4⟩ := h ls col src fin hls hls2 hcol hne
  unfold runInto
  rw [h1]
  simp only
  rw [if_neg (by rw [h2]; omega)]

end Enc
end Yenc
