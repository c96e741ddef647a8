import Verif.Lemmas.EscTail
import Verif.Props.Encode
/-!
Property C83: how many bytes are escaped in random data (README, `maxSize`).
-/
namespace Yenc.Props
open Spec

variable {impl : Enc.Impl}

/-- Data of `n` bytes. -/
def dataOf {n : Nat} (d : Fin n → Fin 256) : List Byte := List.ofFn fun i => BitVec.ofFin (d i)

/-- The number of escape characters in what `encode(data, ls)` returns (`=` occurs there for no other reason). -/
def escapes (impl : Enc.Impl) (ls : Nat) (data : List Byte) : Nat :=
  match Enc.apiEncode impl [.buffer data, .int ls] with
  | .ret out => out.count EQ
  | _ => 0

/-- The expected number of escape characters if all data of `n` bytes are equally likely. -/
def expectedEscapes (impl : Enc.Impl) (ls n : Nat) : ℚ := (∑ d : Fin n → Fin 256, (escapes impl ls (dataOf d) : ℚ)) / 256 ^ n

/-- How likely it is that random data of `n` bytes satisfy `p`. -/
def chance (n : Nat) (p : List Byte → Bool) : ℚ := ((Finset.univ.filter fun d : Fin n → Fin 256 => p (dataOf d) = true).card : ℚ) / 256 ^ n

theorem escapes_eq (he : Enc.IsImpl impl) (ls : Nat) (h1 : 1 ≤ ls) (h2 : ls + 6 < 2 ^ 31) (data : List Byte) : escapes impl ls data = Ratio.esc ls 0 data := by
  unfold escapes
  by_cases hne : data = []
  · subst hne; rfl
  have e := (C13_arguments he data hne ls 0 (by omega) (by omega)).2.2.2.2.1 (by omega)
  rw [e]
  have := C03_encode_reference he data ls 0 h1 h2 (by omega)
  rw [Nat.cast_zero] at this
  rw [this]
  rfl

theorem expected_eq (he : Enc.IsImpl impl) (ls : Nat) (h1 : 1 ≤ ls) (h2 : ls + 6 < 2 ^ 31) (n : Nat) : expectedEscapes impl ls n = Ratio.mean ls 0 n := by
  unfold expectedEscapes Ratio.mean Ratio.total
  push_cast
  simp only [escapes_eq he ls h1 h2]
  rfl

/-- C83: the expected number of escape characters in `n` random bytes.  Four bytes are escaped everywhere, three more at the start of a line and two more at the end of a
line; a line takes up `64/65` bytes per character.  The bounds of the number of lines are less than 1.2 percent apart. -/
theorem C83_expected (he : Enc.IsImpl impl) (ls : Nat) (h1 : 3 ≤ ls) (h2 : ls + 6 < 2 ^ 31) (n : Nat) :
    (4 + (5 - 1 / 32) / (ls + 1 / 64) * (65 / 64)) * n - 2 ≤ 256 * expectedEscapes impl ls n ∧
      256 * expectedEscapes impl ls n ≤ (4 + 5 / ls * (65 / 64)) * n + 5.02 := by
  have hl : (3 : ℚ) ≤ ls := by exact_mod_cast h1
  rw [expected_eq he ls (by omega) h2]
  have a := Ratio.mean_lower ls h1 ((5 - 1 / 32) / (ls + 1 / 64)) (by field_simp) n 0
  have b := Ratio.mean_upper ls (by omega) (5 / ls) (by field_simp) n 0
  rw [Ratio.norm_of_lt (by omega)] at a b
  rw [show Ratio.psi ((5 - 1 / 32) / (ls + 1 / 64)) ls 0 = 3 from if_pos rfl] at a
  rw [show Ratio.phi (5 / ls) 0 = 5 + 3 * (5 / ls) / 256 from if_pos rfl] at b
  refine ⟨by linarith, b.trans ?_⟩
  have : (5 : ℚ) / ls ≤ 5 / 3 := div_le_div_of_nonneg_left (by norm_num) (by norm_num) hl
  norm_num at this ⊢
  linarith

example : (3 : Nat) ≤ 128 ∧ 128 + 6 < 2 ^ 31 := by decide

/-- The hypotheses hold for the portable encoder, and the counts are not all zero: one escape for NUL, one for a dot that starts a line. -/
example : Enc.IsImpl Enc.encodeGeneric ∧ escapes Enc.encodeGeneric 128 [0xD6, 0x30, 0x04] = 1 ∧ escapes Enc.encodeGeneric 128 [0x04, 0xD6, 0x04] = 2 :=
  ⟨.generic, by decide +kernel⟩

/-- C83, the number in the README: with lines of 128 characters and 300 or more random bytes the expected part of escaped bytes is 0.0158, rounded. -/
theorem C83_readme_ratio (he : Enc.IsImpl impl) (n : Nat) (hn : 300 ≤ n) :
    0.01575 ≤ expectedEscapes impl 128 n / n ∧ expectedEscapes impl 128 n / n < 0.01585 := by
  have h := C83_expected he 128 (by decide) (by decide) n
  have hn' : (300 : ℚ) ≤ n := by exact_mod_cast hn
  have h0 : (0 : ℚ) < n := by linarith
  push_cast at h
  rw [le_div_iff₀ h0, div_lt_iff₀ h0]
  norm_num at h ⊢
  constructor <;> linarith

example := C83_readme_ratio .generic 300 (by decide)

/-! ### Large deviations -/

theorem chance_le {ls : Nat} (h1 : 1 ≤ ls) {zn zd Ln Ld bn bd : Nat} {a G : ℚ} (hz : 0 < zd) (hL : 0 < Ld) (hb : 0 < bd)
    (hp : Ratio.Params ls (zn / zd) a (bn / bd) G (Ln / Ld)) (n t N : Nat) (hN : 0 < N) (h : Ln ^ n * bn * N * zd ^ t ≤ 256 ^ n * zn ^ t * Ld ^ n * bd) :
    ((Finset.univ.filter fun d : Fin n → Fin 256 => t ≤ Ratio.esc ls 0 (Ratio.bytes d)).card : ℚ) / 256 ^ n ≤ 1 / N := by
  have key := Ratio.tail_le h1 hp n t
  generalize ((Finset.univ.filter fun d : Fin n → Fin 256 => t ≤ Ratio.esc ls 0 (Ratio.bytes d)).card : ℚ) = X at *
  have h' : (Ln : ℚ) ^ n * bn * N * zd ^ t ≤ 256 ^ n * zn ^ t * Ld ^ n * bd := by exact_mod_cast h
  have z0 : (0 : ℚ) < zd := by exact_mod_cast hz
  have L0 : (0 : ℚ) < Ld := by exact_mod_cast hL
  have b0 : (0 : ℚ) < bd := by exact_mod_cast hb
  have N0 : (0 : ℚ) < N := by exact_mod_cast hN
  have zn0 : (0 : ℚ) < zn := by
    have := hp.z1
    rw [le_div_iff₀ z0] at this; linarith
  rw [div_le_div_iff₀ (by positivity) N0, one_mul]
  rw [div_pow, div_pow, mul_div_assoc', div_mul_div_comm, div_le_div_iff₀ (by positivity) (by positivity)] at key
  have hpos : (0 : ℚ) < (zn : ℚ) ^ t * (Ld ^ n * bd) := by positivity
  refine le_of_mul_le_mul_right ?_ hpos
  calc X * N * ((zn : ℚ) ^ t * (Ld ^ n * bd)) = X * zn ^ t * (Ld ^ n * bd) * N := by ring
    _ ≤ Ln ^ n * bn * zd ^ t * N := mul_le_mul_of_nonneg_right key N0.le
    _ = Ln ^ n * bn * N * zd ^ t := by ring
    _ ≤ 256 ^ n * zn ^ t * Ld ^ n * bd := h'
    _ = 256 ^ n * ((zn : ℚ) ^ t * (Ld ^ n * bd)) := by ring

theorem params5 : Ratio.Params 128 ((333 : Nat) / (100 : Nat) : ℚ) 1.0173 ((104416 : Nat) / (100000 : Nat) : ℚ) 1.00034 ((2654148 : Nat) / (10000 : Nat) : ℚ) := by
  constructor <;> norm_num

theorem chance_eq (he : Enc.IsImpl impl) (n t : Nat) (p : Nat → Bool) (hp : ∀ k, p k = true ↔ t ≤ k) :
    chance n (fun d => p (escapes impl 128 d)) =
      ((Finset.univ.filter fun d : Fin n → Fin 256 => t ≤ Ratio.esc 128 0 (Ratio.bytes d)).card : ℚ) / 256 ^ n := by
  unfold chance
  congr 3
  refine Finset.filter_congr fun d _ => ?_
  rw [hp, escapes_eq he 128 (by decide) (by decide)]
  rfl

/-- C83, 1 KiB of random data: more than 5 % escaped is less likely than 1 in 10^11. -/
theorem C83_tail_1k (he : Enc.IsImpl impl) : chance 1024 (fun d => decide (1024 * 5 < escapes impl 128 d * 100)) ≤ 1 / 10 ^ 11 := by
  have key := chance_le (ls := 128) (by decide) (by decide) (by decide) (by decide) params5 1024 52 (10 ^ 11) (by decide) (by decide +kernel)
  rw [← chance_eq he 1024 52 (fun k => decide (1024 * 5 < k * 100)) (fun k => by rw [decide_eq_true_eq]; omega)] at key
  refine key.trans (le_of_eq ?_)
  norm_num

theorem params185 : Ratio.Params 128 ((1175 : Nat) / (1000 : Nat) : ℚ) 1.00134 ((100339 : Nat) / (100000 : Nat) : ℚ) 1.0000267 ((256707 : Nat) / (1000 : Nat) : ℚ) := by
  constructor <;> norm_num

/-- C83, 128 KiB of random data: more than 1.85 % escaped is less likely than 1 in 10^12. -/
theorem C83_tail_128k (he : Enc.IsImpl impl) : chance 131072 (fun d => decide (131072 * 185 < escapes impl 128 d * 10000)) ≤ 1 / 10 ^ 12 := by
  have key := chance_le (ls := 128) (by decide) (by decide) (by decide) (by decide) params185 131072 2425 (10 ^ 12) (by decide) (by decide +kernel)
  rw [← chance_eq he 131072 2425 (fun k => decide (131072 * 185 < k * 10000)) (fun k => by rw [decide_eq_true_eq]; omega)] at key
  refine key.trans (le_of_eq ?_)
  norm_num

/-- C83, for data of any size: the chance that more than 5 % are escaped falls exponentially. -/
theorem C83_tail (he : Enc.IsImpl impl) (n : Nat) : chance n (fun d => decide (n * 5 < escapes impl 128 d * 100)) ≤ 1.05 * 0.977 ^ n := by
  have key := Ratio.tail_le (by decide) params5 n (n / 20 + 1)
  rw [chance_eq he n (n / 20 + 1) (fun k => decide (n * 5 < k * 100)) (fun k => by rw [decide_eq_true_eq]; omega)]
  generalize ((Finset.univ.filter fun d : Fin n → Fin 256 => n / 20 + 1 ≤ Ratio.esc 128 0 (Ratio.bytes d)).card : ℚ) = X at *
  have w : (1.0619 : ℚ) ^ n ≤ ((333 : Nat) / (100 : Nat) : ℚ) ^ (n / 20 + 1) := by
    calc (1.0619 : ℚ) ^ n ≤ 1.0619 ^ (20 * (n / 20 + 1)) := pow_le_pow_right₀ (by norm_num) (by omega)
      _ = (1.0619 ^ 20) ^ (n / 20 + 1) := pow_mul _ _ _
      _ ≤ _ := pow_le_pow_left₀ (by norm_num) (by norm_num) _
  by_cases hX : 0 ≤ X
  swap
  · exact (div_nonpos_of_nonpos_of_nonneg (by linarith) (by positivity)).trans (by positivity)
  rw [div_le_iff₀ (by positivity)]
  have h3 : X * 1.0619 ^ n ≤ 1.05 * 0.977 ^ n * 256 ^ n * 1.0619 ^ n := by
    calc X * 1.0619 ^ n ≤ _ := mul_le_mul_of_nonneg_left w hX
      _ ≤ _ := key
      _ ≤ (0.977 * 256 * 1.0619) ^ n * 1.05 :=
        mul_le_mul (pow_le_pow_left₀ (by norm_num) (by norm_num) _) (by norm_num) (by norm_num) (by positivity)
      _ = _ := by rw [mul_pow, mul_pow]; ring
  exact le_of_mul_le_mul_right h3 (by positivity)

end Yenc.Props
