import Verif.Props.Crc
/-! C41, C62: the CRC code for particular processors. -/
namespace Yenc.Props
open Yenc Yenc.Crc Yenc.Spec

/-- C41: whatever function computes the CRC, it reads no byte it must not and its result is the one of the portable function; so are products and
powers. -/
theorem C41_functions :
    (∀ f, IsIncr f → ∀ addr data init, f addr data init ≠ none ∧ f addr data init = Crc.generic addr data init) ∧
    (∀ f, IsMultiply f → ∀ a b, f a b = Crc.multiply a b) ∧
    (∀ f, IsShift f → ∀ a n, f a n = Crc.shift a n) := by
  refine ⟨?_, ?_, ?_⟩
  · intro f hf addr data init
    obtain ⟨r, h1, h2⟩ := hf.spec addr data init
    obtain ⟨r', h3, h4⟩ := generic_spec addr data init
    rw [h1, h3, isCrc32_unique h2 h4]
    exact ⟨by simp, rfl⟩
  · intro f hf a b
    exact phi_injective ((hf.spec a b).trans (phi_multiply a b).symm)
  · intro f hf a n
    exact phi_injective ((hf.spec a n).trans (phi_shift a n).symm)

/-- C41: any mixture of these functions behind the API gives the portable results, for all arguments. -/
theorem C41_api {impl : Impl} (hi : IsImpl impl) (addr : Nat) (args : List Arg) :
    apiCrc32 impl addr args = apiCrc32 genericImpl addr args ∧ apiCombine impl args = apiCombine genericImpl args ∧
    apiZeroes impl args = apiZeroes genericImpl args ∧ apiMultiply impl args = apiMultiply genericImpl args ∧
    apiShift impl args = apiShift genericImpl args := by
  obtain ⟨h1, h2, h3⟩ := C41_functions
  have : impl = genericImpl := by
    obtain ⟨f, g, k⟩ := impl
    rw [genericImpl]
    congr 1
    · funext addr data init; exact (h1 f hi.incr addr data init).2
    · funext a b; exact h2 g hi.multiply a b
    · funext a n; exact h3 k hi.shift a n
  rw [this]
  exact ⟨rfl, rfl, rfl, rfl, rfl⟩

/-- A set with each of the functions from a different processor is among them. -/
example : IsImpl ⟨fun addr data init => X86.crcFold256 true ⟨addr, data, fun _ => 0xaa#8⟩ init, Arm.multiplyPmull true, Rv.shift 64⟩ :=
  ⟨.clmul256 true fun _ _ _ => 0xaa#8, .pmull true, .riscv 64 (Or.inl rfl)⟩
/-- The functions for processors are not the portable ones written again: on words of 32 bits RISC-V multiplies by two half products. -/
example : Rv.multiply 32 0x12345678#32 0x9abcdef0#32 = Crc.multiply 0x12345678#32 0x9abcdef0#32 := by decide +kernel
example : Arm.multiply 0x12345678#32 0x9abcdef0#32 = Crc.multiply 0x12345678#32 0x9abcdef0#32 := by decide +kernel

/-- C41, the functions as they are called, with a `long` of `w` bits: for data of fewer than `2 ^ (w - 1)` bytes they are the portable function,
whatever the address and the bytes around the data. -/
theorem C41_long (w : Nat) (s : Src) (init : U32) (h : s.data.length < 2 ^ (w - 1)) (hw : w = 64 ∨ w = 32) :
    (∀ avx, X86.incr w avx s init = Crc.generic s.addr s.data init ∧ X86.incr256 w avx s init = Crc.generic s.addr s.data init) ∧
    (∀ L, L = 2 ∨ L = 3 → Arm.incr L w s init = Crc.generic s.addr s.data init) ∧
    Rv.incr w s init = Crc.generic s.addr s.data init := by
  have hl := toLong_eq w s.data.length (by omega) h
  obtain ⟨hf, -, -⟩ := C41_functions
  refine ⟨fun avx => ⟨?_, ?_⟩, fun L hL => ?_, ?_⟩
  · rw [X86.incr, hl, if_neg (by omega), Int.toNat_natCast, s.prefix_self]
    exact (hf _ (.clmul avx fun _ _ => s.at) s.addr s.data init).2
  · rw [X86.incr256, hl, if_neg (by omega), Int.toNat_natCast, s.prefix_self]
    exact (hf _ (.clmul256 avx fun _ _ => s.at) s.addr s.data init).2
  · rw [Arm.incr, hl]
    exact (hf _ (.arm L hL fun _ _ => s.around) s.addr s.data init).2
  · rw [Rv.incr, hl]
    exact (hf _ (.riscv w hw fun _ _ => s.around) s.addr s.data init).2

/-- Non-vacuity: nine bytes at an odd address, the check value of CRC-32. -/
example : X86.incr 64 true ⟨12345, [0x31#8, 0x32#8, 0x33#8, 0x34#8, 0x35#8, 0x36#8, 0x37#8, 0x38#8, 0x39#8], fun _ => 7#8⟩ 0#32 = some 0xCBF43926#32 := by
  rw [((C41_long 64 ⟨12345, [0x31#8, 0x32#8, 0x33#8, 0x34#8, 0x35#8, 0x36#8, 0x37#8, 0x38#8, 0x39#8], fun _ => 7#8⟩ 0#32 (by decide) (Or.inl rfl)).1 true).1]
  decide +kernel

/-- The CRC of `2^32` null bytes is not 0. -/
theorem generic_zeros_ne (addr n : Nat) (hn : n = 2 ^ 32) : Crc.generic addr (List.replicate n 0#8) 0#32 ≠ some 0#32 := by
  intro h
  obtain ⟨r, h1, h2⟩ := generic_spec addr (List.replicate n 0#8) 0#32
  rw [h] at h1
  injection h1 with h1
  rw [isCrc32_iff_eq] at h2
  have h3 := phi_not_crc1 0 (List.replicate n 0#8)
  rw [show (0 : U32) = 0#32 from rfl, ← h2, ← h1, mu_zeros, List.length_replicate] at h3
  simp only [zero_mul, add_zero] at h3
  have h4 : x ^ (8 * n) = x ^ 8 := x_pow_congr (by rw [hn]; unfold Nat.ModEq; norm_num)
  rw [h4, mul_comm, ← phi_advance] at h3
  exact absurd (phi_injective h3) (by decide +kernel)

theorem armCalc_zero (L : Nat) (hL : L = 2 ∨ L = 3) (s : Src) (crc : U32) : Arm.armCalc L s crc 0 = some crc := by
  rcases hL with rfl | rfl <;>
  · unfold Arm.armCalc Arm.align
    rw [if_neg (by decide), Option.bind_some, Arm.loop.eq_def, dif_neg (by simp), Option.bind_some]
    rfl

theorem toLong_2_32 (n : Nat) (hn : n = 2 ^ 32) : toLong 32 n = 0 := by rw [hn]; decide +kernel

/-- C62 is false: where a `long` has 32 bits and `size_t` more (64-bit Windows), the x86 and ARM functions take `2^32` null bytes for no bytes at all;
and from `2^31` to `2^32 - 1` bytes the x86 functions hand a negative size to `memcpy`. -/
theorem C62_long_false (addr : Nat) (around : Nat → Byte) :
    (∃ data : List Byte, ∃ init : U32, (∀ avx, X86.incr 32 avx ⟨addr, data, around⟩ init ≠ Crc.generic addr data init ∧
        X86.incr256 32 avx ⟨addr, data, around⟩ init ≠ Crc.generic addr data init) ∧
      ∀ L, L = 2 ∨ L = 3 → Arm.incr L 32 ⟨addr, data, around⟩ init ≠ Crc.generic addr data init) ∧
    (∀ data : List Byte, 2 ^ 31 ≤ data.length → data.length < 2 ^ 32 → ∀ init avx,
      X86.incr 32 avx ⟨addr, data, around⟩ init = none ∧ X86.incr256 32 avx ⟨addr, data, around⟩ init = none) := by
  constructor
  · obtain ⟨n, hn⟩ : ∃ n : Nat, n = 2 ^ 32 := ⟨_, rfl⟩
    have hg := generic_zeros_ne addr n hn
    have hl := toLong_2_32 n hn
    refine ⟨List.replicate n 0#8, 0#32, fun avx => ⟨?_, ?_⟩, fun L hL => ?_⟩
    · rw [X86.incr]
      simp only
      rw [List.length_replicate, hl, if_neg (by omega)]
      intro h
      exact hg (h.symm.trans rfl)
    · rw [X86.incr256]
      simp only
      rw [List.length_replicate, hl, if_neg (by omega)]
      intro h
      exact hg (h.symm.trans rfl)
    · rw [Arm.incr]
      simp only
      rw [List.length_replicate, hl, armCalc_zero L hL]
      intro h
      exact hg (h.symm.trans (by decide))
  · intro data h1 h2 init avx
    have hl : toLong 32 data.length < 0 := by
      rw [toLong, BitVec.toInt_eq_toNat_bmod, BitVec.toNat_ofNat, Nat.mod_eq_of_lt h2]
      simp only [Int.bmod]
      omega
    rw [X86.incr, X86.incr256]
    simp only
    rw [if_pos hl, if_pos hl]
    exact ⟨rfl, rfl⟩

end Yenc.Props
