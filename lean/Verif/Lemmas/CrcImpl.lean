import Verif.Lemmas.Crcutil
import Verif.Lemmas.CrcX86w
import Verif.Lemmas.CrcRiscv
/-! Every selectable set of CRC functions is correct. -/
namespace Yenc.Crc
open Yenc.Spec

theorem map_not_spec {o : Option U32} {init : U32} {data : List Byte} (h : ∃ r, o = some r ∧ IsCrc32 init data (~~~r)) :
    ∃ r, (o.map fun r => ~~~r) = some r ∧ IsCrc32 init data r := by
  obtain ⟨r, h1, h2⟩ := h
  exact ⟨~~~r, by rw [h1]; rfl, h2⟩

theorem IsIncr.spec {f : Nat → List Byte → U32 → Option U32} (h : IsIncr f) (addr : Nat) (data : List Byte) (init : U32) :
    ∃ r, f addr data init = some r ∧ IsCrc32 init data r := by
  cases h with
  | generic => exact generic_spec addr data init
  | crcutil target around => exact Util.incr_spec target ⟨addr, data, around addr data⟩ init
  | clmul avx around => exact crcFold_spec avx ⟨addr, data, around addr data⟩ init
  | clmul256 avx around => exact crcFold256_spec avx ⟨addr, data, around addr data⟩ init
  | arm L hL around => exact map_not_spec (armCalc_spec L hL ⟨addr, data, around addr data⟩ init)
  | riscv w hw around => exact map_not_spec (crcCalc_spec w hw ⟨addr, data, around addr data⟩ init)

theorem IsMultiply.spec {f : U32 → U32 → U32} (h : IsMultiply f) (a b : U32) : phi (f a b) = phi a * phi b := by
  cases h with
  | generic => exact phi_multiply a b
  | clmul => exact multiply_clmul a b
  | arm => exact multiply_arm a b
  | pmull aarch64 => exact multiply_pmull aarch64 a b
  | riscv w hw => exact multiply_rv w hw a b

theorem IsShift.spec {f : U32 → U32 → U32} (h : IsShift f) (a n : U32) : phi (f a n) = phi a * x ^ n.toNat := by
  cases h with
  | generic => exact phi_shift a n
  | portable => rw [shiftPortable_eq]; exact phi_shift a n
  | clmul avx gfni => exact shift_clmul avx gfni a n
  | arm => exact shift_arm a n
  | pmull aarch64 msvc => exact shift_pmull aarch64 msvc a n
  | riscv w hw => exact shift_rv w hw a n

theorem IsImpl.correct {impl : Impl} (h : IsImpl impl) : Correct impl := ⟨h.incr.spec, h.multiply.spec, h.shift.spec⟩

/-! ### The C `long` -/

theorem toLong_eq (w n : Nat) (hw : 0 < w) (h : n < 2 ^ (w - 1)) : toLong w n = n := by
  have h2 : 2 ^ w = 2 * 2 ^ (w - 1) := by rw [← pow_succ']; congr 1; omega
  rw [toLong, BitVec.toInt_eq_toNat_of_lt] <;> rw [BitVec.toNat_ofNat, Nat.mod_eq_of_lt (by omega)]
  omega

theorem Src.prefix_self (s : Src) : s.prefix s.data.length = ⟨s.addr, s.data, s.at⟩ := by
  rw [Src.prefix, List.take_length]

end Yenc.Crc
