import Verif.Props.CrcHw
/-! C66: CRC-32 by crcutil, on x86. -/
namespace Yenc.Props
open Yenc Yenc.Crc Yenc.Spec

/-- C66: whichever code crcutil has for the compiler, for data of any length at any address and any initial value the call finishes, reads nothing but
the data and its tables, and returns the CRC-32. -/
theorem C66_crc (target : Util.Target) (s : Src) (init : U32) : ∃ r, Util.incr target s init = some r ∧ IsCrc32 init s.data r :=
  Util.incr_spec target s init

/-- C66: it returns what the portable code returns, so what the bytes around the data are does not matter, nor does the address. -/
theorem C66_portable (target : Util.Target) (s : Src) (init : U32) (addr : Nat) : Util.incr target s init = Crc.generic addr s.data init := by
  obtain ⟨r, h1, h2⟩ := Util.incr_spec target s init
  obtain ⟨r', h3, h4⟩ := generic_spec addr s.data init
  rw [h1, h3, isCrc32_unique h2 h4]

/-- C66: setting up finishes. It leaves two tables of eight rows with 256 entries below `2^32`; and the inverse of `x^32`, which it also computes,
is found. -/
theorem C66_start : (∃ t, Util.tables = some t ∧ ∀ j i, j < 8 → i < 256 → (∃ v, Util.entry t.word j i = some v ∧ v.toNat < 2 ^ 32) ∧
      ∃ v, Util.entry t.inter j i = some v ∧ v.toNat < 2 ^ 32) ∧
    (∃ p inv, (Util.Gf.init 0xEDB88320#64 32 true).xpowN 32 = some p ∧ (Util.Gf.init 0xEDB88320#64 32 true).findLCD 100 p = some (0x80000000#64, inv) ∧
      (Util.Gf.init 0xEDB88320#64 32 true).multiply p inv = 0x80000000#64) := by
  refine ⟨?_, 0xedb88320#64, 0x5b358fd3#64, Util.findLCD_start.1, Util.findLCD_start.2, by decide +kernel⟩
  obtain ⟨t, h1, h2⟩ := Util.tables_spec
  refine ⟨t, h1, fun j i hj hi => ⟨?_, ?_⟩⟩
  · obtain ⟨v, h3, h4, -⟩ := Util.entry_spec h2.word j i hj hi
    exact ⟨v, h3, h4⟩
  · obtain ⟨v, h3, h4, -⟩ := Util.entry_spec h2.inter j i hj hi
    exact ⟨v, h3, h4⟩

/-- The check value of CRC-32, by the model itself. -/
example : Util.incr .gccAmd64 ⟨12345, [0x31#8, 0x32#8, 0x33#8, 0x34#8, 0x35#8, 0x36#8, 0x37#8, 0x38#8, 0x39#8], fun _ => 7#8⟩ 0#32 = some 0xCBF43926#32 := by
  decide +kernel

end Yenc.Props
