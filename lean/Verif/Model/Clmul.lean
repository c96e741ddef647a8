import Verif.Model.Vec
import Verif.Model.Crc
/-!
The carry-less multiplication and the other integer vector instructions that the CRC code uses and `Model/Vec.lean` does not have.
Registers are as there: a function from lane number to byte, little-endian.
-/
namespace Yenc

/-- The carry-less product of `a` and the low `n` bits of `b`: exclusive or of the copies of `a` shifted by the positions of the set bits of `b`. -/
def clmulN (a b : Nat) : Nat → Nat
  | 0 => 0
  | n + 1 => clmulN a b n ^^^ (if b.testBit n then a <<< n else 0)

namespace Vec

/-- The number in the `n` bytes from lane `i`. -/
def le (v : Vec) (i : Nat) : Nat → Nat
  | 0 => 0
  | n + 1 => (v i).toNat + 256 * le v (i + 1) n

/-- Byte `j` of a number. -/
def byteOf (p : Nat) (j : Nat) : Byte := BitVec.ofNat 8 (p / 256 ^ j)

/-- `_mm_clmulepi64_si128(a, b, imm)`; in the 256-bit form on each half. -/
def clmul (a b : Vec) (imm : Nat) : Vec := fun j =>
  byteOf (clmulN (le a (j / 16 * 16 + imm % 2 * 8) 8) (le b (j / 16 * 16 + imm / 16 % 2 * 8) 8) 64) (j % 16)

/-- `_mm_setzero_si128`. -/
def zero : Vec := fun _ => 0#8
/-- `_mm_cvtsi32_si128`. -/
def cvtsi32 (x : BitVec 32) : Vec := fun j => if j < 4 then byteOf x.toNat j else 0#8
/-- `_mm_extract_epi32(a, k)`; `_mm_cvtsi128_si32` for `k = 0`. -/
def extract32 (a : Vec) (k : Nat) : BitVec 32 := BitVec.ofNat 32 (le a (4 * k) 4)
/-- A register of 32-bit lanes, lowest first. -/
def of32 (l : List (BitVec 32)) : Vec := fun j => byteOf (l.getD (j / 4) 0#32).toNat (j % 4)
/-- A register of 8-bit lanes, lowest first. -/
def of8 (l : List Byte) : Vec := fun j => l.getD j 0#8
/-- `_mm_add_epi64(a, b)`. -/
def add64 (a b : Vec) : Vec := fun j => byteOf (le a (j / 8 * 8) 8 + le b (j / 8 * 8) 8) (j % 8)
/-- `_mm_sll_epi64(a, k)`, `k < 64`. -/
def sll64 (a : Vec) (k : Nat) : Vec := fun j => byteOf (le a (j / 8 * 8) 8 * 2 ^ k) (j % 8)
/-- `_mm_unpackhi_epi32(a, b)`. -/
def unpackhi32 (a b : Vec) : Vec := fun j =>
  if j < 4 then a (j + 8) else if j < 8 then b (j - 4 + 8) else if j < 12 then a (j - 8 + 12) else b (j - 12 + 12)
/-- `_mm_blend_epi16(a, b, imm)`. -/
def blend16 (a b : Vec) (imm : Nat) : Vec := fun j => if imm.testBit (j / 2) then b j else a j
/-- `_mm256_permute2x128_si256(a, b, imm)`. -/
def permute2x128 (a b : Vec) (imm : Nat) : Vec := fun j =>
  let c := if j < 16 then imm % 16 else imm / 16
  if c.testBit 3 then 0#8
  else match c % 4 with
    | 0 => a (j % 16)
    | 1 => a (16 + j % 16)
    | 2 => b (j % 16)
    | _ => b (16 + j % 16)
/-- `_mm256_extracti128_si256(a, 1)`. -/
def extracti128 (a : Vec) : Vec := fun j => a (16 + j)
/-- `_mm256_broadcastsi128_si256(a)`. -/
def broadcast128 (a : Vec) : Vec := fun j => a (j % 16)
/-- `_mm256_zextsi128_si256(a)`. -/
def zext128 (a : Vec) : Vec := fun j => if j < 16 then a j else 0#8
/-- `_mm256_cmpgt_epi8(a, b)`. -/
def cmpgt (a b : Vec) : Vec := fun j => bm ((b j).slt (a j))

end Vec

namespace Crc

/-- Data for a hardware routine: its address, its bytes, and what happens to be in memory around it (`around k` is the byte `k` places after the start). -/
structure Src where
  addr : Nat
  data : List Byte
  around : Nat → Byte

/-- The byte `k` places after the start of the data. -/
def Src.at (s : Src) (k : Nat) : Byte := s.data.getD k (s.around k)

/-- An aligned load of `n` bytes at `off` from the start. `none`: the address is not aligned (the instruction faults), or no byte of the block belongs
to the data. A block of which a part belongs to the data lies in the same page as the data, so it can be read, and `around` supplies the rest. -/
def Src.load (s : Src) (n off : Nat) : Option Vec :=
  if (s.addr + off) % n = 0 ∧ off < s.data.length then some (fun j => s.at (off + j)) else none

/-- A load without alignment requirement. `none`: it reads a byte outside the data. -/
def Src.loadu (s : Src) (n off : Nat) : Option Vec :=
  if off + n ≤ s.data.length then some (fun j => s.at (off + j)) else none

/-- The first `n` bytes of the data; what follows is in memory still. -/
def Src.prefix (s : Src) (n : Nat) : Src := ⟨s.addr, s.data.take n, s.at⟩

/-- `(long)n` for a `size_t` `n` and a `long` of `w` bits. -/
def toLong (w n : Nat) : Int := (BitVec.ofNat w n).toInt

/-- `n & 2^k ≠ 0` for a `long`, in two's complement. -/
def bitOf (n : Int) (k : Nat) : Bool := n / 2 ^ k % 2 = 1

end Crc
end Yenc
