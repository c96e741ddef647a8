import Verif.Basic
/-!
The vector instructions the x86 code uses, lane by lane.

A vector register of `n` bytes is a function from lane number to byte, of which only the lanes below `n` mean anything.  Operations on 256-bit registers
that work on each 128-bit half separately are defined so that they are right for both sizes.  A `k`-register (AVX512) of `n` bits is a `BitVec n`.
-/
namespace Yenc

abbrev Vec := Nat → Byte

namespace Vec

/-- A lane of all ones or all zeros. -/
def bm (p : Bool) : Byte := if p then 0xff#8 else 0#8

/-- `_mm_set1_epi8`. -/
def set1 (c : Byte) : Vec := fun _ => c
/-- `_mm_load_si128`, `_mm_loadu_si128` at `off` bytes from where `b` starts. -/
def load (b : Nat → Byte) (off : Nat) : Vec := fun j => b (off + j)
/-- `_mm_add_epi8`. -/
def add (a b : Vec) : Vec := fun j => a j + b j
/-- `_mm_sub_epi8`. -/
def sub (a b : Vec) : Vec := fun j => a j - b j
/-- `_mm_and_si128`. -/
def and (a b : Vec) : Vec := fun j => a j &&& b j
/-- `_mm_or_si128`. -/
def or (a b : Vec) : Vec := fun j => a j ||| b j
/-- `_mm_xor_si128`. -/
def xor (a b : Vec) : Vec := fun j => a j ^^^ b j
/-- `_mm_andnot_si128`. -/
def andnot (a b : Vec) : Vec := fun j => ~~~ a j &&& b j
/-- `_mm_cmpeq_epi8`. -/
def cmpeq (a b : Vec) : Vec := fun j => bm (a j = b j)
/-- `_mm_min_epu8`. -/
def minu (a b : Vec) : Vec := fun j => if (a j).toNat ≤ (b j).toNat then a j else b j
/-- `_mm_max_epu8`. -/
def maxu (a b : Vec) : Vec := fun j => if (a j).toNat ≤ (b j).toNat then b j else a j
/-- `_mm_adds_epu8`. -/
def addsu (a b : Vec) : Vec := fun j => if (a j).toNat + (b j).toNat ≤ 255 then a j + b j else 255#8
/-- `_mm_subs_epu8`. -/
def subsu (a b : Vec) : Vec := fun j => if (b j).toNat ≤ (a j).toNat then a j - b j else 0#8
/-- `_mm_shuffle_epi8(tbl, idx)`; in the 256-bit form each half selects from the same half of `tbl`. -/
def pshufb (tbl idx : Vec) : Vec := fun j => if (idx j).msb then 0#8 else tbl (j / 16 * 16 + (idx j).toNat % 16)
/-- `_mm_alignr_epi8(hi, lo, k)`, `k < 16`; in the 256-bit form on each half. -/
def alignr (hi lo : Vec) (k : Nat) : Vec := fun j => if j % 16 + k < 16 then lo (j + k) else hi (j + k - 16)
/-- `_mm_srli_si128(a, k)`. -/
def srliSi (a : Vec) (k : Nat) : Vec := fun j => if j + k < 16 then a (j + k) else 0#8
/-- `_mm_slli_si128(a, k)`. -/
def slliSi (a : Vec) (k : Nat) : Vec := fun j => if j < k then 0#8 else a (j - k)
/-- `_mm_blendv_epi8(a, b, mask)`. -/
def blendv (a b mask : Vec) : Vec := fun j => if (mask j).msb then b j else a j

/-- The 16-bit lane `k`. -/
def w16 (a : Vec) (k : Nat) : BitVec 16 := a (2 * k + 1) ++ a (2 * k)
/-- The vector of given 16-bit lanes. -/
def of16 (f : Nat → BitVec 16) : Vec := fun j => if j % 2 = 0 then (f (j / 2)).extractLsb' 0 8 else (f (j / 2)).extractLsb' 8 8
/-- `_mm_set1_epi16`. -/
def set1w (c : BitVec 16) : Vec := of16 fun _ => c
/-- `_mm_cmpeq_epi16`. -/
def cmpeqw (a b : Vec) : Vec := of16 fun k => if w16 a k = w16 b k then 0xffff#16 else 0#16
/-- `_mm_slli_epi16`. -/
def slliw (a : Vec) (k : Nat) : Vec := of16 fun i => w16 a i <<< k
/-- `_mm_srli_epi16`. -/
def srliw (a : Vec) (k : Nat) : Vec := of16 fun i => w16 a i >>> k
/-- `_mm_insert_epi16(a, x, 0)`. -/
def insert16 (a : Vec) (x : BitVec 16) : Vec := of16 fun i => if i = 0 then x else w16 a i
/-- `_mm_cvtsi32_si128`, of a value below 256. -/
def cvt (x : Byte) : Vec := fun j => if j = 0 then x else 0#8
/-- `_mm_shrdi_epi16(a, b, k)`. -/
def shrdiw (a b : Vec) (k : Nat) : Vec := of16 fun i => ((w16 b i ++ w16 a i) >>> k).extractLsb' 0 16

/-- The `w`-bit integer whose bits below `n` are given by `f`. -/
def ofBits (w : Nat) (f : Nat → Bool) : Nat → BitVec w
  | 0 => 0#w
  | n + 1 => ofBits w f n ||| if f n then 1#w <<< n else 0#w

/-- `_mm_movemask_epi8` of `n` lanes, as a `w`-bit integer. -/
def movemask (w n : Nat) (v : Vec) : BitVec w := ofBits w (fun j => (v j).msb) n

/-- `_mm_cmpeq_epi8_mask`. -/
def cmpeqMask (n : Nat) (a b : Vec) : BitVec n := movemask n n (cmpeq a b)
/-- `_mm_mask_cmpeq_epi8_mask`. -/
def maskCmpeqMask {n : Nat} (k : BitVec n) (a b : Vec) : BitVec n := k &&& cmpeqMask n a b
/-- `_mm_mask_test_epi8_mask`. -/
def maskTestMask {n : Nat} (k : BitVec n) (a b : Vec) : BitVec n := k &&& ofBits n (fun j => a j &&& b j ≠ 0#8) n
/-- `_mm_movm_epi8`. -/
def movm {n : Nat} (k : BitVec n) : Vec := fun j => bm (k.getLsbD j)
/-- `_mm_mask_blend_epi8(k, a, b)`. -/
def maskBlend {n : Nat} (k : BitVec n) (a b : Vec) : Vec := fun j => if k.getLsbD j then b j else a j
/-- `_mm_maskz_mov_epi8(k, a)`. -/
def maskzMov {n : Nat} (k : BitVec n) (a : Vec) : Vec := fun j => if k.getLsbD j then a j else 0#8
/-- `_mm_mask_add_epi8(s, k, a, b)`. -/
def maskAdd {n : Nat} (s : Vec) (k : BitVec n) (a b : Vec) : Vec := fun j => if k.getLsbD j then a j + b j else s j
/-- `_mm_ternarylogic_epi32(a, b, c, imm)`. -/
def ternary (a b c : Vec) (imm : BitVec 8) : Vec := fun j =>
  ofBits 8 (fun k => imm.getLsbD (4 * ((a j).getLsbD k).toNat + 2 * ((b j).getLsbD k).toNat + ((c j).getLsbD k).toNat)) 8
/-- `_mm256_alignr_epi32(hi, lo, k)`. -/
def alignr32 (hi lo : Vec) (k : Nat) : Vec := fun j => if j + 4 * k < 32 then lo (j + 4 * k) else hi (j + 4 * k - 32)
/-- `_mm256_inserti128_si256(a, b, 1)`. -/
def inserti128 (a b : Vec) : Vec := fun j => if j < 16 then a j else b (j - 16)
/-- The bytes `_mm_maskz_compress_epi8(k, a)` moves to the front. -/
def compress {n : Nat} (k : BitVec n) (a : Vec) : List Byte := ((List.range n).filter fun j => k.getLsbD j).map a

/-- The `n` bytes a store of the register writes. -/
def toList (v : Vec) (n : Nat) : List Byte := (List.range n).map v

end Vec

/-- Number of set bits (`popcnt32`, `__builtin_popcount`). -/
def popcnt {w : Nat} (x : BitVec w) : Nat := ((List.range w).filter fun j => x.getLsbD j).length

end Yenc
