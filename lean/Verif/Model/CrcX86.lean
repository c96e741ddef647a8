import Verif.Model.Clmul
/-!
Model of the PCLMULQDQ and VPCLMULQDQ code, `/repo/src/crc_folding.cc` and `/repo/src/crc_folding_256.cc`.

`avx` selects the code compiled with `ENABLE_AVX512`. `crcFold` and `crcFold256` take the length as it is; the conversion of `size_t` to `long` by their
caller is in `incr` and `incr256`.
-/
namespace Yenc.Crc
open Vec

namespace X86

/-- crc_folding.cc:45-47, 57-59 `xmm_fold4`; crc_folding_256.cc:15-20 `fold4` repeats it. -/
def fold4 : Vec := of32 [0xc6e41596#32, 1#32, 0x54442bd4#32, 1#32, 0xc6e41596#32, 1#32, 0x54442bd4#32, 1#32]

/-- crc_folding.cc:35-41: `a ^ b ^ c`, in one instruction or two. -/
def xor3 (avx : Bool) (a b c : Vec) : Vec := if avx then ternary a b c 0x96#8 else xor (xor a b) c

/-- `do_one_fold_merge`, crc_folding.cc:44-54, or `do_one_fold` (56-64) followed by the exclusive or with the data. -/
def foldMerge (avx : Bool) (src data : Vec) : Vec := xor3 avx (clmul src fold4 0x01) (clmul src fold4 0x10) data

/-- `pshufb_shf_table`, crc_folding.cc:67-83. -/
def shfTable : List (BitVec 32) := [
  0x84838281#32, 0x88878685#32, 0x8c8b8a89#32, 0x008f8e8d#32,
  0x85848382#32, 0x89888786#32, 0x8d8c8b8a#32, 0x01008f8e#32,
  0x86858483#32, 0x8a898887#32, 0x8e8d8c8b#32, 0x0201008f#32,
  0x87868584#32, 0x8b8a8988#32, 0x8f8e8d8c#32, 0x03020100#32,
  0x88878685#32, 0x8c8b8a89#32, 0x008f8e8d#32, 0x04030201#32,
  0x89888786#32, 0x8d8c8b8a#32, 0x01008f8e#32, 0x05040302#32,
  0x8a898887#32, 0x8e8d8c8b#32, 0x0201008f#32, 0x06050403#32,
  0x8b8a8988#32, 0x8f8e8d8c#32, 0x03020100#32, 0x07060504#32,
  0x8c8b8a89#32, 0x008f8e8d#32, 0x04030201#32, 0x08070605#32,
  0x8d8c8b8a#32, 0x01008f8e#32, 0x05040302#32, 0x09080706#32,
  0x8e8d8c8b#32, 0x0201008f#32, 0x06050403#32, 0x0a090807#32,
  0x8f8e8d8c#32, 0x03020100#32, 0x07060504#32, 0x0b0a0908#32,
  0x008f8e8d#32, 0x04030201#32, 0x08070605#32, 0x0c0b0a09#32,
  0x01008f8e#32, 0x05040302#32, 0x09080706#32, 0x0d0c0b0a#32,
  0x0201008f#32, 0x06050403#32, 0x0a090807#32, 0x0e0d0c0b#32]

/-- The four accumulators `xmm_crc0` to `xmm_crc3`. -/
structure Regs where
  c0 : Vec
  c1 : Vec
  c2 : Vec
  c3 : Vec

/-- `partial_fold`, crc_folding.cc:85-123. -/
def partialFold (avx : Bool) (len : Nat) (r : Regs) (part : Vec) : Regs :=
  let shl := of32 (shfTable.drop (4 * (len - 1)))
  let shr := xor shl (set1 0x80#8)
  let a0 := pshufb r.c0 shl
  let c0 := Vec.or (pshufb r.c0 shr) (pshufb r.c1 shl)
  let c1 := Vec.or (pshufb r.c1 shr) (pshufb r.c2 shl)
  let c2 := Vec.or (pshufb r.c2 shr) (pshufb r.c3 shl)
  let c3 := Vec.or (pshufb r.c3 shr) (pshufb part shl)
  ⟨c0, c1, c2, foldMerge avx a0 c3⟩

/-- crc_folding.cc:172-197: `while (len >= 64)`. -/
def loop64 (avx : Bool) (s : Src) (off len : Nat) (r : Regs) : Option (Regs × Nat × Nat) :=
  if len ≥ 64 then
    match s.load 16 off, s.load 16 (off + 16), s.load 16 (off + 32), s.load 16 (off + 48) with
    | some t0, some t1, some t2, some t3 =>
      loop64 avx s (off + 64) (len - 64) ⟨foldMerge avx r.c0 t0, foldMerge avx r.c1 t1, foldMerge avx r.c2 t2, foldMerge avx r.c3 t3⟩
    | _, _, _, _ => none
  else some (r, off, len)
termination_by len

/-- crc_folding.cc:199-272: one to three more blocks of 16. -/
def blocks16 (avx : Bool) (s : Src) (off len : Nat) (r : Regs) : Option (Regs × Nat × Nat) :=
  if len ≥ 48 then
    match s.load 16 off, s.load 16 (off + 16), s.load 16 (off + 32) with
    | some t0, some t1, some t2 => some (⟨r.c3, foldMerge avx r.c0 t0, foldMerge avx r.c1 t1, foldMerge avx r.c2 t2⟩, off + 48, len - 48)
    | _, _, _ => none
  else if len ≥ 32 then
    match s.load 16 off, s.load 16 (off + 16) with
    | some t0, some t1 => some (⟨r.c2, r.c3, foldMerge avx r.c0 t0, foldMerge avx r.c1 t1⟩, off + 32, len - 32)
    | _, _ => none
  else if len ≥ 16 then
    match s.load 16 off with
    | some t0 => some (⟨r.c1, r.c2, r.c3, foldMerge avx r.c0 t0⟩, off + 16, len - 16)
    | _ => none
  else some (r, off, len)

/-- `crc_k` (rk1, rk2), crc_folding.cc:125-132. -/
def k1 : Vec := of32 [0xccaa009e#32, 0#32, 0x751997d0#32, 1#32]
/-- `crc_k + 1` (rk5, rk6). -/
def k5 : Vec := of32 [0xccaa009e#32, 0#32, 0x63cd6124#32, 1#32]
/-- `crc_k + 2` (rk7, rk8). -/
def k7 : Vec := of32 [0xf7011641#32, 0#32, 0xdb710640#32, 1#32]
/-- `crc_mask`, crc_folding.cc:134-136. -/
def crcMask : Vec := of32 [0#32, 0xffffffff#32, 0xffffffff#32, 0xffffffff#32]

/-- crc_folding.cc:277-350: from the accumulators to the CRC. crc_folding_256.cc:146-206 is the same computation. -/
def done (avx : Bool) (r : Regs) : U32 :=
  let c1 := xor3 avx r.c1 (clmul r.c0 k1 0x10) (clmul r.c0 k1 0x01)
  let c2 := xor3 avx r.c2 (clmul c1 k1 0x10) (clmul c1 k1 0x01)
  let c3 := xor3 avx r.c3 (clmul c2 k1 0x10) (clmul c2 k1 0x01)
  let c0 := c3
  let c3 := clmul c3 k5 0
  let c0 := srliSi c0 8
  let c3 := xor c3 c0
  let c0 := c3
  let c3 := slliSi c3 4
  let c3 := clmul c3 k5 0x10
  let c3 := if avx then ternary c3 c0 crcMask 0x28#8 else xor c3 (Vec.and c0 crcMask)
  let c1 := c3
  let c3 := clmul c3 k7 0
  let c3 := clmul c3 k7 0x10
  let c3 := if avx then ternary c3 c1 c1 0xC3#8 else xor c3 (xor c1 crcMask)
  extract32 c3 2

/-- crc_folding.cc:146-150: the accumulators before any data. -/
def start (init : U32) : Regs := ⟨clmul (cvtsi32 (~~~init)) (cvtsi32 0xdfded7ec#32) 0, zero, zero, zero⟩

/-- crc_folding.cc:161-170: fold the bytes before the first multiple of 16. -/
def first (avx : Bool) (s : Src) (diff : Nat) (r : Regs) : Option Regs :=
  if diff = 0 then some r else (s.loadu 16 0).map fun part => partialFold avx diff r part

/-- `crc_fold(src, len, initial)`, crc_folding.cc:139-351. -/
def crcFold (avx : Bool) (s : Src) (init : U32) : Option U32 :=
  let len := s.data.length
  if len < 16 then
    if len = 0 then some init
    else some (done avx (partialFold avx len (start init) fun j => if j < len then s.at j else 0#8))
  else
    let diff := (16 - s.addr % 16) % 16
    match first avx s diff (start init) with
    | none => none
    | some r =>
      match loop64 avx s diff (len - diff) r with
      | none => none
      | some (r, off, len) =>
        match blocks16 avx s off len r with
        | none => none
        | some (r, off, len) =>
          if len = 0 then some (done avx r)
          else (s.load 16 off).map fun part => done avx (partialFold avx len r part)

/-! ### Multiplication and powers -/

/-- `crc32_reduce`, crc_folding.cc:359-366. -/
def reduce (prod : Vec) : Vec := xor (clmul (clmul prod k7 0) k7 0x10) prod

/-- `crc32_multiply_clmul(a, b)`, crc_folding.cc:368-378. -/
def multiply (a b : U32) : U32 :=
  let prod := clmul (cvtsi32 a) (cvtsi32 b) 0
  let prod := add64 prod prod
  let prod := slliSi prod 4
  extract32 (reduce prod) 2

/-- `_mm_gf2p8affine_epi64_epi8(src, A, 0)` with the same matrix in both halves: bit `i` of a result byte is the parity of the source byte masked by byte `7 - i` of the matrix. -/
def gf2p8affine (src : Vec) (A : BitVec 64) : Vec := fun j =>
  ofBits 8 (fun i => popcnt (((A >>> (8 * (7 - i))).setWidth 8) &&& src j) % 2 = 1) 8

/-- `reverse_bits_epi8(src)`, crc_folding.cc:381-409. -/
def reverseBits (gfni : Bool) (src : Vec) : Vec :=
  if gfni then gf2p8affine src 0x8040201008040201#64
  else
    let t0 := Vec.and src (set1 0x0f#8)
    let t1 := Vec.and (srliw src 4) (set1 0x0f#8)
    let t0 := pshufb (of8 [0#8, -128#8, 64#8, -64#8, 32#8, -96#8, 96#8, -32#8, 16#8, -112#8, 80#8, -48#8, 48#8, -80#8, 112#8, -16#8]) t0
    let t1 := pshufb (of8 [0#8, 8#8, 4#8, 12#8, 2#8, 10#8, 6#8, 14#8, 1#8, 9#8, 5#8, 13#8, 3#8, 11#8, 7#8, 15#8]) t1
    Vec.or t0 t1

/-- `BSWAP32`, crc_folding.cc:414-416. -/
def bswap32 (n : U32) : U32 :=
  ((n &&& 0xff#32) <<< 24) ||| ((n &&& 0xff00#32) <<< 8) ||| ((n &&& 0xff0000#32) >>> 8) ||| ((n &&& 0xff000000#32) >>> 24)

end X86

/-- `crc_power_rev`, crc_folding.cc:421-426; crc_arm_pmull.cc:129-134 is the same table. -/
def crcPowerRev : List U32 := [
  0x00000002#32, 0x00000004#32, 0x00000010#32, 0x00000100#32, 0x00010000#32, 0x04c11db7#32, 0x490d678d#32, 0xe8a45605#32,
  0x75be46b7#32, 0xe6228b11#32, 0x567fddeb#32, 0x88fe2237#32, 0x0e857e71#32, 0x7001e426#32, 0x075de2b2#32, 0xf12a7f90#32,
  0xf0b4a1c1#32, 0x58f46c0c#32, 0xc3395ade#32, 0x96837f8c#32, 0x544037f9#32, 0x23b7b136#32, 0xb2e16ba8#32, 0x725e7bfa#32,
  0xec709b5d#32, 0xf77a7274#32, 0x2845d572#32, 0x034e2515#32, 0x79695942#32, 0x540cb128#32, 0x0b65d023#32, 0x3c344723#32]

/-- `n &= n-1`: clear the lowest set bit. -/
def clearLow (n : U32) : U32 := n &&& (n - 1#32)

/-- The loop with two accumulators of crc_folding.cc:460-468, crc_arm_pmull.cc:167-175 and crc_riscv.cc:227-235:
while bits are left, multiply the first and the second accumulator in turn. At most 32 rounds. -/
def shiftLoop2 {α : Type} (mul : α → Nat → α) : Nat → α → α → U32 → α × α
  | 0, a, b, _ => (a, b)
  | f + 1, a, b, n =>
    if n = 0#32 then (a, b)
    else
      let a := mul a (ctz n)
      let n := clearLow n
      if n = 0#32 then (a, b) else shiftLoop2 mul f a (mul b (ctz n)) (clearLow n)

namespace X86

/-- crc_folding.cc:433, 471: `_mm_set_epi32(0, 0x490d678d, 0, 0xf200aa66)`. -/
def foldConst : Vec := of32 [0xf200aa66#32, 0#32, 0x490d678d#32, 0#32]
/-- crc_folding.cc:491: `_mm_set_epi32(0, 0x04c11db7, 1, 0x04d101df)`. -/
def reductionConst : Vec := of32 [0x04d101df#32, 1#32, 0x04c11db7#32, 0#32]

/-- `crc32_shift_clmul_mulred(pos, prod)`, crc_folding.cc:428-437. -/
def mulred (prod : Vec) (pos : Nat) : Vec :=
  let coeff := cvtsi32 (crcPowerRev.getD pos 0#32)
  let prod := clmul prod coeff 0
  let hi := clmul prod foldConst 0x11
  xor hi prod

/-- crc_folding.cc:450-488: multiply by the powers for the bits of `n` from 32 up (`n` is not zero). -/
def powers (avx : Bool) (result : Vec) (n : U32) : Vec :=
  let result2 := cvtsi32 (crcPowerRev.getD (ctz n) 0#32)
  let n := clearLow n
  let rr :=
    if n = 0#32 then (result, result2)
    else
      let result2 := clmul result2 (cvtsi32 (crcPowerRev.getD (ctz n) 0#32)) 0
      shiftLoop2 mulred 32 result result2 (clearLow n)
  let result := clmul rr.1 rr.2 0
  let t := unpackhi32 result zero
  let hi := clmul t foldConst 1
  let lo := clmul t foldConst 0x10
  xor3 avx result hi lo

/-- `crc32_shift_clmul(crc1, n)`, crc_folding.cc:439-498. -/
def shift (avx gfni : Bool) (crc1 n : U32) : U32 :=
  if n = 0#32 then crc1
  else
    let result := reverseBits gfni (cvtsi32 (bswap32 crc1))
    let result := sll64 result (n &&& 31#32).toNat
    let n := n &&& ~~~31#32
    let result := if n = 0#32 then result else powers avx result n
    let t := clmul (blend16 zero result 0x3c) reductionConst 0
    let t := clmul t reductionConst 0x11
    let result := xor t result
    bswap32 (extract32 (reverseBits gfni result) 0)

/-! ### The 256-bit code -/

/-- `MM256_BLENDV`, crc_folding_256.cc:54, 57. -/
def blendv256 (avx : Bool) (a b m : Vec) : Vec := if avx then ternary a b m 0xd8#8 else blendv a b m

/-- `do_one_fold(src, data)`, crc_folding_256.cc:14-33. -/
def foldMerge256 (avx : Bool) (src data : Vec) : Vec :=
  if avx then ternary (clmul src fold4 0x01) (clmul src fold4 0x10) data 0x96#8
  else xor (xor data (clmul src fold4 0x01)) (clmul src fold4 0x10)

/-- `pshufb_rot_table` loaded at `k`, crc_folding_256.cc:35-38. -/
def rotTable (k : Nat) : Vec := fun j => BitVec.ofNat 8 (k + j)

/-- The two accumulators. -/
structure Regs2 where
  c0 : Vec
  c1 : Vec

/-- `partial_fold(len, &crc0, &crc1, crc_part)`, crc_folding_256.cc:61-88. -/
def partialFold256 (avx : Bool) (len : Nat) (r : Regs2) (part : Vec) : Regs2 :=
  let shuf := broadcast128 (rotTable (len % 16))
  let mask := cmpgt shuf (set1 15#8)
  let crc0 := pshufb r.c0 shuf
  let crc1 := pshufb r.c1 shuf
  let part := pshufb part shuf
  let out := permute2x128 crc0 crc0 0x08
  if len ≥ 16 then
    let out := blendv256 avx out crc0 mask
    let crc01 := crc1
    let crc1p := part
    let crc0 := permute2x128 crc0 crc1 0x21
    let crc1 := permute2x128 crc1 part 0x21
    let crc0 := blendv256 avx crc0 crc01 mask
    let crc1 := blendv256 avx crc1 crc1p mask
    ⟨crc0, foldMerge256 avx out crc1⟩
  else
    let out := Vec.and out mask
    let crc01 := permute2x128 crc0 crc1 0x21
    let crc1p := permute2x128 crc1 part 0x21
    let crc0 := blendv256 avx crc0 crc01 mask
    let crc1 := blendv256 avx crc1 crc1p mask
    ⟨crc0, foldMerge256 avx out crc1⟩

/-- crc_folding_256.cc:125-130: `while (len >= 64)`. -/
def loop64_256 (avx : Bool) (s : Src) (off len : Nat) (r : Regs2) : Option (Regs2 × Nat × Nat) :=
  if len ≥ 64 then
    match s.load 32 off, s.load 32 (off + 32) with
    | some t0, some t1 => loop64_256 avx s (off + 64) (len - 64) ⟨foldMerge256 avx r.c0 t0, foldMerge256 avx r.c1 t1⟩
    | _, _ => none
  else some (r, off, len)
termination_by len

/-- crc_folding_256.cc:132-139. -/
def block32 (avx : Bool) (s : Src) (off len : Nat) (r : Regs2) : Option (Regs2 × Nat × Nat) :=
  if len ≥ 32 then (s.load 32 off).map fun t => (⟨r.c1, foldMerge256 avx r.c0 t⟩, off + 32, len - 32)
  else some (r, off, len)

/-- crc_folding_256.cc:102-109. -/
def start256 (init : U32) : Regs2 := ⟨zext128 (clmul (cvtsi32 (~~~init)) (cvtsi32 0xdfded7ec#32) 0), zero⟩

/-- crc_folding_256.cc:118-123. -/
def first256 (avx : Bool) (s : Src) (diff : Nat) (r : Regs2) : Option Regs2 :=
  if diff = 0 then some r else (s.loadu 32 0).map fun part => partialFold256 avx diff r part

/-- crc_folding_256.cc:146-206: split the accumulators and finish as the 128-bit code does. -/
def done256 (avx : Bool) (r : Regs2) : U32 := done avx ⟨r.c0, extracti128 r.c0, r.c1, extracti128 r.c1⟩

/-- `crc_fold(src, len, initial)`, crc_folding_256.cc:101-207. -/
def crcFold256 (avx : Bool) (s : Src) (init : U32) : Option U32 :=
  let len := s.data.length
  if len < 32 then
    if len = 0 then some init
    else some (done256 avx (partialFold256 avx len (start256 init) fun j => if j < len then s.at j else 0#8))
  else
    let diff := (32 - s.addr % 32) % 32
    match first256 avx s diff (start256 init) with
    | none => none
    | some r =>
      match loop64_256 avx s diff (len - diff) r with
      | none => none
      | some (r, off, len) =>
        match block32 avx s off len r with
        | none => none
        | some (r, off, len) =>
          if len = 0 then some (done256 avx r)
          else (s.load 32 off).map fun part => done256 avx (partialFold256 avx len r part)

/-- `do_crc32_incremental_clmul(data, length, init)`, crc_folding.cc:354-356, with a `long` of `w` bits. A negative `len` is below 16 and not 0,
so `memcpy` (crc_folding.cc:157) is given a size of at least `2 ^ (w - 1)`: `none`. -/
def incr (w : Nat) (avx : Bool) (s : Src) (init : U32) : Option U32 :=
  let len := toLong w s.data.length
  if len < 0 then none else crcFold avx (s.prefix len.toNat) init

/-- `do_crc32_incremental_clmul(data, length, init)`, crc_folding_256.cc:209-211, in the same way. -/
def incr256 (w : Nat) (avx : Bool) (s : Src) (init : U32) : Option U32 :=
  let len := toLong w s.data.length
  if len < 0 then none else crcFold256 avx (s.prefix len.toNat) init

end X86
end Yenc.Crc
