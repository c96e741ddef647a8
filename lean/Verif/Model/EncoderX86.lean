import Verif.Model.EncoderSimd
import Verif.Model.Vec
/-!
Model of the rounds of the x86 encoders: `do_encode_sse` (encoder_sse_base.h) and `do_encode_avx2` (encoder_avx_base.h), instruction by instruction, in all the variants the
preprocessor and the template argument select.
-/
namespace Yenc
namespace Vec

/-- `_mm_abs_epi8`. -/
def abs (a : Vec) : Vec := fun j => if (a j).msb then - a j else a j
/-- `_mm_adds_epi8` (signed saturation). -/
def adds (a b : Vec) : Vec := fun j =>
  let s := (a j).toInt + (b j).toInt
  if s > 127 then 127#8 else if s < -128 then 128#8 else BitVec.ofInt 8 s
/-- `_mm_mask_alignr_epi8(src, k, hi, lo, n)`. -/
def maskAlignr {w : Nat} (src : Vec) (k : BitVec w) (hi lo : Vec) (n : Nat) : Vec := fun j => if k.getLsbD j then alignr hi lo n j else src j
/-- `_mm_mask_expand_epi8(src, k, a)`: the lanes selected by `k` get the lanes of `a` in turn. -/
def maskExpand {w : Nat} (src : Vec) (k : BitVec w) (a : Vec) : Vec := fun j =>
  if k.getLsbD j then a ((List.range j).filter fun i => k.getLsbD i).length else src j
/-- `_mm256_permute4x64_epi64(a, _MM_SHUFFLE(1,0,3,2))`: exchange the halves. -/
def swapHalves (a : Vec) : Vec := fun j => if j < 16 then a (j + 16) else a (j - 16)
/-- `_mm256_extracti128_si256(a, 1)`. -/
def high128 (a : Vec) : Vec := fun j => a (j + 16)
/-- `_mm256_permute2x128_si256(a, a, 0x11)` and `_mm256_permute4x64_epi64(a, 0xee)`: the upper half twice. -/
def dupHigh (a : Vec) : Vec := fun j => if j < 16 then a (j + 16) else a j

end Vec

/-- Position of the highest set bit (`BSR32`, encoder_sse_base.h:84-99), for `x ≠ 0`. -/
def bsr32 (x : BitVec 32) : Nat := x.toNat.log2
/-- `_lzcnt_u32`. -/
def lzcnt32 (x : BitVec 32) : Nat := if x = 0#32 then 32 else 31 - x.toNat.log2

namespace Enc.Simd.X86
open Yenc Vec

/-! ## Searching -/

/-- The `pshufb` table, encoder_sse_base.h:214-216, encoder_avx_base.h:150-153 (`_mm_set_epi8` lists the lanes from the highest down): the only byte with the given low four bits of
its absolute value (plus 88 at the start of a line) that might be special. -/
def searchTable : Vec := fun j =>
  match j % 16 with
  | 0 => 10#8 - 42#8 | 1 => -42#8 | 2 => 32#8 - 42#8 | 3 => 61#8 - 42#8 | 4 => -42#8 | 5 => 13#8 - 42#8 | 6 => -42#8 | 7 => -42#8
  | 8 => 10#8 - 42#8 | 9 => 9#8 - 42#8 | 10 => 0#8 - 42#8 | 11 => 61#8 - 42#8 | 12 => 46#8 - 42#8 | 13 => 13#8 - 42#8 | 14 => -42#8 | _ => 0#8 - 42#8

/-- encoder_sse_base.h:213-218, 639-646, encoder_avx_base.h:149-155, 450-458. -/
def searchShuf (start : Bool) (v : Vec) : Vec :=
  cmpeq (pshufb searchTable (if start then adds (abs v) (cvt 88#8) else abs v)) v

/-- encoder_sse_base.h:222-231, 663-672. -/
def searchCmp (v : Vec) : Vec :=
  Vec.or (Vec.or (cmpeq v (set1 (-42#8))) (cmpeq v (set1 (10#8 - 42#8)))) (Vec.or (cmpeq v (set1 (61#8 - 42#8))) (cmpeq v (set1 (13#8 - 42#8))))

/-- `eolFirstMask[256]`, encoder_sse_base.h:62. -/
def eolFirstMask (c : Byte) : BitVec 32 :=
  if c.toNat = 214 + 9 ∨ c.toNat = 214 + 32 ∨ c.toNat = 46 - 42 then 1#32 else 0#32

/-! ## Tables of encoder_sse_base.h -/

/-- What encoder_sse_base.h:37-45 writes to `res`, in order. -/
def shufEntries (m : BitVec 8) : List Byte :=
  (List.range 8).flatMap fun j => if m.getLsbD j then [0xf0#8 + BitVec.ofNat 8 j, BitVec.ofNat 8 j] else [BitVec.ofNat 8 j]

/-- `shufMix[m].shuf`, encoder_sse_base.h:33-47. -/
def shuf (m : BitVec 8) : Vec := fun x => (shufEntries m).getD x (BitVec.ofNat 8 x + 0x40#8)

/-- `shufMix[m].mix`, encoder_sse_base.h:52-58. -/
def mix (m : BitVec 8) : Vec :=
  let maskEsc := cmpeq (Vec.and (shuf m) (set1 (-16#8))) (set1 (-16#8))
  let addMask := Vec.and (slliSi maskEsc 1) (set1 64#8)
  let addMask := Vec.or addMask (Vec.and maskEsc (set1 (61#8 - 42#8)))
  add addMask (set1 42#8)

/-- The bits encoder_sse_base.h:37-45 and encoder_avx_base.h:42-48 pass over, in order: set in `expand` or not. -/
def charBits {w : Nat} (m : BitVec w) (n : Nat) : List Bool :=
  (List.range n).flatMap fun j => if m.getLsbD j then [false, true] else [true]

/-- `expandMask[m]`, encoder_sse_base.h:35-49. -/
def expandMask (m : BitVec 8) : BitVec 16 := Vec.ofBits 16 (fun x => (charBits m 8).getD x false) 16

/-- `BitsSetTable256plus8[m]`, encoder_sse_base.h:64-66. -/
def bits8 (m : BitVec 8) : Nat := 8 + popcnt m

/-- The `n` of encoder_sse_base.h:69 for table entry `i`: the position of the escaped character. -/
def entryPos (lz : Bool) (i : Nat) : Nat := if lz then (if i = 32 then 32 else 31 - i) else (if i = 0 then 32 else i - 1)

/-- `expandMaskmix[i*64 ..]`, masks for lanes 0 to 31, encoder_sse_base.h:71. -/
def expandMaskmix (lz : Bool) (i : Nat) : Vec := fun j => bm (entryPos lz i > j)
/-- `expandMaskmix[i*64 + 32 ..]` and `expandShufmaskmix[i*64 + 32 ..]`, encoder_sse_base.h:76-77. -/
def entryAdd (lz : Bool) (i : Nat) : Vec := fun j =>
  if entryPos lz i = j then EQ else if j ≠ 0 ∧ entryPos lz i = j - 1 then 42#8 + 64#8 else 42#8
/-- `expandShufmaskmix[i*64 ..]`: a shuffle for lanes 0 to 15 and a mask for lanes 16 to 31, encoder_sse_base.h:72-75. -/
def expandShufmaskmix (lz : Bool) (i : Nat) : Vec := fun j =>
  if 15 < j then bm (entryPos lz i ≥ j)
  else if entryPos lz i = j then 0xff#8 else BitVec.ofNat 8 (if entryPos lz i < j then j - 1 else j)

/-! ## `do_encode_sse` -/

/-- What the template argument and the preprocessor select.  `tune` flags are set by `-march=native` builds. -/
structure Cfg where
  /-- `use_isa >= ISA_LEVEL_SSSE3`. -/
  ssse3 : Bool
  /-- `use_isa >= ISA_LEVEL_SSE41` (and not tuned for Atoms that prefer to avoid `pblendvb`). -/
  blendv : Bool
  /-- `use_isa & ISA_FEATURE_POPCNT`. -/
  popcnt : Bool
  /-- `use_isa & ISA_FEATURE_LZCNT`. -/
  lzcnt : Bool
  /-- `use_isa >= ISA_LEVEL_AVX3`. -/
  avx3 : Bool
  /-- `use_isa >= ISA_LEVEL_VBMI2`. -/
  vbmi2 : Bool
  /-- SSSE3 and not tuned for atom, slm, btver1: `pshufb` is used to search and in the fast path. -/
  pshufb : Bool
  /-- Tuned for btver1. -/
  btver1 : Bool
  /-- `_PREFER_BRANCHING`. -/
  branching : Bool
  /-- The inline assembly of encoder_sse_base.h:407-424 is used. -/
  asm : Bool
  /-- `STOREU_XMM` stores the halves separately (common.h:136-140). -/
  split : Bool

/-- The combinations that exist: a higher level includes the lower ones. -/
structure Cfg.Valid (c : Cfg) : Prop where
  pshufb : c.pshufb = true → c.ssse3 = true
  avx3 : c.avx3 = true → c.ssse3 = true ∧ c.pshufb = true ∧ c.popcnt = true ∧ c.btver1 = false
  vbmi2 : c.vbmi2 = true → c.avx3 = true

/-- `STOREU_XMM(p + o, v)`, common.h:136-145. -/
def storeu (c : Cfg) (o : Nat) (v : Vec) : List (Nat × List Byte) :=
  if c.split then [(o, toList v 8), (o + 8, toList (fun j => v (8 + j)) 8)] else [(o, toList v 16)]

/-- `sse2_expand_bytes`, encoder_sse_base.h:101-127.  Each round clears a bit of the 32-bit mask, so 32 rounds suffice. -/
def expandBytes (lz : Bool) : Nat → BitVec 32 → Vec → Vec
  | 0, _, data => data
  | fuel + 1, mask, data =>
    if mask = 0#32 then data
    else
      let mergeMask := if lz then expandMaskmix lz (lzcnt32 mask) else expandMaskmix lz (bsr32 mask + 1)
      let mask' := if lz then mask &&& (0x7fffffff#32 >>> lzcnt32 mask) else mask ^^^ (1#32 <<< bsr32 mask)
      expandBytes lz fuel mask' (Vec.or (Vec.and mergeMask data) (slliSi (andnot mergeMask data) 1))

/-- The vector stored for eight characters by `sse2_expand_store_vector`, encoder_sse_base.h:133-136. -/
def sse2Piece (lz : Bool) (m : BitVec 8) (data : Vec) : Vec := add (expandBytes lz 32 (m.setWidth 32) data) (mix m)

/-- The vector stored for eight characters in the other variants, encoder_sse_base.h:288-336: `second` for the upper half of `data`, which in the VBMI2 variant has the offset and the
escaping already added. -/
def piece (c : Cfg) (second : Bool) (m : BitVec 8) (data : Vec) : Vec :=
  if c.vbmi2 then maskExpand (set1 EQ) (expandMask m) (if second then srliSi data 8 else data)
  else add (pshufb data (if second then Vec.or (shuf m) (set1 8#8) else shuf m)) (mix m)

/-- `data + 42`, plus 64 for special characters, encoder_sse_base.h:291-294, 482-485, encoder_avx_base.h:166-169. -/
def shifted (cmp data : Vec) : Vec := ternary (sub data (set1 (-42#8))) cmp (set1 64#8) 0xf8#8

/-- `(data & ~cmp) | (cmp & '=')`, encoder_sse_base.h:492, 501, encoder_avx_base.h:355, 362. -/
def withEq (data cmp : Vec) : Vec := ternary data cmp (set1 EQ) 0xb8#8

/-- `sse2_expand_store_vector`, encoder_sse_base.h:129-148: the stores, `shufLenP1` and `shufLenP2` (also the number of bytes). -/
def expandStore (c : Cfg) (o : Nat) (data : Vec) (mask : BitVec 32) (mA mB : BitVec 8) : List (Nat × List Byte) × Nat × Nat :=
  if mask ≠ 0#32 then
    (storeu c o (sse2Piece c.lzcnt mA data) ++ storeu c (o + bits8 mA) (sse2Piece c.lzcnt mB (srliSi data 8)), bits8 mA, bits8 mA + bits8 mB)
  else (storeu c o (sub data (set1 (-42#8))), 8, 16)

/-- What a round found. -/
structure Found where
  cmpA : Vec
  cmpB : Vec
  maskA : BitVec 32
  maskB : BitVec 32
  mask : BitVec 32

/-- encoder_sse_base.h:205-262, 634-693. -/
def find (c : Cfg) (start : Bool) (b : Nat → Byte) : Found :=
  let dataA := load b 0
  let dataB := load b 16
  let cmpA := if c.pshufb then searchShuf start dataA else searchCmp dataA
  let cmpB := if c.pshufb then searchShuf false dataB else searchCmp dataB
  let maskA := movemask 32 16 cmpA ||| (if !c.pshufb && start then eolFirstMask (b 0) else 0#32)
  let maskB := movemask 32 16 cmpB
  ⟨cmpA, cmpB, maskA, maskB, (maskB <<< 16) ||| maskA⟩

/-- Going back in the slow path, encoder_sse_base.h:377-463.  The bits of `eqMask` are set for the `=` in the output, or (SSE2 and VBMI2) for the other bytes. -/
def slowRevert (c : Cfg) (m1 m2 m3 m4 : BitVec 8) (outputBytes shuf1Len shuf2Len shuf3Len : Nat) (col : Int) : Int × Int :=
  let shiftAmt : Int := ((outputBytes : Int) - shuf2Len) - col - 1
  let inv := c.vbmi2 || !c.ssse3
  let bits (m : BitVec 8) (second : Bool) : BitVec 32 :=
    if inv then (expandMask m).setWidth 32 else movemask 32 16 (if second then Vec.or (shuf m) (set1 8#8) else shuf m)
  let lower := shiftAmt < 0
  let eqMask : BitVec 32 := if lower then (bits m2 true <<< shuf1Len) ||| bits m1 false else (bits m4 true <<< (shuf3Len - shuf2Len)) ||| bits m3 false
  let i : Int := if lower then -16 + (if inv then 0 else (outputBytes : Int) - shuf2Len) else 0
  let sh : Nat := (if lower then shiftAmt + shuf2Len else shiftAmt).toNat
  let count (x : BitVec 32) : Nat :=
    if c.popcnt then popcnt x
    else bits8 (x.setWidth 8) + bits8 ((x >>> 8).setWidth 8) + bits8 ((x >>> 16).setWidth 8) + bits8 ((x >>> 24).setWidth 8) - 32
  if inv then
    if c.asm then
      let eq' := (eqMask >>> 1) >>> sh
      let carry : Int := if (eqMask >>> sh).getLsbD 0 then 1 else 0
      ((-col - 1) + carry, i - count eq')
    else
      let eq' := eqMask >>> sh
      if eq'.getLsbD 0 then (-col, i + 1 - count eq') else (-col - 1, i - count eq')
  else
    let eq' := eqMask >>> sh
    let col' := col + (if eq'.getLsbD 0 then 1 else 0)
    (-col', i + count eq' - col')

/-- The slow path, encoder_sse_base.h:278-464.  (`adv` is what is added to `p`; `outputBytes`, which is added to `col`, is computed separately in the SSE2 variant, and found equal in
Lemmas/EncX86Sse.lean.) -/
def slow (c : Cfg) (f : Found) (b : Nat → Byte) : Round :=
  let dataA := load b 0
  let dataB := load b 16
  let m1 : BitVec 8 := (f.maskA &&& 0xff#32).setWidth 8
  let m2 : BitVec 8 := (f.maskA >>> 8).setWidth 8
  let m3 : BitVec 8 := (f.maskB &&& 0xff#32).setWidth 8
  let m4 : BitVec 8 := (f.maskB >>> 8).setWidth 8
  if c.ssse3 then
    let dataA := if c.vbmi2 then shifted f.cmpA dataA else dataA
    let dataB := if c.vbmi2 then shifted f.cmpB dataB else dataB
    let pop := c.popcnt && !c.btver1
    let shuf1Len := bits8 m1
    let shuf2Len := if pop then popcnt f.maskA + 16 else shuf1Len + bits8 m2
    let shuf3Len := bits8 m3 + shuf2Len
    let outputBytes := if pop then popcnt f.mask + 32 else shuf3Len + bits8 m4
    { stores := storeu c 0 (piece c false m1 dataA) ++ storeu c shuf1Len (piece c true m2 dataA) ++ storeu c shuf2Len (piece c false m3 dataB) ++
        storeu c shuf3Len (piece c true m4 dataB)
      adv := outputBytes
      back := false
      revert := slowRevert c m1 m2 m3 m4 outputBytes shuf1Len shuf2Len shuf3Len }
  else
    let eA := expandStore c 0 dataA f.maskA m1 m2
    let eB := expandStore c eA.2.2 dataB f.maskB m3 m4
    { stores := eA.1 ++ eB.1
      adv := eA.2.2 + eB.2.2
      back := false
      revert := slowRevert c m1 m2 m3 m4 (if c.popcnt && !c.btver1 then popcnt f.mask + 32 else eA.2.2 + eB.2.2) eA.2.1 eA.2.2 (eB.2.1 + eA.2.2) }

/-- Going back in the fast path, encoder_sse_base.h:603-621. -/
def fastRevert (bitIndex col : Int) : Int × Int :=
  if col = bitIndex then (-1 - col, -col) else (-col, (if col > bitIndex then 1 else 0) - col)

/-- The path without any special character, encoder_sse_base.h:466-477. -/
def noesc (c : Cfg) (b : Nat → Byte) : Round :=
  { stores := storeu c 0 (sub (load b 0) (set1 (-42#8))) ++ storeu c 16 (sub (load b 16) (set1 (-42#8)))
    adv := 32
    back := false
    revert := fun col => (-col, -col) }

/-- The path for at most one special character, encoder_sse_base.h:478-621. -/
def fast (c : Cfg) (f : Found) (b : Nat → Byte) : Round :=
  let dataA := load b 0
  let dataB := load b 16
  if c.avx3 then
    let dataA := shifted f.cmpA dataA
    let dataB := shifted f.cmpB dataB
    let blendMask : BitVec 32 := - f.mask
    let outB := withEq (maskAlignr dataB (blendMask >>> 16) dataB dataA 15) f.cmpB
    let outA :=
      if c.vbmi2 then maskExpand (set1 EQ) ((~~~ f.mask).setWidth 16) dataA
      else withEq (maskAlignr dataA (blendMask.setWidth 16) dataA dataA 15) f.cmpA
    { stores := [(32, [dataB 15])] ++ storeu c 0 outA ++ storeu c 16 outB
      adv := popcnt f.mask + 32
      back := false
      revert := fastRevert (lzcnt32 f.mask + 1) }
  else
    let maskBits : Nat := if c.branching then 1 else if c.popcnt && !c.btver1 then popcnt f.mask else if f.mask ≠ 0#32 then 1 else 0
    let outputBytes : Nat := if c.popcnt && !c.btver1 then popcnt f.mask + 32 else 32 + maskBits
    -- `bitIndex`; for an empty mask `BSR32` is undefined and then overwritten by `|= -1`
    let bitIndex : Int := if c.lzcnt then lzcnt32 f.mask else if maskBits = 0 then -1 else bsr32 f.mask
    let entry : Nat := (if c.lzcnt then bitIndex else bitIndex + 1).toNat
    let out : Vec × Vec :=
      if c.pshufb then
        let shufMaskA := expandShufmaskmix c.lzcnt entry
        let mergeMaskB : Vec := fun j => expandShufmaskmix c.lzcnt entry (16 + j)
        let dataBShifted := alignr dataB dataA 15
        let dataB := andnot f.cmpB dataB
        (Vec.pshufb dataA shufMaskA,
          if c.blendv then Vec.blendv dataBShifted dataB mergeMaskB else Vec.or (Vec.and mergeMaskB dataB) (andnot mergeMaskB dataBShifted))
      else
        let mergeMaskA := expandMaskmix c.lzcnt entry
        let mergeMaskB : Vec := fun j => expandMaskmix c.lzcnt entry (16 + j)
        let dataAMasked := andnot mergeMaskA dataA
        let dataBMasked := andnot mergeMaskB dataB
        let dataAShifted := slliSi dataAMasked 1
        let dataBShifted := if c.ssse3 && !c.btver1 then alignr dataBMasked dataAMasked 15 else Vec.or (slliSi dataBMasked 1) (srliSi dataAMasked 15)
        (Vec.or (Vec.and mergeMaskA dataA) dataAShifted, Vec.or (Vec.and mergeMaskB dataB) dataBShifted)
    let last : Byte := b 31 + 42#8 + (64#32 &&& (f.mask >>> 25)).setWidth 8
    { stores := [(32, [last])] ++ storeu c 0 (add out.1 (entryAdd c.lzcnt entry)) ++ storeu c 16 (add out.2 (fun j => entryAdd c.lzcnt entry (16 + j)))
      adv := outputBytes
      back := false
      revert := fastRevert (if c.lzcnt then bitIndex + 1 else 31 - bitIndex + 1) }

/-- A round of `do_encode_sse`, encoder_sse_base.h:204-621 and 634-710. -/
def sseRound (c : Cfg) (start : Bool) (_prev : Byte) (b : Nat → Byte) : Round :=
  let f := find c start b
  let manyBitsSet := if c.popcnt && !c.btver1 then decide (popcnt f.mask > 1) else decide (f.mask &&& (f.mask - 1#32) ≠ 0#32)
  if manyBitsSet then slow c f b
  else if c.branching && decide (f.mask = 0#32) then noesc c b
  else fast c f b

/-- `do_encode_sse`. -/
def sse (c : Cfg) : Kernel := ⟨32, false, sseRound c⟩

/-! ## `do_encode_avx2` -/

/-- What encoder_avx_base.h:57-65 writes to `res`, in order. -/
def shufExpandEntries (m : BitVec 16) : List Byte :=
  (List.range 16).flatMap fun j => if m.getLsbD j then [0xff#8, BitVec.ofNat 8 j] else [BitVec.ofNat 8 j]

/-- `shufExpand[m]`, encoder_avx_base.h:54-68. -/
def shufExpand (m : BitVec 16) : Vec := fun x => (shufExpandEntries m).getD x 0x40#8

/-- `lookupsVBMI2->expand[m]`, encoder_avx_base.h:38-50. -/
def expand16 (m : BitVec 16) : BitVec 32 := Vec.ofBits 32 (fun x => (charBits m 16).getD x false) 32

/-- `expandMergemix[i*64 ..]`, encoder_avx_base.h:69-72. -/
def mergeMask (i : Nat) : Vec := fun j => bm ((if i = 32 then 32 else 31 - i) ≥ j)
/-- `expandMergemix[i*64 + 32 ..]`, encoder_avx_base.h:73. -/
def mergeAdd (i : Nat) : Vec := fun j =>
  let n := if i = 32 then 32 else 31 - i
  (if n = j then EQ else 0#8) + (if j ≠ 0 ∧ n = j - 1 then 64#8 else 0#8) + (if n ≠ j then 42#8 else 0#8)

/-- The variants of `do_encode_avx2`. -/
structure Cfg2 where
  /-- `use_isa >= ISA_LEVEL_AVX3`. -/
  avx3 : Bool
  /-- `use_isa >= ISA_LEVEL_VBMI2`. -/
  vbmi2 : Bool
  /-- Tuned for bdver4 or znver1. -/
  zen1 : Bool
  /-- The inline assembly of encoder_avx_base.h:293-302 is used. -/
  asm : Bool

/-- The combinations that exist. -/
structure Cfg2.Valid (c : Cfg2) : Prop where
  vbmi2 : c.vbmi2 = true → c.avx3 = true

/-- The vector stored for sixteen characters, encoder_avx_base.h:198-205, 218-242. -/
def piece2 (c : Cfg2) (second : Bool) (m : BitVec 16) (data : Vec) : Vec :=
  if c.vbmi2 then maskExpand (set1 EQ) (expand16 m) (if second then high128 data else data)
  else
    let data := if second then dupHigh data else inserti128 data data
    blendv (pshufb data (shufExpand m)) (set1 EQ) (shufExpand m)

/-- Going back in the slow path, encoder_avx_base.h:255-330. -/
def slowRevert2 (c : Cfg2) (m1 m2 m3 m4 : BitVec 16) (maskBitsB outputBytesA shuf1Len shuf3Len : Nat) (col : Int) : Int × Int :=
  let shiftAmt : Int := (maskBitsB : Int) + 32 - 1 - col
  let bits (m : BitVec 16) : BitVec 64 := if c.vbmi2 then (expand16 m).setWidth 64 else (movemask 32 32 (shufExpand m)).setWidth 64
  let lower := shiftAmt < 0
  let eqMask : BitVec 64 := if lower then bits m1 ||| (bits m2 <<< shuf1Len) else bits m3 ||| (bits m4 <<< shuf3Len)
  let i : Int := if lower then (if c.vbmi2 then -32 else maskBitsB) else 0
  let sh : Nat := (if lower then shiftAmt + outputBytesA else shiftAmt).toNat
  if c.vbmi2 then
    if c.asm then
      let eq' := (eqMask >>> 1) >>> sh
      let carry : Int := if (eqMask >>> sh).getLsbD 0 then 1 else 0
      ((-col - 1) + carry, i - popcnt eq')
    else
      let eq' := eqMask >>> sh
      if eq'.getLsbD 0 then (-col, i - popcnt eq' + 1) else (-col - 1, i - popcnt eq')
  else
    let eq' := eqMask >>> sh
    let revert := col + (if eq'.getLsbD 0 then 1 else 0)
    (-revert, i + popcnt eq' - revert)

/-- The slow path, encoder_avx_base.h:179-331. `dataA`, `dataB` are as they are at encoder_avx_base.h:180. -/
def slow2 (c : Cfg2) (cmpA cmpB dataA dataB : Vec) (maskA maskB : BitVec 32) : Round :=
  let maskBitsB := popcnt maskB
  let outputBytesA := popcnt maskA + 32
  let m1 : BitVec 16 := (maskA &&& 0xffff#32).setWidth 16
  let m3 : BitVec 16 := (maskB &&& 0xffff#32).setWidth 16
  -- `(maskA >> 11) & 0x1fffe0` is the byte offset of entry `maskA >> 16` in a table of 32-byte vectors
  let m2 : BitVec 16 := if c.vbmi2 then (maskA >>> 16).setWidth 16 else (((maskA >>> 11) &&& 0x1fffe0#32) >>> 5).setWidth 16
  let m4 : BitVec 16 := if c.vbmi2 then (maskB >>> 16).setWidth 16 else (((maskB >>> 11) &&& 0x1fffe0#32) >>> 5).setWidth 16
  let dataA := if c.avx3 then dataA else add dataA (blendv (set1 42#8) (set1 (42#8 + 64#8)) cmpA)
  let dataB := if c.avx3 then dataB else add dataB (blendv (set1 42#8) (set1 (42#8 + 64#8)) cmpB)
  let shuf1Len := popcnt m1 + 16
  let shuf3Len := popcnt m3 + 16
  { stores := [(0, toList (piece2 c false m1 dataA) 32), (shuf1Len, toList (piece2 c true m2 dataA) 32), (outputBytesA, toList (piece2 c false m3 dataB) 32),
      (outputBytesA + shuf3Len, toList (piece2 c true m4 dataB) 32)]
    adv := 32 + outputBytesA + maskBitsB
    back := false
    revert := slowRevert2 c m1 m2 m3 m4 maskBitsB outputBytesA shuf1Len shuf3Len }

/-- What the fast path stores for 32 characters, encoder_avx_base.h:335-404, 489-558: the vector and the byte behind it.  `shiftedData` is `data` moved up by one lane. -/
def fastHalf (c : Cfg2) (cmp data shiftedData : Vec) (mask : BitVec 32) (last : Byte) : Vec × Byte :=
  if c.avx3 then
    if c.vbmi2 then (maskExpand (set1 EQ) (~~~ mask) data, high128 data 15)
    else
      let dataSwapped := swapHalves data
      (withEq (maskAlignr data (-mask) data dataSwapped 15) cmp, dataSwapped 15)
  else
    let bitIndex := lzcnt32 mask
    (add (blendv shiftedData (andnot cmp data) (mergeMask bitIndex)) (mergeAdd bitIndex), last + 42#8 + (64#32 &&& (mask >>> 25)).setWidth 8)

/-- Going back in the fast path, encoder_avx_base.h:408-433. -/
def fastRevert2 (maskA maskB : BitVec 32) (col : Int) : Int × Int :=
  let maskBitsB := popcnt maskB + 32
  if col > maskBitsB then
    let bitIndexA : Int := lzcnt32 maskA + 1 + maskBitsB
    let i : Int := maskBitsB - 32
    if col = bitIndexA then (-1 - col, i - col) else (-col, i + (if col > bitIndexA then 1 else 0) - col)
  else
    let bitIndexB : Int := lzcnt32 maskB + 1
    if col = bitIndexB then (-1 - col, -col) else (-col, (if col > bitIndexB then 1 else 0) - col)

/-- A round of `do_encode_avx2`, encoder_avx_base.h:144-433, 446-563. -/
def avx2Round (c : Cfg2) (start : Bool) (prev : Byte) (b : Nat → Byte) : Round :=
  let dataA := load b 0
  let dataB := load b 32
  let cmpA := searchShuf start dataA
  let cmpB := searchShuf false dataB
  let maskA := movemask 32 32 cmpA
  let maskB := movemask 32 32 cmpB
  let tA := if c.avx3 then ternary (add dataA (set1 42#8)) cmpA (set1 64#8) 0xf8#8 else dataA
  let tB := if c.avx3 then ternary (add dataB (set1 42#8)) cmpB (set1 64#8) 0xf8#8 else dataB
  if (popcnt maskA ||| popcnt maskB) > 1 then slow2 c cmpA cmpB tA tB maskA maskB
  else
    let shA : Vec := if c.zen1 then alignr dataA (inserti128 dataA dataA) 15 else fun j => if j = 0 then prev else b (j - 1)
    let shB : Vec := if c.zen1 then alignr dataB (inserti128 dataB dataB) 15 else fun j => b (32 + j - 1)
    let fA := fastHalf c cmpA tA shA maskA (b 31)
    let fB := fastHalf c cmpB tB shB maskB (b 63)
    let outputBytesA := popcnt maskA + 32
    { stores := [(0, toList fA.1 32), (32, [fA.2]), (outputBytesA, toList fB.1 32), (outputBytesA + 32, [fB.2])]
      adv := outputBytesA + (popcnt maskB + 32)
      back := !c.avx3 && !c.zen1
      revert := fastRevert2 maskA maskB }

/-- `do_encode_avx2`. -/
def avx2 (c : Cfg2) : Kernel := ⟨64, !c.zen1, avx2Round c⟩

end Enc.Simd.X86
end Yenc
