import Verif.Model.DecoderSimd
import Verif.Model.Vec
/-!
Model of the x86 decoder kernels: `do_decode_sse` (`/repo/src/decoder_sse_base.h:73-697`) and `do_decode_avx2` (`/repo/src/decoder_avx2_base.h:54-617`), for every
instruction set level they are compiled for.  The two share everything but the register size, the unescaping and the compaction.

The names ending in `A` and `B` of the code are the two registers a round works on; they are given by the argument `h` (0 or 1) here, or come as a pair.
-/
namespace Yenc.Dec.Simd.X86
open Yenc Vec

/-- What the code selects at compile time. -/
structure Cfg where
  /-- `do_decode_avx2` rather than `do_decode_sse`. -/
  avx2 : Bool
  /-- `_USING_FAST_MATCH`, decoder_sse_base.h:108-112 (`do_decode_avx2` always does that). -/
  fast : Bool
  /-- `_USING_BLEND_ADD`, decoder_sse_base.h:113-117. -/
  blend : Bool
  /-- `use_isa >= ISA_LEVEL_SSSE3`. -/
  ssse3 : Bool
  /-- `!defined(__tune_btver1__)`: prefer PALIGNR. -/
  palignr : Bool
  /-- `use_isa & ISA_FEATURE_POPCNT`. -/
  popcnt : Bool
  /-- `use_isa >= ISA_LEVEL_AVX3`. -/
  avx3 : Bool
  /-- `useAVX3MaskCmp`, decoder_sse_base.h:118-124, decoder_avx2_base.h:76-82. -/
  maskCmp : Bool
  /-- `use_isa >= ISA_LEVEL_VBMI2`. -/
  vbmi2 : Bool
  /-- `COMPRESS_STORE` is `_mm_mask_compressstoreu_epi8`, decoder_sse_base.h:10-15, decoder_avx2_base.h:45-50. -/
  compressStore : Bool
  /-- `PLATFORM_AMD64`. -/
  amd64 : Bool

/-- Bytes per register. -/
def Cfg.n (c : Cfg) : Nat := if c.avx2 then 32 else 16

/-- The variables carried from round to round: `escFirst`, `yencOffset`, and `minMask` or (if not `_USING_FAST_MATCH`) `lfCompare`. -/
structure Regs where
  esc : Bool
  off : Vec
  cmp : Vec

/-- `minMask` resp. `lfCompare` without anything pending, decoder_sse_base.h:126-127, decoder_avx2_base.h:63. -/
def fresh (c : Cfg) : Vec := if c.fast then set1 DOT else set1 LF

/-- decoder_sse_base.h:103-133, decoder_avx2_base.h:58-69. -/
def init (c : Cfg) (md : Mode) (esc : Bool) (nextMask : Nat) : Regs where
  esc := esc
  off := if esc then (fun j => if j = 0 then -106#8 else -42#8) else set1 (-42#8)
  cmp :=
    if nextMask ≠ 0 ∧ md.isRaw then
      if c.avx2 then fun j => if j = 1 then (if nextMask = 2 then 0#8 else DOT) else if j = 0 then (if nextMask = 1 then 0#8 else DOT) else DOT
      else if c.fast then insert16 (set1 DOT) (if nextMask = 1 then 0x2e00#16 else 0x002e#16)
      else insert16 (set1 LF) (if nextMask = 1 then 0x0a2e#16 else 0x2e0a#16)
    else fresh c

/-- The table of `_mm_set_epi8(-1,'=','\r',-1,-1,'\n',-1,-1,-1,-1,-1,-1,-1,-1,-1,'.')`, decoder_sse_base.h:148, decoder_avx2_base.h:90-93. -/
def matchTable : Vec := fun j =>
  if j % 16 = 14 then EQ else if j % 16 = 13 then CR else if j % 16 = 10 then LF else if j % 16 = 0 then DOT else -1#8

/-- `cmpA`, `cmpB`, decoder_sse_base.h:142-174, decoder_avx2_base.h:88-102. -/
def cmpVec (c : Cfg) (cmp oData : Vec) : Vec :=
  if c.fast then cmpeq oData (pshufb matchTable (minu oData cmp))
  else or (or (cmpeq oData cmp) (cmpeq oData (set1 CR))) (cmpeq oData (set1 EQ))

/-- `movemask(A) | movemask(B) << n`, decoder_sse_base.h:179,195, decoder_avx2_base.h:105-106,114-115. -/
def mask2 (c : Cfg) (a b : Vec) : BitVec (2 * c.n) := movemask (2 * c.n) c.n a ||| movemask (2 * c.n) c.n b <<< c.n

/-- `SHIFT_DATA_A(offs)`, `SHIFT_DATA_B(offs)`, decoder_sse_base.h:209-210, decoder_avx2_base.h:139-140. -/
def shiftData (c : Cfg) (b : Nat → Byte) (h offs : Nat) : Vec := load b (offs + h * c.n)

/-! ### The sequences after a line break, without `k`-registers -/

/-- `match2CrXDt`, decoder_sse_base.h:245-250, decoder_avx2_base.h:174-181. -/
def match2CrXDt (c : Cfg) (b : Nat → Byte) (h : Nat) : Vec :=
  and (cmpeq (shiftData c b h 0) (set1 CR)) (cmpeq (shiftData c b h 2) (set1 DOT))

/-- `match1Nl`, decoder_sse_base.h:278-285, decoder_avx2_base.h:211-221. -/
def match1Nl (c : Cfg) (b : Nat → Byte) (h : Nat) : Vec :=
  and (cmpeq (set1 LF) (shiftData c b h 1)) (cmpeq (shiftData c b h 0) (set1 CR))

/-- `match2NlDot`, decoder_sse_base.h:286-287, decoder_avx2_base.h:222-223. -/
def match2NlDot (c : Cfg) (b : Nat → Byte) (h : Nat) : Vec := and (match2CrXDt c b h) (match1Nl c b h)

/-- `match2Eq`, decoder_sse_base.h:225-231,341-344, decoder_avx2_base.h:154-157. -/
def match2Eq (c : Cfg) (b : Nat → Byte) (h : Nat) : Vec :=
  if h = 0 ∧ c.avx2 = false ∧ c.ssse3 ∧ c.palignr then
    alignr (cmpeq (shiftData c b 1 0) (set1 EQ)) (cmpeq (shiftData c b 0 0) (set1 EQ)) 2
  else cmpeq (set1 EQ) (shiftData c b h 2)

/-- `match3EqY`, decoder_sse_base.h:345-346,420-433, decoder_avx2_base.h:291-298,364-373. -/
def match3EqY (c : Cfg) (b : Nat → Byte) (h : Nat) : Vec :=
  and (match2Eq c b h) (cmpeq (set1 LY) (shiftData c b h 3))

/-- `tmpData4`, decoder_sse_base.h:292-293, decoder_avx2_base.h:226-234. -/
def tmpData4 (c : Cfg) (b : Nat → Byte) (h : Nat) : Vec :=
  if h = 0 ∧ c.avx2 ∧ c.avx3 ∧ c.amd64 then alignr32 (shiftData c b 1 0) (shiftData c b 0 0) 1
  else shiftData c b h 4

/-- `match4End | match3End`, decoder_sse_base.h:296-301,347-363, decoder_avx2_base.h:236-247,299-315. -/
def matchEndVec (c : Cfg) (b : Nat → Byte) (h : Nat) : Vec :=
  let match3Cr := cmpeq (set1 CR) (shiftData c b h 3)
  let match4Lf := cmpeq (tmpData4 c b h) (set1 LF)
  let match4EqY := slliw (cmpeqw (tmpData4 c b h) (set1w 0x793d#16)) 8
  let match4End := or (and match3Cr match4Lf) (or match4EqY (srliw (match3EqY c b h) 8))
  or (and match4End (match2NlDot c b h)) (and (match3EqY c b h) (match1Nl c b h))

/-- Upper 128 bits of `match2NlDotB`, shifted, decoder_sse_base.h:389, decoder_avx2_base.h:340. -/
def nlDotTail (c : Cfg) (b : Nat → Byte) : Vec := srliSi (fun j => match2NlDot c b 1 (c.n - 16 + j)) 14

/-! ### The same with `k`-registers -/

/-- `match0CrMask`, decoder_sse_base.h:237-238, decoder_avx2_base.h:166-167. -/
def match0CrMask (c : Cfg) (b : Nat → Byte) (h : Nat) : BitVec c.n := cmpeqMask c.n (shiftData c b h 0) (set1 CR)

/-- `match2CrXDtMask`, decoder_sse_base.h:239-240, decoder_avx2_base.h:168-169. -/
def match2CrXDtMask (c : Cfg) (b : Nat → Byte) (h : Nat) : BitVec c.n :=
  maskCmpeqMask (match0CrMask c b h) (shiftData c b h 2) (set1 DOT)

/-- `match1NlMask`, decoder_sse_base.h:263-272, decoder_avx2_base.h:196-205. -/
def match1NlMask (c : Cfg) (b : Nat → Byte) (h : Nat) : BitVec c.n :=
  maskCmpeqMask (match0CrMask c b h) (set1 LF) (shiftData c b h 1)

/-- `match2NlDotMask`, decoder_sse_base.h:273-274, decoder_avx2_base.h:206-207. -/
def match2NlDotMask (c : Cfg) (b : Nat → Byte) (h : Nat) : BitVec c.n := match2CrXDtMask c b h &&& match1NlMask c b h

/-- `match2EqMask`, decoder_sse_base.h:221-222, decoder_avx2_base.h:150-151. -/
def match2EqMask (c : Cfg) (b : Nat → Byte) (h : Nat) : BitVec c.n := cmpeqMask c.n (set1 EQ) (shiftData c b h 2)

/-- `match3EqYMask`, decoder_sse_base.h:306-311,406-415, decoder_avx2_base.h:252-261,350-359. -/
def match3EqYMask (c : Cfg) (b : Nat → Byte) (h : Nat) : BitVec c.n :=
  maskCmpeqMask (match2EqMask c b h) (set1 LY) (shiftData c b h 3)

/-- `match34EqY`, decoder_sse_base.h:312-323, decoder_avx2_base.h:262-273. -/
def match34EqY (c : Cfg) (b : Nat → Byte) (h : Nat) : Vec :=
  let match4EqY := cmpeqw (tmpData4 c b h) (set1w 0x793d#16)
  if c.vbmi2 then shrdiw (movm (match3EqYMask c b h)) match4EqY 8
  else maskBlend (match3EqYMask c b h >>> 1) (and match4EqY (set1w 0xff01#16)) (set1 (-1#8))

/-- The operands of the `KORTEST` that gives `matchEnd`, decoder_sse_base.h:324-337, decoder_avx2_base.h:274-287. -/
def matchEndMask (c : Cfg) (b : Nat → Byte) (h : Nat) : BitVec c.n :=
  let match3Cr := cmpeq (set1 CR) (shiftData c b h 3)
  let match4Lf := cmpeq (tmpData4 c b h) (set1 LF)
  let match4End := ternary (match34EqY c b h) match3Cr match4Lf 0xF8#8
  maskTestMask (match2NlDotMask c b h) match4End match4End ||| (match3EqYMask c b h &&& match1NlMask c b h)

/-! ### The line break handling as a whole -/

/-- `partialKillDotFound`, decoder_sse_base.h:234-253, decoder_avx2_base.h:159-186. -/
def partialKillDotFound (c : Cfg) (b : Nat → Byte) : Bool :=
  if c.maskCmp then match2CrXDtMask c b 0 ||| match2CrXDtMask c b 1 ≠ 0#_
  else movemask 32 c.n (or (match2CrXDt c b 0) (match2CrXDt c b 1)) ≠ 0#_

/-- `matchEnd`, decoder_sse_base.h:289-369, decoder_avx2_base.h:225-321. -/
def matchEnd (c : Cfg) (b : Nat → Byte) : Bool :=
  if c.maskCmp then matchEndMask c b 0 ||| matchEndMask c b 1 ≠ 0#_
  else movemask 32 c.n (or (matchEndVec c b 0) (matchEndVec c b 1)) ≠ 0#_

/-- `mask` after the dots at line starts have been added, decoder_sse_base.h:379-388, decoder_avx2_base.h:330-339. -/
def addDots (c : Cfg) (b : Nat → Byte) (mask : BitVec (2 * c.n)) : BitVec (2 * c.n) :=
  if c.maskCmp then mask ||| (match2NlDotMask c b 0).setWidth _ <<< 2 ||| (match2NlDotMask c b 1).setWidth _ <<< (c.n + 2)
  else mask ||| movemask _ c.n (match2NlDot c b 0) <<< 2 ||| movemask _ c.n (match2NlDot c b 1) <<< (c.n + 2)

/-- The new `minMask` resp. `lfCompare`, decoder_sse_base.h:383,389-397, decoder_avx2_base.h:334,340-341. -/
def nextCmp (c : Cfg) (b : Nat → Byte) : Vec :=
  if c.maskCmp then maskzMov (~~~(match2NlDotMask c b 1 >>> (c.n - 2))) (set1 DOT)
  else if c.fast then subsu (set1 DOT) (nlDotTail c b)
  else or (and (nlDotTail c b) (set1 DOT)) (set1 LF)

/-- `partialEndFound`, decoder_sse_base.h:401-435, decoder_avx2_base.h:345-375. -/
def partialEndFound (c : Cfg) (b : Nat → Byte) : Bool :=
  if c.maskCmp then match3EqYMask c b 0 ||| match3EqYMask c b 1 ≠ 0#_
  else movemask 32 c.n (or (match3EqY c b 0) (match3EqY c b 1)) ≠ 0#_

/-- `endFound`, decoder_sse_base.h:438-481, decoder_avx2_base.h:377-416. -/
def endFound (c : Cfg) (b : Nat → Byte) : Bool :=
  if c.maskCmp then
    maskCmpeqMask (maskCmpeqMask (match3EqYMask c b 0) (set1 LF) (shiftData c b 0 1)) (shiftData c b 0 0) (set1 CR) |||
      maskCmpeqMask (maskCmpeqMask (match3EqYMask c b 1) (set1 LF) (shiftData c b 1 1)) (shiftData c b 1 0) (set1 CR) ≠ 0#_
  else movemask 32 c.n (or (and (match3EqY c b 0) (match1Nl c b 0)) (and (match3EqY c b 1) (match1Nl c b 1))) ≠ 0#_

/-- Outcome of the line break handling: leave the loop with `_nextMask`, or carry on with `mask` and `minMask` resp. `lfCompare`. `reach` says how far
was loaded. -/
inductive Dots (W : Nat) where
  | brk (reach nextMask : Nat)
  | go (reach : Nat) (mask : BitVec W) (cmp : Vec)

/-- decoder_sse_base.h:199-502, decoder_avx2_base.h:119-427, for `isRaw`. -/
def dots (c : Cfg) (md : Mode) (b : Nat → Byte) (mask : BitVec (2 * c.n)) : Dots (2 * c.n) :=
  let nm := setNextMaskAt md.isRaw b (mask.getLsbD 0) (mask.getLsbD 1)
  if partialKillDotFound c b then
    if md.searchEnd ∧ matchEnd c b then .brk (2 * c.n + 4) nm
    else .go (2 * c.n + if md.searchEnd then 4 else 2) (addDots c b mask) (nextCmp c b)
  else if md.searchEnd then
    if partialEndFound c b ∧ endFound c b then .brk (2 * c.n + 3) nm
    else .go (2 * c.n + 3) mask (fresh c)
  else .go (2 * c.n + 2) mask (fresh c)

/-! ### Unescaping -/

/-- `lookups->eqAdd[i]` as eight bytes, decoder_sse2.cc:14-16. -/
def eqAdd (i : BitVec 8) : Nat → Byte := fun k => if i.getLsbD k then 192#8 else 0#8

/-- `LOAD_HALVES(lookups->eqAdd + (x & 0xff), lookups->eqAdd + ((x >> 8) & 0xff))`, decoder_sse_base.h:187-190. -/
def loadHalves {w : Nat} (x : BitVec w) : Vec := fun j => if j < 8 then eqAdd (x.setWidth 8) j else eqAdd ((x >>> 8).setWidth 8) (j - 8)

/-- `yencOffset` for the next round from `escFirst`, decoder_sse_base.h:558-560,608-610,633-635, decoder_avx2_base.h:535-544. -/
def offsetOf (c : Cfg) (esc : Bool) : Vec :=
  if c.avx3 then maskAdd (n := c.n) (set1 (-42#8)) (BitVec.ofNat _ esc.toNat) (set1 (-42#8)) (set1 (-64#8))
  else xor (set1 (-42#8)) (slliw (cvt (BitVec.ofNat 8 esc.toNat)) 6)

/-- A 64-bit mask broadcast and spread over the lanes, decoder_avx2_base.h:463-487 (both ways to write the broadcast): lane `j` of register `h` is `0xff` if bit `32 * h + j`
is set. -/
def spread {w : Nat} (x : BitVec w) (h : Nat) : Vec :=
  let vMaskEq : Vec := fun j => x.extractLsb' (8 * (j % 8)) 8
  let sel : Vec := fun j => BitVec.ofNat 8 (4 * h + j / 8)
  let bit : Vec := fun j => 1#8 <<< (j % 8)
  cmpeq (and (pshufb vMaskEq sel) bit) bit

/-- `dataA`, `dataB` after unescaping with the corrected mask (already shifted by one), decoder_sse_base.h:506-507,518-556, decoder_avx2_base.h:443-490. -/
def dataFix (c : Cfg) (off oA oB : Vec) (maskEq : BitVec (2 * c.n)) : Vec × Vec :=
  if c.avx3 then
    (maskAdd (n := c.n) (add oA off) (maskEq.setWidth _) (add oA off) (set1 (-64#8)),
     maskAdd (n := c.n) (add oB (set1 (-42#8))) ((maskEq >>> c.n).setWidth _) (add oB (set1 (-42#8))) (set1 (-64#8)))
  else if c.avx2 then
    (add oA (blendv off (set1 (-106#8)) (spread maskEq 0)), add oB (blendv (set1 (-42#8)) (set1 (-106#8)) (spread maskEq 1)))
  else
    (add (add oA off) (loadHalves maskEq), add (add oB (set1 (-42#8))) (loadHalves (maskEq >>> 16)))

/-- `dataA`, `dataB` if nothing needs correction, decoder_sse_base.h:567-629, decoder_avx2_base.h:494-532; `b` are the bytes at `src + i`. -/
def dataFast (c : Cfg) (off oA oB : Vec) (b : Nat → Byte) (maskEq : BitVec (2 * c.n)) : Vec × Vec :=
  let cmpEqA := cmpeq oA (set1 EQ)
  let cmpEqB := cmpeq oB (set1 EQ)
  if c.avx2 then
    if c.avx3 then
      (maskAdd (n := c.n) (add oA off) ((maskEq <<< 1).setWidth _) (add oA off) (set1 (-64#8)),
       maskAdd (n := c.n) (add oB (set1 (-42#8))) ((maskEq >>> (c.n - 1)).setWidth _) (add oB (set1 (-42#8))) (set1 (-64#8)))
    else
      (add oA (blendv off (set1 (-106#8)) (alignr cmpEqA (inserti128 (set1 EQ) cmpEqA) 15)),
       add oB (blendv (set1 (-42#8)) (set1 (-106#8)) (cmpeq (set1 EQ) (load b (c.n - 1)))))
  else if c.avx3 then
    (add oA (ternary (slliSi cmpEqA 1) off (set1 (-106#8)) 0xac#8),
     add oB (ternary (alignr cmpEqB cmpEqA 15) (set1 (-42#8)) (set1 (-106#8)) 0xac#8))
  else if c.blend then
    (add oA (blendv off (set1 (-106#8)) (slliSi cmpEqA 1)),
     add oB (blendv (set1 (-42#8)) (set1 (-106#8)) (alignr cmpEqB cmpEqA 15)))
  else
    let cmpEqA := and cmpEqA (set1 (-64#8))
    let cmpEqB := and cmpEqB (set1 (-64#8))
    (add (add oA off) (slliSi cmpEqA 1),
     add (add oB (set1 (-42#8)))
      (if c.ssse3 ∧ c.palignr then alignr cmpEqB cmpEqA 15 else or (slliSi cmpEqB 1) (srliSi cmpEqA 15)))

/-- `yencOffset` if nothing needs correction, decoder_sse_base.h:608-616,633-635, decoder_avx2_base.h:535-544. -/
def offsetFast (c : Cfg) (oB : Vec) (esc : Bool) : Vec :=
  if c.avx3 ∨ c.avx2 ∨ c.blend then offsetOf c esc
  else add (set1 (-42#8)) (srliSi (and (cmpeq oB (set1 EQ)) (set1 (-64#8))) 15)

/-! ### Compaction -/

/-- Row `k` of the table of `decoder_init_lut`, decoder.cc:380-399 (`tableSize == 16`): the inner loop from `j` on. -/
def lutLoop (k : Nat) : (steps j : Nat) → List Byte
  | 0, _ => []
  | s + 1, j => (if k % 2 = 0 then [BitVec.ofNat 8 j] else []) ++ lutLoop (k / 2) s (j + 1)

/-- `compact[i]`. -/
def compactRow (i : Nat) : Vec := fun j => (lutLoop i 16 0).getD j 0x80#8

/-- `lookups->BitsSetTable256inv[i]`, decoder_sse2.cc:10-12. -/
def bitsSetInv (i : BitVec 8) : Nat := 8 - popcnt i

/-- One of the rounds of `sse2_compact_vect`: remove lane `k`, decoder_sse_base.h:88-92 with `unshufMask`, decoder_sse2.cc:19-26. `_lzcnt_u32` numbers bits from
the other end and uses the other half of the table, to the same effect. -/
def dropLane (k : Nat) (data : Vec) : Vec :=
  let mergeMask : Vec := fun j => bm (k > j)
  or (and mergeMask data) (andnot mergeMask (srliSi data 1))

/-- `sse2_compact_vect(mask, data)`, decoder_sse_base.h:73-95. -/
def compactVect (mask : Nat) (data : Vec) : Vec :=
  if h : mask = 0 then data
  else compactVect (mask - 2 ^ mask.log2) (dropLane mask.log2 data)
termination_by mask
decreasing_by
  have := Nat.two_pow_pos mask.log2
  omega

/-- What a compressing store writes: see `compressStore` in `Cfg`. -/
def compressBytes (c : Cfg) {n : Nat} (k : BitVec n) (v : Vec) : List Byte :=
  let out := compress k v
  if c.compressStore then out else out ++ List.replicate (n - out.length) 0#8

/-- The stores of a round and by how much `p` advances, decoder_sse_base.h:638-682, decoder_avx2_base.h:546-601. -/
def compact (c : Cfg) (mask : BitVec (2 * c.n)) (dataA dataB : Vec) : List (Nat × List Byte) × Nat :=
  if c.vbmi2 then
    let c1 := popcnt (mask &&& BitVec.ofNat _ (2 ^ c.n - 1))
    let c2 := popcnt (mask >>> c.n)
    ([(0, compressBytes c (~~~ mask.setWidth c.n) dataA), (c.n - c1, compressBytes c (~~~ (mask >>> c.n).setWidth c.n) dataB)],
      2 * c.n - c1 - c2)
  else if c.avx2 then
    let shufA := pshufb dataA (inserti128 (compactRow (mask &&& 0x7fff#_).toNat) (compactRow (((mask >>> 12) &&& 0x7fff0#_).toNat / 16)))
    let c1 := popcnt (mask &&& 0xffff#_)
    let c2 := popcnt (mask &&& 0xffff0000#_)
    if c.amd64 then
      let mask := mask >>> 28
      let shufB := pshufb dataB (inserti128 (compactRow ((mask &&& 0x7fff0#_).toNat / 16)) (compactRow (((mask >>> 16) &&& 0x7fff0#_).toNat / 16)))
      let c3 := popcnt (mask &&& 0xffff0#_)
      let c4 := popcnt ((mask >>> 20).setWidth 32)
      ([(0, toList shufA 16), (16 - c1, toList (fun j => shufA (16 + j)) 16), (32 - c1 - c2, toList shufB 16),
        (48 - c1 - c2 - c3, toList (fun j => shufB (16 + j)) 16)], 64 - c1 - c2 - c3 - c4)
    else
      let mask := mask >>> 32
      let shufB := pshufb dataB (inserti128 (compactRow (mask &&& 0x7fff#_).toNat) (compactRow (((mask >>> 12) &&& 0x7fff0#_).toNat / 16)))
      let c3 := popcnt (mask &&& 0xffff#_)
      let c4 := popcnt (mask &&& 0xffff0000#_)
      ([(0, toList shufA 16), (16 - c1, toList (fun j => shufA (16 + j)) 16), (32 - c1 - c2, toList shufB 16),
        (48 - c1 - c2 - c3, toList (fun j => shufB (16 + j)) 16)], 64 - c1 - c2 - c3 - c4)
  else if c.ssse3 then
    let shufA := pshufb dataA (compactRow (mask &&& 0x7fff#_).toNat)
    let shufB := pshufb dataB (compactRow (((mask >>> 12) &&& 0x7fff0#_).toNat / 16))
    if c.popcnt then
      let c1 := popcnt (mask &&& 0xffff#_)
      let c2 := popcnt (mask &&& 0xffff0000#_)
      ([(0, toList shufA 16), (16 - c1, toList shufB 16)], 32 - c1 - c2)
    else
      let a1 := bitsSetInv (mask.setWidth 8) + bitsSetInv ((mask >>> 8).setWidth 8)
      let a2 := bitsSetInv ((mask >>> 16).setWidth 8) + bitsSetInv ((mask >>> 24).setWidth 8)
      ([(0, toList shufA 16), (a1, toList shufB 16)], a1 + a2)
  else
    let a1 := bitsSetInv (mask.setWidth 8) + bitsSetInv ((mask >>> 8).setWidth 8)
    let a2 := bitsSetInv ((mask >>> 16).setWidth 8) + bitsSetInv ((mask >>> 24).setWidth 8)
    ([(0, toList (compactVect (mask &&& 0xffff#_).toNat dataA) 16), (a1, toList (compactVect (mask >>> 16).toNat dataB) 16)], a1 + a2)

/-! ### A round -/

/-- decoder_sse_base.h:506-682, decoder_avx2_base.h:431-601: from the final special character mask on. -/
def unescape (c : Cfg) (s : Regs) (b : Nat → Byte) (mask maskEq : BitVec (2 * c.n)) (cmp : Vec) : Round Regs :=
  let oA := shiftData c b 0 0
  let oB := shiftData c b 1 0
  let maskEqShift1 := maskEq <<< 1 + BitVec.ofNat _ s.esc.toNat
  if mask &&& maskEqShift1 ≠ 0#_ then
    let maskEq := fixEqMask maskEq maskEqShift1
    let esc := maskEq.getLsbD (2 * c.n - 1)
    let mask := mask &&& ~~~ BitVec.ofNat _ s.esc.toNat
    let maskEq := maskEq <<< 1
    let mask := mask &&& ~~~ maskEq
    let d := dataFix c s.off oA oB maskEq
    let r := compact c mask d.1 d.2
    .next r.1 r.2 ⟨esc, offsetOf c esc, cmp⟩
  else
    let esc := maskEq.getLsbD (2 * c.n - 1)
    let d := dataFast c s.off oA oB b maskEq
    let r := compact c mask d.1 d.2
    .next r.1 r.2 ⟨esc, offsetFast c oB esc, cmp⟩

/-- The body of the loop, decoder_sse_base.h:138-695, decoder_avx2_base.h:84-613. -/
def iter (c : Cfg) (md : Mode) (s : Regs) (b : Nat → Byte) : Iter Regs :=
  let oA := shiftData c b 0 0
  let oB := shiftData c b 1 0
  let mask := mask2 c (cmpVec c s.cmp oA) (cmpVec c (fresh c) oB)
  if mask ≠ 0#_ then
    let maskEq := mask2 c (cmpeq oA (set1 EQ)) (cmpeq oB (set1 EQ))
    if md.isRaw ∧ mask ≠ maskEq then
      match dots c md b mask with
      | .brk reach nm => ⟨reach, .brk nm⟩
      | .go reach mask cmp => ⟨reach, unescape c s b mask maskEq cmp⟩
    else ⟨2 * c.n, unescape c s b mask maskEq s.cmp⟩
  else
    ⟨2 * c.n, .next [(0, toList (add oA s.off) c.n), (c.n, toList (add oB (set1 (-42#8))) c.n)] (2 * c.n) ⟨false, set1 (-42#8), s.cmp⟩⟩

/-- `do_decode_sse`, `do_decode_avx2`. -/
def kernel (c : Cfg) (md : Mode) : Kernel Regs where
  width := 2 * c.n
  init := init c md
  esc := Regs.esc
  iter := iter c md

/-- Combinations that are compiled: `useAVX3MaskCmp` is only ever true together with `_USING_FAST_MATCH`, and `do_decode_avx2` always uses the latter. -/
def Cfg.Valid (c : Cfg) : Prop := (c.maskCmp = true → c.fast = true) ∧ (c.avx2 = true → c.fast = true)

/-- `decoder_set_sse2_funcs`, decoder_sse2.cc:28-35, on a 64-bit system and without tuning for a particular processor, as for the next four. -/
def Cfg.sse2Funcs : Cfg := ⟨false, false, false, false, true, false, false, false, false, false, true⟩
/-- `decoder_set_ssse3_funcs`, decoder_ssse3.cc:6-13. -/
def Cfg.ssse3Funcs : Cfg := ⟨false, true, false, true, true, false, false, false, false, false, true⟩
/-- `decoder_set_avx_funcs`, decoder_avx.cc:6-13. -/
def Cfg.avxFuncs : Cfg := ⟨false, true, true, true, true, true, false, false, false, false, true⟩
/-- `decoder_set_avx2_funcs`, decoder_avx2.cc:6-13. -/
def Cfg.avx2Funcs : Cfg := ⟨true, true, true, true, true, true, false, false, false, false, true⟩
/-- `decoder_set_vbmi2_funcs`, decoder_vbmi2.cc:13-18. -/
def Cfg.vbmi2Funcs : Cfg := ⟨true, true, true, true, true, true, true, true, true, false, true⟩

end Yenc.Dec.Simd.X86
