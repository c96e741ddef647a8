import Verif.Model.DecoderSimd
import Verif.Model.VecRvv
/-!
Model of the RISC-V vector decoder kernel, `do_decode_rvv`, `/repo/src/decoder_rvv.cc:64-266`.  `vl` is `vl2`, the number of bytes in a group of two vector registers.

Elements of a mask beyond `vl` are never looked at, except where a mask is taken as a 64-bit integer; what they are there is arbitrary (`Junk.mask`).
-/
namespace Yenc.Dec.Simd.Rvv
open Yenc Yenc.Rvv Vec

/-- Registers live across rounds: `escFirst`, `yencOffset`, `lfCompare`. -/
structure Regs where
  esc : Bool
  off : Vec
  lf : Vec

/-- What the code does not determine in a round: the elements after those that `vcompress` puts together, the elements of mask registers after `vl`, the upper half of
`nextWord` if only two bytes are copied into it (decoder_rvv.cc:108-110), and the result of decoder_rvv.cc:225-236, which is only reached with registers of 512 bits and more: there the
addition is done on one 64-bit element only (line 229), the shift of the carries on `vl64/8` bytes, which may be none (line 228), and all other elements are unspecified.  That the
loop there may not end is the subject of Model/DecoderRvvWide.lean. -/
structure Junk where
  tail : Vec
  mask : Mask
  word : BitVec 16
  wide : Mask → Mask → Mask

/-- decoder_rvv.cc:71-78. `set_first_vu16` is `insert16`. -/
def init (md : Mode) (esc : Bool) (nextMask : Nat) : Regs where
  esc := esc
  off := if esc then setFirst (set1 42#8) 106#8 else set1 42#8
  lf := if nextMask ≠ 0 ∧ md.isRaw then insert16 (set1 LF) (if nextMask = 1 then 0x0a2e#16 else 0x2e0a#16) else set1 LF

/-- `mask_lshift<shift>(m, shiftIn)`, decoder_rvv.cc:21-31. -/
def maskLshift (shift : Nat) (m : Mask) (shiftIn : Byte) : Mask :=
  mor (bytesMask (sllx (maskBytes m) shift)) (bytesMask (slide1up (srlx (maskBytes m) (8 - shift)) shiftIn))

/-- `lastBit`, decoder_rvv.cc:81-84. -/
def lastBit (vl : Nat) : Mask := mseq (slide1down 1 vl (set1 0#8) 1#32) 1#8

/-- `cmpEq`, decoder_rvv.cc:94. -/
def cmpEq (b : Nat → Byte) : Mask := mseq (load b 0) EQ

/-- `cmpCr`, decoder_rvv.cc:95. -/
def cmpCr (b : Nat → Byte) : Mask := mseq (load b 0) CR

/-- `cmp`, decoder_rvv.cc:97-101: which characters are not special. -/
def cmp (md : Mode) (lf : Vec) (b : Nat → Byte) : Mask :=
  mnor (mor (cmpEq b) (cmpCr b)) (if md.isRaw then mseqv (load b 0) lf else mseq (load b 0) LF)

/-- `nextWord`, decoder_rvv.cc:108-113. -/
def nextWord (vl : Nat) (md : Mode) (J : Junk) (b : Nat → Byte) : BitVec 32 :=
  if md.searchEnd then b (vl + 3) ++ b (vl + 2) ++ b (vl + 1) ++ b vl else J.word ++ b (vl + 1) ++ b vl

section
variable (vl : Nat) (md : Mode) (J : Junk) (b : Nat → Byte)

/-- `nextData1`, decoder_rvv.cc:134,188. -/
def nextData1 : Vec := slide1down 1 vl (load b 0) (nextWord vl md J b)
/-- `nextData2`, decoder_rvv.cc:114. -/
def nextData2 : Vec := slide1down 2 vl (load b 0) (nextWord vl md J b)
/-- `nextData3`, decoder_rvv.cc:123. -/
def nextData3 : Vec := slide1down 1 vl (nextData2 vl md J b) (nextWord vl md J b >>> 16)
/-- `nextData4`, decoder_rvv.cc:141. -/
def nextData4 : Vec := slide1down 4 vl (load b 0) (nextWord vl md J b)

/-- `match2Cr_Dot`, decoder_rvv.cc:119. -/
def match2CrDot : Mask := mand (cmpCr b) (mseq (nextData2 vl md J b) DOT)
/-- `match3EqY`, decoder_rvv.cc:124-128. -/
def match3EqY : Mask := mand (mseq (nextData2 vl md J b) EQ) (mseq (nextData3 vl md J b) LY)
/-- `match1Lf`, decoder_rvv.cc:135,189. -/
def match1Lf : Mask := mseq (nextData1 vl md J b) LF
/-- `match2NlDot`, decoder_rvv.cc:136. -/
def match2NlDot : Mask := mand (match2CrDot vl md J b) (match1Lf vl md J b)
/-- `match4Nl`, decoder_rvv.cc:144-148. -/
def match4Nl : Mask := mand (mseq (nextData3 vl md J b) CR) (mseq (nextData4 vl md J b) LF)
/-- `match4EqY`, decoder_rvv.cc:149-153. -/
def match4EqY : Mask := mand (mseq (nextData3 vl md J b) EQ) (mseq (nextData4 vl md J b) LY)
/-- `matchEnd`, decoder_rvv.cc:139,156-162. -/
def matchEnd : Mask :=
  mor (mand (mor (match4Nl vl md J b) (match4EqY vl md J b)) (match2NlDot vl md J b)) (mand (mand (cmpCr b) (match1Lf vl md J b)) (match3EqY vl md J b))
/-- `matchEnd`, decoder_rvv.cc:190. -/
def endFound : Mask := mand (mand (match3EqY vl md J b) (cmpCr b)) (match1Lf vl md J b)

/-- `lfCompare` after `\r\n.` sequences, decoder_rvv.cc:177-185. -/
def nextLf : Vec := merge (set1 LF) DOT (bytesMask (srlx (slidedown (vl / 8) (maskBytes (match2NlDot vl md J b)) (vl / 8 - 1)) 6))

/-- Outcome of the line break handling. -/
inductive Dots where
  | brk (nextMask : Nat)
  | go (cmp : Mask) (lf : Vec)

/-- `nextMask` when a terminator is found, decoder_rvv.cc:168,193. -/
def endMask (c : Mask) : Nat := setNextMaskAt md.isRaw b ((~~~ maskBytes c 0).getLsbD 0) ((~~~ maskBytes c 0).getLsbD 1)

/-- decoder_rvv.cc:116-200, for `isRaw`. -/
def dots (c : Mask) : Dots :=
  if cpop (match2CrDot vl md J b) vl > 0 then
    if md.searchEnd ∧ cpop (matchEnd vl md J b) vl > 0 then .brk (endMask md b c)
    else .go (mandn c (maskLshift 2 (match2NlDot vl md J b) 0#8)) (nextLf vl md J b)
  else if md.searchEnd then
    if cpop (match3EqY vl md J b) vl ≠ 0 ∧ cpop (endFound vl md J b) vl > 0 then .brk (endMask md b c)
    else .go c (set1 LF)
  else .go c (set1 LF)

/-- `evenBits`, decoder_rvv.cc:212-213. -/
def evenBits : Mask := bytesMask (set1 0x55#8)

/-- The mask as an integer: elements after `vl` are unspecified. -/
def asInt (m : Mask) : BitVec 64 := mask64 fun k => if k < vl then m k else J.mask k

/-- `oddGroups`, decoder_rvv.cc:217-236. -/
def oddGroups (eq evenStart : Mask) : Mask :=
  if vl ≤ 64 then fun k => (asInt vl J eq + asInt vl J evenStart).getLsbD k else J.wide eq evenStart

/-- `cmpEq` corrected, decoder_rvv.cc:211-238. -/
def fixEq (eq shift1 : Mask) : Mask :=
  mand (mxor (oddGroups vl J eq (mand (mandn eq shift1) evenBits)) evenBits) eq

/-- From the final special character mask on, decoder_rvv.cc:203-255. -/
def unescape (s : Regs) (c eq : Mask) (lf : Vec) : Round Regs :=
  let finish (c eq shift1 : Mask) : Round Regs :=
    let esc := decide (cpop (mand eq (lastBit vl)) vl ≠ 0)
    let data := sub (load b 0) (merge s.off 106#8 shift1)
    .next [(0, toList (compress c data J.tail vl) vl)] (cpop c vl) ⟨esc, setFirst s.off (42#8 ||| BitVec.ofNat 8 (esc.toNat <<< 6)), lf⟩
  let shift1 := maskLshift 1 eq (BitVec.ofNat 8 s.esc.toNat)
  if cpop (mandn shift1 c) vl ≠ 0 then
    let eq := fixEq vl J eq shift1
    let shift1 := maskLshift 1 eq (BitVec.ofNat 8 s.esc.toNat)
    finish (mor shift1 c) eq shift1
  else finish c eq shift1

end

/-- The body of the loop, decoder_rvv.cc:90-265. -/
def iter (vl : Nat) (junk : Regs → (Nat → Byte) → Junk) (md : Mode) (s : Regs) (b : Nat → Byte) : Iter Regs :=
  let J := junk s b
  let c := cmp md s.lf b
  if cpop c vl ≠ vl then
    if md.isRaw ∧ cpop (mxnor c (cmpEq b)) vl ≠ 0 then
      let reach := vl + if md.searchEnd then 4 else 2
      match dots vl md J b c with
      | .brk nm => ⟨reach, .brk nm⟩
      | .go c lf => ⟨reach, unescape vl J b s c (cmpEq b) lf⟩
    else ⟨vl, unescape vl J b s c (cmpEq b) s.lf⟩
  else ⟨vl, .next [(0, toList (sub (load b 0) s.off) vl)] (cpop c vl) ⟨false, set1 42#8, if md.isRaw then set1 LF else s.lf⟩⟩

/-- `do_decode_rvv`, decoder_rvv.cc:64-266, with the width given by decoder_rvv.cc:268-270. -/
def kernel (vl : Nat) (junk : Regs → (Nat → Byte) → Junk) (md : Mode) : Kernel Regs where
  width := vl
  init := init md
  esc := Regs.esc
  iter := iter vl junk md

end Yenc.Dec.Simd.Rvv
