import Verif.Model.EncoderEol
import Verif.Model.VecNeon
/-!
Model of the ARM encoder `do_encode_neon` (encoder_neon.cc), instruction by instruction, for AArch64 (`a64 = true`) and ARMv7.
-/
namespace Yenc.Enc.Simd.Neon
open Yenc Vec

/-- `clz_n`, encoder_neon.cc:18-53.  (With GCC before 11, or before 7 on ARMv7, `__builtin_clz` is called with an argument of 0, which is formally undefined; the instruction it is
compiled to gives the width.) -/
def clz {w : Nat} (x : BitVec w) : Nat := if x = 0#w then w else w - 1 - x.toNat.log2

/-! ## Tables -/

/-- What encoder_neon.cc:533-541 writes to `res`, in order. -/
def shufEntries (m : BitVec 8) : List Byte :=
  (List.range 8).flatMap fun j => if m.getLsbD j then [EQ, BitVec.ofNat 8 j] else [BitVec.ofNat 8 j]

/-- `shufLUT[m]`, encoder_neon.cc:528-543. -/
def shuf (m : BitVec 8) : Vec := fun x => (shufEntries m).getD x (BitVec.ofNat 8 x + 0x80#8)

/-- `expandLUT[m]`, encoder_neon.cc:530-545. -/
def expandLUT (m : BitVec 8) : BitVec 16 :=
  Vec.ofBits 16 (fun x => ((List.range 8).flatMap fun j => if m.getLsbD j then [true, false] else [false]).getD x false) 16

/-! ## Searching -/

/-- A vector of characters: which are special, and the characters as they are written. -/
structure Found where
  cmp : Vec
  data : Vec

/-- encoder_neon.cc:71-77, 79, 313-331 (AArch64), 91-100, 116, 334-356 (ARMv7). -/
def find (a64 : Bool) (o : Vec) : Found :=
  if a64 then
    let data := add o (set1 42#8)
    let cmp := tbx 16 (cmpeq o (set1 (61#8 - 42#8))) (make [255#8, 0#8, 0#8, 0#8, 0#8, 0#8, 0#8, 0#8, 0#8, 0#8, 255#8, 0#8, 0#8, 255#8, 0#8, 0#8]) data
    ⟨cmp, Vec.or data (Vec.and cmp (set1 64#8))⟩
  else
    let cmp := Vec.or (Vec.or (cmpeq o (set1 (-42#8))) (cmpeq o (set1 (61#8 - 42#8)))) (Vec.or (cmpeq o (set1 (13#8 - 42#8))) (cmpeq o (set1 (10#8 - 42#8))))
    ⟨cmp, sub o (bsl cmp (set1 (-64#8 - 42#8)) (set1 (-42#8)))⟩

/-- The table of encoder_neon.cc:66. -/
def eolTable : Vec := make
  [0#8 - 42#8, -128#8, -128#8, 0#8 - 42#8, 9#8 - 42#8, 10#8 - 42#8, 13#8 - 42#8, 9#8 - 42#8, 10#8 - 42#8, 13#8 - 42#8, -128#8, -128#8, 0#8 - 42#8, -128#8, -128#8, -128#8,
    32#8 - 42#8, 10#8 - 42#8, 13#8 - 42#8, 32#8 - 42#8, -128#8, -128#8, -128#8, -128#8, -128#8, -128#8, 46#8 - 42#8, -128#8, -128#8, -128#8, 61#8 - 42#8, -128#8]

/-- The second operand of encoder_neon.cc:67. -/
def eolOffset : Vec := make [42#8, 48#8, 66#8, 66#8, 66#8, 66#8, 66#8, 66#8, 66#8, 66#8, 66#8, 66#8, 66#8, 66#8, 66#8, 66#8]

/-- The same for a vector that begins with the last character of a line, encoder_neon.cc:64-69, 78 (AArch64), 81-90, 102-115 (ARMv7). -/
def findEol (a64 : Bool) (o : Vec) : Found :=
  if a64 then
    let cmp := cmpeq (tbx 32 (set1 (61#8 - 42#8)) eolTable (hadds o eolOffset)) o
    ⟨cmp, add o (bsl cmp (set1 (64#8 + 42#8)) (set1 42#8))⟩
  else
    let cmp := Vec.or (Vec.or (cmpeq o (set1 (-42#8))) (cmpeq o (set1 (61#8 - 42#8)))) (Vec.or (cmpeq o (set1 (13#8 - 42#8))) (cmpeq o (set1 (10#8 - 42#8))))
    let cmpNl := cmpeq (dupw o) (make [32#8 + 214#8, 32#8 + 214#8, 9#8 + 214#8, 9#8 + 214#8, 13#8 + 214#8, 46#8 - 42#8, 61#8 - 42#8, 61#8 - 42#8])
    let cmpNl2 := paddw (paddw cmpNl (set1w 0#16)) (set1w 0#16)
    let cmp := combine (Vec.or cmp cmpNl2) (high cmp)
    ⟨cmp, sub o (bsl cmp (set1 (-64#8 - 42#8)) (set1 (-42#8)))⟩

/-! ## Masks -/

/-- encoder_neon.cc:120-121, 361-362. -/
def bits : Vec := make [1#8, 2#8, 4#8, 8#8, 16#8, 32#8, 64#8, 128#8, 1#8, 2#8, 4#8, 8#8, 16#8, 32#8, 64#8, 128#8]

/-- `cmpMerge` of encoder_neon.cc:123-124, 364-365 (AArch64), `cmpPacked` of encoder_neon.cc:151-159, 376-384 (ARMv7). -/
def merge (a64 : Bool) (cmpA cmpB : Vec) : Vec :=
  let a := Vec.and cmpA bits
  let b := Vec.and cmpB bits
  if a64 then padd 16 (padd 16 a b) (padd 16 a b)
  else
    let p := padd 8 (padd 8 a (high a)) (padd 8 b (high b))
    padd 8 p p

/-- What is computed from the mask. -/
structure Sel where
  /-- `(mask & (mask-1)) != 0`. -/
  many : Bool
  /-- `mask != 0`. -/
  any : Bool
  /-- `clz_n(mask)`. -/
  clz : Nat
  /-- `sizeof(mask)*8`. -/
  size : Nat
  packed : Vec
  m1 : BitVec 8
  m2 : BitVec 8
  m3 : BitVec 8
  m4 : BitVec 8

/-- encoder_neon.cc:142-148, 235, 253, 367-373, 473, 493 (AArch64). -/
def sel64 (mask : BitVec 64) (cmpMerge : Vec) : Sel :=
  let mask' := mask ||| (mask >>> 8)
  { many := decide (mask &&& (mask - 1#64) ≠ 0#64), any := decide (mask ≠ 0#64), clz := clz mask, size := 64, packed := padd 8 cmpMerge cmpMerge,
    m1 := (mask' &&& 0xff#64).setWidth 8, m2 := ((mask' >>> 16) &&& 0xff#64).setWidth 8, m3 := ((mask' >>> 32) &&& 0xff#64).setWidth 8,
    m4 := ((mask' >>> 48) &&& 0xff#64).setWidth 8 }

/-- encoder_neon.cc:177-181, 235, 253, 386-390, 473, 493 (ARMv7). -/
def sel32 (mask : BitVec 32) (cmpPacked : Vec) : Sel :=
  { many := decide (mask &&& (mask - 1#32) ≠ 0#32), any := decide (mask ≠ 0#32), clz := clz mask, size := 32, packed := cmpPacked,
    m1 := (mask &&& 0xff#32).setWidth 8, m2 := ((mask >>> 8) &&& 0xff#32).setWidth 8, m3 := ((mask >>> 16) &&& 0xff#32).setWidth 8,
    m4 := ((mask >>> 24) &&& 0xff#32).setWidth 8 }

/-- encoder_neon.cc:125, 366 (AArch64), 385 (ARMv7). -/
def sel (a64 : Bool) (cmpA cmpB : Vec) : Sel :=
  let v := merge a64 cmpA cmpB
  if a64 then sel64 (lane 64 v) v else sel32 (lane 32 v) v

/-- encoder_neon.cc:125, 129, 134-135 (AArch64), 160, 164, 169-170 (ARMv7): `mask & 1`, and what is computed from the mask after clearing that bit. -/
def selEol (a64 : Bool) (cmpA cmpB : Vec) : Bool × Sel :=
  let v := merge a64 cmpA cmpB
  let v' := bic v (make [1#8])
  if a64 then
    let mask : BitVec 64 := lane 64 v
    if mask &&& 1#64 ≠ 0#64 then (true, sel64 (mask ^^^ 1#64) v') else (false, sel64 mask v)
  else
    let mask : BitVec 32 := lane 32 v
    if mask &&& 1#32 ≠ 0#32 then (true, sel32 (mask ^^^ 1#32) v') else (false, sel32 mask v)

/-! ## The slow path -/

/-- The vector stored for eight characters, encoder_neon.cc:185-210, 394-421: `second` for the upper half of `data`. -/
def piece (a64 second : Bool) (m : BitVec 8) (data : Vec) : Vec :=
  let s := shuf m
  if a64 then tbx 16 s (if second then ext data data 8 else data) s
  else
    let h := if second then high data else data
    combine (tbx 8 s h s) (tbx 8 (high s) h (high s))

/-- `x * 0x1010101 >> 24`, encoder_neon.cc:221-222, 432-433, 464-465: the sum of the bytes. -/
def sumBytes (x : BitVec 32) : Nat := ((x * 0x1010101#32) >>> 24).toNat

/-- `counts`, encoder_neon.cc:214-215, 425-426. -/
def counts (packed : Vec) (add : BitVec 32) : BitVec 32 := lane 32 (cntv packed) + add

/-- `shuf1Len` to `shuf4Len`, encoder_neon.cc:217-220, 428-431. -/
def len (c : BitVec 32) (k : Nat) : Nat := ((c >>> (8 * k)) &&& 0xff#32).toNat

/-- The four stores, encoder_neon.cc:224-231, 435-442, at `q`. -/
def stores (q : Nat) (c : BitVec 32) (d1 d2 d3 d4 : Vec) : List (Nat × List Byte) :=
  [(q, toList d1 16), (q + len c 0, toList d2 16), (q + len c 0 + len c 1, toList d3 16), (q + len c 0 + len c 1 + len c 2, toList d4 16)]

/-- Going back, encoder_neon.cc:445-468. -/
def slowRevert (s : Sel) (c : BitVec 32) (col : Int) : Int × Int :=
  let len2ndHalf : Int := len c 2 + len c 3
  let shiftAmt : Int := len2ndHalf - col - 1
  let eqMaskHalf : BitVec 32 :=
    if shiftAmt < 0 then (((expandLUT s.m2).setWidth 32 <<< len c 0) ||| (expandLUT s.m1).setWidth 32) >>> ((sumBytes c : Int) - col - 1).toNat
    else (((expandLUT s.m4).setWidth 32 <<< len c 2) ||| (expandLUT s.m3).setWidth 32) >>> shiftAmt.toNat
  let i : Int := if shiftAmt < 0 then len2ndHalf - 16 else 0
  let revert : Int := col + (eqMaskHalf &&& 1#32).toNat
  (-revert, i + sumBytes (lane 32 (cntv (mov32 eqMaskHalf))) - revert)

/-- encoder_neon.cc:392-470. -/
def slow (a64 : Bool) (fA fB : Found) (s : Sel) : ERound :=
  let c := counts s.packed 0x08080808#32
  { stores := stores 0 c (piece a64 false s.m1 fA.data) (piece a64 true s.m2 fA.data) (piece a64 false s.m3 fB.data) (piece a64 true s.m4 fB.data)
    adv := len c 0 + len c 1 + len c 2 + len c 3
    colAdv := sumBytes c
    back := false
    revert := slowRevert s c }

/-! ## The fast path -/

/-- The tables of encoder_neon.cc:238, 476 (AArch64), 241, 479 (ARMv7): for each character of the first half, the number of zeros above its bit in the mask. -/
def clzA (a64 : Bool) : Vec :=
  if a64 then make [63#8, 62#8, 61#8, 60#8, 51#8, 50#8, 49#8, 48#8, 47#8, 46#8, 45#8, 44#8, 35#8, 34#8, 33#8, 32#8]
  else make [31#8, 30#8, 29#8, 28#8, 27#8, 26#8, 25#8, 24#8, 23#8, 22#8, 21#8, 20#8, 19#8, 18#8, 17#8, 16#8]
/-- encoder_neon.cc:239, 477 (AArch64), 242, 480 (ARMv7). -/
def clzB (a64 : Bool) : Vec :=
  if a64 then make [31#8, 30#8, 29#8, 28#8, 19#8, 18#8, 17#8, 16#8, 15#8, 14#8, 13#8, 12#8, 3#8, 2#8, 1#8, 0#8]
  else make [15#8, 14#8, 13#8, 12#8, 11#8, 10#8, 9#8, 8#8, 7#8, 6#8, 5#8, 4#8, 3#8, 2#8, 1#8, 0#8]

/-- `vClz`, encoder_neon.cc:236, 474. -/
def vClz (s : Sel) : Vec := set1 (BitVec.ofNat 8 s.clz &&& ~~~ BitVec.ofNat 8 s.size)

/-- Going back, encoder_neon.cc:497-510. -/
def fastRevert (a64 : Bool) (s : Sel) (col : Int) : Int × Int :=
  let bitIndex : Int := (if a64 then (s.clz : Int) - ((s.clz + 4) >>> 4 <<< 3 : Nat) else s.clz) + 1
  if col = bitIndex then (-1 - col, -col) else (-col, (if col > bitIndex then 1 else 0) - col)

/-- encoder_neon.cc:472-510. -/
def fast (a64 : Bool) (fA fB : Found) (s : Sel) : ERound :=
  let outA := bsl (cge (clzA a64) (vClz s)) (bsl fA.cmp (set1 EQ) fA.data) (ext fA.data fA.data 15)
  let outB := bsl (cge (clzB a64) (vClz s)) (bsl fB.cmp (set1 EQ) fB.data) (ext fA.data fB.data 15)
  { stores := [(0, toList outA 16), (16, toList outB 16), (32, [fB.data 15])]
    adv := 32 + s.any.toNat
    colAdv := s.any.toNat + 32
    back := false
    revert := fastRevert a64 s }

/-- A round of `do_encode_neon`, encoder_neon.cc:308-510. -/
def round (a64 : Bool) (b : Nat → Byte) : ERound :=
  let fA := find a64 (load b 0)
  let fB := find a64 (load b 16)
  let s := sel a64 fA.cmp fB.cmp
  if s.many then slow a64 fA fB s else fast a64 fA fB s

/-! ## The end of a line -/

/-- `encode_eol_handle_pre`, encoder_neon.cc:58-259; `lineSizeOffset` is `-line_size + 32` (encoder_neon.cc:271). -/
def eol (a64 : Bool) (b : Nat → Byte) : Eol :=
  let fA := findEol a64 (load b 0)
  let fB := find a64 (load b 16)
  let (first, s) := selEol a64 fA.cmp fB.cmp
  let firstChar : BitVec 32 := if first then ((fA.data 0).setWidth 32 <<< 8) ||| 0x0a0d003d#32 else (fA.data 0).setWidth 32 ||| 0x0a0d00#32
  let q := if first then 4 else 3
  if s.many then
    let c := counts s.packed 0x08080807#32
    let d1 := piece a64 false s.m1 fA.data
    { stores := (0, bytes32 firstChar) ::
        stores q c (ext d1 d1 1) (piece a64 true s.m2 fA.data) (piece a64 false s.m3 fB.data) (piece a64 true s.m4 fB.data)
      adv := q + len c 0 + len c 1 + len c 2 + len c 3
      col := fun ls => (sumBytes c : Int) + 1 + (-ls + 32) - 32 }
  else
    let shA := bsl fA.cmp (set1 EQ) fA.data
    let shB := bsl fB.cmp (set1 EQ) fB.data
    let outA := bsl (cgt (clzA a64) (vClz s)) (ext shA shB 1) fA.data
    let outB := bsl (cgt (clzB a64) (vClz s)) (ext shB shB 1) fB.data
    { stores := [(0, bytes32 firstChar), (q, toList outA 16), (q + 16, toList outB 16)]
      adv := q + 31 + s.any.toNat
      col := fun ls => (-ls + 32) + s.any.toNat }

/-- `do_encode_neon`. -/
def neon (a64 : Bool) : EKernel := ⟨32, 32, fun _ => round a64, eol a64⟩

end Yenc.Enc.Simd.Neon
