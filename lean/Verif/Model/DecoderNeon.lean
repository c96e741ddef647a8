import Verif.Model.DecoderSimd
import Verif.Model.DecoderX86
import Verif.Model.VecNeon
/-!
Model of the ARM NEON decoder kernels, `do_decode_neon`: `/repo/src/decoder_neon64.cc:49-434` for AArch64 (`a64 = true`), which works on four registers at a time, and the code
for 32-bit ARM of `/repo/src/decoder_neon.cc:58-450` (`a64 = false`), which works on two.  Which of the files is compiled is decided by `/repo/binding.gyp:324-329`, so that the
parts of decoder_neon.cc that are for AArch64 are not used.

The registers named `...A`, `...B`, `...C`, `...D` are given by the argument `h`, from 0 on.
-/
namespace Yenc.Dec.Simd.Neon
open Yenc Vec

/-- Number of registers a round works on. -/
def nreg (a64 : Bool) : Nat := if a64 then 4 else 2

/-- Bytes per round, and bits of `mask`. -/
def wid (a64 : Bool) : Nat := 16 * nreg a64

/-- The variables carried from round to round: `escFirst`, `yencOffset`, and `nextMaskMix` (AArch64) resp. `lfCompare`. -/
structure Regs where
  esc : Bool
  off : Vec
  mix : Vec

/-- `vsetq_lane_u8(x, v, k)`. -/
def setLane (x : Byte) (v : Vec) (k : Nat) : Vec := fun j => if j = k then x else v j

/-- decoder_neon64.cc:53-58, decoder_neon.cc:62-77. -/
def init (a64 : Bool) (md : Mode) (esc : Bool) (nextMask : Nat) : Regs where
  esc := esc
  off := if esc then make (106#8 :: List.replicate 15 42#8) else set1 42#8
  mix :=
    if a64 then
      let mix := set1 0#8
      let mix := if nextMask = 1 then setLane 1#8 mix 0 else mix
      if nextMask = 2 then setLane 2#8 mix 1 else mix
    else if md.isRaw then
      let lfCompare := set1 LF
      let lfCompare := if nextMask = 1 then setLane DOT lfCompare 0 else lfCompare
      if nextMask = 2 then setLane DOT lfCompare 1 else lfCompare
    else set1 LF

/-- `vqmovn_u64` of one lane. -/
def qmovn (x : BitVec 64) : BitVec 32 := if x.toNat < 2 ^ 32 then x.setWidth 32 else BitVec.allOnes 32

/-- `neon_vect_is_nonzero(v)`, decoder_neon64.cc:33-35, decoder_neon.cc:45-53. -/
def isNonzero (a64 : Bool) (v : Vec) : Bool :=
  if a64 then (qmovn (lane 64 (high v)) ++ qmovn (lane 64 v) : BitVec 64) ≠ 0#64
  else
    let tmp2 := or v (high v)
    let lo := lane 32 tmp2
    let hi := lane 32 fun j => tmp2 (4 + j)
    (if lo.toNat ≤ hi.toNat then hi else lo) ≠ 0#32

/-- `or` of what there is of the registers, decoder_neon64.cc:98-101,157-160,262-265, decoder_neon.cc:197-199,294-296. -/
def orAll (a64 : Bool) (f : Nat → Vec) : Vec := if a64 then or (or (f 0) (f 1)) (or (f 2) (f 3)) else or (f 0) (f 1)

/-- `vmakeq_u8(1,2,4,8,16,32,64,128, 1,2,4,8,16,32,64,128)`. -/
def bits : Vec := make [1, 2, 4, 8, 16, 32, 64, 128, 1, 2, 4, 8, 16, 32, 64, 128]

/-- `dataA` to `dataD`, decoder_neon64.cc:64-68, decoder_neon.cc:83-85, and one register further (`nextData`, decoder_neon64.cc:135, decoder_neon.cc:175). -/
def data (b : Nat → Byte) (h : Nat) : Vec := load b (16 * h)

/-- `cmpEqA` to `cmpEqD`, decoder_neon64.cc:71-74, decoder_neon.cc:88-89. -/
def cmpEq (b : Nat → Byte) (h : Nat) : Vec := cmpeq (data b h) (set1 EQ)

/-- `cmpCrA` to `cmpCrD`, decoder_neon64.cc:138-141, decoder_neon.cc:104-105. -/
def cmpCr (b : Nat → Byte) (h : Nat) : Vec := cmpeq (data b h) (set1 CR)

/-- The table of decoder_neon64.cc:78. -/
def crlfTable : Vec := make [0, 0, 0, 0, 0, 0, 0, 0, 0, 0, 255, 0, 0, 255, 0, 0]

/-- `cmpA` to `cmpD`, decoder_neon64.cc:75-96, decoder_neon.cc:106-119. -/
def cmp (a64 : Bool) (md : Mode) (mix : Vec) (b : Nat → Byte) (h : Nat) : Vec :=
  if a64 then
    let c := tbx 16 (cmpEq b h) crlfTable (data b h)
    if h = 0 ∧ md.isRaw then or c mix else c
  else or (or (cmpCr b h) (cmpeq (data b h) (if h = 0 then mix else set1 LF))) (cmpEq b h)

/-- `vpaddq_u8(vpaddq_u8(A, B), vpaddq_u8(C, D))` with the bit selection applied before, decoder_neon64.cc:102-121,237-247. -/
def merge4 (f : Nat → Vec) : Vec :=
  padd 16 (padd 16 (and (f 0) bits) (and (f 1) bits)) (padd 16 (and (f 2) bits) (and (f 3) bits))

/-- The same for 32-bit ARM, decoder_neon.cc:139-150,153-163,266-277. -/
def merge2 (f : Nat → Vec) : Vec :=
  let a := and (f 0) bits
  let b := and (f 1) bits
  let p := padd 8 (padd 8 a (high a)) (padd 8 b (high b))
  padd 8 p p

/-- `cmpCombined` resp. `cmpPacked`: the special character mask in lanes 0 to 7 resp. 0 to 3, decoder_neon64.cc:123, decoder_neon.cc:142-150. -/
def packed (a64 : Bool) (f eq : Nat → Vec) : Vec := if a64 then padd 16 (merge4 f) (merge4 eq) else merge2 f

/-- `maskEq`, decoder_neon64.cc:125, decoder_neon.cc:153-164. -/
def maskEqOf (a64 : Bool) (f eq : Nat → Vec) : BitVec (wid a64) := if a64 then lane _ (high (packed a64 f eq)) else lane _ (merge2 eq)

/-- The data at `o` bytes from where `data h` starts: decoder_neon64.cc:131-137 and the uses of `vextq_u8`, decoder_neon.cc:171-185 (`NEXT_DATA`). -/
def shiftData (a64 : Bool) (md : Mode) (b : Nat → Byte) (h o : Nat) : Vec :=
  if h + 1 < nreg a64 then ext (data b h) (data b (h + 1)) o
  else if md.searchEnd = false ∨ (a64 = false ∧ o ≠ 2) then load b (o + 16 * h)
  else ext (data b h) (data b (nreg a64)) o

section
variable (a64 : Bool) (md : Mode) (b : Nat → Byte)

/-- `match2Cr_Dot`, decoder_neon64.cc:150-153, decoder_neon.cc:192-193. -/
def match2CrDot (h : Nat) : Vec := and (cmpCr b h) (cmpeq (shiftData a64 md b h 2) (set1 DOT))

/-- `match1Lf`, decoder_neon64.cc:161-168,266-269, decoder_neon.cc:200-205,297-298. -/
def match1Lf (h : Nat) : Vec := cmpeq (shiftData a64 md b h 1) (set1 LF)

/-- `match2NlDot`, decoder_neon64.cc:170-173, decoder_neon.cc:207-208. -/
def match2NlDot (h : Nat) : Vec := and (match2CrDot a64 md b h) (match1Lf a64 md b h)

/-- `match1Nl`, decoder_neon64.cc:175-178, decoder_neon.cc:210-211. -/
def match1Nl (h : Nat) : Vec := and (match1Lf a64 md b h) (cmpCr b h)

/-- `mergeCompares`, decoder_neon64.cc:37-44, and the `vbslq_u8(vdupq_n_u8('\r'), ...)` of decoder_neon.cc:218-247. -/
def mergeCompares (f : Nat → Vec) : Vec :=
  if a64 then bsl (set1 EQ) (bsl (set1 LY) (f 0) (f 1)) (bsl (set1 LY) (f 2) (f 3)) else bsl (set1 CR) (f 0) (f 1)

/-- What goes into `match4Nl`, decoder_neon64.cc:183-190, decoder_neon.cc:216-221. -/
def match4Nl (h : Nat) : Vec :=
  if h + 1 < nreg a64 then ext (match1Nl a64 md b h) (match1Nl a64 md b (h + 1)) 3
  else and (cmpeq (shiftData a64 md b h 3) (set1 CR)) (cmpeq (shiftData a64 md b h 4) (set1 LF))

/-- What goes into `match4EqY`, decoder_neon64.cc:191-197, decoder_neon.cc:222-226. -/
def match4EqY (h : Nat) : Vec := cmpeqw (shiftData a64 md b h 4) (set1w 0x793d#16)

/-- `match2Eq`, decoder_neon64.cc:146-148,198-200,254-256, decoder_neon.cc:188-190,228,291. -/
def match2Eq (h : Nat) : Vec :=
  if h + 1 < nreg a64 then ext (cmpEq b h) (cmpEq b (h + 1)) 2 else cmpeq (shiftData a64 md b h 2) (set1 EQ)

/-- `match3EqY` before merging, decoder_neon64.cc:201-215,258-261, decoder_neon.cc:229-237,292-293. -/
def match3EqY (h : Nat) : Vec := and (cmpeq (shiftData a64 md b h 3) (set1 LY)) (match2Eq a64 md b h)

/-- `vsriq_n_u16(a, b, 8)`. -/
def sriw8 (a b : Vec) : Vec := of16 fun k => (w16 a k &&& 0xff00#16) ||| (w16 b k >>> 8)

/-- The test for a terminator after `\r_.` was found, decoder_neon64.cc:217-229, decoder_neon.cc:238-250. -/
def matchEnd : Bool :=
  let eqy := mergeCompares a64 (match3EqY a64 md b)
  let match4End := or (mergeCompares a64 (match4Nl a64 md b)) (sriw8 (mergeCompares a64 (match4EqY a64 md b)) eqy)
  let match4End := and match4End (mergeCompares a64 (match2NlDot a64 md b))
  let match3End := and eqy (mergeCompares a64 (match1Nl a64 md b))
  isNonzero a64 (or match4End match3End)

/-- `mergeKillDots` as an integer, shifted, decoder_neon64.cc:237-249, decoder_neon.cc:266-278. -/
def killDots : BitVec (wid a64) :=
  (if a64 then lane _ (padd 16 (merge4 (match2NlDot a64 md b)) (merge4 (match2NlDot a64 md b))) else lane _ (merge2 (match2NlDot a64 md b))) <<< 2

/-- An integer repeated over the register: `vmovq_n_u64`, `vmov_n_u32`, decoder_neon64.cc:308-311, decoder_neon.cc:338. The upper half is never made use of; that of decoder_neon64.cc:249 holds the same value in either half. -/
def dup {w : Nat} (x : BitVec w) : Vec := fun j => (x >>> (8 * (j % (w / 8)))).setWidth 8

/-- `nextMaskMix`, decoder_neon64.cc:252; `lfCompare`, decoder_neon.cc:284-288. -/
def nextMix (mix : Vec) : Vec :=
  if a64 then ext (match2NlDot a64 md b 3) (set1 0#8) 14
  else
    let tail : Vec := fun j => if j + 6 < 8 then high (match2NlDot a64 md b 1) (j + 6) else set1 LF (j + 6 - 8)
    combine (bsl tail (set1 DOT) (high mix)) (high mix)

/-- `nextMaskMix`, `lfCompare` if there is no `\r_.`, decoder_neon64.cc:286-289, decoder_neon.cc:310-321. -/
def freshMix (mix : Vec) : Vec := if a64 then set1 0#8 else combine (high mix) (high mix)

/-- `matchEnd` of decoder_neon64.cc:270-280, decoder_neon.cc:299-303. -/
def endFound : Bool := isNonzero a64 (orAll a64 fun h => and (match3EqY a64 md b h) (and (match1Lf a64 md b h) (cmpCr b h)))

/-- Outcome of the line break handling: leave the loop with `nextMask`, or carry on with `mask`, `cmpCombined` resp. `cmpPacked`, and `nextMaskMix` resp. `lfCompare`. -/
inductive Dots (W : Nat) where
  | brk (nextMask : Nat)
  | go (mask : BitVec W) (packed mix : Vec)

/-- decoder_neon64.cc:127-290, decoder_neon.cc:167-322, for `isRaw`. -/
def dots (mask : BitVec (wid a64)) (pk mix : Vec) : Dots (wid a64) :=
  let nm := setNextMaskAt md.isRaw b (mask.getLsbD 0) (mask.getLsbD 1)
  if isNonzero a64 (orAll a64 (match2CrDot a64 md b)) then
    if md.searchEnd ∧ matchEnd a64 md b then .brk nm
    else .go (mask ||| killDots a64 md b) (or pk (dup (killDots a64 md b))) (nextMix a64 md b mix)
  else if md.searchEnd then
    if isNonzero a64 (orAll a64 (match3EqY a64 md b)) ∧ endFound a64 md b then .brk nm
    else .go mask pk (freshMix a64 mix)
  else .go mask pk (freshMix a64 mix)

end

/-! ### Unescaping -/

/-- `vtstq_u8` (decoder_neon64.cc:334-337, decoder_neon.cc:359-360). -/
def tst (a b : Vec) : Vec := fun j => bm (a j &&& b j ≠ 0#8)

/-- `maskEqTemp` at its use for register `h`, decoder_neon64.cc:315-333. -/
def rotated (m : Vec) : Nat → Vec
  | 0 => m
  | h + 1 => ext (rotated m h) (rotated m h) 2

/-- `vMaskEq`, decoder_neon64.cc:315-337, decoder_neon.cc:350-360. -/
def vMaskEq (a64 : Bool) (m : Vec) (h : Nat) : Vec :=
  tst (if a64 then tbx 16 (set1 0#8) (rotated m h) (make [0, 0, 0, 0, 0, 0, 0, 0, 1, 1, 1, 1, 1, 1, 1, 1])
    else combine (set1 (m (2 * h))) (set1 (m (2 * h + 1)))) bits

/-- `dataA` to `dataD`, unescaped with the corrected mask, decoder_neon64.cc:339-354, decoder_neon.cc:362-369. -/
def dataFix (a64 : Bool) (m : Vec) (b : Nat → Byte) (h : Nat) : Vec :=
  sub (data b h) (bsl (vMaskEq a64 m h) (set1 106#8) (set1 42#8))

/-- The same if nothing needs correction, decoder_neon64.cc:360-391, decoder_neon.cc:375-390. -/
def dataFast (off : Vec) (b : Nat → Byte) (h : Nat) : Vec :=
  sub (data b h) (bsl (ext (if h = 0 then set1 42#8 else cmpEq b (h - 1)) (cmpEq b h) 15) (set1 106#8) (if h = 0 then off else set1 42#8))

/-! ### Compaction -/

/-- Row of the table made by `decoder_init_lut`, decoder.cc:380-399, for `tableSize == 8` (`YENC_DEC_USE_THINTABLE`). -/
def thinRow (i : Nat) : Vec := fun j => (X86.lutLoop i 8 0).getD j 0x80#8

/-- The `k`-th byte of `counts`, as in decoder_neon64.cc:404-422, decoder_neon.cc:415-433. -/
def countAt {w : Nat} (counts : BitVec w) (k : Nat) : Nat := ((counts >>> (8 * k)) &&& 0xff#w).toNat

/-- The stores of a round and by how much `p` advances, decoder_neon64.cc:395-422, decoder_neon.cc:395,410-433. -/
def compact (a64 : Bool) (mask : BitVec (wid a64)) (pk : Vec) (d : Nat → Vec) : List (Nat × List Byte) × Nat :=
  if a64 then
    let counts := 0x0808080808080808#64 - lane 64 (cntv pk)
    let counts := counts + counts >>> 8
    let row (h : Nat) : List Byte := toList (tbx 16 (set1 0#8) (d h) (X86.compactRow ((mask >>> (16 * h)) &&& 0x7fff#_).toNat)) 16
    ([(0, row 0), (countAt counts 0, row 1), (countAt counts 0 + countAt counts 2, row 2),
      (countAt counts 0 + countAt counts 2 + countAt counts 4, row 3)],
      countAt counts 0 + countAt counts 2 + countAt counts 4 + countAt counts 6)
  else
    let counts := 0x08080808#32 - lane 32 (cntv pk)
    let row (k : Nat) (v : Vec) : List Byte := toList (tbx 8 (set1 0#8) v (thinRow ((mask >>> (8 * k)) &&& 0xff#_).toNat)) 8
    ([(0, row 0 (d 0)), (countAt counts 0, row 1 (high (d 0))), (countAt counts 0 + countAt counts 1, row 2 (d 1)),
      (countAt counts 0 + countAt counts 1 + countAt counts 2, row 3 (high (d 1)))],
      countAt counts 0 + countAt counts 1 + countAt counts 2 + countAt counts 3)

/-! ### A round -/

/-- decoder_neon64.cc:292-422, decoder_neon.cc:324-433: from the final special character mask on. -/
def unescape (a64 : Bool) (s : Regs) (b : Nat → Byte) (mask maskEq : BitVec (wid a64)) (pk mix : Vec) : Round Regs :=
  let maskEqShift1 := maskEq <<< 1 ||| BitVec.ofNat _ s.esc.toNat
  if mask &&& maskEqShift1 ≠ 0#_ then
    let maskEq := fixEqMask maskEq maskEqShift1
    let esc := maskEq.getLsbD (wid a64 - 1)
    let maskEq := maskEq <<< 1 ||| BitVec.ofNat _ s.esc.toNat
    let mask := mask &&& ~~~ maskEq
    let pk := bic pk (dup maskEq)
    let r := compact a64 mask pk (dataFix a64 (dup maskEq) b)
    .next r.1 r.2 ⟨esc, setLane (BitVec.ofNat 8 (esc.toNat <<< 6) ||| 42#8) s.off 0, mix⟩
  else
    let esc := maskEq.getLsbD (wid a64 - 1)
    let r := compact a64 mask pk (dataFast s.off b)
    .next r.1 r.2 ⟨esc, setLane (BitVec.ofNat 8 (esc.toNat <<< 6) ||| 42#8) s.off 0, mix⟩

/-- The stores of the last branch, decoder_neon64.cc:424-429, decoder_neon.cc:438-441. -/
def plainStores (a64 : Bool) (off : Vec) (b : Nat → Byte) : List (Nat × List Byte) :=
  (List.range (nreg a64)).map fun h => (16 * h, toList (sub (data b h) (if h = 0 then off else set1 42#8)) 16)

/-- The body of the loop, decoder_neon64.cc:63-433, decoder_neon.cc:82-449. On 32-bit ARM whether there is anything special is told from `mask`. -/
def iter (a64 : Bool) (md : Mode) (s : Regs) (b : Nat → Byte) : Iter Regs :=
  let c := cmp a64 md s.mix b
  let pk := packed a64 c (cmpEq b)
  let mask := lane (wid a64) pk
  if (if a64 then isNonzero a64 (orAll a64 c) else mask ≠ 0#_) then
    let maskEq := maskEqOf a64 c (cmpEq b)
    if md.isRaw ∧ mask ≠ maskEq then
      let reach := wid a64 + if md.searchEnd then 16 else 2
      match dots a64 md b mask pk s.mix with
      | .brk nm => ⟨reach, .brk nm⟩
      | .go mask pk mix => ⟨reach, unescape a64 s b mask maskEq pk mix⟩
    else ⟨wid a64, unescape a64 s b mask maskEq pk s.mix⟩
  else
    ⟨wid a64, .next (plainStores a64 s.off b) (wid a64)
      ⟨false, if a64 then set1 42#8 else combine (set1 42#8) (high s.off), s.mix⟩⟩

/-- `do_decode_neon`, decoder_neon64.cc:49-434, decoder_neon.cc:58-450; the width is given at decoder_neon64.cc:439-441, decoder_neon.cc:455-457. -/
def kernel (a64 : Bool) (md : Mode) : Kernel Regs where
  width := wid a64
  init := init a64 md
  esc := Regs.esc
  iter := iter a64 md

end Yenc.Dec.Simd.Neon
