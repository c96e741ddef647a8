import Verif.Model.EncoderScalar
import Verif.Model.Mem
/-!
Model of the vectorised encoders as far as they do not depend on the instruction set: the wrapper `do_encode_simd` (encoder_common.h) and the frame shared by the x86
kernels `do_encode_sse` (encoder_sse_base.h) and `do_encode_avx2` (encoder_avx_base.h).

The destination is byte addressed memory, because the kernels store whole vectors and then move the destination pointer back or forward by less than what they stored.
`dest` is address 0; what memory contains before the call is arbitrary.
-/
namespace Yenc.Enc.Simd
open Yenc

/-- The destination while a kernel runs: memory, `p` and one more than the highest address written. -/
structure D where
  m : Mem
  p : Nat
  hi : Nat

/-- Store `bs` at `p + o`. -/
def D.store (d : D) (o : Nat) (bs : List Byte) : D := ⟨d.m.wr (d.p + o) bs, d.p, max d.hi (d.p + o + bs.length)⟩

/-- Several stores, in order. -/
def D.stores (d : D) : List (Nat × List Byte) → D
  | [] => d
  | (o, bs) :: r => (d.store o bs).stores r

/-- `p += n`. -/
def D.adv (d : D) (n : Nat) : D := ⟨d.m, d.p + n, d.hi⟩

/-- Store `bs` at `p`, then advance `p`. -/
def D.put (d : D) (bs : List Byte) (n : Nat) : D := (d.store 0 bs).adv n

/-- The destination as the scalar code sees it: the bytes from `dest` to `p`. -/
def D.toW (d : D) : W := ⟨d.m.rdn 0 d.p, d.hi⟩

/-- A kernel: `(line_size, *colOffset, input, destination) ↦ (destination, number of input bytes consumed, *colOffset)`.  `none`: memory outside the input is read, or the
kernel does not terminate. -/
abbrev KernelFn := Int → Int → List Byte → D → Option (D × Nat × Int)

/-! ## The wrapper -/

/-- A character in the middle of a line, encoder_common.h:54-62. -/
def tailMid (w : W) (c : Byte) : W × Int :=
  if escapeLUT c = 0#8 then (w.put [EQ, c + 42#8 + 64#8] 2, 2) else (w.put [escapeLUT c] 1, 1)

/-- The scalar loop over what the kernel left, encoder_common.h:51-88. -/
def tail (ls : Int) : List Byte → W → Int → W × Int
  | [], w, col => (w, col)
  | c :: cs, w, col =>
    if col < ls - 1 then tail ls cs (tailMid w c).1 (col + (tailMid w c).2)
    else if col < ls then
      match cs with
      | [] => (lastChar w c, col)
      | d :: ds => tail ls ds (eolChar (lastChar w c) d).1 (eolChar (lastChar w c) d).2
    else tail ls cs (eolChar w c).1 (eolChar w c).2

/-- encoder_common.h:38-88: the first character if at the start of a line (the same code as in encoder.cc), then the loop. -/
def rest (ls : Int) (r : List Byte) (w : W) (col : Int) : W × Int :=
  if col = 0 then
    match r with
    | [] => (w, col)
    | c :: cs => tail ls cs (firstChar w c).1 (firstChar w c).2
  else tail ls r w col

/-- `do_encode_simd<kernel>`, encoder_common.h:23-101.  `m0` is what memory at `dest` contains before. -/
def encode (K : KernelFn) (m0 : Mem) (ls col : Int) (src : List Byte) (fin : Bool) : Option (W × Int) :=
  if src = [] then some (⟨[], 0⟩, col)
  else if ls < 12 then encodeGeneric ls col src fin
  else
    match K ls (if col < 0 then 0 else col) src ⟨m0, 0, 0⟩ with
    | none => none
    | some (d, pos, col) =>
      let r := rest ls (src.drop pos) d.toW col
      if fin then doEnd r.1 r.2 else some r

/-! ## The frame of the x86 kernels -/

/-- `eolLastChar[256]`, encoder_sse_base.h:61, encoder_avx_base.h:27-31: the last character of a line and the line break, as a little endian `uint32_t`. -/
def eolLastChar (c : Byte) : BitVec 32 :=
  let n := c.toNat
  if n = 214 + 9 ∨ n = 214 + 32 ∨ n = 214 ∨ n = 214 + 10 ∨ n = 214 + 13 ∨ n = 61 - 42 then
    BitVec.ofNat 32 ((n + 42 + 64) % 256 * 256 + 0x0a0d003d)
  else BitVec.ofNat 32 ((n + 42) % 256 + 0x0a0d00)

/-- encoder_sse_base.h:177-179, 624-626 and encoder_avx_base.h:115-117, 436-438: `*(uint32_t*)p = eolChar; p += 3 + (eolChar>>27)`. -/
def D.eolLast (d : D) (c : Byte) : D := d.put (bytes32 (eolLastChar c)) (3 + (eolLastChar c >>> 27).toNat)

/-- Line break and first character after a line that overflowed, encoder_sse_base.h:182-190, encoder_avx_base.h:121-129. -/
def D.eolFirst (d : D) (c : Byte) : D × Int :=
  if escapedLUT c ≠ 0#16 then
    let v : BitVec 32 := (13#32 ||| (10#32 <<< 8)) ||| ((escapedLUT c).setWidth 32 <<< 16)
    (d.put (bytes32 v) 4, 2)
  else
    let v : BitVec 32 := 13#32 ||| (10#32 <<< 8) ||| (BitVec.ofNat 32 (c.toNat + 42) <<< 16) ||| (0#32 <<< 24)
    (d.put (bytes32 v) 3, 1)

/-- First character of a line, encoder_sse_base.h:194-202, encoder_avx_base.h:134-142. -/
def D.first (d : D) (c : Byte) : D × Int :=
  if escapedLUT c ≠ 0#16 then (d.put (bytes16 (escapedLUT c)) 2, 2) else (d.put [c + 42#8] 1, 1)

/-- A character in the middle of a line, encoder_avx_base.h:99-107. -/
def D.prime (d : D) (c : Byte) : D × Int :=
  if c = 214#8 ∨ c = 10#8 + 214#8 ∨ c = 13#8 + 214#8 ∨ c = 61#8 - 42#8 then
    (d.put (bytes16 (0x6a3d#16 + (c.setWidth 16 <<< 8))) 2, 2)
  else (d.put [c + 42#8] 1, 1)

/-- What one round of a kernel's main loop does, up to the test whether the line is full. -/
structure Round where
  /-- Stores, at offsets from `p`. -/
  stores : List (Nat × List Byte)
  /-- By how much `p` and `col` are advanced. -/
  adv : Nat
  /-- Is the byte before the block read? -/
  back : Bool
  /-- If the line is full: by how much `p` and `i` are then changed, given `col`. -/
  revert : Int → Int × Int

/-- What distinguishes the kernels. -/
structure Kernel where
  /-- Bytes per round. -/
  width : Nat
  /-- Is a character in the middle of a line first handled on its own (encoder_avx_base.h:95-109)? -/
  priming : Bool
  /-- A round: is the block the start of a line; the byte before the block; the block. -/
  round : Bool → Byte → (Nat → Byte) → Round

/-- The main loop, encoder_sse_base.h:204-718, encoder_avx_base.h:144-565.  `pos` is the position in the input (`es + i` in the code, where `i` is `pos` minus the input length
plus `INPUT_OFFSET = 2 * width`), `col` the column minus `line_size - 1`.  `start` tells that the round is entered through the handling of the end of the previous line.
Every round consumes input, so `fuel` larger than the input suffices. -/
def loop (K : Kernel) (ls : Int) (src : List Byte) : Nat → Bool → D → Nat → Int → Option (D × Nat × Int)
  | 0, _, _, _, _ => none
  | fuel + 1, start, d, pos, col =>
    let r := K.round start (src.getD (pos - 1) 0#8) (fun j => src.getD (pos + j) 0#8)
    if src.length < pos + K.width ∨ (r.back = true ∧ pos = 0) then none
    else
      let d1 := (d.stores r.stores).adv r.adv
      let col1 := col + r.adv
      let pos1 := pos + K.width
      if 0 ≤ col1 then
        let p2 := (d1.p : Int) + (r.revert col1).1
        let i2 := (pos1 : Int) + (r.revert col1).2
        if p2 < 0 ∨ i2 < 0 then none
        else
          match src[i2.toNat]? with
          | none => none
          | some c =>
            let d2 := D.eolLast ⟨d1.m, p2.toNat, d1.hi⟩ c
            if src.length ≤ i2.toNat + 2 * K.width then some (d2, i2.toNat + 1, -ls + 1)
            else loop K ls src fuel true d2 (i2.toNat + 1) (-ls + 1)
      else if pos1 + 2 * K.width < src.length then loop K ls src fuel false d1 pos1 col1
      else some (d1, pos1, col1)

/-- encoder_avx_base.h:95-109. -/
def priming (K : Kernel) (ls : Int) (src : List Byte) (d : D) (pos : Nat) (col : Int) : Option (D × Nat × Int) :=
  if K.priming = true ∧ col < 0 ∧ col ≠ -ls + 1 then
    match src[pos]? with
    | none => none
    | some c => some ((d.prime c).1, pos + 1, col + (d.prime c).2)
  else some (d, pos, col)

/-- encoder_sse_base.h:174-192, encoder_avx_base.h:111-131. -/
def full (ls : Int) (src : List Byte) (d : D) (pos : Nat) (col : Int) : Option (D × Nat × Int) :=
  if 0 ≤ col then
    match src[pos]? with
    | none => none
    | some c =>
      if col = 0 then some (d.eolLast c, pos + 1, -ls + 1)
      else some ((d.eolFirst c).1, pos + 1, 1 - ls + (d.eolFirst c).2)
  else some (d, pos, col)

/-- encoder_sse_base.h:193-203, encoder_avx_base.h:132-143. -/
def lineStart (ls : Int) (src : List Byte) (d : D) (pos : Nat) (col : Int) : Option (D × Nat × Int) :=
  if col = -ls + 1 then
    match src[pos]? with
    | none => none
    | some c => some ((d.first c).1, pos + 1, col + (d.first c).2)
  else some (d, pos, col)

/-- `do_encode_sse`, encoder_sse_base.h:152-723, and `do_encode_avx2`, encoder_avx_base.h:81-572. -/
def run (K : Kernel) : KernelFn := fun ls col src d =>
  if src.length ≤ 2 * K.width ∨ ls < 16 then some (d, 0, col)
  else do
    let (d, pos, col) ← priming K ls src d 0 (col - ls + 1)
    let (d, pos, col) ← full ls src d pos col
    let (d, pos, col) ← lineStart ls src d pos col
    let (d, pos, col) ← loop K ls src (src.length + 1) false d pos col
    some (d, pos, col + ls - 1)

end Yenc.Enc.Simd
