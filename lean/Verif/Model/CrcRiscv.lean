import Verif.Model.Clmul
import Verif.Model.CrcX86
/-!
Model of the RISC-V code with carry-less multiplication (Zbc or Zbkc), `/repo/src/crc_riscv.cc`, for `__riscv_xlen` `w` = 64 or 32.
`SWAP` undoes the byte order of a big-endian processor: the number of a load is the little-endian one.
-/
namespace Yenc.Crc.Rv

/-- `rv_clmul(x, y)`, crc_riscv.cc:5-22: the low half of the product. -/
def clmul {w : Nat} (a b : BitVec w) : BitVec w := BitVec.ofNat w (clmulN a.toNat b.toNat w)
/-- `rv_clmulh(x, y)`, crc_riscv.cc:9, 12, 23-30: the high half. -/
def clmulh {w : Nat} (a b : BitVec w) : BitVec w := BitVec.ofNat w (clmulN a.toNat b.toNat w / 2 ^ w)

/-- `CLMULL(x, k)`, crc_riscv.cc:64, 70: the constant is a 64-bit number, cut to the word size. -/
def mulL {w : Nat} (a : BitVec w) (k : Nat) : BitVec w := clmul a (BitVec.ofNat w k)
/-- `CLMULH(x, k)`, crc_riscv.cc:65, 71. -/
def mulH {w : Nat} (a : BitVec w) (k : Nat) : BitVec w :=
  if w = 64 then clmulh a (BitVec.ofNat w k) else clmulh a (BitVec.ofNat w k) ^^^ (if k > 0xffffffff then a else 0#w)

/-- `read_partial(p, sz)`, crc_riscv.cc:43-47. -/
def readPartial (w : Nat) (s : Src) (off sz : Nat) : Option (BitVec w) := (s.loadu sz off).map fun v => BitVec.ofNat w (v.le 0 sz)

/-- `read_full(p)`, crc_riscv.cc:48-50. `none` also when `p` is not aligned. -/
def readFull (w : Nat) (s : Src) (off : Nat) : Option (BitVec w) :=
  if (s.addr + off) % (w / 8) = 0 then (s.loadu (w / 8) off).map fun v => BitVec.ofNat w (v.le 0 (w / 8)) else none

/-- `accum`, crc_riscv.cc:54. -/
structure Acc (w : Nat) where
  a0 : BitVec w
  a1 : BitVec w
  a2 : BitVec w
  a3 : BitVec w

/-- `MUL_HI`, crc_riscv.cc:63, 69. -/
def mulHi (w : Nat) : Nat := if w = 64 then 0x15a546366 else 0x140d44a2e
/-- `MUL_LO`, crc_riscv.cc:63, 69. -/
def mulLo (w : Nat) : Nat := if w = 64 then 0xf1da05aa else 0x1751997d0

/-- crc_riscv.cc:54, 67, 73-74. -/
def start (w : Nat) (crc : U32) : Acc w :=
  if w = 64 then ⟨0#w, 0#w, 0#w, clmul (crc.setWidth w) (BitVec.ofNat w 0xb66b1fa6)⟩
  else ⟨0#w, 0#w, clmul (crc.setWidth w) (BitVec.ofNat w 0xb66b1fa6), clmulh (crc.setWidth w) (BitVec.ofNat w 0xb66b1fa6)⟩

/-- crc_riscv.cc:80-94: bytes up to the first multiple of the word size. Returns the accumulators, the place and what is left of `len`. -/
def align {w : Nat} (s : Src) (len : Int) (a : Acc w) : Option (Acc w × Nat × Int) :=
  let al := s.addr % (w / 8)
  let proc := w / 8 - al
  if al ≠ 0 ∧ len ≥ proc then
    let shl := al * 8
    let shr := proc * 8
    (readPartial w s 0 proc).map fun (d : BitVec w) =>
      let top := (d <<< shl) ||| (a.a3 >>> shr)
      if w = 64 then (⟨a.a0, a.a1, a.a3 <<< shl, top⟩, proc, len - proc)
      else (⟨a.a0, a.a2 <<< shl, (a.a3 <<< shl) ||| (a.a2 >>> shr), top⟩, proc, len - proc)
  else some (a, 0, len)

/-- crc_riscv.cc:100-101, 105-106, 113-114: two words of the accumulator times the constants. -/
def foldPair {w : Nat} (a b : BitVec w) : BitVec w × BitVec w :=
  (mulL a (mulLo w) ^^^ mulL b (mulHi w), mulH a (mulLo w) ^^^ mulH b (mulHi w))

/-- crc_riscv.cc:98-109: `while((len -= WS*4) >= 0)`. Returns `len` too, which is negative. -/
def loop {w : Nat} (s : Src) (a : Acc w) (off : Nat) (len : Int) : Option (Acc w × Nat × Int) :=
  let WS := w / 8
  if h : w / 8 > 0 ∧ len - 4 * (w / 8 : Nat) ≥ 0 then
    match readFull w s off, readFull w s (off + WS), readFull w s (off + 2 * WS), readFull w s (off + 3 * WS) with
    | some d0, some d1, some d2, some d3 =>
      let t := foldPair a.a0 a.a1
      let u := foldPair a.a2 a.a3
      loop s ⟨t.1 ^^^ d0, t.2 ^^^ d1, u.1 ^^^ d2, u.2 ^^^ d3⟩ (off + 4 * WS) (len - 4 * (w / 8 : Nat))
    | _, _, _, _ => none
  else some (a, off, len - 4 * (w / 8 : Nat))
termination_by len.toNat
decreasing_by omega

/-- crc_riscv.cc:112-119: two more words. -/
def two {w : Nat} (s : Src) (len : Int) (a : Acc w) (off : Nat) : Option (Acc w × Nat) :=
  if len / ((w / 8 : Nat) * 2) % 2 = 1 then
    match readFull w s off, readFull w s (off + w / 8) with
    | some d0, some d1 =>
      let t := foldPair a.a0 a.a1
      some (⟨a.a2, a.a3, t.1 ^^^ d0, t.2 ^^^ d1⟩, off + 2 * (w / 8))
    | _, _ => none
  else some (a, off)

/-- crc_riscv.cc:120-127: one more word. -/
def one {w : Nat} (s : Src) (len : Int) (a : Acc w) (off : Nat) : Option (Acc w × Nat) :=
  if len / ((w / 8 : Nat) : Int) % 2 = 1 then
    (readFull w s off).map fun d => (⟨a.a1, a.a2, a.a3 ^^^ mulL a.a0 (mulHi w), mulH a.a0 (mulHi w) ^^^ d⟩, off + w / 8)
  else some (a, off)

/-- crc_riscv.cc:129-141: the last bytes. -/
def rest {w : Nat} (s : Src) (len : Int) (a : Acc w) (off : Nat) : Option (Acc w) :=
  let tail := (len % ((w / 8 : Nat) : Int)).toNat
  if tail ≠ 0 then
    let shl := (w / 8 - tail) * 8
    let shr := tail * 8
    let tmp := a.a0 <<< shl
    (readPartial w s off tail).map fun (d : BitVec w) =>
      ⟨(a.a0 >>> shr) ||| (a.a1 <<< shl), (a.a1 >>> shr) ||| (a.a2 <<< shl), ((a.a2 >>> shr) ||| (a.a3 <<< shl)) ^^^ mulL tmp (mulHi w),
        ((a.a3 >>> shr) ||| (d <<< shl)) ^^^ mulH tmp (mulHi w)⟩
  else some a

/-- crc_riscv.cc:144-173: from the accumulators to the CRC. -/
def done {w : Nat} (a : Acc w) : U32 :=
  let r : BitVec w × BitVec w :=
    if w = 64 then
      let a2 := a.a2 ^^^ (clmul a.a0 (BitVec.ofNat w 0x1751997d0) ^^^ clmul a.a1 (BitVec.ofNat w 0xccaa009e))
      let a3 := a.a3 ^^^ (clmulh a.a0 (BitVec.ofNat w 0x1751997d0) ^^^ clmulh a.a1 (BitVec.ofNat w 0xccaa009e))
      let a0 := clmulh a2 (BitVec.ofNat w 0xccaa009e)
      let a3 := a3 ^^^ clmul a2 (BitVec.ofNat w 0xccaa009e)
      let a1 := clmul (a3 &&& BitVec.ofNat w 0xffffffff) (BitVec.ofNat w 0x163cd6124)
      (a0 ^^^ (a1 >>> 32), (a1 ^^^ (a3 >>> 32)) <<< 32)
    else
      let a2 := a.a2 ^^^ (clmul a.a0 (BitVec.ofNat w 0xccaa009e) ^^^ mulL a.a1 0x163cd6124)
      let a3 := a.a3 ^^^ (clmulh a.a0 (BitVec.ofNat w 0xccaa009e) ^^^ mulH a.a1 0x163cd6124)
      (mulH a2 0x163cd6124, a3 ^^^ mulL a2 0x163cd6124)
  let a3 := mulL r.2 0xf7011641
  let a3 := mulH a3 0x1db710640
  (r.1 ^^^ a3).setWidth 32

/-- `rv_crc_calc(crc, src, len)`, crc_riscv.cc:53-176. -/
def crcCalc (w : Nat) (s : Src) (crc : U32) (len : Int) : Option U32 :=
  (align s len (start w crc)).bind fun (a, off, len) =>
  (loop s a off len).bind fun (a, off, len) =>
  (two s len a off).bind fun (a, off) =>
  (one s len a off).bind fun (a, off) =>
  (rest s len a off).map fun a => done a

/-- `do_crc32_incremental_rv_zbc(data, length, init)`, crc_riscv.cc:178-180; `long` has the word size. -/
def incr (w : Nat) (s : Src) (init : U32) : Option U32 :=
  (crcCalc w s (~~~init) (toLong w s.data.length)).map fun r => ~~~r

/-- `crc32_reduce_rv_zbc(prod)`, crc_riscv.cc:185-190 (`w` = 64). -/
def reduce (prod : BitVec 64) : U32 :=
  let t := clmul (prod <<< 33) 0xf7011641#64
  let t := clmulh t 0x1db710640#64
  (t ^^^ (prod >>> 31)).setWidth 32

/-- `crc32_multiply_rv_zbc(a, b)`, crc_riscv.cc:192-209. -/
def multiply (w : Nat) (a b : U32) : U32 :=
  if w = 64 then reduce (clmul (a.setWidth 64) (b.setWidth 64))
  else
    let prodLo := clmul a b
    let prodHi := clmulh a b
    let prodHi := (prodHi + prodHi) ||| (prodLo >>> 31)
    let prodLo := prodLo + prodLo
    let t := clmul prodLo 0xf7011641#32
    let t := t ^^^ clmulh t 0xdb710640#32
    t ^^^ prodHi

/-- crc_riscv.cc:222-236: the powers for the bits of `n`. -/
def powers (w : Nat) (result n : U32) : U32 :=
  if n = 0#32 then result
  else
    let r := shiftLoop2 (fun r pos => multiply w r (crcPower.getD pos 0#32)) 32 result (crcPower.getD (ctz n) 0#32) (clearLow n)
    multiply w r.1 r.2

/-- `crc32_shift_rv_zbc(crc1, n)`, crc_riscv.cc:212-237. -/
def shift (w : Nat) (crc1 n : U32) : U32 :=
  if w = 64 then
    let prod : BitVec 64 := crc1.setWidth 64 <<< (31#32 ^^^ (n &&& 31#32)).toNat
    powers w (reduce prod) (n &&& ~~~31#32)
  else powers w crc1 n

end Yenc.Crc.Rv
