import Verif.Model.Clmul
import Verif.Model.CrcX86
/-!
Model of the ARMv8 CRC code, `/repo/src/crc_arm.cc` and `/repo/src/crc_arm_pmull.cc`.

Loads from an address that is no multiple of the size are allowed (crc_arm.cc:119-187 makes them for short data; the language does not define them, the
processor does). `_LE64` and its like undo the byte order of a big-endian processor: the number of a load is the little-endian one.
`ENABLE_PIPELINE_OPT` (crc_arm.cc:82-91, 121-149) is not defined anywhere and not modelled.
-/
namespace Yenc.Crc.Arm

/-- `Poly32Mod2(data, 0x04C11DB7)` of the ARM Architecture Reference Manual, for data of `k + 32` bits: from the top bit down to bit 32, a set bit `i`
exclusive-ors the polynomial, shifted to end below bit `i`, into the bits below. -/
def poly32Mod2 : Nat → Nat → Nat
  | 0, d => d % 2 ^ 32
  | k + 1, d => poly32Mod2 k (if d.testBit (k + 32) then d ^^^ (0x04c11db7 <<< k) else d)

/-- `__crc32b`, `__crc32h`, `__crc32w`, `__crc32d` (`n` = 8, 16, 32, 64), as in the manual:
`BitReverse(Poly32Mod2((BitReverse(acc) : Zeros(n)) EOR (BitReverse(val) : Zeros(32)), 0x04C11DB7))`. -/
def crc32 (n : Nat) (acc : U32) (val : BitVec n) : U32 :=
  (BitVec.ofNat 32 (poly32Mod2 n ((acc.reverse.toNat <<< n) ^^^ (val.reverse.toNat <<< 32)))).reverse

/-- A load of `n` bytes at the current place, fed to the CRC instruction of that size. State: the CRC and the place. -/
def word (s : Src) (n : Nat) (st : U32 × Nat) : Option (U32 × Nat) :=
  (s.loadu n st.2).map fun v => (crc32 (8 * n) st.1 (BitVec.ofNat (8 * n) (v.le 0 n)), st.2 + n)

/-- `k` words in a row. -/
def words (s : Src) (n : Nat) : Nat → U32 × Nat → Option (U32 × Nat)
  | 0, st => some st
  | k + 1, st => (word s n st).bind (words s n k)

/-- Conditional step. -/
def cond (c : Bool) (f : U32 × Nat → Option (U32 × Nat)) (st : U32 × Nat) : Option (U32 × Nat) := if c then f st else some st

/-- crc_arm.cc:98-117: bytes up to the first multiple of the word size `W` (8 under `__aarch64__`, otherwise 4). -/
def align (W : Nat) (s : Src) (len : Int) (st : U32 × Nat) : Option (U32 × Nat) :=
  if len ≥ 16 then
    (cond ((s.addr + st.2) % 2 = 1) (word s 1) st).bind fun st =>
    (cond ((s.addr + st.2) / 2 % 2 = 1) (word s 2) st).bind fun st =>
    cond (W = 8 ∧ (s.addr + st.2) / 4 % 2 = 1) (word s 4) st
  else some st

/-- crc_arm.cc:151-160: `while ((len -= W*8) >= 0)`, eight words each. Returns `len` too, which is negative. -/
def loop (W : Nat) (s : Src) (st : U32 × Nat) (len : Int) : Option ((U32 × Nat) × Int) :=
  if h : W > 0 ∧ len - 8 * W ≥ 0 then
    match words s W 8 st with
    | some st => loop W s st (len - 8 * W)
    | none => none
  else some (st, len - 8 * W)
termination_by len.toNat
decreasing_by omega

/-- crc_arm.cc:161-187: the rest, by the bits of `len`. `L` is `WORDSIZE_LOG`. -/
def tail (L : Nat) (s : Src) (len : Int) (st : U32 × Nat) : Option (U32 × Nat) :=
  (cond (bitOf len (L + 2)) (words s (2 ^ L) 4) st).bind fun st =>
  (cond (bitOf len (L + 1)) (words s (2 ^ L) 2) st).bind fun st =>
  (cond (bitOf len L) (words s (2 ^ L) 1) st).bind fun st =>
  (cond (L = 3 ∧ bitOf len 2) (word s 4) st).bind fun st =>
  (cond (bitOf len 1) (word s 2) st).bind fun st =>
  cond (bitOf len 0) (word s 1) st

/-- `arm_crc_calc(crc, src, len)`, crc_arm.cc:96-190. -/
def armCalc (L : Nat) (s : Src) (crc : U32) (len : Int) : Option U32 :=
  (align (2 ^ L) s len (crc, 0)).bind fun st =>
  (loop (2 ^ L) s st (len - st.2)).bind fun (st, len) =>
  (tail L s len st).map fun st => st.1

/-- `do_crc32_incremental_arm(data, length, init)`, crc_arm.cc:192-194, with a `long` of `w` bits. -/
def incr (L w : Nat) (s : Src) (init : U32) : Option U32 :=
  (armCalc L s (~~~init) (toLong w s.data.length)).map fun r => ~~~r

/-- The loop of `crc32_multiply_arm`, crc_arm.cc:69-73. `b64` is signed; that `b64 += b64` overflows is not defined by the language, and taken to wrap. -/
def mulLoop : Nat → BitVec 64 → BitVec 64 → BitVec 64 → BitVec 64
  | 0, res, _, _ => res
  | k + 1, res, a64, b64 => mulLoop k (res ^^^ (a64 &&& b64.sshiftRight 63)) (a64 >>> 1) (b64 + b64)

/-- `crc32_multiply_arm(a, b)`, crc_arm.cc:64-77. -/
def multiply (a b : U32) : U32 :=
  let res := mulLoop 32 0#64 (a.setWidth 64 <<< 32) (b.setWidth 64 <<< 32)
  crc32 32 0#32 (res.setWidth 32) ^^^ (res >>> 32).setWidth 32

/-- crc_arm.cc:205-208: `while(n)`. -/
def shiftLoop : Nat → U32 → U32 → U32
  | 0, result, _ => result
  | f + 1, result, n => if n = 0#32 then result else shiftLoop f (multiply result (crcPower.getD (ctz n) 0#32)) (clearLow n)

/-- `crc32_shift_arm(crc1, n)`, crc_arm.cc:198-210. -/
def shift (crc1 n : U32) : U32 :=
  let prod := crc1.setWidth 64 <<< (32 - (n &&& 31#32).toNat)
  let result := crc32 32 0#32 (prod.setWidth 32) ^^^ (prod >>> 32).setWidth 32
  shiftLoop 32 result (n &&& ~~~31#32)

/-! ### Polynomial multiplication -/

/-- `pmull_low(a, b)`: the low and the high half of the product. `pmull_high` is the same on the high halves. crc_arm_pmull.cc:74-109. -/
def pmull (a b : BitVec 64) : BitVec 64 × BitVec 64 :=
  (BitVec.ofNat 64 (clmulN a.toNat b.toNat 64), BitVec.ofNat 64 (clmulN a.toNat b.toNat 64 / 2 ^ 64))

/-- `_byteswap_uint64(x)`. -/
def byteswap64 (x : BitVec 64) : BitVec 64 := Vec.ofBits 64 (fun i => x.getLsbD (8 * (7 - i / 8) + i % 8)) 64

/-- `rbit64(x)`, crc_arm_pmull.cc:27-33 (MSVC), or the RBIT instruction (47-53, 69). -/
def rbit64 (msvc : Bool) (x : BitVec 64) : BitVec 64 :=
  if msvc then
    let x := byteswap64 x
    let x := ((x &&& 0xaaaaaaaaaaaaaaaa#64) >>> 1) ||| ((x &&& 0x5555555555555555#64) <<< 1)
    let x := ((x &&& 0xcccccccccccccccc#64) >>> 2) ||| ((x &&& 0x3333333333333333#64) <<< 2)
    ((x &&& 0xf0f0f0f0f0f0f0f0#64) >>> 4) ||| ((x &&& 0x0f0f0f0f0f0f0f0f#64) <<< 4)
  else x.reverse

/-- `rbit32(x)`, crc_arm_pmull.cc:35-38, or the RBIT instruction (40, 55-66, 68). -/
def rbit32 (msvc : Bool) (x : U32) : U32 := if msvc then ((rbit64 msvc (x.setWidth 64)) >>> 32).setWidth 32 else x.reverse

/-- `vrev64q_u8(vrbitq_u8(x))` on a 64-bit lane: reverse the bits of each byte, then the bytes. -/
def revLane (x : BitVec 64) : BitVec 64 :=
  let r := Vec.ofBits 64 (fun i => x.getLsbD (8 * (i / 8) + (7 - i % 8))) 64
  Vec.ofBits 64 (fun i => r.getLsbD (8 * (7 - i / 8) + i % 8)) 64

/-- `crc32_multiply_pmull(a, b)`, crc_arm_pmull.cc:112-125; `aarch64`: whether `__aarch64__` is defined (MSVC does not define it). -/
def multiplyPmull (aarch64 : Bool) (a b : U32) : U32 :=
  let prod := (pmull (a.setWidth 64) (b.setWidth 64)).1
  if aarch64 then crc32 32 0#32 ((prod + prod).setWidth 32) ^^^ (prod >>> 31).setWidth 32
  else
    let prod := prod + prod
    crc32 32 0#32 (prod.extractLsb' 0 32) ^^^ prod.extractLsb' 32 32

/-- `crc32_shift_pmull_mulred(a, b)`, crc_arm_pmull.cc:137-141, with `LOAD_NEXT_POWER` (158). -/
def mulred (a : BitVec 64) (pos : Nat) : BitVec 64 :=
  let r := pmull a ((crcPowerRev.getD pos 0#32).setWidth 64)
  let h := pmull r.2 0x490d678d#64
  r.1 ^^^ h.1

/-- crc_arm_pmull.cc:158-177: the two accumulators before they are merged. -/
def accumulate (res : BitVec 64) (n : U32) : BitVec 64 × BitVec 64 :=
  let res2 := (crcPowerRev.getD (ctz n) 0#32).setWidth 64
  let n := clearLow n
  if n = 0#32 then (res, res2)
  else
    let res2 := (pmull res2 ((crcPowerRev.getD (ctz n) 0#32).setWidth 64)).1
    shiftLoop2 mulred 32 res res2 (clearLow n)

/-- `crc32_shift_pmull(crc1, n)`, crc_arm_pmull.cc:144-204; `msvc`: whether `rbit32` and `rbit64` are the functions of lines 27-38. -/
def shiftPmull (aarch64 msvc : Bool) (crc1 n : U32) : U32 :=
  let crc1 := rbit32 msvc crc1
  let res := crc1.setWidth 64 <<< (n &&& 31#32).toNat
  let n := n &&& ~~~31#32
  if n ≠ 0#32 then
    let a := accumulate res n
    let prod := pmull a.1 a.2
    let lo := revLane prod.1
    let hi := revLane prod.2
    if aarch64 then
      let crc := crc32 64 0#32 hi
      crc32 32 (lo.setWidth 32) crc ^^^ (lo >>> 32).setWidth 32
    else
      let crc := crc32 32 0#32 (hi.extractLsb' 0 32)
      let crc := crc32 32 (hi.extractLsb' 32 32) crc
      crc32 32 (lo.extractLsb' 0 32) crc ^^^ lo.extractLsb' 32 32
  else if aarch64 then
    let crc := rbit64 msvc res
    crc32 32 0#32 (crc.setWidth 32) ^^^ (crc >>> 32).setWidth 32
  else crc32 32 0#32 (rbit32 msvc (res.extractLsb' 32 32)) ^^^ rbit32 msvc (res.extractLsb' 0 32)

end Yenc.Crc.Arm
