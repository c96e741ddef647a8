import Verif.Basic
/-!
Model of the mask helpers of `/repo/src/decoder_common.h:174-220`.
-/
namespace Yenc.Dec

/-- The constant `(T)0x5555555555555555`, decoder_common.h:212, for a type `T` of `w` bits. -/
def evenBits (w : Nat) : BitVec w := BitVec.ofNat w 0x5555555555555555

/-- `fix_eqMask<T>(mask, maskShift1)`, decoder_common.h:203-220. -/
def fixEqMask {w : Nat} (mask maskShift1 : BitVec w) : BitVec w :=
  let start := mask &&& ~~~maskShift1
  let oddGroups := mask + (start &&& evenBits w)
  (oddGroups ^^^ evenBits w) &&& mask

/-- `decoder_set_nextMask<isRaw>(src, len, nextMask)`, decoder_common.h:174-187, for `len != 0`: `b k` is `src[k - 2]`. -/
def setNextMask (isRaw : Bool) (b : Nat → Byte) : Nat :=
  if isRaw then
    if b 0 = CR ∧ b 1 = LF ∧ b 2 = DOT then 1
    else if b 1 = CR ∧ b 2 = LF ∧ b 3 = DOT then 2
    else 0
  else 0

/-- `decoder_set_nextMask<isRaw>(src, mask)`, decoder_common.h:190-199: `b k` is `src[k]`, `b0`, `b1` the two lowest bits of `mask`. -/
def setNextMaskAt (isRaw : Bool) (b : Nat → Byte) (b0 b1 : Bool) : Nat :=
  if isRaw then
    if b 0 = DOT then (if b0 then 1 else 0)
    else if b 1 = DOT then (if b1 then 2 else 0)
    else 0
  else 0

end Yenc.Dec
