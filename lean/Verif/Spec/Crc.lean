import Mathlib.RingTheory.AdjoinRoot
import Mathlib.Data.ZMod.Basic
import Verif.Basic
/-!
Independent specification of CRC-32 (IEEE 802.3), by polynomials over the field with two elements.
-/
namespace Yenc.Spec
open Polynomial

/-- The IEEE generator polynomial. -/
noncomputable def crcP : (ZMod 2)[X] :=
  X^32 + X^26 + X^23 + X^22 + X^16 + X^12 + X^11 + X^10 + X^8 + X^7 + X^5 + X^4 + X^2 + X + 1

/-- Bits of a message in the order of transmission: least significant bit of each byte first. -/
def bitsOf (data : List Byte) : List Bool := data.flatMap fun b => (List.range 8).map b.getLsbD

/-- The polynomial whose coefficients, highest first, are the given bits. -/
noncomputable def polyOfBits (l : List Bool) : (ZMod 2)[X] :=
  l.foldl (fun acc b => acc * X + if b then 1 else 0) 0

/-- The polynomial of a message. -/
noncomputable def msgPoly (data : List Byte) : (ZMod 2)[X] := polyOfBits (bitsOf data)

/-- The polynomial of degree below 32 represented by a 32-bit value: the most significant bit is the coefficient of `X^0`. -/
noncomputable def toPoly (v : BitVec 32) : (ZMod 2)[X] :=
  ∑ i ∈ Finset.range 32, if v.getMsbD i then X ^ i else 0

/-- `r` is the CRC-32 of `data` continued from the CRC `init` (0 for a fresh start): all register values are complemented,
the message is multiplied by `X^32`, and the result is the remainder modulo the generator. -/
def IsCrc32 (init : BitVec 32) (data : List Byte) (r : BitVec 32) : Prop :=
  toPoly (~~~r) = (toPoly (~~~init) * X ^ (8 * data.length) + msgPoly data * X ^ 32) %ₘ crcP

end Yenc.Spec

namespace Yenc.Spec

/-- The number a sequence of bytes denotes, most significant byte first. -/
def beValue (l : List Byte) : Nat := l.foldl (fun acc b => 256 * acc + b.toNat) 0

/-- `b` is the 4-byte Buffer for the value `v`. -/
def CrcBuf (b : List Byte) (v : BitVec 32) : Prop := b.length = 4 ∧ beValue b = v.toNat

/-- Bytewise exclusive or. -/
def xorBuf (a b : List Byte) : List Byte := List.zipWith (· ^^^ ·) a b

end Yenc.Spec
