import Verif.Model.EncoderEol
import Verif.Model.VecRvv
/-!
Model of the RISC-V vector encoder `do_encode_rvv` (encoder_rvv.cc), instruction by instruction.  `vl` is `vl2` of the code, the number of bytes in two vector registers.
-/
namespace Yenc.Enc.Simd.Rvv
open Yenc Yenc.Rvv

/-- `vl2 = vsetvlmax_e8m2()` (encoder_rvv.cc:35) for vector registers of `2 ^ n` bits; the V extension requires at least 128 bits and at most 65536. -/
def Vl2 (vl : Nat) : Prop := ∃ n, 7 ≤ n ∧ n ≤ 16 ∧ vl = 2 ^ n / 8 * 2

/-- `data + 42`, encoder_rvv.cc:94. -/
def tmpData (b : Nat → Byte) : Vec := Vec.sub (Vec.load b 0) (Vec.set1 (-42#8))

/-- Which characters are special, encoder_rvv.cc:95-107. -/
def cmp (b : Nat → Byte) : Mask :=
  mor (mor (mseq (Vec.load b 0) (-42#8)) (mseq (tmpData b) 61#8)) (mor (mseq (Vec.load b 0) (13#8 - 42#8)) (mseq (Vec.load b 0) (10#8 - 42#8)))

/-- The characters as they are written, encoder_rvv.cc:109-113. -/
def data (b : Nat → Byte) : Vec := orMasked (cmp b) (tmpData b) 64#8

/-- `ALT_SHIFT`, encoder_rvv.cc:81. -/
def altShift : Vec := bytesOf16 fun _ => 4#16
/-- `MASK_EXPAND`, encoder_rvv.cc:82-83. -/
def maskExpand : Vec := fun j => [0xAA#8, 0xAB#8, 0xAE#8, 0xAF#8, 0xBA#8, 0xBB#8, 0xBE#8, 0xBF#8, 0xEA#8, 0xEB#8, 0xEE#8, 0xEF#8, 0xFA#8, 0xFB#8, 0xFE#8, 0xFF#8].getD j 0#8

/-- `cmpmask`, encoder_rvv.cc:118-127: two bits per character. -/
def cmpmask (vl : Nat) (c : Mask) : Mask := bytesMask (rgather (vl / 2) maskExpand (srl (bytesOf16 (wmulu (maskBytes c) 16#8)) altShift))

/-- `dataTmp`, encoder_rvv.cc:131-136. -/
def data2 (d : Vec) : Vec := bytesOf16 fun j => ((d j).setWidth 16 <<< 8) ||| 61#16

/-- `idx_revert`, encoder_rvv.cc:153-155. -/
def idxRevert (vl : Nat) (m : Mask) (count : Nat) (col : Int) : Nat := cpop (msgeu (iota m) (BitVec.ofInt 16 ((vl : Int) + count - col))) (vl * 2)

/-- More than one special character, encoder_rvv.cc:117-160. -/
def slow (vl : Nat) (junk : Vec) (b : Nat → Byte) (count : Nat) : ERound :=
  let m := cmpmask vl (cmp b)
  { stores := [(0, Vec.toList (compress m (data2 (data b)) junk (vl * 2)) (vl * 2))]
    adv := vl + count
    back := false
    revert := fun col =>
      let idx := idxRevert vl m count col
      (-(col + (idx % 2 : Nat)), -((idx + 1) / 2 : Nat))
    colAdv := vl + count }

/-- The end of encoder_rvv.cc:176-187. -/
def fastRevert (vl idx count : Nat) (col : Int) : Int × Int :=
  if count > 0 then
    if col = (vl : Int) - idx then (-1 - col, -col) else (-col, (if col > (vl : Int) - idx then 1 else 0) - col)
  else (-col, -col)

/-- At most one special character, encoder_rvv.cc:162-187. -/
def fast (vl : Nat) (b : Nat → Byte) (count : Nat) : ERound :=
  let mask := msbf (cmp b)
  let idx := cpop mask vl
  { stores := storeMasked mask 0 (data b) vl ++ [(idx, [61#8])] ++ storeMasked (mnot mask) 1 (data b) vl
    adv := vl + count
    back := false
    revert := fastRevert vl idx count
    colAdv := vl + count }

/-- A round, encoder_rvv.cc:88-187. -/
def round (vl : Nat) (junk : Vec) (b : Nat → Byte) : ERound :=
  let count := cpop (cmp b) vl
  if count > 1 then slow vl junk b count else fast vl b count

/-- `encode_eol_handle_pre`, encoder_rvv.cc:8-30. -/
def eol (b : Nat → Byte) : Eol :=
  let q := if escapedLUT (b 0) ≠ 0#16 ∧ b 0 ≠ 46#8 - 42#8 then (bytes16 (escapedLUT (b 0)), 2) else ([b 0 + 42#8], 1)
  if escapedLUT (b 1) ≠ 0#16 then
    let w : BitVec 32 := (13#32 ||| (10#32 <<< 8)) ||| ((escapedLUT (b 1)).setWidth 32 <<< 16)
    { stores := [(0, q.1), (q.2, bytes32 w)], adv := q.2 + 4, col := fun ls => -ls + 1 + 2 }
  else
    let w : BitVec 32 := 13#32 ||| (10#32 <<< 8) ||| (BitVec.ofNat 32 ((b 1).toNat + 42) <<< 16) ||| (0#32 <<< 24)
    { stores := [(0, q.1), (q.2, bytes32 w)], adv := q.2 + 3, col := fun ls => -ls + 1 + 1 }

/-- `do_encode_rvv`.  `junk pos` is what `vcompress` leaves in the elements it does not specify in the round at `pos`. -/
def rvv (vl : Nat) (junk : Nat → Vec) : EKernel := ⟨vl, 2, fun pos => round vl (junk pos), eol⟩

end Yenc.Enc.Simd.Rvv
