import Verif.Model.Vec
/-!
The RISC-V vector instructions the encoder and the decoder use, element by element.  A vector register group is a function from element numbers, of which only those below the vector
length mean anything; a mask register is a function from element numbers to `Bool`.  `vsub_vx`, `vadd_vx`, `vor_vv` and so on are the functions of Model/Vec.lean.
-/
namespace Yenc.Rvv
open Yenc

/-- A mask register. -/
abbrev Mask := Nat → Bool

/-- `vmseq_vx_u8m2_b4`. -/
def mseq (a : Vec) (x : Byte) : Mask := fun j => a j == x
/-- `vmor_mm_b4`. -/
def mor (a b : Mask) : Mask := fun j => a j || b j
/-- `vmnot_m_b4`. -/
def mnot (a : Mask) : Mask := fun j => !a j
/-- `vcpop_m`. -/
def cpop (m : Mask) (vl : Nat) : Nat := (List.range vl).countP m
/-- `vmsbf_m_b4`: the elements before the first that is set. -/
def msbf (m : Mask) : Mask := fun j => !(List.range (j + 1)).any m
/-- `vor_vx_u8m2_mu(m, a, a, x)`. -/
def orMasked (m : Mask) (a : Vec) (x : Byte) : Vec := fun j => if m j then a j ||| x else a j
/-- `viota_m_u16m8`: how many elements before this one are set. -/
def iota (m : Mask) : Nat → BitVec 16 := fun k => BitVec.ofNat 16 ((List.range k).countP m)
/-- `vmsgeu_vx_u16m8_b2`. -/
def msgeu (a : Nat → BitVec 16) (x : BitVec 16) : Mask := fun k => x ≤ a k
/-- `vcompress_vm_u8m4`: the elements that are set, in order; the elements after them are not specified (`junk`). -/
def compress (m : Mask) (a junk : Vec) (vl : Nat) : Vec := fun j => ((List.range vl).filterMap fun k => if m k then some (a k) else none).getD j (junk j)
/-- A mask register as a vector of bytes (`RV_VEC_U8MF4_CAST`, common.h:314-319). -/
def maskBytes (m : Mask) : Vec := fun i => Vec.ofBits 8 (fun x => m (8 * i + x)) 8
/-- A vector of bytes as a mask register (`RV_MASK_CAST`, common.h:314-319). -/
def bytesMask (a : Vec) : Mask := fun k => (a (k / 8)).getLsbD (k % 8)
/-- `vreinterpret_v_u16_u8`. -/
def bytesOf16 (a : Nat → BitVec 16) : Vec := fun j => (a (j / 2) >>> (8 * (j % 2))).setWidth 8
/-- `vwmulu_vx_u16mf2`. -/
def wmulu (a : Vec) (x : Byte) : Nat → BitVec 16 := fun j => (a j).setWidth 16 * x.setWidth 16
/-- `vsrl_vv_u8mf2`. -/
def srl (a s : Vec) : Vec := fun j => a j >>> ((s j).toNat % 8)
/-- `vrgather_vv_u8m1`. -/
def rgather (vlmax : Nat) (a idx : Vec) : Vec := fun j => if (idx j).toNat < vlmax then a (idx j).toNat else 0#8
/-- `vmseq_vv_u8m2_b4`. -/
def mseqv (a b : Vec) : Mask := fun j => a j == b j
/-- `vmand_mm_b4`. -/
def mand (a b : Mask) : Mask := fun j => a j && b j
/-- `vmandn_mm_b4`. -/
def mandn (a b : Mask) : Mask := fun j => a j && !b j
/-- `vmnor_mm_b4`. -/
def mnor (a b : Mask) : Mask := fun j => !(a j || b j)
/-- `vmxnor_mm_b4`. -/
def mxnor (a b : Mask) : Mask := fun j => !(a j ^^ b j)
/-- `vmxor_mm_b4`. -/
def mxor (a b : Mask) : Mask := fun j => a j ^^ b j
/-- `vslide1down_vx` on elements of `sz` bytes, `vl` bytes in all: byte `j` of the result; `x` are the low bits of the scalar. -/
def slide1down (sz vl : Nat) (a : Vec) (x : BitVec 32) : Vec := fun j => if j / sz + 1 = vl / sz then (x >>> (8 * (j % sz))).setWidth 8 else a (j + sz)
/-- `vslide1up_vx_u8m1`. -/
def slide1up (a : Vec) (x : Byte) : Vec := fun j => if j = 0 then x else a (j - 1)
/-- `vslidedown_vx_u8mf4`: elements from beyond the register (`vlmax`) are 0. -/
def slidedown (vlmax : Nat) (a : Vec) (k : Nat) : Vec := fun j => if j + k < vlmax then a (j + k) else 0#8
/-- `vsll_vx_u8m1`. -/
def sllx (a : Vec) (k : Nat) : Vec := fun j => a j <<< k
/-- `vsrl_vx_u8m1`. -/
def srlx (a : Vec) (k : Nat) : Vec := fun j => a j >>> k
/-- `vmerge_vxm_u8m2(a, x, m)`. -/
def merge (a : Vec) (x : Byte) (m : Mask) : Vec := fun j => if m j then x else a j
/-- `vmv_s_x_u8m2_tu`. -/
def setFirst (a : Vec) (x : Byte) : Vec := fun j => if j = 0 then x else a j
/-- Element 0 of a mask register taken as a vector of 64-bit elements. -/
def mask64 (m : Mask) : BitVec 64 := Vec.ofBits 64 m 64
/-- What `vse8` with a mask stores at `o`. -/
def storeMasked (m : Mask) (o : Nat) (a : Vec) (vl : Nat) : List (Nat × List Byte) := (List.range vl).filterMap fun j => if m j then some (o + j, [a j]) else none

end Yenc.Rvv
