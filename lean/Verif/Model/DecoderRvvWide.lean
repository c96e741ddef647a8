import Verif.Model.DecoderRvv
/-!
Model of the loop that adds masks of more than 64 bits in the RISC-V decoder, `/repo/src/decoder_rvv.cc:225-236`; it is only there for vector registers of
512 bits and more.  Model/DecoderRvv.lean takes the result for arbitrary (`Junk.wide`); here it is what the instructions compute, so that one can ask whether
the loop ends.

Instructions with a vector length of `n` compute `n` elements; what the destination holds beyond them is not specified (`Junk.sum`, `Junk.shift`; in
particular it may be all ones, which the specification of the vector extension suggests).
-/
namespace Yenc.Dec.Simd.Rvv.Wide
open Yenc Yenc.Rvv Vec

/-- What the code does not determine: `sum k` is element `k` of `oddGroups64` for `1 ≤ k` (decoder_rvv.cc:229 has a vector length of 1), `shift i` are the elements of the
`i`-th shifted carry mask beyond the `vl64/8` bytes that are shifted (decoder_rvv.cc:35-37 as called in 228 and 233). -/
structure Junk where
  sum : Nat → BitVec 64
  shift : Nat → Mask

/-- `cmpEq64`, `evenStart64`: a mask as 64-bit elements, decoder_rvv.cc:218-219. -/
def word (m : Mask) (k : Nat) : BitVec 64 := mask64 fun j => m (64 * k + j)

/-- `vmadc_vv_u64m1_b64`: carry out of the sums. -/
def madc (a b : Nat → BitVec 64) : Mask := fun k => decide (2 ^ 64 ≤ (a k).toNat + (b k).toNat)

/-- `mask_lshift<1>(m, 0, vl64)` for `vbool64_t`, decoder_rvv.cc:33-43: whole bytes are shifted, as many as `vl64/8` says. -/
def shiftCarry (vl64 : Nat) (m junk : Mask) : Mask := fun k => if k / 8 < vl64 / 8 then maskLshift 1 m 0#8 k else junk k

/-- `oddGroups64` and `carry`. -/
structure St where
  odd : Nat → BitVec 64
  carry : Mask

/-- decoder_rvv.cc:226-229. -/
def start (vl64 : Nat) (J : Junk) (eq even : Mask) : St where
  odd k := if k < 1 then word eq k + word even k else J.sum k
  carry := shiftCarry vl64 (madc (word eq) (word even)) (J.shift 0)

/-- The body of the loop, decoder_rvv.cc:231-233, for the `i`-th time.  (Elements beyond `vl64` are never looked at.) -/
def step (vl64 : Nat) (J : Junk) (i : Nat) (s : St) : St where
  odd k := if s.carry k then s.odd k + 1 else s.odd k
  carry := shiftCarry vl64 (madc s.odd fun _ => 1) (J.shift (i + 1))

/-- After `n` rounds. -/
def after (vl64 : Nat) (J : Junk) (eq even : Mask) : Nat → St
  | 0 => start vl64 J eq even
  | n + 1 => step vl64 J n (after vl64 J eq even n)

/-- The condition of the loop, decoder_rvv.cc:230. -/
def goesOn (vl64 : Nat) (s : St) : Bool := cpop s.carry vl64 ≠ 0

/-- The loop ends with `oddGroups` (decoder_rvv.cc:236). -/
def Ends (vl64 : Nat) (J : Junk) (eq even oddGroups : Mask) : Prop :=
  ∃ n, (∀ i < n, goesOn vl64 (after vl64 J eq even i) = true) ∧ goesOn vl64 (after vl64 J eq even n) = false ∧
    oddGroups = fun k => ((after vl64 J eq even n).odd (k / 64)).getLsbD (k % 64)

/-- `evenStart` as given to the loop in a round on the bytes `b`, decoder_rvv.cc:204,211-214. -/
def evenStart (b : Nat → Byte) (esc : Bool) : Mask := mand (mandn (cmpEq b) (maskLshift 1 (cmpEq b) (BitVec.ofNat 8 esc.toNat))) evenBits

/-- The loop is reached in a round that starts with the registers `s` on the bytes `b` (`plain` mode, no dots to look for): decoder_rvv.cc:103-105, 209, 221. -/
def reached (vl : Nat) (s : Regs) (b : Nat → Byte) : Bool :=
  let c := cmp .plain s.lf b
  cpop c vl ≠ vl ∧ cpop (mandn (maskLshift 1 (cmpEq b) (BitVec.ofNat 8 s.esc.toNat)) c) vl ≠ 0 ∧ ¬ vl ≤ 64

end Yenc.Dec.Simd.Rvv.Wide
