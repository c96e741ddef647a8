import Verif.Model.Dispatch
import Verif.Model.Clmul
/-!
The encoders and decoders where `long` has `L` bits and may be narrower than `size_t`, as on 64-bit Windows (`L = 32`).  The input position is a `long`, so lengths go through
`(long)len` in encoder.cc:33, encoder_common.h:39, decoder.cc:18,154 and decoder_common.h:124-125.  The other models take `long` to be wide enough.

Conversions of a `size_t` to a narrower `long` keep the low bits (so do all compilers in question); negating the least `long` overflows and is undefined.
-/
namespace Yenc

/-- An integer converted to a `long` of `L` bits. -/
def wrapLong (L : Nat) (n : Int) : Int := (BitVec.ofInt L n).toInt

namespace Enc

/-- The bytes `es[i]` with `i` from `-(long)len` up to 0: the last `(long)len` ones, none if that is not positive.  `none`: `-(long)len` overflows. -/
def lastLong (L : Nat) (src : List Byte) : Option (List Byte) :=
  if Crc.toLong L src.length = -2 ^ (L - 1) then none else some (src.drop (src.length - (Crc.toLong L src.length).toNat))

/-- `do_encode_generic`, encoder.cc:30-145.  If `i >= 0` from the start, it does what it does with an empty input: reading `es[i]` or `*(p-1)` is outside the buffers. -/
def genericL (L : Nat) : Impl := fun ls col src fin => (lastLong L src).bind fun s => encodeGeneric ls col s fin

/-- `do_encode_simd<kernel>`, encoder_common.h:23-101. -/
def Simd.encodeL (L : Nat) (K : Simd.KernelFn) (m0 : Mem) : Impl := fun ls col src fin =>
  if src = [] then some (⟨[], 0⟩, col)
  else if ls < 12 then genericL L ls col src fin
  else
    match K ls (if col < 0 then 0 else col) src ⟨m0, 0, 0⟩ with
    | none => none
    | some (d, pos, col) =>
      match lastLong L (src.drop pos) with
      | none => none
      | some s =>
        let r := Simd.rest ls s d.toW col
        if fin then doEnd r.1 r.2 else some r

/-- The NEON and RISC-V kernels, whose own input position is a `long` (encoder_neon.cc:270, encoder_rvv.cc:43).  Simplified: what they do with lengths that do not fit is not modelled and taken
for undefined.  (In the x86 kernels it is an `intptr_t`, encoder_sse_base.h:166, encoder_avx_base.h:88.) -/
def Simd.longKernel (L : Nat) (K : Simd.KernelFn) : Simd.KernelFn := fun ls col src d =>
  if Crc.toLong L src.length = src.length then K ls col src d else none

/-- The encoder implementations: one with a sufficient `long`, as in `Enc.IsImpl`, and the same with a `long` of `L` bits. -/
inductive IsImplL (L : Nat) : Impl → Impl → Prop where
  | generic : IsImplL L encodeGeneric (genericL L)
  | sse (c : Simd.X86.Cfg) (h : c.Valid) (m0 : Mem) : IsImplL L (Simd.encode (Simd.run (Simd.X86.sse c)) m0) (Simd.encodeL L (Simd.run (Simd.X86.sse c)) m0)
  | avx2 (c : Simd.X86.Cfg2) (m0 : Mem) : IsImplL L (Simd.encode (Simd.run (Simd.X86.avx2 c)) m0) (Simd.encodeL L (Simd.run (Simd.X86.avx2 c)) m0)
  | neon (a64 : Bool) (m0 : Mem) :
      IsImplL L (Simd.encode (Simd.eRun (Simd.Neon.neon a64)) m0) (Simd.encodeL L (Simd.longKernel L (Simd.eRun (Simd.Neon.neon a64))) m0)
  | rvv (vl : Nat) (h : Simd.Rvv.Vl2 vl) (junk : Nat → Vec) (m0 : Mem) :
      IsImplL L (Simd.encode (Simd.eRun (Simd.Rvv.rvv vl junk)) m0) (Simd.encodeL L (Simd.longKernel L (Simd.eRun (Simd.Rvv.rvv vl junk))) m0)

/-- The x86 ones among them. -/
inductive IsX86L (L : Nat) : Impl → Impl → Prop where
  | sse (c : Simd.X86.Cfg) (h : c.Valid) (m0 : Mem) : IsX86L L (Simd.encode (Simd.run (Simd.X86.sse c)) m0) (Simd.encodeL L (Simd.run (Simd.X86.sse c)) m0)
  | avx2 (c : Simd.X86.Cfg2) (m0 : Mem) : IsX86L L (Simd.encode (Simd.run (Simd.X86.avx2 c)) m0) (Simd.encodeL L (Simd.run (Simd.X86.avx2 c)) m0)

end Enc

namespace Dec.Simd

/-- `do_decode_scalar<isRaw, searchEnd>`, decoder.cc:11-338.  With `k = (long)len > 0` it goes through the last `k` bytes; if `k <= 0` the loops do not run at all, and what comes
before them reads `es[i]`, outside the input, in the states in which it reads anything. -/
def scalarL (L : Nat) (md : Mode) (m : Mem) (src dest len : Nat) (st : Option State) : Option M.Res :=
  let k := Crc.toLong L len
  if k = -2 ^ (L - 1) then none
  else if len = 0 then scalar md m src dest 0 st
  else if 0 < k then scalar md m (src + len - k.toNat) dest k.toNat st
  else
    match md, st with
    | .plain, some .eq => none
    | .plain, _ => some ⟨m, src + len, dest, .none, .none⟩
    | .raw, some .none | .raw, some .crlfdt | .raw, some .crlfdtcr | .raw, some .crlfeq => some ⟨m, src + len, dest, .none, .none⟩
    | .raw, _ => none
    | .endRaw, some .none => some ⟨m, src + len, dest, .none, .none⟩
    | .endRaw, _ => none

/-- decoder_common.h:147-148. -/
def finishL (L : Nat) (md : Mode) (m : Mem) (src dest len : Nat) (st : State) : Option M.Res :=
  if len ≠ 0 then scalarL L md m src dest len (some st) else some ⟨m, src, dest, st, .none⟩

/-- `dLen`, decoder_common.h:124-125; the rounding is done as `size_t`, and the result converted again. -/
def dLenL (L : Nat) (md : Mode) (w len : Nat) : Int :=
  wrapLong L ((Crc.toLong L (len - lenBuffer md w) + ((w : Int) - 1)) / w * w)

/-- decoder_common.h:44-151.  `none` for negative `dLen`: the kernel is given a pointer to before the input, and its loop, which ends when `i` is 0, starts above 0.  With `dLen = 0` the
kernel leaves everything as it is. -/
def alignedL {σ : Type} (L : Nat) (K : Kernel σ) (lax : Bool) (md : Mode) (m : Mem) (src dest len : Nat) (st : State) : Option M.Res :=
  if len > lenBuffer md K.width then
    match straddle md st (fun j => m (src + j)) with
    | .ended n st' e => some ⟨m, src + n, dest, st', e⟩
    | .go nm =>
      let dLen := dLenL L md K.width len
      if dLen < 0 then none
      else if dLen = 0 then finishL L md m src dest len (stateAfter (K.esc (K.init (st = .eq ∨ st = .crlfeq) nm)) nm)
      else
        match kernel K md (readLimit lax (src + len)) (dest + len) m src dLen.toNat dest (st = .eq ∨ st = .crlfeq) nm with
        | none => none
        | some r => finishL L md r.m r.i r.p (src + len - r.i) (stateAfter r.esc r.nextMask)
  else finishL L md m src dest len st

/-- `_do_decode_simd`, decoder_common.h:26-152. -/
def decodeL {σ : Type} (L : Nat) (K : Kernel σ) (lax : Bool) (md : Mode) (m : Mem) (src dest len : Nat) (st : Option State) : Option M.Res :=
  if len ≤ K.width * 2 then scalarL L md m src dest len st
  else if src % K.width ≠ 0 then
    let amount := K.width - src % K.width
    match scalarL L md m src dest amount (some (st.getD .crlf)) with
    | none => none
    | some r =>
      if r.ended ≠ .none then some r
      else alignedL L K lax md r.m r.src r.dest (len - amount) r.state
  else alignedL L K lax md m src dest len (st.getD .crlf)

/-- The three functions of a vectorised implementation, as `impl`. -/
def implL {σ : Type} (L : Nat) (K : Mode → Kernel σ) (lax : Bool) : M.Impl where
  plain m src dest len := (decodeL L (K .plain) false .plain m src dest len none).map fun r => (r.m, r.dest - dest)
  raw m src dest len := (decodeL L (K .raw) false .raw m src dest len none).map fun r => (r.m, r.dest - dest)
  endRaw m src dest len st := decodeL L (K .endRaw) lax .endRaw m src dest len (some st)

/-- The portable implementation, decoder.cc:340-343. -/
def genericL (L : Nat) : M.Impl where
  plain m src dest len := (scalarL L .plain m src dest len none).map fun r => (r.m, r.dest - dest)
  raw m src dest len := (scalarL L .raw m src dest len none).map fun r => (r.m, r.dest - dest)
  endRaw m src dest len st := scalarL L .endRaw m src dest len (some st)

/-- The vectorised decoder implementations, with a sufficient `long` as in `M.IsSimd` and with one of `L` bits. -/
inductive IsSimdL (L : Nat) : M.Impl → M.Impl → Nat → Prop where
  | x86 (c : X86.Cfg) (h : c.Valid) : IsSimdL L (impl (X86.kernel c) false) (implL L (X86.kernel c) false) (2 * c.n)
  | neon (a64 : Bool) : IsSimdL L (impl (Neon.kernel a64) true) (implL L (Neon.kernel a64) true) (Neon.wid a64)
  | rvv (vl : Nat) (h : vl = 32 ∨ vl = 64) (junk : Rvv.Regs → (Nat → Byte) → Rvv.Junk) : IsSimdL L (impl (Rvv.kernel vl junk) false) (implL L (Rvv.kernel vl junk) false) vl

/-- All decoder implementations. -/
inductive IsImplL (L : Nat) : M.Impl → M.Impl → Prop where
  | generic : IsImplL L M.generic (genericL L)
  | simd {I I' : M.Impl} {w : Nat} (h : IsSimdL L I I' w) : IsImplL L I I'

end Dec.Simd
end Yenc
