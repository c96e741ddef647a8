import Verif.Model.DecoderX86
import Verif.Model.DecoderNeon
import Verif.Model.DecoderRvv
import Verif.Model.EncoderX86
import Verif.Model.EncoderNeon
import Verif.Model.EncoderRvv
/-!
Which implementations the library can select at start-up (`encoder_init`, encoder.cc:172-198; `decoder_init`,
decoder.cc:403-429).  Every property of the API is stated for all of them.
-/
namespace Yenc

/-- The encoder implementations. -/
inductive Enc.IsImpl : Enc.Impl → Prop where
  /-- `do_encode_generic`. -/
  | generic : Enc.IsImpl Enc.encodeGeneric
  /-- `do_encode_simd` with `do_encode_sse`: encoder_sse2.cc, encoder_ssse3.cc, encoder_avx.cc, encoder_vbmi2.cc:22, encoder.cc:161-168 (native builds).  `m0` is what the destination
  contains before. -/
  | sse (c : Enc.Simd.X86.Cfg) (h : c.Valid) (m0 : Mem) : Enc.IsImpl (Enc.Simd.encode (Enc.Simd.run (Enc.Simd.X86.sse c)) m0)
  /-- `do_encode_simd` with `do_encode_avx2`: encoder_avx2.cc, encoder_vbmi2.cc:15, encoder.cc:154-160 (native builds). -/
  | avx2 (c : Enc.Simd.X86.Cfg2) (m0 : Mem) : Enc.IsImpl (Enc.Simd.encode (Enc.Simd.run (Enc.Simd.X86.avx2 c)) m0)
  /-- `do_encode_simd` with `do_encode_neon`, encoder_neon.cc:523-526, for AArch64 (`a64 = true`) and ARMv7. -/
  | neon (a64 : Bool) (m0 : Mem) : Enc.IsImpl (Enc.Simd.encode (Enc.Simd.eRun (Enc.Simd.Neon.neon a64)) m0)
  /-- `do_encode_simd` with `do_encode_rvv`, encoder_rvv.cc:201-204.  `junk` is what instructions leave in elements they do not specify. -/
  | rvv (vl : Nat) (h : Enc.Simd.Rvv.Vl2 vl) (junk : Nat → Vec) (m0 : Mem) : Enc.IsImpl (Enc.Simd.encode (Enc.Simd.eRun (Enc.Simd.Rvv.rvv vl junk)) m0)

/-- The vectorised decoder implementations, on memory, with the bytes they handle per round. -/
inductive Dec.M.IsSimd : Dec.M.Impl → Nat → Prop where
  /-- `do_decode_simd` with the kernels of decoder_sse2.cc, decoder_ssse3.cc, decoder_avx.cc, decoder_avx2.cc, decoder_vbmi2.cc (`decoder_set_..._funcs` in each), and
  decoder.cc:349-371 for native builds. -/
  | x86 (c : Dec.Simd.X86.Cfg) (h : c.Valid) : Dec.M.IsSimd (Dec.Simd.impl (Dec.Simd.X86.kernel c) false) (2 * c.n)
  /-- `do_decode_simd` with the kernels of decoder_neon64.cc:437-443 (`a64 = true`) resp. decoder_neon.cc:453-459. -/
  | neon (a64 : Bool) : Dec.M.IsSimd (Dec.Simd.impl (Dec.Simd.Neon.kernel a64) true) (Dec.Simd.Neon.wid a64)
  /-- `do_decode_simd` with the kernels of decoder_rvv.cc:273-278, for vector registers of 128 and 256 bits.  (Longer ones: see `C38_rvv_wide_false`.) -/
  | rvv (vl : Nat) (h : vl = 32 ∨ vl = 64) (junk : Dec.Simd.Rvv.Regs → (Nat → Byte) → Dec.Simd.Rvv.Junk) : Dec.M.IsSimd (Dec.Simd.impl (Dec.Simd.Rvv.kernel vl junk) false) vl

/-- The decoder implementations, on memory. -/
inductive Dec.M.IsImpl : Dec.M.Impl → Prop where
  /-- The scalar functions. -/
  | generic : Dec.M.IsImpl Dec.M.generic
  /-- The vectorised functions. -/
  | simd {I : Dec.M.Impl} {w : Nat} (h : Dec.M.IsSimd I w) : Dec.M.IsImpl I

/-- An implementation run on input placed in memory: `m0` is what memory contains otherwise, `loc` where input and output are
put. -/
def Dec.ofMem (I : Dec.M.Impl) (m0 : Mem) (loc : List Byte → Nat × Nat) : Dec.Impl where
  plain l := (I.plain (m0.wr (loc l).1 l) (loc l).1 (loc l).2 l.length).map fun r => r.1.rdn (loc l).2 r.2
  raw l := (I.raw (m0.wr (loc l).1 l) (loc l).1 (loc l).2 l.length).map fun r => r.1.rdn (loc l).2 r.2
  endRaw st l := (I.endRaw (m0.wr (loc l).1 l) (loc l).1 (loc l).2 l.length st).map fun r =>
    ⟨l.drop (r.src - (loc l).1), r.m.rdn (loc l).2 (r.dest - (loc l).2), r.state, r.ended⟩

/-- The decoder implementations. -/
inductive Dec.IsImpl : Dec.Impl → Prop where
  /-- The scalar functions. -/
  | generic : Dec.IsImpl Dec.generic
  /-- Any implementation on memory, whatever memory contains and wherever the buffers are: they may be the same, or the
  output begin before the input, or not overlap. -/
  | ofMem (I : Dec.M.Impl) (hI : Dec.M.IsImpl I) (m0 : Mem) (loc : List Byte → Nat × Nat)
      (h : ∀ l, (loc l).2 ≤ (loc l).1 ∨ (loc l).1 + l.length ≤ (loc l).2) : Dec.IsImpl (Dec.ofMem I m0 loc)

end Yenc
