import Verif.Lemmas.WorkCrc
import Verif.Lemmas.WorkEnc
import Verif.Props.SharedSimd
import Verif.Props.SharedEnc
import Verif.Props.SharedCrc
/-! C102: the work of encoding, decoding and checksumming is proportional to the length of the data, whatever the data, and even if it changes during the call.  Work is counted in reads of the
data: the code makes a bounded number of steps between two reads.  `run mem n p 0 = some (r, t)`: the program ends with the result `r`, after `t` reads. -/
namespace Yenc.Props
open Yenc Yenc.Shared

/-- A program that keeps to its Buffer, and whose reads are counted. -/
theorem counted {α : Type} {n : Nat} {Q : List (Nat × Byte) → α → Prop} {p : Prog α} (hp : p.Post n Q []) {R : Nat → Prop} (hc : p.Cost (fun _ t => R t) 0) (mem : Nat → Nat → Byte) :
    ∃ r t, p.run mem n 0 = some (r, t) ∧ R t := by
  obtain ⟨r, t, s, h, _⟩ := hp.sound mem 0 (by intro i b h; simp at h)
  exact ⟨r, t, h, hc.sound h⟩

/-- `encode`, portable: at most three reads for each byte (a round of eight bytes near the end of a line is undone, and its bytes are read again). -/
theorem C102_encode (mem : Nat → Nat → Byte) (ls col n : Nat) (fin : Bool) (hls : 1 ≤ ls) (hls2 : ls + 6 < 2 ^ 31) (hn : n ≠ 0) :
    ∃ r t, (Shared.encode ls col n fin).run mem n 0 = some (r, t) ∧ t ≤ 3 * n :=
  counted (encode_post ls hls hls2 col n fin hn) ((encode_cost ls col n hn fin 0).mono fun _ _ _ h => by omega) mem

/-- Bytes are read more than once: 200 bytes that are all escaped, at line length 12, take 456 reads. -/
example : ((Shared.encode 12 0 200 true).run (fun _ _ => 214#8) 200 0).map Prod.snd = some 456 := by decide +kernel

/-- `decode` without dot stripping, portable: each byte is read once. -/
theorem C102_decode_plain (mem : Nat → Nat → Byte) (n : Nat) : ∃ r, (decodePlain n).run mem n 0 = some (r, n) := by
  obtain ⟨r, t, h1, h2⟩ := counted (decodePlain_post n) ((decodePlain_cost n 0).mono fun _ _ _ h => by rw [Nat.zero_add] at h; exact h) mem (R := fun t => t = n)
  exact ⟨r, h2 ▸ h1⟩

example : ((decodePlain 9).run (fun _ _ => EQ) 9 0).map Prod.snd = some 9 := by decide +kernel

/-- `decode` with dot stripping, portable. -/
theorem C102_decode_dots (mem : Nat → Nat → Byte) (n : Nat) : ∃ r t, (decodeRaw n).run mem n 0 = some (r, t) ∧ t ≤ 3 * n + 4 :=
  counted (decodeRaw_post n) ((decodeRaw_cost n 0).mono fun _ _ _ h => by omega) mem

/-- Carriage returns cost: with nothing else there are 119 reads for 60 bytes. -/
example : ((decodeRaw 60).run (fun _ _ => CR) 60 0).map Prod.snd = some 119 := by decide +kernel

/-- `decodeChunk`'s native call, portable, in every state. -/
theorem C102_decodeChunk (mem : Nat → Nat → Byte) (st : Dec.State) (n : Nat) : ∃ r t, (decodeEnd st n).run mem n 0 = some (r, t) ∧ t ≤ 4 * n + 5 :=
  counted (decodeEnd_post st n) ((decodeEnd_cost st n 0).mono fun _ _ _ h => by omega) mem

example : ((decodeEnd .none 60).run (fun _ i => if i % 2 = 0 then CR else LF) 60 0).map Prod.snd = some 147 := by decide +kernel

/-- The number of reads for each byte outside the rounds of the kernels: plain, with dot stripping, with the search for the end. -/
def readsPerByte : Dec.Simd.Mode → Nat
  | .plain => 1
  | .raw => 3
  | .endRaw => 4

/-- The vectorised decoders: the code outside of the kernels makes at most 1, 3, 4 reads for each byte and 24 more, -/
theorem C102_vector_decode {w : Nat} {lax : Bool} {T : Dec.Simd.Mode → Dec.Simd.Iter Bool → Prop} (hT : Simd.IsTorn w lax T) (mem : Nat → Nat → Byte) (addr n : Nat)
    (md : Dec.Simd.Mode) (st : Option Dec.State) (rs : Nat → Dec.Simd.Iter Bool) (hrs : ∀ t, T md (rs t)) :
    ∃ r t, (Simd.decode w (lax && md.searchEnd) rs md addr n st).run mem n 0 = some (r, t) ∧ t ≤ readsPerByte md * n + 24 := by
  obtain ⟨h1, h2, h3⟩ := hT.within
  have hw : 0 < w := by
    cases hT with
    | x86 c _ => have : 16 ≤ c.n := by { unfold Dec.Simd.X86.Cfg.n; split <;> omega }
                 omega
    | neon a64 => cases a64 <;> decide
    | rvv vl h => omega
  have hp : readsPerByte md = Simd.perByte md := by cases md <;> rfl
  refine counted (Simd.decode_post h1 ?_ (fun t => ?_) addr n st) ((Simd.decode_cost w hw _ rs md addr n st 0).mono fun _ _ _ h => by rw [hp]; omega) mem
  · intro h; exact h2 (by cases lax <;> simp_all)
  · have := h3 md _ (hrs t)
    cases lax <;> cases md <;> simp_all [Simd.ahead, Dec.Simd.Mode.searchEnd]

example := C102_vector_decode (.neon true) (fun t _ => BitVec.ofNat 8 t) 4097 1000 .endRaw (some .crlf) (fun _ => ⟨64, .brk 2⟩) (fun _ => .brk 64 2 rfl (by decide) (by decide))

/-- and the kernel makes at most one round for each full width of the data: what the rounds from then on would do has no effect.  A round is a fixed number of loads. -/
theorem C102_vector_decode_rounds {w : Nat} {lax : Bool} {T : Dec.Simd.Mode → Dec.Simd.Iter Bool → Prop} (hT : Simd.IsTorn w lax T) (addr n : Nat)
    (md : Dec.Simd.Mode) (st : Option Dec.State) (rs rs' : Nat → Dec.Simd.Iter Bool) (h : ∀ j, j < n / w → rs j = rs' j) :
    Simd.decode w lax rs md addr n st = Simd.decode w lax rs' md addr n st := by
  have hw : 0 < w := by
    cases hT with
    | x86 c _ => have : 16 ≤ c.n := by { unfold Dec.Simd.X86.Cfg.n; split <;> omega }
                 omega
    | neon a64 => cases a64 <;> decide
    | rvv vl h => omega
  refine Simd.decode_rounds w hw lax rs rs' md addr n st fun j hj => h j ?_
  rw [Nat.lt_iff_add_one_le, Nat.le_div_iff_mul_le hw]
  exact hj

/-- The vectorised encoders: for each of them there is a constant that bounds the reads for each byte, those of the kernel included, whatever the data, its length and the lengths of the lines. -/
theorem C102_vector_encode {agree : Bool} {K : SimdEnc.KernelProg} (hK : SimdEnc.IsEnc agree K) :
    ∃ c, ∀ (mem : Nat → Nat → Byte) (m0 : Mem) (ls col n : Nat) (fin : Bool), 1 ≤ ls → ls + 6 < 2 ^ 31 → col < ls → n ≠ 0 →
      ∃ r t, (SimdEnc.encode K m0 ls col n fin).run mem n 0 = some (r, t) ∧ t ≤ c * n := by
  obtain ⟨c, hc⟩ := SimdEnc.isEnc_linear hK
  refine ⟨2 * (c + 3), fun mem m0 ls col n fin hls hls2 hcol hn => ?_⟩
  refine counted (SimdEnc.encode_post hK m0 hls hls2 hcol hn fin) ((SimdEnc.encode_cost hc m0 ls col n fin 0).mono fun _ _ _ h => ?_) mem
  have : (c + 3) * (n + 1) ≤ 2 * (c + 3) * n := by
    rw [Nat.mul_comm 2, Nat.mul_assoc]
    exact Nat.mul_le_mul_left _ (by omega)
  omega

example := C102_vector_encode (.neon true)

/-- For the x86 kernels with 32 bytes to a round the constant is 80, with 64 bytes it is 144. -/
theorem C102_vector_encode_x86 (mem : Nat → Nat → Byte) (m0 : Mem) (ls col n : Nat) (fin : Bool) (hls : 1 ≤ ls) (hls2 : ls + 6 < 2 ^ 31) (hcol : col < ls) (hn : n ≠ 0) :
    (∀ c : Enc.Simd.X86.Cfg, c.Valid → ∃ r t, (SimdEnc.encode (SimdEnc.run (Enc.Simd.X86.sse c) fun _ => (Enc.Simd.X86.sse c).round) m0 ls col n fin).run mem n 0 = some (r, t) ∧ t ≤ 80 * n) ∧
    (∀ c : Enc.Simd.X86.Cfg2, ∃ r t, (SimdEnc.encode (SimdEnc.run (Enc.Simd.X86.avx2 c) fun _ => (Enc.Simd.X86.avx2 c).round) m0 ls col n fin).run mem n 0 = some (r, t) ∧ t ≤ 144 * n) := by
  constructor
  · intro c hv
    exact counted (SimdEnc.encode_post (.sseAgree c hv) m0 hls hls2 hcol hn fin) ((SimdEnc.encode_cost (SimdEnc.run_linear _ _) m0 ls col n fin 0).mono fun _ _ _ h => by
      rw [show (Enc.Simd.X86.sse c).width = 32 from rfl] at h; omega) mem
  · intro c
    exact counted (SimdEnc.encode_post (.avx2Agree c) m0 hls hls2 hcol hn fin) ((SimdEnc.encode_cost (SimdEnc.run_linear _ _) m0 ls col n fin 0).mono fun _ _ _ h => by
      rw [show (Enc.Simd.X86.avx2 c).width = 64 from rfl] at h; omega) mem

example := C102_vector_encode_x86 (fun t _ => BitVec.ofNat 8 t) (fun _ => 0#8) 128 5 1000 true (by decide) (by decide) (by decide) (by decide)

/-- `crc32`, in every implementation: one read for each byte and at most 70 more. -/
theorem C102_crc32 {p : SCrc.Buf → BitVec 32 → Prog (BitVec 32)} (hp : SCrc.IsIncr p) (mem : Nat → Nat → Byte) (B : SCrc.Buf) (init : BitVec 32) :
    ∃ r t, (p B init).run mem B.len 0 = some (r, t) ∧ t ≤ B.len + 70 := by
  obtain ⟨r, t, s, h, _⟩ := (incr_good hp B init).sound mem 0 (by intro i b h; simp at h)
  exact ⟨r, t, h, by have := (SCrc.incr_cost hp B init 0).sound h; omega⟩

example := C102_crc32 (.clmul false) (fun t _ => BitVec.ofNat 8 t) ⟨4097, 1000, fun _ => 0#8⟩ 0

/-- Exactly one for each byte in the portable code and in crcutil. -/
theorem C102_crc32_exact (mem : Nat → Nat → Byte) (B : SCrc.Buf) (init : BitVec 32) :
    (∃ r, (SCrc.generic B init).run mem B.len 0 = some (r, B.len)) ∧ ∀ target, ∃ r, (SCrc.Util.incr target B init).run mem B.len 0 = some (r, B.len) := by
  constructor
  · obtain ⟨r, t, s, h, _⟩ := (incr_good .generic B init).sound mem 0 (by intro i b h; simp at h)
    have := (SCrc.generic_cost B init 0).sound h
    rw [Nat.zero_add] at this
    exact ⟨r, this ▸ h⟩
  · intro target
    obtain ⟨r, t, s, h, _⟩ := (incr_good (.crcutil target) B init).sound mem 0 (by intro i b h; simp at h)
    have := (SCrc.Util.incr_cost target B init 0).sound h
    rw [Nat.zero_add] at this
    exact ⟨r, this ▸ h⟩

end Yenc.Props
