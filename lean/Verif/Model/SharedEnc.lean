import Verif.Model.Shared
import Verif.Model.Dispatch
/-!
The vectorised encoders, when the bytes of the input Buffer change during the call (see Model/Shared.lean).

A round of the kernels for ARM and RISC-V loads each byte once.  The x86 kernels load some bytes twice in a round: the last byte of a block (encoder_sse_base.h:593,
encoder_avx_base.h:395,402,549,556), the whole block moved by one byte (encoder_avx_base.h:388-389,542-543), and the first byte of a line (encoder_sse_base.h:674).  All lengths and offsets in a round
depend on the masks alone.  The masks come from the registers loaded first; at encoder_sse_base.h:674 the bit for the first byte may also come from the second load, which then is the bit for
another first byte.  So a round with loads that disagree has the lengths and offsets of the round for some bytes, and stores anything (`Like`).
-/
namespace Yenc.Shared.SimdEnc
open Yenc Yenc.Enc Yenc.Enc.Simd

/-- The two rounds differ at most in what is stored, not in where and how much. -/
structure Like (r r' : Round) : Prop where
  stores : r.stores.map (fun s => (s.1, s.2.length)) = r'.stores.map (fun s => (s.1, s.2.length))
  adv : r.adv = r'.adv
  back : r.back = r'.back
  revert : r.revert = r'.revert

/-- A kernel as a program of reads: `(line_size, *colOffset, input length, destination) ↦ (destination, number of input bytes consumed, *colOffset)`. -/
abbrev KernelProg := Int → Int → Nat → D → Prog (D × Nat × Int)

/-! ## The wrapper -/

/-- encoder_common.h:51-88, as `Enc.Simd.tail`; `i` counts from the start.  The first argument of this and the following functions bounds the number of rounds (never reached, C91_encode). -/
def tail (ls : Int) (n : Nat) : Nat → Nat → W → Int → Prog (W × Int)
  | 0, _, _, _ => .ub
  | f + 1, i, w, col =>
    if n ≤ i then .ret (w, col)
    else
      .rd i fun c =>
        if col < ls - 1 then tail ls n f (i + 1) (tailMid w c).1 (col + (tailMid w c).2)
        else if col < ls then
          if n ≤ i + 1 then .ret (lastChar w c, col)
          else .rd (i + 1) fun d => tail ls n f (i + 2) (eolChar (lastChar w c) d).1 (eolChar (lastChar w c) d).2
        else tail ls n f (i + 1) (eolChar w c).1 (eolChar w c).2

/-- encoder_common.h:38-88, as `Enc.Simd.rest`. -/
def rest (ls : Int) (n i : Nat) (w : W) (col : Int) : Prog (W × Int) :=
  if col = 0 then
    if n ≤ i then .ret (w, col) else .rd i fun c => tail ls n (n + 1) (i + 1) (firstChar w c).1 (firstChar w c).2
  else tail ls n (n + 1) i w col

/-- `do_encode_simd<kernel>`, encoder_common.h:23-101, as `Enc.Simd.encode`. -/
def encode (K : KernelProg) (m0 : Mem) (ls col : Int) (n : Nat) (fin : Bool) : Prog (W × Int) :=
  if n = 0 then .ret (⟨[], 0⟩, col)
  else if ls < 12 then Shared.encode ls col n fin
  else
    (K ls (if col < 0 then 0 else col) n ⟨m0, 0, 0⟩).bind fun x =>
    (rest ls n x.2.1 x.1.toW x.2.2).bind fun r =>
    if fin then
      match doEnd r.1 r.2 with
      | none => .ub
      | some r => .ret r
    else .ret r

/-! ## The x86 kernels -/

/-- The main loop, encoder_sse_base.h:204-718, encoder_avx_base.h:144-565, as `Enc.Simd.loop`.  `rnd pos start prev b` is what the round at position `pos` does, if the first loads give `b`
and the byte before is `prev` (which only some rounds read). -/
def loop (K : Kernel) (rnd : Nat → Bool → Byte → (Nat → Byte) → Round) (ls : Int) (n : Nat) : Nat → Bool → D → Nat → Int → Prog (D × Nat × Int)
  | 0, _, _, _, _ => .ub
  | fuel + 1, start, d, pos, col =>
    rds (pos - 1) 1 fun prev =>
    rds pos K.width fun bs =>
    let r := rnd pos start (prev.getD 0 0#8) (fun j => bs.getD j 0#8)
    if r.back = true ∧ pos = 0 then .ub
    else
      let d1 := (d.stores r.stores).adv r.adv
      let col1 := col + r.adv
      let pos1 := pos + K.width
      if 0 ≤ col1 then
        let p2 := (d1.p : Int) + (r.revert col1).1
        let i2 := (pos1 : Int) + (r.revert col1).2
        if p2 < 0 ∨ i2 < 0 then .ub
        else
          .rd i2.toNat fun c =>
            let d2 := D.eolLast ⟨d1.m, p2.toNat, d1.hi⟩ c
            if n ≤ i2.toNat + 2 * K.width then .ret (d2, i2.toNat + 1, -ls + 1)
            else loop K rnd ls n fuel true d2 (i2.toNat + 1) (-ls + 1)
      else if pos1 + 2 * K.width < n then loop K rnd ls n fuel false d1 pos1 col1
      else .ret (d1, pos1, col1)

/-- encoder_avx_base.h:95-109, as `Enc.Simd.priming`. -/
def priming (K : Kernel) (ls : Int) (d : D) (pos : Nat) (col : Int) : Prog (D × Nat × Int) :=
  if K.priming = true ∧ col < 0 ∧ col ≠ -ls + 1 then .rd pos fun c => .ret ((d.prime c).1, pos + 1, col + (d.prime c).2)
  else .ret (d, pos, col)

/-- encoder_sse_base.h:174-192, encoder_avx_base.h:111-131, as `Enc.Simd.full`. -/
def full (ls : Int) (d : D) (pos : Nat) (col : Int) : Prog (D × Nat × Int) :=
  if 0 ≤ col then
    .rd pos fun c =>
      if col = 0 then .ret (d.eolLast c, pos + 1, -ls + 1)
      else .ret ((d.eolFirst c).1, pos + 1, 1 - ls + (d.eolFirst c).2)
  else .ret (d, pos, col)

/-- encoder_sse_base.h:193-203, encoder_avx_base.h:132-143, as `Enc.Simd.lineStart`; also encoder_neon.cc:277-287, encoder_rvv.cc:50-60. -/
def lineStart (ls : Int) (d : D) (pos : Nat) (col : Int) : Prog (D × Nat × Int) :=
  if col = -ls + 1 then .rd pos fun c => .ret ((d.first c).1, pos + 1, col + (d.first c).2)
  else .ret (d, pos, col)

/-- `do_encode_sse`, encoder_sse_base.h:152-723, and `do_encode_avx2`, encoder_avx_base.h:81-572, as `Enc.Simd.run`. -/
def run (K : Kernel) (rnd : Nat → Bool → Byte → (Nat → Byte) → Round) : KernelProg := fun ls col n d =>
  if n ≤ 2 * K.width ∨ ls < 16 then .ret (d, 0, col)
  else
    (priming K ls d 0 (col - ls + 1)).bind fun x =>
    (full ls x.1 x.2.1 x.2.2).bind fun x =>
    (lineStart ls x.1 x.2.1 x.2.2).bind fun x =>
    (loop K rnd ls n (n + 1) false x.1 x.2.1 x.2.2).bind fun x =>
    .ret (x.1, x.2.1, x.2.2 + ls - 1)

/-! ## The kernels for ARM and RISC-V -/

/-- `encode_eol_handle_pre` is called, encoder_neon.cc:58-259, encoder_rvv.cc:8-30, as `Enc.Simd.eolHandle`. -/
def eolHandle (K : EKernel) (ls : Int) (d : D) (pos : Nat) : Prog (D × Nat × Int) :=
  rds pos K.eolWidth fun bs =>
    let e := K.eol fun j => bs.getD j 0#8
    .ret ((d.stores e.stores).adv e.adv, pos + K.eolWidth, e.col ls)

/-- The main loop, encoder_neon.cc:306-516, encoder_rvv.cc:87-193, as `Enc.Simd.eLoop`. -/
def eLoop (K : EKernel) (ls : Int) (n : Nat) : Nat → D → Nat → Int → Prog (D × Nat × Int)
  | 0, _, _, _ => .ub
  | fuel + 1, d, pos, col =>
    if (pos : Int) - n + (2 * K.width - 1) < 0 then
      rds pos K.width fun bs =>
      let r := K.round pos fun j => bs.getD j 0#8
      let d1 := (d.stores r.stores).adv r.adv
      let col1 := col + r.colAdv
      let pos1 := pos + K.width
      if 0 ≤ col1 then
        let p2 := (d1.p : Int) + (r.revert col1).1
        let i2 := (pos1 : Int) + (r.revert col1).2
        if p2 < 0 ∨ i2 < 0 then .ub
        else (eolHandle K ls ⟨d1.m, p2.toNat, d1.hi⟩ i2.toNat).bind fun x => eLoop K ls n fuel x.1 x.2.1 x.2.2
      else eLoop K ls n fuel d1 pos1 col1
    else .ret (d, pos, col)

/-- encoder_neon.cc:288-305, encoder_rvv.cc:61-78, as `Enc.Simd.eFull`. -/
def eFull (K : EKernel) (ls : Int) (d : D) (pos : Nat) (col : Int) : Prog (D × Nat × Int) :=
  if 0 ≤ col then
    if col = 0 then eolHandle K ls d pos
    else .rd pos fun c => .ret ((d.eolFirst c).1, pos + 1, 1 - ls + (d.eolFirst c).2)
  else .ret (d, pos, col)

/-- `do_encode_neon`, encoder_neon.cc:264-521, and `do_encode_rvv`, encoder_rvv.cc:34-198, as `Enc.Simd.eRun`. -/
def eRun (K : EKernel) : KernelProg := fun ls col n d =>
  if (n : Int) ≤ 2 * K.width - 1 ∨ ls < 2 * K.width then .ret (d, 0, col)
  else
    (lineStart ls d 0 (col - ls + 1)).bind fun x =>
    (eFull K ls x.1 x.2.1 x.2.2).bind fun x =>
    (eLoop K ls n (n + 1) x.1 x.2.1 x.2.2).bind fun x =>
    .ret (x.1, x.2.1, x.2.2 + ls - 1)

/-! ## The implementations -/

/-- The vectorised encoders (as `Enc.IsImpl`).  `true`: the loads of each round agree, which is always so for ARM and RISC-V. -/
inductive IsEnc : Bool → KernelProg → Prop where
  | sse (c : X86.Cfg) (h : c.Valid) (rnd : Nat → Bool → Byte → (Nat → Byte) → Round)
      (hr : ∀ pos start prev b, ∃ prev' b', Like (rnd pos start prev b) ((X86.sse c).round start prev' b')) : IsEnc false (run (X86.sse c) rnd)
  | avx2 (c : X86.Cfg2) (rnd : Nat → Bool → Byte → (Nat → Byte) → Round)
      (hr : ∀ pos start prev b, ∃ prev' b', Like (rnd pos start prev b) ((X86.avx2 c).round start prev' b')) : IsEnc false (run (X86.avx2 c) rnd)
  | sseAgree (c : X86.Cfg) (h : c.Valid) : IsEnc true (run (X86.sse c) fun _ => (X86.sse c).round)
  | avx2Agree (c : X86.Cfg2) : IsEnc true (run (X86.avx2 c) fun _ => (X86.avx2 c).round)
  | neon (a64 : Bool) : IsEnc true (eRun (Neon.neon a64))
  | rvv (vl : Nat) (h : Rvv.Vl2 vl) (junk : Nat → Vec) : IsEnc true (eRun (Rvv.rvv vl junk))

/-- The encoder behind the bindings, on a Buffer that changes; `m0` is what memory at the destination contains before. -/
def encImpl (mem : Nat → Nat → Byte) (K : KernelProg) (m0 : Mem) : Enc.Impl := fun ls col src fin =>
  ((encode K m0 ls col src.length fin).run mem src.length 0).map Prod.fst

end Yenc.Shared.SimdEnc
