import Verif.Model.Shared
import Verif.Model.CrcBindings
/-!
The CRC functions, when the bytes of the Buffer change during the call (see Model/Shared.lean).

Every load of the source text is one load here, in the order of the source text, made of a read of each of its bytes.  The x86 code loads the bytes before the first multiple of 16 (or 32) together
with some of the bytes that follow, which it loads again later; and its last aligned load may include bytes after the Buffer, which are `around` (anything) here.
-/
namespace Yenc.Shared.SCrc
open Yenc Yenc.Crc

/-- The Buffer: where it is, how long it is, and what follows it in memory. -/
structure Buf where
  addr : Nat
  len : Nat
  around : Nat → Byte

/-- A value looked up in a table; outside the table is undefined. -/
def lift {α : Type} : Option α → Prog α
  | some a => .ret a
  | none => .ub

/-- An aligned load of `n` bytes, as `Crc.Src.load`: the bytes of the Buffer are read, those after it are `around`. -/
def load (B : Buf) (n off : Nat) : Prog Vec :=
  if (B.addr + off) % n = 0 ∧ off < B.len then rds off (min n (B.len - off)) fun bs => .ret fun j => bs.getD j (B.around (off + j)) else .ub

/-- A load without alignment requirement, as `Crc.Src.loadu`. -/
def loadu (B : Buf) (n off : Nat) : Prog Vec :=
  if off + n ≤ B.len then rds off n fun bs => .ret fun j => bs.getD j 0#8 else .ub

/-! ## The portable code -/

/-- crc.cc:58-72, as `Crc.chains`; also returns the place. -/
def chains : Nat → Acc → Nat → Prog (Acc × Nat)
  | 0, a, i => .ret (a, i)
  | k + 1, a, i =>
    rds i 16 fun
      | [p0, p1, p2, p3, p4, p5, p6, p7, p8, p9, pa, pb, pc, pd, pe, pf] =>
        chains k ⟨proc4 a.c0 (word p0 p1 p2 p3), proc4 a.c1 (word p4 p5 p6 p7), proc4 a.c2 (word p8 p9 pa pb), proc4 a.c3 (word pc pd pe pf)⟩ (i + 16)
      | _ => .ub

/-- crc.cc:73-92, as `Crc.aggregate`. -/
def aggregate (n : Nat) (a : Acc) (i : Nat) : Prog (U32 × Nat) :=
  if (n - i) &&& 16 ≠ 0 then
    rds i 16 fun
      | [p0, p1, p2, p3, p4, p5, p6, p7, p8, p9, pa, pb, pc, pd, pe, pf] =>
        let c0 := proc4 a.c0 (word p0 p1 p2 p3)
        let c1 := step4 a.c1 p4 p5 p6 p7
        let c2 := a.c2 ^^^ c1
        let c2 := step4 c2 p8 p9 pa pb
        let c3 := a.c3 ^^^ c2
        let c3 := step4 c3 pc pd pe pf
        .ret (c0 ^^^ c3, i + 16)
      | _ => .ub
  else
    rds i 12 fun
      | [p0, p1, p2, p3, p4, p5, p6, p7, p8, p9, pa, pb] =>
        let c0 := step4 a.c0 p0 p1 p2 p3 ^^^ a.c1
        let c0 := step4 c0 p4 p5 p6 p7 ^^^ a.c2
        let c0 := step4 c0 p8 p9 pa pb ^^^ a.c3
        .ret (c0, i + 12)
      | _ => .ub

/-- crc.cc:95-97, as `Crc.tail`: `k` more bytes. -/
def tail : Nat → U32 → Nat → Prog U32
  | 0, crc, _ => .ret crc
  | k + 1, crc, i => .rd i fun b => tail k (step crc b) (i + 1)

/-- crc.cc:40-43, as `Crc.align1`: the address, the CRC and the place. -/
def align1 (B : Buf) (crc : U32) : Prog (Nat × U32 × Nat) :=
  if 1 ≤ B.len ∧ B.addr &&& 1 ≠ 0 then .rd 0 fun b => .ret (B.addr + 1, step crc b, 1) else .ret (B.addr, crc, 0)

/-- crc.cc:44-48, as `Crc.align2`. -/
def align2 (B : Buf) (addr : Nat) (crc : U32) (i : Nat) : Prog (U32 × Nat) :=
  if i + 2 ≤ B.len ∧ addr &&& 2 ≠ 0 then .rd i fun b => .rd (i + 1) fun c => .ret (step (step crc b) c, i + 2) else .ret (crc, i)

/-- `do_crc32_incremental_generic(data, length, init)`, crc.cc:33-100, as `Crc.generic`. -/
def generic (B : Buf) (init : U32) : Prog U32 :=
  (align1 B (~~~init)).bind fun r =>
  (align2 B r.1 r.2.1 r.2.2).bind fun r =>
  if B.len - r.2 ≥ 8 * 4 - 4 then
    (chains ((B.len - r.2 - (4 - 1) * 4) / 4 / 4) ⟨r.1, 0, 0, 0⟩ r.2).bind fun r =>
    (aggregate B.len r.1 r.2).bind fun r =>
    (tail (B.len - r.2) r.1 r.2).bind fun c => .ret (~~~c)
  else (tail (B.len - r.2) r.1 r.2).bind fun c => .ret (~~~c)

/-! ## crcutil -/

namespace Util
open Yenc.Crc.Util

/-- A word of data, as `Crc.Util.load`. -/
def load (B : Buf) (off : Nat) : Prog U64 := (loadu B 8 off).bind fun v => .ret (BitVec.ofNat 64 (v.le 0 8))

/-- generic_crc.h:65-73, as `Crc.Util.align`.  The first argument of this and the following functions bounds the number of rounds (never reached, C92_crc32). -/
def align (t : Tables) (B : Buf) : Nat → U64 → Nat → Prog (U64 × Nat)
  | 0, _, _ => .ub
  | f + 1, crc, src =>
    if (B.addr + src) % 8 ≠ 0 then
      if src < B.len then .rd src fun b => (lift (crcByte t crc b)).bind fun crc => align t B f crc (src + 1)
      else .ret (crc, src)
    else .ret (crc, src)

/-- generic_crc.h:80-85, as `Crc.Util.alignIfNeeded`. -/
def alignIfNeeded (t : Tables) (B : Buf) (crc : U64) : Prog (U64 × Nat) :=
  if B.len > 1024 then align t B (B.len + 1) crc 0 else .ret (crc, 0)

/-- The loop over words, as `Crc.Util.words` (see there for the lines). -/
def words (f : List (List U64) → U64 → Option U64) (t : Tables) (B : Buf) (stop : Int) : Nat → U64 → Nat → Prog (U64 × Nat)
  | 0, _, _ => .ub
  | fuel + 1, crc, src =>
    if (src : Int) < stop then
      (load B src).bind fun buf => (lift (f t.word (buf ^^^ crc))).bind fun crc => words f t B stop fuel crc (src + 8)
    else .ret (crc, src)

/-- The loop over the last bytes, as `Crc.Util.bytes` (see there for the lines). -/
def bytes (t : Tables) (B : Buf) : Nat → U64 → Nat → Prog U64
  | 0, _, _ => .ub
  | f + 1, crc, src =>
    if src < B.len then .rd src fun b => (lift (crcByte t crc b)).bind fun crc => bytes t B f crc (src + 1) else .ret crc

/-- One round of the interleaved loop, generic_crc.h:506-548, as `Crc.Util.round`. -/
def round (st : Style) (t : Tables) (B : Buf) (src : Nat) (r : Regs) : Prog Regs :=
  (lift (st.inter t.inter (r.b0 ^^^ r.c0))).bind fun c0 =>
  (lift (st.inter t.inter (r.b1 ^^^ r.c1))).bind fun c1 =>
  (lift (st.inter t.inter (r.b2 ^^^ r.c2))).bind fun c2 =>
  (lift (st.inter t.inter (r.b3 ^^^ r.c3))).bind fun c3 =>
  (load B src).bind fun b0 =>
  (load B (src + 8)).bind fun b1 =>
  (load B (src + 16)).bind fun b2 =>
  (load B (src + 24)).bind fun b3 =>
  .ret ⟨c0, c1, c2, c3, b0, b1, b2, b3⟩

/-- The interleaved loop, as `Crc.Util.mainLoop` (see there for the lines). -/
def mainLoop (st : Style) (t : Tables) (B : Buf) (stop : Int) : Nat → Nat → Regs → Prog (Regs × Nat)
  | 0, _, _ => .ub
  | f + 1, src, r =>
    (round st t B (src + 32) r).bind fun r =>
      if ((src + 32 : Nat) : Int) < stop then mainLoop st t B stop f (src + 32) r else .ret (r, src + 32)

/-- The interleaved part, as `Crc.Util.interleaved` (see there for the lines). -/
def interleaved (st : Style) (t : Tables) (B : Buf) (stop : Int) (crc : U64) (src : Nat) : Prog (U64 × Nat) :=
  if (src : Int) < stop then
    (load B src).bind fun b0 =>
    (load B (src + 8)).bind fun b1 =>
    (load B (src + 16)).bind fun b2 =>
    (load B (src + 24)).bind fun b3 =>
    (mainLoop st t B stop (B.len + 1) src ⟨crc, 0#64, 0#64, 0#64, b0, b1, b2, b3⟩).bind fun x =>
    (lift (st.word t.word (x.1.b0 ^^^ x.1.c0))).bind fun c =>
    (lift (merge st t c x.1.c1 x.1.b1)).bind fun c =>
    (lift (merge st t c x.1.c2 x.1.b2)).bind fun c =>
    (lift (merge st t c x.1.c3 x.1.b3)).bind fun c =>
    .ret (c, x.2 + 32)
  else .ret (crc, src)

/-- As `Crc.Util.long` (see there for the lines). -/
def long (st : Style) (t : Tables) (B : Buf) (start : U64) : Prog U64 :=
  (alignIfNeeded t B (start ^^^ t.base.canonize)).bind fun x =>
  if x.2 ≥ B.len then .ret (x.1 ^^^ t.base.canonize)
  else
    (interleaved st t B ((B.len : Int) - (2 * 32 - 1)) x.1 x.2).bind fun x =>
    (words st.word t B ((B.len : Int) - 7) (B.len + 1) x.1 x.2).bind fun x =>
    (bytes t B (B.len + 1) x.1 x.2).bind fun crc =>
    .ret (crc ^^^ t.base.canonize)

/-- intrinsic_i386_mmx.cc:79-235, as `Crc.Util.longIntrinsic`. -/
def longIntrinsic (st : Style) (t : Tables) (B : Buf) (start : U64) : Prog U64 :=
  (alignIfNeeded t B (start ^^^ t.base.canonize)).bind fun x =>
  if x.2 ≥ B.len then .ret (x.1 ^^^ t.base.canonize)
  else
    let n := B.len - x.2
    let n := n - n % 32
    (if n > 4 * 8 then interleaved st t B ((x.2 + n : Nat) - 4 * 8 : Int) x.1 x.2 else .ret (x.1, x.2)).bind fun x =>
    let n := B.len - x.2
    let n := n - n % 8
    (if n > 0 then words st.word t B (x.2 + n : Nat) (B.len + 1) x.1 x.2 else .ret (x.1, x.2)).bind fun x =>
    (bytes t B (B.len + 1) x.1 x.2).bind fun crc =>
    .ret (crc ^^^ t.base.canonize)

/-- gcc_i386_mmx.cc:36-41, intrinsic_i386_mmx.cc:33-38, generic_crc.h:668-673, as `Crc.Util.short`. -/
def short (t : Tables) (B : Buf) (start : U64) : Prog U64 :=
  (bytes t B (B.len + 1) (start ^^^ t.base.canonize) 0).bind fun crc => .ret (crc ^^^ t.base.canonize)

/-- gcc_amd64_asm.cc:60-79, as `Crc.Util.nested`. -/
def nested (t : Tables) (B : Buf) : Nat → Nat → U64 → Nat → Prog (U64 × Nat)
  | 0, _, crc, src => .ret (crc, src)
  | k + 1, n, crc, src =>
    if B.len ≥ n * 8 then
      (load B src).bind fun buf => (lift (lookC t.word (buf ^^^ crc))).bind fun crc => nested t B k (n + 1) crc (src + 8)
    else .ret (crc, src)

/-- gcc_amd64_asm.cc:57-83, as `Crc.Util.shortAmd64`. -/
def shortAmd64 (t : Tables) (B : Buf) (start : U64) : Prog U64 :=
  (nested t B 5 1 (start ^^^ t.base.canonize) 0).bind fun x =>
  (bytes t B (B.len + 1) x.1 x.2).bind fun crc =>
  .ret (crc ^^^ t.base.canonize)

/-- generic_crc.h:457-586; gcc_amd64_asm.cc:52-86; gcc_i386_mmx.cc:33-44; intrinsic_i386_mmx.cc:28-41; generic_crc.h:660-676, as `Crc.Util.multiword`. -/
def multiword (target : Target) (t : Tables) (B : Buf) (start : U64) : Prog U64 :=
  match target with
  | .template => long ⟨lookC, lookC, false⟩ t B start
  | .gccAmd64 => if B.len ≤ 6 * 8 - 1 then shortAmd64 t B start else long ⟨lookAmd64, lookAmd64, true⟩ t B start
  | .gccI386 => if B.len ≤ 7 then short t B start else long ⟨lookMmx, lookMmx, true⟩ t B start
  | .clangI386 => if B.len ≤ 7 then short t B start else longIntrinsic ⟨lookMmx, lookMmx, true⟩ t B start
  | .clI386 => if B.len ≤ 12 then short t B start else long ⟨lookCl, lookMmx, true⟩ t B start

/-- src/crc.cc:11-16, as `Crc.Util.incr`. -/
def incr (target : Target) (B : Buf) (init : U32) : Prog U32 :=
  (lift tables).bind fun t => (multiword target t B (init.setWidth 64)).bind fun r => .ret (r.setWidth 32)

end Util

/-! ## x86 with carry-less multiplication -/

namespace X86
open Yenc.Crc.X86

/-- crc_folding.cc:172-197, as `Crc.X86.loop64`. -/
def loop64 (avx : Bool) (B : Buf) : Nat → Nat → Nat → Regs → Prog (Regs × Nat × Nat)
  | 0, _, _, _ => .ub
  | f + 1, off, len, r =>
    if len ≥ 64 then
      (load B 16 off).bind fun t0 =>
      (load B 16 (off + 16)).bind fun t1 =>
      (load B 16 (off + 32)).bind fun t2 =>
      (load B 16 (off + 48)).bind fun t3 =>
      loop64 avx B f (off + 64) (len - 64) ⟨foldMerge avx r.c0 t0, foldMerge avx r.c1 t1, foldMerge avx r.c2 t2, foldMerge avx r.c3 t3⟩
    else .ret (r, off, len)

/-- crc_folding.cc:199-272, as `Crc.X86.blocks16`. -/
def blocks16 (avx : Bool) (B : Buf) (off len : Nat) (r : Regs) : Prog (Regs × Nat × Nat) :=
  if len ≥ 48 then
    (load B 16 off).bind fun t0 =>
    (load B 16 (off + 16)).bind fun t1 =>
    (load B 16 (off + 32)).bind fun t2 =>
    .ret (⟨r.c3, foldMerge avx r.c0 t0, foldMerge avx r.c1 t1, foldMerge avx r.c2 t2⟩, off + 48, len - 48)
  else if len ≥ 32 then
    (load B 16 off).bind fun t0 =>
    (load B 16 (off + 16)).bind fun t1 =>
    .ret (⟨r.c2, r.c3, foldMerge avx r.c0 t0, foldMerge avx r.c1 t1⟩, off + 32, len - 32)
  else if len ≥ 16 then
    (load B 16 off).bind fun t0 => .ret (⟨r.c1, r.c2, r.c3, foldMerge avx r.c0 t0⟩, off + 16, len - 16)
  else .ret (r, off, len)

/-- crc_folding.cc:161-170, as `Crc.X86.first`: 16 bytes are loaded, of which the first `diff` are used. -/
def first (avx : Bool) (B : Buf) (diff : Nat) (r : Regs) : Prog Regs :=
  if diff = 0 then .ret r else (loadu B 16 0).bind fun part => .ret (partialFold avx diff r part)

/-- `crc_fold(src, len, initial)`, crc_folding.cc:139-351, as `Crc.X86.crcFold`. -/
def crcFold (avx : Bool) (B : Buf) (init : U32) : Prog U32 :=
  if B.len < 16 then
    if B.len = 0 then .ret init
    else rds 0 B.len fun bs => .ret (done avx (partialFold avx B.len (start init) fun j => bs.getD j 0#8))
  else
    let diff := (16 - B.addr % 16) % 16
    (first avx B diff (start init)).bind fun r =>
    (loop64 avx B (B.len + 1) diff (B.len - diff) r).bind fun x =>
    (blocks16 avx B x.2.1 x.2.2 x.1).bind fun x =>
    if x.2.2 = 0 then .ret (done avx x.1)
    else (load B 16 x.2.1).bind fun part => .ret (done avx (partialFold avx x.2.2 x.1 part))

/-- crc_folding_256.cc:125-130, as `Crc.X86.loop64_256`. -/
def loop64_256 (avx : Bool) (B : Buf) : Nat → Nat → Nat → Regs2 → Prog (Regs2 × Nat × Nat)
  | 0, _, _, _ => .ub
  | f + 1, off, len, r =>
    if len ≥ 64 then
      (load B 32 off).bind fun t0 =>
      (load B 32 (off + 32)).bind fun t1 =>
      loop64_256 avx B f (off + 64) (len - 64) ⟨foldMerge256 avx r.c0 t0, foldMerge256 avx r.c1 t1⟩
    else .ret (r, off, len)

/-- crc_folding_256.cc:132-139, as `Crc.X86.block32`. -/
def block32 (avx : Bool) (B : Buf) (off len : Nat) (r : Regs2) : Prog (Regs2 × Nat × Nat) :=
  if len ≥ 32 then (load B 32 off).bind fun t => .ret (⟨r.c1, foldMerge256 avx r.c0 t⟩, off + 32, len - 32)
  else .ret (r, off, len)

/-- crc_folding_256.cc:118-123, as `Crc.X86.first256`. -/
def first256 (avx : Bool) (B : Buf) (diff : Nat) (r : Regs2) : Prog Regs2 :=
  if diff = 0 then .ret r else (loadu B 32 0).bind fun part => .ret (partialFold256 avx diff r part)

/-- `crc_fold(src, len, initial)`, crc_folding_256.cc:101-207, as `Crc.X86.crcFold256`. -/
def crcFold256 (avx : Bool) (B : Buf) (init : U32) : Prog U32 :=
  if B.len < 32 then
    if B.len = 0 then .ret init
    else rds 0 B.len fun bs => .ret (done256 avx (partialFold256 avx B.len (start256 init) fun j => bs.getD j 0#8))
  else
    let diff := (32 - B.addr % 32) % 32
    (first256 avx B diff (start256 init)).bind fun r =>
    (loop64_256 avx B (B.len + 1) diff (B.len - diff) r).bind fun x =>
    (block32 avx B x.2.1 x.2.2 x.1).bind fun x =>
    if x.2.2 = 0 then .ret (done256 avx x.1)
    else (load B 32 x.2.1).bind fun part => .ret (done256 avx (partialFold256 avx x.2.2 x.1 part))

end X86

/-! ## ARM -/

namespace Arm
open Yenc.Crc.Arm

/-- A load fed to the CRC instruction of that size, as `Crc.Arm.word`. -/
def word (B : Buf) (n : Nat) (st : U32 × Nat) : Prog (U32 × Nat) :=
  (loadu B n st.2).bind fun v => .ret (crc32 (8 * n) st.1 (BitVec.ofNat (8 * n) (v.le 0 n)), st.2 + n)

/-- `k` words in a row, as `Crc.Arm.words`. -/
def words (B : Buf) (n : Nat) : Nat → U32 × Nat → Prog (U32 × Nat)
  | 0, st => .ret st
  | k + 1, st => (word B n st).bind (words B n k)

/-- Conditional step, as `Crc.Arm.cond`. -/
def cond (c : Bool) (f : U32 × Nat → Prog (U32 × Nat)) (st : U32 × Nat) : Prog (U32 × Nat) := if c then f st else .ret st

/-- crc_arm.cc:98-117, as `Crc.Arm.align`. -/
def align (W : Nat) (B : Buf) (len : Int) (st : U32 × Nat) : Prog (U32 × Nat) :=
  if len ≥ 16 then
    (cond ((B.addr + st.2) % 2 = 1) (word B 1) st).bind fun st =>
    (cond ((B.addr + st.2) / 2 % 2 = 1) (word B 2) st).bind fun st =>
    cond (W = 8 ∧ (B.addr + st.2) / 4 % 2 = 1) (word B 4) st
  else .ret st

/-- crc_arm.cc:151-160, as `Crc.Arm.loop`. -/
def loop (W : Nat) (B : Buf) : Nat → U32 × Nat → Int → Prog ((U32 × Nat) × Int)
  | 0, _, _ => .ub
  | f + 1, st, len =>
    if W > 0 ∧ len - 8 * W ≥ 0 then (words B W 8 st).bind fun st => loop W B f st (len - 8 * W)
    else .ret (st, len - 8 * W)

/-- crc_arm.cc:161-187, as `Crc.Arm.tail`. -/
def tail (L : Nat) (B : Buf) (len : Int) (st : U32 × Nat) : Prog (U32 × Nat) :=
  (cond (bitOf len (L + 2)) (words B (2 ^ L) 4) st).bind fun st =>
  (cond (bitOf len (L + 1)) (words B (2 ^ L) 2) st).bind fun st =>
  (cond (bitOf len L) (words B (2 ^ L) 1) st).bind fun st =>
  (cond (L = 3 ∧ bitOf len 2) (word B 4) st).bind fun st =>
  (cond (bitOf len 1) (word B 2) st).bind fun st =>
  cond (bitOf len 0) (word B 1) st

/-- `arm_crc_calc(crc, src, len)`, crc_arm.cc:96-190, as `Crc.Arm.armCalc`. -/
def armCalc (L : Nat) (B : Buf) (crc : U32) : Prog U32 :=
  (align (2 ^ L) B B.len (crc, 0)).bind fun st =>
  (loop (2 ^ L) B (B.len + 1) st ((B.len : Int) - st.2)).bind fun x =>
  (tail L B x.2 x.1).bind fun st => .ret st.1

end Arm

/-! ## RISC-V -/

namespace Rv
open Yenc.Crc.Rv

/-- crc_riscv.cc:43-47, as `Crc.Rv.readPartial`. -/
def readPartial (w : Nat) (B : Buf) (off sz : Nat) : Prog (BitVec w) := (loadu B sz off).bind fun v => .ret (BitVec.ofNat w (v.le 0 sz))

/-- crc_riscv.cc:48-50, as `Crc.Rv.readFull`. -/
def readFull (w : Nat) (B : Buf) (off : Nat) : Prog (BitVec w) :=
  if (B.addr + off) % (w / 8) = 0 then (loadu B (w / 8) off).bind fun v => .ret (BitVec.ofNat w (v.le 0 (w / 8))) else .ub

/-- crc_riscv.cc:80-94, as `Crc.Rv.align`. -/
def align {w : Nat} (B : Buf) (len : Int) (a : Crc.Rv.Acc w) : Prog (Crc.Rv.Acc w × Nat × Int) :=
  let al := B.addr % (w / 8)
  let proc := w / 8 - al
  if al ≠ 0 ∧ len ≥ proc then
    let shl := al * 8
    let shr := proc * 8
    (readPartial w B 0 proc).bind fun (d : BitVec w) =>
      let top := (d <<< shl) ||| (a.a3 >>> shr)
      .ret (if w = 64 then (⟨a.a0, a.a1, a.a3 <<< shl, top⟩, proc, len - proc)
      else (⟨a.a0, a.a2 <<< shl, (a.a3 <<< shl) ||| (a.a2 >>> shr), top⟩, proc, len - proc))
  else .ret (a, 0, len)

/-- crc_riscv.cc:98-109, as `Crc.Rv.loop`. -/
def loop {w : Nat} (B : Buf) : Nat → Crc.Rv.Acc w → Nat → Int → Prog (Crc.Rv.Acc w × Nat × Int)
  | 0, _, _, _ => .ub
  | f + 1, a, off, len =>
    let WS := w / 8
    if w / 8 > 0 ∧ len - 4 * (w / 8 : Nat) ≥ 0 then
      (readFull w B off).bind fun d0 =>
      (readFull w B (off + WS)).bind fun d1 =>
      (readFull w B (off + 2 * WS)).bind fun d2 =>
      (readFull w B (off + 3 * WS)).bind fun d3 =>
      let t := foldPair a.a0 a.a1
      let u := foldPair a.a2 a.a3
      loop B f ⟨t.1 ^^^ d0, t.2 ^^^ d1, u.1 ^^^ d2, u.2 ^^^ d3⟩ (off + 4 * WS) (len - 4 * (w / 8 : Nat))
    else .ret (a, off, len - 4 * (w / 8 : Nat))

/-- crc_riscv.cc:112-119, as `Crc.Rv.two`. -/
def two {w : Nat} (B : Buf) (len : Int) (a : Crc.Rv.Acc w) (off : Nat) : Prog (Crc.Rv.Acc w × Nat) :=
  if len / ((w / 8 : Nat) * 2) % 2 = 1 then
    (readFull w B off).bind fun d0 =>
    (readFull w B (off + w / 8)).bind fun d1 =>
    let t := foldPair a.a0 a.a1
    .ret (⟨a.a2, a.a3, t.1 ^^^ d0, t.2 ^^^ d1⟩, off + 2 * (w / 8))
  else .ret (a, off)

/-- crc_riscv.cc:120-127, as `Crc.Rv.one`. -/
def one {w : Nat} (B : Buf) (len : Int) (a : Crc.Rv.Acc w) (off : Nat) : Prog (Crc.Rv.Acc w × Nat) :=
  if len / ((w / 8 : Nat) : Int) % 2 = 1 then
    (readFull w B off).bind fun d => .ret (⟨a.a1, a.a2, a.a3 ^^^ mulL a.a0 (mulHi w), mulH a.a0 (mulHi w) ^^^ d⟩, off + w / 8)
  else .ret (a, off)

/-- crc_riscv.cc:129-141, as `Crc.Rv.rest`. -/
def rest {w : Nat} (B : Buf) (len : Int) (a : Crc.Rv.Acc w) (off : Nat) : Prog (Crc.Rv.Acc w) :=
  let tail := (len % ((w / 8 : Nat) : Int)).toNat
  if tail ≠ 0 then
    let shl := (w / 8 - tail) * 8
    let shr := tail * 8
    let tmp := a.a0 <<< shl
    (readPartial w B off tail).bind fun (d : BitVec w) =>
      .ret ⟨(a.a0 >>> shr) ||| (a.a1 <<< shl), (a.a1 >>> shr) ||| (a.a2 <<< shl), ((a.a2 >>> shr) ||| (a.a3 <<< shl)) ^^^ mulL tmp (mulHi w),
        ((a.a3 >>> shr) ||| (d <<< shl)) ^^^ mulH tmp (mulHi w)⟩
  else .ret a

/-- `rv_crc_calc(crc, src, len)`, crc_riscv.cc:53-176, as `Crc.Rv.crcCalc`. -/
def crcCalc (w : Nat) (B : Buf) (crc : U32) : Prog U32 :=
  (align B B.len (start w crc)).bind fun x =>
  (loop B (B.len + 1) x.1 x.2.1 x.2.2).bind fun x =>
  (two B x.2.2 x.1 x.2.1).bind fun y =>
  (one B x.2.2 y.1 y.2).bind fun y =>
  (rest B x.2.2 y.1 y.2).bind fun a => .ret (done a)

end Rv

/-! ## The implementations -/

/-- `_do_crc32_incremental`, as `Crc.IsIncr`. -/
inductive IsIncr : (Buf → U32 → Prog U32) → Prop
  | generic : IsIncr generic
  | crcutil (target : Crc.Util.Target) : IsIncr (Util.incr target)
  | clmul (avx : Bool) : IsIncr (X86.crcFold avx)
  | clmul256 (avx : Bool) : IsIncr (X86.crcFold256 avx)
  | arm (L : Nat) (hL : L = 2 ∨ L = 3) : IsIncr fun B init => (Arm.armCalc L B (~~~init)).bind fun r => .ret (~~~r)
  | riscv (w : Nat) (hw : w = 64 ∨ w = 32) : IsIncr fun B init => (Rv.crcCalc w B (~~~init)).bind fun r => .ret (~~~r)

/-- The CRC function behind the bindings, on a Buffer that changes; `around` is what follows the Buffer. -/
def crcImpl (mem : Nat → Nat → Byte) (around : Nat → Byte) (p : Buf → U32 → Prog U32) (multiply shift : U32 → U32 → U32) : Crc.Impl where
  incr addr data init := ((p ⟨addr, data.length, around⟩ init).run mem data.length 0).map Prod.fst
  multiply := multiply
  shift := shift

end Yenc.Shared.SCrc
