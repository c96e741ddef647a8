import Verif.Model.Clmul
/-!
Model of crcutil, `/repo/crcutil-1.0`, the library behind `do_crc32_incremental_generic` on x86 (src/crc.cc:3-16), as instantiated there:
`GenericCrc<uint64, uint64, uint64, 4>` with the polynomial `0xEDB88320` of degree 32 (examples/interface.cc:296-304). CRCs, table entries and words
of data are 64-bit.

Pointers into the data are numbers of bytes from its start, and may be negative as `end - 63` may; in the code they are addresses, and the comparisons
mean the same because nothing is mapped within 63 bytes of address 0. `none`: a read outside the data or outside a row of a table, or a loop that does
not end. Prefetches are disabled (platform.h:122). The tables are computed once, by `CRC::Create` in `crc32_init`. Not modelled: the members that
`Compute` does not use, `crc_of_crc_` and the tables of the rolling CRC (rolling_crc.h), and the 128-bit and SSE 4.2 instances, which are not used.
-/
namespace Yenc.Crc.Util

/-! ### Polynomials: code/gf_util.h -/

/-- The members of `GfUtil` that matter, gf_util.h:289-299. `normalize_` is `[0, poly]`. -/
structure Gf where
  degree : Nat
  one : U64
  canonize : U64
  poly : U64
  xPow2n : List U64

/-- The loop of `Multiply`, gf_util.h:167-173. A bit leaves `a` in each round, so 64 rounds do. -/
def mulLoop (g : Gf) : Nat → U64 → U64 → U64 → U64
  | 0, product, _, _ => product
  | n + 1, product, a, b =>
    if a ≠ 0#64 then
      mulLoop g n (if a &&& g.one ≠ 0#64 then product ^^^ b else product)
        ((if a &&& g.one ≠ 0#64 then a ^^^ g.one else a) <<< 1)
        ((b >>> 1) ^^^ (if b &&& 1#64 = 0#64 then 0#64 else g.poly))
    else product

/-- `Multiply(aa, bb)`, gf_util.h:152-176. -/
def Gf.multiply (g : Gf) (aa bb : U64) : U64 :=
  let (a, b) := if (aa ^^^ (aa - 1#64)).ult (bb ^^^ (bb - 1#64)) then (bb, aa) else (aa, bb)
  if a = 0#64 then a else mulLoop g 64 0#64 a b

/-- `XpowN(n)`, gf_util.h:195-206: from bit `i` on. -/
def Gf.xpowFrom (g : Gf) (i n : Nat) (result : U64) : Option U64 :=
  if h : n = 0 then some result
  else if n % 2 = 1 then (g.xPow2n[i]?).bind fun p => g.xpowFrom (i + 1) (n / 2) (g.multiply result p)
  else g.xpowFrom (i + 1) (n / 2) result
termination_by n
decreasing_by all_goals omega

/-- `XpowN(n)`, gf_util.h:195-206. -/
def Gf.xpowN (g : Gf) (n : Nat) : Option U64 := g.xpowFrom 0 n g.one

/-- `MultiplyUnnormalized(v, degree, m)`, gf_util.h:180-192, with what is in `result` so far. -/
def Gf.mulUnnormFrom (g : Gf) (v : U64) (degree : Nat) (m result : U64) : Option U64 :=
  if h : 0 < g.degree ∧ g.degree < degree then
    (g.xpowN (degree - g.degree)).bind fun p =>
      g.mulUnnormFrom (v >>> g.degree) (degree - g.degree) m (result ^^^ g.multiply (v &&& (g.one ||| (g.one - 1#64))) (g.multiply m p))
  else some (result ^^^ g.multiply (v <<< (g.degree - degree)) m)
termination_by degree
decreasing_by omega

/-- `MultiplyUnnormalized(unnorm, degree, m)`, gf_util.h:180-192. -/
def Gf.mulUnnorm (g : Gf) (unnorm : U64) (degree : Nat) (m : U64) : Option U64 := g.mulUnnormFrom unnorm degree m 0#64

/-- The loop that fills `x_pow_2n_`, gf_util.h:59-62. -/
def squares (g : Gf) : Nat → U64 → List U64
  | 0, _ => []
  | n + 1, k => k :: squares g n (g.multiply k k)

/-- `GfUtil::Init`, gf_util.h:43-62. -/
def Gf.init (poly : U64) (degree : Nat) (canonical : Bool) : Gf :=
  let one := 1#64 <<< (degree - 1)
  let g : Gf := ⟨degree, one, if canonical then one ||| (one - 1#64) else 0#64, poly, []⟩
  { g with xPow2n := squares g 64 (one >>> 1) }

/-- The first loop of `Divide`, gf_util.h:224-227: `divisor` is shifted to the right until it is odd. -/
def divNorm : Nat → U64 → U64 → Option (U64 × U64)
  | 0, _, _ => none
  | n + 1, divisor, coef => if divisor &&& 1#64 = 0#64 then divNorm n (divisor >>> 1) (coef >>> 1) else some (divisor, coef)

/-- The second loop of `Divide`, gf_util.h:234-245. Returns `quotient` and `dividend`. -/
def divLoop (one : U64) : Nat → U64 → U64 → U64 → U64 → U64 → Option (U64 × U64)
  | 0, _, _, _, _, _ => none
  | n + 1, quotient, dividend, coef, xb, divisor =>
    let q := if dividend &&& xb ≠ 0#64 then quotient ^^^ coef else quotient
    let d := if dividend &&& xb ≠ 0#64 then dividend ^^^ divisor else dividend
    if coef = one then some (q, d) else divLoop one n q d (coef <<< 1) (xb <<< 1) (divisor <<< 1)

/-- `Divide(dividend0, dividend_x_pow_D_coef, divisor0, &q)`, gf_util.h:217-250: quotient and remainder. -/
def Gf.divide (g : Gf) (fuel : Nat) (dividend : U64) (top : Bool) (divisor : U64) : Option (U64 × U64) :=
  (divNorm fuel divisor g.one).bind fun (divisor, coef) =>
    divLoop g.one fuel (if top then coef >>> 1 else 0#64) (if top then dividend ^^^ (divisor >>> 1) else dividend) coef 1#64 divisor

/-- The loop of `FindLCD`, gf_util.h:268-282: the greatest common divisor and the factor. -/
def Gf.lcdLoop (g : Gf) (fuel : Nat) : Nat → Bool → U64 → U64 → U64 → U64 → Option (U64 × U64)
  | 0, _, _, _, _, _ => none
  | n + 1, top, r0, b0, r1, b1 =>
    (g.divide fuel r0 top r1).bind fun (q, r) =>
      if r = 0#64 then some (r1, b1) else g.lcdLoop fuel n false r1 b1 r (b0 ^^^ g.multiply q b1)

/-- `FindLCD(A, &B)`, gf_util.h:254-286. No loop may take more than `fuel` rounds. -/
def Gf.findLCD (g : Gf) (fuel : Nat) (A : U64) : Option (U64 × U64) :=
  if A = 0#64 ∨ A = g.one then some (A, A) else g.lcdLoop fuel fuel true g.poly 0#64 A g.one

/-! ### Tables: code/generic_crc.h -/

/-- One row of a table, generic_crc.h:149-160, 175-184. Before the round of `i = 2^n` the row has `i` entries; the round adds `table[i]` and
`table[i + m]` for `m` from 1 to `i - 1`. -/
def row (g : Gf) (k : U64) : Option (List U64) :=
  [1#64, 2#64, 4#64, 8#64, 16#64, 32#64, 64#64, 128#64].foldlM (fun table i =>
    (g.mulUnnorm i 8 k).map fun value => table ++ value :: table.tail.map (value ^^^ ·)) [0#64]

/-- The eight rows of a table for words taken `stride` at a time, generic_crc.h:149-161 (`stride` 4) and 173-185 (`stride` 1). -/
def rows (g : Gf) (stride : Nat) : Option (List (List U64)) :=
  (List.range 8).mapM fun j => (g.xpowN ((8 * stride - 1 - j) * 8 + g.degree)).bind (row g)

/-- The members of `GenericCrc`, generic_crc.h:594-599. -/
structure Tables where
  inter : List (List U64)
  word : List (List U64)
  base : Gf

/-- `GenericCrc::Init`, generic_crc.h:128-187. -/
def Tables.init (g : Gf) : Option Tables := (rows g 4).bind fun i => (rows g 1).map fun w => ⟨i, w, g⟩

/-- `CRC::Create(0xEDB88320, 0, 32, true, 0, 0, 0, 0, NULL)`, src/crc.cc:8, examples/interface.cc:225-304. -/
def tables : Option Tables := Tables.init (Gf.init 0xEDB88320#64 32 true)

/-- `table[byte][i]`. -/
def entry (t : List (List U64)) (byte i : Nat) : Option U64 := (t[byte]?).bind fun r => r[i]?

/-! ### Eight table entries

Each compiler gets its own way to take a word apart; all of them exclusive-or the entries of its eight bytes. -/

/-- A round of the loop in `CRC_WORD`, generic_crc.h:56-59, and of the one on the interleaved table, 533-535. -/
def lookNext (t : List (List U64)) (st : U64 × U64) (byte : Nat) : Option (U64 × U64) :=
  (entry t byte (st.2.setWidth 8).toNat).map fun e => (st.1 ^^^ e, st.2 >>> 8)

/-- `CRC_WORD` without the first line, generic_crc.h:53-60, and the same on the interleaved table, 516-517, 530-540, 544. -/
def lookC (t : List (List U64)) (buf : U64) : Option U64 := do
  let c ← entry t 0 (buf.setWidth 8).toNat
  let (c, buf) ← [1, 2, 3, 4, 5, 6].foldlM (lookNext t) (c, buf >>> 8)
  let e ← entry t 7 buf.toNat
  some (c ^^^ e)

/-- `%al` and its like: the low byte of a register. -/
def al {w : Nat} (r : BitVec w) : Nat := (r.setWidth 8).toNat
/-- `%ah` and its like: the second byte of a register. -/
def ah {w : Nat} (r : BitVec w) : Nat := ((r >>> 8).setWidth 8).toNat

/-- `CRC_WORD_ASM` without the first instruction, multiword_64_64_gcc_amd64_asm.cc:109-127, and the same on the interleaved table, 168-220. -/
def lookAmd64 (t : List (List U64)) (buf : U64) : Option U64 := do
  let c ← entry t 0 (al buf)
  let e ← entry t 1 (ah buf)
  let c := c ^^^ e
  let buf := buf >>> 16
  let e ← entry t 2 (al buf)
  let c := c ^^^ e
  let e ← entry t 3 (ah buf)
  let c := c ^^^ e
  let buf := buf >>> 16
  let e ← entry t 4 (al buf)
  let c := c ^^^ e
  let e ← entry t 5 (ah buf)
  let c := c ^^^ e
  let buf := buf >>> 16
  let e ← entry t 6 (al buf)
  let c := c ^^^ e
  let e ← entry t 7 (ah buf)
  some (c ^^^ e)

/-- `CRC_WORD_MMX` without the first instruction, multiword_64_64_gcc_i386_mmx.cc:48-70, multiword_64_64_cl_i386_mmx.cc:26-48 and
multiword_64_64_intrinsic_i386_mmx.cc:60-76, and the same on the interleaved table, gcc_i386_mmx.cc:137-195, intrinsic_i386_mmx.cc:131-185. -/
def lookMmx (t : List (List U64)) (buf : U64) : Option U64 := do
  let tmp : U32 := buf.setWidth 32
  let buf := buf >>> 32
  let c ← entry t 0 (al tmp)
  let tmp := tmp >>> 8
  let e ← entry t 1 (al tmp)
  let c := c ^^^ e
  let tmp := tmp >>> 8
  let e ← entry t 2 (al tmp)
  let c := c ^^^ e
  let tmp := tmp >>> 8
  let e ← entry t 3 tmp.toNat
  let c := c ^^^ e
  let tmp : U32 := buf.setWidth 32
  let e ← entry t 4 (al tmp)
  let c := c ^^^ e
  let tmp := tmp >>> 8
  let e ← entry t 5 (al tmp)
  let c := c ^^^ e
  let tmp := tmp >>> 8
  let e ← entry t 6 (al tmp)
  let c := c ^^^ e
  let tmp := tmp >>> 8
  let e ← entry t 7 tmp.toNat
  some (c ^^^ e)

/-- The entries of the interleaved table in Microsoft's assembler, multiword_64_64_cl_i386_mmx.cc:132-226. -/
def lookCl (t : List (List U64)) (buf : U64) : Option U64 := do
  let tmp : U32 := buf.setWidth 32
  let buf := buf >>> 32
  let c ← entry t 0 (al tmp)
  let e ← entry t 1 (ah tmp)
  let c := c ^^^ e
  let tmp := tmp >>> 16
  let e ← entry t 2 (al tmp)
  let c := c ^^^ e
  let tmp := tmp >>> 8
  let e ← entry t 3 tmp.toNat
  let c := c ^^^ e
  let tmp : U32 := buf.setWidth 32
  let e ← entry t 4 (al tmp)
  let c := c ^^^ e
  let e ← entry t 5 (ah tmp)
  let c := c ^^^ e
  let tmp := tmp >>> 16
  let e ← entry t 6 (al tmp)
  let c := c ^^^ e
  let tmp := tmp >>> 8
  let e ← entry t 7 tmp.toNat
  some (c ^^^ e)

/-- How a variant looks bytes up: in the interleaved loop, in a word of its own; and whether it merges the four CRCs by changing the data
(`buf1 ^= crc1`, the assembler) or the CRC (`crc0 ^= crc1`, generic_crc.h:557-564). -/
structure Style where
  inter : List (List U64) → U64 → Option U64
  word : List (List U64) → U64 → Option U64
  mergeData : Bool

/-! ### The data -/

/-- A word of data. Alignment is not required on x86. -/
def load (s : Src) (off : Nat) : Option U64 := (s.loadu 8 off).map fun v => BitVec.ofNat 64 (v.le 0 8)

/-- `CRC_BYTE`, generic_crc.h:35-38; gcc_amd64_asm.cc:261-266; gcc_i386_mmx.cc:236-242. -/
def crcByte (t : Tables) (crc : U64) (b : Byte) : Option U64 :=
  (entry t.word 7 (crc.setWidth 8 ^^^ b).toNat).map fun e => (crc >>> 8) ^^^ e

/-- `ALIGN_ON_WORD_BOUNDARY`, generic_crc.h:65-73. Where it returns from the function, the test that follows each use returns the same value. -/
def align (t : Tables) (s : Src) (crc : U64) (src : Nat) : Option (U64 × Nat) :=
  if (s.addr + src) % 8 ≠ 0 then
    if h : src < s.data.length then (crcByte t crc s.data[src]).bind fun crc => align t s crc (src + 1)
    else some (crc, src)
  else some (crc, src)
termination_by s.data.length - src

/-- `ALIGN_ON_WORD_BOUNDARY_IF_NEEDED`, generic_crc.h:80-85, platform.h:140. -/
def alignIfNeeded (t : Tables) (s : Src) (crc : U64) : Option (U64 × Nat) :=
  if s.data.length > 1024 then align t s crc 0 else some (crc, 0)

/-- The loop over words: while `src < stop`. generic_crc.h:574-577; gcc_amd64_asm.cc:243-252; gcc_i386_mmx.cc:220-228; cl_i386_mmx.cc:253-263;
intrinsic_i386_mmx.cc:218-221. -/
def words (f : List (List U64) → U64 → Option U64) (t : Tables) (s : Src) (stop : Int) (crc : U64) (src : Nat) : Option (U64 × Nat) :=
  if (src : Int) < stop then
    (load s src).bind fun buf => (f t.word (buf ^^^ crc)).bind fun crc => words f t s stop crc (src + 8)
  else some (crc, src)
termination_by (stop - src).toNat

/-- The loop over the last bytes, generic_crc.h:581-583; gcc_amd64_asm.cc:254-268; gcc_i386_mmx.cc:229-244; cl_i386_mmx.cc:293-295;
intrinsic_i386_mmx.cc:230-232. -/
def bytes (t : Tables) (s : Src) (crc : U64) (src : Nat) : Option U64 :=
  if h : src < s.data.length then (crcByte t crc s.data[src]).bind fun crc => bytes t s crc (src + 1) else some crc
termination_by s.data.length - src

/-- The registers of the interleaved loop. -/
structure Regs where
  c0 : U64
  c1 : U64
  c2 : U64
  c3 : U64
  b0 : U64
  b1 : U64
  b2 : U64
  b3 : U64

/-- One round of the interleaved loop, generic_crc.h:506-548: `src` is the place already advanced, from which the next four words are loaded. -/
def round (st : Style) (t : Tables) (s : Src) (src : Nat) (r : Regs) : Option Regs := do
  let c0 ← st.inter t.inter (r.b0 ^^^ r.c0)
  let c1 ← st.inter t.inter (r.b1 ^^^ r.c1)
  let c2 ← st.inter t.inter (r.b2 ^^^ r.c2)
  let c3 ← st.inter t.inter (r.b3 ^^^ r.c3)
  let b0 ← load s src
  let b1 ← load s (src + 8)
  let b2 ← load s (src + 16)
  let b3 ← load s (src + 24)
  some ⟨c0, c1, c2, c3, b0, b1, b2, b3⟩

/-- The interleaved loop, `do … while (src < stop)`: generic_crc.h:498-551; gcc_amd64_asm.cc:156-224; gcc_i386_mmx.cc:127-198; cl_i386_mmx.cc:122-230;
intrinsic_i386_mmx.cc:122-188. -/
def mainLoop (st : Style) (t : Tables) (s : Src) (stop : Int) (src : Nat) (r : Regs) : Option (Regs × Nat) :=
  (round st t s (src + 32) r).bind fun r =>
    if ((src + 32 : Nat) : Int) < stop then mainLoop st t s stop (src + 32) r else some (r, src + 32)
termination_by (stop - src).toNat

/-- One of the words kept in registers, merged with its CRC: generic_crc.h:557-564; gcc_amd64_asm.cc:228-230; gcc_i386_mmx.cc:204-206;
cl_i386_mmx.cc:240-242; intrinsic_i386_mmx.cc:191-192. -/
def merge (st : Style) (t : Tables) (crc0 crc buf : U64) : Option U64 :=
  st.word t.word (if st.mergeData then (buf ^^^ crc) ^^^ crc0 else buf ^^^ (crc0 ^^^ crc))

/-- The interleaved part, if `src < stop`: loads four words, loops, and merges the four CRCs. generic_crc.h:476-569; gcc_amd64_asm.cc:146-240;
gcc_i386_mmx.cc:115-216; cl_i386_mmx.cc:105-250; intrinsic_i386_mmx.cc:93-203. -/
def interleaved (st : Style) (t : Tables) (s : Src) (stop : Int) (crc : U64) (src : Nat) : Option (U64 × Nat) :=
  if (src : Int) < stop then do
    let b0 ← load s src
    let b1 ← load s (src + 8)
    let b2 ← load s (src + 16)
    let b3 ← load s (src + 24)
    let (r, src) ← mainLoop st t s stop src ⟨crc, 0#64, 0#64, 0#64, b0, b1, b2, b3⟩
    let c ← st.word t.word (r.b0 ^^^ r.c0)
    let c ← merge st t c r.c1 r.b1
    let c ← merge st t c r.c2 r.b2
    let c ← merge st t c r.c3 r.b3
    some (c, src + 32)
  else some (crc, src)

/-- generic_crc.h:464-585, gcc_amd64_asm.cc:131-293, gcc_i386_mmx.cc:74-279, cl_i386_mmx.cc:57-298: all lengths. -/
def long (st : Style) (t : Tables) (s : Src) (start : U64) : Option U64 := do
  let (crc, src) ← alignIfNeeded t s (start ^^^ t.base.canonize)
  if src ≥ s.data.length then some (crc ^^^ t.base.canonize)
  else do
    let (crc, src) ← interleaved st t s ((s.data.length : Int) - (2 * 32 - 1)) crc src
    let (crc, src) ← words st.word t s ((s.data.length : Int) - 7) crc src
    let crc ← bytes t s crc src
    some (crc ^^^ t.base.canonize)

/-- intrinsic_i386_mmx.cc:79-235. `n & ~31` is the multiple of 32 below `n`, `n & ~7` likewise. -/
def longIntrinsic (st : Style) (t : Tables) (s : Src) (start : U64) : Option U64 := do
  let (crc, src) ← alignIfNeeded t s (start ^^^ t.base.canonize)
  if src ≥ s.data.length then some (crc ^^^ t.base.canonize)
  else do
    let n := s.data.length - src
    let n := n - n % 32
    let (crc, src) ← if n > 4 * 8 then interleaved st t s ((src + n : Nat) - 4 * 8 : Int) crc src else some (crc, src)
    let n := s.data.length - src
    let n := n - n % 8
    let (crc, src) ← if n > 0 then words st.word t s (src + n : Nat) crc src else some (crc, src)
    let crc ← bytes t s crc src
    some (crc ^^^ t.base.canonize)

/-- Byte by byte, for short data: gcc_i386_mmx.cc:36-41, intrinsic_i386_mmx.cc:33-38, generic_crc.h:668-673. -/
def short (t : Tables) (s : Src) (start : U64) : Option U64 :=
  (bytes t s (start ^^^ t.base.canonize) 0).map fun crc => crc ^^^ t.base.canonize

/-- `if (bytes >= n * 8) PROCESS_ONE_WORD()`, nested `k` deep from `n` on: gcc_amd64_asm.cc:60-79. -/
def nested (t : Tables) (s : Src) : Nat → Nat → U64 → Nat → Option (U64 × Nat)
  | 0, _, crc, src => some (crc, src)
  | k + 1, n, crc, src =>
    if s.data.length ≥ n * 8 then
      (load s src).bind fun buf => (lookC t.word (buf ^^^ crc)).bind fun crc => nested t s k (n + 1) crc (src + 8)
    else some (crc, src)

/-- gcc_amd64_asm.cc:57-83. -/
def shortAmd64 (t : Tables) (s : Src) (start : U64) : Option U64 := do
  let (crc, src) ← nested t s 5 1 (start ^^^ t.base.canonize) 0
  let crc ← bytes t s crc src
  some (crc ^^^ t.base.canonize)

/-- The compilers and processors with a `CrcMultiword` of their own. -/
inductive Target
  /-- The template: 64-bit Microsoft, recent 32-bit Microsoft, 32-bit GCC without MMX. -/
  | template
  /-- GCC and Clang on amd64. -/
  | gccAmd64
  /-- GCC on i386. -/
  | gccI386
  /-- Clang on i386. -/
  | clangI386
  /-- Microsoft up to 15.00.30729 on i386. -/
  | clI386

/-- `CrcMultiword(data, bytes, start)`: generic_crc.h:457-586; gcc_amd64_asm.cc:52-86; gcc_i386_mmx.cc:33-44; intrinsic_i386_mmx.cc:28-41;
generic_crc.h:660-676. -/
def multiword (target : Target) (t : Tables) (s : Src) (start : U64) : Option U64 :=
  match target with
  | .template => long ⟨lookC, lookC, false⟩ t s start
  | .gccAmd64 => if s.data.length ≤ 6 * 8 - 1 then shortAmd64 t s start else long ⟨lookAmd64, lookAmd64, true⟩ t s start
  | .gccI386 => if s.data.length ≤ 7 then short t s start else long ⟨lookMmx, lookMmx, true⟩ t s start
  | .clangI386 => if s.data.length ≤ 7 then short t s start else longIntrinsic ⟨lookMmx, lookMmx, true⟩ t s start
  | .clI386 => if s.data.length ≤ 12 then short t s start else long ⟨lookCl, lookMmx, true⟩ t s start

/-- `do_crc32_incremental_generic(data, length, init)` on x86, src/crc.cc:11-16, through `Compute` and `CrcDefault` (examples/interface.cc:111-116,
generic_crc.h:190-192). -/
def incr (target : Target) (s : Src) (init : U32) : Option U32 := do
  let t ← tables
  let r ← multiword target t s (init.setWidth 64)
  some (r.setWidth 32)

end Yenc.Crc.Util
