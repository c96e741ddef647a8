import Verif.Model.Crcutil
import Verif.Model.CrcX86
import Verif.Model.CrcArm
import Verif.Model.CrcRiscv
import Verif.Model.Bindings
/-! Model of the native CRC entry points, `/repo/src/yencode.cc:335-445`, and of the inline functions they use, `/repo/src/crc.h:59-85`. -/
namespace Yenc.Crc

/-- The functions behind `_do_crc32_incremental`, `_crc32_multiply` and `_crc32_shift`, crc.h:12-17, 59-67. `incr` also takes the address
of the data; `none` is a read outside the data. -/
structure Impl where
  incr : Nat → List Byte → U32 → Option U32
  multiply : U32 → U32 → U32
  shift : U32 → U32 → U32

/-- The portable implementation, crc.cc:188-192. -/
def genericImpl : Impl := ⟨generic, multiply, shift⟩

/-- `crc32_combine`, crc.h:69-71. -/
def combine (impl : Impl) (crc1 crc2 : U32) (len2 : U64) : U32 := impl.shift crc1 (bytepow len2) ^^^ crc2
/-- `crc32_zeros`, crc.h:72-74. -/
def zeros (impl : Impl) (crc1 : U32) (len : U64) : U32 := ~~~(impl.shift (~~~crc1) (bytepow len))
/-- `crc32_unzero`, crc.h:75-77. -/
def unzero (impl : Impl) (crc1 : U32) (len : U64) : U32 := ~~~(impl.shift (~~~crc1) (~~~(bytepow len)))
/-- `crc32_2pow`, crc.h:78-81 (`llabs` of the least `int64_t` is undefined: `none`). -/
def pow2 (impl : Impl) (n : Int) : Option U32 :=
  if n = -2 ^ 63 then none
  else
    let sign : U32 := if n < 0 then 0xffffffff#32 else 0
    some (impl.shift 0x80000000#32 (powmod (BitVec.ofNat 64 n.natAbs) ^^^ sign))
/-- `crc32_256pow`, crc.h:82-84. -/
def pow256 (impl : Impl) (n : U64) : U32 := impl.shift 0x80000000#32 (bytepow n)

/-- `read_crc32`, yencode.cc:335-338; the callers have checked that there are 4 bytes. -/
def readCrc : List Byte → Outcome U32
  | [a, b, c, d] => .ret ((a.setWidth 32 <<< 24) ||| (b.setWidth 32 <<< 16) ||| (c.setWidth 32 <<< 8) ||| d.setWidth 32)
  | _ => .ub

/-- `pack_crc32`, yencode.cc:339-351. -/
def packCrc (crc : U32) : List Byte :=
  [(crc >>> 24).setWidth 8, (crc >>> 16).setWidth 8, (crc >>> 8).setWidth 8, crc.setWidth 8]

/-- The optional second argument of `crc32`, `crc32_zeroes` and `crc32_shift`, yencode.cc:361-366, 398-402, 434-438. -/
def initArg (dflt : U32) : List Arg → Outcome U32
  | [] => .ret dflt
  | .buffer b :: _ => if b.length ≠ 4 then .throw "Second argument must be a 4 byte buffer" else readCrc b
  | _ => .throw "Second argument must be a 4 byte buffer"

/-- `crc32(data, init)`, yencode.cc:354-373, for data at address `addr`. -/
def apiCrc32 (impl : Impl) (addr : Nat) (args : List Arg) : Outcome (List Byte) :=
  match args with
  | .buffer data :: rest =>
    (initArg 0 rest).bind fun init =>
    match impl.incr addr data init with
    | some r => .ret (packCrc r)
    | none => .ub
  | _ => .throw "You must supply a Buffer"

/-- The two-Buffer check of `crc32_combine` and `crc32_multiply`, yencode.cc:380-382, 417-419. -/
def twoCrcs (args : List Arg) : Outcome (U32 × U32) :=
  match args with
  | .buffer a :: .buffer b :: _ =>
    if a.length ≠ 4 ∨ b.length ≠ 4 then .throw "You must supply a 4 byte Buffer for the first two arguments"
    else (readCrc a).bind fun c1 => (readCrc b).bind fun c2 => .ret (c1, c2)
  | _ => .throw "You must supply a 4 byte Buffer for the first two arguments"

/-- `crc32_combine(crc1, crc2, len2)`, yencode.cc:375-389: the length is converted to `size_t` (64 bits). -/
def apiCombine (impl : Impl) (args : List Arg) : Outcome (List Byte) :=
  if args.length < 3 then .throw "At least 3 arguments required"
  else
    (twoCrcs args).bind fun (c1, c2) =>
    (argToInt (args.getD 2 .other)).bind fun n =>
    .ret (packCrc (combine impl c1 c2 (BitVec.ofInt 64 n)))

/-- `-n` for an `int`, then converted to `uint64_t`; undefined for the least `int`. -/
def negInt (n : Int) : Outcome U64 := if n = -2 ^ 31 then .ub else .ret (BitVec.ofInt 64 (-n))

/-- `crc32_zeroes(len, init)`, yencode.cc:391-409: the length goes through `int`. -/
def apiZeroes (impl : Impl) (args : List Arg) : Outcome (List Byte) :=
  match args with
  | [] => .throw "At least 1 argument required"
  | a :: rest =>
    (initArg 0 rest).bind fun crc1 =>
    (argToInt a).bind fun v =>
    let len := toInt32 v
    if len < 0 then (negInt len).bind fun m => .ret (packCrc (unzero impl crc1 m))
    else .ret (packCrc (zeros impl crc1 (BitVec.ofInt 64 len)))

/-- `crc32_multiply(crc1, crc2)`, yencode.cc:411-425. -/
def apiMultiply (impl : Impl) (args : List Arg) : Outcome (List Byte) :=
  if args.length < 2 then .throw "At least 2 arguments required"
  else (twoCrcs args).bind fun (c1, c2) => .ret (packCrc (impl.multiply c1 c2))

/-- `crc32_shift(n, crc)`, yencode.cc:427-445. -/
def apiShift (impl : Impl) (args : List Arg) : Outcome (List Byte) :=
  match args with
  | [] => .throw "At least 1 argument required"
  | a :: rest =>
    (initArg 0x80000000#32 rest).bind fun crc1 =>
    (argToInt a).bind fun v =>
    let n := toInt32 v
    if n < 0 then (negInt n).bind fun m => .ret (packCrc (impl.shift crc1 (~~~(powmod m))))
    else .ret (packCrc (impl.shift crc1 (powmod (BitVec.ofInt 64 n))))

/-! ### Which functions can be behind the pointers

`crc32_init` (crc.cc:230-297) picks by CPU and compiler; here every mixture is admitted, which includes each set the code can install. The
functions that go through the data take its length as a C `long`. Here this is the length itself: `C41_long` says that this is what the code
does when the length fits (always on platforms with a `long` as wide as `size_t`), `C62_long_false` what happens otherwise. `around` are the
bytes near the data, which the x86 code may read. -/

/-- `_do_crc32_incremental`: crc.cc:188 (`generic`, or `crcutil` on x86), crc_folding.cc:503, crc_folding_256.cc:215, crc_arm.cc:215 (`L`: 3 with 64-bit words, 2 with 32-bit words),
crc_riscv.cc:242 (`w`: bits of a word). -/
inductive IsIncr : (Nat → List Byte → U32 → Option U32) → Prop
  | generic : IsIncr Crc.generic
  | crcutil (target : Util.Target) (around : Nat → List Byte → Nat → Byte) : IsIncr fun addr data init => Util.incr target ⟨addr, data, around addr data⟩ init
  | clmul (avx : Bool) (around : Nat → List Byte → Nat → Byte) : IsIncr fun addr data init => X86.crcFold avx ⟨addr, data, around addr data⟩ init
  | clmul256 (avx : Bool) (around : Nat → List Byte → Nat → Byte) : IsIncr fun addr data init => X86.crcFold256 avx ⟨addr, data, around addr data⟩ init
  | arm (L : Nat) (hL : L = 2 ∨ L = 3) (around : Nat → List Byte → Nat → Byte) :
      IsIncr fun addr data init => (Arm.armCalc L ⟨addr, data, around addr data⟩ (~~~init) data.length).map fun r => ~~~r
  | riscv (w : Nat) (hw : w = 64 ∨ w = 32) (around : Nat → List Byte → Nat → Byte) :
      IsIncr fun addr data init => (Rv.crcCalc w ⟨addr, data, around addr data⟩ (~~~init) data.length).map fun r => ~~~r

/-- `_crc32_multiply`: crc.cc:190, crc_folding.cc:504, crc_arm.cc:217, crc_arm_pmull.cc:208, crc_riscv.cc:243. -/
inductive IsMultiply : (U32 → U32 → U32) → Prop
  | generic : IsMultiply Crc.multiply
  | clmul : IsMultiply X86.multiply
  | arm : IsMultiply Arm.multiply
  | pmull (aarch64 : Bool) : IsMultiply (Arm.multiplyPmull aarch64)
  | riscv (w : Nat) (hw : w = 64 ∨ w = 32) : IsMultiply (Rv.multiply w)

/-- `_crc32_shift`: crc.cc:189 (with and without a bit scan), crc_folding.cc:506, crc_arm.cc:219, crc_arm_pmull.cc:209, crc_riscv.cc:245. -/
inductive IsShift : (U32 → U32 → U32) → Prop
  | generic : IsShift Crc.shift
  | portable : IsShift shiftPortable
  | clmul (avx gfni : Bool) : IsShift (X86.shift avx gfni)
  | arm : IsShift Arm.shift
  | pmull (aarch64 msvc : Bool) : IsShift (Arm.shiftPmull aarch64 msvc)
  | riscv (w : Nat) (hw : w = 64 ∨ w = 32) : IsShift (Rv.shift w)

/-- The implementations an installed module can select, crc.cc:187-192, 231-297. -/
structure IsImpl (impl : Impl) : Prop where
  incr : IsIncr impl.incr
  multiply : IsMultiply impl.multiply
  shift : IsShift impl.shift

theorem IsImpl.generic : IsImpl genericImpl := ⟨.generic, .generic, .generic⟩

end Yenc.Crc
