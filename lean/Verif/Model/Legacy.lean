import Verif.Model.Bindings
import Verif.Model.CrcBindings
/-!
The native functions as compiled for Node before version 8 (package.json:17-19 asks for 0.10 or later): there `ARG_TO_INT` and `ARG_TO_BOOL` convert their argument
(yencode.cc:61-62 and 84-85) instead of casting it. Simplified: a conversion that runs JavaScript (`valueOf`) leaves the Buffers as they are; otherwise see Model/LegacyEffects.lean. `decodeIncr` is not
here: index.js:160 always gives it a Number.
-/
namespace Yenc.Legacy
open Yenc

/-- An argument, as far as the functions look at it: the bytes if `node::Buffer::HasInstance`; what `ToInteger()->Value()` gives, `none` if the conversion throws (the handle is then
empty, and it is followed without a check) or the number does not fit `int64_t`; what `ToBoolean()->Value()` gives. -/
structure Val where
  buf : Option (List Byte)
  toInteger : Option Int
  toBoolean : Bool
deriving DecidableEq, Repr

/-- `ARG_TO_INT(a)`, yencode.cc:61, 84. -/
def argToInt (v : Val) : Outcome Int :=
  match v.toInteger with
  | some n => .ret n
  | none => .ub

/-- `ARG_TO_BOOL(a)`, yencode.cc:62, 85. -/
def argToBool (v : Val) : Outcome Bool := .ret v.toBoolean

/-- yencode.cc:115-127, 149-161, 188-203: the optional line size and column arguments. -/
def lineArgs (rest : List Val) : Outcome (Int × Int) :=
  match rest with
  | [] => .ret (128, 0)
  | a :: rest =>
    (argToInt a).bind fun n =>
    let ls := if toInt32 n = 0 then 128 else toInt32 n
    if ls < 0 then .throw "Line size must be at least 1 byte"
    else
      match rest with
      | [] => .ret (ls, 0)
      | b :: _ =>
        (argToInt b).bind fun m =>
        let col := toInt32 m
        if col > ls ∨ col < 0 then .throw "Column offset cannot exceed the line size and cannot be negative"
        else .ret (ls, if col = ls then 0 else col)

/-- `encode`, yencode.cc:105-137. -/
def encode (impl : Enc.Impl) (args : List Val) : Outcome (List Byte) :=
  match args with
  | [] => .throw "You must supply a Buffer"
  | a :: rest =>
    match a.buf with
    | none => .throw "You must supply a Buffer"
    | some src =>
      if src = [] then .ret []
      else
        (lineArgs rest).bind fun (ls, col) =>
        (Enc.runInto impl ls col src true (yencMaxSize src.length ls.toNat)).bind fun (out, _) => .ret out

/-- `encodeTo`, yencode.cc:139-170. -/
def encodeTo (impl : Enc.Impl) (args : List Val) : Outcome (Int × List Byte) :=
  match args with
  | a :: b :: rest =>
    match a.buf, b.buf with
    | some src, some dest =>
      if src = [] then .ret (0, [])
      else
        (lineArgs rest).bind fun (ls, col) =>
        if dest.length < yencMaxSize src.length ls.toNat then
          .throw "Destination buffer does not have enough space (use `maxSize` to compute required space)"
        else
          (Enc.runInto impl ls col src true dest.length).bind fun (out, _) => .ret (toInt32 out.length, out)
    | _, _ => .throw "You must supply two Buffers"
  | _ => .throw "You must supply two Buffers"

/-- `encodeIncr`, yencode.cc:172-234; a Buffer in second place is the destination. -/
def encodeIncr (impl : Enc.Impl) (args : List Val) : Outcome (List Byte × Int) :=
  match args with
  | [] => .throw "You must supply a Buffer"
  | a :: rest =>
    match a.buf with
    | none => .throw "You must supply a Buffer"
    | some src =>
      let alloc := (lineArgs rest).bind fun (ls, col) =>
        if src = [] then .ret ([], col) else Enc.runInto impl ls col src false (yencMaxSize src.length ls.toNat)
      match rest with
      | [] => alloc
      | b :: rest =>
        match b.buf with
        | none => alloc
        | some dest =>
          if dest.length < yencMaxSize src.length 128 then
            .throw "Destination buffer does not have enough space (use `maxSize` to compute required space)"
          else
            (lineArgs rest).bind fun (ls, col) =>
            if src = [] then .ret ([], col) else Enc.runInto impl ls col src false dest.length

/-- The optional `stripDots` argument, yencode.cc:246-248, 271-273. -/
def rawArg (rest : List Val) : Outcome Bool :=
  match rest with
  | [] => .ret false
  | a :: _ => argToBool a

/-- `decode`, yencode.cc:236-255. -/
def decode (impl : Dec.Impl) (args : List Val) : Outcome (List Byte) :=
  match args with
  | [] => .throw "You must supply a Buffer"
  | a :: rest =>
    match a.buf with
    | none => .throw "You must supply a Buffer"
    | some src =>
      if src = [] then .ret []
      else (rawArg rest).bind fun isRaw => Dec.runPlain impl isRaw src src.length

/-- `decodeTo`, yencode.cc:257-277. -/
def decodeTo (impl : Dec.Impl) (args : List Val) : Outcome (Int × List Byte) :=
  match args with
  | a :: b :: rest =>
    match a.buf, b.buf with
    | some src, some dest =>
      if src = [] then .ret (0, [])
      else if dest.length < src.length then .ret (0, [])
      else (rawArg rest).bind fun isRaw =>
        (Dec.runPlain impl isRaw src dest.length).bind fun out => .ret (toInt32 out.length, out)
    | _, _ => .throw "You must supply two Buffers"
  | _ => .throw "You must supply two Buffers"

/-- The optional second argument of the CRC functions, yencode.cc:361-366, 398-402, 434-438. -/
def initArg (dflt : Crc.U32) (rest : List Val) : Outcome Crc.U32 :=
  match rest with
  | [] => .ret dflt
  | a :: _ =>
    match a.buf with
    | some b => if b.length ≠ 4 then .throw "Second argument must be a 4 byte buffer" else Crc.readCrc b
    | none => .throw "Second argument must be a 4 byte buffer"

/-- `crc32`, yencode.cc:354-373. -/
def crc32 (impl : Crc.Impl) (addr : Nat) (args : List Val) : Outcome (List Byte) :=
  match args with
  | [] => .throw "You must supply a Buffer"
  | a :: rest =>
    match a.buf with
    | none => .throw "You must supply a Buffer"
    | some data =>
      (initArg 0 rest).bind fun init =>
      match impl.incr addr data init with
      | some r => .ret (Crc.packCrc r)
      | none => .ub

/-- The two-Buffer check, yencode.cc:380-382, 417-419. -/
def twoCrcs (args : List Val) : Outcome (Crc.U32 × Crc.U32) :=
  match args with
  | a :: b :: _ =>
    match a.buf, b.buf with
    | some a, some b =>
      if a.length ≠ 4 ∨ b.length ≠ 4 then .throw "You must supply a 4 byte Buffer for the first two arguments"
      else (Crc.readCrc a).bind fun c1 => (Crc.readCrc b).bind fun c2 => .ret (c1, c2)
    | _, _ => .throw "You must supply a 4 byte Buffer for the first two arguments"
  | _ => .throw "You must supply a 4 byte Buffer for the first two arguments"

/-- `crc32_combine`, yencode.cc:375-389. -/
def combine (impl : Crc.Impl) (args : List Val) : Outcome (List Byte) :=
  match args with
  | a :: b :: c :: rest =>
    (twoCrcs (a :: b :: c :: rest)).bind fun (c1, c2) =>
    (argToInt c).bind fun n =>
    .ret (Crc.packCrc (Crc.combine impl c1 c2 (BitVec.ofInt 64 n)))
  | _ => .throw "At least 3 arguments required"

/-- `crc32_zeroes`, yencode.cc:391-409. -/
def zeroes (impl : Crc.Impl) (args : List Val) : Outcome (List Byte) :=
  match args with
  | [] => .throw "At least 1 argument required"
  | a :: rest =>
    (initArg 0 rest).bind fun crc1 =>
    (argToInt a).bind fun v =>
    let len := toInt32 v
    if len < 0 then (Crc.negInt len).bind fun m => .ret (Crc.packCrc (Crc.unzero impl crc1 m))
    else .ret (Crc.packCrc (Crc.zeros impl crc1 (BitVec.ofInt 64 len)))

/-- `crc32_multiply`, yencode.cc:411-425. -/
def multiply (impl : Crc.Impl) (args : List Val) : Outcome (List Byte) :=
  if args.length < 2 then .throw "At least 2 arguments required"
  else (twoCrcs args).bind fun (c1, c2) => .ret (Crc.packCrc (impl.multiply c1 c2))

/-- `crc32_shift`, yencode.cc:427-445. -/
def shift (impl : Crc.Impl) (args : List Val) : Outcome (List Byte) :=
  match args with
  | [] => .throw "At least 1 argument required"
  | a :: rest =>
    (initArg 0x80000000#32 rest).bind fun crc1 =>
    (argToInt a).bind fun v =>
    let n := toInt32 v
    if n < 0 then (Crc.negInt n).bind fun m => .ret (Crc.packCrc (impl.shift crc1 (~~~(Crc.powmod m))))
    else .ret (Crc.packCrc (impl.shift crc1 (Crc.powmod (BitVec.ofInt 64 n))))

end Yenc.Legacy
