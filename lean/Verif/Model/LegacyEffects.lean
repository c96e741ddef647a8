import Verif.Model.Bindings
import Verif.Model.CrcBindings
/-!
The native functions as compiled for Node before version 8, where converting an argument to a number may run JavaScript (`valueOf`, `toString`) in the middle of the call:
yencode.cc:61, 84. That code can do anything with the Buffers, including calling these functions again. `decode`, `decodeTo`, `crc32` and `crc32_multiply` run no such code
(`ToBoolean` runs none) and are as in Model/Legacy.lean. Simplified: different Buffers do not share memory.
-/
namespace Yenc.LegacyEffects
open Yenc

/-- What each Buffer holds. -/
abbrev Store := Nat → List Byte

/-- An argument: which Buffer it is, if `node::Buffer::HasInstance`; what `ToInteger()->Value()` gives (`none` if it throws or the number does not fit `int64_t`) and the Buffers after that. -/
structure Obj where
  buf : Option Nat
  toInteger : Store → Option Int × Store

/-- `ARG_TO_INT(a)`, yencode.cc:61, 84: a conversion that throws leaves an empty handle, which is followed without a check. -/
def argToInt (v : Obj) (s : Store) : Outcome (Int × Store) :=
  match (v.toInteger s).1 with
  | some n => .ret (n, (v.toInteger s).2)
  | none => .ub

/-- The `len` bytes at `node::Buffer::Data(x)`; reading beyond the Buffer is undefined. -/
def readData (s : Store) (i len : Nat) : Outcome (List Byte) :=
  if len ≤ (s i).length then .ret ((s i).take len) else .ub

/-- yencode.cc:115-127, 149-161, 188-203: the optional line size and column arguments, and the Buffers after their conversion. -/
def lineArgs (rest : List Obj) (s : Store) : Outcome ((Int × Int) × Store) :=
  match rest with
  | [] => .ret ((128, 0), s)
  | a :: rest =>
    (argToInt a s).bind fun (n, s) =>
    let ls := if toInt32 n = 0 then 128 else toInt32 n
    if ls < 0 then .throw "Line size must be at least 1 byte"
    else
      match rest with
      | [] => .ret ((ls, 0), s)
      | b :: _ =>
        (argToInt b s).bind fun (m, s) =>
        let col := toInt32 m
        if col > ls ∨ col < 0 then .throw "Column offset cannot exceed the line size and cannot be negative"
        else .ret ((ls, if col = ls then 0 else col), s)

/-- `encode`, yencode.cc:105-137: the length of the data is taken on entry (line 111), its bytes after the conversions (line 133). Also gives the Buffers at the end. -/
def encode (impl : Enc.Impl) (args : List Obj) (s : Store) : Outcome (List Byte × Store) :=
  match args with
  | [] => .throw "You must supply a Buffer"
  | a :: rest =>
    match a.buf with
    | none => .throw "You must supply a Buffer"
    | some i =>
      let argLen := (s i).length
      if argLen = 0 then .ret ([], s)
      else
        (lineArgs rest s).bind fun ((ls, col), s) =>
        (readData s i argLen).bind fun src =>
        (Enc.runInto impl ls col src true (yencMaxSize argLen ls.toNat)).bind fun (out, _) => .ret (out, s)

/-- `encodeTo`, yencode.cc:139-170: the length of the output is taken after the conversions (line 165). Gives the value, the bytes put at the start of the output, and the Buffers
as they are before that. -/
def encodeTo (impl : Enc.Impl) (args : List Obj) (s : Store) : Outcome ((Int × List Byte) × Store) :=
  match args with
  | a :: b :: rest =>
    match a.buf, b.buf with
    | some i, some j =>
      let argLen := (s i).length
      if argLen = 0 then .ret ((0, []), s)
      else
        (lineArgs rest s).bind fun ((ls, col), s) =>
        if (s j).length < yencMaxSize argLen ls.toNat then
          .throw "Destination buffer does not have enough space (use `maxSize` to compute required space)"
        else
          (readData s i argLen).bind fun src =>
          (Enc.runInto impl ls col src true (s j).length).bind fun (out, _) => .ret ((toInt32 out.length, out), s)
    | _, _ => .throw "You must supply two Buffers"
  | _ => .throw "You must supply two Buffers"

/-- `encodeIncr`, yencode.cc:172-234: the length and address of the output, too, are taken before the conversions (lines 189-191). Gives the bytes and the column, and the Buffers as
they are before the bytes are put into the output, if there is one. -/
def encodeIncr (impl : Enc.Impl) (args : List Obj) (s : Store) : Outcome ((List Byte × Int) × Store) :=
  match args with
  | [] => .throw "You must supply a Buffer"
  | a :: rest =>
    match a.buf with
    | none => .throw "You must supply a Buffer"
    | some i =>
      let argLen := (s i).length
      let run (rest : List Obj) (size : Int → Store → Nat) : Outcome ((List Byte × Int) × Store) :=
        (lineArgs rest s).bind fun ((ls, col), s) =>
        if argLen = 0 then .ret (([], col), s)
        else
          (readData s i argLen).bind fun src =>
          (Enc.runInto impl ls col src false (size ls s)).bind fun r => .ret (r, s)
      match rest with
      | [] => run [] fun ls _ => yencMaxSize argLen ls.toNat
      | b :: rest =>
        match b.buf with
        | none => run (b :: rest) fun ls _ => yencMaxSize argLen ls.toNat
        | some j =>
          if (s j).length < yencMaxSize argLen 128 then
            .throw "Destination buffer does not have enough space (use `maxSize` to compute required space)"
          else run rest fun _ s => (s j).length

/-- The optional second argument of `crc32_zeroes` and `crc32_shift`, yencode.cc:398-402, 434-438: read on entry. -/
def initArg (dflt : Crc.U32) (rest : List Obj) (s : Store) : Outcome Crc.U32 :=
  match rest with
  | [] => .ret dflt
  | a :: _ =>
    match a.buf with
    | some i => if (s i).length ≠ 4 then .throw "Second argument must be a 4 byte buffer" else Crc.readCrc (s i)
    | none => .throw "Second argument must be a 4 byte buffer"

/-- `crc32_combine`, yencode.cc:375-389: the CRCs are read (line 384) before the length is converted. -/
def combine (impl : Crc.Impl) (args : List Obj) (s : Store) : Outcome (List Byte × Store) :=
  match args with
  | a :: b :: c :: _ =>
    match a.buf, b.buf with
    | some i, some j =>
      if (s i).length ≠ 4 ∨ (s j).length ≠ 4 then .throw "You must supply a 4 byte Buffer for the first two arguments"
      else
        (Crc.readCrc (s i)).bind fun c1 =>
        (Crc.readCrc (s j)).bind fun c2 =>
        (argToInt c s).bind fun (n, s) =>
        .ret (Crc.packCrc (Crc.combine impl c1 c2 (BitVec.ofInt 64 n)), s)
    | _, _ => .throw "You must supply a 4 byte Buffer for the first two arguments"
  | _ => .throw "At least 3 arguments required"

/-- `crc32_zeroes`, yencode.cc:391-409. -/
def zeroes (impl : Crc.Impl) (args : List Obj) (s : Store) : Outcome (List Byte × Store) :=
  match args with
  | [] => .throw "At least 1 argument required"
  | a :: rest =>
    (initArg 0 rest s).bind fun crc1 =>
    (argToInt a s).bind fun (v, s) =>
    let len := toInt32 v
    if len < 0 then (Crc.negInt len).bind fun m => .ret (Crc.packCrc (Crc.unzero impl crc1 m), s)
    else .ret (Crc.packCrc (Crc.zeros impl crc1 (BitVec.ofInt 64 len)), s)

/-- `crc32_shift`, yencode.cc:427-445. -/
def shift (impl : Crc.Impl) (args : List Obj) (s : Store) : Outcome (List Byte × Store) :=
  match args with
  | [] => .throw "At least 1 argument required"
  | a :: rest =>
    (initArg 0x80000000#32 rest s).bind fun crc1 =>
    (argToInt a s).bind fun (v, s) =>
    let n := toInt32 v
    if n < 0 then (Crc.negInt n).bind fun m => .ret (Crc.packCrc (impl.shift crc1 (~~~(Crc.powmod m))), s)
    else .ret (Crc.packCrc (impl.shift crc1 (Crc.powmod (BitVec.ofInt 64 n))), s)

end Yenc.LegacyEffects
