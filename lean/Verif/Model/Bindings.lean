import Verif.Model.EncoderScalar
import Verif.Model.DecoderScalar
/-!
Model of the native encode/decode entry points, `/repo/src/yencode.cc:28-332`.

A call either returns a value, throws, or has no defined outcome (`ub`): out-of-bounds accesses, and arguments of a type
the V8 casts do not check.
-/
namespace Yenc

/-- Outcome of a call from JavaScript. -/
inductive Outcome (α : Type) where
  | ret (a : α)
  | throw (msg : String)
  | ub
deriving DecidableEq, Repr

namespace Outcome
def bind {α β : Type} (x : Outcome α) (f : α → Outcome β) : Outcome β :=
  match x with
  | .ret a => f a
  | .throw m => .throw m
  | .ub => .ub
end Outcome

/-- Arguments: a Buffer, an integral Number (within int64), a Boolean, anything else. -/
inductive Arg where
  | buffer (b : List Byte)
  | int (n : Int)
  | bool (b : Bool)
  | other
deriving DecidableEq, Repr

/-- `(int)x` of a 64-bit integer: keep the low 32 bits. -/
def toInt32 (n : Int) : Int := (BitVec.ofInt 32 n).toInt

/-- `ARG_TO_INT(a)`, yencode.cc:56: `As<Integer>()->Value()`; the cast is unchecked, so other types are undefined. -/
def argToInt : Arg → Outcome Int
  | .int n => .ret n
  | _ => .ub

/-- `ARG_TO_BOOL(a)`, yencode.cc:57. -/
def argToBool : Arg → Outcome Bool
  | .bool b => .ret b
  | _ => .ub

/-- `YENC_MAX_SIZE`, yencode.cc:28-42 (build with AVX2 enabled; `size_t` arithmetic does not wrap for lengths below 2^62). -/
def yencMaxSize (len lineSize : Nat) : Nat :=
  let ret := len * 2 + 2 + 64
  if lineSize = 128 then ret + 2 * (len >>> 6)
  else ret + 2 * ((len * 2) / lineSize)

namespace Enc

/-- The function behind `_do_encode`, encoder.h:10-14: line size, column, input, `isEnd`. -/
abbrev Impl := Int → Int → List Byte → Bool → Option (W × Int)

/-- yencode.cc:115-127, 149-161 (also 188-203): the optional line size and column arguments. -/
def lineArgs (rest : List Arg) : Outcome (Int × Int) :=
  match rest with
  | [] => .ret (128, 0)
  | a :: rest =>
    (argToInt a).bind fun n =>
    let ls := if toInt32 n = 0 then 128 else toInt32 n
    if ls < 0 then .throw "Line size must be at least 1 byte"
    else
      match rest with
      | [] => .ret (ls, 0)
      | b :: _ =>
        (argToInt b).bind fun m =>
        let col := toInt32 m
        if col > ls ∨ col < 0 then .throw "Column offset cannot exceed the line size and cannot be negative"
        else .ret (ls, if col = ls then 0 else col)

/-- Run the encoder into a destination of `size` bytes; touching anything outside is undefined. -/
def runInto (impl : Impl) (ls col : Int) (src : List Byte) (fin : Bool) (size : Nat) : Outcome (List Byte × Int) :=
  match impl ls col src fin with
  | none => .ub
  | some (w, col') => if w.hi ≤ size ∧ w.out.length ≤ size then .ret (w.out, col') else .ub

/-- `encode(data, line_size, col)`, yencode.cc:105-137. -/
def apiEncode (impl : Impl) (args : List Arg) : Outcome (List Byte) :=
  match args with
  | .buffer src :: rest =>
    if src = [] then .ret []
    else
      (lineArgs rest).bind fun (ls, col) =>
      (runInto impl ls col src true (yencMaxSize src.length ls.toNat)).bind fun (out, _) => .ret out
  | _ => .throw "You must supply a Buffer"

/-- `encodeTo(data, output, line_size, col)`, yencode.cc:139-170. Returns the length (`Integer::New` takes an `int32_t`, so it is truncated) and the bytes at the start of the output
buffer (bytes after those, up to the required size, may hold scratch data; the rest of the buffer is untouched). -/
def apiEncodeTo (impl : Impl) (args : List Arg) : Outcome (Int × List Byte) :=
  match args with
  | .buffer src :: .buffer dest :: rest =>
    if src = [] then .ret (0, [])
    else
      (lineArgs rest).bind fun (ls, col) =>
      if dest.length < yencMaxSize src.length ls.toNat then
        .throw "Destination buffer does not have enough space (use `maxSize` to compute required space)"
      else
        (runInto impl ls col src true dest.length).bind fun (out, _) => .ret (toInt32 out.length, out)
  | _ => .throw "You must supply two Buffers"

/-- `encodeIncr(data, [output,] line_size, col)`, yencode.cc:172-234: output bytes and the new column.  The destination is checked
against the size needed for `line_size = 128`, whatever the actual line size (yencode.cc:186-190). -/
def apiEncodeIncr (impl : Impl) (args : List Arg) : Outcome (List Byte × Int) :=
  match args with
  | .buffer src :: .buffer dest :: rest =>
    if dest.length < yencMaxSize src.length 128 then
      .throw "Destination buffer does not have enough space (use `maxSize` to compute required space)"
    else
      (lineArgs rest).bind fun (ls, col) =>
      if src = [] then .ret ([], col) else runInto impl ls col src false dest.length
  | .buffer src :: rest =>
    (lineArgs rest).bind fun (ls, col) =>
    if src = [] then .ret ([], col) else runInto impl ls col src false (yencMaxSize src.length ls.toNat)
  | _ => .throw "You must supply a Buffer"

end Enc

namespace Dec

/-- The functions behind `_do_decode`, `_do_decode_raw` (both called with `state == NULL`) and `_do_decode_end_raw`, decoder.h:30-44. `none` is
an access outside the input or outside the first `len` bytes of the output. -/
structure Impl where
  plain : List Byte → Option (List Byte)
  raw : List Byte → Option (List Byte)
  endRaw : State → List Byte → Option Res

/-- The portable implementation, decoder.cc:340-343. -/
def generic : Impl where
  plain l := some (noendPlain none l).1
  raw l := (noendRaw none l).map (·.1)
  endRaw := Dec.endRaw

def runPlain (impl : Impl) (isRaw : Bool) (src : List Byte) (size : Nat) : Outcome (List Byte) :=
  match (if isRaw then impl.raw src else impl.plain src) with
  | none => .ub
  | some out => if out.length ≤ size then .ret out else .ub

/-- The optional `stripDots` argument, yencode.cc:246-248, 271-273. -/
def rawArg (rest : List Arg) : Outcome Bool :=
  match rest with
  | [] => .ret false
  | a :: _ => argToBool a

/-- `decode(data, stripDots)`, yencode.cc:236-255. -/
def apiDecode (impl : Impl) (args : List Arg) : Outcome (List Byte) :=
  match args with
  | .buffer src :: rest =>
    if src = [] then .ret []
    else (rawArg rest).bind fun isRaw => runPlain impl isRaw src src.length
  | _ => .throw "You must supply a Buffer"

/-- `decodeTo(data, output, stripDots)`, yencode.cc:257-277: the returned length and the bytes written at the start of the output. -/
def apiDecodeTo (impl : Impl) (args : List Arg) : Outcome (Int × List Byte) :=
  match args with
  | .buffer src :: .buffer dest :: rest =>
    if src = [] then .ret (0, [])
    else if dest.length < src.length then .ret (0, [])
    else (rawArg rest).bind fun isRaw =>
      (runPlain impl isRaw src dest.length).bind fun out => .ret (toInt32 out.length, out)
  | _ => .throw "You must supply two Buffers"

/-- `YencDecoderState` as the integer used by JavaScript, decoder.h:12-20. -/
def State.toNat : State → Nat
  | .crlf => 0 | .eq => 1 | .cr => 2 | .none => 3 | .crlfdt => 4 | .crlfdtcr => 5 | .crlfeq => 6

/-- Cast of an integer to `YencDecoderState`; other values have no enumerator. -/
def State.ofInt (n : Int) : Option State :=
  if n = 0 then some .crlf else if n = 1 then some .eq else if n = 2 then some .cr
  else if n = 3 then some .none else if n = 4 then some .crlfdt else if n = 5 then some .crlfdtcr
  else if n = 6 then some .crlfeq else none

/-- `YencDecoderEnd` as an integer, decoder.h:23-27. -/
def Ended.toNat : Ended → Nat
  | .none => 0 | .control => 1 | .article => 2

/-- The object returned by `decodeIncr`, yencode.cc:320-331; the counts go through `int32_t`. -/
structure IncrRes where
  read : Int
  written : Int
  output : List Byte
  ended : Nat
  state : Nat
deriving DecidableEq, Repr

/-- `decodeIncr(data, state, output)`, yencode.cc:280-332, as called by index.js:160 (non-empty data, three arguments). `dest` is the length of
the output Buffer if one was given. -/
def decodeIncr (impl : Impl) (src : List Byte) (state : Int) (dest : Option Nat) : Outcome IncrRes :=
  match State.ofInt state with
  | none => .ub
  | some st =>
    if (match dest with | some n => decide (n < src.length) | none => false) then
      .throw "Destination buffer does not have enough space"
    else
      match impl.endRaw st src with
      | none => .ub
      | some r =>
        if r.out.length ≤ src.length then
          .ret ⟨toInt32 ↑(src.length - r.rest.length), toInt32 r.out.length, r.out, r.ended.toNat, r.state.toNat⟩
        else .ub

end Dec
end Yenc
