import Verif.Model.Bindings
/-!
Model of `decodeChunk`, `minSize`, `maxSize` in `/repo/index.js`.

Strings are lists of one-byte characters.
-/
namespace Yenc.Js
open Yenc

/-- A JavaScript value, as far as `decodeChunk` distinguishes them. -/
inductive Val where
  | undef | null
  | buffer (b : List Byte)
  | str (s : List Byte)
  | other
deriving DecidableEq, Repr

/-- `decodePrev`, index.js:12. -/
def decodePrev : List (List Byte) :=
  [[CR, LF], [EQ], [CR], [], [CR, LF, DOT], [CR, LF, DOT, CR], [CR, LF, EQ]]

/-- `s.slice(-n)`. -/
def sliceEnd (s : List Byte) (n : Nat) : List Byte := s.drop (s.length - n)

/-- The object returned by `decodeChunk`, index.js:162-168. -/
structure ChunkRes where
  read : Int
  written : Int
  output : List Byte
  ended : Bool
  state : List Byte
deriving DecidableEq, Repr

/-- index.js:142-144: the state string after normalisation. -/
def normPrev (prev : List Byte) : List Byte :=
  let p := sliceEnd prev 4
  if p = [CR, LF, DOT, EQ] then [CR, LF, EQ] else p

/-- index.js:152-159: state number of a state string; `none` is the ReferenceError raised by `i++` (`i` is not declared) in
the first round of the loop. -/
def stateIndex (p : List Byte) : Option Nat :=
  let s := decodePrev.findIdx (· = p)
  if s < decodePrev.length then some s
  else
    let s3 := decodePrev.findIdx (· = sliceEnd p 3)
    if s3 < decodePrev.length then some s3 else none

/-- index.js:139-168, with `prev` a string and `output` a Buffer (its length) or not. -/
def decodeChunkCore (impl : Dec.Impl) (data : List Byte) (dest : Option Nat) (prev : List Byte) : Outcome ChunkRes :=
  let p := normPrev prev
  if data = [] then .ret ⟨0, 0, [], false, p⟩
  else
    match stateIndex p with
    | none => .throw "ReferenceError: i is not defined"
    | some st =>
      (Dec.decodeIncr impl data st dest).bind fun r =>
      .ret ⟨r.read, r.written, r.output, r.ended ≠ 0,
        ([decodePrev.getD r.state [], [CR, LF, EQ, LY], [CR, LF, DOT, CR, LF]] : List (List Byte)).getD r.ended []⟩

/-- index.js:135-138: both arguments are optional; an `output` that is neither undefined nor a Buffer is taken for `prev`. -/
def shuffle (output prev : Val) : Val × Val :=
  match output with
  | .undef => (.undef, prev)
  | .buffer b => (.buffer b, prev)
  | .null => (.null, .null)
  | .str s => (.null, .str s)
  | .other => (.null, .other)

/-- The third argument of `decodeIncr`: the length of the Buffer, if it is one. -/
def Val.destLen : Val → Option Nat
  | .buffer b => some b.length
  | _ => none

/-- `decodeChunk(data, output, prev)`, index.js:133-169.  (A Buffer given as state is turned into a string; here without UTF-8
decoding, which cannot turn a non-state into a state.) -/
def decodeChunk (impl : Dec.Impl) (data : List Byte) (output prev : Val) : Outcome ChunkRes :=
  match (shuffle output prev).2 with
  | .undef => decodeChunkCore impl data (shuffle output prev).1.destLen [CR, LF]
  | .null => decodeChunkCore impl data (shuffle output prev).1.destLen [CR, LF]
  | .buffer b => decodeChunkCore impl data (shuffle output prev).1.destLen b
  | .str s => decodeChunkCore impl data (shuffle output prev).1.destLen s
  | .other => .throw "TypeError: prev.slice is not a function"

/-- `minSize(length, line_size)`, index.js:171-175, for integral arguments. -/
def minSize (length lineSize : Nat) : Nat :=
  if length = 0 then 0 else length + 2 * (length / (if lineSize = 0 then 128 else lineSize))

/-- `maxSize(length, line_size)`, index.js:176-189, with the default escape ratio 1. -/
def maxSize (length lineSize : Nat) : Nat :=
  if length = 0 then 0
  else length * 2 + 2 * ((length * 2) / (if lineSize = 0 then 128 else lineSize)) + 2 + 64

end Yenc.Js
