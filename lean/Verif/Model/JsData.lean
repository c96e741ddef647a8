import Verif.Model.JsPost
/-!
Model of the `data` argument of `encode` of a `YEncoder` (`/repo/index.js`, 385-386 and 418-419) when it is not a Buffer.
-/
namespace Yenc.Js
open Yenc

/-- What can be passed as `data`: a Buffer, a string, an array of integers (or a `Uint8Array`), or something `Buffer.from` refuses
(a number, `null`, `undefined`, a boolean).  Objects with a `length`, `ArrayBuffer`s and objects with a `valueOf` are not modelled. -/
inductive Data where
  | buffer (b : List Byte)
  | str (s : Str)
  | array (xs : List Int)
  | other
deriving DecidableEq, Repr

/-- `if(!Buffer.isBuffer(data)) data = toBuffer(data)`, index.js:386, 419, with `toBuffer` being `Buffer.from`, index.js:5 (Node.js
since 4.5; the older `Buffer` constructor takes a number as a length).  A string is converted to UTF-8; elements of an array are taken
modulo 256. -/
def toBuffer : Data → Outcome (List Byte)
  | .buffer b => .ret b
  | .str s => .ret (utf8Encode s)
  | .array xs => .ret (xs.map (BitVec.ofInt 8))
  | .other => .throw "TypeError: The first argument must be of type string or an instance of Buffer, ArrayBuffer, or Array"

/-- A call `e.encode(data)`, index.js:385-436, for any data.  The conversion comes first (index.js:386, 419), except that the function
which replaces `encode` after a single-part post (index.js:381-383) does not look at its argument. -/
def YEnc.encodeData (lib : Lib) (e : YEnc) (data : Data) : YEnc × Outcome (List Byte) :=
  if e.mode = .done then (e, .throw "Exceeded number of specified yEnc parts")
  else
    match toBuffer data with
    | .ret b => e.encode lib b
    | .throw m => (e, .throw m)
    | .ub => (e, .ub)

/-- A history of such calls. -/
def YEnc.runData (lib : Lib) (e : YEnc) : List Data → YEnc × List (Outcome (List Byte))
  | [] => (e, [])
  | d :: ds =>
    let r := e.encodeData lib d
    let s := r.1.runData lib ds
    (s.1, r.2 :: s.2)

end Yenc.Js
