import Verif.Model.JsData
/-!
The `data` argument of `encode` of a `YEncoder` where `toBuffer` is the `Buffer` constructor: index.js:5 where there is no `Buffer.alloc` (Node.js before 4.5).
-/
namespace Yenc.Js
open Yenc

/-- What can be passed as `data`: as `Data`, but Numbers apart. A Number (a non-negative integer for which there is memory; others are not modelled) is given by what the memory
newly allocated for it holds. -/
inductive OldData where
  | data (d : Data)
  | num (memory : List Byte)
deriving DecidableEq, Repr

/-- `if(!Buffer.isBuffer(data)) data = toBuffer(data)`, index.js:386, 419, with `toBuffer` being `Buffer`: a Number is taken for the length of a Buffer whose bytes are not set. -/
def toBufferOld : OldData → Outcome (List Byte)
  | .data (.buffer b) => .ret b
  | .data (.str s) => .ret (utf8Encode s)
  | .data (.array xs) => .ret (xs.map (BitVec.ofInt 8))
  | .data .other => .throw "TypeError: must start with number, buffer, array or string"
  | .num m => .ret m

/-- A call `e.encode(data)`, index.js:385-436, as `YEnc.encodeData`. -/
def YEnc.encodeOld (lib : Lib) (e : YEnc) (data : OldData) : YEnc × Outcome (List Byte) :=
  if e.mode = .done then (e, .throw "Exceeded number of specified yEnc parts")
  else
    match toBufferOld data with
    | .ret b => e.encode lib b
    | .throw m => (e, .throw m)
    | .ub => (e, .ub)

/-- A history of such calls. -/
def YEnc.runOld (lib : Lib) (e : YEnc) : List OldData → YEnc × List (Outcome (List Byte))
  | [] => (e, [])
  | d :: ds =>
    let r := e.encodeOld lib d
    let s := r.1.runOld lib ds
    (s.1, r.2 :: s.2)

end Yenc.Js
