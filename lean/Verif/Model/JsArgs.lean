import Verif.Model.Number
/-!
`multi_post(name, size, parts, line_size)` and the `encode` of the object it returns (`/repo/index.js`, 210-212 and 356-437) with any primitive values as `size`, `parts` and
`line_size`.  `Model/JsPost.lean` has them as non-negative integers.  Nothing in index.js checks or converts these three: they are kept as they are, compared by `>`, `==` and
`!=` (which convert them as ECMA-262 says), put into the header by `+`, and `line_size` is handed to the native `encode`.

Left out: Symbols (every use of one throws) and objects (which run code of their own when converted).
-/
namespace Yenc.Js
open Yenc

/-- A primitive value. -/
inductive Prim where
  | undef
  | null
  | bool (b : Bool)
  | num (n : Number)
  | big (z : Int)
  | str (s : Str)
deriving DecidableEq

namespace Prim

/-- What `<` and `==` compare a value as when the other side is a Number (ECMA-262 7.2.13, 7.1.4): BigInts are compared by their mathematical value, without rounding. -/
def numeric : Prim → Number
  | undef => .nan
  | null => .fin 0
  | bool b => .fin (if b then 1 else 0)
  | num n => n
  | big z => .fin z
  | str s => .ofStr s

/-- `n == v` for an integer `n` from 0 to 2^53 (index.js:398, 400, 421; ECMA-262 7.2.14): `null` and `undefined` are not equal to any Number. -/
def eqNat (n : Nat) : Prim → Bool
  | undef => false
  | null => false
  | v => !Number.ne (.fin n) v.numeric

/-- `n > v` for such an `n` (index.js:389, 392). -/
def gtNat (n : Nat) (v : Prim) : Bool := Number.lt v.numeric (.fin n)

/-- `!v` (index.js:357). -/
def falsy : Prim → Bool
  | undef => true
  | null => true
  | bool b => !b
  | num n => n.falsy
  | big z => decide (z = 0)
  | str s => s.isEmpty

/-- `'' + v` (index.js:370, 375).  `sh` is Number::toString (ECMA-262 6.1.6.1.20); theorems only use that it writes integers below 10^21 in decimal. -/
def toStr (sh : Number → Str) : Prim → Str
  | undef => lit "undefined"
  | null => lit "null"
  | bool b => if b then lit "true" else lit "false"
  | num n => sh n
  | big z => if z < 0 then lit "-" ++ dec z.natAbs else dec z.natAbs
  | str s => s

/-- The value as an argument of a native function: an integral Number within int64, a Boolean, or something else. -/
def toArg : Prim → Arg
  | bool b => .bool b
  | num (.fin q) => if q.den = 1 ∧ -2 ^ 63 ≤ q.num ∧ q.num < 2 ^ 63 then .int q.num else .other
  | _ => .other

end Prim

/-- The fields of a `YEncoder`, index.js:356-380.  `part` and `pos` count up from 0 by integers (exact up to 2^53). -/
structure YEncV where
  size : Prim
  parts : Prim
  lineSize : Prim
  part : Nat
  pos : Nat
  crc : List Byte
  yInfo : Option (List Byte)
  mode : Mode

/-- `new YEncoder(filename, size, parts, line_size)`, index.js:356-380; `multi_post`, index.js:210-212. -/
def multiPostV (sh : Number → Str) (name : Str) (size parts lineSize : Prim) : YEncV :=
  let ls := if lineSize.falsy then .num (.fin 128) else lineSize
  if Number.lt (.fin 1) parts.numeric then
    ⟨size, parts, ls, 0, 0, [0, 0, 0, 0],
      some (utf8Encode (lit " total=" ++ parts.toStr sh ++ lit " line=" ++ ls.toStr sh ++ lit " size=" ++ size.toStr sh ++ lit " name=") ++
        fileName name ++ [CR, LF]), .multi⟩
  else
    ⟨size, parts, ls, 0, 0, [0, 0, 0, 0],
      some (utf8Encode (lit "=ybegin line=" ++ ls.toStr sh ++ lit " size=" ++ size.toStr sh ++ lit " name=") ++ fileName name ++ [CR, LF]), .single⟩

/-- index.js:406-415, as `YEnc.finish`. -/
def YEncV.finish (lib : Lib) (e : YEncV) (data : List Byte) (yInfo : Option (List Byte)) (crc : List Byte) (fullCrc : Str) :
    YEncV × Outcome (List Byte) :=
  match yInfo with
  | none => (e, .throw "TypeError: list[1] is null")
  | some yi =>
    match Enc.apiEncode lib.enc [.buffer data, e.lineSize.toArg] with
    | .ret body => ({ e with pos := e.pos + data.length }, .ret (partText e.part e.pos data.length yi body crc fullCrc))
    | .throw m => (e, .throw m)
    | .ub => (e, .ub)

/-- index.js:395-404, as `YEnc.sums`. -/
def YEncV.sums (lib : Lib) (e : YEncV) (data : List Byte) : YEncV × Outcome (List Byte) :=
  match lib.crc32 data with
  | .throw m => (e, .throw m)
  | .ub => (e, .ub)
  | .ret crc =>
    match Crc.apiCombine lib.crc [.buffer e.crc, .buffer crc, .int data.length] with
    | .throw m => (e, .throw m)
    | .ub => (e, .ub)
    | .ret full =>
      let e1 := { e with crc := full }
      if e1.parts.eqNat e1.part then
        if !e1.size.eqNat (e1.pos + data.length) then (e1, .throw "File size doesn't match total data length")
        else ({ e1 with yInfo := none } : YEncV).finish lib data e1.yInfo crc (lit " crc32=" ++ hex full)
      else e1.finish lib data e1.yInfo crc []

/-- `YEncoder.prototype.encode(data)`, index.js:385-416, for a Buffer. -/
def YEncV.encodeMulti (lib : Lib) (e : YEncV) (data : List Byte) : YEncV × Outcome (List Byte) :=
  let e1 := { e with part := e.part + 1 }
  if e1.parts.gtNat e1.part then (e1, .throw "Exceeded number of specified yEnc parts")
  else if e1.size.gtNat (e1.pos + data.length) then (e1, .throw "Exceeded total file size")
  else e1.sums lib data

/-- `_encodeSingle(data)`, index.js:418-436. -/
def YEncV.encodeSingle (lib : Lib) (e : YEncV) (data : List Byte) : YEncV × Outcome (List Byte) :=
  if !e.size.eqNat data.length then (e, .throw "File size doesn't match total data length")
  else
    let e1 : YEncV := { e with mode := .done, part := 1, pos := data.length }
    match lib.crc32 data with
    | .throw m => (e1, .throw m)
    | .ub => (e1, .ub)
    | .ret crc =>
      let e2 : YEncV := { e1 with crc := crc, yInfo := none }
      match e1.yInfo with
      | none => (e2, .throw "TypeError: list[0] is null")
      | some yi =>
        match Enc.apiEncode lib.enc [.buffer data, e.lineSize.toArg] with
        | .ret body => (e2, .ret (singleText yi body data.length crc))
        | .throw m => (e2, .throw m)
        | .ub => (e2, .ub)

/-- A call `e.encode(data)`. -/
def YEncV.encode (lib : Lib) (e : YEncV) (data : List Byte) : YEncV × Outcome (List Byte) :=
  match e.mode with
  | .multi => e.encodeMulti lib data
  | .single => e.encodeSingle lib data
  | .done => (e, .throw "Exceeded number of specified yEnc parts")

/-- A history of calls: the encoder after it and the outcomes. -/
def YEncV.run (lib : Lib) (e : YEncV) : List (List Byte) → YEncV × List (Outcome (List Byte))
  | [] => (e, [])
  | d :: ds =>
    let r := e.encode lib d
    let s := r.1.run lib ds
    (s.1, r.2 :: s.2)

end Yenc.Js
