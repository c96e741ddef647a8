import Verif.Model.JsPost
/-!
`from_post` with other values of the `encoding` property of the module (index.js:122).  The property is used in two ways: lines are converted to text by
`toString(this.encoding)` (index.js:238, 272), and the texts searched for are converted to bytes by `indexOf(search, start, module.exports.encoding)` and
`lastIndexOf` (index.js:26-29, 51-54).  `Model/JsPost.lean` has the searches for the settings that leave ASCII text as it is.

The names are those of Node.js: `utf8`, `latin1` (`binary`), `ascii`, `utf16le` (`ucs2`), `hex`.  Left out: `base64`, `base64url`, and names that Node.js refuses.
-/
namespace Yenc.Js
open Yenc

/-- Values of `encoding`. -/
inductive Charset where
  | utf8 | latin1 | ascii | utf16le | hex
deriving DecidableEq, Repr

/-- `buf.toString('latin1')`. -/
def latin1Str (b : List Byte) : Str := b.map BitVec.toNat

/-- `buf.toString('ascii')`: the highest bit of every byte is dropped. -/
def asciiStr (b : List Byte) : Str := b.map fun c => c.toNat % 128

/-- `buf.toString('utf16le')`: a last single byte is dropped. -/
def utf16Str : List Byte → Str
  | a :: b :: l => (a.toNat + 256 * b.toNat) :: utf16Str l
  | _ => []

/-- `buf.toString(this.encoding)`, index.js:238, 272. -/
def Charset.toStr : Charset → List Byte → Str
  | .utf8 => utf8Decode
  | .latin1 => latin1Str
  | .ascii => asciiStr
  | .utf16le => utf16Str
  | .hex => Js.hex

/-- The value of a hexadecimal digit. -/
def hexVal (c : Nat) : Option Nat :=
  if 48 ≤ c ∧ c ≤ 57 then some (c - 48)
  else if 97 ≤ c ∧ c ≤ 102 then some (c - 87)
  else if 65 ≤ c ∧ c ≤ 70 then some (c - 55)
  else none

/-- `Buffer.from(s, 'hex')`: stops at the first pair of characters that are not digits. -/
def hexBytes : Str → List Byte
  | a :: b :: r =>
    match hexVal a, hexVal b with
    | some x, some y => BitVec.ofNat 8 (16 * x + y) :: hexBytes r
    | _, _ => []
  | _ => []

/-- The bytes searched for by `buf.indexOf(s, start, encoding)`. -/
def Charset.bytes : Charset → Str → List Byte
  | .utf8, s => utf8Encode s
  | .latin1, s => s.map (BitVec.ofNat 8)
  | .ascii, s => s.map (BitVec.ofNat 8)
  | .utf16le, s => s.flatMap fun u => [BitVec.ofNat 8 u, BitVec.ofNat 8 (u / 256)]
  | .hex, s => hexBytes s

/-- First position of a text in a text. -/
def findU (pat : Str) : Str → Option Nat
  | [] => none
  | c :: l =>
    if pat.isPrefixOf (c :: l) then some 0
    else
      match findU pat l with
      | some i => some (i + 1)
      | none => none

/-- Last position of a text in a text. -/
def findRevU (pat : Str) : Str → Option Nat
  | [] => none
  | c :: l =>
    match findRevU pat l with
    | some i => some (i + 1)
    | none => if pat.isPrefixOf (c :: l) then some 0 else none

/-- `bufferFind(buf, s, start)`, index.js:26-29, where Buffers have `indexOf`.  In UTF-16 Node.js only looks at even positions, beginning with the last one not after
`start`; if there are no bytes to look for it returns `start`, or the length if that is less. -/
def Charset.indexOf (cs : Charset) (data : List Byte) (s : Str) (start : Nat) : Option Nat :=
  match cs with
  | .utf16le =>
    if start + 2 * s.length > data.length / 2 * 2 then none
    else
      match findU s ((utf16Str data).drop (start / 2)) with
      | some i => some (2 * (start / 2 + i))
      | none => none
  | cs => if cs.bytes s = [] then some (min start data.length) else findFrom (cs.bytes s) data start

/-- `bufferFindRev(buf, s)`, index.js:51-54, where Buffers have `lastIndexOf`; with the offset -1 and no bytes to look for, Node.js returns the last position. -/
def Charset.lastIndexOf (cs : Charset) (data : List Byte) (s : Str) : Option Nat :=
  match cs with
  | .utf16le =>
    match findRevU s (utf16Str data) with
    | some i => some (2 * i)
    | none => none
  | cs => if cs.bytes s = [] then some (data.length - 1) else findRev (cs.bytes s) data

/-- index.js:237-251, as `headerLoop`. -/
def headerLoopC (cs : Charset) (data : List Byte) : Nat → Nat → Option Nat → List Str → Header
  | 0, _, _, _ => .noEnd
  | n + 1, sp, p, lines =>
    match p with
    | none => .noEnd
    | some p =>
      if p = 0 then .noEnd
      else
        let line := trim (cs.toStr ((data.take p).drop sp))
        let lines' := lines ++ [line]
        if line.take 6 = lit "=yend " then .empty lines' (p + 2)
        else if data[p + 2]? ≠ some EQ ∨ data[p + 3]? ≠ some LY then .dataAt lines' (p + 2)
        else headerLoopC cs data n (p + 2) (cs.indexOf data (lit "\r\n") (p + 2)) lines'

/-- index.js:219-231, as `findStart`.  The first comparison is one of bytes, whatever the setting. -/
def findStartC (cs : Charset) (data : List Byte) : Option Nat :=
  if data.take 8 = ascii (lit "=ybegin ") then some 0
  else
    match cs.indexOf data (lit "\r\n=ybegin ") 0 with
    | some i => some (i + 2)
    | none => none

/-- index.js:252-275, as `layout`. -/
def layoutC (cs : Charset) (data : List Byte) (h : Header) : Option Layout :=
  match h with
  | .noEnd => none
  | .empty lines e =>
    let r := parseLines lines ⟨[], none⟩ []
    some ⟨none, none, e, r.1, r.2⟩
  | .dataAt lines ds =>
    let r := parseLines lines ⟨[], none⟩ []
    match cs.lastIndexOf (data.drop ds) (lit "\r\n=yend ") with
    | none => none
    | some i =>
      let ye := ds + i
      let p := cs.indexOf data (lit "\r\n") (ye + 8)
      let stop := match p with | some p => p | none => data.length
      let ws := if p = none then r.2 ++ ["missing_yend_newline"] else r.2
      let endLine := trim (cs.toStr ((data.take stop).drop (ye + 2)))
      let q := parseLines [endLine] r.1 []
      some ⟨some ds, some ye, match p with | some p => p + 2 | none => data.length, q.1, ws ++ q.2⟩

/-- `from_post(data, isRaw)` after `yencode.encoding = cs`, index.js:213-353; `env` for Numbers only. -/
def fromPostC (lib : Lib) (env : Env) (cs : Charset) (data : List Byte) (isRaw : Bool) : Outcome FromPost :=
  match findStartC cs data with
  | none => .ret (.error "no_start_found")
  | some start =>
    match layoutC cs data (headerLoopC cs data data.length start (cs.indexOf data (lit "\r\n") (start + 8)) []) with
    | none => .ret (.error "no_end_found")
    | some l =>
      (required l.props).bind fun s =>
      match s with
      | none => .ret (.error "missing_required_properties")
      | some size => conclude lib { env with toStr := cs.toStr } data isRaw start l size

end Yenc.Js
