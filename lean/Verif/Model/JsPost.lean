import Verif.Model.JsText
import Verif.Model.JsChunk
import Verif.Model.CrcBindings
/-!
Model of the post functions of `/repo/index.js`: `post`, `multi_post` (`YEncoder`) and `from_post`.

`Lib` collects what these functions call in the native module.  Warnings are represented by their code; the message texts are omitted.
-/
namespace Yenc.Js
open Yenc

/-- The native functions in use, and where Buffers lie in memory (only `crc32` depends on it, and only internally). -/
structure Lib where
  enc : Enc.Impl
  dec : Dec.Impl
  crc : Crc.Impl
  addr : List Byte → Nat

/-- `y.crc32(data)`. -/
def Lib.crc32 (lib : Lib) (data : List Byte) : Outcome (List Byte) := Crc.apiCrc32 lib.crc (lib.addr data) [.buffer data]

/-! ### YEncoder -/

/-- What `this.encode` currently is: the prototype's function, `_encodeSingle`, or `singleEncodeError`. -/
inductive Mode where
  | multi | single | done
deriving DecidableEq, Repr

/-- The fields of a `YEncoder`, index.js:356-380.  `size`, `parts` and `line_size` are non-negative integers. -/
structure YEnc where
  size : Nat
  parts : Nat
  lineSize : Nat
  part : Nat
  pos : Nat
  crc : List Byte
  yInfo : Option (List Byte)
  mode : Mode
deriving DecidableEq, Repr

/-- `new YEncoder(filename, size, parts, line_size)`, index.js:356-380; `multi_post`, index.js:210-212.  A missing line size is 0. -/
def multiPost (name : Str) (size parts lineSize : Nat) : YEnc :=
  let ls := if lineSize = 0 then 128 else lineSize
  if parts > 1 then
    ⟨size, parts, ls, 0, 0, [0, 0, 0, 0],
      some (ascii (lit " total=" ++ dec parts ++ lit " line=" ++ dec ls ++ lit " size=" ++ dec size ++ lit " name=") ++
        fileName name ++ [CR, LF]), .multi⟩
  else
    ⟨size, parts, ls, 0, 0, [0, 0, 0, 0],
      some (ascii (lit "=ybegin line=" ++ dec ls ++ lit " size=" ++ dec size ++ lit " name=") ++ fileName name ++ [CR, LF]), .single⟩

/-- index.js:406-412: put the pieces of a part together. -/
def partText (part pos len : Nat) (yInfo body : List Byte) (crc : List Byte) (fullCrc : Str) : List Byte :=
  ascii (lit "=ybegin part=" ++ dec part) ++ yInfo ++
    ascii (lit "=ypart begin=" ++ dec (pos + 1) ++ lit " end=" ++ dec (pos + len) ++ lit "\r\n") ++ body ++
    ascii (lit "\r\n=yend size=" ++ dec len ++ lit " part=" ++ dec part ++ lit " pcrc32=" ++ hex crc ++ fullCrc)

/-- index.js:406-415: the end of `encode`, with the fields already updated except `pos`. -/
def YEnc.finish (lib : Lib) (e : YEnc) (data : List Byte) (yInfo : Option (List Byte)) (crc : List Byte) (fullCrc : Str) :
    YEnc × Outcome (List Byte) :=
  match yInfo with
  | none => (e, .throw "TypeError: list[1] is null")
  | some yi =>
    match Enc.apiEncode lib.enc [.buffer data, .int e.lineSize] with
    | .ret body => ({ e with pos := e.pos + data.length }, .ret (partText e.part e.pos data.length yi body crc fullCrc))
    | .throw m => (e, .throw m)
    | .ub => (e, .ub)

/-- index.js:395-404: the checksums and the checks for the final part. -/
def YEnc.sums (lib : Lib) (e : YEnc) (data : List Byte) : YEnc × Outcome (List Byte) :=
  match lib.crc32 data with
  | .throw m => (e, .throw m)
  | .ub => (e, .ub)
  | .ret crc =>
    match Crc.apiCombine lib.crc [.buffer e.crc, .buffer crc, .int data.length] with
    | .throw m => (e, .throw m)
    | .ub => (e, .ub)
    | .ret full =>
      let e1 := { e with crc := full }
      if e1.part = e1.parts then
        if e1.pos + data.length ≠ e1.size then (e1, .throw "File size doesn't match total data length")
        else ({ e1 with yInfo := none } : YEnc).finish lib data e1.yInfo crc (lit " crc32=" ++ hex full)
      else e1.finish lib data e1.yInfo crc []

/-- `YEncoder.prototype.encode(data)`, index.js:385-416, for a Buffer. The encoder after the call (also after a throw), and the outcome. -/
def YEnc.encodeMulti (lib : Lib) (e : YEnc) (data : List Byte) : YEnc × Outcome (List Byte) :=
  let e1 := { e with part := e.part + 1 }
  if e1.part > e1.parts then (e1, .throw "Exceeded number of specified yEnc parts")
  else if e1.pos + data.length > e1.size then (e1, .throw "Exceeded total file size")
  else e1.sums lib data

/-- index.js:431-435. -/
def singleText (yInfo body : List Byte) (len : Nat) (crc : List Byte) : List Byte :=
  yInfo ++ body ++ ascii (lit "\r\n=yend size=" ++ dec len ++ lit " crc32=" ++ hex crc)

/-- `_encodeSingle(data)`, index.js:418-436. -/
def YEnc.encodeSingle (lib : Lib) (e : YEnc) (data : List Byte) : YEnc × Outcome (List Byte) :=
  if e.size ≠ data.length then (e, .throw "File size doesn't match total data length")
  else
    let e1 : YEnc := { e with mode := .done, part := 1, pos := data.length }
    match lib.crc32 data with
    | .throw m => (e1, .throw m)
    | .ub => (e1, .ub)
    | .ret crc =>
      let e2 : YEnc := { e1 with crc := crc, yInfo := none }
      match e1.yInfo with
      | none => (e2, .throw "TypeError: list[0] is null")
      | some yi =>
        match Enc.apiEncode lib.enc [.buffer data, .int e.lineSize] with
        | .ret body => (e2, .ret (singleText yi body data.length crc))
        | .throw m => (e2, .throw m)
        | .ub => (e2, .ub)

/-- A call `e.encode(data)`. -/
def YEnc.encode (lib : Lib) (e : YEnc) (data : List Byte) : YEnc × Outcome (List Byte) :=
  match e.mode with
  | .multi => e.encodeMulti lib data
  | .single => e.encodeSingle lib data
  | .done => (e, .throw "Exceeded number of specified yEnc parts")

/-- A history of calls: the encoder after it and the outcomes. -/
def YEnc.run (lib : Lib) (e : YEnc) : List (List Byte) → YEnc × List (Outcome (List Byte))
  | [] => (e, [])
  | d :: ds =>
    let r := e.encode lib d
    let s := r.1.run lib ds
    (s.1, r.2 :: s.2)

/-! ### post -/

/-- `post(filename, data, line_size)`, index.js:196-209. `name = none`: not a string. Whatever the arguments, control reaches either the `TypeError` of `filename.replace` or the
evaluation of the undeclared name `encodeCrc`. -/
def post (name : Option Str) (_data : List Byte) (_lineSize : Nat) : Outcome (List Byte) :=
  match name with
  | none => .throw "TypeError: filename.replace is not a function"
  | some _ => .throw "ReferenceError: encodeCrc is not defined"

/-! ### from_post -/

/-- The names every object inherits (`in` finds them). -/
def objectProto : List Str :=
  [lit "constructor", lit "__defineGetter__", lit "__defineSetter__", lit "hasOwnProperty", lit "__lookupGetter__", lit "__lookupSetter__",
    lit "isPrototypeOf", lit "propertyIsEnumerable", lit "toString", lit "valueOf", lit "__proto__", lit "toLocaleString"]

/-- `yprops`: its own properties, all of them strings. -/
structure Props where
  own : List (Str × Str)
deriving DecidableEq, Repr

/-- Reading an own property (`none` is `undefined`). -/
def Props.get (p : Props) (k : Str) : Option Str := p.own.lookup k

/-- `k in yprops`, index.js:103. -/
def Props.has (p : Props) (k : Str) : Bool := (p.get k).isSome || objectProto.contains k

/-- `yprops[k] = v`, index.js:106; assigning a string to `__proto__` has no effect. -/
def Props.set (p : Props) (k v : Str) : Props :=
  if k = lit "__proto__" then p else ⟨(k, v) :: p.own.filter (fun x => x.1 ≠ k)⟩

/-- `ydata`: its own properties, all of them objects, and its prototype if that has been replaced through `__proto__`. -/
structure YData where
  own : List (Str × Props)
  proto : Option Props
deriving DecidableEq, Repr

/-- `tag in ydata`, index.js:113. -/
def YData.has (y : YData) (k : Str) : Bool :=
  (y.own.lookup k).isSome || (match y.proto with | some p => (p.get k).isSome | none => false) || objectProto.contains k

/-- `ydata[tag] = yprops`, index.js:116. -/
def YData.set (y : YData) (k : Str) (v : Props) : YData :=
  if k = lit "__proto__" then { y with proto := some v } else { y with own := (k, v) :: y.own.filter (fun x => x.1 ≠ k) }

/-- What `ydata[tag]` can be. -/
inductive Rec where
  | obj (p : Props)
  | str (s : Str)
  | undef
deriving DecidableEq, Repr

/-- Reading `ydata[tag]` for a tag that is not a name of `Object.prototype`. -/
def YData.get (y : YData) (k : Str) : Rec :=
  match y.own.lookup k with
  | some p => .obj p
  | none =>
    match y.proto with
    | some p => (match p.get k with | some s => .str s | none => .undef)
    | none => .undef

/-- `rec[key]` for the keys used by `from_post`; strings have no such properties. -/
def Rec.get (r : Rec) (k : Str) : Option Str :=
  match r with
  | .obj p => p.get k
  | _ => none

/-- Truth value of a string or `undefined`. -/
def truthy (s : Option Str) : Bool :=
  match s with
  | some (_ :: _) => true
  | _ => false

/-- Truth value of `ydata[tag]`. -/
def Rec.truthy : Rec → Bool
  | .obj _ => true
  | .str s => !s.isEmpty
  | .undef => false

/-- index.js:94-102: the value after `prop=`, and what is left of the line. -/
def propValue (tag prop after : Str) : Str × Str :=
  if tag = lit "begin" ∧ prop = lit "name" then (after, [])
  else (after.takeWhile (· ≠ 32), after.drop ((after.takeWhile (· ≠ 32)).length + 1))

/-- index.js:87-111: the loop over the properties of a line (`fuel` rounds at most; a round consumes at least two characters, so the
length of the line is enough, see `parseProps_eq`). -/
def parsePropsN (tag : Str) : Nat → Str → Props → List String → Props × List String
  | 0, line, p, ws => (p, if line = [] then ws else ws ++ ["ignored_line_data"])
  | n + 1, line, p, ws =>
    match matchProp line with
    | none => (p, if line = [] then ws else ws ++ ["ignored_line_data"])
    | some (skipped, prop, after) =>
      let ws1 := if skipped = [] then ws else ws ++ ["ignored_line_data"]
      let v := propValue tag prop after
      let ws2 := if p.has prop then ws1 ++ ["duplicate_property"] else ws1
      parsePropsN tag n v.2 (p.set prop v.1) ws2

def parseProps (tag line : Str) (p : Props) (ws : List String) : Props × List String := parsePropsN tag line.length line p ws

/-- index.js:80-84: the tag of a line, and its properties as text. -/
def lineTag (line : Str) : Str := (line.drop 2).takeWhile (· ≠ 32)
def lineRest (line : Str) : Str := trim ((line.drop 2).drop ((lineTag line).length + 1))

/-- index.js:77-117: one line. -/
def parseLine (line : Str) (y : YData) (ws : List String) : YData × List String :=
  let r := parseProps (lineTag line) (lineRest line) ⟨[]⟩ ws
  let ws2 := if y.has (lineTag line) then r.2 ++ ["duplicate_line"] else r.2
  (y.set (lineTag line) r.1, ws2)

/-- `decoderParseLines(lines, ydata)`, index.js:75-119: the new `ydata`, and `ws` with the warnings appended. -/
def parseLines : List Str → YData → List String → YData × List String
  | [], y, ws => (y, ws)
  | l :: ls, y, ws => let r := parseLine l y ws; parseLines ls r.1 r.2

/-- What depends on settings or on floating-point numbers: `Buffer#toString(this.encoding)` (the texts searched for also depend on `encoding`; here they are ASCII, as with
`utf8`, `latin1` and `ascii`, see `Model/JsCharset.lean` for the other settings), and Numbers made from strings with their
comparisons.  `range b e` is `e - b + 1`. -/
structure Env where
  toStr : List Byte → Str
  Num : Type
  num : Str → Num
  ofNat : Nat → Num
  lt : Num → Num → Bool
  ne : Num → Num → Bool
  range : Num → Num → Num

/-- Result of looking for the start lines, index.js:233-253. -/
inductive Header where
  | noEnd
  | empty (lines : List Str) (yencEnd : Nat)
  | dataAt (lines : List Str) (dataStart : Nat)
deriving DecidableEq, Repr

def crlf : List Byte := [CR, LF]

/-- index.js:237-251: `while(p > 0)`; `fuel` bounds the number of rounds (every round moves past a line break). -/
def headerLoop (env : Env) (data : List Byte) : Nat → Nat → Option Nat → List Str → Header
  | 0, _, _, _ => .noEnd
  | n + 1, sp, p, lines =>
    match p with
    | none => .noEnd
    | some p =>
      if p = 0 then .noEnd
      else
        let line := trim (env.toStr ((data.take p).drop sp))
        let lines' := lines ++ [line]
        if line.take 6 = lit "=yend " then .empty lines' (p + 2)
        else if data[p + 2]? ≠ some EQ ∨ data[p + 3]? ≠ some LY then .dataAt lines' (p + 2)
        else headerLoop env data n (p + 2) (findFrom crlf data (p + 2)) lines'

/-- index.js:219-231: where the post starts. -/
def findStart (data : List Byte) : Option Nat :=
  if data.take 8 = ascii (lit "=ybegin ") then some 0
  else
    match find (ascii (lit "\r\n=ybegin ")) data with
    | some i => some (i + 2)
    | none => none

/-- The object returned on success. -/
structure Post where
  yencStart : Nat
  dataStart : Option Nat
  dataEnd : Option Nat
  yencEnd : Nat
  props : YData
  data : Option (List Byte)
  crc32 : Option (List Byte)
  warnings : List String
deriving DecidableEq, Repr

/-- `from_post` returns an `Error` object with a code, or a post. -/
inductive FromPost where
  | error (code : String)
  | ok (p : Post)
deriving DecidableEq, Repr

/-- Where the pieces were found, index.js:231-275. -/
structure Layout where
  dataStart : Option Nat
  dataEnd : Option Nat
  yencEnd : Nat
  props : YData
  warnings : List String

/-- index.js:252-275: look for the end line, unless it was among the first lines. -/
def layout (env : Env) (data : List Byte) (h : Header) : Option Layout :=
  match h with
  | .noEnd => none
  | .empty lines e =>
    let r := parseLines lines ⟨[], none⟩ []
    some ⟨none, none, e, r.1, r.2⟩
  | .dataAt lines ds =>
    let r := parseLines lines ⟨[], none⟩ []
    match findRev (ascii (lit "\r\n=yend ")) (data.drop ds) with
    | none => none
    | some i =>
      let ye := ds + i
      let p := findFrom crlf data (ye + 8)
      let stop := match p with | some p => p | none => data.length
      let ws := if p = none then r.2 ++ ["missing_yend_newline"] else r.2
      let endLine := trim (env.toStr ((data.take stop).drop (ye + 2)))
      let q := parseLines [endLine] r.1 []
      some ⟨some ds, some ye, match p with | some p => p + 2 | none => data.length, q.1, ws ++ q.2⟩

/-- index.js:293-297: one field. -/
def checkNumber (r : Rec) (key : String) (ws : List String) : List String :=
  match r.get (lit key) with
  | some (c :: cs) =>
    if !isNumber (c :: cs) then ws ++ ["invalid_prop_" ++ key]
    else if c :: cs = [48] ∧ key ≠ "size" then ws ++ ["zero_prop_" ++ key]
    else ws
  | _ => ws

/-- index.js:284-299. -/
def checkNumbers (y : YData) (ws : List String) : List String :=
  let b := y.get (lit "begin")
  let p := y.get (lit "part")
  let e := y.get (lit "end")
  let ws := if b.truthy then ["line", "total", "part", "size"].foldl (fun ws k => checkNumber b k ws) ws else ws
  let ws := if p.truthy then ["begin", "end"].foldl (fun ws k => checkNumber p k ws) ws else ws
  if e.truthy then ["size", "part"].foldl (fun ws k => checkNumber e k ws) ws else ws

/-- `+a < +b` where both are known to be set. -/
def Env.ltS (env : Env) (a b : Option Str) : Bool :=
  match a, b with
  | some a, some b => env.lt (env.num a) (env.num b)
  | _, _ => false

/-- `+s > 1`; `undefined` becomes NaN. -/
def Env.gt1 (env : Env) (s : Option Str) : Bool :=
  match s with
  | some s => env.lt (env.ofNat 1) (env.num s)
  | none => false

/-- index.js:300-303. -/
def checkPart (env : Env) (b e : Rec) (ws : List String) : List String :=
  let bp := b.get (lit "part")
  let ep := e.get (lit "part")
  let t := b.get (lit "total")
  if truthy bp && truthy ep && bp ≠ ep then ws ++ ["part_number_mismatch"]
  else if truthy t && ((truthy bp && env.ltS t bp) || (truthy ep && env.ltS t ep)) then ws ++ ["part_number_exceeds_total"]
  else ws

/-- index.js:305-316; `size` is `ydata.end.size`. -/
def checkRange (env : Env) (b p e : Rec) (size : Str) (ws : List String) : List String :=
  let pb := p.get (lit "begin")
  let pe := p.get (lit "end")
  match p.truthy && truthy pb && truthy pe, pb, pe with
  | true, some pb, some pe =>
    if env.lt (env.num pe) (env.num pb) then ws ++ ["invalid_part_range"]
    else if env.ne (env.num size) (env.range (env.num pb) (env.num pe)) then ws ++ ["size_mismatch_part_range"]
    else if env.ltS (b.get (lit "size")) (some pe) then ws ++ ["part_range_exceeds_size"]
    else ws
  | _, _, _ =>
    if env.gt1 (b.get (lit "total")) || env.gt1 (b.get (lit "part")) || env.gt1 (e.get (lit "part")) then ws ++ ["missing_part_range"]
    else ws

/-- index.js:319-320: one checksum. -/
def checkHex (e : Rec) (prop : String) (ws : List String) : List String :=
  match e.get (lit prop) with
  | some (c :: cs) => if isHex8 (c :: cs) then ws else ws ++ ["invalid_prop_" ++ prop]
  | _ => ws

/-- index.js:322-325. -/
def checkSize (env : Env) (b e : Rec) (ws : List String) : List String :=
  let bs := b.get (lit "size")
  let es := e.get (lit "size")
  if !truthy (b.get (lit "part")) && bs ≠ es then ws ++ ["size_mismatch"]
  else if env.ltS bs es then ws ++ ["size_mismatch"]
  else ws

/-- A checksum of the end line against `hex` text: is it set and different? -/
def crcDiffers (s : Option Str) (h : Str) (low : Bool) : Bool :=
  match s with
  | some (c :: cs) => (if low then lower (c :: cs) else c :: cs) ≠ h
  | _ => false

/-- index.js:332-346: the checks against the decoded data; `low` is whether the checksum text is lower-cased first. -/
def checkData (env : Env) (p e : Rec) (size : Str) (len : Nat) (crc : Str) (low : Bool) (ws : List String) : List String :=
  let ws := if env.ne (env.num size) (env.ofNat len) then ws ++ ["data_size_mismatch"] else ws
  let ws := if crcDiffers (e.get (lit "pcrc32")) crc low then ws ++ ["pcrc32_mismatch"] else ws
  if !p.truthy && crcDiffers (e.get (lit "crc32")) crc low then ws ++ ["crc32_mismatch"] else ws

/-- index.js:284-325: all checks of the properties. -/
def checkProps (env : Env) (y : YData) (size : Str) (ws : List String) : List String :=
  let b := y.get (lit "begin")
  let p := y.get (lit "part")
  let e := y.get (lit "end")
  checkSize env b e (checkHex e "crc32" (checkHex e "pcrc32" (checkRange env b p e size (checkPart env b e (checkNumbers y ws)))))

/-- index.js:278-282: the required properties.  `ydata.begin` and `ydata.end` being undefined (or, for the `in` operator, a string) is a `TypeError`. The
result is `ydata.end.size`. -/
def required (y : YData) : Outcome (Option Str) :=
  match y.get (lit "begin") with
  | .undef => .throw "TypeError: Cannot read properties of undefined"
  | .str _ => .ret none
  | .obj b =>
    if !truthy (b.get (lit "line")) || !truthy (b.get (lit "size")) || !b.has (lit "name") then .ret none
    else
      match y.get (lit "end") with
      | .undef => .throw "TypeError: Cannot read properties of undefined"
      | r => if truthy (r.get (lit "size")) then .ret (r.get (lit "size")) else .ret none

/-- index.js:327-352: decode, and assemble the result. -/
def conclude (lib : Lib) (env : Env) (data : List Byte) (isRaw : Bool) (start : Nat) (l : Layout) (size : Str) : Outcome FromPost :=
  let ws := checkProps env l.props size l.warnings
  let p := l.props.get (lit "part")
  let e := l.props.get (lit "end")
  match l.dataStart, l.dataEnd with
  | some ds, some de =>
    (Dec.apiDecode lib.dec [.buffer ((data.take de).drop ds), .bool isRaw]).bind fun out =>
    (lib.crc32 out).bind fun crc =>
    .ret (.ok ⟨start, l.dataStart, l.dataEnd, l.yencEnd, l.props, some out, some crc,
      checkData env p e size out.length (hex crc) true ws⟩)
  | _, _ => .ret (.ok ⟨start, l.dataStart, l.dataEnd, l.yencEnd, l.props, none, none,
      checkData env p e size 0 (lit "00000000") false ws⟩)

/-- `from_post(data, isRaw)`, index.js:213-353, called as a method of the module, with a Buffer. -/
def fromPost (lib : Lib) (env : Env) (data : List Byte) (isRaw : Bool) : Outcome FromPost :=
  match findStart data with
  | none => .ret (.error "no_start_found")
  | some start =>
    match layout env data (headerLoop env data data.length start (findFrom crlf data (start + 8)) []) with
    | none => .ret (.error "no_end_found")
    | some l =>
      (required l.props).bind fun s =>
      match s with
      | none => .ret (.error "missing_required_properties")
      | some size => conclude lib env data isRaw start l size

end Yenc.Js
