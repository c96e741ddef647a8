import Verif.Model.JsPost
/-!
`from_post` with the texts of its warnings and errors, index.js:16-24, 75-119, 213-353.  `Model/JsPost.lean` has the codes only.
-/
namespace Yenc.Js

/-- `DecoderWarning(code, message)`, index.js:21-25 (its `toString` returns the message). -/
structure Warning where
  code : String
  message : Str
deriving DecidableEq, Repr

/-- index.js:90, 104, 109, 114: a text with a piece of the post in it. -/
def quote (before : String) (s : Str) (after : String) : Str := lit before ++ s ++ lit after

/-- index.js:108-110. -/
def ignoredEnd (line : Str) (ws : List Warning) : List Warning :=
  if line = [] then ws else ws ++ [⟨"ignored_line_data", quote "Unknown additional end-of-line data ignored: \"" line "\""⟩]

/-- index.js:87-111: the loop over the properties of a line (`fuel` rounds at most, as in `parsePropsN`). -/
def parsePropsM (tag : Str) : Nat → Str → Props → List Warning → Props × List Warning
  | 0, line, p, ws => (p, ignoredEnd line ws)
  | n + 1, line, p, ws =>
    match matchProp line with
    | none => (p, ignoredEnd line ws)
    | some (skipped, prop, after) =>
      let ws1 := if skipped = [] then ws else ws ++ [⟨"ignored_line_data", quote "Unknown additional data ignored: \"" skipped "\""⟩]
      let v := propValue tag prop after
      let ws2 := if p.has prop then ws1 ++ [⟨"duplicate_property", quote "Duplicate property encountered: `" prop "`"⟩] else ws1
      parsePropsM tag n v.2 (p.set prop v.1) ws2

/-- index.js:77-117: one line. -/
def parseLineM (line : Str) (y : YData) (ws : List Warning) : YData × List Warning :=
  let r := parsePropsM (lineTag line) (lineRest line).length (lineRest line) ⟨[]⟩ ws
  let ws2 := if y.has (lineTag line) then r.2 ++ [⟨"duplicate_line", quote "Duplicate line encountered: `" (lineTag line) "`"⟩] else r.2
  (y.set (lineTag line) r.1, ws2)

/-- `decoderParseLines(lines, ydata)`, index.js:75-119. -/
def parseLinesM : List Str → YData → List Warning → YData × List Warning
  | [], y, ws => (y, ws)
  | l :: ls, y, ws => let r := parseLineM l y ws; parseLinesM ls r.1 r.2

/-- Where the pieces were found, index.js:231-275. -/
structure LayoutM where
  dataStart : Option Nat
  dataEnd : Option Nat
  yencEnd : Nat
  props : YData
  warnings : List Warning

/-- index.js:252-275. -/
def layoutM (env : Env) (data : List Byte) (h : Header) : Option LayoutM :=
  match h with
  | .noEnd => none
  | .empty lines e =>
    let r := parseLinesM lines ⟨[], none⟩ []
    some ⟨none, none, e, r.1, r.2⟩
  | .dataAt lines ds =>
    let r := parseLinesM lines ⟨[], none⟩ []
    match findRev (ascii (lit "\r\n=yend ")) (data.drop ds) with
    | none => none
    | some i =>
      let ye := ds + i
      let p := findFrom crlf data (ye + 8)
      let stop := match p with | some p => p | none => data.length
      let ws := if p = none then r.2 ++ [⟨"missing_yend_newline", lit "No line terminator found for =yend line"⟩] else r.2
      let endLine := trim (env.toStr ((data.take stop).drop (ye + 2)))
      let q := parseLinesM [endLine] r.1 []
      some ⟨some ds, some ye, match p with | some p => p + 2 | none => data.length, q.1, ws ++ q.2⟩

/-- index.js:293-297: one field. -/
def checkNumberM (r : Rec) (key : String) (ws : List Warning) : List Warning :=
  match r.get (lit key) with
  | some (c :: cs) =>
    if !isNumber (c :: cs) then ws ++ [⟨"invalid_prop_" ++ key, quote "`" (lit key) "` is not a number"⟩]
    else if c :: cs = [48] ∧ key ≠ "size" then ws ++ [⟨"zero_prop_" ++ key, quote "`" (lit key) "` cannot be 0"⟩]
    else ws
  | _ => ws

/-- index.js:284-299. -/
def checkNumbersM (y : YData) (ws : List Warning) : List Warning :=
  let b := y.get (lit "begin")
  let p := y.get (lit "part")
  let e := y.get (lit "end")
  let ws := if b.truthy then ["line", "total", "part", "size"].foldl (fun ws k => checkNumberM b k ws) ws else ws
  let ws := if p.truthy then ["begin", "end"].foldl (fun ws k => checkNumberM p k ws) ws else ws
  if e.truthy then ["size", "part"].foldl (fun ws k => checkNumberM e k ws) ws else ws

/-- index.js:300-303. -/
def checkPartM (env : Env) (b e : Rec) (ws : List Warning) : List Warning :=
  let bp := b.get (lit "part")
  let ep := e.get (lit "part")
  let t := b.get (lit "total")
  if truthy bp && truthy ep && bp ≠ ep then ws ++ [⟨"part_number_mismatch", lit "Part number specified in begin and end do not match"⟩]
  else if truthy t && ((truthy bp && env.ltS t bp) || (truthy ep && env.ltS t ep)) then
    ws ++ [⟨"part_number_exceeds_total", lit "Specified part number exceeds specified total"⟩]
  else ws

/-- index.js:305-316. -/
def checkRangeM (env : Env) (b p e : Rec) (size : Str) (ws : List Warning) : List Warning :=
  let pb := p.get (lit "begin")
  let pe := p.get (lit "end")
  match p.truthy && truthy pb && truthy pe, pb, pe with
  | true, some pb, some pe =>
    if env.lt (env.num pe) (env.num pb) then ws ++ [⟨"invalid_part_range", lit "begin offset cannot exceed end offset"⟩]
    else if env.ne (env.num size) (env.range (env.num pb) (env.num pe)) then ws ++ [⟨"size_mismatch_part_range", lit "Specified size does not match part range"⟩]
    else if env.ltS (b.get (lit "size")) (some pe) then ws ++ [⟨"part_range_exceeds_size", lit "Specified part range exceeds total file size"⟩]
    else ws
  | _, _, _ =>
    if env.gt1 (b.get (lit "total")) || env.gt1 (b.get (lit "part")) || env.gt1 (e.get (lit "part")) then
      ws ++ [⟨"missing_part_range", lit "Part range not specified for multi-part post"⟩]
    else ws

/-- index.js:319-320: one checksum. -/
def checkHexM (e : Rec) (prop : String) (ws : List Warning) : List Warning :=
  match e.get (lit prop) with
  | some (c :: cs) => if isHex8 (c :: cs) then ws else ws ++ [⟨"invalid_prop_" ++ prop, quote "`" (lit prop) "` is not a valid CRC32 value"⟩]
  | _ => ws

/-- index.js:322-325. -/
def checkSizeM (env : Env) (b e : Rec) (ws : List Warning) : List Warning :=
  let bs := b.get (lit "size")
  let es := e.get (lit "size")
  if !truthy (b.get (lit "part")) && bs ≠ es then ws ++ [⟨"size_mismatch", lit "Size specified in begin and end do not match"⟩]
  else if env.ltS bs es then ws ++ [⟨"size_mismatch", lit "Size specified for part exceeds size specified for whole file"⟩]
  else ws

/-- index.js:332-346. -/
def checkDataM (env : Env) (p e : Rec) (size : Str) (len : Nat) (crc : Str) (low : Bool) (ws : List Warning) : List Warning :=
  let ws := if env.ne (env.num size) (env.ofNat len) then ws ++ [⟨"data_size_mismatch", lit "Decoded data length doesn't match size specified in yend"⟩] else ws
  let ws := if crcDiffers (e.get (lit "pcrc32")) crc low then ws ++ [⟨"pcrc32_mismatch", lit "Specified pcrc32 is invalid"⟩] else ws
  if !p.truthy && crcDiffers (e.get (lit "crc32")) crc low then ws ++ [⟨"crc32_mismatch", lit "Specified crc32 is invalid"⟩] else ws

/-- index.js:284-325. -/
def checkPropsM (env : Env) (y : YData) (size : Str) (ws : List Warning) : List Warning :=
  let b := y.get (lit "begin")
  let p := y.get (lit "part")
  let e := y.get (lit "end")
  checkSizeM env b e (checkHexM e "crc32" (checkHexM e "pcrc32" (checkRangeM env b p e size (checkPartM env b e (checkNumbersM y ws)))))

/-- index.js:278-282: the required properties; the message says which line lacks some. -/
def requiredM (y : YData) : Outcome (Except Str Str) :=
  match y.get (lit "begin") with
  | .undef => .throw "TypeError: Cannot read properties of undefined"
  | .str _ => .ret (.error (lit "Could not find line/size/name properties on ybegin line"))
  | .obj b =>
    if !truthy (b.get (lit "line")) || !truthy (b.get (lit "size")) || !b.has (lit "name") then .ret (.error (lit "Could not find line/size/name properties on ybegin line"))
    else
      match y.get (lit "end") with
      | .undef => .throw "TypeError: Cannot read properties of undefined"
      | r =>
        match truthy (r.get (lit "size")), r.get (lit "size") with
        | true, some s => .ret (.ok s)
        | _, _ => .ret (.error (lit "Could not find size properties on yend line"))

/-- The object returned on success. -/
structure PostM where
  yencStart : Nat
  dataStart : Option Nat
  dataEnd : Option Nat
  yencEnd : Nat
  props : YData
  data : Option (List Byte)
  crc32 : Option (List Byte)
  warnings : List Warning
deriving DecidableEq, Repr

/-- `from_post` returns an `Error` object with a code and a message (`DecoderError`, index.js:14-18), or a post. -/
inductive FromPostM where
  | error (code : String) (message : Str)
  | ok (p : PostM)
deriving DecidableEq, Repr

/-- index.js:327-352. -/
def concludeM (lib : Lib) (env : Env) (data : List Byte) (isRaw : Bool) (start : Nat) (l : LayoutM) (size : Str) : Outcome FromPostM :=
  let ws := checkPropsM env l.props size l.warnings
  let p := l.props.get (lit "part")
  let e := l.props.get (lit "end")
  match l.dataStart, l.dataEnd with
  | some ds, some de =>
    (Dec.apiDecode lib.dec [.buffer ((data.take de).drop ds), .bool isRaw]).bind fun out =>
    (lib.crc32 out).bind fun crc =>
    .ret (.ok ⟨start, l.dataStart, l.dataEnd, l.yencEnd, l.props, some out, some crc, checkDataM env p e size out.length (hex crc) true ws⟩)
  | _, _ => .ret (.ok ⟨start, l.dataStart, l.dataEnd, l.yencEnd, l.props, none, none, checkDataM env p e size 0 (lit "00000000") false ws⟩)

/-- `from_post(data, isRaw)`, index.js:213-353. -/
def fromPostM (lib : Lib) (env : Env) (data : List Byte) (isRaw : Bool) : Outcome FromPostM :=
  match findStart data with
  | none => .ret (.error "no_start_found" (lit "yEnc start marker not found"))
  | some start =>
    match layoutM env data (headerLoop env data data.length start (findFrom crlf data (start + 8)) []) with
    | none => .ret (.error "no_end_found" (lit "yEnd end marker not found"))
    | some l =>
      (requiredM l.props).bind fun s =>
      match s with
      | .error m => .ret (.error "missing_required_properties" m)
      | .ok size => concludeM lib env data isRaw start l size

end Yenc.Js
