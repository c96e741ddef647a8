import Verif.Model.JsPost
/-!
The regular expressions of `/repo/index.js` (10-11, 319) as ECMA-262 says they are matched, by backtracking, with a count of the tests made of single characters, and `from_post` with
the count for the header lines. Elsewhere the model has their results only (`matchProp`, `isNumber`, `isHex8`).
-/
namespace Yenc.Js
open Yenc

/-- The items of the regular expressions of index.js: a character of a class, any number of them (as many as possible first), the end of the text. -/
inductive Item where
  | one (p : Nat → Bool)
  | many (p : Nat → Bool)
  | stop

/-- ECMA-262, RepeatMatcher, for a greedy `*` after a class: as many characters as possible first, then one less at a time. `k` is what has to match afterwards.
The number of tests, and what is left of the text after the match. -/
def tryMany (p : Nat → Bool) (k : Str → Nat × Option Str) : Str → Nat × Option Str
  | [] => ((k []).1 + 1, (k []).2)
  | c :: l =>
    if p c then
      let x := tryMany p k l
      match x.2 with
      | some r => (x.1 + 1, some r)
      | none => (x.1 + 1 + (k (c :: l)).1, (k (c :: l)).2)
    else ((k (c :: l)).1 + 1, (k (c :: l)).2)

/-- ECMA-262, the matchers for the items one after the other, at the start of the given text. -/
def matchItems : List Item → Str → Nat × Option Str
  | [], l => (0, some l)
  | .one p :: r, l =>
    match l with
    | [] => (1, none)
    | c :: l => if p c then ((matchItems r l).1 + 1, (matchItems r l).2) else (1, none)
  | .many p :: r, l => tryMany p (matchItems r) l
  | .stop :: r, l => if l = [] then ((matchItems r l).1 + 1, (matchItems r l).2) else (1, none)

/-- ECMA-262, RegExpBuiltinExec without flags: try each position in turn. The number of tests; the position of the match and what is left after it. -/
def execAt (items : List Item) : Str → Nat × Option (Nat × Str)
  | [] => ((matchItems items []).1, (matchItems items []).2.map fun r => (0, r))
  | c :: l =>
    match (matchItems items (c :: l)).2 with
    | some r => ((matchItems items (c :: l)).1, some (0, r))
    | none => ((matchItems items (c :: l)).1 + (execAt items l).1, (execAt items l).2.map fun x => (x.1 + 1, x.2))

/-- The same for an expression that begins with `^`: one test for each position but the first, which fails. -/
def execStart (items : List Item) (l : Str) : Nat × Bool :=
  match (matchItems items l).2 with
  | some _ => ((matchItems items l).1 + 1, true)
  | none => ((matchItems items l).1 + 1 + l.length, false)

/-- `RE_YPROP`, `/([a-z_][a-z_0-9]*)=/`, index.js:10. -/
def reProp : List Item := [.one isPropStart, .many isPropChar, .one (· = 61)]

def isDigit (c : Nat) : Bool := 48 ≤ c && c ≤ 57

/-- `RE_NUMBER`, `/^\d+$/`, index.js:11, after the `^`. -/
def reNumber : List Item := [.one isDigit, .many isDigit, .stop]

def isHexDigit (c : Nat) : Bool := (97 ≤ c && c ≤ 102) || (65 ≤ c && c ≤ 70) || (48 ≤ c && c ≤ 57)

/-- `/^[a-fA-F0-9]{8}$/`, index.js:319, after the `^`. -/
def reHex : List Item := [.one isHexDigit, .one isHexDigit, .one isHexDigit, .one isHexDigit, .one isHexDigit, .one isHexDigit, .one isHexDigit, .one isHexDigit, .stop]

/-- index.js:87-111 with `RE_YPROP` matched as above: `m.index` is the position, `m[0]` ends where the rest begins, `m[1]` is `m[0]` without the `=`.
Properties, warnings, number of tests. -/
def parsePropsR (tag : Str) : Nat → Str → Props → List String → Nat → Props × List String × Nat
  | 0, line, p, ws, k => (p, if line = [] then ws else ws ++ ["ignored_line_data"], k)
  | n + 1, line, p, ws, k =>
    let m := execAt reProp line
    match m.2 with
    | none => (p, if line = [] then ws else ws ++ ["ignored_line_data"], k + m.1)
    | some (index, after) =>
      let prop := (line.take (line.length - after.length - 1)).drop index
      let ws1 := if index = 0 then ws else ws ++ ["ignored_line_data"]
      let v := propValue tag prop after
      let ws2 := if p.has prop then ws1 ++ ["duplicate_property"] else ws1
      parsePropsR tag n v.2 (p.set prop v.1) ws2 (k + m.1)

/-- index.js:77-117: one line, with the number of tests. -/
def parseLineR (line : Str) (y : YData) (ws : List String) (k : Nat) : YData × List String × Nat :=
  let r := parsePropsR (lineTag line) ((lineRest line).length + 1) (lineRest line) ⟨[]⟩ ws k
  let ws2 := if y.has (lineTag line) then r.2.1 ++ ["duplicate_line"] else r.2.1
  (y.set (lineTag line) r.1, ws2, r.2.2)

/-- `decoderParseLines(lines, ydata)`, index.js:75-119, with the number of tests. -/
def parseLinesR : List Str → YData → List String → Nat → YData × List String × Nat
  | [], y, ws, k => (y, ws, k)
  | l :: ls, y, ws, k => let r := parseLineR l y ws k; parseLinesR ls r.1 r.2.1 r.2.2

/-- index.js:252-275 with the number of tests. -/
def layoutR (env : Env) (data : List Byte) (h : Header) : Nat × Option Layout :=
  match h with
  | .noEnd => (0, none)
  | .empty lines e =>
    let r := parseLinesR lines ⟨[], none⟩ [] 0
    (r.2.2, some ⟨none, none, e, r.1, r.2.1⟩)
  | .dataAt lines ds =>
    let r := parseLinesR lines ⟨[], none⟩ [] 0
    match findRev (ascii (lit "\r\n=yend ")) (data.drop ds) with
    | none => (r.2.2, none)
    | some i =>
      let ye := ds + i
      let p := findFrom crlf data (ye + 8)
      let stop := match p with | some p => p | none => data.length
      let ws := if p = none then r.2.1 ++ ["missing_yend_newline"] else r.2.1
      let endLine := trim (env.toStr ((data.take stop).drop (ye + 2)))
      let q := parseLinesR [endLine] r.1 [] r.2.2
      (q.2.2, some ⟨some ds, some ye, match p with | some p => p + 2 | none => data.length, q.1, ws ++ q.2.1⟩)

/-- `from_post(data, isRaw)`, index.js:213-353, with the number of tests of single characters made in looking for properties in header lines. -/
def fromPostR (lib : Lib) (env : Env) (data : List Byte) (isRaw : Bool) : Nat × Outcome FromPost :=
  match findStart data with
  | none => (0, .ret (.error "no_start_found"))
  | some start =>
    let r := layoutR env data (headerLoop env data data.length start (findFrom crlf data (start + 8)) [])
    (r.1,
      match r.2 with
      | none => .ret (.error "no_end_found")
      | some l =>
        (required l.props).bind fun s =>
        match s with
        | none => .ret (.error "missing_required_properties")
        | some size => conclude lib env data isRaw start l size)

end Yenc.Js
