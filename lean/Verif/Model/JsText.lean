import Verif.Basic
/-!
JavaScript strings and Buffers, as far as `/repo/index.js` uses them: UTF-8 conversion, `trim`, `substring`, `indexOf`, regular
expressions, decimal and hexadecimal text.  The definitions follow the ECMAScript and WHATWG Encoding standards and the Node.js
documentation; the lines of index.js using them are cited.
-/
namespace Yenc.Js
open Yenc

/-- A JavaScript string: its UTF-16 code units. -/
abbrev Str := List Nat

/-- A string literal of index.js (all of them are ASCII). -/
def lit (s : String) : Str := s.toList.map Char.toNat

/-- `toBuffer(s)` for ASCII text. -/
def ascii (s : Str) : List Byte := s.map (BitVec.ofNat 8)

/-- `'' + n` for a non-negative integer below 10^21 (index.js:204, 207, 370, 375, 407-411, 434). -/
def dec (n : Nat) : Str := (Nat.toDigits 10 n).map Char.toNat

/-- One lower-case hexadecimal digit. -/
def hexDigit (n : Nat) : Nat := if n < 10 then 48 + n else 87 + n

/-- `buf.toString('hex')` (index.js:207, 330, 402, 411, 434). -/
def hex (b : List Byte) : Str := b.flatMap fun c => [hexDigit (c.toNat / 16), hexDigit (c.toNat % 16)]

/-! ### UTF-8 -/

def isHigh (u : Nat) : Bool := 0xD800 ≤ u && u ≤ 0xDBFF
def isLow (u : Nat) : Bool := 0xDC00 ≤ u && u ≤ 0xDFFF

/-- UTF-8 bytes of one code point. -/
def utf8Char (c : Nat) : List Byte :=
  if c < 0x80 then [BitVec.ofNat 8 c]
  else if c < 0x800 then [BitVec.ofNat 8 (0xC0 + c / 64), BitVec.ofNat 8 (0x80 + c % 64)]
  else if c < 0x10000 then
    [BitVec.ofNat 8 (0xE0 + c / 4096), BitVec.ofNat 8 (0x80 + c / 64 % 64), BitVec.ofNat 8 (0x80 + c % 64)]
  else
    [BitVec.ofNat 8 (0xF0 + c / 262144), BitVec.ofNat 8 (0x80 + c / 4096 % 64), BitVec.ofNat 8 (0x80 + c / 64 % 64),
      BitVec.ofNat 8 (0x80 + c % 64)]

/-- `Buffer.from(s, 'utf8')`; index.js:201, 367 (the encoding given there, `exports.encoding`, is always `undefined`, which means UTF-8).
Unpaired surrogates are written as U+FFFD. -/
def utf8Encode : Str → List Byte
  | [] => []
  | [u] => utf8Char (if isHigh u || isLow u then 0xFFFD else u)
  | u :: v :: r =>
    if isHigh u && isLow v then utf8Char (0x10000 + (u - 0xD800) * 1024 + (v - 0xDC00)) ++ utf8Encode r
    else utf8Char (if isHigh u || isLow u then 0xFFFD else u) ++ utf8Encode (v :: r)

/-- UTF-16 code units of one code point. -/
def utf16 (c : Nat) : Str := if c < 0x10000 then [c] else [0xD800 + (c - 0x10000) / 1024, 0xDC00 + (c - 0x10000) % 1024]

def isCont (b : Byte) : Bool := 0x80 ≤ b.toNat && b.toNat ≤ 0xBF

/-- `buf.toString('utf8')` (index.js:238, 272 with the default `encoding`): an invalid sequence becomes one U+FFFD per maximal
subpart, as in the WHATWG decoder. -/
def utf8Decode : List Byte → Str
  | [] => []
  | a :: r =>
    let n := a.toNat
    if n < 0x80 then n :: utf8Decode r
    else if 0xC2 ≤ n ∧ n ≤ 0xDF then
      match r with
      | [] => [0xFFFD]
      | b :: r1 =>
        if isCont b then ((n - 0xC0) * 64 + (b.toNat - 0x80)) :: utf8Decode r1
        else 0xFFFD :: utf8Decode (b :: r1)
    else if 0xE0 ≤ n ∧ n ≤ 0xEF then
      match r with
      | [] => [0xFFFD]
      | b :: r1 =>
        if (if n = 0xE0 then 0xA0 else 0x80) ≤ b.toNat ∧ b.toNat ≤ (if n = 0xED then 0x9F else 0xBF) then
          match r1 with
          | [] => [0xFFFD]
          | c :: r2 =>
            if isCont c then ((n - 0xE0) * 4096 + (b.toNat - 0x80) * 64 + (c.toNat - 0x80)) :: utf8Decode r2
            else 0xFFFD :: utf8Decode (c :: r2)
        else 0xFFFD :: utf8Decode (b :: r1)
    else if 0xF0 ≤ n ∧ n ≤ 0xF4 then
      match r with
      | [] => [0xFFFD]
      | b :: r1 =>
        if (if n = 0xF0 then 0x90 else 0x80) ≤ b.toNat ∧ b.toNat ≤ (if n = 0xF4 then 0x8F else 0xBF) then
          match r1 with
          | [] => [0xFFFD]
          | c :: r2 =>
            if isCont c then
              match r2 with
              | [] => [0xFFFD]
              | d :: r3 =>
                if isCont d then
                  utf16 ((n - 0xF0) * 262144 + (b.toNat - 0x80) * 4096 + (c.toNat - 0x80) * 64 + (d.toNat - 0x80)) ++ utf8Decode r3
                else 0xFFFD :: utf8Decode (d :: r3)
            else 0xFFFD :: utf8Decode (c :: r2)
        else 0xFFFD :: utf8Decode (b :: r1)
    else 0xFFFD :: utf8Decode r
termination_by l => l.length
decreasing_by all_goals simp <;> omega

/-! ### String methods -/

/-- White space and line terminators of ECMAScript. -/
def isSpace (c : Nat) : Bool :=
  (9 ≤ c && c ≤ 13) || c = 32 || c = 160 || c = 0x1680 || (0x2000 ≤ c && c ≤ 0x200A) || c = 0x2028 || c = 0x2029 || c = 0x202F ||
    c = 0x205F || c = 0x3000 || c = 0xFEFF

/-- `s.trim()` (index.js:84, 238, 272). -/
def trim (s : Str) : Str := ((s.dropWhile isSpace).reverse.dropWhile isSpace).reverse

/-- The classes of `RE_YPROP`, index.js:10. -/
def isPropStart (c : Nat) : Bool := c = 95 || (97 ≤ c && c ≤ 122)
def isPropChar (c : Nat) : Bool := isPropStart c || (48 ≤ c && c ≤ 57)

/-- `/^([a-z_][a-z_0-9]*)=/`: the name matched and what follows the `=`.  (No backtracking is possible: `=` is not in the class.) -/
def matchHere (l : Str) : Option (Str × Str) :=
  match l with
  | [] => none
  | c :: _ =>
    if isPropStart c then
      match l.dropWhile isPropChar with
      | [] => none
      | e :: r => if e = 61 then some (l.takeWhile isPropChar, r) else none
    else none

/-- `line.match(RE_YPROP)`, index.js:87, 107: leftmost match. Returns the text before the match, the name, and what follows the `=`. -/
def matchProp : Str → Option (Str × Str × Str)
  | [] => none
  | c :: l =>
    match matchHere (c :: l) with
    | some (w, r) => some ([], w, r)
    | none =>
      match matchProp l with
      | some (s, w, r) => some (c :: s, w, r)
      | none => none

/-- `RE_NUMBER`, index.js:11. -/
def isNumber (s : Str) : Bool := !s.isEmpty && s.all fun c => 48 ≤ c && c ≤ 57

/-- `/^[a-fA-F0-9]{8}$/`, index.js:319. -/
def isHex8 (s : Str) : Bool :=
  s.length = 8 && s.all fun c => (97 ≤ c && c ≤ 102) || (65 ≤ c && c ≤ 70) || (48 ≤ c && c ≤ 57)

/-- `s.toLowerCase()` (index.js:334, 336), as far as it matters there: the result is only compared with hexadecimal text, and no character outside
ASCII has a lower-case form among the hexadecimal digits. -/
def lower (s : Str) : Str := s.map fun c => if 65 ≤ c ∧ c ≤ 90 then c + 32 else c

/-- `bufferFind(buf, search)`, index.js:26-50: first position of a non-empty text. -/
def find (pat : List Byte) : List Byte → Option Nat
  | [] => none
  | c :: l =>
    if pat.isPrefixOf (c :: l) then some 0
    else
      match find pat l with
      | some i => some (i + 1)
      | none => none

/-- `bufferFind(buf, search, start)`. -/
def findFrom (pat data : List Byte) (start : Nat) : Option Nat :=
  match find pat (data.drop start) with
  | some i => some (start + i)
  | none => none

/-- `bufferFindRev(buf, search)`, index.js:51-73: last position. -/
def findRev (pat : List Byte) : List Byte → Option Nat
  | [] => none
  | c :: l =>
    match findRev pat l with
    | some i => some (i + 1)
    | none => if pat.isPrefixOf (c :: l) then some 0 else none

/-- `s.replace(RE_BADCHAR, '')`, index.js:9: remove every `\r\n\0`, scanning once from left to right. -/
def removeBad : Str → Str
  | 13 :: 10 :: 0 :: r => removeBad r
  | c :: r => c :: removeBad r
  | [] => []

/-- index.js:201, 367: the file name as written into the header. -/
def fileName (name : Str) : List Byte := utf8Encode ((removeBad name).take 256)

end Yenc.Js
