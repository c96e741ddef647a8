import Verif.Basic
/-!
Independent specification of yEnc, written from the yEnc draft 1.3 and from the slow reference
implementations in `/repo/test/testenc.js` and `/repo/test/testdec.js`; nothing here mentions the model
of the C++ code.
-/
namespace Yenc.Spec

/-- Bytes that can never appear unescaped in encoded data. -/
def critical (e : Byte) : Bool := e = NUL || e = CR || e = LF || e = EQ

/-- Must the (already shifted) byte `e` be escaped when written at column `col` of a line of
`ls` columns?  `last` says that it is the last byte of the whole message. -/
def mustEscape (ls col : Nat) (last : Bool) (e : Byte) : Bool :=
  critical e || (e = DOT && col = 0)
    || ((e = TAB || e = SP) && (col = 0 || col + 1 = ls || last))

/-- The one or two bytes that represent `e`. -/
def encChar (ls col : Nat) (last : Bool) (e : Byte) : List Byte :=
  if mustEscape ls col last e then [EQ, e + 64#8] else [e]

/-- Reference encoder.  `fin = true` means the message ends with this buffer (so that a final tab
or space is escaped).  A line break is written before a character that would start at or after
column `ls`; no line break is ever written after the last character. -/
def encode (ls : Nat) (fin : Bool) : Nat → List Byte → List Byte
  | _, [] => []
  | col, c :: cs =>
    let last := fin && cs.isEmpty
    if ls ≤ col then
      let s := encChar ls 0 last (c + 42#8)
      CR :: LF :: s ++ encode ls fin s.length cs
    else
      let s := encChar ls col last (c + 42#8)
      s ++ encode ls fin (col + s.length) cs

/-- Column reached by the reference encoder after the last character. -/
def endCol (ls : Nat) (fin : Bool) : Nat → List Byte → Nat
  | col, [] => col
  | col, c :: cs =>
    if ls ≤ col then endCol ls fin (encChar ls 0 (fin && cs.isEmpty) (c + 42#8)).length cs
    else endCol ls fin (col + (encChar ls col (fin && cs.isEmpty) (c + 42#8)).length) cs

/-- Plain yEnc decoding (second layer): line breaks are dropped, `=c` stands for `c - 106`, any other
`c` for `c - 42`; a lone `=` at the very end stands for nothing. -/
def yDecode : List Byte → List Byte
  | [] => []
  | c :: cs =>
    if c = CR ∨ c = LF then yDecode cs
    else if c = EQ then
      match cs with
      | [] => []
      | d :: ds => (d - 106#8) :: yDecode ds
    else (c - 42#8) :: yDecode cs

/-- NNTP transparency layer: `p` and `q` are the two bytes preceding the input; a dot right
after CR LF is removed. -/
def unstuffAux : Byte → Byte → List Byte → List Byte
  | _, _, [] => []
  | p, q, c :: cs =>
    if p = CR ∧ q = LF ∧ c = DOT then unstuffAux q c cs else c :: unstuffAux q c cs

/-- Undo dot-stuffing of a text that starts at the beginning of a line. -/
def unstuff (s : List Byte) : List Byte := unstuffAux CR LF s

/-- Dot-stuffing: a dot at the start of a line is doubled. -/
def stuffAux : Byte → Byte → List Byte → List Byte
  | _, _, [] => []
  | p, q, c :: cs =>
    if p = CR ∧ q = LF ∧ c = DOT then DOT :: DOT :: stuffAux q c cs else c :: stuffAux q c cs

def stuff (s : List Byte) : List Byte := stuffAux CR LF s

/-- Reference decoder for `decode(data, stripDots)`. -/
def decode (stripDots : Bool) (s : List Byte) : List Byte :=
  yDecode (if stripDots then unstuff s else s)

/-- Split a text at its CR LF pairs. -/
def splitLines : List Byte → List (List Byte)
  | [] => [[]]
  | [c] => [[c]]
  | c :: d :: ds =>
    if c = CR ∧ d = LF then [] :: splitLines ds
    else
      match splitLines (d :: ds) with
      | [] => [[c]]
      | l :: ls => (c :: l) :: ls

/-- Every `=` of the line is followed by another byte of the same line. -/
def paired : List Byte → Bool
  | [] => true
  | c :: cs =>
    if c = EQ then
      match cs with
      | [] => false
      | _ :: ds => paired ds
    else paired cs

/-- The text ends with the end-of-article mark: a line consisting of a single dot. -/
def EndsArticle (s : List Byte) : Prop := [CR, LF, DOT, CR, LF] <:+ s

/-- The text ends with the start of a yEnc control line (dot-stuffed or not). -/
def EndsControl (s : List Byte) : Prop := [CR, LF, EQ, LY] <:+ s ∨ [CR, LF, DOT, EQ, LY] <:+ s

/-- `q` is where a stream starting with `q` (at the beginning of a line) first contains an end mark. -/
def FirstEnd (q : List Byte) : Prop :=
  (EndsArticle ([CR, LF] ++ q) ∨ EndsControl ([CR, LF] ++ q)) ∧
  ∀ q', q' <+: q → q' ≠ q → ¬ EndsArticle ([CR, LF] ++ q') ∧ ¬ EndsControl ([CR, LF] ++ q')

/-- No end mark anywhere in the stream. -/
def NoEnd (s : List Byte) : Prop :=
  ∀ q, q <+: s → ¬ EndsArticle ([CR, LF] ++ q) ∧ ¬ EndsControl ([CR, LF] ++ q)

end Yenc.Spec
