import Verif.Spec.Post
import Mathlib.Data.List.Forall2
/-!
Independent description of how the header lines of a post are read: which lines there are, the properties `key=value` on a line, what is passed over.
Texts are lists of UTF-16 code units.
-/
namespace Yenc.Spec

/-- White space and line terminators of ECMAScript. -/
def jsSpaces : List Nat :=
  [9, 10, 11, 12, 13, 32, 160, 0x1680, 0x2000, 0x2001, 0x2002, 0x2003, 0x2004, 0x2005, 0x2006, 0x2007, 0x2008, 0x2009, 0x200A, 0x2028, 0x2029, 0x202F, 0x205F,
    0x3000, 0xFEFF]

/-- `t` is `s` without the white space at both ends. -/
def Trimmed (s t : List Nat) : Prop :=
  ∃ a b, s = a ++ t ++ b ∧ (∀ c ∈ a, c ∈ jsSpaces) ∧ (∀ c ∈ b, c ∈ jsSpaces) ∧
    (∀ c, t.head? = some c → c ∉ jsSpaces) ∧ ∀ c, t.getLast? = some c → c ∉ jsSpaces

/-- The text of an ASCII literal. -/
def chars (s : String) : List Nat := s.toList.map Char.toNat

def Letter (c : Nat) : Prop := c = 95 ∨ 97 ≤ c ∧ c ≤ 122
def Digit (c : Nat) : Prop := 48 ≤ c ∧ c ≤ 57

/-- A property name: small letters, underscores, and digits after the first character. -/
def IsName (k : List Nat) : Prop := ∃ c r, k = c :: r ∧ Letter c ∧ ∀ d ∈ r, Letter d ∨ Digit d

/-- `line` consists of `pre`, a property name, `=`, and `post`. -/
def NameAt (line pre k post : List Nat) : Prop := line = pre ++ k ++ 61 :: post ∧ IsName k

/-- The same, as far to the left as possible. -/
def FirstName (line pre k post : List Nat) : Prop := NameAt line pre k post ∧ ∀ pre' k' post', NameAt line pre' k' post' → pre.length ≤ pre'.length

/-- What a line is made of. -/
inductive Piece where
  | field (k v : List Nat)
  | ignored
deriving DecidableEq, Repr

/-- Text that is passed over. -/
def skipped (s : List Nat) : List Piece := if s = [] then [] else [.ignored]

/-- The pieces of a line (after its tag).  A value ends at the next space; only the file name on the begin line (`named`) extends to the end of the line. -/
inductive Pieces (named : Bool) : List Nat → List Piece → Prop
  | stop {line} : (∀ pre k post, ¬ NameAt line pre k post) → Pieces named line (skipped line)
  | name {line pre post} : named = true → FirstName line pre (chars "name") post → Pieces named line (skipped pre ++ [.field (chars "name") post])
  | last {line pre k v} : ¬ (named = true ∧ k = chars "name") → FirstName line pre k v → 32 ∉ v → Pieces named line (skipped pre ++ [.field k v])
  | next {line pre k v rest ps} : ¬ (named = true ∧ k = chars "name") → FirstName line pre k (v ++ 32 :: rest) → 32 ∉ v → Pieces named rest ps →
      Pieces named line (skipped pre ++ .field k v :: ps)

/-- A header line as understood. -/
structure Line where
  tag : List Nat
  pieces : List Piece
deriving DecidableEq, Repr

/-- The properties of a line, in order. -/
def Line.fields (l : Line) : List (List Nat × List Nat) := l.pieces.filterMap fun p => match p with | .field k v => some (k, v) | .ignored => none

/-- The names of the properties of a line, in order. -/
def Line.names (l : Line) : List (List Nat) := l.fields.map Prod.fst

/-- Reading a line: two characters (`=y`), the tag up to the first space, and the pieces of what is left. -/
def ReadLine (s : List Nat) (l : Line) : Prop :=
  32 ∉ l.tag ∧
    (s.drop 2 = l.tag ∧ l.pieces = [] ∨
      ∃ rest body, s.drop 2 = l.tag ++ 32 :: rest ∧ Trimmed rest body ∧ Pieces (l.tag = chars "begin") body l.pieces)

/-- The value a post gives to a property of a kind of line: of the last such line, the last such property. -/
def valueOf (ls : List Line) (tag key : List Nat) : Option (List Nat) :=
  match ls.reverse.find? (fun l => l.tag = tag) with
  | some l => (l.fields.reverse.find? (fun f => f.1 = key)).map Prod.snd
  | none => none

/-- Lines of bytes, each with its line break. -/
def joinLines (ls : List (List Byte)) : List Byte := ls.flatMap (· ++ [CR, LF])

/-- A line of bytes that starts with `=y`. -/
def RawLine (l : List Byte) : Prop := text "=y" <+: l ∧ ¬ [CR, LF] <:+: l

/-- The lines of the post starting at `start`, as texts without white space at the ends; `toStr` converts bytes to text.  `dataStart` and `dataEnd` delimit the data section if
there is one, `stop` is where the post ends, `ended` is whether the last line has a line break. -/
inductive PostLines (toStr : List Byte → List Nat) (data : List Byte) (start : Nat) :
    (dataStart dataEnd : Option Nat) → (stop : Nat) → (ended : Bool) → (texts : List (List Nat)) → Prop
  /-- Without data: an end line among the first lines. -/
  | empty {raws rest ts t} : data.drop start = joinLines raws ++ rest → (∀ l ∈ raws, RawLine l) → List.Forall₂ (fun r => Trimmed (toStr r)) raws (ts ++ [t]) →
      (∀ u ∈ ts, ¬ chars "=yend " <+: u) → chars "=yend " <+: t → PostLines toStr data start none none (start + (joinLines raws).length) true (ts ++ [t])
  /-- With data: from the first line that does not start with `=y` up to the last end line. -/
  | full {raws rest ts e raw tail t ended} : data.drop start = joinLines raws ++ rest → raws ≠ [] → (∀ l ∈ raws, RawLine l) →
      List.Forall₂ (fun r => Trimmed (toStr r)) raws ts →
      (∀ u ∈ ts, ¬ chars "=yend " <+: u) → ¬ text "=y" <+: rest → start + (joinLines raws).length ≤ e →
      text "\r\n=yend " <+: data.drop e → (∀ i > e, ¬ text "\r\n=yend " <+: data.drop i) →
      data.drop (e + 2) = raw ++ tail → ¬ [CR, LF] <:+: raw → (ended = true ∧ [CR, LF] <+: tail ∨ ended = false ∧ tail = []) → Trimmed (toStr raw) t →
      PostLines toStr data start (some (start + (joinLines raws).length)) (some e) (e + 2 + raw.length + if ended then 2 else 0) ended (ts ++ [t])

/-- The post in `data` starts at `s`: at the beginning, or else after the first line break that is followed by a begin marker. -/
def StartsAt (data : List Byte) (s : Nat) : Prop :=
  text "=ybegin " <+: data ∧ s = 0 ∨
    ¬ text "=ybegin " <+: data ∧ ∃ i, s = i + 2 ∧ text "\r\n=ybegin " <+: data.drop i ∧ ∀ j < i, ¬ text "\r\n=ybegin " <+: data.drop j

/-- Properties as written by an encoder: `key=value` separated by spaces. -/
def writeFields : List (List Nat × List Nat) → List Nat
  | [] => []
  | [f] => f.1 ++ 61 :: f.2
  | f :: g :: fs => f.1 ++ 61 :: (f.2 ++ 32 :: writeFields (g :: fs))

/-- A property that is there and not empty. -/
def Given (v : Option (List Nat)) (t : List Nat) : Prop := v = some t ∧ t ≠ []

/-- Eight hexadecimal digits. -/
def Hex8 (t : List Nat) : Prop := t.length = 8 ∧ ∀ c ∈ t, Digit c ∨ 97 ≤ c ∧ c ≤ 102 ∨ 65 ≤ c ∧ c ≤ 70

end Yenc.Spec
