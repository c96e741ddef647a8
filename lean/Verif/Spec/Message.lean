import Verif.Spec.Header
/-!
What the warnings about header lines have to quote.  Texts are lists of UTF-16 code units.
-/
namespace Yenc.Spec

/-- What a header line is made of, with all of its text: properties, text before a property that belongs to none, and text at the end. -/
inductive Item where
  | field (k v : List Nat)
  | before (t : List Nat)
  | atEnd (t : List Nat)
deriving DecidableEq, Repr

def textIf (t : List Nat) (i : Item) : List Item := if t = [] then [] else [i]

/-- The items of a line after its tag, as `Pieces`, but with the text passed over. -/
inductive Items (named : Bool) : List Nat → List Item → Prop
  | stop {line} : (∀ pre k post, ¬ NameAt line pre k post) → Items named line (textIf line (.atEnd line))
  | name {line pre post} : named = true → FirstName line pre (chars "name") post → Items named line (textIf pre (.before pre) ++ [.field (chars "name") post])
  | last {line pre k v} : ¬ (named = true ∧ k = chars "name") → FirstName line pre k v → 32 ∉ v → Items named line (textIf pre (.before pre) ++ [.field k v])
  | next {line pre k v rest is} : ¬ (named = true ∧ k = chars "name") → FirstName line pre k (v ++ 32 :: rest) → 32 ∉ v → Items named rest is →
      Items named line (textIf pre (.before pre) ++ .field k v :: is)

/-- The text of the items: a space separates a property from what follows. -/
def spell : List Item → List Nat
  | [] => []
  | .before t :: is => t ++ spell is
  | .atEnd t :: is => t ++ spell is
  | [.field k v] => k ++ 61 :: v
  | .field k v :: i :: is => k ++ 61 :: (v ++ 32 :: spell (i :: is))

/-- A warning: its code and its message. -/
abbrev Message := String × List Nat

/-- The warnings for the items of a line, in order; `seen` are the names that have occurred.  `constructor` and `__proto__` always count as repeated. -/
def itemMessages (seen : List (List Nat)) : List Item → List Message
  | [] => []
  | .before t :: is => ("ignored_line_data", chars "Unknown additional data ignored: \"" ++ t ++ chars "\"") :: itemMessages seen is
  | .atEnd t :: is => ("ignored_line_data", chars "Unknown additional end-of-line data ignored: \"" ++ t ++ chars "\"") :: itemMessages seen is
  | .field k _ :: is =>
    (if k ∈ chars "constructor" :: chars "__proto__" :: seen then [("duplicate_property", chars "Duplicate property encountered: `" ++ k ++ chars "`")] else []) ++
      itemMessages (k :: seen) is

/-- A header line with its items. -/
structure FullLine where
  tag : List Nat
  items : List Item
deriving DecidableEq, Repr

/-- Reading a line: two characters (`=y`), the tag up to the first space, and items that make up the text that is left, white space at its ends apart. -/
def ReadFull (s : List Nat) (l : FullLine) : Prop :=
  32 ∉ l.tag ∧
    (s.drop 2 = l.tag ∧ l.items = [] ∨
      ∃ rest, s.drop 2 = l.tag ++ 32 :: rest ∧ Trimmed rest (spell l.items) ∧ Items (l.tag = chars "begin") (spell l.items) l.items)

/-- The line without the texts passed over. -/
def FullLine.line (l : FullLine) : Line :=
  ⟨l.tag, l.items.map fun i => match i with | .field k v => .field k v | .before _ => .ignored | .atEnd _ => .ignored⟩

/-- The names that every object has. -/
def everyObject : List (List Nat) :=
  ["constructor", "__defineGetter__", "__defineSetter__", "hasOwnProperty", "__lookupGetter__", "__lookupSetter__", "isPrototypeOf", "propertyIsEnumerable", "toString", "valueOf", "__proto__",
    "toLocaleString"].map chars

/-- The names of the properties of a line. -/
def fieldNames (is : List Item) : List (List Nat) := is.filterMap fun i => match i with | .field k _ => some k | _ => none

/-- What counts as seen after some lines, apart from `everyObject`: the tags, and the names of the properties of the last line whose tag is `__proto__`, which are inherited. -/
structure SeenTags where
  tags : List (List Nat)
  inherited : List (List Nat)

def SeenTags.next (s : SeenTags) (l : FullLine) : SeenTags :=
  if l.tag = chars "__proto__" then ⟨s.tags, fieldNames l.items⟩ else ⟨l.tag :: s.tags, s.inherited⟩

/-- The warnings for lines, in order; `seen` is what has been seen in the lines before. -/
def lineMessages (seen : SeenTags) : List FullLine → List Message
  | [] => []
  | l :: ls =>
    itemMessages [] l.items ++
      (if l.tag ∈ everyObject ++ seen.inherited ++ seen.tags then [("duplicate_line", chars "Duplicate line encountered: `" ++ l.tag ++ chars "`")] else []) ++
      lineMessages (seen.next l) ls

/-- The other warnings: what the message is for each code. -/
def otherMessages : List (String × String) :=
  [("missing_yend_newline", "No line terminator found for =yend line"),
    ("invalid_prop_line", "`line` is not a number"), ("invalid_prop_total", "`total` is not a number"), ("invalid_prop_part", "`part` is not a number"),
    ("invalid_prop_size", "`size` is not a number"), ("invalid_prop_begin", "`begin` is not a number"), ("invalid_prop_end", "`end` is not a number"),
    ("zero_prop_line", "`line` cannot be 0"), ("zero_prop_total", "`total` cannot be 0"), ("zero_prop_part", "`part` cannot be 0"),
    ("zero_prop_begin", "`begin` cannot be 0"), ("zero_prop_end", "`end` cannot be 0"),
    ("part_number_mismatch", "Part number specified in begin and end do not match"), ("part_number_exceeds_total", "Specified part number exceeds specified total"),
    ("invalid_part_range", "begin offset cannot exceed end offset"), ("size_mismatch_part_range", "Specified size does not match part range"),
    ("part_range_exceeds_size", "Specified part range exceeds total file size"), ("missing_part_range", "Part range not specified for multi-part post"),
    ("invalid_prop_pcrc32", "`pcrc32` is not a valid CRC32 value"), ("invalid_prop_crc32", "`crc32` is not a valid CRC32 value"),
    ("size_mismatch", "Size specified in begin and end do not match"), ("size_mismatch", "Size specified for part exceeds size specified for whole file"),
    ("data_size_mismatch", "Decoded data length doesn't match size specified in yend"), ("pcrc32_mismatch", "Specified pcrc32 is invalid"),
    ("crc32_mismatch", "Specified crc32 is invalid")]

/-- The codes of the warnings about header lines. -/
def headerCodes : List String := ["ignored_line_data", "duplicate_property", "duplicate_line"]

end Yenc.Spec
