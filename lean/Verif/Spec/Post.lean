import Verif.Basic
/-!
Independent description of yEnc posts (yEnc draft 1.3, `=ybegin`, `=ypart`, `=yend` lines) and of the protocol of a multi-part encoder.
-/
namespace Yenc.Spec

/-- Bytes of an ASCII text. -/
def text (s : String) : List Byte := s.toList.map fun c => BitVec.ofNat 8 c.toNat

/-- Eight lower-case hexadecimal digits. -/
def hex8 (v : BitVec 32) : String := String.ofList ((List.range 8).map fun i => Nat.digitChar (v.toNat / 16 ^ (7 - i) % 16))

/-- A single-part post: `name` and `body` are the bytes of the file name and the encoded data. -/
def singlePost (line size : Nat) (name body : List Byte) (crc : BitVec 32) : List Byte :=
  text ("=ybegin line=" ++ toString line ++ " size=" ++ toString size ++ " name=") ++ name ++ text "\r\n" ++ body ++
    text ("\r\n=yend size=" ++ toString size ++ " crc32=" ++ hex8 crc)

/-- One part of a multi-part post, holding `len` bytes from offset `pos`; the last part carries the checksum `crc` of the whole file. -/
def partPost (part total line size : Nat) (name : List Byte) (pos len : Nat) (body : List Byte) (pcrc : BitVec 32)
    (crc : Option (BitVec 32)) : List Byte :=
  text ("=ybegin part=" ++ toString part ++ " total=" ++ toString total ++ " line=" ++ toString line ++ " size=" ++ toString size ++ " name=") ++
    name ++ text "\r\n" ++ text ("=ypart begin=" ++ toString (pos + 1) ++ " end=" ++ toString (pos + len) ++ "\r\n") ++ body ++
    text ("\r\n=yend size=" ++ toString len ++ " part=" ++ toString part ++ " pcrc32=" ++ hex8 pcrc ++
      (match crc with | some c => " crc32=" ++ hex8 c | none => ""))

/-- Is a call with `len` bytes accepted, after `calls` earlier calls and `pos` bytes accepted so far? -/
def accepts (size parts calls pos len : Nat) : Bool :=
  calls < parts && pos + len ≤ size && (calls + 1 ≠ parts || pos + len = size)

/-- For each call of a history whether it is accepted, and the number of bytes accepted in the end. -/
def history (size parts : Nat) : Nat → Nat → List Nat → List Bool × Nat
  | _, pos, [] => ([], pos)
  | calls, pos, len :: ls =>
    if accepts size parts calls pos len then
      (true :: (history size parts (calls + 1) (pos + len) ls).1, (history size parts (calls + 1) (pos + len) ls).2)
    else (false :: (history size parts (calls + 1) pos ls).1, (history size parts (calls + 1) pos ls).2)

end Yenc.Spec
