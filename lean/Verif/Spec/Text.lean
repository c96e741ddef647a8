import Verif.Basic
/-!
Independent facts about Unicode text: the number of bytes of the UTF-8 form of a UTF-16 string (Unicode standard, table 3-6), and which strings are
valid text.
-/
namespace Yenc.Spec

/-- A surrogate pair. -/
def isPair (u v : Nat) : Prop := (0xD800 ≤ u ∧ u < 0xDC00) ∧ (0xDC00 ≤ v ∧ v < 0xE000)

instance (u v : Nat) : Decidable (isPair u v) := by unfold isPair; infer_instance

/-- Bytes for one code unit outside of pairs. -/
def unitBytes (u : Nat) : Nat := if u < 0x80 then 1 else if u < 0x800 then 2 else 3

/-- Bytes of the UTF-8 form (a lone surrogate is replaced with U+FFFD, three bytes). -/
def utf8Bytes : List Nat → Nat
  | [] => 0
  | [u] => unitBytes u
  | u :: v :: r => if isPair u v then 4 + utf8Bytes r else unitBytes u + utf8Bytes (v :: r)

/-- No lone surrogates: the string is a sequence of pairs and of units that are not surrogates. -/
inductive ValidText : List Nat → Prop where
  | nil : ValidText []
  | unit {u s} : u < 0x10000 → ¬ (0xD800 ≤ u ∧ u < 0xE000) → ValidText s → ValidText (u :: s)
  | pair {u v s} : isPair u v → ValidText s → ValidText (u :: v :: s)

end Yenc.Spec
