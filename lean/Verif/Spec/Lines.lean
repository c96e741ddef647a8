import Verif.Spec.YEnc
/-! Line-level vocabulary for the layout properties of encoded data. -/
namespace Yenc.Spec

/-- The line ends with an escape pair. -/
def EndsEscape (l : List Byte) : Prop := ∃ t x, l = t ++ [EQ, x] ∧ paired t = true

/-- Line lengths of an encoded text whose first line starts at column `n`: complete lines reach column `ls` exactly, or
`ls + 1` if an escape pair straddles the limit; the last line is no longer than that. -/
def LineLengths (ls : Nat) : Nat → List (List Byte) → Prop
  | _, [] => True
  | n, [l] => n + l.length ≤ ls ∨ (n + l.length = ls + 1 ∧ EndsEscape l)
  | n, l :: m :: ms => (n + l.length = ls ∨ (n + l.length = ls + 1 ∧ EndsEscape l)) ∧ LineLengths ls 0 (m :: ms)

/-- CR and LF only occur as the pair CR LF. -/
def CrlfOnly (s : List Byte) : Prop :=
  s[0]? ≠ some LF ∧ ∀ i : Nat, s[i]? = some CR ↔ s[i + 1]? = some LF

end Yenc.Spec
