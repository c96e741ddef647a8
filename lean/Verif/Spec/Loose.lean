import Verif.Spec.YEnc
/-! yEnc texts in which some lines may be one column short. -/
namespace Yenc.Spec

/-- `Loose P ls col data text c`: `text` is an encoding of `data` that starts in column `col` and ends in column `c`, as the reference encoding, but the line may end one column early, if `P` holds of
the index of the byte that ends it; then also a tab or space in the last place is escaped. -/
inductive Loose (P : Nat → Prop) (ls col : Nat) : List Byte → List Byte → Nat → Prop where
  | nil : Loose P ls col [] [] col
  | chr {l o : List Byte} {c : Nat} (x : Byte) (h : Loose P ls col l o c) (hc : c < ls) (hx : mustEscape ls c false (x + 42#8) = false) : Loose P ls col (l ++ [x]) (o ++ [x + 42#8]) (c + 1)
  | esc {l o : List Byte} {c : Nat} (x : Byte) (h : Loose P ls col l o c) (hc : c < ls)
      (hx : mustEscape ls c false (x + 42#8) = true ∨ (c + 2 = ls ∧ P l.length ∧ (x + 42#8 = TAB ∨ x + 42#8 = SP))) :
      Loose P ls col (l ++ [x]) (o ++ [EQ, x + 42#8 + 64#8]) (c + 2)
  | brk {l o : List Byte} {c : Nat} (h : Loose P ls col l o c) (hc : ls ≤ c ∨ (ls ≤ c + 1 ∧ P (l.length - 1)))
      (hl : ∀ e, o.getLast? = some e → e ≠ TAB ∧ e ≠ SP) : Loose P ls col l (o ++ [CR, LF]) 0

/-- The end of the text: a tab or space there is escaped. -/
def finish (o : List Byte) : List Byte :=
  match o.getLast? with
  | none => o
  | some e => if e = TAB ∨ e = SP then o.dropLast ++ [EQ, e + 64#8] else o

end Yenc.Spec
