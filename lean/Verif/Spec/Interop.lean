import Verif.Spec.YEnc
/-! What other yEnc encoders write (yEnc draft 1.3). -/
namespace Yenc.Spec

/-- The characters that may not be written as they are. -/
def Critical (c : Byte) : Prop := c = NUL ∨ c = LF ∨ c = CR ∨ c = EQ

/-- `Encoding d t`: the text `t` encodes the data `d`. Every byte plus 42 is written as it is, unless that is critical, or as `=` and the byte plus 106, unless that is critical: an encoder may escape
more than it has to. Line breaks may be anywhere else, of any form. -/
inductive Encoding : List Byte → List Byte → Prop where
  | nil : Encoding [] []
  | chr {d t} (b : Byte) : ¬ Critical (b + 42#8) → Encoding d t → Encoding (b :: d) ((b + 42#8) :: t)
  | esc {d t} (b : Byte) : ¬ Critical (b + 106#8) → Encoding d t → Encoding (b :: d) (EQ :: (b + 106#8) :: t)
  | cr {d t} : Encoding d t → Encoding d (CR :: t)
  | lf {d t} : Encoding d t → Encoding d (LF :: t)

/-- No line starts like a header line. -/
def NoHeaderLine (t : List Byte) : Prop := ¬ [CR, LF, EQ, LY] <:+: [CR, LF] ++ t

end Yenc.Spec
