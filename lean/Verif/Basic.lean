/-!
Bytes and the characters yEnc and NNTP give a meaning to.
-/
namespace Yenc

/-- `unsigned char`: arithmetic wraps modulo 256 exactly as `BitVec 8`. -/
abbrev Byte := BitVec 8

abbrev NUL : Byte := 0#8
abbrev TAB : Byte := 9#8
abbrev LF : Byte := 10#8
abbrev CR : Byte := 13#8
abbrev SP : Byte := 32#8
abbrev DOT : Byte := 46#8
abbrev EQ : Byte := 61#8
abbrev LY : Byte := 121#8   -- 'y'

/-! The special characters are pairwise distinct. -/
@[simp] theorem NUL_ne_TAB : (NUL = TAB) = False := by decide
@[simp] theorem NUL_ne_LF : (NUL = LF) = False := by decide
@[simp] theorem NUL_ne_CR : (NUL = CR) = False := by decide
@[simp] theorem NUL_ne_SP : (NUL = SP) = False := by decide
@[simp] theorem NUL_ne_DOT : (NUL = DOT) = False := by decide
@[simp] theorem NUL_ne_EQ : (NUL = EQ) = False := by decide
@[simp] theorem NUL_ne_LY : (NUL = LY) = False := by decide
@[simp] theorem TAB_ne_NUL : (TAB = NUL) = False := by decide
@[simp] theorem TAB_ne_LF : (TAB = LF) = False := by decide
@[simp] theorem TAB_ne_CR : (TAB = CR) = False := by decide
@[simp] theorem TAB_ne_SP : (TAB = SP) = False := by decide
@[simp] theorem TAB_ne_DOT : (TAB = DOT) = False := by decide
@[simp] theorem TAB_ne_EQ : (TAB = EQ) = False := by decide
@[simp] theorem TAB_ne_LY : (TAB = LY) = False := by decide
@[simp] theorem LF_ne_NUL : (LF = NUL) = False := by decide
@[simp] theorem LF_ne_TAB : (LF = TAB) = False := by decide
@[simp] theorem LF_ne_CR : (LF = CR) = False := by decide
@[simp] theorem LF_ne_SP : (LF = SP) = False := by decide
@[simp] theorem LF_ne_DOT : (LF = DOT) = False := by decide
@[simp] theorem LF_ne_EQ : (LF = EQ) = False := by decide
@[simp] theorem LF_ne_LY : (LF = LY) = False := by decide
@[simp] theorem CR_ne_NUL : (CR = NUL) = False := by decide
@[simp] theorem CR_ne_TAB : (CR = TAB) = False := by decide
@[simp] theorem CR_ne_LF : (CR = LF) = False := by decide
@[simp] theorem CR_ne_SP : (CR = SP) = False := by decide
@[simp] theorem CR_ne_DOT : (CR = DOT) = False := by decide
@[simp] theorem CR_ne_EQ : (CR = EQ) = False := by decide
@[simp] theorem CR_ne_LY : (CR = LY) = False := by decide
@[simp] theorem SP_ne_NUL : (SP = NUL) = False := by decide
@[simp] theorem SP_ne_TAB : (SP = TAB) = False := by decide
@[simp] theorem SP_ne_LF : (SP = LF) = False := by decide
@[simp] theorem SP_ne_CR : (SP = CR) = False := by decide
@[simp] theorem SP_ne_DOT : (SP = DOT) = False := by decide
@[simp] theorem SP_ne_EQ : (SP = EQ) = False := by decide
@[simp] theorem SP_ne_LY : (SP = LY) = False := by decide
@[simp] theorem DOT_ne_NUL : (DOT = NUL) = False := by decide
@[simp] theorem DOT_ne_TAB : (DOT = TAB) = False := by decide
@[simp] theorem DOT_ne_LF : (DOT = LF) = False := by decide
@[simp] theorem DOT_ne_CR : (DOT = CR) = False := by decide
@[simp] theorem DOT_ne_SP : (DOT = SP) = False := by decide
@[simp] theorem DOT_ne_EQ : (DOT = EQ) = False := by decide
@[simp] theorem DOT_ne_LY : (DOT = LY) = False := by decide
@[simp] theorem EQ_ne_NUL : (EQ = NUL) = False := by decide
@[simp] theorem EQ_ne_TAB : (EQ = TAB) = False := by decide
@[simp] theorem EQ_ne_LF : (EQ = LF) = False := by decide
@[simp] theorem EQ_ne_CR : (EQ = CR) = False := by decide
@[simp] theorem EQ_ne_SP : (EQ = SP) = False := by decide
@[simp] theorem EQ_ne_DOT : (EQ = DOT) = False := by decide
@[simp] theorem EQ_ne_LY : (EQ = LY) = False := by decide
@[simp] theorem LY_ne_NUL : (LY = NUL) = False := by decide
@[simp] theorem LY_ne_TAB : (LY = TAB) = False := by decide
@[simp] theorem LY_ne_LF : (LY = LF) = False := by decide
@[simp] theorem LY_ne_CR : (LY = CR) = False := by decide
@[simp] theorem LY_ne_SP : (LY = SP) = False := by decide
@[simp] theorem LY_ne_DOT : (LY = DOT) = False := by decide
@[simp] theorem LY_ne_EQ : (LY = EQ) = False := by decide

end Yenc
