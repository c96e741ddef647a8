import Verif.Spec.YEnc
import Verif.Model.EncoderScalar
/-! Facts about the scalar encoder's lookup tables, each checked over all 256 bytes. -/
namespace Yenc.Enc
open Yenc

/-- The bytes written for a character in the middle of a line. -/
def mid (c : Byte) : List Byte :=
  if Spec.critical (c + 42#8) then [EQ, c + 42#8 + 64#8] else [c + 42#8]

theorem escapeLUT_eq_zero : ∀ c : Byte, (escapeLUT c = 0#8) = (Spec.critical (c + 42#8) = true) := by
  have h : ∀ c : Byte, (decide (escapeLUT c = 0#8)) = Spec.critical (c + 42#8) := by decide +kernel
  intro c; rw [← h c]; simp

theorem escapeLUT_ne_zero : ∀ c : Byte, ¬ Spec.critical (c + 42#8) → escapeLUT c = c + 42#8 := by
  decide +kernel

/-- `escapedLUT` is non-zero exactly for the characters escaped at the start of a line. -/
theorem escapedLUT_ne_zero (ls : Nat) (last : Bool) (c : Byte) :
    (escapedLUT c ≠ 0#16) = (Spec.mustEscape ls 0 last (c + 42#8) = true) := by
  have h : ∀ c : Byte, (decide (escapedLUT c ≠ 0#16)) =
      (Spec.critical (c + 42#8) || decide (c + 42#8 = DOT) || (decide (c + 42#8 = TAB) || decide (c + 42#8 = SP))) := by
    decide +kernel
  have := h c
  simp only [Spec.mustEscape]
  rw [← decide_eq_true_eq (p := escapedLUT c ≠ 0#16), this]
  simp

theorem escapedLUT_bytes : ∀ c : Byte, escapedLUT c ≠ 0#16 →
    bytes16 (escapedLUT c) = [EQ, c + 42#8 + 64#8] := by decide +kernel

theorem escapedLUT_of_critical : ∀ c : Byte, Spec.critical (c + 42#8) → escapedLUT c ≠ 0#16 := by
  decide +kernel

theorem escaped_and_not_dot (c : Byte) :
    (escapedLUT c ≠ 0#16 ∧ c ≠ 4#8) ↔
      (Spec.critical (c + 42#8) = true ∨ c + 42#8 = TAB ∨ c + 42#8 = SP) := by
  have h : ∀ c : Byte, (decide (escapedLUT c ≠ 0#16 ∧ c ≠ 4#8)) =
      (decide (Spec.critical (c + 42#8) = true ∨ c + 42#8 = TAB ∨ c + 42#8 = SP)) := by decide +kernel
  exact decide_eq_decide.mp (h c)

theorem eol_bytes_escaped : ∀ c : Byte, escapedLUT c ≠ 0#16 →
    bytes32 ((13#32 ||| (10#32 <<< 8)) ||| ((escapedLUT c).setWidth 32 <<< 16))
      = [CR, LF, EQ, c + 42#8 + 64#8] := by decide +kernel

theorem eol_bytes_plain : ∀ c : Byte,
    (bytes32 (13#32 ||| (10#32 <<< 8) ||| (BitVec.ofNat 32 (c.toNat + 42) <<< 16) ||| (0#32 <<< 24))).take 3
      = [CR, LF, c + 42#8] := by decide +kernel

theorem mid_length (c : Byte) : (mid c).length = if escapeLUT c ≠ 0#8 then 1 else 2 := by
  have := escapeLUT_eq_zero c
  unfold mid; split <;> simp_all

theorem mid_pos (c : Byte) : 1 ≤ (mid c).length := by unfold mid; split <;> simp
theorem mid_le (c : Byte) : (mid c).length ≤ 2 := by unfold mid; split <;> simp

theorem doThing_eq (w : W) (c : Byte) :
    doThing w c = ⟨w.out ++ mid c, max w.hi (w.out.length + (mid c).length)⟩ := by
  have h1 := escapeLUT_eq_zero c
  unfold doThing mid W.put
  by_cases h : Spec.critical (c + 42#8)
  · have h2 := escapedLUT_of_critical c h
    simp only [h, if_true]
    rw [if_neg (by simp [h1, h]), escapedLUT_bytes c h2]; simp
  · have h3 := escapeLUT_ne_zero c h
    have h4 : escapeLUT c ≠ 0#8 := by simp [h1, h]
    simp only [h]
    rw [if_pos h4, h3]; simp

theorem encChar_mid (ls col : Nat) (c : Byte) (h1 : 1 ≤ col) (h2 : col + 1 < ls) :
    Spec.encChar ls col false (c + 42#8) = mid c := by
  unfold Spec.encChar mid Spec.mustEscape
  have : col ≠ 0 := by omega
  have : col + 1 ≠ ls := by omega
  simp [*]

theorem encChar_length (ls col : Nat) (last : Bool) (e : Byte) :
    1 ≤ (Spec.encChar ls col last e).length ∧ (Spec.encChar ls col last e).length ≤ 2 := by
  unfold Spec.encChar; split <;> simp

theorem mid_le_encChar (ls col : Nat) (last : Bool) (c : Byte) :
    (mid c).length ≤ (Spec.encChar ls col last (c + 42#8)).length := by
  unfold Spec.encChar mid Spec.mustEscape
  by_cases h : Spec.critical (c + 42#8) <;> simp [h]
  split <;> simp

theorem firstChar_eq (w : W) (c : Byte) (ls : Nat) (last : Bool) :
    let s := Spec.encChar ls 0 last (c + 42#8)
    firstChar w c = (⟨w.out ++ s, max w.hi (w.out.length + s.length)⟩, (s.length : Int)) := by
  have h1 := escapedLUT_ne_zero ls last c
  unfold firstChar Spec.encChar W.put
  by_cases h : Spec.mustEscape ls 0 last (c + 42#8)
  · have h2 : escapedLUT c ≠ 0#16 := by simp [h1, h]
    simp only [h, escapedLUT_bytes c h2]; simp [h2]
  · have h2 : ¬ (escapedLUT c ≠ 0#16) := by simp [h1, h]
    simp only [h2, h]; simp

theorem lastChar_eq (w : W) (c : Byte) (ls col : Nat) (h1 : 1 ≤ col) (h2 : col + 1 = ls) (last : Bool) :
    let s := Spec.encChar ls col last (c + 42#8)
    lastChar w c = ⟨w.out ++ s, max w.hi (w.out.length + s.length)⟩ := by
  have h3 := escaped_and_not_dot c
  have h4 : col ≠ 0 := by omega
  unfold lastChar Spec.encChar W.put Spec.mustEscape
  by_cases h : (Spec.critical (c + 42#8) = true ∨ c + 42#8 = TAB ∨ c + 42#8 = SP)
  · have h5 := h3.mpr h
    rw [if_pos h5]
    have : (Spec.critical (c + 42#8) || decide (c + 42#8 = DOT) && decide (col = 0)
        || (decide (c + 42#8 = TAB) || decide (c + 42#8 = SP)) && (decide (col = 0) || decide (col + 1 = ls) || last)) = true := by
      rcases h with h | h | h <;> simp [h, h2]
    simp [this, escapedLUT_bytes c h5.1]
  · have h5 : ¬ _ := fun hh => h (h3.mp hh)
    rw [if_neg h5]
    simp only [not_or] at h
    simp [h, h4]

theorem eolChar_eq (w : W) (c : Byte) (ls : Nat) (last : Bool) :
    let s := Spec.encChar ls 0 last (c + 42#8)
    eolChar w c = (⟨w.out ++ CR :: LF :: s, max w.hi (w.out.length + 4)⟩, (s.length : Int)) := by
  have h1 := escapedLUT_ne_zero ls last c
  unfold eolChar Spec.encChar W.put
  by_cases h : Spec.mustEscape ls 0 last (c + 42#8)
  · have h2 : escapedLUT c ≠ 0#16 := by simp [h1, h]
    simp only [h, eol_bytes_escaped c h2]; simp [h2]
  · have h2 : ¬ (escapedLUT c ≠ 0#16) := by simp [h1, h]
    simp only [h2, h]
    have := eol_bytes_plain c
    simp only [if_false]
    rw [this]
    simp [bytes32]

end Yenc.Enc
