import Verif.Lemmas.EncSize
/-! Size of the reference encoding in terms of the escape characters it contains. -/
namespace Yenc.Enc
open Yenc

theorem encChar_count (ls col : Nat) (last : Bool) (e : Byte) : (Spec.encChar ls col last e).length = 1 + (Spec.encChar ls col last e).count EQ := by
  rcases encChar_cases ls col last e with ⟨hm, h⟩ | ⟨hm, h⟩
  · rw [h]
    have : e + 64#8 ≠ EQ := by
      rcases escape_domain hm with rfl | rfl | rfl | rfl | rfl | rfl | rfl <;> decide
    simp [List.count_cons, this]
  · rw [h]
    have : e ≠ EQ := by
      rintro rfl; simp [Spec.mustEscape, Spec.critical] at hm
    simp [List.count_cons, this]

/-- Size of the encoding in terms of the number of escape characters in it. -/
theorem encode_size_esc (ls : Nat) (hls : 1 ≤ ls) (fin : Bool) (col : Nat) (src : List Byte) :
    ∃ k, (Spec.encode ls fin col src).length = src.length + (Spec.encode ls fin col src).count EQ + 2 * k ∧
      (k = 0 ∨ ls * k + 1 ≤ col + (src.length + (Spec.encode ls fin col src).count EQ)) := by
  induction src generalizing col with
  | nil => exact ⟨0, by simp [Spec.encode], by simp⟩
  | cons c cs ih =>
    by_cases h : ls ≤ col
    · rw [encode_cons_ge _ _ _ _ _ h]
      have hw := encChar_count ls 0 (fin && cs.isEmpty) (c + 42#8)
      have hw2 := encChar_length ls 0 (fin && cs.isEmpty) (c + 42#8)
      generalize Spec.encChar ls 0 (fin && cs.isEmpty) (c + 42#8) = s at *
      obtain ⟨k, h1, h4⟩ := ih s.length
      have e1 : List.count EQ (CR :: LF :: (s ++ Spec.encode ls fin s.length cs)) = s.count EQ + (Spec.encode ls fin s.length cs).count EQ := by
        simp [List.count_cons, show CR ≠ EQ by decide, show LF ≠ EQ by decide]
      rw [e1]
      refine ⟨k + 1, ?_, Or.inr ?_⟩
      · simp only [List.length_append, List.length_cons, h1]; omega
      · rw [Nat.mul_add]
        simp only [List.length_cons]
        rcases h4 with rfl | h4
        · simp; omega
        · omega
    · rw [encode_cons_lt _ _ _ _ _ (by omega)]
      have hw := encChar_count ls col (fin && cs.isEmpty) (c + 42#8)
      generalize Spec.encChar ls col (fin && cs.isEmpty) (c + 42#8) = s at *
      obtain ⟨k, h1, h4⟩ := ih (col + s.length)
      rw [List.count_append]
      refine ⟨k, ?_, ?_⟩
      · simp only [List.length_append, List.length_cons, h1]; omega
      · simp only [List.length_cons]; omega

end Yenc.Enc
