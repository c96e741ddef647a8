import Verif.Lemmas.SharedSimd
/-! The rounds of the kernels are among the rounds that Model/SharedDec.lean allows. -/
namespace Yenc.Shared.Simd
open Yenc Yenc.Vec Yenc.Dec Yenc.Dec.Simd

theorem setNextMaskAt_le (isRaw : Bool) (b : Nat → Byte) (x y : Bool) : setNextMaskAt isRaw b x y ≤ 2 := by
  unfold setNextMaskAt
  repeat' split
  all_goals omega

theorem X86.torn_unescape (c : X86.Cfg) (md : Mode) (s : X86.Regs) (b : Nat → Byte) (mask maskEq : BitVec (2 * c.n)) (cmp : Vec) (reach : Nat)
    (hr : reach ≤ 2 * c.n + (if md.searchEnd then 4 else if md.isRaw then 2 else 0)) :
    X86.Torn c md (forget X86.Regs.esc ⟨reach, X86.unescape c s b mask maskEq cmp⟩) := by
  unfold X86.unescape
  simp only
  split
  · exact X86.Torn.pack reach hr _ _ _ _
  · exact X86.Torn.pack reach hr _ _ _ _

theorem X86.torn_iter (c : X86.Cfg) (md : Mode) (s : X86.Regs) (b : Nat → Byte) : X86.Torn c md (forget X86.Regs.esc (X86.iter c md s b)) := by
  unfold X86.iter
  simp only
  split
  · split
    · rename_i h
      have hraw := h.1
      unfold X86.dots
      simp only
      split
      · rename_i heq
        revert heq
        split
        · split
          · rename_i h1; rintro ⟨⟩; exact X86.Torn.brk (2 * c.n + 4) _ h1.1 (by omega) (setNextMaskAt_le _ _ _ _)
          · simp
        · split
          · rename_i h1
            split
            · rintro ⟨⟩; exact X86.Torn.brk (2 * c.n + 3) _ h1 (by omega) (setNextMaskAt_le _ _ _ _)
            · simp
          · simp
      · rename_i heq
        revert heq
        split
        · split
          · simp
          · rintro ⟨⟩
            exact X86.torn_unescape c md s b _ _ _ _ (by rw [if_pos hraw]; exact Nat.le_refl _)
        · split
          · rename_i h1
            split
            · simp
            · rintro ⟨⟩; exact X86.torn_unescape c md s b _ _ _ _ (by rw [if_pos h1]; omega)
          · rename_i h1
            rintro ⟨⟩; exact X86.torn_unescape c md s b _ _ _ _ (by rw [if_neg h1, if_pos hraw]; exact Nat.le_refl _)
    · exact X86.torn_unescape c md s b _ _ _ _ (by omega)
  · exact X86.Torn.plain _ _ _

theorem Neon.torn_unescape (a64 : Bool) (md : Mode) (s : Neon.Regs) (b : Nat → Byte) (mask maskEq : BitVec (Neon.wid a64)) (pk mix : Vec) (reach : Nat)
    (hr : reach ≤ Neon.wid a64 + (if md.searchEnd then 16 else if md.isRaw then 2 else 0)) :
    Neon.Torn a64 md (forget Neon.Regs.esc ⟨reach, Neon.unescape a64 s b mask maskEq pk mix⟩) := by
  unfold Neon.unescape
  simp only
  split
  · exact Neon.Torn.pack reach hr _ _ _ _
  · exact Neon.Torn.pack reach hr _ _ _ _

theorem Neon.torn_iter (a64 : Bool) (md : Mode) (s : Neon.Regs) (b : Nat → Byte) : Neon.Torn a64 md (forget Neon.Regs.esc (Neon.iter a64 md s b)) := by
  unfold Neon.iter
  simp only
  generalize (if a64 then Neon.isNonzero a64 (Neon.orAll a64 (Neon.cmp a64 md s.mix b)) else decide (lane (Neon.wid a64) (Neon.packed a64 (Neon.cmp a64 md s.mix b) (Neon.cmpEq b)) ≠ 0#_)) = any
  split
  · split
    · rename_i h
      have hraw := h.1
      split
      · rename_i heq
        have hb : md.searchEnd = true ∧ ∃ x y, setNextMaskAt md.isRaw b x y = ‹Nat› := by
          revert heq
          unfold Neon.dots
          simp only
          repeat' split
          all_goals first
            | (intro h; cases h; done)
            | (intro h; cases h; exact ⟨by first | assumption | exact And.left (by assumption), _, _, rfl⟩)
        obtain ⟨h1, x, y, rfl⟩ := hb
        exact Neon.Torn.brk _ _ h1 (by rw [if_pos h1]; exact Nat.le_refl _) (setNextMaskAt_le _ _ _ _)
      · exact Neon.torn_unescape a64 md s b _ _ _ _ _ (by simp [hraw])
    · exact Neon.torn_unescape a64 md s b _ _ _ _ _ (by omega)
  · exact Neon.Torn.plain _ _

theorem Rvv.torn_unescape (vl : Nat) (md : Mode) (J : Rvv.Junk) (b : Nat → Byte) (s : Rvv.Regs) (c eq : Yenc.Rvv.Mask) (lf : Vec) (reach : Nat)
    (hr : reach ≤ vl + (if md.searchEnd then 4 else if md.isRaw then 2 else 0)) :
    Rvv.Torn vl md (forget Rvv.Regs.esc ⟨reach, Rvv.unescape vl J b s c eq lf⟩) := by
  unfold Rvv.unescape
  simp only
  split
  · exact Rvv.Torn.pack reach hr _ _ _ _
  · exact Rvv.Torn.pack reach hr _ _ _ _

theorem Rvv.torn_iter (vl : Nat) (junk : Rvv.Regs → (Nat → Byte) → Rvv.Junk) (md : Mode) (s : Rvv.Regs) (b : Nat → Byte) :
    Rvv.Torn vl md (forget Rvv.Regs.esc (Rvv.iter vl junk md s b)) := by
  unfold Rvv.iter
  simp only
  split
  · split
    · rename_i h
      have hraw := h.1
      split
      · rename_i heq
        have hb : md.searchEnd = true ∧ ∃ x y, setNextMaskAt md.isRaw b x y = ‹Nat› := by
          revert heq
          unfold Rvv.dots Rvv.endMask
          repeat' split
          all_goals first
            | (intro h; cases h; done)
            | (intro h; cases h; exact ⟨by first | assumption | exact And.left (by assumption), _, _, rfl⟩)
        obtain ⟨h1, x, y, rfl⟩ := hb
        exact Rvv.Torn.brk _ _ h1 (by rw [if_pos h1]; exact Nat.le_refl _) (setNextMaskAt_le _ _ _ _)
      · exact Rvv.torn_unescape vl md _ b s _ _ _ _ (by simp [hraw])
    · exact Rvv.torn_unescape vl md _ b s _ _ _ _ (by omega)
  · exact Rvv.Torn.plain _ _ _

end Yenc.Shared.Simd
