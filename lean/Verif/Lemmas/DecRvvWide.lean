import Verif.Lemmas.DecRvv
import Verif.Lemmas.DecAgree
/-! The RISC-V decoder kernel with vector registers of any size, on input where no `=` is followed by `=`, CR or LF. -/
namespace Yenc.Dec.Simd.Rvv
open Vec Yenc.Rvv
open X86 (special pend nlDot)

/-- The sum of masks as it should be. -/
def mend (junk : Regs → (Nat → Byte) → Junk) : Regs → (Nat → Byte) → Junk := fun s b =>
  { junk s b with wide := fun _ _ k => (escP (fun j => b (j - 4)) s.esc (k + 1)) ^^ evenBits k }

theorem escP_only (B : Nat → Byte) (e : Bool) (n : Nat) : escP (fun j => B (4 + (j - 4))) e n = escP B e n := by
  induction n with
  | zero => rfl
  | succ n ih =>
    simp only [escP]
    rw [ih]
    simp only [show 4 + (n + 4 - 4) = n + 4 by omega]

theorem mend_ok (vl : Nat) (hv8 : vl % 8 = 0) (hv0 : 8 ≤ vl) (junk : Regs → (Nat → Byte) → Junk) (md : Mode) : (kernel vl (mend junk) md).Ok false md (Rel vl) := by
  refine kernel_ok_of vl hv8 hv0 _ md fun s B q h => ?_
  by_cases hv64 : vl ≤ 64
  · exact fixEq_ok vl _ s s.esc B _ (fun k => by rw [Nat.add_comm]) hv64 rfl q h
  · rw [fixEq, mand, mxor, oddGroups, if_neg hv64, cmpEq_apply]
    simp only [mend]
    rw [escP_only, Bool.xor_assoc, Bool.xor_self, Bool.xor_false, escP, Nat.add_comm 4]
    cases decide (B (q + 4) = EQ) <;> simp

section
variable (vl : Nat) (junk : Regs → (Nat → Byte) → Junk) (s : Regs) (b : Nat → Byte)

/-- If nothing special is escaped, the sum is not needed. -/
theorem unescape_mend (c : Mask) (lf : Vec) (h : ∀ q, q < vl → maskLshift 1 (cmpEq b) (BitVec.ofNat 8 s.esc.toNat) q = true → c q = true) :
    unescape vl (junk s b) b s c (cmpEq b) lf = unescape vl (mend junk s b) b s c (cmpEq b) lf := by
  have h0 : ¬ cpop (mandn (maskLshift 1 (cmpEq b) (BitVec.ofNat 8 s.esc.toNat)) c) vl ≠ 0 := by
    rw [← Nat.pos_iff_ne_zero, cpop_pos]
    rintro ⟨q, hq, h1⟩
    rw [mandn, Bool.and_eq_true] at h1
    rw [h q hq h1.1] at h1
    simp at h1
  unfold unescape
  simp only
  rw [if_neg h0, if_neg h0]
  rfl

end

theorem iter_mend (vl : Nat) (hv8 : vl % 8 = 0) (junk : Regs → (Nat → Byte) → Junk) (md : Mode) (s : Regs) (e : Bool) (B b : Nat → Byte)
    (hb : ∀ k, b k = B (k + 4)) (hR : Rel vl s e (pendOf md B)) (he : e = true → B 3 = EQ) (hcalm : Calm vl B e) : iter vl junk md s b = iter vl (mend junk) md s b := by
  obtain ⟨hs, hoff, hlf⟩ := hR
  have hpl : md.isRaw = false → pendOf md B = 0 := fun h => X86.pendOf_plain md h B
  have hx := X86.pend_dot md B b hb
  have hc := cmp_apply vl md s.lf _ b hlf hpl hx
  have hkr : md.isRaw = true → ∀ q, killed md.isRaw B q = (pend (pendOf md B) q || (decide (2 ≤ q) && nlDot b (q - 2))) := by
    intro hr q; rw [hr]; exact X86.killed_raw md hr B b hb q
  -- an escaped byte is not special, and no dot after a line break
  have hsh : ∀ q, q < vl → maskLshift 1 (cmpEq b) (BitVec.ofNat 8 s.esc.toNat) q = true → special (b q) = false ∧ killed md.isRaw B q = false := by
    intro q hq h
    rw [shift1_get, hs] at h
    have hprev : B (q + 3) = EQ := by
      by_cases h0 : q = 0
      · subst h0; exact he (by simpa using h)
      · rw [if_neg h0, cmpEq_apply, decide_eq_true_eq, hb, show q - 1 + 4 = q + 3 by omega] at h; exact h
    refine ⟨?_, by simp [killed, hprev]⟩
    rw [hb]
    apply hcalm q hq
    by_cases h0 : q = 0
    · rw [if_pos h0] at h ⊢; exact h
    · rw [if_neg h0]; exact hprev
  have hpend : ∀ q, killed md.isRaw B q = false → pend (pendOf md B) q = false := by
    intro q h
    cases hr : md.isRaw
    · rw [hpl hr]; simp [pend]
    · rw [hkr hr] at h
      exact (Bool.or_eq_false_iff.1 h).1
  have hc1 : ∀ q, q < vl → maskLshift 1 (cmpEq b) (BitVec.ofNat 8 s.esc.toNat) q = true → cmp md s.lf b q = true := by
    intro q hq h
    obtain ⟨h1, h2⟩ := hsh q hq h
    rw [hc q hq, h1, hpend q h2]; rfl
  have hd : dots vl md (junk s b) b (cmp md s.lf b) = dots vl md (mend junk s b) b (cmp md s.lf b) := rfl
  unfold iter
  simp only
  rw [hd]
  split
  · split
    · rename_i hr
      have hr := hr.1
      have hgo : ∀ c lf, dots vl md (mend junk s b) b (cmp md s.lf b) = .go c lf →
          ∀ q, q < vl → maskLshift 1 (cmpEq b) (BitVec.ofNat 8 s.esc.toNat) q = true → c q = true := by
        intro c lf hg q hq h
        have h1 := hc1 q hq h
        have h2 := (hsh q hq h).2
        rw [hkr hr] at h2
        unfold dots at hg
        have : ∀ c' lf', Dots.go c' lf' = .go c lf → c' q = true → c q = true := by
          intro c' lf' h3 h4; cases h3; exact h4
        split at hg
        · split at hg
          · cases hg
          · refine this _ _ hg ?_
            rw [mandn, shift2_get, match2NlDot_apply vl md _ b hv8, h1, (Bool.or_eq_false_iff.1 h2).2]; rfl
        · split at hg
          · split at hg
            · cases hg
            · exact this _ _ hg h1
          · exact this _ _ hg h1
      cases hg : dots vl md (mend junk s b) b (cmp md s.lf b) with
      | brk nm => rfl
      | go c lf =>
        simp only
        rw [unescape_mend vl junk s b c lf (hgo c lf hg)]
    · rw [unescape_mend vl junk s b _ _ hc1]
  · rfl

theorem agree (vl : Nat) (hv8 : vl % 8 = 0) (junk : Regs → (Nat → Byte) → Junk) (md : Mode) : (kernel vl junk md).Agree (kernel vl (mend junk) md) md (Rel vl) where
  width := rfl
  init := rfl
  esc := rfl
  iter s e B hR he hcalm := iter_mend vl hv8 junk md s e B _ (fun k => by rw [Nat.add_comm]) hR he hcalm

end Yenc.Dec.Simd.Rvv
