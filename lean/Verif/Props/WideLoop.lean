import Verif.Model.DecoderRvvWide
import Verif.Lemmas.DecRvvWide
import Verif.Props.Wide
import Verif.Props.Simd
/-!
Property C86: does decoding return on RISC-V with long vector registers?
-/
namespace Yenc.Props
open Yenc Yenc.Dec.Simd.Rvv Yenc.Dec.Simd.Rvv.Wide Yenc.Rvv

theorem shiftCarry_get (vl64 : Nat) (m j : Mask) (k : Nat) (h : k / 8 < vl64 / 8) :
    shiftCarry vl64 m j k = if k = 0 then false else m (k - 1) := by
  rw [shiftCarry, if_pos h]
  exact shift1_get m false k

theorem goesOn_iff (vl64 : Nat) (s : St) : goesOn vl64 s = true ↔ ∃ k < vl64, s.carry k = true := by
  rw [goesOn, decide_eq_true_eq, ← Nat.pos_iff_ne_zero, cpop_pos]

/-- C86: registers of 2048 bits and more (`8 ≤ vl64`, the loop's carries are then shifted properly).  If element 1 of the sums is all ones, nothing is carried into it and
something is carried elsewhere, the loop never ends. -/
theorem C86_never_ends (vl64 : Nat) (h8 : vl64 % 8 = 0) (h0 : 8 ≤ vl64) (J : Wide.Junk) (eq even : Mask)
    (h1 : J.sum 1 = BitVec.allOnes 64) (hc0 : madc (word eq) (word even) 0 = false) (hs0 : word eq 0 + word even 0 ≠ BitVec.allOnes 64)
    (j : Nat) (hj1 : 1 ≤ j) (hj : j + 1 < vl64) (hcj : madc (word eq) (word even) j = true) :
    ∀ r, ¬ Ends vl64 J eq even r := by
  have ones : ∀ x : BitVec 64, decide (2 ^ 64 ≤ x.toNat + (1#64).toNat) = true ↔ x = BitVec.allOnes 64 := by
    intro x
    rw [decide_eq_true_eq, ← BitVec.toNat_inj]
    have := x.isLt
    simp only [BitVec.toNat_allOnes, BitVec.toNat_ofNat]
    omega
  have in8 : ∀ k < vl64, k / 8 < vl64 / 8 := by omega
  have inv : ∀ n, (after vl64 J eq even n).odd 0 ≠ BitVec.allOnes 64 ∧ (after vl64 J eq even n).odd 1 = BitVec.allOnes 64 ∧
      (after vl64 J eq even n).carry 0 = false ∧ (after vl64 J eq even n).carry 1 = false ∧ ∃ k < vl64, (after vl64 J eq even n).carry k = true := by
    intro n
    induction n with
    | zero =>
      refine ⟨hs0, h1, ?_, ?_, j + 1, hj, ?_⟩
      · simp only [after, start]; rw [shiftCarry_get _ _ _ _ (in8 0 (by omega)), if_pos rfl]
      · simp only [after, start]; rw [shiftCarry_get _ _ _ _ (in8 1 (by omega)), if_neg (by omega)]; exact hc0
      · simp only [after, start]; rw [shiftCarry_get _ _ _ _ (in8 _ hj), if_neg (by omega)]; exact hcj
    | succ n ih =>
      obtain ⟨a0, a1, a2, a3, -⟩ := ih
      refine ⟨?_, ?_, ?_, ?_, 2, by omega, ?_⟩
      · simp only [after, step]; rw [a2]; exact a0
      · simp only [after, step]; rw [a3]; exact a1
      · simp only [after, step]; rw [shiftCarry_get _ _ _ _ (in8 0 (by omega)), if_pos rfl]
      · simp only [after, step]; rw [shiftCarry_get _ _ _ _ (in8 1 (by omega)), if_neg (by omega)]
        simp only [madc]
        rw [← Bool.not_eq_true]
        exact fun h => a0 ((ones _).1 h)
      · simp only [after, step]; rw [shiftCarry_get _ _ _ _ (in8 2 (by omega)), if_neg (by omega)]
        exact (ones _).2 a1
  rintro r ⟨n, -, hn, -⟩
  have := (goesOn_iff vl64 _).2 (inv n).2.2.2.2
  rw [hn] at this
  cases this

/-- A text of `k`s with `==` at the 190th place. -/
def hangs : Nat → Byte := fun x => if x = 190 ∨ x = 191 then EQ else 107#8

theorem hangs_reached : reached 512 (init .plain false 0) hangs = true := by decide +kernel

theorem hangs_carry0 : madc (word (cmpEq hangs)) (word (evenStart hangs false)) 0 = false := by decide +kernel

theorem hangs_carry2 : madc (word (cmpEq hangs)) (word (evenStart hangs false)) 2 = true := by decide +kernel

theorem hangs_sum : word (cmpEq hangs) 0 + word (evenStart hangs false) 0 ≠ BitVec.allOnes 64 := by decide +kernel

/-- The kernel when the loop gives `w` whatever it is given. -/
def wideKernel (w : Bool) : Dec.Simd.Mode → Dec.Simd.Kernel Regs := kernel 512 fun _ _ => ⟨fun _ => 0#8, fun _ => false, 0#16, fun _ _ _ => w⟩

set_option maxHeartbeats 8000000 in
theorem hangs_depends (w : Bool) : ((Dec.Simd.impl (wideKernel w) false).plain hangs 0 0 1025).map Prod.snd = some (if w then 1023 else 1024) := by
  cases w <;> decide +kernel

/-- C86 is false for registers of 2048 bits: `decode` of 1025 characters, 512 of which are looked at in a round.  The first round reaches the loop, the
result depends on what the loop gives, and if instructions fill up the elements they leave unspecified with ones, the loop never ends. -/
theorem C86_hang_false :
    reached 512 (init .plain false 0) hangs = true ∧
    (∀ w, ((Dec.Simd.impl (wideKernel w) false).plain hangs 0 0 1025).map Prod.snd = some (if w then 1023 else 1024)) ∧
    ∀ J : Wide.Junk, J.sum 1 = BitVec.allOnes 64 → ∀ r, ¬ Ends 8 J (cmpEq hangs) (evenStart hangs false) r :=
  ⟨hangs_reached, hangs_depends, fun J h1 => C86_never_ends 8 (by decide) (by decide) J _ _ h1 hangs_carry0 hangs_sum 2 (by decide) (by decide) hangs_carry2⟩

/-- A text of `k`s with a run of `=` from the 63rd to the 128th place and another one at the 254th. -/
def hangs2 : Nat → Byte := fun x => if 63 ≤ x ∧ x ≤ 128 ∨ x = 254 ∨ x = 255 then EQ else 107#8

theorem hangs2_reached : reached 512 (init .plain false 0) hangs2 = true := by decide +kernel

theorem hangs2_carry0 : madc (word (cmpEq hangs2)) (word (evenStart hangs2 false)) 0 = false := by decide +kernel

theorem hangs2_carry3 : madc (word (cmpEq hangs2)) (word (evenStart hangs2 false)) 3 = true := by decide +kernel

theorem hangs2_sum : word (cmpEq hangs2) 0 + word (evenStart hangs2 false) 0 ≠ BitVec.allOnes 64 := by decide +kernel

theorem hangs2_ones : word (cmpEq hangs2) 1 + word (evenStart hangs2 false) 1 = BitVec.allOnes 64 := by decide +kernel

/-- C86, the missing vector length is not the only reason: even if decoder_rvv.cc:229 added all elements, the loop would not end on some texts, since the
carries out of an element are found without asking whether anything was added to it (decoder_rvv.cc:231). -/
theorem C86_hang_intended_false :
    reached 512 (init .plain false 0) hangs2 = true ∧
    ∀ J : Wide.Junk, (∀ k, J.sum k = word (cmpEq hangs2) k + word (evenStart hangs2 false) k) → ∀ r, ¬ Ends 8 J (cmpEq hangs2) (evenStart hangs2 false) r :=
  ⟨hangs2_reached, fun J h1 => C86_never_ends 8 (by decide) (by decide) J _ _ ((h1 1).trans hangs2_ones) hangs2_carry0 hangs2_sum 3 (by decide) (by decide) hangs2_carry3⟩

/-- C86, registers of 512 and 1024 bits (`vl64` 2 and 4): the carries are shifted with a vector length of 0, so that the condition of the loop is whatever a register
happened to hold.  If it is not zero, the loop never ends, on every text on which it is reached. -/
theorem C86_hang_short_false (vl64 : Nat) (h8 : vl64 < 8) (J : Wide.Junk) (hJ : ∀ i, ∃ k < vl64, J.shift i k = true) (eq even : Mask) :
    ∀ r, ¬ Ends vl64 J eq even r := by
  have all : ∀ n, ∃ k < vl64, (after vl64 J eq even n).carry k = true := by
    intro n
    obtain ⟨k, hk, h⟩ := hJ n
    refine ⟨k, hk, ?_⟩
    have : ∀ m, shiftCarry vl64 m (J.shift n) k = true := fun m => by rw [shiftCarry, if_neg (by omega)]; exact h
    cases n with
    | zero => exact this _
    | succ n => exact this _
  rintro r ⟨n, -, hn, -⟩
  have := (goesOn_iff vl64 _).2 (all n)
  rw [hn] at this
  cases this

/-- C86: if it is zero, the loop is not entered, and the result is that for which C38 is refuted (`ones`). -/
theorem C86_short_result (J : Wide.Junk) (h1 : J.sum 1 = BitVec.allOnes 64) (hJ : ∀ k < 2, J.shift 0 k = false) (eq even : Mask) :
    ∃ r, Ends 2 J eq even r ∧ ∀ k < 128, r k = ones.wide eq even k := by
  refine ⟨_, ⟨0, by simp, ?_, rfl⟩, fun k hk => ?_⟩
  · rw [← Bool.not_eq_true, goesOn_iff]
    rintro ⟨k, hk, h⟩
    simp only [after, start] at h
    rw [shiftCarry, if_neg (by omega), hJ k hk] at h
    cases h
  · simp only [ones, after, start]
    by_cases h : k < 64
    · have e : k / 64 = 0 := by omega
      rw [e, if_pos h, if_pos (by omega), Nat.mod_eq_of_lt h]
      simp [word]
    · have e : k / 64 = 1 := by omega
      rw [e, if_neg h, if_neg (by omega), h1, BitVec.getLsbD_allOnes]
      simp; omega

/-- C86, where it holds.  Partial: the loop is not there with registers of up to 256 bits, and not reached in a round on a conformant text.  (Elsewhere the examples above.) -/
theorem C86_not_reached_partial (vl : Nat) (s : Regs) (b : Nat → Byte) (l : List Byte) (hb : ∀ k < vl, l[k]? = some (b k))
    (h : vl ≤ 64 ∨ Conformant (if s.esc then EQ :: l else l)) : reached vl s b = false := by
  rcases h with h | h
  · simp [reached, h]
  · have key : ∀ q < vl, maskLshift 1 (cmpEq b) (BitVec.ofNat 8 s.esc.toNat) q = true → cmp .plain s.lf b q = true := by
      intro q hq hs
      rw [shift1_get] at hs
      have hx : b q ≠ EQ ∧ b q ≠ CR ∧ b q ≠ LF := by
        by_cases h0 : q = 0
        · subst h0
          rw [if_pos rfl] at hs
          rw [if_pos hs] at h
          obtain ⟨a, t, ht⟩ : ∃ a t, l = a :: t := by
            cases l with
            | nil => simpa using hb 0 hq
            | cons a t => exact ⟨a, t, rfl⟩
          subst ht
          have := hb 0 hq
          simp only [List.getElem?_cons_zero, Option.some.injEq] at this
          exact this ▸ h [] a t rfl
        · rw [if_neg h0, cmpEq] at hs
          simp only [mseq, Vec.load, Nat.zero_add, beq_iff_eq] at hs
          have e1 := hb (q - 1) (by omega)
          have e2 := hb q hq
          rw [hs] at e1
          have hsplit : l = l.take (q - 1) ++ EQ :: b q :: l.drop (q + 1) := by
            obtain ⟨l1, g1⟩ := List.getElem?_eq_some_iff.1 e1
            obtain ⟨l2, g2⟩ := List.getElem?_eq_some_iff.1 e2
            rw [← g1, ← g2]
            conv_lhs => rw [← List.take_append_drop (q - 1) l]
            rw [List.drop_eq_getElem_cons l1]
            have : q - 1 + 1 = q := by omega
            simp only [this]
            rw [List.drop_eq_getElem_cons l2]
          cases he : s.esc
          · rw [he] at h
            exact h _ _ _ hsplit
          · rw [he] at h
            refine h (EQ :: l.take (q - 1)) _ (l.drop (q + 1)) ?_
            rw [if_pos rfl, List.cons_append, ← hsplit]
      simp [cmp, mnor, mor, cmpEq, cmpCr, mseq, Dec.Simd.Mode.isRaw, Vec.load, hx.1, hx.2.1, hx.2.2]
    have : ¬ cpop (mandn (maskLshift 1 (cmpEq b) (BitVec.ofNat 8 s.esc.toNat)) (cmp .plain s.lf b)) vl ≠ 0 := by
      rw [← Nat.pos_iff_ne_zero, cpop_pos]
      rintro ⟨q, hq, h1⟩
      rw [mandn, Bool.and_eq_true] at h1
      rw [key q hq h1.1] at h1
      simp at h1
    simp only [reached, this, false_and, and_false, decide_false]

example : Conformant (if (init .plain true 0).esc then EQ :: [125#8, EQ, 77#8] else [125#8, EQ, 77#8]) := by
  rw [Conformant, ← Dec.conf_iff]
  simp [Dec.conf, Dec.Simd.X86.special, init]; decide

example : ∀ i, ∃ k < 2, (⟨fun _ => 0#64, fun _ _ => true⟩ : Wide.Junk).shift i k = true := fun _ => ⟨0, by decide, rfl⟩
example : (⟨fun _ => BitVec.allOnes 64, fun _ _ => false⟩ : Wide.Junk).sum 1 = BitVec.allOnes 64 ∧
    ∀ k < 2, (⟨fun _ => BitVec.allOnes 64, fun _ _ => false⟩ : Wide.Junk).shift 0 k = false := ⟨rfl, fun _ _ => rfl⟩

end Yenc.Props
