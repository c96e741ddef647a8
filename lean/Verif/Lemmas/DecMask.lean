import Verif.Model.DecoderMask
/-! The bit trick that finds the `=` that really escape something. -/
namespace Yenc.Dec

theorem getLsbD_evenBits {w : Nat} (hw : w ≤ 64) (i : Nat) (hi : i < w) : (evenBits w).getLsbD i = (i % 2 == 0) := by
  unfold evenBits
  rw [BitVec.getLsbD_ofNat]
  simp only [hi, decide_true, Bool.true_and]
  have h : i < 64 := by omega
  clear hi hw
  revert i
  decide

/-- Which of the bits of `m` are escapes, when an escape affects the following position: a set bit is one, unless it is itself affected. `e` says
that position 0 is affected. -/
def escAt (m : Nat → Bool) (e : Bool) : Nat → Bool
  | 0 => m 0 && !e
  | i + 1 => m (i + 1) && !escAt m e i

theorem fixEqMask_getLsbD {w : Nat} (hw : w ≤ 64) (mask sh : BitVec w) (e : Bool)
    (h0 : 0 < w → sh.getLsbD 0 = e) (hs : ∀ i, i + 1 < w → sh.getLsbD (i + 1) = mask.getLsbD i) (i : Nat) (hi : i < w) :
    (fixEqMask mask sh).getLsbD i = escAt mask.getLsbD e i := by
  have key : ∀ i, i < w → ∀ y, y = (mask &&& ~~~sh) &&& evenBits w →
      (escAt mask.getLsbD e i = (mask.getLsbD i && ((y.getLsbD i || BitVec.carry i mask y false) == (i % 2 == 0)))) ∧
      ((y.getLsbD i && BitVec.carry i mask y false) = false) := by
    intro i hi y hy
    have hyi : ∀ j, j < w → y.getLsbD j = (mask.getLsbD j && !sh.getLsbD j && (j % 2 == 0)) := by
      intro j hj
      rw [hy]
      simp only [BitVec.getLsbD_and, BitVec.getLsbD_not, getLsbD_evenBits hw j hj, hj, decide_true, Bool.true_and]
    induction i with
    | zero =>
      rw [hyi 0 hi, h0 hi]
      simp only [escAt, BitVec.carry_zero]
      cases mask.getLsbD 0 <;> cases e <;> simp
    | succ i ih =>
      have ih := ih (by omega)
      rw [hyi (i + 1) hi, hs i hi]
      rw [hyi i (by omega)] at ih
      simp only [escAt, ih.1, BitVec.carry_succ, hyi i (by omega)]
      have hp : ((i + 1) % 2 == 0) = !(i % 2 == 0) := by
        rcases Nat.mod_two_eq_zero_or_one i with h | h
        · have : (i + 1) % 2 = 1 := by omega
          simp [h, this]
        · have : (i + 1) % 2 = 0 := by omega
          simp [h, this]
      rw [hp]
      have h2 := ih.2
      revert h2
      generalize (i % 2 == 0) = ev
      generalize BitVec.carry i mask y false = c
      generalize sh.getLsbD i = p
      generalize mask.getLsbD (i + 1) = a
      generalize mask.getLsbD i = b
      cases a <;> cases b <;> cases c <;> cases p <;> cases ev <;> simp [Bool.atLeastTwo]
  obtain ⟨h1, h2⟩ := key i hi _ rfl
  rw [h1]
  unfold fixEqMask
  simp only [BitVec.getLsbD_and, BitVec.getLsbD_xor, BitVec.getLsbD_add hi, getLsbD_evenBits hw i hi]
  simp only [BitVec.getLsbD_and, getLsbD_evenBits hw i hi] at h2 ⊢
  revert h2
  generalize BitVec.carry i mask _ false = c
  generalize (i % 2 == 0) = ev
  generalize (~~~sh).getLsbD i = p
  generalize mask.getLsbD i = a
  cases a <;> cases p <;> cases c <;> cases ev <;> simp

end Yenc.Dec
