import Mathlib.Data.Nat.ModEq
import Mathlib.GroupTheory.OrderOfElement
import Verif.Lemmas.CrcGeneric
/-! Multiplication, powers of `x`, and the reduction of exponents. -/
namespace Yenc.Crc
open Polynomial Yenc.Spec

theorem phi_mulLoop (n : Nat) (res a b : U32) (hn : n ≤ 32) :
    phi (mulLoop n res a b).1 = phi res + phi a * ∑ i ∈ Finset.range n, ind (b.getMsbD i) * x ^ i ∧
    phi (mulLoop n res a b).2.1 = phi a * x ^ n ∧
    ∀ i, (mulLoop n res a b).2.2.getMsbD i = b.getMsbD (n + i) := by
  induction n generalizing res a b with
  | zero => simp [mulLoop]
  | succ n ih =>
    rw [mulLoop]
    obtain ⟨h1, h2, h3⟩ := ih (res ^^^ (-(b >>> 31) &&& a)) (shr1 a) (b <<< 1) (by omega)
    have hb : ∀ i, (b <<< 1).getMsbD i = b.getMsbD (i + 1) := by
      intro i
      simp only [BitVec.getMsbD_shiftLeft, Nat.add_comm]
    refine ⟨?_, ?_, ?_⟩
    · rw [h1, phi_xor, shr31_ofBool, neg_and, phi_ite, phi_shr1, Finset.sum_range_succ', mul_add, Finset.mul_sum, Finset.mul_sum]
      simp only [hb]
      rw [add_assoc, add_comm (ind _ * phi a)]
      congr 1
      congr 1
      · refine Finset.sum_congr rfl fun i _ => ?_; ring
      · ring
    · rw [h2, phi_shr1]; ring
    · intro i; rw [h3, hb]; congr 1; omega

theorem phi_multiply (a b : U32) : phi (multiply a b) = phi a * phi b := by
  unfold multiply
  obtain ⟨h1, h2, h3⟩ := phi_mulLoop 31 0 a b (by omega)
  dsimp only
  rw [phi_xor, shr31_ofBool, neg_and, phi_ite, h1, h2, h3]
  conv_rhs => rw [show phi b = ∑ i ∈ Finset.range 32, ind (b.getMsbD i) * x ^ i from rfl, Finset.sum_range_succ]
  have hz : phi 0 = 0 := phi_zero
  rw [hz]; ring

/-! ### Powers of two -/

theorem crcPower_sq : ∀ i : Fin 31, multiply (crcPower.getD i 0#32) (crcPower.getD i 0#32) = crcPower.getD (i + 1) 0#32 := by
  decide +kernel

theorem phi_crcPower (i : Nat) (hi : i < 32) : phi (crcPower.getD i 0#32) = x ^ (2 ^ i) := by
  induction i with
  | zero => exact phi_x.trans (by simp)
  | succ i ih =>
    have h := crcPower_sq ⟨i, by omega⟩
    simp only at h
    rw [← h, phi_multiply, ih (by omega), ← pow_add]
    congr 1; rw [pow_succ]; ring

theorem x_pow_2_32 : x ^ (2 ^ 32) = x := by
  have h : multiply (crcPower.getD 31 0#32) (crcPower.getD 31 0#32) = 0x40000000#32 := by decide +kernel
  have h2 := phi_multiply (crcPower.getD 31 0#32) (crcPower.getD 31 0#32)
  rw [h, phi_x, phi_crcPower 31 (by omega), ← pow_add] at h2
  exact h2.symm

/-- The inverse of `x`. -/
noncomputable def xinv : R := phi 0xDB710641#32
theorem x_mul_xinv : x * xinv = 1 := by
  unfold xinv
  rw [← phi_shr1, ← phi_one]; congr 1

theorem isUnit_x : IsUnit x := IsUnit.of_mul_eq_one _ x_mul_xinv

theorem x_pow_period : x ^ (2 ^ 32 - 1) = 1 := by
  have h : x * x ^ (2 ^ 32 - 1) = x * 1 := by
    rw [← pow_succ', mul_one]; exact x_pow_2_32
  exact isUnit_x.mul_left_cancel h

theorem x_pow_congr {m n : Nat} (h : m ≡ n [MOD 2 ^ 32 - 1]) : x ^ m = x ^ n := by
  have key : ∀ k, x ^ k = x ^ (k % (2 ^ 32 - 1)) := by
    intro k
    conv_lhs => rw [← Nat.div_add_mod k (2 ^ 32 - 1), pow_add, pow_mul, x_pow_period, one_pow, one_mul]
  rw [key m, key n, h]

/-! ### Shifting -/

theorem and_pred (k m : Nat) : (2 ^ k * (2 * m + 1)) &&& (2 ^ k * (2 * m + 1) - 1) = 2 ^ (k + 1) * m := by
  have hp : 0 < 2 ^ k := Nat.two_pow_pos k
  have e1 : 2 ^ k * (2 * m + 1) = 2 ^ (k + 1) * m + 2 ^ k := by rw [pow_succ]; ring
  have e2 : 2 ^ k * (2 * m + 1) - 1 = 2 ^ (k + 1) * m + (2 ^ k - 1) := by rw [e1]; omega
  rw [e2, e1]
  have l1 : 2 ^ k < 2 ^ (k + 1) := by rw [pow_succ]; omega
  have l2 : 2 ^ k - 1 < 2 ^ (k + 1) := by omega
  apply Nat.eq_of_testBit_eq
  intro j
  rw [Nat.testBit_and, Nat.testBit_two_pow_mul_add _ l1, Nat.testBit_two_pow_mul_add _ l2,
    show 2 ^ (k + 1) * m = 2 ^ (k + 1) * m + 0 by omega, Nat.testBit_two_pow_mul_add _ (Nat.two_pow_pos _)]
  by_cases hj : j < k + 1
  · simp [hj]
    intro h1
    rw [Nat.testBit_two_pow] at h1
    simp at h1
    omega
  · simp [hj]

theorem ctzFrom_spec (n : U32) (f i : Nat) (hf : i + f = 32) (hn : n ≠ 0#32) (hlow : ∀ j < i, n.getLsbD j = false) :
    ctzFrom n f i < 32 ∧ n.getLsbD (ctzFrom n f i) = true ∧ ∀ j < ctzFrom n f i, n.getLsbD j = false := by
  induction f generalizing i with
  | zero =>
    exfalso; apply hn
    apply BitVec.eq_of_getLsbD_eq
    intro j hj
    rw [hlow j (by omega)]; simp
  | succ f ih =>
    rw [ctzFrom]
    split
    · rename_i h; exact ⟨by omega, h, hlow⟩
    · rename_i h
      refine ih (i + 1) (by omega) fun j hj => ?_
      rcases Nat.lt_succ_iff_lt_or_eq.1 hj with h1 | rfl
      · exact hlow j h1
      · simpa using h

theorem ctz_spec (n : U32) (hn : n ≠ 0#32) :
    ctz n < 32 ∧ ∃ m, n.toNat = 2 ^ ctz n * (2 * m + 1) := by
  obtain ⟨h1, h2, h3⟩ := ctzFrom_spec n 32 0 rfl hn (by simp)
  refine ⟨h1, n.toNat / 2 ^ (ctz n + 1), ?_⟩
  change n.getLsbD (ctz n) = true at h2
  change ∀ j < ctz n, _ at h3
  generalize ctz n = k at *
  have hm : n.toNat % 2 ^ k = 0 := by
    apply Nat.eq_of_testBit_eq
    intro j
    rw [Nat.testBit_mod_two_pow, Nat.zero_testBit]
    by_cases hj : j < k
    · have := h3 j hj; rw [BitVec.getLsbD] at this; simp [this]
    · simp [hj]
  have hodd : n.toNat / 2 ^ k % 2 = 1 := by
    rw [BitVec.getLsbD, Nat.testBit_eq_decide_div_mod_eq] at h2; simpa using h2
  have e1 := Nat.div_add_mod n.toNat (2 ^ k)
  have e2 : n.toNat / 2 ^ (k + 1) = n.toNat / 2 ^ k / 2 := by rw [pow_succ, Nat.div_div_eq_div_mul]
  rw [e2]
  rw [show 2 * (n.toNat / 2 ^ k / 2) + 1 = n.toNat / 2 ^ k by omega]
  omega

theorem phi_shiftLoop (f : Nat) (r n : U32) (hf : f ≤ 32) (hn : 2 ^ (32 - f) ∣ n.toNat) :
    phi (shiftLoop f r n) = phi r * x ^ n.toNat := by
  induction f generalizing r n with
  | zero =>
    have h := n.isLt
    have : n.toNat = 0 := Nat.eq_zero_of_dvd_of_lt hn h
    rw [shiftLoop, this]; simp
  | succ f ih =>
    rw [shiftLoop]
    split
    · rename_i h; rw [h]; simp
    · rename_i h
      obtain ⟨hk, m, hm⟩ := ctz_spec n h
      have hlt := n.isLt
      have hnz : 1 ≤ n.toNat := by
        rcases Nat.eq_zero_or_pos n.toNat with h0 | h0
        · exact absurd (BitVec.eq_of_toNat_eq (by simpa using h0)) h
        · exact h0
      have hsub : (n - 1#32).toNat = n.toNat - 1 := by
        rw [BitVec.toNat_sub]; simp; omega
      have hand : (n &&& (n - 1#32)).toNat = 2 ^ (ctz n + 1) * m := by
        rw [BitVec.toNat_and, hsub, hm, and_pred]
      have hge : 32 - (f + 1) ≤ ctz n := by
        by_contra hc
        have h1 : 2 ^ (ctz n + 1) ∣ n.toNat := dvd_trans (Nat.pow_dvd_pow 2 (by omega)) hn
        rw [hm, pow_succ] at h1
        have h2 := Nat.dvd_of_mul_dvd_mul_left (Nat.two_pow_pos _) h1
        omega
      rw [ih _ _ (by omega), phi_multiply, phi_crcPower _ hk, hand, mul_assoc, ← pow_add]
      · congr 2; rw [hm, pow_succ]; ring
      · rw [hand]
        exact dvd_trans (Nat.pow_dvd_pow 2 (by omega)) (dvd_mul_right _ _)

theorem phi_shift (c n : U32) : phi (shift c n) = phi c * x ^ n.toNat :=
  phi_shiftLoop 32 c n (by omega) (by simp)

theorem phi_shiftPortableLoop (f : Nat) (r n : U32) (p : Nat) (hp : p + f = 32) (hn : n.toNat < 2 ^ f) :
    phi (shiftPortableLoop f r n p) = phi r * x ^ (2 ^ p * n.toNat) := by
  induction f generalizing r n p with
  | zero =>
    have : n.toNat = 0 := by omega
    rw [shiftPortableLoop, this]; simp
  | succ f ih =>
    rw [shiftPortableLoop]
    split
    · rename_i h; rw [h]; simp
    · have hs : (n >>> 1).toNat = n.toNat / 2 := by
        rw [BitVec.toNat_ushiftRight, Nat.shiftRight_eq_div_pow, pow_one]
      rw [ih _ _ _ (by omega) (by rw [hs]; rw [pow_succ] at hn; omega), hs]
      have hb : (n &&& 1#32) = 0#32 ↔ n.toNat % 2 = 0 := by
        rw [← BitVec.toNat_inj, BitVec.toNat_and]; simp
      have e := Nat.div_add_mod n.toNat 2
      split
      · rename_i h
        rw [Ne, hb] at h
        rw [phi_multiply, phi_crcPower _ (by omega), mul_assoc, ← pow_add]
        congr 2
        have : n.toNat = 2 * (n.toNat / 2) + 1 := by omega
        conv_rhs => rw [this]
        rw [pow_succ]; ring
      · rename_i h
        rw [Ne, hb, not_not] at h
        congr 2
        have : n.toNat = 2 * (n.toNat / 2) := by omega
        conv_rhs => rw [this]
        rw [pow_succ]; ring

theorem shiftPortable_eq (c n : U32) : shiftPortable c n = shift c n := by
  apply phi_injective
  rw [phi_shift, shiftPortable, phi_shiftPortableLoop _ _ _ _ (by rfl) n.isLt]; simp

/-! ### Exponent reduction -/

theorem powmod_toNat (n : U64) :
    (powmod n).toNat = n.toNat / 2 ^ 32 + n.toNat % 2 ^ 32 -
      (if n.toNat / 2 ^ 32 + n.toNat % 2 ^ 32 ≥ 2 ^ 32 then 2 ^ 32 - 1 else 0) := by
  have hn := n.isLt
  have h1 : ((n >>> 32).setWidth 32).toNat = n.toNat / 2 ^ 32 := by
    rw [BitVec.toNat_setWidth, BitVec.toNat_ushiftRight, Nat.shiftRight_eq_div_pow]
    apply Nat.mod_eq_of_lt; omega
  have h2 : (n.setWidth 32).toNat = n.toNat % 2 ^ 32 := BitVec.toNat_setWidth _ _
  unfold powmod
  dsimp only
  rw [BitVec.toNat_add, BitVec.toNat_add, h1, h2]
  have h3 : (1 : U32).toNat = 1 := rfl
  have h4 : (0 : U32).toNat = 0 := rfl
  split
  · rw [h3]; omega
  · rw [h4]; omega

theorem powmod_modEq (n : U64) : (powmod n).toNat ≡ n.toNat [MOD 2 ^ 32 - 1] := by
  rw [powmod_toNat]
  unfold Nat.ModEq
  split <;> omega

theorem powmodPortable_eq (n : U64) : powmodPortable n = powmod n := by
  have hn := n.isLt
  apply BitVec.eq_of_toNat_eq
  rw [powmod_toNat]
  unfold powmodPortable
  dsimp only
  have h1 : ((n >>> 32) + (n &&& 0xffffffff#64)).toNat = n.toNat / 2 ^ 32 + n.toNat % 2 ^ 32 := by
    rw [BitVec.toNat_add, BitVec.toNat_and, BitVec.toNat_ushiftRight, Nat.shiftRight_eq_div_pow]
    have : (4294967295#64).toNat = 2 ^ 32 - 1 := rfl
    rw [this, Nat.and_two_pow_sub_one_eq_mod]; omega
  generalize (n >>> 32) + (n &&& 0xffffffff#64) = w at *
  rw [BitVec.toNat_setWidth, BitVec.toNat_add, BitVec.toNat_ushiftRight, Nat.shiftRight_eq_div_pow, h1]
  have hs : n.toNat / 2 ^ 32 + n.toNat % 2 ^ 32 ≤ 2 ^ 33 - 2 := by omega
  generalize n.toNat / 2 ^ 32 + n.toNat % 2 ^ 32 = s at *
  split
  · rw [show s / 2 ^ 32 = 1 by omega]; omega
  · rw [show s / 2 ^ 32 = 0 by omega]; omega

theorem bytepow_toNat (n : U64) : (bytepow n).toNat = 8 * ((powmod n).toNat % 2 ^ 29) + (powmod n).toNat / 2 ^ 29 := by
  unfold bytepow
  dsimp only
  have hn := (powmod n).isLt
  generalize powmod n = r at *
  rw [BitVec.toNat_or, BitVec.toNat_shiftLeft, BitVec.toNat_ushiftRight, Nat.shiftRight_eq_div_pow, Nat.shiftLeft_eq]
  rw [show r.toNat * 2 ^ 3 % 2 ^ 32 = 2 ^ 3 * (r.toNat % 2 ^ 29) by omega, ← Nat.two_pow_add_eq_or_of_lt (by omega)]

theorem bytepow_modEq (n : U64) : (bytepow n).toNat ≡ 8 * n.toNat [MOD 2 ^ 32 - 1] := by
  have h := powmod_modEq n
  rw [bytepow_toNat]
  unfold Nat.ModEq at *
  omega

/-- The branch of `crc32_bytepow` for other compilers is right below `2^61`. -/
theorem bytepowPortable_modEq (n : U64) (hlt : n.toNat < 2 ^ 61) : (bytepowPortable n).toNat ≡ 8 * n.toNat [MOD 2 ^ 32 - 1] := by
  unfold bytepowPortable
  dsimp only
  have h1 : ((n >>> 32) + (n &&& 0xffffffff#64)).toNat = n.toNat / 2 ^ 32 + n.toNat % 2 ^ 32 := by
    rw [BitVec.toNat_add, BitVec.toNat_and, BitVec.toNat_ushiftRight, Nat.shiftRight_eq_div_pow]
    have : (4294967295#64).toNat = 2 ^ 32 - 1 := rfl
    rw [this, Nat.and_two_pow_sub_one_eq_mod]; omega
  generalize (n >>> 32) + (n &&& 0xffffffff#64) = w at *
  have h2 : (w <<< 3).toNat = 8 * w.toNat := by
    rw [BitVec.toNat_shiftLeft, Nat.shiftLeft_eq]; omega
  generalize w <<< 3 = u at *
  rw [BitVec.toNat_setWidth, BitVec.toNat_add, BitVec.toNat_ushiftRight, Nat.shiftRight_eq_div_pow, h2, h1]
  have hm : 8 * n.toNat ≡ 8 * (n.toNat / 2 ^ 32 + n.toNat % 2 ^ 32) [MOD 2 ^ 32 - 1] := by unfold Nat.ModEq; omega
  refine Nat.ModEq.trans ?_ hm.symm
  have hs : n.toNat / 2 ^ 32 + n.toNat % 2 ^ 32 ≤ 2 ^ 32 + 2 ^ 29 - 2 := by omega
  generalize n.toNat / 2 ^ 32 + n.toNat % 2 ^ 32 = s at *
  obtain ⟨q, r, hq, hr, hr2⟩ : ∃ q r, 8 * s / 2 ^ 32 = q ∧ 8 * s = 2 ^ 32 * q + r ∧ r < 2 ^ 32 :=
    ⟨8 * s / 2 ^ 32, 8 * s % 2 ^ 32, rfl, by omega, by omega⟩
  have hq8 : q ≤ 8 := by omega
  have hrq : r + q < 2 ^ 32 := by omega
  rw [hq, hr]
  rw [show (2 ^ 32 * q + r + q) % 2 ^ 64 % 2 ^ 32 = r + q by omega]
  unfold Nat.ModEq; omega

theorem x_pow_powmod (n : U64) : x ^ (powmod n).toNat = x ^ n.toNat := x_pow_congr (powmod_modEq n)
theorem x_pow_bytepow (n : U64) : x ^ (bytepow n).toNat = x ^ (8 * n.toNat) := x_pow_congr (bytepow_modEq n)

theorem x_pow_not (m : U32) : x ^ (~~~m).toNat * x ^ m.toNat = 1 := by
  have := m.isLt
  rw [← pow_add, BitVec.toNat_not, show 2 ^ 32 - 1 - m.toNat + m.toNat = 2 ^ 32 - 1 by omega, x_pow_period]

end Yenc.Crc
