import Verif.Lemmas.CrcPow
import Mathlib.Tactic.NormNum.Prime
/-! The powers of `x` are all the non-zero values: the generator polynomial is primitive. -/
namespace Yenc.Crc
open Polynomial Yenc.Spec

theorem x_pow_eq_phi (n : Nat) (hn : n < 2 ^ 32) : x ^ n = phi (shift 0x80000000#32 (BitVec.ofNat 32 n)) := by
  rw [phi_shift, phi_one, one_mul, BitVec.toNat_ofNat, Nat.mod_eq_of_lt hn]

theorem x_pow_ne_one (n : Nat) (hn : n < 2 ^ 32) (h : shift 0x80000000#32 (BitVec.ofNat 32 n) ≠ 0x80000000#32) : x ^ n ≠ 1 := by
  intro hc
  rw [x_pow_eq_phi n hn, ← phi_one] at hc
  exact h (phi_injective hc)

theorem prime_dvd_period {p : Nat} (hp : p.Prime) (hd : p ∣ 2 ^ 32 - 1) : p = 3 ∨ p = 5 ∨ p = 17 ∨ p = 257 ∨ p = 65537 := by
  rw [show 2 ^ 32 - 1 = 3 * (5 * (17 * (257 * 65537))) from rfl] at hd
  have h3 : Nat.Prime 3 := by norm_num
  have h5 : Nat.Prime 5 := by norm_num
  have h17 : Nat.Prime 17 := by norm_num
  have h257 : Nat.Prime 257 := by norm_num
  have h65537 : Nat.Prime 65537 := by norm_num
  rcases (Nat.Prime.dvd_mul hp).1 hd with h | h
  · exact Or.inl ((Nat.prime_dvd_prime_iff_eq hp h3).1 h)
  rcases (Nat.Prime.dvd_mul hp).1 h with h | h
  · exact Or.inr (Or.inl ((Nat.prime_dvd_prime_iff_eq hp h5).1 h))
  rcases (Nat.Prime.dvd_mul hp).1 h with h | h
  · exact Or.inr (Or.inr (Or.inl ((Nat.prime_dvd_prime_iff_eq hp h17).1 h)))
  rcases (Nat.Prime.dvd_mul hp).1 h with h | h
  · exact Or.inr (Or.inr (Or.inr (Or.inl ((Nat.prime_dvd_prime_iff_eq hp h257).1 h))))
  · exact Or.inr (Or.inr (Or.inr (Or.inr ((Nat.prime_dvd_prime_iff_eq hp h65537).1 h))))

theorem orderOf_x : orderOf x = 2 ^ 32 - 1 := by
  apply orderOf_eq_of_pow_and_pow_div_prime (by norm_num) x_pow_period
  intro p hp hd
  rcases prime_dvd_period hp hd with rfl | rfl | rfl | rfl | rfl
  · exact x_pow_ne_one _ (by norm_num) (by decide +kernel)
  · exact x_pow_ne_one _ (by norm_num) (by decide +kernel)
  · exact x_pow_ne_one _ (by norm_num) (by decide +kernel)
  · exact x_pow_ne_one _ (by norm_num) (by decide +kernel)
  · exact x_pow_ne_one _ (by norm_num) (by decide +kernel)

theorem x_pow_inj {m n : Nat} (hm : m < 2 ^ 32 - 1) (hn : n < 2 ^ 32 - 1) (h : x ^ m = x ^ n) : m = n := by
  exact pow_injOn_Iio_orderOf (by rw [orderOf_x]; exact hm) (by rw [orderOf_x]; exact hn) h

theorem phi_eq_zero {v : U32} (h : phi v = 0) : v = 0#32 := phi_injective (h.trans phi_zero.symm)

theorem one_ne_zero_R : (1 : R) ≠ 0 := by
  rw [← phi_one]; intro h; exact absurd (phi_eq_zero h) (by decide)

theorem x_pow_ne_zero (n : Nat) : x ^ n ≠ 0 := by
  intro h
  have hu := isUnit_x.pow n
  rw [h] at hu
  have := isUnit_zero_iff.1 hu
  exact one_ne_zero_R this.symm

/-- Every non-zero value is a power of `x`. -/
theorem exists_pow (v : U32) (hv : v ≠ 0#32) : ∃ n, phi v = x ^ n := by
  obtain ⟨N, hN⟩ : ∃ N, N = 2 ^ 32 - 1 := ⟨_, rfl⟩
  have hne : ∀ k : Fin N, (shift 0x80000000#32 (BitVec.ofNat 32 k.1)).toNat ≠ 0 := by
    intro k hk
    have hlt := k.2
    have : shift 0x80000000#32 (BitVec.ofNat 32 k.1) = 0#32 := BitVec.eq_of_toNat_eq (by simpa using hk)
    have h2 := x_pow_eq_phi k.1 (by omega)
    rw [this, phi_zero] at h2
    exact x_pow_ne_zero _ h2
  let g : Fin N → Fin N := fun k => ⟨(shift 0x80000000#32 (BitVec.ofNat 32 k.1)).toNat - 1, by
    have := (shift 0x80000000#32 (BitVec.ofNat 32 k.1)).isLt
    have := hne k
    omega⟩
  have hinj : Function.Injective g := by
    intro a b hab
    have h1 : (shift 0x80000000#32 (BitVec.ofNat 32 a.1)).toNat - 1 = (shift 0x80000000#32 (BitVec.ofNat 32 b.1)).toNat - 1 :=
      congrArg Fin.val hab
    have ha := hne a
    have hb := hne b
    have h2 : shift 0x80000000#32 (BitVec.ofNat 32 a.1) = shift 0x80000000#32 (BitVec.ofNat 32 b.1) :=
      BitVec.eq_of_toNat_eq (by omega)
    have hla := a.2
    have hlb := b.2
    have h3 : x ^ a.1 = x ^ b.1 := by rw [x_pow_eq_phi a.1 (by omega), x_pow_eq_phi b.1 (by omega), h2]
    exact Fin.ext (x_pow_inj (by omega) (by omega) h3)
  have hsurj := Finite.surjective_of_injective hinj
  have hv0 : v.toNat ≠ 0 := fun h => hv (BitVec.eq_of_toNat_eq (by simpa using h))
  have hvl := v.isLt
  obtain ⟨k, hk⟩ := hsurj ⟨v.toNat - 1, by omega⟩
  have h1 : (shift 0x80000000#32 (BitVec.ofNat 32 k.1)).toNat - 1 = v.toNat - 1 := congrArg Fin.val hk
  have h2 := hne k
  have h3 : shift 0x80000000#32 (BitVec.ofNat 32 k.1) = v := BitVec.eq_of_toNat_eq (by omega)
  have hlk := k.2
  exact ⟨k.1, by rw [x_pow_eq_phi k.1 (by omega), h3]⟩

theorem isUnit_phi (v : U32) (hv : v ≠ 0#32) : IsUnit (phi v) := by
  obtain ⟨n, hn⟩ := exists_pow v hv
  rw [hn]; exact isUnit_x.pow n

end Yenc.Crc
