import Mathlib.Algebra.Polynomial.Coeff
import Mathlib.Algebra.Polynomial.Eval.Coeff
import Mathlib.Tactic.LinearCombination
import Verif.Lemmas.CrcField
import Verif.Model.Clmul
/-! Numbers as polynomials over the field with two elements, evaluated in a ring of characteristic 2. -/
namespace Yenc.Crc
open Yenc.Spec

section
variable {A : Type} [CommRing A]

/-- The value at `t` of the polynomial whose coefficients are the bits of `n`. -/
@[irreducible] def ev (t : A) (n : Nat) : A := ∑ j ∈ Finset.range n, if n.testBit j then t ^ j else 0

theorem ev_eq (t : A) {n m : Nat} (h : n < 2 ^ m) : ev t n = ∑ j ∈ Finset.range m, if n.testBit j then t ^ j else 0 := by
  have key : ∀ a b, a ≤ b → n < 2 ^ a → (∑ j ∈ Finset.range b, if n.testBit j then t ^ j else 0) = ∑ j ∈ Finset.range a, if n.testBit j then t ^ j else 0 := by
    intro a b hab ha
    obtain ⟨d, rfl⟩ := Nat.exists_eq_add_of_le hab
    rw [Finset.sum_range_add]
    refine (congrArg _ (Finset.sum_eq_zero fun j _ => ?_)).trans (add_zero _)
    rw [Nat.testBit_lt_two_pow (lt_of_lt_of_le ha (Nat.pow_le_pow_right (by omega) (by omega)))]
    simp
  unfold ev
  rcases Nat.le_total n m with h1 | h1
  · exact (key n m h1 Nat.lt_two_pow_self).symm
  · exact key m n h1 h

@[simp] theorem ev_zero (t : A) : ev t 0 = 0 := by simp [ev]

theorem ev_one (t : A) : ev t 1 = 1 := by simp [ev]

theorem ev_add_pow (t : A) (k a b : Nat) (hb : b < 2 ^ k) : ev t (2 ^ k * a + b) = ev t b + t ^ k * ev t a := by
  have hlt : 2 ^ k * a + b < 2 ^ (k + a) := by
    have h1 : a + 1 ≤ 2 ^ a := Nat.lt_two_pow_self
    calc 2 ^ k * a + b < 2 ^ k * a + 2 ^ k := by omega
      _ = 2 ^ k * (a + 1) := by ring
      _ ≤ 2 ^ k * 2 ^ a := Nat.mul_le_mul_left _ h1
      _ = 2 ^ (k + a) := (pow_add _ _ _).symm
  rw [ev_eq t hlt, ev_eq t hb, Finset.sum_range_add]
  congr 1
  · refine Finset.sum_congr rfl fun j hj => ?_
    rw [Nat.testBit_two_pow_mul_add _ hb, if_pos (Finset.mem_range.1 hj)]
  · unfold ev
    rw [Finset.mul_sum]
    refine Finset.sum_congr rfl fun j hj => ?_
    rw [Nat.testBit_two_pow_mul_add _ hb, if_neg (by omega : ¬ k + j < k), Nat.add_sub_cancel_left]
    split
    · exact pow_add _ _ _
    · simp

theorem ev_div_mod (t : A) (k n : Nat) : ev t n = ev t (n % 2 ^ k) + t ^ k * ev t (n / 2 ^ k) := by
  conv_lhs => rw [← Nat.div_add_mod n (2 ^ k)]
  exact ev_add_pow t k _ _ (Nat.mod_lt _ (Nat.two_pow_pos k))

theorem ev_shl (t : A) (k n : Nat) : ev t (2 ^ k * n) = t ^ k * ev t n := by
  have := ev_add_pow t k n 0 (Nat.two_pow_pos k)
  simpa using this

variable (h2 : (2 : A) = 0)
include h2

theorem ev_xor (t : A) (a b : Nat) : ev t (a ^^^ b) = ev t a + ev t b := by
  have ha : a < 2 ^ (max a b) := lt_of_lt_of_le Nat.lt_two_pow_self (Nat.pow_le_pow_right (by omega) (le_max_left _ _))
  have hb : b < 2 ^ (max a b) := lt_of_lt_of_le Nat.lt_two_pow_self (Nat.pow_le_pow_right (by omega) (le_max_right _ _))
  rw [ev_eq t (Nat.xor_lt_two_pow ha hb), ev_eq t ha, ev_eq t hb, ← Finset.sum_add_distrib]
  refine Finset.sum_congr rfl fun j _ => ?_
  rw [Nat.testBit_xor]
  cases a.testBit j <;> cases b.testBit j <;> simp
  rw [← two_mul, h2, zero_mul]

theorem ev_clmulN (t : A) (a b n : Nat) : ev t (clmulN a b n) = ev t a * ev t (b % 2 ^ n) := by
  induction n with
  | zero => simp [clmulN, Nat.mod_one]
  | succ n ih =>
    rw [clmulN, ev_xor h2, ih]
    rw [ev_eq t (Nat.mod_lt b (Nat.two_pow_pos (n + 1))), Finset.sum_range_succ, ev_eq t (Nat.mod_lt b (Nat.two_pow_pos n)), mul_add]
    congr 1
    · congr 1
      refine Finset.sum_congr rfl fun j hj => ?_
      have hj := Finset.mem_range.1 hj
      rw [Nat.testBit_mod_two_pow, Nat.testBit_mod_two_pow]
      simp [hj, Nat.lt_succ_of_lt hj]
    · rw [Nat.testBit_mod_two_pow]
      simp only [Nat.lt_succ_self, decide_true, Bool.true_and]
      split
      · rw [Nat.shiftLeft_eq, mul_comm a, ev_shl, mul_comm]
      · simp

end

theorem clmulN_lt (a b n w : Nat) (h : a < 2 ^ (w + 1)) : clmulN a b n < 2 ^ (w + n) := by
  induction n with
  | zero => exact Nat.two_pow_pos _
  | succ n ih =>
    rw [clmulN]
    refine Nat.xor_lt_two_pow (lt_of_lt_of_le ih (Nat.pow_le_pow_right (by omega) (by omega))) ?_
    split
    · rw [Nat.shiftLeft_eq, show 2 ^ (w + (n + 1)) = 2 ^ (w + 1) * 2 ^ n by rw [← pow_add]; congr 1; omega]
      exact Nat.mul_lt_mul_of_pos_right h (Nat.two_pow_pos n)
    · exact Nat.two_pow_pos _

theorem clmulN_mod (a b n m : Nat) (hb : b < 2 ^ n) (hm : n ≤ m) : clmulN a b m = clmulN a b n := by
  obtain ⟨d, rfl⟩ := Nat.exists_eq_add_of_le hm
  induction d with
  | zero => rfl
  | succ d ih =>
    rw [← Nat.add_assoc, clmulN, ih (by omega), Nat.testBit_lt_two_pow (lt_of_lt_of_le hb (Nat.pow_le_pow_right (by omega) (by omega)))]
    simp

/-! ### Polynomials themselves: equality of numbers from equality of values -/

open Polynomial in
theorem ev_X_coeff (n j : Nat) : (ev (X : (ZMod 2)[X]) n).coeff j = if n.testBit j then 1 else 0 := by
  have hn : n < 2 ^ (n + j + 1) := lt_of_lt_of_le Nat.lt_two_pow_self (Nat.pow_le_pow_right (by omega) (by omega))
  rw [ev_eq _ hn, finsetSum_coeff, Finset.sum_eq_single j]
  · split <;> simp
  · intro i _ hij
    split
    · rw [coeff_X_pow, if_neg (Ne.symm hij)]
    · simp
  · intro h; exact absurd (Finset.mem_range.2 (by omega)) h

open Polynomial in
theorem two_poly : (2 : (ZMod 2)[X]) = 0 := by
  have h : (2 : ZMod 2) = 0 := by decide
  have : (C (2 : ZMod 2)) = 0 := by rw [h, map_zero]
  rwa [map_ofNat] at this

open Polynomial in
theorem ev_X_inj {a b : Nat} (h : ev (X : (ZMod 2)[X]) a = ev X b) : a = b := by
  apply Nat.eq_of_testBit_eq
  intro j
  have := congrArg (fun p => p.coeff j) h
  simp only [ev_X_coeff] at this
  cases ha : a.testBit j <;> cases hb : b.testBit j <;> simp_all

open Polynomial in
theorem mod_eq_of_dvd {a b k : Nat} (h : X ^ k ∣ ev (X : (ZMod 2)[X]) a - ev X b) : a % 2 ^ k = b % 2 ^ k := by
  apply Nat.eq_of_testBit_eq
  intro j
  rw [Nat.testBit_mod_two_pow, Nat.testBit_mod_two_pow]
  by_cases hj : j < k
  · have := (X_pow_dvd_iff.1 h) j hj
    rw [coeff_sub, ev_X_coeff, ev_X_coeff] at this
    cases ha : a.testBit j <;> cases hb : b.testBit j <;> simp_all
  · simp [hj]

open Polynomial in
theorem dvd_of_mod_eq {a b k : Nat} (h : a % 2 ^ k = b % 2 ^ k) : X ^ k ∣ ev (X : (ZMod 2)[X]) a - ev X b := by
  rw [ev_div_mod _ k a, ev_div_mod _ k b, h]
  exact ⟨ev X (a / 2 ^ k) - ev X (b / 2 ^ k), by ring⟩

/-- The low part of a product depends only on the low parts of the factors. -/
theorem clmulN_low (a b a' b' n k : Nat) (hb : b < 2 ^ n) (hb' : b' < 2 ^ n) (h1 : a % 2 ^ k = a' % 2 ^ k) (h2 : b % 2 ^ k = b' % 2 ^ k) :
    clmulN a b n % 2 ^ k = clmulN a' b' n % 2 ^ k := by
  apply mod_eq_of_dvd
  rw [ev_clmulN two_poly, ev_clmulN two_poly, Nat.mod_eq_of_lt hb, Nat.mod_eq_of_lt hb']
  obtain ⟨u, hu⟩ := dvd_of_mod_eq h1
  obtain ⟨v, hv⟩ := dvd_of_mod_eq h2
  exact ⟨u * ev Polynomial.X b + ev Polynomial.X a' * v, by linear_combination ev Polynomial.X b * hu + ev Polynomial.X a' * hv⟩

theorem clmulN_shl (a b n k : Nat) : clmulN (2 ^ k * a) b n = 2 ^ k * clmulN a b n := by
  apply ev_X_inj
  rw [ev_clmulN two_poly, ev_shl, ev_shl, ev_clmulN two_poly, mul_assoc]

theorem clmulN_shl' (a b n k : Nat) (hb : 2 ^ k * b < 2 ^ n) : clmulN a (2 ^ k * b) n = 2 ^ k * clmulN a b n := by
  have hb' : b < 2 ^ n := lt_of_le_of_lt (Nat.le_mul_of_pos_left _ (Nat.two_pow_pos k)) hb
  apply ev_X_inj
  rw [ev_clmulN two_poly, ev_shl, ev_clmulN two_poly, Nat.mod_eq_of_lt hb, Nat.mod_eq_of_lt hb', ev_shl]
  ring

theorem clmulN_comm (a b n m : Nat) (ha : a < 2 ^ m) (hb : b < 2 ^ n) : clmulN a b n = clmulN b a m := by
  apply ev_X_inj
  rw [ev_clmulN two_poly, ev_clmulN two_poly, Nat.mod_eq_of_lt ha, Nat.mod_eq_of_lt hb, mul_comm]

theorem clmulN_xor_right (a b c n : Nat) (hb : b < 2 ^ n) (hc : c < 2 ^ n) : clmulN a (b ^^^ c) n = clmulN a b n ^^^ clmulN a c n := by
  apply ev_X_inj
  rw [ev_clmulN two_poly, ev_xor two_poly, ev_clmulN two_poly, ev_clmulN two_poly, Nat.mod_eq_of_lt (Nat.xor_lt_two_pow hb hc),
    ev_xor two_poly, Nat.mod_eq_of_lt hb, Nat.mod_eq_of_lt hc, mul_add]

theorem clmulN_one (a n : Nat) (hn : 0 < n) : clmulN a 1 n = a := by
  apply ev_X_inj
  have : (1 : Nat) < 2 ^ n := Nat.one_lt_two_pow (by omega)
  rw [ev_clmulN two_poly, Nat.mod_eq_of_lt this, ev_one, mul_one]

/-! ### In the ring of CRC values -/

/-- The inverse of `x`. -/
noncomputable abbrev y : R := xinv

theorem xy : x * y = 1 := x_mul_xinv
theorem xy_pow (n : Nat) : x ^ n * y ^ n = 1 := by rw [← mul_pow, xy, one_pow]
theorem yx_pow (n : Nat) : y ^ n * x ^ n = 1 := by rw [mul_comm, xy_pow]
theorem x_sub (n k : Nat) (h : k ≤ n) : x ^ n * y ^ k = x ^ (n - k) := by
  conv_lhs => rw [← Nat.sub_add_cancel h, pow_add, mul_assoc, xy_pow, mul_one]
theorem y_sub (n k : Nat) (h : k ≤ n) : y ^ n * x ^ k = y ^ (n - k) := by
  conv_lhs => rw [← Nat.sub_add_cancel h, pow_add, mul_assoc, yx_pow, mul_one]

@[simp] theorem evx_xor (t : R) (a b : Nat) : ev t (a ^^^ b) = ev t a + ev t b := ev_xor two_eq_zero t a b
theorem evx_clmulN (t : R) (a b n : Nat) (hb : b < 2 ^ n) : ev t (clmulN a b n) = ev t a * ev t b := by
  rw [ev_clmulN two_eq_zero, Nat.mod_eq_of_lt hb]

/-- The most significant bit first. -/
theorem ev_reflect {w : Nat} (v : BitVec w) (k : Nat) (hk : k + 1 = w) : ∑ i ∈ Finset.range w, ind (v.getMsbD i) * x ^ i = x ^ k * ev y v.toNat := by
  subst hk
  rw [ev_eq y v.isLt, Finset.mul_sum, ← Finset.sum_range_reflect]
  refine Finset.sum_congr rfl fun j hj => ?_
  have hj := Finset.mem_range.1 hj
  rw [BitVec.getMsbD_eq_getLsbD, BitVec.getLsbD, show k + 1 - 1 - (k + 1 - 1 - j) = j by omega, decide_eq_true (by omega : k + 1 - 1 - j < k + 1), Bool.true_and]
  cases v.toNat.testBit j
  · simp
  · simp only [ind_true, one_mul, if_true]
    rw [x_sub _ _ (by omega)]
    congr 1

theorem phi_ev (v : U32) : phi v = x ^ 31 * ev y v.toNat := ev_reflect v 31 rfl
theorem beta_ev (v : Byte) : beta v = x ^ 7 * ev y v.toNat := ev_reflect v 7 rfl
theorem ev_phi (v : U32) : ev y v.toNat = y ^ 31 * phi v := by rw [phi_ev, ← mul_assoc, yx_pow, one_mul]
theorem ev_beta (v : Byte) : ev y v.toNat = y ^ 7 * beta v := by rw [beta_ev, ← mul_assoc, yx_pow, one_mul]

/-- Reversing the bits of a number is substituting the inverse. -/
theorem ev_reverse {w : Nat} (v : BitVec w) (k : Nat) (hk : k + 1 = w) : ev x v.reverse.toNat = x ^ k * ev y v.toNat := by
  rw [← ev_reflect v k hk, ev_eq x v.reverse.isLt]
  refine Finset.sum_congr rfl fun j _ => ?_
  have : v.reverse.toNat.testBit j = v.getMsbD j := by
    rw [← BitVec.getLsbD_reverse]; rfl
  rw [this]
  cases v.getMsbD j <;> simp

theorem phi_ofNat (n : Nat) (h : n < 2 ^ 32) : phi (BitVec.ofNat 32 n) = x ^ 31 * ev y n := by
  rw [phi_ev, BitVec.toNat_ofNat, Nat.mod_eq_of_lt h]

/-- A constant of the reflected code is the value of a power of `x`, shifted left by one. -/
theorem ev_const (v n : Nat) (hn : n < 2 ^ 32) (hv : v < 2 ^ 33) (he : v % 2 = 0) (h : shift 0x80000000#32 (BitVec.ofNat 32 n) = BitVec.ofNat 32 (v / 2)) :
    ev y v = y ^ 32 * x ^ n := by
  rw [x_pow_eq_phi n hn, h, phi_ofNat _ (by omega), ev_div_mod y 1 v, show 2 ^ 1 = 2 from rfl, he, ev_zero, zero_add, ← mul_assoc,
    show y ^ 32 * x ^ 31 = y ^ 1 from y_sub 32 31 (by omega)]

/-- A constant of the unreflected code is the value of a power of `x`. -/
theorem ev_constx (v n : Nat) (hn : n < 2 ^ 32) (hv : v < 2 ^ 32) (h : shift 0x80000000#32 (BitVec.ofNat 32 n) = (BitVec.ofNat 32 v).reverse) :
    ev x v = x ^ n := by
  rw [x_pow_eq_phi n hn, h, phi_ev, ← ev_reverse _ 31 rfl, BitVec.reverse_reverse_eq, BitVec.toNat_ofNat, Nat.mod_eq_of_lt hv]

/-- The reflected generator. -/
theorem ev_generator : ev y 0x1db710641 = 0 := by
  have h := ev_add_pow y 32 1 0xdb710641 (by decide)
  rw [show 2 ^ 32 * 1 + 0xdb710641 = 0x1db710641 from rfl] at h
  have h3 := ev_phi 0xdb710641#32
  rw [show (0xdb710641#32).toNat = 0xdb710641 from rfl] at h3
  rw [h, h3, ev_one, mul_one, show phi 0xdb710641#32 = y from rfl, ← pow_succ]
  exact add_self _

/-- The generator. -/
theorem ev_generatorx : ev x 0x104c11db7 = 0 := by
  have h := ev_add_pow x 32 1 0x04c11db7 (by decide)
  rw [show 2 ^ 32 * 1 + 0x04c11db7 = 0x104c11db7 from rfl] at h
  rw [h, ev_constx 0x04c11db7 32 (by decide) (by decide) (by decide +kernel), ev_one, mul_one]
  exact add_self _

theorem barrett_const : clmulN 0xf7011641 0x1db710641 33 < 2 ^ 65 ∧ clmulN 0xf7011641 0x1db710641 33 % 2 ^ 32 = 1 := by decide +kernel

theorem barrett_mod_gen (l m p : Nat) (hl : l < 2 ^ 32) (hm : m < 2 ^ 64) (hp : p < 2 ^ 33) (h1 : clmulN m p 33 < 2 ^ 65) (h2 : clmulN m p 33 % 2 ^ 32 = 1) :
    clmulN (clmulN l m 64 % 2 ^ 32) p 64 % 2 ^ 32 = l := by
  have hp' : p < 2 ^ 64 := lt_trans hp (by decide)
  have e1 := clmulN_low (clmulN l m 64 % 2 ^ 32) p (clmulN l m 64) p 64 32 hp' hp' (by rw [Nat.mod_mod]) rfl
  have e2 : clmulN (clmulN l m 64) p 64 = clmulN l (clmulN m p 33) 65 := by
    apply ev_X_inj
    rw [ev_clmulN two_poly, ev_clmulN two_poly, ev_clmulN two_poly, Nat.mod_eq_of_lt h1,
      ev_clmulN two_poly, mul_assoc, Nat.mod_eq_of_lt hm, Nat.mod_eq_of_lt hp', Nat.mod_eq_of_lt hp]
  have e3 := clmulN_low l (clmulN m p 33) l 1 65 32 h1 (by decide) rfl (h2.trans (by decide))
  rw [e1, e2, e3, clmulN_one _ _ (by omega), Nat.mod_eq_of_lt hl]

theorem barrett_mod (l : Nat) (hl : l < 2 ^ 32) : clmulN (clmulN l 0xf7011641 64 % 2 ^ 32) 0x1db710641 64 % 2 ^ 32 = l :=
  barrett_mod_gen l _ _ hl (by decide) (by decide) barrett_const.1 barrett_const.2

theorem clmulN_generator (q : Nat) : clmulN q 0x1db710640 64 = clmulN q 0x1db710641 64 ^^^ q := by
  have := clmulN_xor_right q 0x1db710641 1 64 (by decide) (by decide)
  rw [clmulN_one _ _ (by omega)] at this
  rw [← this]
  congr 1

/-- Barrett reduction of the reflected code: `l` is the part to be removed, the result is the value to add to the rest. -/
theorem barrett (l : Nat) (hl : l < 2 ^ 32) :
    clmulN (clmulN l 0xf7011641 64 % 2 ^ 32) 0x1db710640 64 / 2 ^ 32 < 2 ^ 32 ∧
    y ^ 32 * ev y (clmulN (clmulN l 0xf7011641 64 % 2 ^ 32) 0x1db710640 64 / 2 ^ 32) = ev y l := by
  have hq : clmulN l 0xf7011641 64 % 2 ^ 32 < 2 ^ 32 := Nat.mod_lt _ (Nat.two_pow_pos 32)
  have hmod := barrett_mod l hl
  generalize clmulN l 0xf7011641 64 % 2 ^ 32 = q at *
  have hc := clmulN_generator q
  have hdiv : clmulN q 0x1db710640 64 / 2 ^ 32 = clmulN q 0x1db710641 64 / 2 ^ 32 := by
    rw [hc, ← Nat.shiftRight_eq_div_pow, ← Nat.shiftRight_eq_div_pow, Nat.shiftRight_xor_distrib, Nat.shiftRight_eq_div_pow q, Nat.div_eq_of_lt hq, Nat.xor_zero]
  have hlt : clmulN q 0x1db710641 33 < 2 ^ (31 + 33) := clmulN_lt q _ 33 31 hq
  rw [← clmulN_mod q 0x1db710641 33 64 (by decide) (by decide)] at hlt
  rw [hdiv]
  have hz : ev y (clmulN q 0x1db710641 64) = 0 := by rw [evx_clmulN y _ _ _ (by decide), ev_generator, mul_zero]
  generalize clmulN q 0x1db710641 64 = z at *
  refine ⟨by omega, ?_⟩
  rw [ev_div_mod y 32, hmod] at hz
  have h0 := add_self (ev y l)
  linear_combination hz - h0

theorem barrettx_gen (h m p0 e : Nat) (hh : h < 2 ^ 32) (hm : m < 2 ^ 33) (hp : p0 < 2 ^ 32) (he : e < 2 ^ 32)
    (hc : clmulN m (2 ^ 32 * 1 + p0) 33 = 2 ^ 64 * 1 + e) (hg : ev x (2 ^ 32 * 1 + p0) = 0) :
    clmulN h m 64 / 2 ^ 32 < 2 ^ 32 ∧ ev x (clmulN (clmulN h m 64 / 2 ^ 32) p0 64 % 2 ^ 32) = x ^ 32 * ev x h := by
  have hp1 : clmulN h m 64 < 2 ^ (31 + 33) := by
    rw [clmulN_mod h m 33 64 hm (by decide)]; exact clmulN_lt h _ 33 31 hh
  have hq : clmulN h m 64 / 2 ^ 32 < 2 ^ 32 := by omega
  have hr : clmulN h m 64 % 2 ^ 32 < 2 ^ 32 := Nat.mod_lt _ (Nat.two_pow_pos 32)
  have hX := ev_div_mod (Polynomial.X : Polynomial (ZMod 2)) 32 (clmulN h m 64)
  have hm' : m < 2 ^ 64 := lt_trans hm (by decide)
  have hp' : 2 ^ 32 * 1 + p0 < 2 ^ 33 := by omega
  rw [ev_clmulN two_poly, Nat.mod_eq_of_lt hm'] at hX
  refine ⟨hq, ?_⟩
  generalize clmulN h m 64 / 2 ^ 32 = q at *
  generalize clmulN h m 64 % 2 ^ 32 = r at *
  have hcX := congrArg (ev (Polynomial.X : Polynomial (ZMod 2))) hc
  rw [ev_clmulN two_poly, ev_add_pow _ 64 _ _ (lt_trans he (by decide)), ev_one, Nat.mod_eq_of_lt hp'] at hcX
  have hv : 2 ^ 32 * (clmulN q (2 ^ 32 * 1 + p0) 33 ^^^ 2 ^ 32 * h) = clmulN h e 32 ^^^ clmulN r (2 ^ 32 * 1 + p0) 33 := by
    apply ev_X_inj
    rw [ev_shl, ev_xor two_poly, ev_xor two_poly, ev_shl, ev_clmulN two_poly, ev_clmulN two_poly, ev_clmulN two_poly, Nat.mod_eq_of_lt hp', Nat.mod_eq_of_lt he]
    have t := two_poly
    set Y := (Polynomial.X : Polynomial (ZMod 2)) with hY
    set H := ev Y h
    set Q := ev Y q
    set S := ev Y r
    set P := ev Y (2 ^ 32 * 1 + p0)
    set E := ev Y e
    linear_combination -P * hX + H * hcX + (H * Y ^ 64 - S * P) * t
  have hb : clmulN h e 32 ^^^ clmulN r (2 ^ 32 * 1 + p0) 33 < 2 ^ 64 :=
    Nat.xor_lt_two_pow (lt_trans (clmulN_lt h _ 32 31 hh) (by decide)) (clmulN_lt r _ 33 31 hr)
  rw [← hv] at hb
  have hV : clmulN q (2 ^ 32 * 1 + p0) 33 ^^^ 2 ^ 32 * h < 2 ^ 32 := by omega
  have hz : clmulN q p0 64 = (clmulN q (2 ^ 32 * 1 + p0) 33 ^^^ 2 ^ 32 * h) ^^^ 2 ^ 32 * (h ^^^ q) := by
    apply ev_X_inj
    rw [ev_xor two_poly, ev_xor two_poly, ev_shl, ev_shl, ev_xor two_poly, ev_clmulN two_poly, ev_clmulN two_poly, Nat.mod_eq_of_lt hp', Nat.mod_eq_of_lt (lt_trans hp (by decide)),
      ev_add_pow _ 32 _ _ hp, ev_one]
    linear_combination -(Polynomial.X ^ 32 * ev Polynomial.X h + Polynomial.X ^ 32 * ev Polynomial.X q) * two_poly
  have hzm : clmulN q p0 64 % 2 ^ 32 = clmulN q (2 ^ 32 * 1 + p0) 33 ^^^ 2 ^ 32 * h := by
    rw [hz, Nat.xor_mod_two_pow, Nat.mul_mod_right, Nat.xor_zero, Nat.mod_eq_of_lt hV]
  rw [hzm, evx_xor, evx_clmulN _ _ _ _ hp', hg, ev_shl, mul_zero, zero_add]

/-- Barrett reduction of the unreflected code: `h` is the part above 32 bits. -/
theorem barrettx (h : Nat) (hh : h < 2 ^ 32) : clmulN h 0x104d101df 64 / 2 ^ 32 < 2 ^ 32 ∧
    ev x (clmulN (clmulN h 0x104d101df 64 / 2 ^ 32) 0x04c11db7 64 % 2 ^ 32) = x ^ 32 * ev x h :=
  barrettx_gen h _ _ 0x490d678d hh (by decide) (by decide) (by decide) (by decide +kernel) ev_generatorx

end Yenc.Crc
