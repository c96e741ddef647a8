import Mathlib.RingTheory.AdjoinRoot
import Mathlib.Data.ZMod.Basic
import Mathlib.Algebra.CharP.Two
import Mathlib.Tactic.ComputeDegree
import Mathlib.Tactic.Ring
import Mathlib.Algebra.BigOperators.Group.Finset.Basic
import Mathlib.Algebra.BigOperators.Intervals
import Verif.Spec.Crc
import Verif.Model.Crc
/-! The ring of CRC values, and what the elementary operations do in it. -/
namespace Yenc.Crc
open Polynomial Yenc.Spec

theorem crcP_monic : crcP.Monic := by unfold crcP; monicity!
theorem crcP_natDegree : crcP.natDegree = 32 := by unfold crcP; compute_degree!

/-- Polynomials modulo the generator. -/
abbrev R := AdjoinRoot crcP
noncomputable abbrev x : R := AdjoinRoot.root crcP

theorem two_eq_zero : (2 : R) = 0 := by
  have h : (2 : ZMod 2) = 0 := by decide
  have : (AdjoinRoot.of crcP) 2 = 0 := by rw [h, map_zero]
  rwa [map_ofNat] at this

theorem add_self (a : R) : a + a = 0 := by rw [← two_mul, two_eq_zero, zero_mul]

/-- The indicator of a bit. -/
noncomputable def ind (b : Bool) : R := if b then 1 else 0

@[simp] theorem ind_true : ind true = 1 := rfl
@[simp] theorem ind_false : ind false = 0 := rfl
theorem ind_xor (a b : Bool) : ind (a ^^ b) = ind a + ind b := by
  cases a <;> cases b <;> simp [ind, add_self]

/-- Interpretation of a 32-bit value. -/
noncomputable def phi (v : U32) : R := ∑ i ∈ Finset.range 32, ind (v.getMsbD i) * x ^ i
/-- Interpretation of a byte. -/
noncomputable def beta (v : Byte) : R := ∑ i ∈ Finset.range 8, ind (v.getMsbD i) * x ^ i

theorem mk_toPoly (v : U32) : AdjoinRoot.mk crcP (toPoly v) = phi v := by
  unfold toPoly phi
  rw [map_sum]
  refine Finset.sum_congr rfl fun i _ => ?_
  cases v.getMsbD i <;> simp [ind]

@[simp] theorem phi_xor (a b : U32) : phi (a ^^^ b) = phi a + phi b := by
  unfold phi
  rw [← Finset.sum_add_distrib]
  refine Finset.sum_congr rfl fun i _ => ?_
  rw [BitVec.getMsbD_xor, ind_xor, add_mul]

@[simp] theorem phi_zero : phi 0#32 = 0 := by
  unfold phi
  refine Finset.sum_eq_zero fun i _ => ?_
  simp

@[simp] theorem beta_xor (a b : Byte) : beta (a ^^^ b) = beta a + beta b := by
  unfold beta
  rw [← Finset.sum_add_distrib]
  refine Finset.sum_congr rfl fun i _ => ?_
  rw [BitVec.getMsbD_xor, ind_xor, add_mul]

theorem phi_split (v : U32) :
    phi v = beta ((v >>> 24).setWidth 8) + x ^ 8 * beta ((v >>> 16).setWidth 8) + x ^ 16 * beta ((v >>> 8).setWidth 8)
      + x ^ 24 * beta (v.setWidth 8) := by
  have h : ∀ (k i : Nat), i < 8 → k ≤ 3 → ((v >>> (8 * k)).setWidth 8).getMsbD i = v.getMsbD (24 - 8 * k + i) := by
    intro k i hi hk
    simp only [BitVec.getMsbD, BitVec.getLsbD_setWidth, BitVec.getLsbD_ushiftRight]
    simp only [hi, decide_true, Bool.true_and, show 24 - 8 * k + i < 32 by omega, show 8 - 1 - i < 8 by omega]
    congr 1; omega
  unfold phi beta
  rw [show Finset.range 32 = Finset.range (8 + 8 + 8 + 8) from rfl, Finset.sum_range_add, Finset.sum_range_add, Finset.sum_range_add]
  simp only [Finset.mul_sum]
  refine congrArg₂ _ (congrArg₂ _ (congrArg₂ _ ?_ ?_) ?_) ?_ <;> refine Finset.sum_congr rfl fun i hi => ?_
  · rw [Finset.mem_range] at hi; rw [show v >>> 24 = v >>> (8 * 3) from rfl, h 3 i hi (by omega)]; simp
  · rw [Finset.mem_range] at hi; rw [show v >>> 16 = v >>> (8 * 2) from rfl, h 2 i hi (by omega), show 24 - 8 * 2 + i = 8 + i by omega]; ring
  · rw [Finset.mem_range] at hi; rw [show v >>> 8 = v >>> (8 * 1) from rfl, h 1 i hi (by omega), show 24 - 8 * 1 + i = 8 + 8 + i by omega]; ring
  · rw [Finset.mem_range] at hi
    have h0 := h 0 i hi (by omega)
    rw [show v >>> (8 * 0) = v by simp] at h0
    rw [h0, show 24 - 8 * 0 + i = 8 + 8 + 8 + i by omega]; ring

theorem beta_zero : beta 0#8 = 0 := by
  unfold beta
  refine Finset.sum_eq_zero fun i _ => ?_
  simp

theorem phi_zext (b : Byte) : phi (b.setWidth 32) = x ^ 24 * beta b := by
  rw [phi_split]
  have h1 : (b.setWidth 32 >>> 24).setWidth 8 = 0#8 := by
    ext i hi; simp <;> (try intro) <;> (try exact BitVec.getLsbD_of_ge _ _ (by omega))
  have h2 : (b.setWidth 32 >>> 16).setWidth 8 = 0#8 := by
    ext i hi; simp <;> (try intro) <;> (try exact BitVec.getLsbD_of_ge _ _ (by omega))
  have h3 : (b.setWidth 32 >>> 8).setWidth 8 = 0#8 := by
    ext i hi; simp <;> (try intro) <;> (try exact BitVec.getLsbD_of_ge _ _ (by omega))
  have h4 : (b.setWidth 32).setWidth 8 = b := by ext i hi; simp [hi]
  rw [h1, h2, h3, h4, beta_zero]; ring

/-- Shifting right moves all but the lowest bits up one degree. -/
theorem phi_ushiftRight_one (v : U32) :
    phi (v >>> 1) = x * ∑ i ∈ Finset.range 31, ind (v.getMsbD i) * x ^ i := by
  unfold phi
  rw [Finset.sum_range_succ', Finset.mul_sum]
  have : (v >>> 1).getMsbD 0 = false := by simp [BitVec.getMsbD]
  rw [this]
  simp only [ind_false, zero_mul, add_zero]
  refine Finset.sum_congr rfl fun i hi => ?_
  rw [Finset.mem_range] at hi
  rw [BitVec.getMsbD_ushiftRight]
  simp [show i + 1 < 32 by omega]; ring

theorem x_pow_32 : x ^ 32 = phi poly := by
  have h : AdjoinRoot.mk crcP crcP = 0 := AdjoinRoot.mk_self
  have h2 : AdjoinRoot.mk crcP crcP = x ^ 32 + phi poly := by
    unfold phi poly
    simp only [Finset.sum_range_succ, Finset.sum_range_zero]
    have h3 : ∀ q, AdjoinRoot.mk q crcP = AdjoinRoot.root q ^ 32 + AdjoinRoot.root q ^ 26 + AdjoinRoot.root q ^ 23 +
        AdjoinRoot.root q ^ 22 + AdjoinRoot.root q ^ 16 + AdjoinRoot.root q ^ 12 + AdjoinRoot.root q ^ 11 +
        AdjoinRoot.root q ^ 10 + AdjoinRoot.root q ^ 8 + AdjoinRoot.root q ^ 7 + AdjoinRoot.root q ^ 5 +
        AdjoinRoot.root q ^ 4 + AdjoinRoot.root q ^ 2 + AdjoinRoot.root q + 1 := by
      intro q; simp [crcP]
    rw [h3 crcP]
    simp [BitVec.getMsbD]
    ring
  rw [h2] at h
  linear_combination h - add_self (phi poly)

theorem neg_and (b : Bool) (p : U32) : -(BitVec.ofBool b).setWidth 32 &&& p = if b then p else 0#32 := by
  cases b
  · simp
  · simp only [if_true]
    have : -(BitVec.ofBool true).setWidth 32 = BitVec.allOnes 32 := by decide
    rw [this, BitVec.allOnes_and]

theorem and_one_ofBool (v : U32) : v &&& 1#32 = (BitVec.ofBool (v.getLsbD 0)).setWidth 32 := by
  apply BitVec.eq_of_getLsbD_eq
  intro i hi
  rcases Nat.eq_zero_or_pos i with rfl | hp
  · simp
  · have : (1#32).getLsbD i = false := by
      rw [BitVec.getLsbD_one]; simp; omega
    simp [hp.ne']

theorem shr31_ofBool (v : U32) : v >>> 31 = (BitVec.ofBool (v.getMsbD 0)).setWidth 32 := by
  apply BitVec.eq_of_getLsbD_eq
  intro i hi
  rcases Nat.eq_zero_or_pos i with rfl | hp
  · simp [BitVec.getMsbD]
  · have : v.getLsbD (31 + i) = false := BitVec.getLsbD_of_ge _ _ (by omega)
    simp [this, hp.ne']

theorem phi_ite (b : Bool) (p : U32) : phi (if b then p else 0#32) = ind b * phi p := by
  cases b <;> simp

/-- One step of the bitwise loop multiplies by `x`. -/
theorem phi_shr1 (v : U32) : phi (shr1 v) = x * phi v := by
  unfold shr1
  rw [and_one_ofBool, neg_and, phi_xor, phi_ushiftRight_one, phi_ite, ← x_pow_32]
  conv_rhs => unfold phi
  rw [Finset.sum_range_succ _ 31]
  have : v.getMsbD 31 = v.getLsbD 0 := by simp [BitVec.getMsbD]
  rw [this]; ring

theorem phi_base (b : Byte) : phi (base b) = x ^ 32 * beta b := by
  unfold base
  simp only [phi_shr1, phi_zext]; ring

theorem phi_ushiftRight_8 (v : U32) : phi (v >>> 8) = x ^ 8 * (phi v + x ^ 24 * beta (v.setWidth 8)) := by
  rw [phi_split (v >>> 8), phi_split v]
  simp only [← BitVec.shiftRight_add, Nat.reduceAdd]
  have h1 : (v >>> 32).setWidth 8 = 0#8 := by
    ext i hi; simp <;> (try intro) <;> (try exact BitVec.getLsbD_of_ge _ _ (by omega))
  rw [h1, beta_zero]
  linear_combination (-(x^8 * x^24) ) * add_self (beta (v.setWidth 8))

theorem phi_advance (v : U32) : phi (advance v) = x ^ 8 * phi v := by
  unfold advance
  rw [phi_xor, phi_ushiftRight_8, phi_base]
  linear_combination (x^32) * add_self (beta (v.setWidth 8))

theorem phi_step (v : U32) (b : Byte) : phi (step v b) = x ^ 8 * phi v + x ^ 32 * beta b := by
  unfold step
  rw [phi_xor, phi_ushiftRight_8, phi_base, beta_xor]
  linear_combination (x^32) * add_self (beta (v.setWidth 8))

theorem phi_iter_advance (n : Nat) (v : U32) : phi (iter advance n v) = x ^ (8 * n) * phi v := by
  induction n generalizing v with
  | zero => simp [iter]
  | succ n ih => rw [iter, ih, phi_advance]; ring

theorem phi_slice (i : Nat) (b : Byte) : phi (slice i b) = x ^ (128 + 8 * i) * beta b := by
  unfold slice
  rw [phi_iter_advance, phi_iter_advance, phi_base]; ring

theorem phi_proc4 (v w : U32) : phi (proc4 v w) = x ^ 128 * (phi v + phi w) := by
  unfold proc4
  simp only [phi_xor, phi_slice]
  rw [← phi_xor, phi_split (v ^^^ w)]; ring

/-! ### Messages -/

/-- The message polynomial in the ring. -/
noncomputable def mu (l : List Byte) : R := l.foldl (fun acc b => acc * x ^ 8 + beta b) 0

theorem mu_foldl (l : List Byte) (a : R) :
    l.foldl (fun acc b => acc * x ^ 8 + beta b) a = a * x ^ (8 * l.length) + mu l := by
  induction l generalizing a with
  | nil => simp [mu]
  | cons b l ih =>
    simp only [mu, List.foldl_cons]
    rw [ih, ih (0 * x ^ 8 + beta b)]
    simp only [List.length_cons]; ring

@[simp] theorem mu_nil : mu [] = 0 := rfl
theorem mu_append (a b : List Byte) : mu (a ++ b) = mu a * x ^ (8 * b.length) + mu b := by
  conv_lhs => unfold mu
  rw [List.foldl_append, mu_foldl]; rfl
theorem mu_cons (b : Byte) (l : List Byte) : mu (b :: l) = beta b * x ^ (8 * l.length) + mu l := by
  conv_lhs => unfold mu
  rw [List.foldl_cons, mu_foldl]; ring

theorem mk_polyOfBits_foldl (l : List Bool) (a : (ZMod 2)[X]) :
    AdjoinRoot.mk crcP (l.foldl (fun acc b => acc * X + if b then 1 else 0) a) =
      l.foldl (fun acc b => acc * x + ind b) (AdjoinRoot.mk crcP a) := by
  induction l generalizing a with
  | nil => rfl
  | cons b l ih =>
    rw [List.foldl_cons, ih, List.foldl_cons]
    cases b <;> simp

theorem beta_bits (b : Byte) (a : R) :
    ((List.range 8).map b.getLsbD).foldl (fun acc b => acc * x + ind b) a = a * x ^ 8 + beta b := by
  have h8 : List.range 8 = [0, 1, 2, 3, 4, 5, 6, 7] := rfl
  unfold beta
  simp only [h8, List.map_cons, List.map_nil, List.foldl_cons, List.foldl_nil, Finset.sum_range_succ, Finset.sum_range_zero,
    BitVec.getMsbD, Nat.reduceSub, Nat.reduceLT, decide_true, Bool.true_and]
  ring

theorem mk_msgPoly (l : List Byte) : AdjoinRoot.mk crcP (msgPoly l) = mu l := by
  unfold msgPoly polyOfBits
  rw [mk_polyOfBits_foldl, map_zero]
  unfold mu bitsOf
  generalize (0 : R) = a
  induction l generalizing a with
  | nil => rfl
  | cons b l ih => rw [List.flatMap_cons, List.foldl_append, List.foldl_cons, beta_bits, ih]

theorem phi_foldl_step (l : List Byte) (v : U32) : phi (l.foldl step v) = phi v * x ^ (8 * l.length) + mu l * x ^ 32 := by
  induction l generalizing v with
  | nil => simp
  | cons b l ih => rw [List.foldl_cons, ih, phi_step, mu_cons, List.length_cons]; ring

/-! ### Injectivity -/

theorem toPoly_degree (v : U32) : (toPoly v).degree < crcP.degree := by
  rw [degree_eq_natDegree crcP_monic.ne_zero, crcP_natDegree]
  unfold toPoly
  refine lt_of_le_of_lt (degree_sum_le _ _) ?_
  rw [Finset.sup_lt_iff (by simp [bot_lt_iff_ne_bot])]
  intro i hi
  rw [Finset.mem_range] at hi
  split
  · rw [degree_X_pow]; exact_mod_cast hi
  · simp [bot_lt_iff_ne_bot]

theorem toPoly_coeff (v : U32) (i : Nat) : (toPoly v).coeff i = if v.getMsbD i then 1 else 0 := by
  unfold toPoly
  rw [finset_sum_coeff]
  by_cases hi : i < 32
  · rw [Finset.sum_eq_single i]
    · split <;> simp
    · intro j _ hj
      split
      · rw [coeff_X_pow, if_neg (fun h => hj h.symm)]
      · simp
    · intro h; simp at h; omega
  · have : v.getMsbD i = false := by simp [BitVec.getMsbD]; omega
    rw [this]
    simp only [Bool.false_eq_true, if_false]
    refine Finset.sum_eq_zero fun j hj => ?_
    rw [Finset.mem_range] at hj
    split
    · rw [coeff_X_pow, if_neg (by omega)]
    · simp

theorem toPoly_injective {a b : U32} (h : toPoly a = toPoly b) : a = b := by
  apply BitVec.eq_of_getMsbD_eq
  intro i hi
  have := congrArg (fun p => p.coeff i) h
  simp only [toPoly_coeff] at this
  cases ha : a.getMsbD i <;> cases hb : b.getMsbD i <;> simp [ha, hb] at this ⊢

theorem toPoly_mod (v : U32) : toPoly v %ₘ crcP = toPoly v :=
  (modByMonic_eq_self_iff crcP_monic).2 (toPoly_degree v)

theorem mk_eq_iff (p q : (ZMod 2)[X]) : AdjoinRoot.mk crcP p = AdjoinRoot.mk crcP q ↔ p %ₘ crcP = q %ₘ crcP := by
  rw [AdjoinRoot.mk_eq_mk]
  constructor
  · intro h; exact modByMonic_eq_of_dvd_sub crcP_monic h
  · intro h
    have h1 := modByMonic_add_div p crcP
    have h2 := modByMonic_add_div q crcP
    refine ⟨p /ₘ crcP - q /ₘ crcP, ?_⟩
    rw [h] at h1
    linear_combination h2 - h1

theorem phi_injective {a b : U32} (h : phi a = phi b) : a = b := by
  rw [← mk_toPoly, ← mk_toPoly, mk_eq_iff, toPoly_mod, toPoly_mod] at h
  exact toPoly_injective h

theorem phi_one : phi 0x80000000#32 = 1 := by
  unfold phi
  simp only [Finset.sum_range_succ, Finset.sum_range_zero]
  simp [BitVec.getMsbD]

theorem phi_x : phi 0x40000000#32 = x := by
  unfold phi
  simp only [Finset.sum_range_succ, Finset.sum_range_zero]
  simp [BitVec.getMsbD]

/-- The specification, in the ring. -/
theorem isCrc32_iff (init r : U32) (data : List Byte) :
    IsCrc32 init data r ↔ phi (~~~r) = phi (~~~init) * x ^ (8 * data.length) + mu data * x ^ 32 := by
  unfold IsCrc32
  rw [← toPoly_mod (~~~r), ← mk_eq_iff, mk_toPoly]
  simp [mk_toPoly, mk_msgPoly]

end Yenc.Crc
