import Verif.Lemmas.CrcApi
/-! Error patterns. -/
namespace Yenc.Crc
open Polynomial Yenc.Spec

/-- The polynomial of a bit string, in the ring. -/
noncomputable def pi (l : List Bool) : R := AdjoinRoot.mk crcP (polyOfBits l)

theorem polyOfBits_snoc (l : List Bool) (b : Bool) : polyOfBits (l ++ [b]) = polyOfBits l * X + if b then 1 else 0 := by
  unfold polyOfBits; rw [List.foldl_append]; rfl

theorem polyOfBits_append (l m : List Bool) : polyOfBits (l ++ m) = polyOfBits l * X ^ m.length + polyOfBits m := by
  induction m using List.reverseRecOn with
  | nil => simp [polyOfBits]
  | append_singleton m b ih =>
    rw [← List.append_assoc, polyOfBits_snoc, ih, polyOfBits_snoc, List.length_append]
    simp only [List.length_cons, List.length_nil]; ring

theorem pi_append (l m : List Bool) : pi (l ++ m) = pi l * x ^ m.length + pi m := by
  unfold pi; rw [polyOfBits_append]; simp

theorem mu_eq_pi (l : List Byte) : mu l = pi (bitsOf l) := (mk_msgPoly l).symm

theorem polyOfBits_degree (l : List Bool) : (polyOfBits l).degree < l.length := by
  induction l using List.reverseRecOn with
  | nil => simp [polyOfBits, bot_lt_iff_ne_bot]
  | append_singleton l b ih =>
    rw [polyOfBits_snoc, List.length_append]
    refine lt_of_le_of_lt (degree_add_le _ _) (max_lt ?_ ?_)
    · by_cases h0 : polyOfBits l = 0
      · rw [h0, zero_mul, degree_zero]; exact WithBot.bot_lt_coe _
      · rw [degree_mul_X]
        rw [degree_eq_natDegree h0] at ih ⊢
        have : (polyOfBits l).natDegree < l.length := by exact_mod_cast ih
        have h2 : (polyOfBits l).natDegree + 1 < l.length + 1 := by omega
        simp only [List.length_cons, List.length_nil]
        exact_mod_cast h2
    · split
      · rw [degree_one]; simp only [List.length_cons, List.length_nil]; exact_mod_cast Nat.succ_pos _
      · rw [degree_zero]; exact WithBot.bot_lt_coe _

theorem polyOfBits_inj {l m : List Bool} (hlen : l.length = m.length) (h : polyOfBits l = polyOfBits m) : l = m := by
  induction l using List.reverseRecOn generalizing m with
  | nil => exact (List.length_eq_zero_iff.1 hlen.symm).symm
  | append_singleton l b ih =>
    induction m using List.reverseRecOn with
    | nil => simp at hlen
    | append_singleton m c _ =>
      rw [polyOfBits_snoc, polyOfBits_snoc] at h
      have h0 : (if b then (1 : ZMod 2) else 0) = if c then 1 else 0 := by
        have := congrArg (fun p => p.coeff 0) h
        cases b <;> cases c <;> simpa using this
      have hbc : b = c := by cases b <;> cases c <;> simp at h0 ⊢
      subst hbc
      have h1 : polyOfBits l * X = polyOfBits m * X := by linear_combination h
      have h2 : polyOfBits l = polyOfBits m := (Polynomial.monic_X.isRegular).right h1
      rw [ih (by simpa using hlen) h2]

theorem pi_inj {l m : List Bool} (hlen : l.length = m.length) (hl : l.length ≤ 32) (h : pi l = pi m) : l = m := by
  unfold pi at h
  rw [mk_eq_iff, (modByMonic_eq_self_iff crcP_monic).2, (modByMonic_eq_self_iff crcP_monic).2] at h
  · exact polyOfBits_inj hlen h
  · rw [degree_eq_natDegree crcP_monic.ne_zero, crcP_natDegree]
    exact lt_of_lt_of_le (polyOfBits_degree m) (by rw [← hlen]; exact_mod_cast hl)
  · rw [degree_eq_natDegree crcP_monic.ne_zero, crcP_natDegree]
    exact lt_of_lt_of_le (polyOfBits_degree l) (by exact_mod_cast hl)

/-- Equal CRCs of buffers of one length mean equal message polynomials modulo the generator. -/
theorem crc1_eq_iff (c : U32) (d e : List Byte) (h : d.length = e.length) : crc1 c d = crc1 c e ↔ pi (bitsOf d) = pi (bitsOf e) := by
  constructor
  · intro he
    have h1 := phi_not_crc1 c d
    have h2 := phi_not_crc1 c e
    rw [he] at h1
    rw [← h] at h2
    rw [← mu_eq_pi, ← mu_eq_pi]
    apply x_pow_cancel (n := 32)
    linear_combination h2 - h1
  · intro he
    rw [← mu_eq_pi, ← mu_eq_pi] at he
    apply BitVec.not_inj.1
    apply phi_injective
    rw [phi_not_crc1, phi_not_crc1, he, h]

theorem bitsOf_length (d : List Byte) : (bitsOf d).length = 8 * d.length := by
  induction d with
  | nil => rfl
  | cons b d ih => simp only [bitsOf, List.flatMap_cons, List.length_append] at *; rw [ih]; simp; ring

theorem bitsOf_append (d e : List Byte) : bitsOf (d ++ e) = bitsOf d ++ bitsOf e := by simp [bitsOf]

theorem bitsOf_inj {d e : List Byte} (h : bitsOf d = bitsOf e) : d = e := by
  induction d generalizing e with
  | nil =>
    have := congrArg List.length h
    rw [bitsOf_length, bitsOf_length] at this
    cases e with
    | nil => rfl
    | cons => simp at this
  | cons a d ih =>
    cases e with
    | nil =>
      have := congrArg List.length h
      rw [bitsOf_length, bitsOf_length] at this
      simp at this
    | cons b e =>
      simp only [bitsOf, List.flatMap_cons] at h
      have h1 := List.append_inj h (by simp)
      have hab : a = b := by
        apply BitVec.eq_of_getLsbD_eq
        intro i hi
        have := congrArg (fun l => l[i]?) h1.1
        simpa [hi] using this
      rw [hab, ih h1.2]

end Yenc.Crc
