import Verif.Model.DecoderNeon
import Verif.Lemmas.DecRound
import Verif.Lemmas.EncNeon
/-! The NEON kernels: lanes and masks. -/
namespace Yenc.Dec.Simd.Neon
open Vec
open X86 (special pend nlDot endAt)
open Enc.Simd.Neon (getLsbD_lane sum8 fin8 bsl_bm)

theorem nreg_cases (a64 : Bool) : (a64 = true ∧ nreg a64 = 4 ∧ wid a64 = 64) ∨ (a64 = false ∧ nreg a64 = 2 ∧ wid a64 = 32) := by
  cases a64 <;> decide

theorem bits_eq : ∀ j, j < 16 → bits j = 1#8 <<< (j % 8) := by decide

/-! ### Is there anything? -/

theorem lane_ne (w : Nat) (k : Nat) (hw : w = 8 * k) (v : Vec) : lane w v ≠ 0#w ↔ ∃ j, j < k ∧ v j ≠ 0#8 := by
  subst hw
  rw [ne_zero_iff]
  constructor
  · rintro ⟨i, hi, h⟩
    rw [getLsbD_lane] at h
    refine ⟨i / 8, by omega, ?_⟩
    intro h0
    rw [h0] at h
    simp at h
  · rintro ⟨j, hj, h⟩
    obtain ⟨i, hi, h⟩ := (ne_zero_iff _).1 h
    refine ⟨8 * j + i, by omega, ?_⟩
    rw [getLsbD_lane, show (8 * j + i) / 8 = j by omega, show (8 * j + i) % 8 = i by omega, h]
    simp; omega

theorem qmovn_zero (x : BitVec 64) : qmovn x = 0#32 ↔ x = 0#64 := by
  unfold qmovn
  constructor
  · intro h
    split at h
    · rename_i h1
      have := congrArg BitVec.toNat h
      rw [BitVec.toNat_setWidth, Nat.mod_eq_of_lt h1] at this
      exact BitVec.eq_of_toNat_eq this
    · exact absurd h (by decide)
  · rintro rfl; rfl

theorem append_zero (x y : BitVec 32) : (x ++ y : BitVec 64) = 0#64 ↔ x = 0#32 ∧ y = 0#32 := by
  constructor
  · intro h
    have hg : ∀ i, (x ++ y : BitVec 64).getLsbD i = false := fun i => by rw [h]; simp
    simp only [BitVec.getLsbD_append] at hg
    constructor
    · apply (eq_zero_iff _).2
      intro i hi
      have := hg (32 + i)
      simpa using this
    · apply (eq_zero_iff _).2
      intro i hi
      have := hg i
      simpa [hi] using this
  · rintro ⟨rfl, rfl⟩; rfl

theorem isNonzero_iff (a64 : Bool) (v : Vec) : isNonzero a64 v = true ↔ ∃ j, j < 16 ∧ v j ≠ 0#8 := by
  have h64 := lane_ne 64 8 rfl
  cases a64 with
  | true =>
    simp only [isNonzero, if_true, decide_eq_true_eq]
    rw [Ne, append_zero, qmovn_zero, qmovn_zero]
    have h1 := h64 v
    have h2 := h64 (high v)
    constructor
    · intro h
      by_cases h3 : lane 64 v = 0#64
      · have h4 : lane 64 (high v) ≠ 0#64 := fun h4 => h ⟨h4, h3⟩
        obtain ⟨j, hj, hv⟩ := h2.1 h4
        exact ⟨8 + j, by omega, hv⟩
      · obtain ⟨j, hj, hv⟩ := h1.1 h3
        exact ⟨j, by omega, hv⟩
    · rintro ⟨j, hj, hv⟩ ⟨h3, h4⟩
      by_cases h5 : j < 8
      · exact h1.2 ⟨j, h5, hv⟩ h4
      · exact h2.2 ⟨j - 8, by omega, by rw [high, show 8 + (j - 8) = j by omega]; exact hv⟩ h3
  | false =>
    simp only [isNonzero, Bool.false_eq_true, if_false, decide_eq_true_eq]
    have h1 := lane_ne 32 4 rfl (or v (high v))
    have h2 := lane_ne 32 4 rfl (fun j => or v (high v) (4 + j))
    have key : ∀ x y : BitVec 32, (if x.toNat ≤ y.toNat then y else x) ≠ 0#32 ↔ x ≠ 0#32 ∨ y ≠ 0#32 := by
      intro x y
      have hx : x ≠ 0#32 ↔ x.toNat ≠ 0 := ⟨fun h h' => h (BitVec.eq_of_toNat_eq h'), fun h h' => h (by rw [h']; rfl)⟩
      have hy : y ≠ 0#32 ↔ y.toNat ≠ 0 := ⟨fun h h' => h (BitVec.eq_of_toNat_eq h'), fun h h' => h (by rw [h']; rfl)⟩
      split
      · rw [hx, hy]; omega
      · rw [hx, hy]; omega
    have hor : ∀ j, or v (high v) j ≠ 0#8 ↔ v j ≠ 0#8 ∨ v (8 + j) ≠ 0#8 := by
      intro j
      simp only [Vec.or, high]
      rw [ne_zero_iff, ne_zero_iff, ne_zero_iff]
      constructor
      · rintro ⟨i, hi, h⟩
        rw [BitVec.getLsbD_or, Bool.or_eq_true] at h
        exact h.imp (fun h => ⟨i, hi, h⟩) (fun h => ⟨i, hi, h⟩)
      · rintro (⟨i, hi, h⟩ | ⟨i, hi, h⟩)
        · exact ⟨i, hi, by rw [BitVec.getLsbD_or, h]; rfl⟩
        · exact ⟨i, hi, by rw [BitVec.getLsbD_or, h]; simp⟩
    rw [key, h1, h2]
    constructor
    · rintro (⟨j, hj, h⟩ | ⟨j, hj, h⟩)
      · rcases (hor j).1 h with h | h
        · exact ⟨j, by omega, h⟩
        · exact ⟨8 + j, by omega, h⟩
      · rcases (hor (4 + j)).1 h with h | h
        · exact ⟨4 + j, by omega, h⟩
        · exact ⟨8 + (4 + j), by omega, h⟩
    · rintro ⟨j, hj, h⟩
      have e : j = 8 * (j / 8) + 4 * (j % 8 / 4) + j % 4 := by omega
      have l1 : j / 8 = 0 ∨ j / 8 = 1 := by omega
      have l2 : j % 8 / 4 = 0 ∨ j % 8 / 4 = 1 := by omega
      rcases l1 with l1 | l1 <;> rcases l2 with l2 | l2 <;> rw [l1, l2] at e
      · exact .inl ⟨j % 4, by omega, (hor _).2 (.inl (by rw [show j % 4 = j by omega]; exact h))⟩
      · exact .inr ⟨j % 4, by omega, (hor _).2 (.inl (by rw [show 4 + j % 4 = j by omega]; exact h))⟩
      · exact .inl ⟨j % 4, by omega, (hor _).2 (.inr (by rw [show 8 + j % 4 = j by omega]; exact h))⟩
      · exact .inr ⟨j % 4, by omega, (hor _).2 (.inr (by rw [show 8 + (4 + j % 4) = j by omega]; exact h))⟩

theorem or_ne (x y : Byte) : x ||| y ≠ 0#8 ↔ x ≠ 0#8 ∨ y ≠ 0#8 := by
  revert x y; decide +kernel

/-- The test applied to the union of the registers. -/
theorem nonzero_iff (a64 : Bool) (f : Nat → Vec) (P : Nat → Prop) (h : ∀ r, r < nreg a64 → ∀ j, j < 16 → (f r j ≠ 0#8 ↔ P (16 * r + j))) :
    isNonzero a64 (orAll a64 f) = true ↔ ∃ q, q < wid a64 ∧ P q := by
  rw [isNonzero_iff]
  have hs : ∀ j, orAll a64 f j ≠ 0#8 ↔ ∃ r, r < nreg a64 ∧ f r j ≠ 0#8 := by
    intro j
    cases a64 with
    | true =>
      simp only [orAll, if_true, Vec.or]
      rw [or_ne, or_ne, or_ne]
      constructor
      · rintro ((h | h) | (h | h))
        · exact ⟨0, by decide, h⟩
        · exact ⟨1, by decide, h⟩
        · exact ⟨2, by decide, h⟩
        · exact ⟨3, by decide, h⟩
      · rintro ⟨r, hr, h⟩
        have hr : r < 4 := hr
        match r, hr, h with
        | 0, _, h => exact .inl (.inl h)
        | 1, _, h => exact .inl (.inr h)
        | 2, _, h => exact .inr (.inl h)
        | 3, _, h => exact .inr (.inr h)
    | false =>
      simp only [orAll, Bool.false_eq_true, if_false, Vec.or]
      rw [or_ne]
      constructor
      · rintro (h | h)
        · exact ⟨0, by decide, h⟩
        · exact ⟨1, by decide, h⟩
      · rintro ⟨r, hr, h⟩
        have hr : r < 2 := hr
        match r, hr, h with
        | 0, _, h => exact .inl h
        | 1, _, h => exact .inr h
  constructor
  · rintro ⟨j, hj, hv⟩
    obtain ⟨r, hr, hv⟩ := (hs j).1 hv
    exact ⟨16 * r + j, by unfold wid; omega, (h r hr j hj).1 hv⟩
  · rintro ⟨q, hq, hP⟩
    unfold wid at hq
    refine ⟨q % 16, by omega, (hs _).2 ⟨q / 16, by omega, (h _ (by omega) _ (by omega)).2 ?_⟩⟩
    rwa [show 16 * (q / 16) + q % 16 = q by omega]

theorem bm_ne (p : Bool) : bm p ≠ 0#8 ↔ p = true := by cases p <;> decide

/-! ### The masks -/

/-- Eight lanes of a register with bits selected. -/
theorem octet (c : Vec) (t : Nat → Bool) (o : Nat) (ho : o = 0 ∨ o = 8) (hc : ∀ j, j < 16 → c j &&& bits j = bm (t j) &&& bits j) (i : Nat) (hi : i < 8) :
    (((Vec.and c bits (o + 0) + Vec.and c bits (o + 1)) + (Vec.and c bits (o + 2) + Vec.and c bits (o + 3))) +
      ((Vec.and c bits (o + 4) + Vec.and c bits (o + 5)) + (Vec.and c bits (o + 6) + Vec.and c bits (o + 7)))).getLsbD i = t (o + i) := by
  simp only [Vec.and]
  rw [hc (o + 0) (by omega), hc (o + 1) (by omega), hc (o + 2) (by omega), hc (o + 3) (by omega), hc (o + 4) (by omega), hc (o + 5) (by omega), hc (o + 6) (by omega), hc (o + 7) (by omega),
    bits_eq (o + 0) (by omega), bits_eq (o + 1) (by omega), bits_eq (o + 2) (by omega), bits_eq (o + 3) (by omega), bits_eq (o + 4) (by omega), bits_eq (o + 5) (by omega), bits_eq (o + 6) (by omega), bits_eq (o + 7) (by omega)]
  rw [show (o + 0) % 8 = 0 by omega, show (o + 1) % 8 = 1 by omega, show (o + 2) % 8 = 2 by omega, show (o + 3) % 8 = 3 by omega,
    show (o + 4) % 8 = 4 by omega, show (o + 5) % 8 = 5 by omega, show (o + 6) % 8 = 6 by omega, show (o + 7) % 8 = 7 by omega]
  have h0 := sum8 (t (o + 0)) (t (o + 1)) (t (o + 2)) (t (o + 3)) (t (o + 4)) (t (o + 5)) (t (o + 6)) (t (o + 7)) ⟨i, hi⟩
  refine Eq.trans h0 ?_
  exact fin8 t o i hi

/-- The comparison results `f` say `t`. -/
def Says (a64 : Bool) (f : Nat → Vec) (t : Nat → Bool) : Prop :=
  ∀ r, r < nreg a64 → ∀ j, j < 16 → f r j &&& bits j = bm (t (16 * r + j)) &&& bits j

theorem Says.of_bm {a64 : Bool} {f : Nat → Vec} {t : Nat → Bool} (h : ∀ r, r < nreg a64 → ∀ j, j < 16 → f r j = bm (t (16 * r + j))) : Says a64 f t :=
  fun r hr j hj => by rw [h r hr j hj]

theorem padd16 (a b : Vec) (j : Nat) : padd 16 a b j = if j < 8 then a (2 * j) + a (2 * j + 1) else b (2 * (j - 8)) + b (2 * (j - 8) + 1) := rfl
theorem padd8 (a b : Vec) (j : Nat) : padd 8 a b j = if j < 4 then a (2 * j) + a (2 * j + 1) else b (2 * (j - 4)) + b (2 * (j - 4) + 1) := rfl

theorem merge4_get {f : Nat → Vec} {t : Nat → Bool} (h : Says true f t) (q : Nat) (hq : q < 8) (i : Nat) (hi : i < 8) :
    (merge4 f (2 * q) + merge4 f (2 * q + 1)).getLsbD i = t (8 * q + i) := by
  have o0 := octet (f (q / 2)) (fun j => t (16 * (q / 2) + j)) (8 * (q % 2)) (by omega) (h (q / 2) (by show q / 2 < 4; omega)) i hi
  have e : 16 * (q / 2) + (8 * (q % 2) + i) = 8 * q + i := by omega
  simp only [e] at o0
  rw [← o0]
  congr 1
  unfold merge4
  match q, hq with
  | 0, _ => rfl
  | 1, _ => rfl
  | 2, _ => rfl
  | 3, _ => rfl
  | 4, _ => rfl
  | 5, _ => rfl
  | 6, _ => rfl
  | 7, _ => rfl

theorem merge2_get {f : Nat → Vec} {t : Nat → Bool} (h : Says false f t) (q : Nat) (hq : q < 4) (i : Nat) (hi : i < 8) :
    (merge2 f q).getLsbD i = t (8 * q + i) := by
  have o0 := octet (f (q / 2)) (fun j => t (16 * (q / 2) + j)) (8 * (q % 2)) (by omega) (h (q / 2) (by show q / 2 < 2; omega)) i hi
  have e : 16 * (q / 2) + (8 * (q % 2) + i) = 8 * q + i := by omega
  simp only [e] at o0
  rw [← o0]
  congr 1
  unfold merge2
  match q, hq with
  | 0, _ => rfl
  | 1, _ => rfl
  | 2, _ => rfl
  | 3, _ => rfl

/-- Lanes of `cmpCombined` resp. `cmpPacked` agree with a mask. -/
def PackOk (a64 : Bool) (pk : Vec) (t : Nat → Bool) : Prop := ∀ q, q < 2 * nreg a64 → ∀ i, i < 8 → (pk q).getLsbD i = t (8 * q + i)

theorem packed_ok {a64 : Bool} {f eq : Nat → Vec} {t : Nat → Bool} (h : Says a64 f t) : PackOk a64 (packed a64 f eq) t := by
  intro q hq i hi
  cases a64 with
  | true =>
    have hq : q < 8 := hq
    simp only [packed, if_true]
    rw [padd16, if_pos hq]
    exact merge4_get h q hq i hi
  | false =>
    have hq : q < 4 := hq
    simp only [packed, Bool.false_eq_true, if_false]
    exact merge2_get h q hq i hi

theorem PackOk.get {a64 : Bool} {pk : Vec} {t : Nat → Bool} (h : PackOk a64 pk t) (q : Nat) (hq : q < wid a64) : (lane (wid a64) pk).getLsbD q = t q := by
  unfold wid at hq
  rw [getLsbD_lane, h (q / 8) (by omega) (q % 8) (by omega), show 8 * (q / 8) + q % 8 = q by omega]
  simp [show q < wid a64 from hq]

theorem maskEq_ok {a64 : Bool} {f eq : Nat → Vec} {t : Nat → Bool} (h : Says a64 eq t) (q : Nat) (hq : q < wid a64) : (maskEqOf a64 f eq).getLsbD q = t q := by
  cases a64 with
  | true =>
    have hq : q < 64 := hq
    simp only [maskEqOf, if_true, packed]
    rw [getLsbD_lane, high, padd16, if_neg (by omega), show 8 + q / 8 - 8 = q / 8 by omega, merge4_get h (q / 8) (by omega) (q % 8) (by omega),
      show 8 * (q / 8) + q % 8 = q by omega]
    simp [wid, nreg, hq]
  | false =>
    have hq : q < 32 := hq
    simp only [maskEqOf, Bool.false_eq_true, if_false]
    rw [getLsbD_lane, merge2_get h (q / 8) (by omega) (q % 8) (by omega), show 8 * (q / 8) + q % 8 = q by omega]
    simp [wid, nreg, hq]

/-! ### Lanes -/

section
variable (a64 : Bool) (md : Mode) (b : Nat → Byte)

theorem data_apply (h j : Nat) : data b h j = b (16 * h + j) := rfl

theorem cmpEq_apply (h j : Nat) : cmpEq b h j = bm (decide (b (16 * h + j) = EQ)) := rfl

theorem cmpCr_apply (h j : Nat) : cmpCr b h j = bm (decide (b (16 * h + j) = CR)) := rfl

theorem shiftData_apply (h j o : Nat) (hh : h < nreg a64) (ho : o ≤ 16) (hj : j < 16) : shiftData a64 md b h o j = b (16 * h + j + o) := by
  unfold shiftData
  have hx : ∀ k, k = h + 1 → ext (data b h) (data b k) o j = b (16 * h + j + o) := by
    rintro k rfl
    rw [ext]
    split
    · rw [data_apply]; congr 1; omega
    · rw [data_apply]; congr 1; omega
  split
  · exact hx _ rfl
  · split
    · rw [load]; congr 1; omega
    · exact hx _ (by omega)

theorem match2CrDot_apply (h j : Nat) (hh : h < nreg a64) (hj : j < 16) :
    match2CrDot a64 md b h j = bm (decide (b (16 * h + j) = CR) && decide (b (16 * h + j + 2) = DOT)) := by
  rw [match2CrDot, Vec.and, cmpCr_apply, cmpeq, shiftData_apply a64 md b h j 2 hh (by omega) hj, set1, bm_and]

theorem match1Lf_apply (h j : Nat) (hh : h < nreg a64) (hj : j < 16) : match1Lf a64 md b h j = bm (decide (b (16 * h + j + 1) = LF)) := by
  rw [match1Lf, cmpeq, shiftData_apply a64 md b h j 1 hh (by omega) hj, set1]

theorem match2NlDot_apply (h j : Nat) (hh : h < nreg a64) (hj : j < 16) : match2NlDot a64 md b h j = bm (nlDot b (16 * h + j)) := by
  rw [match2NlDot, Vec.and, match2CrDot_apply a64 md b h j hh hj, match1Lf_apply a64 md b h j hh hj, bm_and, nlDot]
  congr 1
  cases decide (b (16 * h + j) = CR) <;> simp [Bool.and_comm]

theorem match1Nl_apply (h j : Nat) (hh : h < nreg a64) (hj : j < 16) :
    match1Nl a64 md b h j = bm (decide (b (16 * h + j) = CR) && decide (b (16 * h + j + 1) = LF)) := by
  rw [match1Nl, Vec.and, match1Lf_apply a64 md b h j hh hj, cmpCr_apply, bm_and, Bool.and_comm]

theorem match2Eq_apply (h j : Nat) (hh : h < nreg a64) (hj : j < 16) : match2Eq a64 md b h j = bm (decide (b (16 * h + j + 2) = EQ)) := by
  unfold match2Eq
  split
  · rw [ext]
    split
    · rw [cmpEq_apply, Nat.add_assoc]
    · rw [cmpEq_apply, show 16 * (h + 1) + (j + 2 - 16) = 16 * h + j + 2 by omega]
  · rw [cmpeq, shiftData_apply a64 md b h j 2 hh (by omega) hj, set1]

theorem match3EqY_apply (h j : Nat) (hh : h < nreg a64) (hj : j < 16) :
    match3EqY a64 md b h j = bm (decide (b (16 * h + j + 2) = EQ) && decide (b (16 * h + j + 3) = LY)) := by
  rw [match3EqY, Vec.and, cmpeq, shiftData_apply a64 md b h j 3 hh (by omega) hj, match2Eq_apply a64 md b h j hh hj, set1, bm_and, Bool.and_comm]

theorem match4Nl_apply (h j : Nat) (hh : h < nreg a64) (hj : j < 16) :
    match4Nl a64 md b h j = bm (decide (b (16 * h + j + 3) = CR) && decide (b (16 * h + j + 4) = LF)) := by
  unfold match4Nl
  split
  · rw [ext]
    split
    · rw [match1Nl_apply a64 md b h _ hh (by omega), show 16 * h + (j + 3) = 16 * h + j + 3 by omega]
    · rw [match1Nl_apply a64 md b (h + 1) _ (by omega) (by omega), show 16 * (h + 1) + (j + 3 - 16) = 16 * h + j + 3 by omega]
  · rw [Vec.and, cmpeq, cmpeq, shiftData_apply a64 md b h j 3 hh (by omega) hj, shiftData_apply a64 md b h j 4 hh (by omega) hj, set1, set1, bm_and]

theorem match4EqY_apply (h j : Nat) (hh : h < nreg a64) (hj : j < 16) :
    match4EqY a64 md b h j = bm (decide (b (16 * h + 2 * (j / 2) + 4) = EQ) && decide (b (16 * h + 2 * (j / 2) + 5) = LY)) := by
  rw [match4EqY, cmpeqw_apply, shiftData_apply a64 md b h _ 4 hh (by omega) (by omega), shiftData_apply a64 md b h _ 4 hh (by omega) (by omega), set1w_apply,
    set1w_apply, if_pos (by omega), if_neg (by omega), ← Bool.decide_and]
  rw [show 16 * h + (2 * (j / 2) + 1) + 4 = 16 * h + 2 * (j / 2) + 5 by omega, show 16 * h + 2 * (j / 2) + 4 = 16 * h + 2 * (j / 2) + 4 from rfl]
  rfl

/-- The bit that stands for register `h` in merged comparisons (one of several). -/
def witness (a64 : Bool) (h : Nat) : Nat := if a64 then (if h = 0 then 0 else if h = 1 then 2 else if h = 2 then 6 else 7) else h

theorem bsl_get (m x y : Byte) (k : Nat) (hk : k < 8) : ((m &&& x) ||| (~~~ m &&& y)).getLsbD k = if m.getLsbD k then x.getLsbD k else y.getLsbD k := by
  rw [BitVec.getLsbD_or, BitVec.getLsbD_and, BitVec.getLsbD_and, BitVec.getLsbD_not]
  cases m.getLsbD k <;> simp [hk]

theorem mergeCompares_get (f : Nat → Vec) (h j : Nat) (hh : h < nreg a64) : (mergeCompares a64 f j).getLsbD (witness a64 h) = (f h j).getLsbD (witness a64 h) := by
  cases a64 with
  | true =>
    have hh : h < 4 := hh
    simp only [mergeCompares, if_true, bsl, set1]
    match h, hh with
    | 0, _ => rw [bsl_get _ _ _ _ (by decide), if_pos (by decide), bsl_get _ _ _ _ (by decide), if_pos (by decide)]
    | 1, _ => rw [bsl_get _ _ _ _ (by decide), if_pos (by decide), bsl_get _ _ _ _ (by decide), if_neg (by decide)]
    | 2, _ => rw [bsl_get _ _ _ _ (by decide), if_neg (by decide), bsl_get _ _ _ _ (by decide), if_pos (by decide)]
    | 3, _ => rw [bsl_get _ _ _ _ (by decide), if_neg (by decide), bsl_get _ _ _ _ (by decide), if_neg (by decide)]
  | false =>
    have hh : h < 2 := hh
    simp only [mergeCompares, Bool.false_eq_true, if_false, bsl, set1]
    match h, hh with
    | 0, _ => rw [bsl_get _ _ _ _ (by decide), if_pos (by decide)]
    | 1, _ => rw [bsl_get _ _ _ _ (by decide), if_neg (by decide)]

theorem bm_get (p : Bool) (k : Nat) (hk : k < 8) : (bm p).getLsbD k = p := by
  cases p
  · simp
  · show (255#8).getLsbD k = true
    revert k; decide

theorem witness_lt (h : Nat) (hh : h < nreg a64) : witness a64 h < 8 := by
  unfold witness
  split
  · split
    · omega
    · split
      · omega
      · split <;> omega
  · have := nreg_cases a64; omega

theorem sri_even : ∀ x y : Byte, (BitVec.extractLsb' 0 8 ((BitVec.append x y &&& 0xff00#16))) = 0#8 := by
  intro x y
  apply BitVec.eq_of_getLsbD_eq
  intro i hi
  have : ∀ i, i < 8 → (0xff00#16).getLsbD i = false := by decide
  simp [BitVec.getLsbD_extractLsb', this i hi]

theorem sriw8_apply (a c : Vec) (j : Nat) : sriw8 a c j = if j % 2 = 0 then c (j + 1) else a j := by
  rw [sriw8, of16]
  have m : ∀ i, i < 16 → (0xff00#16).getLsbD i = decide (8 ≤ i) := by decide
  split
  · rename_i h
    apply BitVec.eq_of_getLsbD_eq
    intro i hi
    rw [BitVec.getLsbD_extractLsb', BitVec.getLsbD_or, BitVec.getLsbD_and, BitVec.getLsbD_ushiftRight, w16, w16, get16, get16, m _ (by omega)]
    simp only [hi, decide_true, Bool.true_and, Nat.zero_add, if_true, show ¬ 8 ≤ i by omega, decide_false, Bool.and_false, Bool.false_or,
      show ¬ 8 + i < 8 by omega, if_false, Nat.add_sub_cancel_left]
    rw [show 2 * (j / 2) + 1 = j + 1 by omega]
  · rename_i h
    apply BitVec.eq_of_getLsbD_eq
    intro i hi
    rw [BitVec.getLsbD_extractLsb', BitVec.getLsbD_or, BitVec.getLsbD_and, BitVec.getLsbD_ushiftRight, w16, w16, get16, get16, m _ (by omega)]
    simp only [hi, decide_true, Bool.true_and, show 8 ≤ 8 + i by omega, Bool.and_true, show ¬ 8 + i < 8 by omega, if_false, Nat.add_sub_cancel_left,
      show ¬ 8 + (8 + i) < 8 by omega]
    rw [show 2 * (j / 2) + 1 = j by omega, BitVec.getLsbD_of_ge (c j) (8 + i) (by omega), Bool.or_false]

theorem matchEnd_of (h : ∃ q, q < wid a64 ∧ endAt b q) : matchEnd a64 md b = true := by
  obtain ⟨q, hq, he⟩ := h
  obtain ⟨h, j, hh, hj, rfl⟩ : ∃ h j, h < nreg a64 ∧ j < 16 ∧ q = 16 * h + j := ⟨q / 16, q % 16, by unfold wid at hq; omega, by omega, by omega⟩
  unfold matchEnd
  rw [isNonzero_iff]
  refine ⟨j, hj, ?_⟩
  intro h0
  have hg := congrArg (fun x : Byte => x.getLsbD (witness a64 h)) h0
  have hw := witness_lt a64 h hh
  have g := fun (f : Nat → Vec) j => mergeCompares_get a64 f h j hh
  simp only [Vec.or, Vec.and, sriw8_apply, BitVec.getLsbD_or, BitVec.getLsbD_and, g, match4Nl_apply a64 md b h j hh hj, match2NlDot_apply a64 md b h j hh hj,
    match1Nl_apply a64 md b h j hh hj, match3EqY_apply a64 md b h j hh hj, bm_get _ _ hw, BitVec.getLsbD_zero] at hg
  obtain ⟨he1, he2, he⟩ := he
  rcases he with ⟨h4, h5, h6⟩ | ⟨h4, h5, h6⟩ | ⟨h4, h5⟩
  · simp [nlDot, he1, he2, h4, h5, h6] at hg
  · by_cases hp : j % 2 = 0
    · rw [if_pos hp, g, match3EqY_apply a64 md b h (j + 1) hh (by omega), bm_get _ _ hw, show 16 * h + (j + 1) + 2 = 16 * h + j + 3 by omega,
        show 16 * h + (j + 1) + 3 = 16 * h + j + 4 by omega] at hg
      simp [nlDot, he1, he2, h4, h5, h6] at hg
    · rw [if_neg hp, g, match4EqY_apply a64 md b h j hh hj, bm_get _ _ hw, show 16 * h + 2 * (j / 2) + 4 = 16 * h + j + 3 by omega,
        show 16 * h + 2 * (j / 2) + 5 = 16 * h + j + 4 by omega] at hg
      simp [nlDot, he1, he2, h4, h5, h6] at hg
  · simp [he1, he2, h4, h5] at hg

theorem partialKill_iff : isNonzero a64 (orAll a64 (match2CrDot a64 md b)) = true ↔ ∃ q, q < wid a64 ∧ b q = CR ∧ b (q + 2) = DOT := by
  apply nonzero_iff
  intro r hr j hj
  rw [match2CrDot_apply a64 md b r j hr hj, bm_ne]
  simp

theorem endFound_of (h : ∃ q, q < wid a64 ∧ b q = CR ∧ b (q + 1) = LF ∧ b (q + 2) = EQ ∧ b (q + 3) = LY) :
    isNonzero a64 (orAll a64 (match3EqY a64 md b)) = true ∧ endFound a64 md b = true := by
  obtain ⟨q, hq, h1, h2, h3, h4⟩ := h
  constructor
  · apply (nonzero_iff a64 _ (fun q => b (q + 2) = EQ ∧ b (q + 3) = LY) _).2 ⟨q, hq, h3, h4⟩
    intro r hr j hj
    rw [match3EqY_apply a64 md b r j hr hj, bm_ne]
    simp
  · unfold endFound
    apply (nonzero_iff a64 _ (fun q => (b (q + 2) = EQ ∧ b (q + 3) = LY) ∧ b (q + 1) = LF ∧ b q = CR) _).2 ⟨q, hq, ⟨h3, h4⟩, h2, h1⟩
    intro r hr j hj
    simp only [Vec.and, match3EqY_apply a64 md b r j hr hj, match1Lf_apply a64 md b r j hr hj, cmpCr_apply, bm_and]
    rw [bm_ne]
    simp

theorem dots_says : Says a64 (match2NlDot a64 md b) (nlDot b) := Says.of_bm fun r hr j hj => match2NlDot_apply a64 md b r j hr hj

theorem killDots_get (q : Nat) (hq : q < wid a64) : (killDots a64 md b).getLsbD q = (decide (2 ≤ q) && nlDot b (q - 2)) := by
  have hs := dots_says a64 md b
  unfold killDots
  rw [BitVec.getLsbD_shiftLeft]
  by_cases h2 : q < 2
  · simp [h2]
    omega
  · simp only [hq, h2, decide_true, decide_false, Bool.not_false, Bool.true_and, show 2 ≤ q by omega]
    have := nreg_cases a64
    cases a64 with
    | true =>
      have hq : q < 64 := hq
      rw [if_pos rfl, getLsbD_lane, padd16, if_pos (by omega), merge4_get hs _ (by omega) _ (by omega), show 8 * ((q - 2) / 8) + (q - 2) % 8 = q - 2 by omega]
      simp [wid, nreg]; omega
    | false =>
      have hq : q < 32 := hq
      rw [if_neg (by decide), getLsbD_lane, merge2_get hs _ (by omega) _ (by omega), show 8 * ((q - 2) / 8) + (q - 2) % 8 = q - 2 by omega]
      simp [wid, nreg]; omega

theorem dup_get {w : Nat} (x : BitVec w) (q i : Nat) (hq : q < w / 8) (hi : i < 8) : (dup x q).getLsbD i = x.getLsbD (8 * q + i) := by
  rw [dup, BitVec.getLsbD_setWidth, BitVec.getLsbD_ushiftRight, Nat.mod_eq_of_lt hq]
  simp [hi]

end

end Yenc.Dec.Simd.Neon
