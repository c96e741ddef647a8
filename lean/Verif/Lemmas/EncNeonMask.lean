import Verif.Lemmas.EncNeonBase
/-! The masks of `do_encode_neon`. -/
namespace Yenc.Enc.Simd.Neon
open Yenc Vec
open Yenc.Dec.Simd (cnt cnt_add cnt_le cnt_congr)

theorem one_of_and_w {w : Nat} (x : BitVec w) (h : x &&& (x - 1#w) = 0#w) : ∃ k, One x.getLsbD w k := by
  apply one_of_unique
  intro i j hij hj hi hfj
  have h0 : (x &&& (x - 1#w)).getLsbD j = false := by rw [h]; simp
  rw [BitVec.getLsbD_and, hfj, Bool.true_and] at h0
  have hx : x.toNat ≠ 0 := by
    intro h0
    have : x = 0#w := BitVec.eq_of_toNat_eq (by simpa using h0)
    rw [this] at hi; simp at hi
  have e : (x - 1#w).toNat = x.toNat - 1 := by
    have := x.isLt
    have h2 : 2 ≤ 2 ^ w := by
      have : 2 ^ 1 ≤ 2 ^ w := Nat.pow_le_pow_right (by omega) (by omega)
      omega
    have h1 : (1#w).toNat = 1 := by rw [BitVec.toNat_ofNat, Nat.mod_eq_of_lt (by omega)]
    rw [BitVec.toNat_sub, h1]
    have e2 : 2 ^ w - 1 + x.toNat = (x.toNat - 1) + 2 ^ w := by omega
    rw [e2, Nat.add_mod_right, Nat.mod_eq_of_lt (by omega)]
  rw [BitVec.getLsbD, e] at h0
  rw [BitVec.getLsbD] at hi hfj
  have hm : x.toNat % 2 ^ j ≠ 0 := by
    intro hm
    have : (x.toNat % 2 ^ j).testBit i = true := by rw [Nat.testBit_mod_two_pow]; simp [hij, hi]
    rw [hm] at this; simp at this
  have hd : (x.toNat - 1) / 2 ^ j = x.toNat / 2 ^ j := by
    have h1 := Nat.div_add_mod x.toNat (2 ^ j)
    have h2 := Nat.mod_lt x.toNat (Nat.two_pow_pos j)
    have : x.toNat - 1 = (x.toNat % 2 ^ j - 1) + 2 ^ j * (x.toNat / 2 ^ j) := by omega
    rw [this, Nat.add_mul_div_left _ _ (Nat.two_pow_pos j), Nat.div_eq_of_lt (by omega), Nat.zero_add]
  rw [Nat.testBit_eq_decide_div_mod_eq, hd, ← Nat.testBit_eq_decide_div_mod_eq, hfj] at h0
  exact Bool.noConfusion h0

theorem getLsbD_lane (w : Nat) (v : Vec) (i : Nat) : (lane w v).getLsbD i = (decide (i < w) && (v (i / 8)).getLsbD (i % 8)) := by
  rw [lane, getLsbD_ofBits]
  cases decide (i < w) <;> simp

/-! ## Merging the comparisons -/

/-- Where the bit of character `k` is in the 64-bit mask. -/
def posOf (k : Nat) : Nat := 16 * (k / 8) + 8 * (k % 8 / 4) + k % 8

/-- The bits of the merged comparisons. -/
def MergeOk (a64 : Bool) (t : Nat → Bool) (v : Vec) : Prop :=
  if a64 then ∀ j, j < 8 → ∀ i, i < 8 → (v j).getLsbD i = (decide (i / 4 = j % 2) && t (8 * (j / 2) + i))
  else ∀ j, j < 4 → ∀ i, i < 8 → (v j).getLsbD i = t (8 * j + i)

theorem bits_eq : ∀ j, j < 16 → bits j = 1#8 <<< (j % 8) := by decide

theorem sum4 : ∀ (p0 p1 p2 p3 : Bool) (i : Fin 8),
    (((bm p0 &&& 1#8) + (bm p1 &&& 2#8)) + ((bm p2 &&& 4#8) + (bm p3 &&& 8#8))).getLsbD i = (decide (i.val / 4 = 0) && ([p0, p1, p2, p3].getD i false)) ∧
    (((bm p0 &&& 16#8) + (bm p1 &&& 32#8)) + ((bm p2 &&& 64#8) + (bm p3 &&& 128#8))).getLsbD i = (decide (i.val / 4 = 1) && ([p0, p1, p2, p3].getD (i - 4) false)) := by
  decide +kernel

theorem sum8 : ∀ (p0 p1 p2 p3 p4 p5 p6 p7 : Bool) (i : Fin 8),
    ((((bm p0 &&& 1#8) + (bm p1 &&& 2#8)) + ((bm p2 &&& 4#8) + (bm p3 &&& 8#8))) +
    (((bm p4 &&& 16#8) + (bm p5 &&& 32#8)) + ((bm p6 &&& 64#8) + (bm p7 &&& 128#8)))).getLsbD i = [p0, p1, p2, p3, p4, p5, p6, p7].getD i false := by
  decide +kernel

theorem fin4 (t : Nat → Bool) (o i : Nat) (hi : i < 4) : [t (o + 0), t (o + 1), t (o + 2), t (o + 3)].getD i false = t (o + i) := by
  match i, hi with
  | 0, _ => rfl
  | 1, _ => rfl
  | 2, _ => rfl
  | 3, _ => rfl

theorem fin8 (t : Nat → Bool) (o i : Nat) (hi : i < 8) : [t (o + 0), t (o + 1), t (o + 2), t (o + 3), t (o + 4), t (o + 5), t (o + 6), t (o + 7)].getD i false = t (o + i) := by
  match i, hi with
  | 0, _ => rfl
  | 1, _ => rfl
  | 2, _ => rfl
  | 3, _ => rfl
  | 4, _ => rfl
  | 5, _ => rfl
  | 6, _ => rfl
  | 7, _ => rfl

/-- Four lanes, beginning at a multiple of four. -/
theorem quad (c : Vec) (t : Nat → Bool) (hc : ∀ j, j < 16 → c j = bm (t j)) (q : Nat) (hq : q < 4) (i : Nat) (hi : i < 8) :
    ((Vec.and c bits (4 * q) + Vec.and c bits (4 * q + 1)) + (Vec.and c bits (4 * q + 2) + Vec.and c bits (4 * q + 3))).getLsbD i =
      (decide (i / 4 = q % 2) && t (8 * (q / 2) + i)) := by
  simp only [Vec.and, hc (4 * q) (by omega), hc (4 * q + 1) (by omega), hc (4 * q + 2) (by omega), hc (4 * q + 3) (by omega),
    bits_eq (4 * q) (by omega), bits_eq (4 * q + 1) (by omega), bits_eq (4 * q + 2) (by omega), bits_eq (4 * q + 3) (by omega)]
  by_cases h : q % 2 = 0
  · have h0 := (sum4 (t (4 * q + 0)) (t (4 * q + 1)) (t (4 * q + 2)) (t (4 * q + 3)) ⟨i, hi⟩).1
    rw [show 4 * q % 8 = 0 by omega, show (4 * q + 1) % 8 = 1 by omega, show (4 * q + 2) % 8 = 2 by omega, show (4 * q + 3) % 8 = 3 by omega, h]
    refine Eq.trans h0 ?_
    by_cases h4 : i / 4 = 0
    · simp only [h4, decide_true, Bool.true_and]
      rw [fin4 t (4 * q) i (by omega)]
      congr 1; omega
    · simp [h4]
  · have h0 := (sum4 (t (4 * q + 0)) (t (4 * q + 1)) (t (4 * q + 2)) (t (4 * q + 3)) ⟨i, hi⟩).2
    rw [show 4 * q % 8 = 4 by omega, show (4 * q + 1) % 8 = 5 by omega, show (4 * q + 2) % 8 = 6 by omega, show (4 * q + 3) % 8 = 7 by omega, show q % 2 = 1 by omega]
    refine Eq.trans h0 ?_
    by_cases h4 : i / 4 = 1
    · simp only [h4, decide_true, Bool.true_and]
      rw [fin4 t (4 * q) (i - 4) (by omega)]
      congr 1; omega
    · simp [h4]

theorem oct (c : Vec) (t : Nat → Bool) (hc : ∀ j, j < 16 → c j = bm (t j)) (q : Nat) (hq : q < 2) (i : Nat) (hi : i < 8) :
    (((Vec.and c bits (8 * q) + Vec.and c bits (8 * q + 1)) + (Vec.and c bits (8 * q + 2) + Vec.and c bits (8 * q + 3))) +
      ((Vec.and c bits (8 * q + 4) + Vec.and c bits (8 * q + 5)) + (Vec.and c bits (8 * q + 6) + Vec.and c bits (8 * q + 7)))).getLsbD i = t (8 * q + i) := by
  simp only [Vec.and, hc (8 * q) (by omega), hc (8 * q + 1) (by omega), hc (8 * q + 2) (by omega), hc (8 * q + 3) (by omega),
    hc (8 * q + 4) (by omega), hc (8 * q + 5) (by omega), hc (8 * q + 6) (by omega), hc (8 * q + 7) (by omega),
    bits_eq (8 * q) (by omega), bits_eq (8 * q + 1) (by omega), bits_eq (8 * q + 2) (by omega), bits_eq (8 * q + 3) (by omega),
    bits_eq (8 * q + 4) (by omega), bits_eq (8 * q + 5) (by omega), bits_eq (8 * q + 6) (by omega), bits_eq (8 * q + 7) (by omega)]
  rw [show 8 * q % 8 = 0 by omega, show (8 * q + 1) % 8 = 1 by omega, show (8 * q + 2) % 8 = 2 by omega, show (8 * q + 3) % 8 = 3 by omega,
    show (8 * q + 4) % 8 = 4 by omega, show (8 * q + 5) % 8 = 5 by omega, show (8 * q + 6) % 8 = 6 by omega, show (8 * q + 7) % 8 = 7 by omega]
  have h0 := sum8 (t (8 * q + 0)) (t (8 * q + 1)) (t (8 * q + 2)) (t (8 * q + 3)) (t (8 * q + 4)) (t (8 * q + 5)) (t (8 * q + 6)) (t (8 * q + 7)) ⟨i, hi⟩
  refine Eq.trans h0 ?_
  exact fin8 t (8 * q) i hi

theorem merge_ok (a64 : Bool) (cA cB : Vec) (t : Nat → Bool) (hA : ∀ j, j < 16 → cA j = bm (t j)) (hB : ∀ j, j < 16 → cB j = bm (t (16 + j))) :
    MergeOk a64 t (merge a64 cA cB) := by
  cases a64 with
  | true =>
    simp only [MergeOk, if_true, merge]
    intro j hj i hi
    by_cases h : j < 4
    · have e : padd 16 (padd 16 (Vec.and cA bits) (Vec.and cB bits)) (padd 16 (Vec.and cA bits) (Vec.and cB bits)) j =
          (Vec.and cA bits (4 * j) + Vec.and cA bits (4 * j + 1)) + (Vec.and cA bits (4 * j + 2) + Vec.and cA bits (4 * j + 3)) := by
        simp only [padd, Nat.reduceDiv, show j < 8 by omega, show 2 * j < 8 by omega, show 2 * j + 1 < 8 by omega, if_true]
        rw [show 2 * (2 * j) = 4 * j by omega, show 2 * (2 * j + 1) = 4 * j + 2 by omega]
      rw [e, quad cA t hA j h i hi]
    · have e : padd 16 (padd 16 (Vec.and cA bits) (Vec.and cB bits)) (padd 16 (Vec.and cA bits) (Vec.and cB bits)) j =
          (Vec.and cB bits (4 * (j - 4)) + Vec.and cB bits (4 * (j - 4) + 1)) + (Vec.and cB bits (4 * (j - 4) + 2) + Vec.and cB bits (4 * (j - 4) + 3)) := by
        simp only [padd, Nat.reduceDiv, show j < 8 by omega, show ¬ 2 * j < 8 by omega, show ¬ 2 * j + 1 < 8 by omega, if_true, if_false]
        rw [show 2 * (2 * j - 8) = 4 * (j - 4) by omega, show 2 * (2 * j + 1 - 8) = 4 * (j - 4) + 2 by omega]
      rw [e, quad cB (fun j => t (16 + j)) hB (j - 4) (by omega) i hi]
      rw [show (j - 4) % 2 = j % 2 by omega, show 16 + (8 * ((j - 4) / 2) + i) = 8 * (j / 2) + i by omega]
  | false =>
    simp only [MergeOk, merge, Bool.false_eq_true, if_false]
    intro j hj i hi
    have e : ∀ (c : Vec) (x : Nat), x < 4 → padd 8 (Vec.and c bits) (high (Vec.and c bits)) (2 * x) + padd 8 (Vec.and c bits) (high (Vec.and c bits)) (2 * x + 1) =
        (Vec.and c bits (4 * x) + Vec.and c bits (4 * x + 1)) + (Vec.and c bits (4 * x + 2) + Vec.and c bits (4 * x + 3)) := by
      intro c x hx
      by_cases h : x < 2
      · simp only [padd, Nat.reduceDiv, show 2 * x < 4 by omega, show 2 * x + 1 < 4 by omega, if_true]
        rw [show 2 * (2 * x) = 4 * x by omega, show 2 * (2 * x + 1) = 4 * x + 2 by omega]
      · simp only [padd, Nat.reduceDiv, show ¬ 2 * x < 4 by omega, show ¬ 2 * x + 1 < 4 by omega, if_false, high]
        rw [show 8 + 2 * (2 * x - 4) = 4 * x by omega, show 8 + (2 * (2 * x - 4) + 1) = 4 * x + 1 by omega, show 8 + 2 * (2 * x + 1 - 4) = 4 * x + 2 by omega,
          show 8 + (2 * (2 * x + 1 - 4) + 1) = 4 * x + 3 by omega]
    by_cases h : j < 2
    · have e2 := oct cA t hA j h i hi
      rw [← e2]
      congr 1
      rw [padd]
      simp only [Nat.reduceDiv, show j < 4 by omega, if_true]
      have e3 := e cA (2 * j) (by omega)
      have e4 := e cA (2 * j + 1) (by omega)
      rw [show 4 * (2 * j) = 8 * j by omega] at e3
      rw [show 4 * (2 * j + 1) = 8 * j + 4 by omega] at e4
      rw [← e3]
      have e5 : ∀ x y : Vec, ∀ k, k < 4 → padd 8 x y k = x (2 * k) + x (2 * k + 1) := by
        intro x y k hk; simp only [padd, Nat.reduceDiv, hk, if_true]
      rw [e5 _ _ (2 * j) (by omega), e5 _ _ (2 * j + 1) (by omega), e4]
    · have e2 := oct cB (fun j => t (16 + j)) hB (j - 2) (by omega) i hi
      rw [show 16 + (8 * (j - 2) + i) = 8 * j + i by omega] at e2
      rw [← e2]
      congr 1
      rw [padd]
      simp only [Nat.reduceDiv, show j < 4 by omega, if_true]
      have e3 := e cB (2 * (j - 2)) (by omega)
      have e4 := e cB (2 * (j - 2) + 1) (by omega)
      rw [show 4 * (2 * (j - 2)) = 8 * (j - 2) by omega] at e3
      rw [show 4 * (2 * (j - 2) + 1) = 8 * (j - 2) + 4 by omega] at e4
      rw [← e3]
      have e5 : ∀ x y : Vec, ∀ k, ¬ k < 4 → padd 8 x y k = y (2 * (k - 4)) + y (2 * (k - 4) + 1) := by
        intro x y k hk; simp only [padd, Nat.reduceDiv, hk, if_false]
      rw [e5 _ _ (2 * j) (by omega), e5 _ _ (2 * j + 1) (by omega), show 2 * j - 4 = 2 * (j - 2) by omega, show 2 * j + 1 - 4 = 2 * (j - 2) + 1 by omega, e4]

/-! ## What is computed from the mask -/

/-- The number of zeros above the bit of character `k`. -/
def clzOf (a64 : Bool) (k : Nat) : Nat := if k < 32 then (if a64 then 63 - posOf k else 31 - k) else (if a64 then 64 else 32)

structure SelOk (a64 : Bool) (t : Nat → Bool) (s : Sel) : Prop where
  one : s.many = false → ∃ k, One t 32 k ∧ s.any = decide (k < 32) ∧ s.clz = clzOf a64 k
  size : s.size = if a64 then 64 else 32
  packed : ∀ q, q < 4 → ∀ i, i < 8 → (s.packed q).getLsbD i = t (8 * q + i)
  m1 : ∀ j, j < 8 → s.m1.getLsbD j = t j
  m2 : ∀ j, j < 8 → s.m2.getLsbD j = t (8 + j)
  m3 : ∀ j, j < 8 → s.m3.getLsbD j = t (16 + j)
  m4 : ∀ j, j < 8 → s.m4.getLsbD j = t (24 + j)

theorem posOf_lt {k : Nat} (h : k < 32) : posOf k < 64 := by unfold posOf; omega

theorem mask64_pos {t : Nat → Bool} {v : Vec} (h : MergeOk true t v) (i : Nat) (hi : i < 64) :
    (lane 64 v).getLsbD i = (decide (i % 8 / 4 = i / 8 % 2) && t (8 * (i / 16) + i % 8)) := by
  simp only [MergeOk, if_true] at h
  rw [getLsbD_lane, h (i / 8) (by omega) (i % 8) (by omega)]
  simp only [hi, decide_true, Bool.true_and, show i / 8 / 2 = i / 16 by omega]

theorem clz_single64 : ∀ p, p < 64 → clz (1#64 <<< p) = 63 - p ∧ (1#64 <<< p) ≠ 0#64 := by decide +kernel
theorem clz_single32 : ∀ p, p < 32 → clz (1#32 <<< p) = 31 - p ∧ (1#32 <<< p) ≠ 0#32 := by decide +kernel

theorem single_getLsbD (w p i : Nat) (hi : i < w) : (1#w <<< p).getLsbD i = decide (i = p) := by
  rw [BitVec.getLsbD_shiftLeft, BitVec.getLsbD_one]
  by_cases e : i = p
  · subst e; simp [hi]; omega
  · by_cases e2 : i < p
    · simp [e, e2]
    · have : ¬ i - p = 0 := by omega
      simp [e, this]

theorem add_nibbles : ∀ (x y : Byte), (∀ i : Fin 8, 4 ≤ i.val → x.getLsbD i = false) → (∀ i : Fin 8, i.val < 4 → y.getLsbD i = false) →
    x + y = x ||| y := by
  intro x y hx hy
  apply BitVec.add_eq_or_of_and_eq_zero
  apply BitVec.eq_of_getLsbD_eq
  intro i hi
  rw [BitVec.getLsbD_and]
  by_cases h : i < 4
  · rw [hy ⟨i, hi⟩ h]; simp
  · rw [hx ⟨i, hi⟩ (by simp; omega)]; simp

theorem sel64_ok (t : Nat → Bool) (v : Vec) (h : MergeOk true t v) : SelOk true t (sel64 (lane 64 v) v) := by
  have hm := mask64_pos h
  have h255 : ∀ j, j < 8 → (0xff#64).getLsbD j = true := by decide
  have hmb : ∀ q j, q < 4 → j < 8 → (((lane 64 v ||| (lane 64 v >>> 8)) >>> (16 * q)) &&& 0xff#64 : BitVec 64).getLsbD j = t (8 * q + j) := by
    intro q j hq hj
    rw [BitVec.getLsbD_and, h255 j hj, Bool.and_true, BitVec.getLsbD_ushiftRight, BitVec.getLsbD_or, BitVec.getLsbD_ushiftRight, hm _ (by omega), hm _ (by omega)]
    rw [show (16 * q + j) % 8 = j by omega, show (16 * q + j) / 8 % 2 = 0 by omega, show (16 * q + j) / 16 = q by omega,
      show (8 + (16 * q + j)) % 8 = j by omega, show (8 + (16 * q + j)) / 8 % 2 = 1 by omega, show (8 + (16 * q + j)) / 16 = q by omega]
    by_cases h4 : j < 4
    · simp [show j / 4 = 0 by omega]
    · simp [show j / 4 = 1 by omega]
  have hset : ∀ (x : BitVec 64) (j : Nat), j < 8 → (x.setWidth 8).getLsbD j = x.getLsbD j := by
    intro x j hj
    rw [BitVec.getLsbD_setWidth]; simp [hj]
  refine ⟨fun hmany => ?_, rfl, fun q hq i hi => ?_, fun j hj => ?_, fun j hj => ?_, fun j hj => ?_, fun j hj => ?_⟩
  · have h0 : lane 64 v &&& (lane 64 v - 1#64) = 0#64 := by simpa [sel64] using hmany
    obtain ⟨p, hp, hp'⟩ := one_of_and_w _ h0
    have hpos : ∀ k, k < 32 → (lane 64 v).getLsbD (posOf k) = t k := by
      intro k hk
      rw [hm _ (posOf_lt hk)]
      have e1 : posOf k % 8 = k % 8 := by unfold posOf; omega
      have e2 : posOf k / 8 % 2 = k % 8 / 4 := by unfold posOf; omega
      have e3 : posOf k / 16 = k / 8 := by unfold posOf; omega
      rw [e1, e2, e3, show 8 * (k / 8) + k % 8 = k by omega]; simp
    obtain ⟨k, hk⟩ := one_of_unique t 32 (by
      intro i j hij hj hi hj'
      rw [← hpos i (by omega), hp' _ (posOf_lt (by omega)), decide_eq_true_eq] at hi
      rw [← hpos j (by omega), hp' _ (posOf_lt (by omega)), decide_eq_true_eq] at hj'
      unfold posOf at hi hj'
      omega)
    have hmask : lane 64 v = if k < 32 then 1#64 <<< posOf k else 0#64 := by
      apply BitVec.eq_of_getLsbD_eq
      intro i hi
      rw [hm i hi, hk.2 _ (by omega)]
      by_cases hk32 : k < 32
      · rw [if_pos hk32, single_getLsbD 64 _ i hi, ← Bool.decide_and]
        apply decide_eq_decide.2
        unfold posOf
        omega
      · rw [if_neg hk32]; simp; omega
    refine ⟨k, hk, ?_, ?_⟩
    · show decide (lane 64 v ≠ 0#64) = _
      rw [hmask]
      split
      · next h => simp only [h, decide_true, decide_eq_true_eq]; exact (clz_single64 _ (posOf_lt h)).2
      · next h => simp [h]
    · show clz (lane 64 v) = _
      rw [hmask, clzOf]
      split
      · next h => rw [(clz_single64 _ (posOf_lt h)).1]; rfl
      · rfl
  · have h' := h
    simp only [MergeOk, if_true] at h'
    have e : (sel64 (lane 64 v) v).packed q = v (2 * q) + v (2 * q + 1) := by
      simp only [sel64, padd, Nat.reduceDiv, hq, if_true]
    have e2 := add_nibbles (v (2 * q)) (v (2 * q + 1))
      (by intro i hi; rw [h' _ (by omega) i i.isLt]; simp; omega)
      (by intro i hi; rw [h' _ (by omega) i i.isLt]; simp; omega)
    rw [e, e2, BitVec.getLsbD_or, h' _ (by omega) i hi, h' _ (by omega) i hi, show 2 * q % 2 = 0 by omega, show (2 * q + 1) % 2 = 1 by omega, show 2 * q / 2 = q by omega,
      show (2 * q + 1) / 2 = q by omega]
    by_cases h4 : i < 4
    · simp [show i / 4 = 0 by omega]
    · simp [show i / 4 = 1 by omega]
  · have := hmb 0 j (by omega) hj
    rw [show 8 * 0 + j = j by omega] at this
    rw [← this]
    simp only [sel64, hset _ j hj, Nat.mul_zero, BitVec.ushiftRight_zero]
  · rw [← hmb 1 j (by omega) hj]; exact hset _ j hj
  · rw [← hmb 2 j (by omega) hj]; exact hset _ j hj
  · rw [← hmb 3 j (by omega) hj]; exact hset _ j hj

theorem sel32_ok (t : Nat → Bool) (v : Vec) (h : MergeOk false t v) : SelOk false t (sel32 (lane 32 v) v) := by
  have h' := h
  simp only [MergeOk, Bool.false_eq_true, if_false] at h'
  have hm : ∀ i, i < 32 → (lane 32 v).getLsbD i = t i := by
    intro i hi
    rw [getLsbD_lane, h' (i / 8) (by omega) (i % 8) (by omega), show 8 * (i / 8) + i % 8 = i by omega]
    simp [hi]
  have h255 : ∀ j, j < 8 → (0xff#32).getLsbD j = true := by decide
  have hmb : ∀ q j, q < 4 → j < 8 → ((lane 32 v >>> (8 * q)) &&& 0xff#32 : BitVec 32).getLsbD j = t (8 * q + j) := by
    intro q j hq hj
    rw [BitVec.getLsbD_and, h255 j hj, Bool.and_true, BitVec.getLsbD_ushiftRight, hm _ (by omega)]
  have hset : ∀ (x : BitVec 32) (j : Nat), j < 8 → (x.setWidth 8).getLsbD j = x.getLsbD j := by
    intro x j hj
    rw [BitVec.getLsbD_setWidth]; simp [hj]
  refine ⟨fun hmany => ?_, rfl, fun q hq i hi => h' q hq i hi, fun j hj => ?_, fun j hj => ?_, fun j hj => ?_, fun j hj => ?_⟩
  · have h0 : lane 32 v &&& (lane 32 v - 1#32) = 0#32 := by simpa [sel32] using hmany
    obtain ⟨k, hk⟩ := one_of_and_w _ h0
    have hmask := hk.mask
    refine ⟨k, ⟨hk.1, fun j hj => by rw [← hm j hj]; exact hk.2 j hj⟩, ?_, ?_⟩
    · show decide (lane 32 v ≠ 0#32) = _
      rw [hmask]
      split
      · next h => simp only [h, decide_true, decide_eq_true_eq]; exact (clz_single32 _ h).2
      · next h => simp [h]
    · show clz (lane 32 v) = _
      rw [hmask, clzOf]
      split
      · next h => rw [(clz_single32 _ h).1]; rfl
      · rfl
  · have := hmb 0 j (by omega) hj
    rw [show 8 * 0 + j = j by omega] at this
    rw [← this]
    simp only [sel32, hset _ j hj, Nat.mul_zero, BitVec.ushiftRight_zero]
  · rw [← hmb 1 j (by omega) hj]; exact hset _ j hj
  · rw [← hmb 2 j (by omega) hj]; exact hset _ j hj
  · rw [← hmb 3 j (by omega) hj]; exact hset _ j hj

theorem sel_ok (a64 : Bool) (cA cB : Vec) (t : Nat → Bool) (hA : ∀ j, j < 16 → cA j = bm (t j)) (hB : ∀ j, j < 16 → cB j = bm (t (16 + j))) :
    SelOk a64 t (sel a64 cA cB) := by
  have h := merge_ok a64 cA cB t hA hB
  cases a64 with
  | true => exact sel64_ok t _ h
  | false => exact sel32_ok t _ h

theorem bic_zero : ∀ x : Byte, x &&& ~~~ 0#8 = x := by decide +kernel

theorem bic_one : ∀ (x : Byte) (i : Fin 8), (x &&& ~~~ 1#8).getLsbD i = (decide (i.val ≠ 0) && x.getLsbD i) := by decide +kernel

/-- Clearing the first bit. -/
theorem merge_bic {a64 : Bool} {t : Nat → Bool} {v : Vec} (h : MergeOk a64 t v) : MergeOk a64 (fun j => decide (j ≠ 0) && t j) (bic v (make [1#8])) := by
  have hb : ∀ j i, i < 8 → (bic v (make [1#8]) j).getLsbD i = (decide (8 * j + i ≠ 0) && (v j).getLsbD i) := by
    intro j i hi
    by_cases h0 : j = 0
    · subst h0
      have := bic_one (v 0) ⟨i, hi⟩
      simp only [Nat.mul_zero, Nat.zero_add]
      exact this
    · have e : make [1#8] j = 0#8 := by
        obtain ⟨k, rfl⟩ : ∃ k, j = k + 1 := ⟨j - 1, by omega⟩
        rfl
      have h1 : (8 * j + i ≠ 0) := by omega
      rw [bic, e, bic_zero]
      simp only [h1, decide_true, Bool.true_and, ne_eq, not_false_eq_true]
  unfold MergeOk at *
  cases a64 with
  | true =>
    simp only [if_true] at *
    intro j hj i hi
    rw [hb j i hi, h j hj i hi]
    by_cases h1 : i / 4 = j % 2
    · have : (8 * j + i ≠ 0) ↔ (8 * (j / 2) + i ≠ 0) := by omega
      simp only [h1, decide_true, Bool.true_and, this]
    · simp [h1]
  | false =>
    simp only [Bool.false_eq_true, if_false] at *
    intro j hj i hi
    rw [hb j i hi, h j hj i hi]

theorem selEol_ok (a64 : Bool) (cA cB : Vec) (t : Nat → Bool) (hA : ∀ j, j < 16 → cA j = bm (t j)) (hB : ∀ j, j < 16 → cB j = bm (t (16 + j))) :
    (selEol a64 cA cB).1 = t 0 ∧ SelOk a64 (fun j => decide (j ≠ 0) && t j) (selEol a64 cA cB).2 := by
  have h := merge_ok a64 cA cB t hA hB
  have h' := merge_bic h
  have hbit : ∀ w : Nat, 8 ≤ w → (lane w (merge a64 cA cB)).getLsbD 0 = t 0 := by
    intro w hw
    rw [getLsbD_lane]
    simp only [show 0 < w by omega, decide_true, Bool.true_and, Nat.zero_div, Nat.zero_mod]
    unfold MergeOk at h
    cases a64 with
    | true =>
      simp only [if_true] at h
      simpa using h 0 (by omega) 0 (by omega)
    | false =>
      simp only [Bool.false_eq_true, if_false] at h
      simpa using h 0 (by omega) 0 (by omega)
  have hand : ∀ (w : Nat) (x : BitVec w), 1 ≤ w → (x &&& 1#w ≠ 0#w ↔ x.getLsbD 0 = true) := by
    intro w x hw
    constructor
    · intro hne
      cases hx : x.getLsbD 0 with
      | true => rfl
      | false =>
        exfalso
        apply hne
        apply BitVec.eq_of_getLsbD_eq
        intro i hi
        rw [BitVec.getLsbD_and, BitVec.getLsbD_one]
        by_cases e : i = 0
        · subst e; simp [hx]
        · simp [e]
    · intro hx he
      have := congrArg (fun y => y.getLsbD 0) he
      simp only [BitVec.getLsbD_and, BitVec.getLsbD_one, hx] at this
      simp at this; omega
  have hxor : ∀ w : Nat, 8 ≤ w → t 0 = true → lane w (merge a64 cA cB) ^^^ 1#w = lane w (bic (merge a64 cA cB) (make [1#8])) := by
    intro w hw ht
    apply BitVec.eq_of_getLsbD_eq
    intro i hi
    rw [BitVec.getLsbD_xor, BitVec.getLsbD_one]
    by_cases e : i = 0
    · subst e
      rw [hbit w hw, ht, getLsbD_lane]
      have := bic_one (merge a64 cA cB 0) ⟨0, by omega⟩
      simp only [Nat.zero_div, Nat.zero_mod, bic]
      simp only at this
      have e2 : (make [1#8]) 0 = 1#8 := rfl
      rw [e2, this]
      simp; omega
    · rw [getLsbD_lane, getLsbD_lane]
      simp only [hi, decide_true, Bool.true_and, bic]
      by_cases h0 : i / 8 = 0
      · rw [h0]
        have := bic_one (merge a64 cA cB 0) ⟨i % 8, by omega⟩
        have e2 : (make [1#8]) 0 = 1#8 := rfl
        simp only at this
        rw [e2, this]
        simp [e, show ¬ i % 8 = 0 by omega]
      · have e2 : make [1#8] (i / 8) = 0#8 := by
          obtain ⟨k, hk⟩ : ∃ k, i / 8 = k + 1 := ⟨i / 8 - 1, by omega⟩
          rw [hk]; rfl
        rw [e2, bic_zero]
        simp [e]
  have hsame : t 0 = false → (fun j => decide (j ≠ 0) && t j) = t := by
    intro ht
    funext j
    by_cases e : j = 0
    · subst e; simp [ht]
    · simp [e]
  cases a64 with
  | true =>
    simp only [selEol, if_true, hand 64 _ (by omega), hbit 64 (by omega)]
    cases ht : t 0 with
    | true =>
      simp only [if_true, hxor 64 (by omega) ht, true_and]
      have := sel64_ok _ _ h'
      exact this
    | false =>
      simp only [Bool.false_eq_true, if_false, true_and]
      have hs := hsame ht
      rw [hs]
      exact sel64_ok t _ h
  | false =>
    simp only [selEol, Bool.false_eq_true, if_false, hand 32 _ (by omega), hbit 32 (by omega)]
    cases ht : t 0 with
    | true =>
      simp only [if_true, hxor 32 (by omega) ht, true_and]
      exact sel32_ok _ _ h'
    | false =>
      simp only [Bool.false_eq_true, if_false, true_and]
      have hs := hsame ht
      rw [hs]
      exact sel32_ok t _ h

end Yenc.Enc.Simd.Neon
