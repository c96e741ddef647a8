import Verif.Model.Vec
/-! Lemmas about vector lanes and bit masks. -/
namespace Yenc

theorem shl1_add_eq {w : Nat} (x : BitVec w) (e : Bool) :
    (x <<< 1) + BitVec.ofNat w e.toNat = (x <<< 1) ||| BitVec.ofNat w e.toNat := by
  apply BitVec.add_eq_or_of_and_eq_zero
  apply BitVec.eq_of_getLsbD_eq
  intro i hi
  cases e <;> cases i <;> simp [BitVec.getLsbD_ofNat, Nat.testBit_succ]

theorem shl1_add_getLsbD {w : Nat} (x : BitVec w) (e : Bool) (j : Nat) (hj : j < w) :
    ((x <<< 1) + BitVec.ofNat w e.toNat).getLsbD j = if j = 0 then e else x.getLsbD (j - 1) := by
  rw [shl1_add_eq]
  cases j with
  | zero => cases e <;> simp [BitVec.getLsbD_ofNat, hj]
  | succ j => cases e <;> simp [BitVec.getLsbD_ofNat, hj, Nat.testBit_succ, BitVec.getLsbD_eq_getElem (show j < w by omega)]

theorem eq_zero_iff {w : Nat} (x : BitVec w) : x = 0#w ↔ ∀ j, j < w → x.getLsbD j = false := by
  constructor
  · rintro rfl j _; simp
  · intro h
    apply BitVec.eq_of_getLsbD_eq
    intro j hj
    rw [h j hj]; simp

theorem ne_zero_iff {w : Nat} (x : BitVec w) : x ≠ 0#w ↔ ∃ j, j < w ∧ x.getLsbD j = true := by
  rw [Ne, eq_zero_iff]
  constructor
  · intro h
    apply Classical.byContradiction
    intro hn
    apply h
    intro j hj
    cases hx : x.getLsbD j with
    | false => rfl
    | true => exact absurd ⟨j, hj, hx⟩ hn
  · rintro ⟨j, hj, h⟩ hn
    rw [hn j hj] at h
    simp at h

namespace Vec

theorem getLsbD_ofBits (w : Nat) (f : Nat → Bool) (n j : Nat) : (ofBits w f n).getLsbD j = (decide (j < w) && (decide (j < n) && f j)) := by
  induction n with
  | zero => simp [ofBits]
  | succ n ih =>
    rw [ofBits, BitVec.getLsbD_or, ih]
    by_cases hw : j < w
    · by_cases h : j = n
      · subst h
        cases hf : f j
        · simp
        · simp [hw]
      · have h2 : (if f n = true then 1#w <<< n else 0#w).getLsbD j = false := by
          split
          · rw [BitVec.getLsbD_shiftLeft]
            by_cases h3 : j < n
            · simp [h3]
            · simp only [h3, decide_false, Bool.not_false, Bool.and_true, hw, decide_true, Bool.true_and]
              rw [BitVec.getLsbD_one]
              simp; omega
          · simp
        rw [h2, Bool.or_false]
        have : decide (j < n + 1) = decide (j < n) := by simp; omega
        rw [this]
    · rw [BitVec.getLsbD_of_ge _ _ (by omega)]
      simp [hw]

theorem getLsbD_movemask (w n : Nat) (v : Vec) (j : Nat) :
    (movemask w n v).getLsbD j = (decide (j < w) && (decide (j < n) && (v j).msb)) := getLsbD_ofBits ..

@[simp] theorem msb_bm (p : Bool) : (bm p).msb = p := by cases p <;> decide
@[simp] theorem bm_and (p q : Bool) : bm p &&& bm q = bm (p && q) := by cases p <;> cases q <;> decide
@[simp] theorem bm_or (p q : Bool) : bm p ||| bm q = bm (p || q) := by cases p <;> cases q <;> decide
@[simp] theorem bm_not (p : Bool) : ~~~ bm p = bm (!p) := by cases p <;> decide
@[simp] theorem bm_false : bm false = 0#8 := rfl
@[simp] theorem msb_255 : (255#8).msb = true := by decide
theorem bm_true : bm true = 255#8 := rfl
theorem bm_and_byte (p : Bool) (x : Byte) : bm p &&& x = if p then x else 0#8 := by
  cases p
  · simp
  · simp only [bm_true, if_true]
    exact BitVec.allOnes_and

theorem getLsbD_cmpeqMask (n : Nat) (a b : Vec) (j : Nat) (hj : j < n) : (cmpeqMask n a b).getLsbD j = decide (a j = b j) := by
  rw [cmpeqMask, getLsbD_movemask]
  simp only [hj, decide_true, Bool.true_and, cmpeq, msb_bm]

theorem get16 (x y : Byte) (i : Nat) : (x ++ y : BitVec 16).getLsbD i = if i < 8 then y.getLsbD i else x.getLsbD (i - 8) :=
  BitVec.getLsbD_append

theorem get32 (x y : BitVec 16) (i : Nat) : (x ++ y : BitVec 32).getLsbD i = if i < 16 then y.getLsbD i else x.getLsbD (i - 16) :=
  BitVec.getLsbD_append

theorem of16_apply (f : Nat → BitVec 16) (j : Nat) :
    of16 f j = if j % 2 = 0 then (f (j / 2)).extractLsb' 0 8 else (f (j / 2)).extractLsb' 8 8 := rfl

theorem lo_append (x y : Byte) : (x ++ y : BitVec 16).extractLsb' 0 8 = y := by
  apply BitVec.eq_of_getLsbD_eq
  intro i hi
  rw [BitVec.getLsbD_extractLsb', get16]
  simp only [hi, decide_true, Bool.true_and, Nat.zero_add, if_true]

theorem hi_append (x y : Byte) : (x ++ y : BitVec 16).extractLsb' 8 8 = x := by
  apply BitVec.eq_of_getLsbD_eq
  intro i hi
  rw [BitVec.getLsbD_extractLsb', get16]
  simp only [hi, decide_true, Bool.true_and]
  rw [if_neg (by omega), Nat.add_sub_cancel_left]

theorem of16_w16 (a : Vec) : of16 (w16 a) = a := by
  funext j
  rw [of16_apply]
  unfold w16
  split
  · rw [lo_append]; congr 1; omega
  · rw [hi_append]; congr 1; omega

theorem w16_inj (x y z w : Byte) : (x ++ y : BitVec 16) = z ++ w ↔ x = z ∧ y = w := by
  constructor
  · intro h
    have h1 := hi_append x y
    have h2 := lo_append x y
    rw [h, hi_append] at h1
    rw [h, lo_append] at h2
    exact ⟨h1.symm, h2.symm⟩
  · rintro ⟨rfl, rfl⟩; rfl

theorem slliw8 (a : Vec) (j : Nat) : slliw a 8 j = if j % 2 = 0 then 0#8 else a (j - 1) := by
  rw [slliw, of16_apply]
  unfold w16
  split
  · apply BitVec.eq_of_getLsbD_eq
    intro i hi
    simp [hi]
  · rw [show 2 * (j / 2) = j - 1 by omega]
    apply BitVec.eq_of_getLsbD_eq
    intro i hi
    rw [BitVec.getLsbD_extractLsb', BitVec.getLsbD_shiftLeft, get16]
    simp only [hi, decide_true, Bool.true_and, show 8 + i < 16 by omega, show ¬ 8 + i < 8 by omega, decide_false, Bool.not_false,
      Nat.add_sub_cancel_left, if_true]

theorem srliw8 (a : Vec) (j : Nat) : srliw a 8 j = if j % 2 = 0 then a (j + 1) else 0#8 := by
  rw [srliw, of16_apply]
  unfold w16
  split
  · rw [show 2 * (j / 2) = j by omega]
    apply BitVec.eq_of_getLsbD_eq
    intro i hi
    rw [BitVec.getLsbD_extractLsb', BitVec.getLsbD_ushiftRight, get16]
    simp only [hi, decide_true, Bool.true_and, Nat.zero_add, show ¬ 8 + i < 8 by omega, Nat.add_sub_cancel_left, if_false]
  · apply BitVec.eq_of_getLsbD_eq
    intro i hi
    rw [BitVec.getLsbD_extractLsb', BitVec.getLsbD_ushiftRight, BitVec.getLsbD_of_ge _ _ (by omega)]
    simp

theorem set1w_apply (c : BitVec 16) (j : Nat) : set1w c j = if j % 2 = 0 then c.extractLsb' 0 8 else c.extractLsb' 8 8 := rfl

theorem cmpeqw_apply (a b : Vec) (j : Nat) :
    cmpeqw a b j = bm (decide (a (2 * (j / 2)) = b (2 * (j / 2)) ∧ a (2 * (j / 2) + 1) = b (2 * (j / 2) + 1))) := by
  rw [cmpeqw, of16_apply]
  simp only [w16, w16_inj]
  by_cases h : a (2 * (j / 2) + 1) = b (2 * (j / 2) + 1) ∧ a (2 * (j / 2)) = b (2 * (j / 2))
  · rw [if_pos h, decide_eq_true h.symm]
    split <;> rfl
  · rw [if_neg h, decide_eq_false (fun h' => h h'.symm)]
    split <;> rfl

theorem shrdiw8 (a b : Vec) (j : Nat) : shrdiw a b 8 j = if j % 2 = 0 then a (j + 1) else b (j - 1) := by
  rw [shrdiw, of16_apply]
  unfold w16
  split
  · rw [show 2 * (j / 2) = j by omega]
    apply BitVec.eq_of_getLsbD_eq
    intro i hi
    rw [BitVec.getLsbD_extractLsb', BitVec.getLsbD_extractLsb', BitVec.getLsbD_ushiftRight, get32, if_pos (by omega), get16, if_neg (by omega)]
    simp only [hi, decide_true, Bool.true_and, Nat.zero_add, show i < 16 by omega, Nat.add_sub_cancel_left]
  · rw [show 2 * (j / 2) = j - 1 by omega]
    apply BitVec.eq_of_getLsbD_eq
    intro i hi
    rw [BitVec.getLsbD_extractLsb', BitVec.getLsbD_extractLsb', BitVec.getLsbD_ushiftRight, get32, if_neg (by omega), get16, if_pos (by omega)]
    simp only [hi, decide_true, Bool.true_and, Nat.zero_add, show 8 + i < 16 by omega]
    congr 1; omega

theorem insert16_apply (a : Vec) (x : BitVec 16) (j : Nat) :
    insert16 a x j = if j = 0 then x.extractLsb' 0 8 else if j = 1 then x.extractLsb' 8 8 else a j := by
  rw [insert16, of16_apply]
  by_cases h0 : j = 0
  · subst h0; rfl
  by_cases h1 : j = 1
  · subst h1; rfl
  rw [if_neg (show ¬ j / 2 = 0 by omega), if_neg h0, if_neg h1]
  exact congrFun (of16_w16 a) j

theorem toList_length (v : Vec) (n : Nat) : (toList v n).length = n := by simp [toList]

theorem toList_append (v : Vec) (a b : Nat) : toList v (a + b) = toList v a ++ toList (fun j => v (a + j)) b := by
  simp only [toList, List.range_add, List.map_append, List.map_map]
  rfl

theorem toList_congr {v w : Vec} {n : Nat} (h : ∀ j, j < n → v j = w j) : toList v n = toList w n := by
  apply List.map_congr_left
  intro j hj
  exact h j (List.mem_range.1 hj)

theorem ternary_f8 (p q r : Bool) (a b c : Vec) (j : Nat) (ha : a j = bm p) (hb : b j = bm q) (hc : c j = bm r) :
    ternary a b c 0xF8#8 j = bm (p || (q && r)) := by
  simp only [ternary, ha, hb, hc]
  cases p <;> cases q <;> cases r <;> decide

theorem ternary_ac (p : Bool) (a b c : Vec) (j : Nat) (ha : a j = bm p) :
    ternary a b c 0xac#8 j = if p then c j else b j := by
  simp only [ternary, ha]
  apply BitVec.eq_of_getLsbD_eq
  intro i hi
  rw [getLsbD_ofBits]
  simp only [hi, decide_true, Bool.true_and]
  cases p
  · simp only [bm_false, BitVec.getLsbD_zero, Bool.toNat_false, Bool.false_eq_true, if_false]
    cases (b j).getLsbD i <;> cases (c j).getLsbD i <;> decide
  · have : (255#8).getLsbD i = true := by
      have : i = 0 ∨ i = 1 ∨ i = 2 ∨ i = 3 ∨ i = 4 ∨ i = 5 ∨ i = 6 ∨ i = 7 := by omega
      rcases this with h | h | h | h | h | h | h | h <;> subst h <;> rfl
    simp only [bm_true, this, if_true]
    cases (b j).getLsbD i <;> cases (c j).getLsbD i <;> decide

end Vec
end Yenc
