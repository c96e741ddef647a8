import Verif.Lemmas.EncX86Base
/-! Lemmas on masks with at most one bit set, on the search for special characters and on blocks with at most one of them. -/
namespace Yenc.Enc.Simd
open Yenc Vec
open Yenc.Dec.Simd (cnt cnt_add cnt_le cnt_congr)

/-! ## At most one bit -/

/-- `f` holds at most at one number below `n`, which is `k` (`k = n` if there is none). -/
def One (f : Nat → Bool) (n k : Nat) : Prop := k ≤ n ∧ ∀ j, j < n → f j = decide (j = k)

theorem one_of_unique (f : Nat → Bool) (n : Nat) (h : ∀ i j, i < j → j < n → f i = true → f j = true → False) : ∃ k, One f n k := by
  by_cases hk : ∃ k, k < n ∧ f k = true
  · obtain ⟨k, hkn, hf⟩ := hk
    refine ⟨k, by omega, fun j hj => ?_⟩
    by_cases e : j = k
    · subst e; simp [hf]
    · simp only [e, decide_false]
      cases hfj : f j with
      | false => rfl
      | true =>
        rcases Nat.lt_or_gt_of_ne e with h1 | h1
        · exact (h j k h1 hkn hfj hf).elim
        · exact (h k j h1 hj hf hfj).elim
  · refine ⟨n, by omega, fun j hj => ?_⟩
    have : ¬ j = n := by omega
    simp only [this, decide_false]
    cases hfj : f j with
    | false => rfl
    | true => exact (hk ⟨j, hj, hfj⟩).elim

theorem cnt_pos {f : Nat → Bool} {n k : Nat} (hk : k < n) (hf : f k = true) : 1 ≤ cnt f n := by
  obtain ⟨m, rfl⟩ : ∃ m, n = k + 1 + m := ⟨n - k - 1, by omega⟩
  rw [cnt_add, cnt_succ, hf]
  simp only [Bool.toNat_true]; omega

theorem one_of_cnt (f : Nat → Bool) (n : Nat) (h : cnt f n ≤ 1) : ∃ k, One f n k := by
  apply one_of_unique
  intro i j hij hj hi hfj
  obtain ⟨m, rfl⟩ : ∃ m, n = j + m := ⟨n - j, by omega⟩
  rw [cnt_add] at h
  have h1 : 1 ≤ cnt f j := cnt_pos hij hi
  have h2 : 1 ≤ cnt (fun i => f (j + i)) m := cnt_pos (k := 0) (by omega) hfj
  omega

theorem one_of_and (x : BitVec 32) (h : x &&& (x - 1#32) = 0#32) : ∃ k, One x.getLsbD 32 k := by
  apply one_of_unique
  intro i j hij hj hi hfj
  have h0 : (x &&& (x - 1#32)).getLsbD j = false := by rw [h]; simp
  rw [BitVec.getLsbD_and, hfj, Bool.true_and] at h0
  have hx : x.toNat ≠ 0 := by
    intro h0
    have : x = 0#32 := BitVec.eq_of_toNat_eq (by simpa using h0)
    rw [this] at hi; simp at hi
  have e : (x - 1#32).toNat = x.toNat - 1 := by
    have := x.isLt
    rw [BitVec.toNat_sub]
    simp; omega
  rw [BitVec.getLsbD, e] at h0
  rw [BitVec.getLsbD] at hi hfj
  have hm : x.toNat % 2 ^ j ≠ 0 := by
    intro hm
    have : (x.toNat % 2 ^ j).testBit i = true := by rw [Nat.testBit_mod_two_pow]; simp [hij, hi]
    rw [hm] at this; simp at this
  have hd : (x.toNat - 1) / 2 ^ j = x.toNat / 2 ^ j := by
    have h1 := Nat.div_add_mod x.toNat (2 ^ j)
    have h2 := Nat.mod_lt x.toNat (Nat.two_pow_pos j)
    have : x.toNat - 1 = (x.toNat % 2 ^ j - 1) + 2 ^ j * (x.toNat / 2 ^ j) := by omega
    rw [this, Nat.add_mul_div_left _ _ (Nat.two_pow_pos j), Nat.div_eq_of_lt (by omega), Nat.zero_add]
  rw [Nat.testBit_eq_decide_div_mod_eq, hd, ← Nat.testBit_eq_decide_div_mod_eq, hfj] at h0
  exact Bool.noConfusion h0

theorem One.cnt {f : Nat → Bool} {n k : Nat} (h : One f n k) : cnt f n = if k < n then 1 else 0 := by
  have hz : ∀ (g : Nat → Bool) (m : Nat), (∀ j, j < m → g j = false) → Dec.Simd.cnt g m = 0 := by
    intro g m hg
    rw [cnt_congr (g := fun _ => false) hg, Dec.Simd.cnt_false]
  by_cases hk : k < n
  · rw [if_pos hk]
    obtain ⟨m, rfl⟩ : ∃ m, n = k + 1 + m := ⟨n - k - 1, by omega⟩
    rw [cnt_add, cnt_succ, hz f k, hz _ m, h.2 k (by omega)]
    · simp
    · intro j hj; rw [h.2 _ (by omega)]; simp; omega
    · intro j hj; rw [h.2 _ (by omega)]; simp; omega
  · rw [if_neg hk]
    exact hz _ _ fun j hj => by rw [h.2 _ hj]; simp; omega

/-- A 32-bit mask with one bit. -/
theorem One.mask {x : BitVec 32} {k : Nat} (h : One x.getLsbD 32 k) : x = if k < 32 then 1#32 <<< k else 0#32 := by
  apply BitVec.eq_of_getLsbD_eq
  intro i hi
  rw [h.2 i hi]
  split
  · rw [BitVec.getLsbD_shiftLeft, BitVec.getLsbD_one]
    by_cases e : i = k
    · subst e; simp [hi]
    · by_cases e2 : i < k
      · simp [e, e2]
      · have : ¬ i - k = 0 := by omega
        simp [e, this]
  · simp; omega

theorem single_facts : ∀ k, k < 32 → lzcnt32 (1#32 <<< k) = 31 - k ∧ bsr32 (1#32 <<< k) = k ∧
    (1#32 <<< k) ≠ 0#32 ∧ (64#32 &&& ((1#32 <<< k) >>> 25)).setWidth 8 = (if k = 31 then 64#8 else 0#8) := by decide +kernel

theorem single_neg : ∀ k, k < 32 → ∀ j, j < 32 → (-(1#32 <<< k)).getLsbD j = decide (k ≤ j) := by decide +kernel

theorem One.lzcnt {x : BitVec 32} {k : Nat} (h : One x.getLsbD 32 k) : lzcnt32 x = if k < 32 then 31 - k else 32 := by
  rw [h.mask]
  split
  · next hk => exact (single_facts k hk).1
  · rfl

theorem One.bsr {x : BitVec 32} {k : Nat} (h : One x.getLsbD 32 k) (hk : k < 32) : bsr32 x = k := by
  rw [h.mask, if_pos hk]; exact (single_facts k hk).2.1

theorem One.ne {x : BitVec 32} {k : Nat} (h : One x.getLsbD 32 k) : x = 0#32 ↔ k = 32 := by
  rw [h.mask]
  have := h.1
  split
  · next hk => exact ⟨fun e => absurd e (single_facts k hk).2.2.1, fun e => by omega⟩
  · exact ⟨fun _ => by omega, fun _ => rfl⟩

theorem One.add64 {x : BitVec 32} {k : Nat} (h : One x.getLsbD 32 k) : (64#32 &&& (x >>> 25)).setWidth 8 = if k = 31 then 64#8 else 0#8 := by
  rw [h.mask]
  split
  · next hk => exact (single_facts k hk).2.2.2
  · next hk => rw [if_neg (by omega)]; rfl

theorem One.neg {x : BitVec 32} {k : Nat} (h : One x.getLsbD 32 k) (j : Nat) (hj : j < 32) : (-x).getLsbD j = decide (k ≤ j) := by
  rw [h.mask]
  have := h.1
  split
  · next hk => exact single_neg k hk j hj
  · next hk =>
    have e : ¬ k ≤ j := by omega
    simp [e]

theorem popcnt_congr {w : Nat} {x : BitVec w} {f : Nat → Bool} (n : Nat) (hn : n ≤ w) (h : ∀ j, x.getLsbD j = (decide (j < n) && f j)) : popcnt x = cnt f n := by
  rw [Dec.Simd.popcnt_low x n hn (fun i hi => by rw [h]; simp; omega)]
  exact cnt_congr fun j hj => by rw [h]; simp [hj]

/-! ## The search -/

theorem searchTable_mod (a r : Nat) : X86.searchTable (a * 16 + r) = X86.searchTable r := by
  unfold X86.searchTable
  have : (a * 16 + r) % 16 = r % 16 := by omega
  rw [this]

theorem search_mid : ∀ x : Byte, decide ((if (if x.msb then -x else x).msb then 0#8 else X86.searchTable ((if x.msb then -x else x).toNat % 16)) = x) =
    Spec.critical (x + 42#8) := by decide +kernel

theorem adds_zero : ∀ x : Byte, (let s := x.toInt + (0#8).toInt; if s > 127 then 127#8 else if s < -128 then 128#8 else BitVec.ofInt 8 s) = x := by decide +kernel

theorem search_first : ∀ x : Byte, (let a := (if x.msb then -x else x)
    let s := a.toInt + (88#8).toInt
    let i := if s > 127 then 127#8 else if s < -128 then 128#8 else BitVec.ofInt 8 s
    decide ((if i.msb then 0#8 else X86.searchTable (i.toNat % 16)) = x)) = escFirst x := by decide +kernel

theorem searchShuf_apply (start : Bool) (v : Vec) (j : Nat) :
    X86.searchShuf start v j = bm (if start && j == 0 then escFirst (v j) else Spec.critical (v j + 42#8)) := by
  simp only [X86.searchShuf, cmpeq, pshufb, searchTable_mod]
  cases start with
  | false => simp only [Bool.false_eq_true, if_false, Bool.false_and, abs]; rw [search_mid]
  | true =>
    by_cases hj : j = 0
    · subst hj
      simp only [if_true, Bool.true_and, beq_self_eq_true, adds, abs, cvt]
      exact congrArg bm (search_first (v 0))
    · have : (j == 0) = false := by simpa using hj
      simp only [if_true, Bool.true_and, this, Bool.false_eq_true, if_false, adds, cvt, hj]
      have := adds_zero (abs v j)
      simp only at this
      rw [this]
      exact congrArg bm (search_mid (v j))

theorem search_cmp : ∀ x : Byte, (decide (x = -42#8) || decide (x = 10#8 - 42#8) || (decide (x = 61#8 - 42#8) || decide (x = 13#8 - 42#8))) = Spec.critical (x + 42#8) := by
  decide +kernel

theorem searchCmp_apply (v : Vec) (j : Nat) : X86.searchCmp v j = bm (Spec.critical (v j + 42#8)) := by
  simp only [X86.searchCmp, Vec.or, cmpeq, set1, bm_or]
  exact congrArg bm (search_cmp (v j))

theorem eolFirst_bit : ∀ x : Byte, (Spec.critical (x + 42#8) || (X86.eolFirstMask x).getLsbD 0) = escFirst x := by decide +kernel

theorem eolFirst_high (x : Byte) (i : Nat) (hi : i ≠ 0) : (X86.eolFirstMask x).getLsbD i = false := by
  unfold X86.eolFirstMask
  split
  · rw [BitVec.getLsbD_one]; simp [hi]
  · simp

/-! ## Blocks with at most one special character -/

/-- What is written for a block whose only special character is number `k`. -/
def oneOut (b : Nat → Byte) (k : Nat) (x : Nat) : Byte :=
  if x < k then b x + 42#8 else if x = k then EQ else b (x - 1) + (if x = k + 1 then 106#8 else 42#8)

theorem expand_none (s : Nat → Bool) (b : Nat → Byte) (n : Nat) (h : ∀ j, j < n → s j = false) : expand s b n = toList (fun j => b j + 42#8) n := by
  rw [expand_congr (s' := fun _ => false) (b' := b) h (fun _ _ => rfl)]
  unfold expand
  induction n with
  | zero => rfl
  | succ n ih =>
    rw [List.range_succ, List.flatMap_append, ih (fun j hj => h j (by omega))]
    simp [toList, List.range_succ, ech]

theorem toList_congr {u v : Vec} {n : Nat} (h : ∀ j, j < n → u j = v j) : toList u n = toList v n := by
  simp only [toList]
  apply List.map_congr_left
  intro j hj
  exact h j (by simpa using hj)

theorem One.expand {s : Nat → Bool} {n k : Nat} (h : One s n k) (b : Nat → Byte) :
    Simd.expand s b n = toList (oneOut b k) (n + if k < n then 1 else 0) := by
  by_cases hk : k < n
  · rw [if_pos hk]
    obtain ⟨m, rfl⟩ : ∃ m, n = k + (1 + m) := ⟨n - k - 1, by omega⟩
    rw [expand_add, expand_add, expand_none s b k, expand_none _ _ m]
    · have e : k + (1 + m) + 1 = k + (2 + m) := by omega
      rw [e, toList_add _ k, toList_add _ 2]
      congr 1
      · apply toList_congr
        intro j hj
        simp [oneOut, hj]
      · congr 1
        · rw [expand_one]
          simp only [ech, Nat.add_zero]
          rw [h.2 k (by omega)]
          simp [toList, List.range_succ, oneOut]
          omega
        · apply toList_congr
          intro j hj
          simp only [oneOut]
          rw [if_neg (by omega), if_neg (by omega), if_neg (by omega)]
          congr 2; omega
    · intro j hj; rw [h.2 _ (by omega)]; simp
    · intro j hj; rw [h.2 _ (by omega)]; simp; omega
  · rw [if_neg hk, expand_none]
    · apply toList_congr
      intro j hj
      simp only [oneOut]
      rw [if_pos (by omega)]
    · intro j hj; rw [h.2 _ hj]; simp; omega

theorem eqBits_none (s : Nat → Bool) (n : Nat) (h : ∀ j, j < n → s j = false) : eqBits s n = List.replicate n false := by
  rw [eqBits_congr (s' := fun _ => false) h]
  unfold eqBits
  induction n with
  | zero => rfl
  | succ n ih =>
    rw [List.range_succ, List.flatMap_append, ih (fun j hj => h j (by omega)), List.replicate_succ']
    simp

theorem One.eqBits {s : Nat → Bool} {n k : Nat} (h : One s n k) (hk : k < n) :
    Simd.eqBits s n = List.replicate k false ++ true :: List.replicate (n - k) false := by
  obtain ⟨m, rfl⟩ : ∃ m, n = k + (1 + m) := ⟨n - k - 1, by omega⟩
  rw [eqBits_add, eqBits_add, eqBits_none s k, eqBits_none _ m, eqBits_one]
  · have hs : s (k + 0) = true := by rw [Nat.add_zero, h.2 k (by omega)]; simp
    simp only [hs, if_true]
    have : k + (1 + m) - k = 1 + m := by omega
    rw [this, Nat.add_comm 1 m, List.replicate_succ]
    simp
  · intro j hj; rw [h.2 _ (by omega)]; simp
  · intro j hj; rw [h.2 _ (by omega)]; simp; omega

/-- The bit at a position and the number of bits from there on. -/
theorem One.at {s : Nat → Bool} {n k : Nat} (h : One s n k) (t : Nat) :
    (Simd.eqBits s n).getD t false = decide (t = k ∧ k < n) ∧ ((Simd.eqBits s n).drop t).count true = if t ≤ k ∧ k < n then 1 else 0 := by
  by_cases hk : k < n
  · rw [h.eqBits hk]
    simp only [hk, and_true]
    rcases Nat.lt_trichotomy t k with h1 | h1 | h1
    · rw [getD_append_left _ _ _ _ (by simpa using h1), if_pos (by omega), List.drop_append_of_le_length (by simp; omega)]
      constructor
      · simp [List.getD_eq_getElem?_getD, h1]; omega
      · simp [List.count_replicate]
    · subst h1
      rw [getD_append_right _ _ _ _ (by simp), if_pos (by omega), List.drop_append_of_le_length (by simp)]
      constructor
      · simp
      · simp [List.count_replicate]
    · rw [getD_append_right _ _ _ _ (by simp; omega), if_neg (by omega), List.drop_append, List.drop_eq_nil_of_le (by simp; omega)]
      simp only [List.length_replicate]
      obtain ⟨u, hu⟩ : ∃ u, t - k = u + 1 := ⟨t - k - 1, by omega⟩
      rw [hu]
      constructor
      · rw [List.getD_cons_succ]
        have : ¬ t = k := by omega
        simp only [this, decide_false]
        rw [List.getD_eq_getElem?_getD, List.getElem?_replicate]
        split <;> rfl
      · simp [List.count_replicate]
  · rw [eqBits_none s n (fun j hj => by rw [h.2 _ hj]; simp; omega)]
    simp only [hk, and_false, if_false, decide_false]
    constructor
    · rw [List.getD_eq_getElem?_getD, List.getElem?_replicate]
      split <;> rfl
    · simp [List.count_replicate]

end Yenc.Enc.Simd
