import Verif.Lemmas.EncX86Sse
/-! The rounds of `do_encode_avx2` are right in all variants. -/
namespace Yenc.Enc.Simd
open Yenc Vec
open Yenc.Dec.Simd (cnt cnt_add cnt_le cnt_congr)

/-! ## Pieces of sixteen characters -/

theorem range_getD {α : Type} (L : List α) (q : α) : (List.range L.length).map (fun x => L.getD x q) = L := by
  apply List.ext_getElem
  · simp
  · intro i h1 h2
    simp [List.getD_eq_getElem?_getD, h2]

theorem entries_map (m : BitVec 16) (s : Nat → Bool) (h : ∀ j, j < 16 → m.getLsbD j = s j) : (X86.shufExpandEntries m).map BitVec.msb = eqBits s 16 := by
  have hj : ∀ j, j < 16 → (BitVec.ofNat 8 j).msb = false := by decide
  rw [X86.shufExpandEntries, List.map_flatMap, eqBits, List.flatMap, List.flatMap]
  congr 1
  apply List.map_congr_left
  intro j hm
  have hm : j < 16 := by simpa using hm
  rw [h j hm]
  cases s j
  · simp only [Bool.false_eq_true, if_false, List.map_cons, List.map_nil, hj j hm]
  · simp only [if_true, List.map_cons, List.map_nil, hj j hm]; rfl

theorem entries_length (m : BitVec 16) (s : Nat → Bool) (h : ∀ j, j < 16 → m.getLsbD j = s j) : (X86.shufExpandEntries m).length = 16 + cnt s 16 := by
  rw [← List.length_map (f := BitVec.msb), entries_map m s h, eqBits_length]

theorem shufExpand_bits (m : BitVec 16) (s : Nat → Bool) (h : ∀ j, j < 16 → m.getLsbD j = s j) : Bits (movemask 32 32 (X86.shufExpand m)) (eqBits s 16) := by
  intro i
  have hl := entries_length m s h
  have hc := cnt_le s 16
  rw [getLsbD_movemask, ← entries_map m s h]
  have e : (X86.shufExpand m i).msb = ((X86.shufExpandEntries m).map BitVec.msb).getD i false := by
    simp only [X86.shufExpand, List.getD_eq_getElem?_getD, List.getElem?_map]
    cases (X86.shufExpandEntries m)[i]? <;> rfl
  by_cases hi : i < 32
  · simp [hi, e]
  · simp only [hi, decide_false, Bool.false_and]
    rw [List.getD_eq_getElem?_getD, List.getElem?_eq_none (by simp; omega)]; rfl

theorem piece2_ok (c : X86.Cfg2) (m : BitVec 16) (s : Nat → Bool) (b : Nat → Byte) (data : Vec) (second : Bool) (hm : ∀ j, j < 16 → m.getLsbD j = s j)
    (hd : ∀ j, j < 16 → data (if second then 16 + j else j) = b j + if s j then 106#8 else 42#8) : Piece (X86.piece2 c second m data) s b 16 := by
  have hc := cnt_le s 16
  unfold X86.piece2
  cases c.vbmi2
  · simp only [Bool.false_eq_true, if_false]
    obtain ⟨w, hw⟩ : ∃ w, w = (if second then dupHigh data else inserti128 data data) := ⟨_, rfl⟩
    rw [← hw]
    have hdup : ∀ x, x < 32 → ∀ j, j < 16 → w (x / 16 * 16 + j) = b j + if s j then 106#8 else 42#8 := by
      intro x hx j hj
      rw [← hd j hj, hw]
      have : x / 16 = 0 ∨ x / 16 = 1 := by omega
      cases second
      · simp only [Bool.false_eq_true, if_false, inserti128]
        rcases this with h | h
        · rw [h, if_pos (by omega)]; congr 1; omega
        · rw [h, if_neg (by omega)]; congr 1; omega
      · simp only [if_true, dupHigh]
        rcases this with h | h
        · rw [h, if_pos (by omega)]; congr 1; omega
        · rw [h, if_neg (by omega)]
    have hl := entries_length m s hm
    have hr := range_getD (X86.shufExpandEntries m) 0x40#8
    rw [hl] at hr
    have hj : ∀ j, j < 16 → (BitVec.ofNat 8 j).msb = false ∧ (BitVec.ofNat 8 j).toNat % 16 = j := by decide
    rw [Piece, toList_eq_map _ _ (X86.shufExpand m) (fun y => if y.msb then EQ else w (y.toNat % 16)) _ hr]
    · apply map_flatMap_pieces
      intro j h16
      obtain ⟨h1, h2⟩ := hj j h16
      have h3 := hdup 0 (by omega) j h16
      simp only [Nat.zero_div, Nat.zero_mul, Nat.zero_add] at h3
      simp only [ech, hm j h16]
      cases hs : s j
      · simp only [hs, Bool.false_eq_true, if_false, List.map_cons, List.map_nil, h1, h2] at h3 ⊢
        rw [h3]
      · simp only [hs, if_true, List.map_cons, List.map_nil, h1, h2, Bool.false_eq_true, if_false] at h3 ⊢
        rw [h3]
        rfl
    · intro x hx
      simp only [blendv, pshufb, set1]
      split
      · rfl
      · have h16 : (X86.shufExpand m x).toNat % 16 < 16 := Nat.mod_lt _ (by omega)
        rw [hdup x (by omega) _ h16]
        have h3 := hdup 0 (by omega) _ h16
        simp only [Nat.zero_div, Nat.zero_mul, Nat.zero_add] at h3
        rw [h3]
  · simp only [if_true]
    apply piece_expand _ s b _ 16 (expand16_bits m s hm)
    intro j hj
    have h1 := hd j hj
    cases second
    · exact h1
    · simp only [if_true, high128] at h1 ⊢
      rw [Nat.add_comm j 16, h1]

/-! ## Going back in the slow path -/

theorem slowRevert2_ok (c : X86.Cfg2) (m1 m2 m3 m4 : BitVec 16) (s : Nat → Bool) (h1 : ∀ j, j < 16 → m1.getLsbD j = s j) (h2 : ∀ j, j < 16 → m2.getLsbD j = s (16 + j))
    (h3 : ∀ j, j < 16 → m3.getLsbD j = s (32 + j)) (h4 : ∀ j, j < 16 → m4.getLsbD j = s (48 + j)) (adv mb l1 l2 l3 : Nat) (hl1 : l1 = 16 + cnt s 16) (hl2 : l2 = 32 + cnt s 32)
    (hl3 : l3 = 16 + cnt (fun j => s (32 + j)) 16) (hmb : mb = cnt (fun j => s (32 + j)) 32) (hadv : adv = 64 + cnt s 64) (T : Nat) (hT1 : 1 ≤ T) (hT2 : T ≤ adv) :
    X86.slowRevert2 c m1 m2 m3 m4 mb l2 l1 l3 ((adv : Int) - T) = goBack (eqBits s 64) T := by
  have eA : eqBits s 32 = eqBits s 16 ++ eqBits (fun j => s (16 + j)) 16 := eqBits_add s 16 16
  have eB : eqBits (fun j => s (32 + j)) 32 = eqBits (fun j => s (32 + j)) 16 ++ eqBits (fun j => s (48 + j)) 16 := by
    have := eqBits_add (fun j => s (32 + j)) 16 16
    simpa only [← Nat.add_assoc] using this
  have e64 : eqBits s 64 = eqBits s 32 ++ eqBits (fun j => s (32 + j)) 32 := eqBits_add s 32 32
  have hc64 : cnt s 64 = cnt s 32 + cnt (fun j => s (32 + j)) 32 := cnt_add s 32 32
  have lA1 := eqBits_length s 16
  have lA := eqBits_length s 32
  have lB1 := eqBits_length (fun j => s (32 + j)) 16
  have lB := eqBits_length (fun j => s (32 + j)) 32
  have cB := eqBits_count (fun j => s (32 + j)) 32
  have cle1 := cnt_le s 32
  have cle2 := cnt_le (fun j => s (32 + j)) 32
  have l1' : l1 = (eqBits s 16).length := by omega
  have l3' : l3 = (eqBits (fun j => s (32 + j)) 16).length := by omega
  have hsh : (mb : Int) + 32 - 1 - ((adv : Int) - T) = (T : Int) - 1 - l2 := by omega
  rw [e64, goBack_append _ _ T hT1 (by omega)]
  simp only [X86.slowRevert2, hsh]
  have hlow : ((T : Int) - 1 - l2 < 0) ↔ T - 1 < (eqBits s 32).length := by omega
  cases hinv : c.vbmi2
  · -- bits set for the `=`
    simp only [Bool.false_eq_true, if_false]
    have len16 : ∀ s : Nat → Bool, (eqBits s 16).length ≤ 64 := by
      intro s
      rw [eqBits_length]
      have := cnt_le s 16
      omega
    have bA : Bits ((movemask 32 32 (X86.shufExpand m1)).setWidth 64 ||| ((movemask 32 32 (X86.shufExpand m2)).setWidth 64 <<< l1)) (eqBits s 32) := by
      rw [eA, l1', BitVec.or_comm]
      refine Bits.shl ((shufExpand_bits m1 _ h1).setWidth (len16 _)) ((shufExpand_bits m2 _ h2).setWidth (len16 _)) ?_
      rw [← List.length_append, ← eA]; omega
    have bB : Bits ((movemask 32 32 (X86.shufExpand m3)).setWidth 64 ||| ((movemask 32 32 (X86.shufExpand m4)).setWidth 64 <<< l3)) (eqBits (fun j => s (32 + j)) 32) := by
      rw [eB, l3', BitVec.or_comm]
      refine Bits.shl ((shufExpand_bits m3 _ h3).setWidth (len16 _)) ((shufExpand_bits m4 _ h4).setWidth (len16 _)) ?_
      rw [← List.length_append, ← eB]; omega
    by_cases hl : T - 1 < (eqBits s 32).length
    · rw [if_pos hl]
      simp only [hlow, hl, if_true]
      have hs2 : ((T : Int) - 1 - l2 + l2).toNat = T - 1 := by omega
      rw [hs2, bA.zero, (bA.shr _).popcnt (by simp; omega)]
      simp only [Prod.mk.injEq]
      split <;> omega
    · rw [if_neg hl]
      simp only [hlow, hl, if_false, if_true]
      have hs2 : ((T : Int) - 1 - l2).toNat = T - 1 - (eqBits s 32).length := by omega
      rw [hs2, bB.zero, (bB.shr _).popcnt (by simp; omega)]
      simp only [Prod.mk.injEq]
      split <;> omega
  · -- bits set for characters
    simp only [if_true]
    have len16 : ∀ s : Nat → Bool, ((eqBits s 16).map (!·)).length ≤ 64 := by
      intro s
      rw [List.length_map, eqBits_length]
      have := cnt_le s 16
      omega
    have bA : Bits ((X86.expand16 m1).setWidth 64 ||| ((X86.expand16 m2).setWidth 64 <<< l1)) ((eqBits s 32).map (!·)) := by
      rw [eA, List.map_append, l1', ← List.length_map (f := (!·)) (as := eqBits s 16), BitVec.or_comm]
      refine Bits.shl ((expand16_bits m1 _ h1).setWidth (len16 _)) ((expand16_bits m2 _ h2).setWidth (len16 _)) ?_
      rw [← List.length_append, ← List.map_append, ← eA, List.length_map]; omega
    have bB : Bits ((X86.expand16 m3).setWidth 64 ||| ((X86.expand16 m4).setWidth 64 <<< l3)) ((eqBits (fun j => s (32 + j)) 32).map (!·)) := by
      rw [eB, List.map_append, l3', ← List.length_map (f := (!·)) (as := eqBits (fun j => s (32 + j)) 16), BitVec.or_comm]
      refine Bits.shl ((expand16_bits m3 _ h3).setWidth (len16 _)) ((expand16_bits m4 _ h4).setWidth (len16 _)) ?_
      rw [← List.length_append, ← List.map_append, ← eB, List.length_map]; omega
    have key : ∀ (E : BitVec 64) (L : List Bool) (i : Int) (t : Nat), Bits E (L.map (!·)) → L.length ≤ 64 → t < L.length →
        (if c.asm = true then ((-((adv : Int) - T) - 1) + (if (E >>> t).getLsbD 0 then 1 else 0), i - (popcnt ((E >>> 1) >>> t) : Int))
        else if (E >>> t).getLsbD 0 then (-((adv : Int) - T), i - (popcnt (E >>> t) : Int) + 1) else (-((adv : Int) - T) - 1, i - (popcnt (E >>> t) : Int))) =
        (-((adv : Int) - T) - (if L.getD t false then 1 else 0), i - (L.length - t) + ((L.drop t).count true : Nat) + 1 - (if L.getD t false then 1 else 0)) := by
      intro E L i t hE hL ht
      have p0 := hE.zero t
      rw [getD_map_not _ _ ht] at p0
      have p1 := (hE.shr t).popcnt (by simp; omega)
      have p2 := ((hE.shr 1).shr t).popcnt (by simp; omega)
      rw [p0, p1, p2, List.drop_drop]
      have c0 := count_not (L.drop t)
      rw [List.map_drop, List.length_drop] at c0
      have hd : (L.map (!·)).drop t = (!L.getD t false) :: (L.map (!·)).drop (1 + t) := by
        rw [List.drop_eq_getElem_cons (by simpa using ht), Nat.add_comm 1 t]
        simp [List.getD_eq_getElem?_getD, ht]
      rw [hd, List.count_cons] at c0
      rw [hd, List.count_cons]
      cases hg : L.getD t false
      · simp only [hg, Bool.not_false, beq_self_eq_true, if_true, Bool.false_eq_true, if_false] at c0 ⊢
        split <;> simp only [Prod.mk.injEq] <;> omega
      · simp only [hg, Bool.not_true, if_true, Bool.false_eq_true, if_false] at c0 ⊢
        simp only [show ((false == true) = true) = False from by simp, if_false, Nat.add_zero] at c0 ⊢
        split <;> simp only [Prod.mk.injEq, true_and] <;> omega
    by_cases hl : T - 1 < (eqBits s 32).length
    · rw [if_pos hl]
      simp only [hlow, hl, if_true]
      have hs2 : ((T : Int) - 1 - l2 + l2).toNat = T - 1 := by omega
      rw [hs2, key _ _ _ _ bA (by omega) hl]
      simp only [Prod.mk.injEq]
      omega
    · rw [if_neg hl]
      simp only [hlow, hl, if_false, if_true]
      have hs2 : ((T : Int) - 1 - l2).toNat = T - 1 - (eqBits s 32).length := by omega
      rw [hs2, key _ _ _ _ bB (by omega) (by omega)]
      simp only [Prod.mk.injEq]
      omega

/-! ## Going back in the fast path -/

theorem fastRevert2_ok (s : Nat → Bool) (kA kB : Nat) (hA : One s 32 kA) (hB : One (fun j => s (32 + j)) 32 kB) (maskA maskB : BitVec 32) (mA : One maskA.getLsbD 32 kA)
    (mB : One maskB.getLsbD 32 kB) (pB : popcnt maskB = cnt (fun j => s (32 + j)) 32) (T : Nat) (h1 : 1 ≤ T) (h2 : T ≤ 64 + cnt s 64) :
    X86.fastRevert2 maskA maskB (((64 + cnt s 64 : Nat) : Int) - T) = goBack (eqBits s 64) T := by
  have e64 : eqBits s 64 = eqBits s 32 ++ eqBits (fun j => s (32 + j)) 32 := eqBits_add s 32 32
  have hc64 : cnt s 64 = cnt s 32 + cnt (fun j => s (32 + j)) 32 := cnt_add s 32 32
  have lA := eqBits_length s 32
  have lB := eqBits_length (fun j => s (32 + j)) 32
  have cB := eqBits_count (fun j => s (32 + j)) 32
  have hcA := hA.cnt
  have hcB := hB.cnt
  have kA32 := hA.1
  have kB32 := hB.1
  obtain ⟨a1, a2⟩ := hA.at (T - 1)
  obtain ⟨b1, b2⟩ := hB.at (T - 1 - (eqBits s 32).length)
  rw [e64, goBack_append _ _ T h1 (by omega), a1, a2, b1, b2, cB, lB, lA]
  simp only [X86.fastRevert2, pB, mA.lzcnt, mB.lzcnt, decide_eq_true_eq, hc64]
  rw [hc64] at h2
  rw [hcA] at h2 ⊢
  rw [hcB] at h2 ⊢
  clear a1 a2 b1 b2 mA mB hA hB e64 lA lB cB pB hcA hcB hc64
  by_cases hkA : kA < 32 <;> by_cases hkB : kB < 32 <;> simp only [hkA, hkB, if_true, if_false, and_true, and_false] at h2 ⊢
  all_goals (repeat' split)
  all_goals first | omega | (rw [Prod.mk.injEq]; constructor <;> omega)

/-! ## The fast path -/

theorem mergeAdd_eq (i k j : Nat) (hi : (if i = 32 then 32 else 31 - i) = k) : X86.mergeAdd i j = if k = j then EQ else if j = k + 1 then 106#8 else 42#8 := by
  simp only [X86.mergeAdd, hi]
  by_cases h1 : k = j
  · subst h1
    rw [if_pos rfl, if_neg (by omega : ¬ (k ≠ 0 ∧ k = k - 1)), if_neg (by omega : ¬ k ≠ k), if_pos rfl]; rfl
  · rw [if_neg h1, if_pos h1, if_neg h1]
    by_cases h2 : j = k + 1
    · rw [if_pos (by omega), if_pos h2]; rfl
    · rw [if_neg (by omega), if_neg h2]; rfl

theorem add_merge (i k j : Nat) (b : Nat → Byte) (v : Byte) (hi : (if i = 32 then 32 else 31 - i) = k) (hv : v = if j < k then b j else if j = k then 0#8 else b (j - 1)) :
    v + X86.mergeAdd i j = oneOut b k j := by
  rw [mergeAdd_eq i k j hi, hv]
  rcases Nat.lt_trichotomy j k with h | h | h
  · rw [oneOut_lt h, if_pos h, if_neg (by omega), if_neg (by omega)]
  · rw [oneOut_eq h, if_neg (by omega), if_pos h, if_pos h.symm, BitVec.zero_add]
  · rw [oneOut_gt h, if_neg (by omega), if_neg (by omega), if_neg (by omega)]

/-- What is stored for 32 characters. -/
theorem fastHalf_ok (c : X86.Cfg2) (s : Nat → Bool) (b : Nat → Byte) (k : Nat) (h : One s 32 k) (cmp data sh : Vec) (mask : BitVec 32) (last : Byte)
    (hm : ∀ i, mask.getLsbD i = (decide (i < 32) && s i)) (hcmp : ∀ j, j < 32 → cmp j = bm (s j))
    (hd : ∀ j, j < 32 → data j = if c.avx3 then b j + (if s j then 106#8 else 42#8) else b j)
    (hsh : ∀ j, 1 ≤ j → j < 32 → sh j = b (j - 1)) (hlast : last = b 31) :
    (∀ j, j < 32 → (X86.fastHalf c cmp data sh mask last).1 j = oneOut b k j) ∧ (k < 32 → (X86.fastHalf c cmp data sh mask last).2 = oneOut b k 32) := by
  have hmk : One mask.getLsbD 32 k := ⟨h.1, fun j hj => by rw [hm, h.2 j hj]; simp [hj]⟩
  have hlast2 : k < 32 → oneOut b k 32 = b 31 + if k = 31 then 106#8 else 42#8 := by
    intro hk
    rw [oneOut_gt hk]
    have : (32 = k + 1) ↔ k = 31 := by omega
    simp [this]
  unfold X86.fastHalf
  cases h3 : c.avx3
  · simp only [h3, Bool.false_eq_true, if_false] at hd ⊢
    constructor
    · intro j hj
      have hi : (if lzcnt32 mask = 32 then 32 else 31 - lzcnt32 mask) = k := by
        rw [hmk.lzcnt]
        have := h.1
        by_cases hk : k < 32
        · rw [if_pos hk, if_neg (by omega)]; omega
        · rw [if_neg hk, if_pos rfl]; omega
      apply add_merge _ k j b _ hi
      simp only [blendv, X86.mergeMask, hi, msb_bm, andnot, hcmp j hj, hd j hj, h.2 j hj, decide_eq_true_eq]
      rcases Nat.lt_trichotomy j k with h1 | h1 | h1
      · rw [if_pos (by omega : k ≥ j), if_pos h1]
        have : ¬ j = k := by omega
        simp only [this, decide_false, bm, Bool.false_eq_true, if_false]
        rw [(byte_facts 0).2.2.2.2.2, (byte_facts _).1]
      · rw [if_pos (by omega : k ≥ j), if_neg (by omega : ¬ j < k), if_pos h1]
        simp only [h1, decide_true, bm, if_true]
        rw [(byte_facts 0).2.2.2.2.1, (byte_facts _).2.1]
      · rw [if_neg (by omega : ¬ k ≥ j), if_neg (by omega : ¬ j < k), if_neg (by omega : ¬ j = k), hsh j (by omega) hj]
    · intro hk
      rw [hlast2 hk, hmk.add64, hlast]
      by_cases e : k = 31
      · simp only [e, if_true]; rw [BitVec.add_assoc]; rfl
      · simp only [e, if_false]; rw [BitVec.add_zero]
  · simp only [h3, if_true] at hd ⊢
    have hl : k < 32 → data 31 = oneOut b k 32 := by
      intro hk
      rw [hlast2 hk, hd 31 (by omega), h.2 31 (by omega)]
      have : (31 = k) ↔ k = 31 := by omega
      simp [this]
    cases c.vbmi2
    · simp only [Bool.false_eq_true, if_false]
      refine ⟨fun j hj => ?_, fun hk => ?_⟩
      · rw [withEq_apply (hcmp j hj)]
        apply lane_moved k s 32 h b j hj
        intro hne
        simp only [maskAlignr, hmk.neg j hj, alignr]
        by_cases h1 : k ≤ j
        · simp only [h1, decide_true, if_true]
          by_cases h16 : j % 16 + 15 < 16
          · rw [if_pos h16]
            have : j = 16 := by omega
            subst this
            rw [swapHalves, if_neg (by omega)]
            exact hd 15 (by omega)
          · rw [if_neg h16, show j + 15 - 16 = j - 1 by omega]
            exact hd (j - 1) (by omega)
        · simp only [h1, decide_false, Bool.false_eq_true, if_false]
          exact hd j hj
      · exact hl hk
    · simp only [if_true]
      refine ⟨fun j hj => ?_, fun hk => hl hk⟩
      refine maskExpand_one _ k 32 (fun i hi => ?_) s h b _ hd j hj
      rw [BitVec.getLsbD_not, hm, h.2 i hi]
      simp [hi]

/-- Two stores for 32 characters. -/
theorem Writes.half {l : List (Nat × List Byte)} {out : List Byte} {n : Nat} (h : Writes l out n) (s : Nat → Bool) (b : Nat → Byte) (k : Nat) (hk : One s 32 k) (v : Vec) (last : Byte)
    (hv : ∀ j, j < 32 → v j = oneOut b k j) (hl : k < 32 → last = oneOut b k 32) (o : Nat) (ho : o = out.length) (hn : o + 33 ≤ n) :
    Writes (l ++ [(o, toList v 32), (o + 32, [last])]) (out ++ expand s b 32) n := by
  have w1 := h.snoc o ho (toList (oneOut b k) 32) [] (toList v 32) (by rw [List.append_nil]; exact toList_congr hv) (by rw [toList_length]; omega)
  have w2 := w1.snoc (o + 32) (by rw [List.length_append, toList_length]; omega) [last] [] [last] rfl (by simp; omega)
  rw [List.append_assoc, List.append_assoc] at w2
  rw [hk.expand b]
  by_cases h32 : k < 32
  · rw [if_pos h32, toList_add]
    rw [hl h32] at w2 ⊢
    exact w2
  · rw [if_neg h32]
    have w4 := w2.take (out.length + 32) (by simp [toList])
    rw [List.take_append, List.take_of_length_le (by omega), show out.length + 32 - out.length = 32 by omega, List.take_left' (toList_length _ _)] at w4
    exact w4

/-! ## The slow path -/

theorem halves (mask : BitVec 32) (s : Nat → Bool) (h : ∀ i, mask.getLsbD i = (decide (i < 32) && s i)) (v : Bool) :
    (∀ j, j < 16 → ((mask &&& 0xffff#32).setWidth 16).getLsbD j = s j) ∧
    (∀ j, j < 16 → (if v then (mask >>> 16).setWidth 16 else (((mask >>> 11) &&& 0x1fffe0#32) >>> 5).setWidth 16 : BitVec 16).getLsbD j = s (16 + j)) := by
  have h1 : ∀ j, j < 16 → (0xffff#32).getLsbD j = true := by decide
  have h2 : ∀ j, j < 16 → (0x1fffe0#32).getLsbD (5 + j) = true := by decide
  refine ⟨fun j hj => ?_, fun j hj => ?_⟩
  · rw [BitVec.getLsbD_setWidth, BitVec.getLsbD_and, h, h1 j hj]
    simp [hj, show j < 32 by omega]
  · cases v
    · simp only [Bool.false_eq_true, if_false]
      rw [BitVec.getLsbD_setWidth, BitVec.getLsbD_ushiftRight, BitVec.getLsbD_and, BitVec.getLsbD_ushiftRight, h2 j hj, h, show 11 + (5 + j) = 16 + j by omega]
      simp [hj, show 16 + j < 32 by omega]
    · simp only [if_true]
      rw [BitVec.getLsbD_setWidth, BitVec.getLsbD_ushiftRight, h]
      simp [hj, show 16 + j < 32 by omega]

theorem popcnt_16 (m : BitVec 16) (s : Nat → Bool) (h : ∀ j, j < 16 → m.getLsbD j = s j) : popcnt m = cnt s 16 := by
  rw [Dec.Simd.popcnt_eq]; exact cnt_congr h

/-- The data after adding, encoder_avx_base.h:192-196. -/
theorem slow_data (avx3 : Bool) (s : Nat → Bool) (b : Nat → Byte) (cmp data : Vec) (j : Nat) (hc : cmp j = bm (s j))
    (hd : data j = if avx3 then b j + (if s j then 106#8 else 42#8) else b j) :
    (if avx3 then data else add data (blendv (set1 42#8) (set1 (42#8 + 64#8)) cmp)) j = b j + if s j then 106#8 else 42#8 := by
  cases avx3
  · simp only [Bool.false_eq_true, if_false, add, blendv, set1, hc, msb_bm] at hd ⊢
    rw [hd]; rfl
  · simpa using hd

theorem slow2_ok (c : X86.Cfg2) (start : Bool) (b : Nat → Byte) (cmpA cmpB tA tB : Vec) (maskA maskB : BitVec 32) (hcA : ∀ j, cmpA j = bm (special start b j))
    (hcB : ∀ j, cmpB j = bm (special start b (32 + j))) (hmA : ∀ i, maskA.getLsbD i = (decide (i < 32) && special start b i))
    (hmB : ∀ i, maskB.getLsbD i = (decide (i < 32) && special start b (32 + i)))
    (hdA : ∀ j, j < 32 → tA j = if c.avx3 then b j + (if special start b j then 106#8 else 42#8) else b j)
    (hdB : ∀ j, j < 32 → tB j = if c.avx3 then b (32 + j) + (if special start b (32 + j) then 106#8 else 42#8) else b (32 + j)) :
    (X86.slow2 c cmpA cmpB tA tB maskA maskB).Ok 64 start b := by
  have pA : popcnt maskA = cnt (special start b) 32 := popcnt_congr 32 (by omega) hmA
  have pB : popcnt maskB = cnt (fun j => special start b (32 + j)) 32 := popcnt_congr (f := fun j => special start b (32 + j)) 32 (by omega) hmB
  have hc64 : cnt (special start b) 64 = cnt (special start b) 32 + cnt (fun j => special start b (32 + j)) 32 := cnt_add _ 32 32
  have hcA2 : cnt (special start b) 32 = cnt (special start b) 16 + cnt (fun j => special start b (16 + j)) 16 := cnt_add _ 16 16
  have hcB2 : cnt (fun j => special start b (32 + j)) 32 = cnt (fun j => special start b (32 + j)) 16 + cnt (fun j => special start b (48 + j)) 16 := by
    have := cnt_add (fun j => special start b (32 + j)) 16 16
    simpa only [← Nat.add_assoc] using this
  have hx : expand (special start b) b 64 = expand (special start b) b 16 ++ expand (fun j => special start b (16 + j)) (fun j => b (16 + j)) 16 ++
      expand (fun j => special start b (32 + j)) (fun j => b (32 + j)) 16 ++ expand (fun j => special start b (48 + j)) (fun j => b (48 + j)) 16 := by
    have e1 := expand_add (special start b) b 32 32
    have e2 := expand_add (special start b) b 16 16
    have e3 := expand_add (fun j => special start b (32 + j)) (fun j => b (32 + j)) 16 16
    simp only [← Nat.add_assoc, Nat.reduceAdd] at e1 e2 e3
    rw [e1, e2, e3, List.append_assoc (_ ++ _)]
  have c1 := cnt_le (special start b) 16
  have c2 := cnt_le (fun j => special start b (16 + j)) 16
  have c3 := cnt_le (fun j => special start b (32 + j)) 16
  have c4 := cnt_le (fun j => special start b (48 + j)) 16
  obtain ⟨m1, m2⟩ := halves maskA (special start b) hmA c.vbmi2
  obtain ⟨m3, m4⟩ := halves maskB (fun j => special start b (32 + j)) hmB c.vbmi2
  have m4' : ∀ j, j < 16 → (if c.vbmi2 then (maskB >>> 16).setWidth 16 else (((maskB >>> 11) &&& 0x1fffe0#32) >>> 5).setWidth 16 : BitVec 16).getLsbD j = special start b (48 + j) := by
    intro j hj
    have := m4 j hj
    simpa only [← Nat.add_assoc] using this
  have dA : ∀ j, j < 32 → _ := fun j hj => slow_data c.avx3 (special start b) b cmpA tA j (hcA j) (hdA j hj)
  have dB : ∀ j, j < 32 → _ := fun j hj => slow_data c.avx3 (fun j => special start b (32 + j)) (fun j => b (32 + j)) cmpB tB j (hcB j) (hdB j hj)
  simp only [X86.slow2]
  generalize (if c.avx3 then tA else add tA (blendv (set1 42#8) (set1 (42#8 + 64#8)) cmpA)) = dataA at dA
  generalize (if c.avx3 then tB else add tB (blendv (set1 42#8) (set1 (42#8 + 64#8)) cmpB)) = dataB at dB
  generalize (if c.vbmi2 then (maskA >>> 16).setWidth 16 else (((maskA >>> 11) &&& 0x1fffe0#32) >>> 5).setWidth 16 : BitVec 16) = x2 at m2
  generalize (if c.vbmi2 then (maskB >>> 16).setWidth 16 else (((maskB >>> 11) &&& 0x1fffe0#32) >>> 5).setWidth 16 : BitVec 16) = x4 at m4'
  have q1 := popcnt_16 _ _ m1
  have q3 := popcnt_16 _ _ m3
  generalize ((maskA &&& 0xffff#32).setWidth 16) = x1 at m1 q1
  generalize ((maskB &&& 0xffff#32).setWidth 16) = x3 at m3 q3
  obtain ⟨j1, g1⟩ := (piece2_ok c x1 _ b dataA false m1 (fun j hj => dA j (by omega))).store
  obtain ⟨j2, g2⟩ := (piece2_ok c x2 _ (fun j => b (16 + j)) dataA true m2 (fun j hj => dA (16 + j) (by omega))).store
  obtain ⟨j3, g3⟩ := (piece2_ok c x3 _ (fun j => b (32 + j)) dataB false m3 (fun j hj => dB j (by omega))).store
  obtain ⟨j4, g4⟩ := (piece2_ok c x4 _ (fun j => b (48 + j)) dataB true m4' (fun j hj => by
    have := dB (16 + j) (by omega)
    simpa only [← Nat.add_assoc, Nat.reduceAdd, if_true] using this)).store
  have hadv : 32 + (popcnt maskA + 32) + popcnt maskB = 64 + cnt (special start b) 64 := by omega
  apply Round.ok_of
  · exact hadv
  · have w1 := (Writes.nil (2 * 64)).snoc 0 rfl _ _ _ g1 (by rw [toList_length]; omega)
    have w2 := w1.snoc (popcnt x1 + 16) (by rw [List.nil_append, expand_length]; omega) _ _ _ g2 (by rw [toList_length]; omega)
    have w3 := w2.snoc (popcnt maskA + 32) (by rw [List.nil_append, List.length_append, expand_length, expand_length]; omega) _ _ _ g3 (by rw [toList_length]; omega)
    have w4 := w3.snoc (popcnt maskA + 32 + (popcnt x3 + 16)) (by rw [List.nil_append, List.length_append, List.length_append, expand_length, expand_length, expand_length]; omega) _ _ _ g4
      (by rw [toList_length]; omega)
    rw [hx]
    simpa only [List.nil_append, List.cons_append] using w4
  · intro T t1 t2
    simp only [hadv] at t2 ⊢
    exact slowRevert2_ok c x1 x2 x3 x4 _ m1 m2 m3 m4' _ _ _ _ _ (by omega) (by omega) (by omega) (by omega) rfl T t1 t2

theorem add42 : ∀ x : Byte, x + 42#8 = x - (-42#8) := by decide +kernel

/-- All variants of `do_encode_avx2` are right. -/
theorem avx2_ok (c : X86.Cfg2) : (X86.avx2 c).Ok := by
  refine ⟨by simp [X86.avx2], fun start prev b => ?_, fun start prev b => ?_⟩
  · intro hb
    have h1 : ∀ a b d e f g, (X86.slow2 c a b d e f g).back = false := fun _ _ _ _ _ _ => rfl
    show (!c.zen1) = true
    rw [show (X86.avx2 c).round start prev b = X86.avx2Round c start prev b from rfl] at hb
    simp only [X86.avx2Round] at hb
    split at hb
    · rw [h1] at hb; exact Bool.noConfusion hb
    · simp only [Bool.and_eq_true] at hb
      exact hb.2
  · show (X86.avx2Round c start prev b).Ok 64 start b
    have hsB : ∀ j, special start b (32 + j) = Spec.critical (b (32 + j) + 42#8) := by
      intro j
      unfold special
      rw [if_neg (by simp)]
    have hcA : ∀ j, X86.searchShuf start (load b 0) j = bm (special start b j) := by
      intro j; rw [searchShuf_apply]; simp [special, load]
    have hcB : ∀ j, X86.searchShuf false (load b 32) j = bm (special start b (32 + j)) := by
      intro j; rw [searchShuf_apply, hsB]; simp [load]
    simp only [X86.avx2Round]
    generalize X86.searchShuf start (load b 0) = cmpA at hcA
    generalize X86.searchShuf false (load b 32) = cmpB at hcB
    have hmA : ∀ i, (movemask 32 32 cmpA).getLsbD i = (decide (i < 32) && special start b i) := by
      intro i; rw [getLsbD_movemask, hcA, msb_bm]; simp
    have hmB : ∀ i, (movemask 32 32 cmpB).getLsbD i = (decide (i < 32) && special start b (32 + i)) := by
      intro i; rw [getLsbD_movemask, hcB, msb_bm]; simp
    generalize movemask 32 32 cmpA = maskA at hmA
    generalize movemask 32 32 cmpB = maskB at hmB
    have pA : popcnt maskA = cnt (special start b) 32 := popcnt_congr 32 (by omega) hmA
    have pB : popcnt maskB = cnt (fun j => special start b (32 + j)) 32 := popcnt_congr (f := fun j => special start b (32 + j)) 32 (by omega) hmB
    have hc64 : cnt (special start b) 64 = cnt (special start b) 32 + cnt (fun j => special start b (32 + j)) 32 := cnt_add _ 32 32
    have hx64 := expand_add (special start b) b 32 32
    -- the shifted data
    have htern : ∀ (cmp : Vec) (o j : Nat), cmp j = bm (special start b (o + j)) →
        ternary (add (load b o) (set1 42#8)) cmp (set1 64#8) 0xf8#8 j = b (o + j) + if special start b (o + j) then 106#8 else 42#8 := by
      intro cmp o j hc
      have := shifted_apply (data := load b o) hc (fun hs => special_escFirst (b := b) (j := o + j) hs)
      rw [← show load b o j = b (o + j) from rfl, ← this]
      simp only [X86.shifted, ternary, add, sub, set1, add42]
    have hdA : ∀ j, j < 32 → (if c.avx3 then ternary (add (load b 0) (set1 42#8)) cmpA (set1 64#8) 0xf8#8 else load b 0) j =
        if c.avx3 then b j + (if special start b j then 106#8 else 42#8) else b j := by
      intro j hj
      cases c.avx3
      · simp [load]
      · simp only [if_true]
        have := htern cmpA 0 j (by rw [Nat.zero_add]; exact hcA j)
        simpa only [Nat.zero_add] using this
    have hdB : ∀ j, j < 32 → (if c.avx3 then ternary (add (load b 32) (set1 42#8)) cmpB (set1 64#8) 0xf8#8 else load b 32) j =
        if c.avx3 then b (32 + j) + (if special start b (32 + j) then 106#8 else 42#8) else b (32 + j) := by
      intro j hj
      cases c.avx3
      · simp [load]
      · simp only [if_true]
        exact htern cmpB 32 j (hcB j)
    generalize (if c.avx3 then ternary (add (load b 0) (set1 42#8)) cmpA (set1 64#8) 0xf8#8 else load b 0) = tA at hdA
    generalize (if c.avx3 then ternary (add (load b 32) (set1 42#8)) cmpB (set1 64#8) 0xf8#8 else load b 32) = tB at hdB
    by_cases hmany : (popcnt maskA ||| popcnt maskB) > 1
    · rw [if_pos hmany]
      exact slow2_ok c start b cmpA cmpB tA tB maskA maskB hcA hcB hmA hmB hdA hdB
    · rw [if_neg hmany]
      have hnA : popcnt maskA ≤ 1 := Nat.le_trans (show popcnt maskA ≤ popcnt maskA ||| popcnt maskB from Nat.left_le_or) (by omega)
      have hnB : popcnt maskB ≤ 1 := Nat.le_trans (show popcnt maskB ≤ popcnt maskA ||| popcnt maskB from Nat.right_le_or) (by omega)
      obtain ⟨kA, hkA⟩ := one_of_cnt _ _ (by rw [pA] at hnA; exact hnA)
      obtain ⟨kB, hkB⟩ := one_of_cnt _ _ (by rw [pB] at hnB; exact hnB)
      have mA : One maskA.getLsbD 32 kA := ⟨hkA.1, fun j hj => by rw [hmA, hkA.2 j hj]; simp [hj]⟩
      have mB : One maskB.getLsbD 32 kB := ⟨hkB.1, fun j hj => by have := hkB.2 j hj; simp only at this; rw [hmB, this]; simp [hj]⟩
      have hshift : ∀ (o j : Nat), 1 ≤ j → j < 32 → alignr (load b o) (inserti128 (load b o) (load b o)) 15 j = b (o + (j - 1)) := by
        intro o j h1 h2
        simp only [alignr, inserti128, load]
        by_cases h16 : j % 16 + 15 < 16
        · have : j = 16 := by omega
          subst this
          simp
        · rw [if_neg h16, show j + 15 - 16 = j - 1 by omega]
      obtain ⟨a1, a2⟩ := fastHalf_ok c (special start b) b kA hkA cmpA tA (if c.zen1 then alignr (load b 0) (inserti128 (load b 0) (load b 0)) 15 else fun j => if j = 0 then prev else b (j - 1))
        maskA (b 31) hmA (fun j _ => hcA j) hdA (fun j h1 h2 => by
          cases c.zen1
          · simp only [Bool.false_eq_true, if_false]; rw [if_neg (by omega)]
          · simp only [if_true]; rw [hshift 0 j h1 h2, Nat.zero_add]) rfl
      obtain ⟨b1, b2⟩ := fastHalf_ok c (fun j => special start b (32 + j)) (fun j => b (32 + j)) kB hkB cmpB tB
        (if c.zen1 then alignr (load b 32) (inserti128 (load b 32) (load b 32)) 15 else fun j => b (32 + j - 1))
        maskB (b 63) hmB (fun j _ => hcB j) hdB (fun j h1 h2 => by
          cases c.zen1
          · simp only [Bool.false_eq_true, if_false]; congr 1; omega
          · simp only [if_true]; rw [hshift 32 j h1 h2]) rfl
      have hadv : popcnt maskA + 32 + (popcnt maskB + 32) = 64 + cnt (special start b) 64 := by omega
      apply Round.ok_of
      · exact hadv
      · have w1 := (Writes.nil (2 * 64)).half _ b kA hkA _ _ a1 a2 0 rfl (by omega)
        have w2 := w1.half _ _ kB hkB _ _ b1 b2 (popcnt maskA + 32) (by rw [List.nil_append, expand_length, pA]; omega) (by omega)
        rw [List.nil_append, List.nil_append, ← hx64] at w2
        exact w2
      · intro T t1 t2
        simp only [hadv] at t2 ⊢
        exact fastRevert2_ok _ kA kB hkA hkB maskA maskB mA mB pB T t1 t2

end Yenc.Enc.Simd
