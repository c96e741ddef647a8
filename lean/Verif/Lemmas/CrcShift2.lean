import Verif.Lemmas.CrcX86
/-! Multiplication by a power of `x` with two accumulators, bit reversal, and the code of the PCLMULQDQ version. -/
namespace Yenc.Crc
open Vec Yenc.Spec

/-! ### Clearing the lowest bit -/

theorem clearLow_spec (n : U32) (h : n ≠ 0#32) : ctz n < 32 ∧ n.toNat = 2 ^ ctz n + (clearLow n).toNat ∧ 2 ^ (ctz n + 1) ∣ (clearLow n).toNat := by
  obtain ⟨hk, m, hm⟩ := ctz_spec n h
  have hlt := n.isLt
  have hnz : 1 ≤ n.toNat := by
    rcases Nat.eq_zero_or_pos n.toNat with h0 | h0
    · exact absurd (BitVec.eq_of_toNat_eq (by simpa using h0)) h
    · exact h0
  have hsub : (n - 1#32).toNat = n.toNat - 1 := by
    rw [BitVec.toNat_sub]; simp; omega
  have hand : (clearLow n).toNat = 2 ^ (ctz n + 1) * m := by
    rw [clearLow, BitVec.toNat_and, hsub, hm, and_pred]
  refine ⟨hk, ?_, hand ▸ dvd_mul_right _ _⟩
  rw [hand, hm, pow_succ]; ring

theorem ctz_ge (n : U32) (h : n ≠ 0#32) (k : Nat) (hd : 2 ^ k ∣ n.toNat) : k ≤ ctz n := by
  obtain ⟨_, m, hm⟩ := ctz_spec n h
  by_contra hc
  have h1 : 2 ^ (ctz n + 1) ∣ n.toNat := dvd_trans (Nat.pow_dvd_pow 2 (by omega)) hd
  rw [hm, pow_succ] at h1
  have h2 := Nat.dvd_of_mul_dvd_mul_left (Nat.two_pow_pos _) h1
  omega

theorem eq_zero_of_dvd (n : U32) (h : 2 ^ 32 ∣ n.toNat) : n = 0#32 := by
  apply BitVec.eq_of_toNat_eq
  simpa using Nat.eq_zero_of_dvd_of_lt h n.isLt

/-- The two accumulators together are multiplied by `x ^ n`. -/
theorem shiftLoop2_spec {α : Type} (mul : α → Nat → α) (V : α → R) (hm : ∀ a k, k < 32 → V (mul a k) = V a * x ^ 2 ^ k)
    (f : Nat) (a b : α) (n : U32) (hf : f ≤ 32) (hn : 2 ^ (32 - f) ∣ n.toNat) :
    V (shiftLoop2 mul f a b n).1 * V (shiftLoop2 mul f a b n).2 = V a * V b * x ^ n.toNat := by
  induction f generalizing a b n with
  | zero =>
    rw [eq_zero_of_dvd n hn]
    simp [shiftLoop2]
  | succ f ih =>
    rw [shiftLoop2]
    by_cases h : n = 0#32
    · rw [if_pos h, h]; simp
    · rw [if_neg h]
      obtain ⟨k1, e1, d1⟩ := clearLow_spec n h
      have g1 := ctz_ge n h _ hn
      simp only
      by_cases h' : clearLow n = 0#32
      · rw [if_pos h']
        simp only
        rw [hm _ _ k1, e1, h']
        simp
        ring
      · rw [if_neg h']
        obtain ⟨k2, e2, d2⟩ := clearLow_spec _ h'
        have g2 := ctz_ge _ h' _ d1
        rw [ih _ _ _ (by omega) (dvd_trans (Nat.pow_dvd_pow 2 (by omega)) d2), hm _ _ k1, hm _ _ k2, e1, e2]
        rw [pow_add, pow_add]
        ring

theorem ev_crcPowerRev (i : Nat) (h : i < 32) : ev x (crcPowerRev.getD i 0#32).toNat = x ^ 2 ^ i := by
  have t : ∀ i : Fin 32, crcPowerRev.getD i.val 0#32 = (crcPower.getD i.val 0#32).reverse := by decide +kernel
  rw [t ⟨i, h⟩, ev_reverse _ 31 rfl, ← phi_ev, phi_crcPower _ h]

/-! ### Bits of a number in a register -/

theorem testBit_le (v : Vec) (i n k : Nat) : (le v i n).testBit k = (decide (k < 8 * n) && (v (i + k / 8)).getLsbD (k % 8)) := by
  induction n generalizing i k with
  | zero => simp [le]
  | succ n ih =>
    have e : le v i (n + 1) = 2 ^ 8 * le v (i + 1) n + (v i).toNat := by rw [le]; omega
    rw [e, Nat.testBit_two_pow_mul_add _ (v i).isLt]
    by_cases h : k < 8
    · rw [if_pos h, show k / 8 = 0 by omega, Nat.mod_eq_of_lt h, decide_eq_true (by omega : k < 8 * (n + 1)), Bool.true_and]; rfl
    · rw [if_neg h, ih, show i + 1 + (k - 8) / 8 = i + k / 8 by omega, show (k - 8) % 8 = k % 8 by omega]
      congr 1
      exact decide_eq_decide.2 (by omega)

theorem getLsbD_extract32 (v : Vec) (i : Nat) (h : i < 32) : (extract32 v 0).getLsbD i = (v (i / 8)).getLsbD (i % 8) := by
  rw [extract32, BitVec.getLsbD_ofNat, decide_eq_true h, Bool.true_and, testBit_le, decide_eq_true (by omega), Bool.true_and]
  congr 2; omega

theorem getLsbD_byteOf (p j k : Nat) (h : k < 8) : (byteOf p j).getLsbD k = p.testBit (8 * j + k) := by
  rw [byteOf, BitVec.getLsbD_ofNat, decide_eq_true h, Bool.true_and, show (256 : Nat) = 2 ^ 8 from rfl, ← pow_mul, Nat.testBit_div_two_pow]
  congr 1; omega

theorem getLsbD_bswap32 (n : U32) (i : Nat) (h : i < 32) : (X86.bswap32 n).getLsbD i = n.getLsbD (8 * (3 - i / 8) + i % 8) := by
  unfold X86.bswap32
  simp only [BitVec.getLsbD_or, BitVec.getLsbD_shiftLeft, BitVec.getLsbD_ushiftRight, BitVec.getLsbD_and]
  have hm : ∀ i : Fin 32, ((0xff#32).getLsbD i.val = decide (i.val < 8)) ∧ ((0xff00#32).getLsbD i.val = decide (8 ≤ i.val ∧ i.val < 16)) ∧
      ((0xff0000#32).getLsbD i.val = decide (16 ≤ i.val ∧ i.val < 24)) ∧ ((0xff000000#32).getLsbD i.val = decide (24 ≤ i.val)) := by decide +kernel
  rcases Nat.lt_or_ge i 8 with h8 | h8
  · have h1 := (hm ⟨8 + i, by omega⟩).2.2.1
    have h2 := (hm ⟨24 + i, by omega⟩).2.2.2
    simp only at h1 h2
    rw [h1, h2, show 8 * (3 - i / 8) + i % 8 = 24 + i by omega]
    simp [h8, show i < 24 by omega, show ¬ 16 ≤ 8 + i by omega]
  · rcases Nat.lt_or_ge i 16 with h16 | h16
    · have h1 := (hm ⟨8 + i, by omega⟩).2.2.1
      have hz : n.getLsbD (24 + i) = false := BitVec.getLsbD_of_ge _ _ (by omega)
      simp only at h1
      rw [h1, hz, show 8 * (3 - i / 8) + i % 8 = 8 + i by omega]
      have h2 := (hm ⟨i - 8, by omega⟩).2.1
      simp only at h2
      rw [h2]
      simp [show i < 24 by omega, show 16 ≤ 8 + i by omega, show 8 + i < 24 by omega, show ¬ 8 ≤ i - 8 by omega]
    · have hz : n.getLsbD (24 + i) = false := BitVec.getLsbD_of_ge _ _ (by omega)
      have h2 := (hm ⟨i - 8, by omega⟩).2.1
      have h1 : (n.getLsbD (8 + i) && (0xff0000#32).getLsbD (8 + i)) = false := by
        rcases Nat.lt_or_ge (8 + i) 32 with hh | hh
        · have := (hm ⟨8 + i, hh⟩).2.2.1
          simp only at this
          rw [this]; simp; omega
        · rw [BitVec.getLsbD_of_ge _ _ hh, Bool.false_and]
      simp only at h2
      rw [h1, hz, h2]
      rcases Nat.lt_or_ge i 24 with h24 | h24
      · rw [show 8 * (3 - i / 8) + i % 8 = i - 8 by omega]
        simp [h24, h, show ¬ i < 8 by omega, show 8 ≤ i - 8 by omega, show i - 8 < 16 by omega]
      · have h3 := (hm ⟨i - 24, by omega⟩).1
        simp only at h3
        rw [h3, show 8 * (3 - i / 8) + i % 8 = i - 24 by omega]
        simp [h, show ¬ i < 24 by omega, show i - 24 < 8 by omega, show ¬ i - 8 < 16 by omega]

theorem srliw4_nibble (v : Vec) (j : Nat) : srliw v 4 j &&& 0x0f#8 = v j >>> 4 := by
  apply BitVec.eq_of_getLsbD_eq
  intro k hk
  have hm : (0x0f#8).getLsbD k = decide (k < 4) := by
    rcases k with _ | _ | _ | _ | _ | _ | _ | _ | k <;> first | rfl | omega
  rw [srliw, of16_apply, BitVec.getLsbD_and, hm, BitVec.getLsbD_ushiftRight]
  by_cases h4 : k < 4
  · split
    · rename_i h
      rw [BitVec.getLsbD_extractLsb', decide_eq_true hk, decide_eq_true h4, BitVec.getLsbD_ushiftRight, w16, get16, if_pos (by omega)]
      simp
      congr 2; omega
    · rename_i h
      rw [BitVec.getLsbD_extractLsb', decide_eq_true hk, decide_eq_true h4, BitVec.getLsbD_ushiftRight, w16, get16, if_neg (by omega)]
      simp
      congr 2 <;> omega
  · rw [decide_eq_false h4, Bool.and_false, BitVec.getLsbD_of_ge _ _ (by omega)]

theorem pshufb_of8 (l : List Byte) (m : Vec) (j : Nat) (b : Byte) (hj : j < 16) (hb : m j = b) (h : b.toNat < 16) : pshufb (of8 l) m j = l.getD b.toNat 0#8 := by
  rw [pshufb_sel _ _ _ b.toNat hj (by rw [hb]), if_neg (by omega), Nat.mod_eq_of_lt h, of8]

theorem rev_nibbles : ∀ b : Byte,
    ([0#8, -128#8, 64#8, -64#8, 32#8, -96#8, 96#8, -32#8, 16#8, -112#8, 80#8, -48#8, 48#8, -80#8, 112#8, -16#8] : List Byte).getD (b &&& 0x0f#8).toNat 0#8 |||
    ([0#8, 8#8, 4#8, 12#8, 2#8, 10#8, 6#8, 14#8, 1#8, 9#8, 5#8, 13#8, 3#8, 11#8, 7#8, 15#8] : List Byte).getD (b >>> 4).toNat 0#8 = b.reverse := by
  decide +kernel

theorem nibble_lt : ∀ b : Byte, (b &&& 0x0f#8).toNat < 16 ∧ (b >>> 4).toNat < 16 := by decide +kernel

theorem rev_gfni : ∀ b : Byte, Vec.ofBits 8 (fun i => popcnt ((((0x8040201008040201#64 : BitVec 64) >>> (8 * (7 - i))).setWidth 8) &&& b) % 2 = 1) 8 = b.reverse := by
  decide +kernel

theorem reverseBits_lane (gfni : Bool) (v : Vec) (j : Nat) (hj : j < 16) : X86.reverseBits gfni v j = (v j).reverse := by
  unfold X86.reverseBits
  cases gfni
  · rw [if_neg (by decide)]
    simp only [Vec.or]
    rw [pshufb_of8 _ _ j (v j &&& 0x0f#8) hj rfl (nibble_lt _).1, pshufb_of8 _ _ j (v j >>> 4) hj (srliw4_nibble v j) (nibble_lt _).2]
    exact rev_nibbles (v j)
  · rw [if_pos rfl]
    exact rev_gfni (v j)

/-- Loading a CRC with the bits in the usual order. -/
theorem le_load_rev (gfni : Bool) (c : U32) (m : Nat) (hm : m ≤ 12) : le (X86.reverseBits gfni (cvtsi32 (X86.bswap32 c))) 0 (4 + m) = c.reverse.toNat := by
  have hz : le (X86.reverseBits gfni (cvtsi32 (X86.bswap32 c))) 0 (4 + m) = le (X86.reverseBits gfni (cvtsi32 (X86.bswap32 c))) 0 4 := by
    rw [le_add, le_zero (i := 0 + 4), Nat.mul_zero, Nat.zero_add]
    intro j hj
    rw [reverseBits_lane _ _ _ (by omega), cvtsi32, if_neg (by omega)]
    decide
  rw [hz]
  apply Nat.eq_of_testBit_eq
  intro k
  rw [testBit_le, Nat.zero_add]
  by_cases hk : k < 8 * 4
  · rw [decide_eq_true hk, Bool.true_and, reverseBits_lane _ _ _ (by omega), cvtsi32, if_pos (by omega), BitVec.getLsbD_reverse,
      BitVec.getMsbD_eq_getLsbD, decide_eq_true (by omega), Bool.true_and, getLsbD_byteOf _ _ _ (by omega)]
    have h1 := getLsbD_bswap32 c (8 * (k / 8) + (8 - 1 - k % 8)) (by omega)
    have h2 : c.reverse.toNat.testBit k = c.getLsbD (31 - k) := by
      rw [show c.reverse.toNat.testBit k = c.reverse.getLsbD k from rfl, BitVec.getLsbD_reverse, BitVec.getMsbD_eq_getLsbD, decide_eq_true (by omega), Bool.true_and]
    rw [h2, show (X86.bswap32 c).toNat.testBit (8 * (k / 8) + (8 - 1 - k % 8)) = (X86.bswap32 c).getLsbD (8 * (k / 8) + (8 - 1 - k % 8)) from rfl, h1]
    congr 1; omega
  · rw [decide_eq_false hk, Bool.false_and, Nat.testBit_lt_two_pow]
    exact lt_of_lt_of_le c.reverse.isLt (Nat.pow_le_pow_right (by omega) (by omega))

/-- Storing it back. -/
theorem store_rev (gfni : Bool) (v : Vec) : X86.bswap32 (extract32 (X86.reverseBits gfni v) 0) = (extract32 v 0).reverse := by
  apply BitVec.eq_of_getLsbD_eq
  intro k hk
  rw [getLsbD_bswap32 _ _ hk, getLsbD_extract32 _ _ (by omega), reverseBits_lane _ _ _ (by omega), BitVec.getLsbD_reverse, BitVec.getMsbD_eq_getLsbD,
    decide_eq_true (by omega), Bool.true_and, BitVec.getLsbD_reverse, BitVec.getMsbD_eq_getLsbD, decide_eq_true (by omega), Bool.true_and, getLsbD_extract32 _ _ (by omega)]
  congr 1
  · congr 1; omega
  · omega

/-! ### The PCLMULQDQ code -/

/-- The value of the low half of a register. -/
noncomputable def lv (v : Vec) : R := ev x (le v 0 8)

theorem lv_of16 (v : Vec) (h : le v 0 16 < 2 ^ 64) : lv v = ev x (le v 0 16) := by
  rw [lv, le_lo, Nat.mod_eq_of_lt h]

theorem kx_64 : ev x 0x490d678d = x ^ 64 := ev_constx _ 64 (by decide) (by decide) (by decide +kernel)
theorem kx_96 : ev x 0xf200aa66 = x ^ 96 := ev_constx _ 96 (by decide) (by decide) (by decide +kernel)
theorem foldConst_lo : le X86.foldConst 0 8 = 0xf200aa66 := by decide +kernel
theorem foldConst_hi : le X86.foldConst 8 8 = 0x490d678d := by decide +kernel

theorem lv_power (i : Nat) (h : i < 32) : lv (cvtsi32 (crcPowerRev.getD i 0#32)) = x ^ 2 ^ i := by
  rw [lv, le_cvtsi32 _ 4, ev_crcPowerRev i h]

/-- A product of a register's low half by a 32-bit number, with what is above 64 bits folded down. -/
theorem lv_mulred (prod : Vec) (pos : Nat) (h : pos < 32) : lv (X86.mulred prod pos) = lv prod * x ^ 2 ^ pos := by
  unfold X86.mulred
  simp only
  have e1 : le (clmul prod (cvtsi32 (crcPowerRev.getD pos 0#32)) 0) 0 16 = clmulN (le prod 0 8) (crcPowerRev.getD pos 0#32).toNat 64 := by
    rw [le_clmul0, show 0 % 2 * 8 = 0 from rfl, le_cvtsi32 _ 4]
  have hv : ev x (le (clmul prod (cvtsi32 (crcPowerRev.getD pos 0#32)) 0) 0 16) = lv prod * x ^ 2 ^ pos := by
    rw [e1, evx_clmulN _ _ _ _ (lt_trans (BitVec.isLt _) (by decide)), ev_crcPowerRev _ h, lv]
  have hl : le (clmul prod (cvtsi32 (crcPowerRev.getD pos 0#32)) 0) 0 16 < 2 ^ 95 := by
    rw [e1, clmulN_mod _ _ 32 64 (BitVec.isLt _) (by omega)]
    exact clmulN_lt _ _ 32 63 (le_lt prod 0 8)
  generalize clmul prod (cvtsi32 (crcPowerRev.getD pos 0#32)) 0 = p at *
  have hp := le_half p 0
  rw [Nat.zero_add] at hp
  have e2 : le (clmul p X86.foldConst 0x11) 0 16 = clmulN (le p 8 8) 0x490d678d 64 := by
    rw [le_clmul0, show 0x11 % 2 * 8 = 8 from rfl, foldConst_hi]
  have hl2 : le (clmul p X86.foldConst 0x11) 0 16 < 2 ^ 64 := by
    rw [e2, clmulN_mod _ _ 32 64 (by decide) (by omega)]
    exact lt_trans (clmulN_lt _ _ 32 31 (by omega)) (by decide)
  have e3 := lv_of16 _ hl2
  rw [e2, evx_clmulN _ _ _ _ (by decide), kx_64] at e3
  rw [lv, ev_le_xor]
  rw [lv] at e3
  rw [e3, ← hv, ev_div_mod x 64 (le p 0 16), ← hp.1, ← hp.2]
  ring

theorem le_unpackhi32 (v : Vec) : le (unpackhi32 v zero) 0 8 = le v 8 4 ∧ le (unpackhi32 v zero) 8 8 = le v 12 4 := by
  constructor
  · rw [show (8 : Nat) = 4 + 4 from rfl, le_add, le_zero (i := 0 + 4), Nat.mul_zero, Nat.zero_add]
    · apply le_congr
      intro j hj
      simp only [unpackhi32]
      rw [if_pos (by omega)]
      congr 1; omega
    · intro j hj
      simp only [unpackhi32]
      rw [if_neg (by omega), if_pos (by omega)]
      rfl
  · rw [show (8 : Nat) = 4 + 4 from rfl, le_add, le_zero (i := 4 + 4 + 4), Nat.mul_zero, Nat.zero_add]
    · apply le_congr
      intro j hj
      simp only [unpackhi32]
      rw [if_neg (by omega), if_neg (by omega), if_pos (by omega)]
      congr 1; omega
    · intro j hj
      simp only [unpackhi32]
      rw [if_neg (by omega), if_neg (by omega), if_neg (by omega)]
      rfl

/-- The product of the two accumulators, folded to 64 bits. -/
theorem lv_merge (avx : Bool) (a b : Vec) :
    lv (X86.xor3 avx (clmul a b 0) (clmul (unpackhi32 (clmul a b 0) zero) X86.foldConst 1) (clmul (unpackhi32 (clmul a b 0) zero) X86.foldConst 0x10)) = lv a * lv b := by
  have hv : ev x (le (clmul a b 0) 0 16) = lv a * lv b := by
    rw [le_clmul0, evx_clmulN _ _ _ _ (le_lt _ _ _)]; rfl
  generalize clmul a b 0 = p at *
  obtain ⟨u1, u2⟩ := le_unpackhi32 p
  generalize unpackhi32 p zero = t at *
  have e1 : le (clmul t X86.foldConst 1) 0 16 = clmulN (le p 12 4) 0xf200aa66 64 := by
    rw [le_clmul0, show 1 % 2 * 8 = 8 from rfl, show 1 / 16 % 2 * 8 = 0 from rfl, foldConst_lo, u2]
  have l1 : le (clmul t X86.foldConst 1) 0 16 < 2 ^ 64 := by
    rw [e1, clmulN_mod _ _ 32 64 (by decide) (by omega)]
    exact lt_trans (clmulN_lt _ _ 32 31 (le_lt p 12 4)) (by decide)
  have v1 := lv_of16 _ l1
  rw [e1, evx_clmulN _ _ _ _ (by decide), kx_96] at v1
  have e2 : le (clmul t X86.foldConst 0x10) 0 16 = clmulN (le p 8 4) 0x490d678d 64 := by
    rw [le_clmul0, show 0x10 % 2 * 8 = 0 from rfl, show 0x10 / 16 % 2 * 8 = 8 from rfl, foldConst_hi, u1]
  have l2 : le (clmul t X86.foldConst 0x10) 0 16 < 2 ^ 64 := by
    rw [e2, clmulN_mod _ _ 32 64 (by decide) (by omega)]
    exact lt_trans (clmulN_lt _ _ 32 31 (le_lt p 8 4)) (by decide)
  have v2 := lv_of16 _ l2
  rw [e2, evx_clmulN _ _ _ _ (by decide), kx_64] at v2
  rw [lv] at v1 v2
  rw [xor3_eq, lv, ev_le_xor, ev_le_xor, v1, v2, ← hv, show (16 : Nat) = 8 + 8 from rfl, ev_le_add, Nat.zero_add]
  have e4 := ev_le_add x p 8 4 4
  rw [show 4 + 4 = 8 from rfl, show 8 + 4 = 12 from rfl, show 8 * 4 = 32 from rfl] at e4
  rw [e4]
  ring

theorem lv_powers (avx : Bool) (result : Vec) (n : U32) (hn : n ≠ 0#32) : lv (X86.powers avx result n) = lv result * x ^ n.toNat := by
  unfold X86.powers
  simp only
  rw [lv_merge]
  obtain ⟨k1, e1, d1⟩ := clearLow_spec n hn
  by_cases h : clearLow n = 0#32
  · rw [if_pos h]
    simp only
    rw [lv_power _ k1, e1, h]
    simp
  · rw [if_neg h]
    obtain ⟨k2, e2, d2⟩ := clearLow_spec _ h
    rw [shiftLoop2_spec X86.mulred lv lv_mulred 32 _ _ _ (by omega) (by simp)]
    have hc : lv (clmul (cvtsi32 (crcPowerRev.getD (ctz n) 0#32)) (cvtsi32 (crcPowerRev.getD (ctz (clearLow n)) 0#32)) 0) = x ^ 2 ^ ctz n * x ^ 2 ^ ctz (clearLow n) := by
      rw [lv_of16]
      · rw [le_clmul0, show 0 % 2 * 8 = 0 from rfl, le_cvtsi32 _ 4, le_cvtsi32 _ 4, evx_clmulN _ _ _ _ (lt_trans (BitVec.isLt _) (by decide)), ev_crcPowerRev _ k1,
          ev_crcPowerRev _ k2]
      · rw [le_clmul0, show 0 % 2 * 8 = 0 from rfl, le_cvtsi32 _ 4, le_cvtsi32 _ 4, clmulN_mod _ _ 32 64 (BitVec.isLt _) (by omega)]
        exact lt_trans (clmulN_lt _ _ 32 31 (BitVec.isLt _)) (by decide)
    rw [hc, e1, e2, pow_add, pow_add]
    ring

theorem lv_sll64 (v : Vec) (k : Nat) (hk : k < 32) (c : U32) (h : le v 0 8 = c.toNat) : lv (sll64 v k) = x ^ k * ev x c.toNat := by
  have e : le (sll64 v k) 0 8 = 2 ^ k * c.toNat := by
    rw [le_congr (b := byteOf (le v 0 8 * 2 ^ k)) (i' := 0), le_byteOf, pow_zero, Nat.div_one, h, Nat.mul_comm, Nat.mod_eq_of_lt]
    · have h1 := c.isLt
      have h2 : 2 ^ k < 2 ^ 32 := Nat.pow_lt_pow_right (by omega) hk
      calc 2 ^ k * c.toNat < 2 ^ 32 * 2 ^ 32 := Nat.mul_lt_mul'' h2 h1
        _ = 256 ^ 8 := by decide
    · intro j hj
      rw [sll64, Nat.zero_add, show j / 8 * 8 = 0 by omega, Nat.mod_eq_of_lt hj]
  rw [lv, e, ev_shl]

theorem le_blend3c (v : Vec) : le (blend16 zero v 0x3c) 0 8 = 2 ^ 32 * le v 4 4 := by
  rw [show (8 : Nat) = 4 + 4 from rfl, le_add, le_zero (i := 0) (n := 4), Nat.add_zero, le_congr (a := blend16 zero v 0x3c) (b := v) (i := 0 + 4) (i' := 4)]
  · intro j hj
    have : ∀ i : Fin 4, (0x3c : Nat).testBit ((0 + 4 + i.val) / 2) = true := by decide
    rw [blend16, this ⟨j, hj⟩, if_pos rfl]
  · intro j hj
    have : ∀ i : Fin 4, (0x3c : Nat).testBit ((0 + i.val) / 2) = false := by decide
    rw [blend16, this ⟨j, hj⟩, if_neg (by decide)]
    rfl

theorem reductionConst_lo : le X86.reductionConst 0 8 = 0x104d101df := by decide +kernel
theorem reductionConst_hi : le X86.reductionConst 8 8 = 0x04c11db7 := by decide +kernel

theorem le_reducex_gen (k v : Vec) (m p : Nat) (h1 : le k 0 8 = m) (h2 : le k 8 8 = p) :
    le (clmul (clmul (blend16 zero v 0x3c) k 0) k 0x11) 0 4 = clmulN (clmulN (le v 4 4) m 64 / 2 ^ 32) p 64 % 2 ^ 32 := by
  have e1 : le (clmul (blend16 zero v 0x3c) k 0) 0 16 = 2 ^ 32 * clmulN (le v 4 4) m 64 := by
    rw [le_clmul0, show 0 % 2 * 8 = 0 from rfl, h1, le_blend3c, clmulN_shl]
  have e2 : le (clmul (blend16 zero v 0x3c) k 0) 8 8 = clmulN (le v 4 4) m 64 / 2 ^ 32 := by
    have := (le_half (clmul (blend16 zero v 0x3c) k 0) 0).2
    rw [Nat.zero_add, e1] at this
    rw [this]; omega
  have e3 : le (clmul (clmul (blend16 zero v 0x3c) k 0) k 0x11) 0 16 = clmulN (clmulN (le v 4 4) m 64 / 2 ^ 32) p 64 := by
    rw [le_clmul0, show 0x11 % 2 * 8 = 8 from rfl, h2, e2]
  rw [← e3]
  have e := le_add (clmul (clmul (blend16 zero v 0x3c) k 0) k 0x11) 0 4 12
  have := le_lt (clmul (clmul (blend16 zero v 0x3c) k 0) k 0x11) 0 4
  rw [show 4 + 12 = 16 from rfl, show 8 * 4 = 32 from rfl] at e
  rw [show 8 * 4 = 32 from rfl] at this
  rw [e, Nat.mul_add_mod, Nat.mod_eq_of_lt this]

theorem shift_clmul (avx gfni : Bool) (c n : U32) : phi (X86.shift avx gfni c n) = phi c * x ^ n.toNat := by
  unfold X86.shift
  by_cases h0 : n = 0#32
  · rw [if_pos h0, h0]; simp
  rw [if_neg h0]
  simp only
  have hk : (n &&& 31#32).toNat = n.toNat % 32 := by
    rw [BitVec.toNat_and]; exact Nat.and_two_pow_sub_one_eq_mod n.toNat 5
  have hn : n.toNat = n.toNat % 32 + (n &&& ~~~31#32).toNat := by
    have := BitVec.toNat_and n (~~~31#32)
    have h2 : n.toNat &&& (~~~31#32).toNat = n.toNat / 2 ^ 5 * 2 ^ 5 := by
      apply Nat.eq_of_testBit_eq
      intro j
      rw [Nat.testBit_and, Nat.testBit_mul_two_pow, Nat.testBit_div_two_pow]
      by_cases hj : j < 32
      · have : ∀ j : Fin 32, (~~~31#32).toNat.testBit j.val = decide (5 ≤ j.val) := by decide +kernel
        rw [this ⟨j, hj⟩]
        by_cases h5 : 5 ≤ j
        · simp [h5]
        · simp [h5]
      · have : n.toNat.testBit j = false := Nat.testBit_lt_two_pow (lt_of_lt_of_le n.isLt (Nat.pow_le_pow_right (by omega) (by omega)))
        by_cases h5 : 5 ≤ j
        · simp [h5, this]
        · omega
    rw [this, h2]; omega
  have hv : lv (sll64 (X86.reverseBits gfni (cvtsi32 (X86.bswap32 c))) (n &&& 31#32).toNat) = x ^ (n.toNat % 32) * phi c := by
    rw [lv_sll64 _ _ (by omega) c.reverse (le_load_rev gfni c 4 (by omega)), ev_reverse c 31 rfl, ← phi_ev, hk]
  generalize sll64 (X86.reverseBits gfni (cvtsi32 (X86.bswap32 c))) (n &&& 31#32).toNat = r at *
  have hr : lv (if n &&& ~~~31#32 = 0#32 then r else X86.powers avx r (n &&& ~~~31#32)) = phi c * x ^ n.toNat := by
    by_cases hz : n &&& ~~~31#32 = 0#32
    · rw [if_pos hz, hv, hn, hz]
      simp
      ring
    · rw [if_neg hz, lv_powers _ _ _ hz, hv, hn, pow_add]
      rw [← hn]
      ring
  generalize (if n &&& ~~~31#32 = 0#32 then r else X86.powers avx r (n &&& ~~~31#32)) = v at *
  rw [store_rev, phi_ev, ← ev_reverse _ 31 rfl, BitVec.reverse_reverse_eq, toNat_extract32, Nat.mul_zero, ev_le_xor,
    le_reducex_gen X86.reductionConst v _ _ reductionConst_lo reductionConst_hi, (barrettx _ (le_lt v 4 4)).2, ← hr, lv]
  have e := ev_le_add x v 0 4 4
  rw [show 4 + 4 = 8 from rfl, Nat.zero_add, show 8 * 4 = 32 from rfl] at e
  rw [e]; ring

end Yenc.Crc
