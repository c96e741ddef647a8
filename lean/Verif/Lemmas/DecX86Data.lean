import Verif.Lemmas.DecX86
/-! The x86 kernels: character masks and unescaping. -/
namespace Yenc.Dec.Simd.X86
open Yenc Vec

variable (c : Cfg)

theorem mask2_get (u v : Vec) (q : Nat) (hq : q < 2 * c.n) : (mask2 c u v).getLsbD q = if q < c.n then (u q).msb else (v (q - c.n)).msb := by
  rw [mask2, BitVec.getLsbD_or, BitVec.getLsbD_shiftLeft, getLsbD_movemask, getLsbD_movemask]
  by_cases h : q < c.n
  · simp [h, hq]
  · simp [h, hq, show q - c.n < c.n by omega, show q - c.n < 2 * c.n by omega]

/-- `=`, CR or LF. -/
def special (x : Byte) : Bool := decide (x = EQ) || decide (x = CR) || decide (x = LF)

theorem matchTable_apply (j r : Nat) : matchTable (j / 16 * 16 + r % 16) = matchTable (r % 16) := by
  simp only [matchTable, show (j / 16 * 16 + r % 16) % 16 = r % 16 % 16 by omega]

theorem fast_dot : ∀ x : Byte, decide (x = if (if x.toNat ≤ DOT.toNat then x else DOT).msb then 0#8 else matchTable ((if x.toNat ≤ DOT.toNat then x else DOT).toNat % 16)) = special x := by
  decide +kernel

theorem fast_zero : (if (if DOT.toNat ≤ (0#8 : Byte).toNat then DOT else 0#8).msb then 0#8 else matchTable ((if DOT.toNat ≤ (0#8 : Byte).toNat then DOT else 0#8).toNat % 16)) = DOT := by
  decide +kernel

/-- Lane `j` has a dot pending that is to be removed. -/
def pend (pd j : Nat) : Bool := decide ((j = 0 ∧ pd = 1) ∨ (j = 1 ∧ pd = 2))

theorem cmpVec_msb (cmp x : Vec) (pd j : Nat) (hc : cmp j = cmpLane c pd j) (hx : pend pd j = true → x j = DOT) :
    (cmpVec c cmp x j).msb = (special (x j) || pend pd j) := by
  unfold cmpLane at hc
  unfold cmpVec
  by_cases hp : pend pd j = true
  · rw [hp, Bool.or_true]
    rw [if_pos (by simpa [pend] using hp)] at hc
    split
    · rename_i hf
      rw [if_pos hf] at hc
      rw [cmpeq, msb_bm, decide_eq_true_eq, pshufb, minu, hx hp, hc, matchTable_apply, fast_zero]
    · rename_i hf
      rw [if_neg hf] at hc
      simp only [Vec.or, cmpeq, hc, hx hp, decide_true, bm_or, Bool.true_or, msb_bm]
  · rw [if_neg (by simpa [pend] using hp)] at hc
    rw [Bool.not_eq_true _ |>.mp hp, Bool.or_false]
    split
    · rename_i hf
      rw [if_pos hf] at hc
      rw [cmpeq, msb_bm, pshufb, minu, hc, matchTable_apply, fast_dot]
    · rename_i hf
      rw [if_neg hf] at hc
      simp only [Vec.or, cmpeq, hc, set1, bm_or, msb_bm, special]
      rw [Bool.or_comm, Bool.or_comm (decide (x j = LF)), ← Bool.or_assoc]
      rfl

variable (b : Nat → Byte)

/-- The first mask of a round. -/
theorem mask_get (cmp : Vec) (pd : Nat) (hc : ∀ j, j < c.n → cmp j = cmpLane c pd j) (hx : ∀ j, pend pd j = true → b j = DOT) (q : Nat) (hq : q < 2 * c.n) :
    (mask2 c (cmpVec c cmp (shiftData c b 0 0)) (cmpVec c (fresh c) (shiftData c b 1 0))).getLsbD q = (special (b q) || pend pd q) := by
  have hn := n_cases c
  have s0 : ∀ j, shiftData c b 0 0 j = b j := fun j => by rw [shiftData_apply]; congr 1; omega
  have s1 : ∀ j, shiftData c b 1 0 j = b (c.n + j) := fun j => by rw [shiftData_apply]; congr 1; omega
  rw [mask2_get c _ _ q hq]
  split
  · rename_i h
    rw [cmpVec_msb c cmp _ pd q (hc q h) (by rw [s0]; exact hx q), s0]
  · rename_i h
    rw [cmpVec_msb c (fresh c) _ 0 (q - c.n) (fresh_lane c _) (by simp [pend]), s1, show c.n + (q - c.n) = q by omega]
    have h1 : pend 0 (q - c.n) = false := by simp [pend]
    have h2 : pend pd q = false := by simp only [pend, decide_eq_false_iff_not]; omega
    rw [h1, h2]

theorem maskEq_get (q : Nat) (hq : q < 2 * c.n) :
    (mask2 c (cmpeq (shiftData c b 0 0) (set1 EQ)) (cmpeq (shiftData c b 1 0) (set1 EQ))).getLsbD q = decide (b q = EQ) := by
  have s0 : ∀ j, shiftData c b 0 0 j = b j := fun j => by rw [shiftData_apply]; congr 1; omega
  have s1 : ∀ j, shiftData c b 1 0 j = b (c.n + j) := fun j => by rw [shiftData_apply]; congr 1; omega
  rw [mask2_get c _ _ q hq]
  split
  · rw [cmpeq, msb_bm, s0]; rfl
  · rw [cmpeq, msb_bm, s1, show c.n + (q - c.n) = q by omega]; rfl

/-! ### Unescaping -/

/-- What is added to a byte. -/
def offs (p : Bool) : Byte := if p then -106#8 else -42#8

theorem loadHalves_apply {w : Nat} (x : BitVec w) (j : Nat) (hj : j < 16) : loadHalves x j = if x.getLsbD j then -64#8 else 0#8 := by
  unfold loadHalves eqAdd
  split
  · rw [BitVec.getLsbD_setWidth]
    simp [*]
  · rw [BitVec.getLsbD_setWidth, BitVec.getLsbD_ushiftRight, show 8 + (j - 8) = j by omega]
    simp [show j - 8 < 8 by omega]

theorem bit_test : ∀ k, k < 8 → ∀ x : Byte, decide (x &&& 1#8 <<< k = 1#8 <<< k) = x.getLsbD k := by
  decide +kernel

theorem spread_msb {w : Nat} (x : BitVec w) (h j : Nat) (hh : h < 2) (hj : j < 32) (hw : w = 64) : (spread x h j).msb = x.getLsbD (32 * h + j) := by
  have hs : ∀ k, k < 8 → (BitVec.ofNat 8 k).msb = false ∧ (BitVec.ofNat 8 k).toNat % 16 = k := by decide
  have hs' := hs (4 * h + j / 8) (by omega)
  simp only [spread, cmpeq, Vec.and, pshufb, msb_bm, hs'.1, hs'.2, Bool.false_eq_true, if_false]
  rw [bit_test _ (by omega), BitVec.getLsbD_extractLsb']
  simp only [show j % 8 < 8 by omega, decide_true, Bool.true_and]
  congr 1
  omega

theorem dataFix_apply (off : Vec) (E : Nat → Bool) (x : BitVec (2 * c.n)) (hx : ∀ q, q < 2 * c.n → x.getLsbD q = (decide (1 ≤ q) && E q))
    (hoff : ∀ j, j < c.n → off j = offs (decide (j = 0) && E 0)) (q : Nat) (hq : q < 2 * c.n) :
    (if q < c.n then (dataFix c off (shiftData c b 0 0) (shiftData c b 1 0) x).1 q
      else (dataFix c off (shiftData c b 0 0) (shiftData c b 1 0) x).2 (q - c.n)) = b q + offs (E q) := by
  have hn := n_cases c
  have s0 : ∀ j, shiftData c b 0 0 j = b j := fun j => by rw [shiftData_apply]; congr 1; omega
  have s1 : ∀ j, shiftData c b 1 0 j = b (c.n + j) := fun j => by rw [shiftData_apply]; congr 1; omega
  have hadd : ∀ y : Byte, y + 214#8 + 192#8 = y + 150#8 := by decide +kernel
  have hE : x.getLsbD q = if q = 0 then false else E q := by
    rw [hx q hq]
    by_cases h : q = 0
    · simp [h]
    · simp [h, show 1 ≤ q by omega]
  unfold dataFix
  by_cases h3 : c.avx3 = true
  · rw [if_pos h3]
    by_cases h : q < c.n
    · rw [if_pos h]
      simp only [maskAdd, BitVec.getLsbD_setWidth, h, decide_true, Bool.true_and, add, s0, hoff q h, hE, set1]
      by_cases h0 : q = 0
      · simp [h0]
      · cases hq' : E q <;> simp [h0, offs, hadd]
    · rw [if_neg h]
      simp only [maskAdd, BitVec.getLsbD_setWidth, BitVec.getLsbD_ushiftRight, show q - c.n < c.n by omega, show c.n + (q - c.n) = q by omega, decide_true, Bool.true_and, add, s1, hE, set1,
        if_neg (show ¬ q = 0 by omega)]
      cases hq' : E q <;> simp [offs, hadd]
  rw [if_neg h3]
  by_cases h2 : c.avx2 = true
  · have hn2 := n_avx h2
    rw [if_pos h2]
    by_cases h : q < c.n
    · rw [if_pos h]
      simp only [add, blendv, s0]
      rw [spread_msb x 0 q (by omega) (by omega) (by omega), Nat.mul_zero, Nat.zero_add, hE, hoff q h]
      by_cases h0 : q = 0
      · simp [h0]
      · cases hq' : E q <;> simp [h0, offs, set1]
    · rw [if_neg h]
      simp only [add, blendv, s1]
      rw [spread_msb x 1 (q - c.n) (by omega) (by omega) (by omega), show 32 * 1 + (q - c.n) = q by omega, hE, if_neg (show ¬ q = 0 by omega), show c.n + (q - c.n) = q by omega]
      cases hq' : E q <;> simp [offs, set1]
  · have hn1 := n_sse (Bool.not_eq_true _ |>.mp h2)
    rw [if_neg h2]
    by_cases h : q < c.n
    · rw [if_pos h]
      simp only [add, s0]
      rw [loadHalves_apply _ _ (by omega), hE, hoff q h]
      by_cases h0 : q = 0
      · simp [h0]
      · cases hq' : E q <;> simp [h0, offs, hadd]
    · rw [if_neg h]
      simp only [add, s1]
      rw [loadHalves_apply _ _ (by omega), BitVec.getLsbD_ushiftRight, show 16 + (q - c.n) = q by omega, hE, if_neg (show ¬ q = 0 by omega), show c.n + (q - c.n) = q by omega]
      cases hq' : E q <;> simp [offs, hadd, set1]

theorem dataFast_apply (off : Vec) (E : Nat → Bool) (x : BitVec (2 * c.n)) (hx : ∀ q, q < 2 * c.n → x.getLsbD q = decide (b q = EQ))
    (hE : ∀ q, q + 1 < 2 * c.n → E (q + 1) = decide (b q = EQ))
    (hoff : ∀ j, j < c.n → off j = offs (decide (j = 0) && E 0)) (q : Nat) (hq : q < 2 * c.n) :
    (if q < c.n then (dataFast c off (shiftData c b 0 0) (shiftData c b 1 0) b x).1 q
      else (dataFast c off (shiftData c b 0 0) (shiftData c b 1 0) b x).2 (q - c.n)) = b q + offs (E q) := by
  have hn := n_cases c
  have s0 : ∀ j, shiftData c b 0 0 j = b j := fun j => by rw [shiftData_apply]; congr 1; omega
  have s1 : ∀ j, shiftData c b 1 0 j = b (c.n + j) := fun j => by rw [shiftData_apply]; congr 1; omega
  have hadd : ∀ y : Byte, y + 214#8 + 192#8 = y + 150#8 := by decide +kernel
  have hE1 : ∀ q, 0 < q → q < 2 * c.n → E q = decide (b (q - 1) = EQ) := by
    intro q h0 h
    obtain ⟨r, rfl⟩ : ∃ r, q = r + 1 := ⟨q - 1, by omega⟩
    exact hE r h
  have hblend : ∀ (y u v : Byte) (m : Byte) (p : Bool), m.msb = p → u = -42#8 → v = -106#8 → (y + if m.msb then v else u) = y + offs p := by
    rintro y u v m p rfl rfl rfl; rfl
  -- the comparison results, moved up by one lane
  have a0 : ∀ j, 0 < j → j < c.n → cmpeq (shiftData c b 0 0) (set1 EQ) (j - 1) = bm (E j) := by
    intro j h0 h
    rw [cmpeq, s0, hE1 j h0 (by omega)]; rfl
  have a1 : ∀ j, 0 < j → j < c.n → cmpeq (shiftData c b 1 0) (set1 EQ) (j - 1) = bm (E (c.n + j)) := by
    intro j h0 h
    rw [cmpeq, s1, hE1 (c.n + j) (by omega) (by omega), show c.n + (j - 1) = c.n + j - 1 by omega]; rfl
  have a2 : cmpeq (shiftData c b 0 0) (set1 EQ) (c.n - 1) = bm (E c.n) := by
    rw [cmpeq, s0, hE1 c.n (by omega) (by omega)]; rfl
  have off1 : ∀ j, 0 < j → j < c.n → off j = -42#8 := by
    intro j h0 h
    rw [hoff j h]
    simp [show ¬ j = 0 by omega, offs]
  have off0 : off 0 = offs (E 0) := by rw [hoff 0 (by omega)]; simp
  -- what both registers get in the variants for SSE registers
  have al : c.n = 16 → ∀ j, j < 16 → alignr (cmpeq (shiftData c b 1 0) (set1 EQ)) (cmpeq (shiftData c b 0 0) (set1 EQ)) 15 j = bm (E (c.n + j)) := by
    intro h16 j hj
    rw [alignr]
    by_cases h0 : j = 0
    · subst h0
      rw [if_pos (by omega), show 0 + 15 = c.n - 1 by omega, a2]; rfl
    · rw [if_neg (by omega), show j + 15 - 16 = j - 1 by omega, a1 j (by omega) (by omega)]
  have sl : ∀ j, j < c.n → slliSi (cmpeq (shiftData c b 0 0) (set1 EQ)) 1 j = bm (decide (0 < j) && E j) := by
    intro j hj
    rw [slliSi]
    by_cases h0 : j = 0
    · subst h0; rfl
    · rw [if_neg (by omega), a0 j (by omega) hj]
      simp [show 0 < j by omega]
  unfold dataFast
  by_cases h2 : c.avx2 = true
  · have hn2 := n_avx h2
    simp only
    rw [if_pos h2]
    by_cases h3 : c.avx3 = true
    · rw [if_pos h3]
      by_cases h : q < c.n
      · rw [if_pos h]
        simp only [maskAdd, BitVec.getLsbD_setWidth, BitVec.getLsbD_shiftLeft, h, hq, decide_true, Bool.true_and, add, s0, set1]
        by_cases h0 : q = 0
        · subst h0; simp [off0]
        · rw [off1 q (by omega) h, hx _ (by omega), ← hE1 q (by omega) hq]
          simp only [show ¬ q < 1 by omega, decide_false, Bool.not_false, Bool.true_and]
          cases E q <;> simp [offs, hadd]
      · rw [if_neg h]
        simp only [maskAdd, BitVec.getLsbD_setWidth, BitVec.getLsbD_ushiftRight, show q - c.n < c.n by omega, decide_true, Bool.true_and, add, s1, set1,
          show c.n - 1 + (q - c.n) = q - 1 by omega, show c.n + (q - c.n) = q by omega]
        rw [hx _ (by omega), ← hE1 q (by omega) hq]
        cases E q <;> simp [offs, hadd]
    · rw [if_neg h3]
      by_cases h : q < c.n
      · rw [if_pos h]
        simp only [add, blendv, s0]
        by_cases h0 : q = 0
        · subst h0
          have : (alignr (cmpeq (shiftData c b 0 0) (set1 EQ)) (inserti128 (set1 EQ) (cmpeq (shiftData c b 0 0) (set1 EQ))) 15 0).msb = false := by
            rw [alignr, if_pos (by omega), inserti128, if_pos (by omega)]; rfl
          rw [this, if_neg (by simp), off0]
        · apply hblend _ _ _ _ _ _ (off1 q (by omega) h) rfl
          rw [alignr]
          split
          · rw [inserti128, if_neg (by omega), show q + 15 - 16 = q - 1 by omega, a0 q (by omega) h, msb_bm]
          · rw [show q + 15 - 16 = q - 1 by omega, a0 q (by omega) h, msb_bm]
      · rw [if_neg h]
        simp only [add, blendv, s1, show c.n + (q - c.n) = q by omega]
        refine hblend _ _ _ _ _ ?_ rfl rfl
        rw [cmpeq, msb_bm, load, hE1 q (by omega) hq, decide_comm, show c.n - 1 + (q - c.n) = q - 1 by omega]
        rfl
  simp only
  rw [if_neg h2]
  have hn1 := n_sse (Bool.not_eq_true _ |>.mp h2)
  by_cases h3 : c.avx3 = true
  · rw [if_pos h3]
    by_cases h : q < c.n
    · rw [if_pos h]
      simp only [add, s0]
      rw [ternary_ac _ _ _ _ _ (sl q h)]
      by_cases h0 : q = 0
      · subst h0; simp [off0]
      · rw [off1 q (by omega) h]
        simp only [show 0 < q by omega, decide_true, Bool.true_and]
        rfl
    · rw [if_neg h]
      simp only [add, s1]
      rw [ternary_ac _ _ _ _ _ (al hn1 (q - c.n) (by omega)), show c.n + (q - c.n) = q by omega]
      rfl
  rw [if_neg h3]
  by_cases h4 : c.blend = true
  · rw [if_pos h4]
    by_cases h : q < c.n
    · rw [if_pos h]
      simp only [add, s0, blendv, sl q h, msb_bm]
      by_cases h0 : q = 0
      · subst h0; simp [off0]
      · rw [off1 q (by omega) h]
        simp only [show 0 < q by omega, decide_true, Bool.true_and]
        rfl
    · rw [if_neg h]
      simp only [add, s1, blendv, al hn1 (q - c.n) (by omega), msb_bm, show c.n + (q - c.n) = q by omega]
      rfl
  rw [if_neg h4]
  have m0 : ∀ j, Vec.and (cmpeq (shiftData c b 0 0) (set1 EQ)) (set1 (-64#8)) j = cmpeq (shiftData c b 0 0) (set1 EQ) j &&& -64#8 := fun _ => rfl
  have m1 : ∀ j, Vec.and (cmpeq (shiftData c b 1 0) (set1 EQ)) (set1 (-64#8)) j = cmpeq (shiftData c b 1 0) (set1 EQ) j &&& -64#8 := fun _ => rfl
  by_cases h : q < c.n
  · rw [if_pos h]
    simp only [add, s0, slliSi, m0]
    by_cases h0 : q = 0
    · subst h0; simp [off0]
    · rw [if_neg (by omega), a0 q (by omega) h, off1 q (by omega) h, bm_and_byte]
      cases E q <;> simp [offs, hadd]
  · rw [if_neg h]
    have key : (if c.ssse3 = true ∧ c.palignr = true then alignr (Vec.and (cmpeq (shiftData c b 1 0) (set1 EQ)) (set1 (-64#8))) (Vec.and (cmpeq (shiftData c b 0 0) (set1 EQ)) (set1 (-64#8))) 15
        else Vec.or (slliSi (Vec.and (cmpeq (shiftData c b 1 0) (set1 EQ)) (set1 (-64#8))) 1) (srliSi (Vec.and (cmpeq (shiftData c b 0 0) (set1 EQ)) (set1 (-64#8))) 15)) (q - c.n) = if E q then -64#8 else 0#8 := by
      rw [← bm_and_byte]
      split
      · have := al hn1 (q - c.n) (by omega)
        rw [show c.n + (q - c.n) = q by omega] at this
        rw [← this, alignr, alignr]
        split
        · rfl
        · rfl
      · rw [Vec.or, slliSi, srliSi]
        by_cases h0 : q = c.n
        · subst h0
          rw [if_pos (by omega), if_pos (by omega), m0, show c.n - c.n + 15 = c.n - 1 by omega, a2]
          exact BitVec.zero_or
        · rw [if_neg (by omega), if_neg (by omega), m1, a1 (q - c.n) (by omega) (by omega), show c.n + (q - c.n) = q by omega]
          exact BitVec.or_zero
    simp only [add, s1]
    rw [key, show c.n + (q - c.n) = q by omega]
    cases E q <;> simp [offs, hadd, set1]

theorem slliw_cvt (e : Bool) (j : Nat) : slliw (cvt (BitVec.ofNat 8 e.toNat)) 6 j = if j = 0 ∧ e = true then 64#8 else 0#8 := by
  rw [slliw, of16_apply]
  by_cases h : j / 2 = 0
  · have : j = 0 ∨ j = 1 := by omega
    rcases this with rfl | rfl <;> cases e <;> decide
  · have : w16 (cvt (BitVec.ofNat 8 e.toNat)) (j / 2) = 0#16 := by
      rw [w16, cvt, cvt, if_neg (by omega), if_neg (by omega)]; rfl
    rw [this, if_neg (show ¬ (j = 0 ∧ e = true) by omega)]
    split <;> decide

theorem offsetOf_apply (e : Bool) (j : Nat) (hj : j < c.n) : offsetOf c e j = offs (decide (j = 0) && e) := by
  unfold offsetOf
  split
  · rw [maskAdd, BitVec.getLsbD_ofNat]
    by_cases h0 : j = 0
    · subst h0
      simp only [hj, decide_true, Bool.true_and, set1]
      cases e <;> decide
    · obtain ⟨r, rfl⟩ : ∃ r, j = r + 1 := ⟨j - 1, by omega⟩
      have : Nat.testBit e.toNat (r + 1) = false := by cases e <;> simp [Nat.testBit_succ]
      rw [this]
      simp [offs, set1]
  · rw [Vec.xor, slliw_cvt, set1]
    by_cases h0 : j = 0
    · subst h0; cases e <;> decide
    · simp [h0, offs]

theorem offsetFast_apply (e : Bool) (he : e = decide (b (2 * c.n - 1) = EQ)) (j : Nat) (hj : j < c.n) :
    offsetFast c (shiftData c b 1 0) e j = offs (decide (j = 0) && e) := by
  unfold offsetFast
  split
  · exact offsetOf_apply c e j hj
  · rename_i h
    have hn1 := n_sse (c := c) (by cases h2 : c.avx2 <;> simp_all)
    rw [add, srliSi]
    by_cases h0 : j = 0
    · subst h0
      rw [if_pos (by omega), Vec.and, cmpeq, shiftData_apply, set1, set1, bm_and_byte, show 1 * c.n + (0 + 15) + 0 = 2 * c.n - 1 by omega, ← he]
      cases e <;> decide
    · rw [if_neg (by omega)]
      simp [h0, offs, set1]

end Yenc.Dec.Simd.X86
