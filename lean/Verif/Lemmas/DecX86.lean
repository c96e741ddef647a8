import Verif.Model.DecoderX86
import Verif.Lemmas.Vec
import Verif.Lemmas.DecMask
import Verif.Lemmas.DecSimd
/-! The x86 kernels: lanes and masks. -/
namespace Yenc.Dec.Simd.X86
open Yenc Vec

theorem n_cases (c : Cfg) : c.n = 16 ∨ c.n = 32 := by
  unfold Cfg.n; cases c.avx2 <;> simp

theorem n_sse {c : Cfg} (h : c.avx2 = false) : c.n = 16 := by simp [Cfg.n, h]
theorem n_avx {c : Cfg} (h : c.avx2 = true) : c.n = 32 := by simp [Cfg.n, h]

theorem shiftData_apply (c : Cfg) (b : Nat → Byte) (h o j : Nat) : shiftData c b h o j = b (h * c.n + j + o) := by
  simp only [shiftData, load]; congr 1; omega

/-- `∃` over the two registers. -/
theorem exists_pos {n : Nat} (hn : 0 < n) (P : Nat → Prop) : (∃ j, j < n ∧ (P (0 * n + j) ∨ P (1 * n + j))) ↔ ∃ q, q < 2 * n ∧ P q := by
  constructor
  · rintro ⟨j, hj, h | h⟩
    · exact ⟨_, by omega, h⟩
    · exact ⟨_, by omega, h⟩
  · rintro ⟨q, hq, h⟩
    by_cases h1 : q < n
    · exact ⟨q, h1, .inl (by simpa using h)⟩
    · exact ⟨q - n, by omega, .inr (by rwa [show 1 * n + (q - n) = q by omega])⟩

theorem movemask_ne {n : Nat} (hn : n ≤ 32) (u v : Vec) :
    movemask 32 n (or u v) ≠ 0#_ ↔ ∃ j, j < n ∧ ((u j).msb = true ∨ (v j).msb = true) := by
  rw [ne_zero_iff]
  constructor
  · rintro ⟨j, hj, h⟩
    rw [getLsbD_movemask] at h
    simp only [Vec.or, BitVec.msb_or, Bool.and_eq_true, decide_eq_true_eq, Bool.or_eq_true] at h
    exact ⟨j, h.2⟩
  · rintro ⟨j, hj, h⟩
    refine ⟨j, by omega, ?_⟩
    rw [getLsbD_movemask]
    simp only [Vec.or, BitVec.msb_or, Bool.and_eq_true, decide_eq_true_eq, Bool.or_eq_true]
    exact ⟨by omega, hj, h⟩

theorem kortest_ne {n : Nat} (u v : BitVec n) :
    u ||| v ≠ 0#n ↔ ∃ j, j < n ∧ (u.getLsbD j = true ∨ v.getLsbD j = true) := by
  rw [ne_zero_iff]
  simp only [BitVec.getLsbD_or, Bool.or_eq_true]

theorem getLsbD_maskCmpeq {n : Nat} (k : BitVec n) (a b : Vec) (j : Nat) (hj : j < n) :
    (maskCmpeqMask k a b).getLsbD j = (k.getLsbD j && decide (a j = b j)) := by
  rw [maskCmpeqMask, BitVec.getLsbD_and, getLsbD_cmpeqMask _ _ _ _ hj]

variable (c : Cfg) (b : Nat → Byte)

theorem decide_comm (x y : Byte) : decide (x = y) = decide (y = x) := by
  by_cases h : x = y
  · subst h; rfl
  · rw [decide_eq_false h, decide_eq_false (fun h' => h h'.symm)]

theorem match2CrXDt_apply (h j : Nat) :
    match2CrXDt c b h j = bm (decide (b (h * c.n + j) = CR) && decide (b (h * c.n + j + 2) = DOT)) := by
  simp only [match2CrXDt, Vec.and, cmpeq, shiftData_apply, set1, bm_and, Nat.add_zero]

theorem match1Nl_apply (h j : Nat) :
    match1Nl c b h j = bm (decide (b (h * c.n + j) = CR) && decide (b (h * c.n + j + 1) = LF)) := by
  simp only [match1Nl, Vec.and, cmpeq, shiftData_apply, set1, bm_and, Nat.add_zero]
  rw [Bool.and_comm, decide_comm LF]

/-- A dot is stripped at `q + 2`. -/
def nlDot (q : Nat) : Bool := decide (b q = CR) && decide (b (q + 1) = LF) && decide (b (q + 2) = DOT)

theorem match2NlDot_apply (h j : Nat) : match2NlDot c b h j = bm (nlDot b (h * c.n + j)) := by
  simp only [match2NlDot, Vec.and, match2CrXDt_apply, match1Nl_apply, bm_and, nlDot]
  congr 1
  cases decide (b (h * c.n + j) = CR) <;> simp [Bool.and_comm]

theorem match2Eq_apply (h j : Nat) (hh : h < 2) (hj : j < c.n) : match2Eq c b h j = bm (decide (b (h * c.n + j + 2) = EQ)) := by
  unfold match2Eq
  split
  · rename_i h1
    obtain ⟨rfl, h2, _⟩ := h1
    have hn := n_sse h2
    rw [alignr]
    simp only [cmpeq, shiftData_apply, set1, Nat.zero_mul, Nat.zero_add, Nat.one_mul, Nat.add_zero, hn]
    rw [hn] at hj
    split
    · rfl
    · rw [show 16 + (j + 2 - 16) = j + 2 by omega]
  · simp only [cmpeq, shiftData_apply, set1]
    rw [decide_comm]

theorem match3EqY_apply (h j : Nat) (hh : h < 2) (hj : j < c.n) :
    match3EqY c b h j = bm (decide (b (h * c.n + j + 2) = EQ) && decide (b (h * c.n + j + 3) = LY)) := by
  simp only [match3EqY, Vec.and, match2Eq_apply c b h j hh hj, cmpeq, shiftData_apply, set1, bm_and]
  rw [decide_comm LY]

theorem tmpData4_apply (h j : Nat) (hh : h < 2) (hj : j < c.n) : tmpData4 c b h j = b (h * c.n + j + 4) := by
  unfold tmpData4
  split
  · rename_i h1
    obtain ⟨rfl, h2, _⟩ := h1
    have hn := n_avx h2
    rw [alignr32]
    simp only [shiftData_apply, Nat.zero_mul, Nat.zero_add, Nat.one_mul, Nat.add_zero, hn]
    rw [hn] at hj
    split
    · rfl
    · rw [show 32 + (j + 4 * 1 - 32) = j + 4 by omega]
  · rw [shiftData_apply]

/-- The lanes of a comparison with `=y` in 16-bit units. -/
theorem match4EqY_apply (h j : Nat) (hh : h < 2) (hj : j < c.n) :
    cmpeqw (tmpData4 c b h) (set1w 0x793d#16) j =
      bm (decide (b (h * c.n + 2 * (j / 2) + 4) = EQ) && decide (b (h * c.n + 2 * (j / 2) + 5) = LY)) := by
  have hn := n_cases c
  rw [cmpeqw_apply, tmpData4_apply c b h _ hh (by omega), tmpData4_apply c b h _ hh (by omega), set1w_apply, set1w_apply, if_pos (by omega),
    if_neg (by omega), ← Bool.decide_and]
  rfl

/-- Is there an end mark at `q`? -/
def endAt (q : Nat) : Prop :=
  b q = CR ∧ b (q + 1) = LF ∧
    ((b (q + 2) = DOT ∧ b (q + 3) = CR ∧ b (q + 4) = LF) ∨ (b (q + 2) = DOT ∧ b (q + 3) = EQ ∧ b (q + 4) = LY) ∨
      (b (q + 2) = EQ ∧ b (q + 3) = LY))

theorem matchEndVec_apply (h j : Nat) (hh : h < 2) (hj : j < c.n) (he : endAt b (h * c.n + j)) : (matchEndVec c b h j).msb = true := by
  have hn := n_cases c
  have h3 : match3EqY c b h j = bm (decide (b (h * c.n + j + 2) = EQ) && decide (b (h * c.n + j + 3) = LY)) :=
    match3EqY_apply c b h j hh hj
  obtain ⟨he1, he2, he⟩ := he
  simp only [matchEndVec, Vec.or, Vec.and, slliw8, srliw8, cmpeq, shiftData_apply, tmpData4_apply c b h j hh hj, set1, match2NlDot_apply,
    match1Nl_apply, h3, nlDot, he1, he2]
  rcases he with ⟨h4, h5, h6⟩ | ⟨h4, h5, h6⟩ | ⟨h4, h5⟩
  · simp [h4, h5, h6, BitVec.msb_or, BitVec.msb_and]
  · by_cases hp : j % 2 = 0
    · have h7 : match3EqY c b h (j + 1) = bm true := by
        rw [match3EqY_apply c b h (j + 1) hh (by omega)]
        rw [show h * c.n + (j + 1) + 2 = h * c.n + j + 3 by omega, show h * c.n + (j + 1) + 3 = h * c.n + j + 4 by omega, h5, h6]
        simp
      simp only [if_pos hp, h7]
      simp [h4, BitVec.msb_or, BitVec.msb_and]
    · have h7 : cmpeqw (tmpData4 c b h) (set1w 0x793d#16) (j - 1) = bm true := by
        rw [match4EqY_apply c b h (j - 1) hh (by omega)]
        rw [show h * c.n + 2 * ((j - 1) / 2) + 4 = h * c.n + j + 3 by omega, show h * c.n + 2 * ((j - 1) / 2) + 5 = h * c.n + j + 4 by omega, h5, h6]
        simp
      simp only [if_neg hp, h7]
      simp [h4, BitVec.msb_or, BitVec.msb_and]
  · simp [h4, h5, BitVec.msb_or, BitVec.msb_and]

/-! ### With masks -/

theorem match0CrMask_get (h j : Nat) (hj : j < c.n) : (match0CrMask c b h).getLsbD j = decide (b (h * c.n + j) = CR) := by
  rw [match0CrMask, getLsbD_cmpeqMask _ _ _ _ hj, shiftData_apply]; rfl

theorem match2CrXDtMask_get (h j : Nat) (hj : j < c.n) :
    (match2CrXDtMask c b h).getLsbD j = (decide (b (h * c.n + j) = CR) && decide (b (h * c.n + j + 2) = DOT)) := by
  rw [match2CrXDtMask, getLsbD_maskCmpeq _ _ _ _ hj, match0CrMask_get _ _ _ _ hj, shiftData_apply]; rfl

theorem match1NlMask_get (h j : Nat) (hj : j < c.n) :
    (match1NlMask c b h).getLsbD j = (decide (b (h * c.n + j) = CR) && decide (b (h * c.n + j + 1) = LF)) := by
  rw [match1NlMask, getLsbD_maskCmpeq _ _ _ _ hj, match0CrMask_get _ _ _ _ hj, shiftData_apply, decide_comm (set1 LF j)]; rfl

theorem match2NlDotMask_get (h j : Nat) (hj : j < c.n) : (match2NlDotMask c b h).getLsbD j = nlDot b (h * c.n + j) := by
  rw [match2NlDotMask, BitVec.getLsbD_and, match2CrXDtMask_get _ _ _ _ hj, match1NlMask_get _ _ _ _ hj, nlDot]
  cases decide (b (h * c.n + j) = CR) <;> simp [Bool.and_comm]

theorem match3EqYMask_get (h j : Nat) (hj : j < c.n) :
    (match3EqYMask c b h).getLsbD j = (decide (b (h * c.n + j + 2) = EQ) && decide (b (h * c.n + j + 3) = LY)) := by
  rw [match3EqYMask, getLsbD_maskCmpeq _ _ _ _ hj, match2EqMask, getLsbD_cmpeqMask _ _ _ _ hj, shiftData_apply, shiftData_apply, decide_comm, decide_comm (set1 LY j)]
  rfl

theorem getLsbD_maskTest {n : Nat} (k : BitVec n) (v : Vec) (j : Nat) (hj : j < n) (hk : k.getLsbD j = true) (hv : v j ≠ 0#8) :
    (maskTestMask k v v).getLsbD j = true := by
  rw [maskTestMask, BitVec.getLsbD_and, getLsbD_ofBits, hk]
  simp [hj, hv]

theorem ternary_f8_msb (x y z : Vec) (j : Nat) (h : (x j).msb = true ∨ ((y j).msb = true ∧ (z j).msb = true)) : ternary x y z 0xF8#8 j ≠ 0#8 := by
  intro h0
  have h1 : (ternary x y z 0xF8#8 j).getLsbD 7 = false := by rw [h0]; rfl
  rw [ternary, getLsbD_ofBits] at h1
  have hm : ∀ v : Byte, v.msb = v.getLsbD 7 := fun v => BitVec.msb_eq_getLsbD_last v
  rw [hm, hm, hm] at h
  revert h h1
  cases (x j).getLsbD 7 <;> cases (y j).getLsbD 7 <;> cases (z j).getLsbD 7 <;> decide

theorem matchEndMask_apply (h j : Nat) (hh : h < 2) (hj : j < c.n) (he : endAt b (h * c.n + j)) : (matchEndMask c b h).getLsbD j = true := by
  have hn := n_cases c
  obtain ⟨he1, he2, he⟩ := he
  rw [matchEndMask]
  simp only [BitVec.getLsbD_or, BitVec.getLsbD_and, match3EqYMask_get c b h j hj, match1NlMask_get c b h j hj, Bool.or_eq_true]
  rcases he with ⟨h4, h5, h6⟩ | ⟨h4, h5, h6⟩ | ⟨h4, h5⟩
  · left
    apply getLsbD_maskTest _ _ _ hj
    · rw [match2NlDotMask_get _ _ _ _ hj, nlDot, he1, he2, h4]; rfl
    · apply ternary_f8_msb
      right
      simp [cmpeq, shiftData_apply, tmpData4_apply c b h j hh hj, set1, h5, h6]
  · left
    apply getLsbD_maskTest _ _ _ hj
    · rw [match2NlDotMask_get _ _ _ _ hj, nlDot, he1, he2, h4]; rfl
    · apply ternary_f8_msb
      left
      by_cases hp : j % 2 = 0
      · have h7 : (match3EqYMask c b h).getLsbD (j + 1) = true := by
          rw [match3EqYMask_get _ _ _ _ (by omega)]
          rw [show h * c.n + (j + 1) + 2 = h * c.n + j + 3 by omega, show h * c.n + (j + 1) + 3 = h * c.n + j + 4 by omega, h5, h6]
          simp
        unfold match34EqY
        split
        · rw [shrdiw8, if_pos hp, movm, h7]; rfl
        · rw [maskBlend, BitVec.getLsbD_ushiftRight, Nat.add_comm, h7, if_pos rfl, set1]; decide
      · have h7 : ∀ k, k = j ∨ k = j - 1 → cmpeqw (tmpData4 c b h) (set1w 0x793d#16) k = bm true := by
          intro k hk
          rw [match4EqY_apply c b h k hh (by omega)]
          rw [show h * c.n + 2 * (k / 2) + 4 = h * c.n + j + 3 by omega, show h * c.n + 2 * (k / 2) + 5 = h * c.n + j + 4 by omega, h5, h6]
          simp
        unfold match34EqY
        split
        · rw [shrdiw8, if_neg hp, h7 _ (.inr rfl)]; rfl
        · rw [maskBlend]
          split
          · rw [set1]; decide
          · rw [Vec.and, h7 _ (.inl rfl), set1w_apply, if_neg hp]; rfl
  · right
    simp [he1, he2, h4, h5]

/-! ### The line break handling -/

theorem partialKill_iff : partialKillDotFound c b = true ↔ ∃ q, q < 2 * c.n ∧ b q = CR ∧ b (q + 2) = DOT := by
  have hn := n_cases c
  rw [← exists_pos (by omega) fun q => b q = CR ∧ b (q + 2) = DOT]
  unfold partialKillDotFound
  split
  · rw [decide_eq_true_eq, kortest_ne]
    constructor
    · rintro ⟨j, hj, h⟩
      refine ⟨j, hj, ?_⟩
      rw [match2CrXDtMask_get _ _ _ _ hj, match2CrXDtMask_get _ _ _ _ hj] at h
      simpa using h
    · rintro ⟨j, hj, h⟩
      refine ⟨j, hj, ?_⟩
      rw [match2CrXDtMask_get _ _ _ _ hj, match2CrXDtMask_get _ _ _ _ hj]
      simpa using h
  · rw [decide_eq_true_eq, movemask_ne (by omega)]
    simp only [match2CrXDt_apply, msb_bm, Bool.and_eq_true, decide_eq_true_eq]

theorem matchEnd_of (h : ∃ q, q < 2 * c.n ∧ endAt b q) : matchEnd c b = true := by
  have hn := n_cases c
  rw [← exists_pos (by omega)] at h
  obtain ⟨j, hj, h⟩ := h
  unfold matchEnd
  split
  · rw [decide_eq_true_eq, kortest_ne]
    exact ⟨j, hj, h.imp (matchEndMask_apply c b 0 j (by omega) hj) (matchEndMask_apply c b 1 j (by omega) hj)⟩
  · rw [decide_eq_true_eq, movemask_ne (by omega)]
    exact ⟨j, hj, h.imp (matchEndVec_apply c b 0 j (by omega) hj) (matchEndVec_apply c b 1 j (by omega) hj)⟩

theorem endFound_of (h : ∃ q, q < 2 * c.n ∧ b q = CR ∧ b (q + 1) = LF ∧ b (q + 2) = EQ ∧ b (q + 3) = LY) :
    partialEndFound c b = true ∧ endFound c b = true := by
  have hn := n_cases c
  rw [← exists_pos (by omega)] at h
  obtain ⟨j, hj, h⟩ := h
  unfold partialEndFound endFound
  by_cases hm : c.maskCmp = true
  · rw [if_pos hm, if_pos hm, decide_eq_true_eq, decide_eq_true_eq, kortest_ne, kortest_ne]
    constructor
    · refine ⟨j, hj, h.imp ?_ ?_⟩ <;> rintro ⟨_, _, h3, h4⟩ <;> rw [match3EqYMask_get _ _ _ _ hj, h3, h4] <;> rfl
    · refine ⟨j, hj, h.imp ?_ ?_⟩ <;> rintro ⟨h1, h2, h3, h4⟩ <;>
        rw [getLsbD_maskCmpeq _ _ _ _ hj, getLsbD_maskCmpeq _ _ _ _ hj, match3EqYMask_get _ _ _ _ hj, shiftData_apply, shiftData_apply, h2, h3, h4,
          Nat.add_zero, h1] <;> rfl
  · rw [if_neg hm, if_neg hm, decide_eq_true_eq, decide_eq_true_eq, movemask_ne (by omega), movemask_ne (by omega)]
    constructor
    · refine ⟨j, hj, h.imp ?_ ?_⟩ <;> rintro ⟨_, _, h3, h4⟩ <;> rw [match3EqY_apply c b _ _ (by omega) hj, h3, h4] <;> rfl
    · refine ⟨j, hj, h.imp ?_ ?_⟩ <;> rintro ⟨h1, h2, h3, h4⟩ <;>
        rw [Vec.and, match3EqY_apply c b _ _ (by omega) hj, match1Nl_apply, h2, h3, h4, h1] <;> rfl

theorem addDots_get (mask : BitVec (2 * c.n)) (q : Nat) (hq : q < 2 * c.n) :
    (addDots c b mask).getLsbD q = (mask.getLsbD q || (decide (2 ≤ q) && nlDot b (q - 2))) := by
  have hn := n_cases c
  unfold addDots
  split
  all_goals
    simp only [BitVec.getLsbD_or, BitVec.getLsbD_shiftLeft, BitVec.getLsbD_setWidth, getLsbD_movemask, hq, decide_true, Bool.true_and,
      match2NlDot_apply, msb_bm, Bool.or_assoc]
    congr 1
    by_cases h1 : q < 2
    · simp only [h1, show q < c.n + 2 by omega, show ¬ 2 ≤ q by omega, decide_true, decide_false, Bool.not_true, Bool.false_and, Bool.or_false]
    · by_cases h2 : q < c.n + 2
      · simp only [h1, h2, show 2 ≤ q by omega, show q - 2 < c.n by omega, show q - 2 < 2 * c.n by omega, decide_true, decide_false, Bool.not_true, Bool.not_false,
          Bool.false_and, Bool.true_and, Bool.or_false, match2NlDotMask_get _ _ _ _ (show q - 2 < c.n by omega), Nat.zero_mul, Nat.zero_add]
      · have h3 : (match2NlDotMask c b 0).getLsbD (q - 2) = false := BitVec.getLsbD_of_ge _ _ (by omega)
        simp only [h1, h2, h3, show 2 ≤ q by omega, show ¬ q - 2 < c.n by omega, show q - (c.n + 2) < c.n by omega, show q - (c.n + 2) < 2 * c.n by omega, show q - 2 < 2 * c.n by omega, decide_true, decide_false,
          Bool.not_false, Bool.false_and, Bool.true_and, Bool.false_or, match2NlDotMask_get _ _ _ _ (show q - (c.n + 2) < c.n by omega),
          show 1 * c.n + (q - (c.n + 2)) = q - 2 by omega]

/-- Lane `j` of `minMask` resp. `lfCompare` when `pd` is the pending `nextMask`. -/
def cmpLane (pd j : Nat) : Byte :=
  if (j = 0 ∧ pd = 1) ∨ (j = 1 ∧ pd = 2) then (if c.fast then 0#8 else DOT) else (if c.fast then DOT else LF)

theorem fresh_lane (j : Nat) : fresh c j = cmpLane c 0 j := by
  unfold fresh cmpLane
  rw [if_neg (show ¬ ((j = 0 ∧ 0 = 1) ∨ (j = 1 ∧ 0 = 2)) by omega)]
  split <;> rfl

theorem nextCmp_lane (hv : c.Valid) (pd : Nat) (h1 : pd = 1 ↔ nlDot b (2 * c.n - 2) = true) (h2 : pd = 2 ↔ nlDot b (2 * c.n - 1) = true)
    (j : Nat) (hj : j < c.n) : nextCmp c b j = cmpLane c pd j := by
  have hn := n_cases c
  have key : ∀ k, k = 0 ∨ k = 1 → (nlDot b (c.n + (c.n - 2 + k)) = true ↔ (k = 0 ∧ pd = 1) ∨ (k = 1 ∧ pd = 2)) := by
    intro k hk
    rcases hk with rfl | rfl
    · rw [show c.n + (c.n - 2 + 0) = 2 * c.n - 2 by omega, ← h1]; simp
    · rw [show c.n + (c.n - 2 + 1) = 2 * c.n - 1 by omega, ← h2]; simp
  by_cases h01 : j = 0 ∨ j = 1
  · have hk := key j h01
    unfold nextCmp cmpLane
    split
    · rename_i hm
      rw [if_pos (hv.1 hm), maskzMov, BitVec.getLsbD_not, BitVec.getLsbD_ushiftRight, match2NlDotMask_get _ _ _ _ (by omega), Nat.one_mul]
      by_cases hd : nlDot b (c.n + (c.n - 2 + j)) = true
      · rw [if_pos (hk.1 hd), hd]; simp
      · rw [if_neg (fun h => hd (hk.2 h)), if_pos (by simp [hj, hd]), if_pos (hv.1 hm)]; rfl
    · have h3 : nlDotTail c b j = bm (nlDot b (c.n + (c.n - 2 + j))) := by
        rw [nlDotTail, srliSi, if_pos (by omega), match2NlDot_apply, Nat.one_mul]
        congr 2
        omega
      split
      · rename_i hf
        rw [subsu, h3, set1]
        by_cases hd : nlDot b (c.n + (c.n - 2 + j)) = true
        · rw [if_pos (hk.1 hd), hd]; decide
        · rw [if_neg (fun h => hd (hk.2 h)), Bool.not_eq_true _ |>.mp hd]; decide
      · rename_i hf
        rw [Vec.or, Vec.and, h3, set1, set1]
        by_cases hd : nlDot b (c.n + (c.n - 2 + j)) = true
        · rw [if_pos (hk.1 hd), hd]; decide
        · rw [if_neg (fun h => hd (hk.2 h)), Bool.not_eq_true _ |>.mp hd]; decide
  · unfold nextCmp cmpLane
    rw [if_neg (show ¬ ((j = 0 ∧ pd = 1) ∨ (j = 1 ∧ pd = 2)) by omega)]
    split
    · rename_i hm
      rw [if_pos (hv.1 hm), maskzMov, BitVec.getLsbD_not, BitVec.getLsbD_ushiftRight, BitVec.getLsbD_of_ge _ _ (by omega)]
      simp [hj, set1]
    · have h3 : nlDotTail c b j = 0#8 := by
        rw [nlDotTail, srliSi, if_neg (by omega)]
      split
      · rw [subsu, h3, set1]; decide
      · rw [Vec.or, Vec.and, h3, set1, set1]; decide

end Yenc.Dec.Simd.X86
