import Verif.Lemmas.DecX86Data
import Verif.Lemmas.DecX86Compact
/-! The x86 kernels: a round as a whole. -/
namespace Yenc.Dec.Simd.X86
open Yenc Vec

variable (c : Cfg)

/-- Registers that go with a carried escape `e` and a pending `nextMask` of `pd`. -/
def Rel (s : Regs) (e : Bool) (pd : Nat) : Prop :=
  s.esc = e ∧ (∀ j, j < c.n → s.off j = offs (decide (j = 0) && e)) ∧ ∀ j, j < c.n → s.cmp j = cmpLane c pd j

theorem val_eq (B : Nat → Byte) (e : Bool) (j : Nat) : val B e j = B (j + 4) + offs (escP B e j) := by
  unfold val offs
  split <;> exact BitVec.sub_eq_add_neg _ _

theorem escAt_escP (B : Nat → Byte) (e : Bool) (m : Nat → Bool) (w : Nat) (h : ∀ q, q < w → m q = decide (B (q + 4) = EQ)) (i : Nat) (hi : i < w) :
    escAt m e i = escP B e (i + 1) := by
  induction i with
  | zero => rw [escAt, escP, escP, h 0 hi]
  | succ i ih => rw [escAt, escP, ih (by omega), h _ hi]

theorem unescape_ok (s : Regs) (e : Bool) (hs : s.esc = e) (hoff : ∀ j, j < c.n → s.off j = offs (decide (j = 0) && e)) (raw : Bool) (B b : Nat → Byte)
    (hb : ∀ k, b k = B (k + 4)) (mask maskEq : BitVec (2 * c.n)) (hm : ∀ q, q < 2 * c.n → mask.getLsbD q = (special (b q) || killed raw B q))
    (hq : ∀ q, q < 2 * c.n → maskEq.getLsbD q = decide (b q = EQ)) (cmp : Vec) :
    ∃ stores adv off, unescape c s b mask maskEq cmp = .next stores adv ⟨escP B e (2 * c.n), off, cmp⟩ ∧
      (∀ j, j < c.n → off j = offs (decide (j = 0) && escP B e (2 * c.n))) ∧ Puts (removed raw B e) (val B e) (2 * c.n) stores adv := by
  subst hs
  have hn := n_cases c
  obtain ⟨w, hw⟩ : ∃ w, 2 * c.n = w + 1 := ⟨2 * c.n - 1, by omega⟩
  have hsh : ∀ q, q < 2 * c.n → (maskEq <<< 1 + BitVec.ofNat _ s.esc.toNat).getLsbD q = if q = 0 then s.esc else maskEq.getLsbD (q - 1) :=
    fun q h => shl1_add_getLsbD _ _ _ h
  have hq' : ∀ q, q < 2 * c.n → maskEq.getLsbD q = decide (B (q + 4) = EQ) := fun q h => by rw [hq q h, hb]
  have hrm : ∀ q, q < 2 * c.n → removed raw B s.esc q = (!escP B s.esc q && mask.getLsbD q) := by
    intro q h
    rw [hm q h, removed, special, hb]
  unfold unescape
  by_cases h0 : mask &&& (maskEq <<< 1 + BitVec.ofNat _ s.esc.toNat) ≠ 0#_
  · -- some `=` is escaped or a line break follows one
    have hfix : ∀ i, i < 2 * c.n → (fixEqMask maskEq (maskEq <<< 1 + BitVec.ofNat _ s.esc.toNat)).getLsbD i = escP B s.esc (i + 1) := by
      intro i hi
      rw [fixEqMask_getLsbD (by omega) _ _ s.esc (fun h => by rw [hsh 0 h, if_pos rfl])
        (fun i h => by rw [hsh _ h, if_neg (by omega), Nat.add_sub_cancel]) i hi]
      exact escAt_escP B s.esc _ (2 * c.n) hq' i hi
    have hx : ∀ q, q < 2 * c.n → (fixEqMask maskEq (maskEq <<< 1 + BitVec.ofNat _ s.esc.toNat) <<< 1).getLsbD q = (decide (1 ≤ q) && escP B s.esc q) := by
      intro q h
      rw [BitVec.getLsbD_shiftLeft]
      by_cases h0 : q = 0
      · subst h0; simp
      · rw [hfix _ (by omega), show q - 1 + 1 = q by omega]
        simp [h, show ¬ q < 1 by omega, show 1 ≤ q by omega]
    have hesc := hfix (2 * c.n - 1) (by omega)
    rw [show 2 * c.n - 1 + 1 = 2 * c.n by omega] at hesc
    simp only [if_pos h0, hesc]
    refine ⟨_, _, _, rfl, fun j hj => offsetOf_apply c _ j hj, ?_⟩
    · apply (compact_puts c _ _ _).congr
      · intro q h
        rw [hrm q h, BitVec.getLsbD_and, BitVec.getLsbD_and, BitVec.getLsbD_not, BitVec.getLsbD_not, hx q h, BitVec.getLsbD_ofNat]
        by_cases h0 : q = 0
        · subst h0
          have : Nat.testBit s.esc.toNat 0 = s.esc := by cases s.esc <;> rfl
          rw [this]
          simp only [h, decide_true, Bool.true_and, show ¬ 1 ≤ 0 by omega, decide_false, Bool.false_and, Bool.not_false, Bool.and_true, escP]
          exact Bool.and_comm _ _
        · obtain ⟨r, rfl⟩ : ∃ r, q = r + 1 := ⟨q - 1, by omega⟩
          have : Nat.testBit s.esc.toNat (r + 1) = false := by cases s.esc <;> simp [Nat.testBit_succ]
          rw [this]
          simp only [h, decide_true, Bool.true_and, show 1 ≤ r + 1 by omega, Bool.and_false, Bool.not_false, Bool.and_true]
          exact Bool.and_comm _ _
      · intro q h
        have := dataFix_apply c b s.off (escP B s.esc) _ hx (by intro j hj; rw [hoff j hj]; rfl) q h
        refine this.trans ?_
        rw [val_eq, hb]
  · have hz := (eq_zero_iff _).1 (Decidable.not_not.1 h0)
    have hno : ∀ q, q < 2 * c.n → (mask.getLsbD q && (if q = 0 then s.esc else maskEq.getLsbD (q - 1))) = false := by
      intro q h
      have := hz q h
      rwa [BitVec.getLsbD_and, hsh q h] at this
    -- an escaped character is not in the mask, in particular no `=`
    have hE : ∀ q, q < 2 * c.n → escP B s.esc (q + 1) = decide (b q = EQ) := by
      intro q h
      induction q with
      | zero =>
        have := hno 0 h
        rw [if_pos rfl, hm 0 h, special] at this
        rw [escP, escP, ← hb]
        cases hd : decide (b 0 = EQ)
        · rfl
        · rw [hd] at this; simpa using this
      | succ q ih =>
        have := hno (q + 1) h
        rw [if_neg (by omega), hm _ h, special, Nat.add_sub_cancel, hq q (by omega)] at this
        rw [escP, ih (by omega), ← hb]
        cases hd : decide (b (q + 1) = EQ)
        · rfl
        · rw [hd] at this; simpa using this
    have hE0 : ∀ q, q < 2 * c.n → (mask.getLsbD q && escP B s.esc q) = false := by
      intro q h
      cases q with
      | zero => exact hno 0 h
      | succ q =>
        have := hno (q + 1) h
        rwa [if_neg (by omega), Nat.add_sub_cancel, hq q (by omega), ← hE q (by omega)] at this
    have hesc := hq (2 * c.n - 1) (by omega)
    have hesc' := hE (2 * c.n - 1) (by omega)
    rw [show 2 * c.n - 1 + 1 = 2 * c.n by omega] at hesc'
    rw [← hesc'] at hesc
    simp only [if_neg h0, hesc]
    refine ⟨_, _, _, rfl, fun j hj => offsetFast_apply c b _ hesc' j hj, ?_⟩
    · apply (compact_puts c _ _ _).congr
      · intro q h
        rw [hrm q h]
        have := hE0 q h
        cases h1 : mask.getLsbD q <;> cases h2 : escP B s.esc q <;> simp_all
      · intro q h
        have := dataFast_apply c b s.off (escP B s.esc) maskEq hq (fun q h => hE q (by omega)) (by intro j hj; rw [hoff j hj]; rfl) q h
        refine this.trans ?_
        rw [val_eq, hb]

/-! ### What is pending -/

theorem pendOf_le (md : Mode) (B : Nat → Byte) : pendOf md B = 0 ∨ pendOf md B = 1 ∨ pendOf md B = 2 := by
  unfold pendOf setNextMask
  split
  · split
    · simp
    · split <;> simp
  · simp

theorem pendOf_one (md : Mode) (hr : md.isRaw = true) (B : Nat → Byte) : pendOf md B = 1 ↔ B 2 = CR ∧ B 3 = LF ∧ B 4 = DOT := by
  rw [pendOf_raw md hr]
  by_cases h : B 2 = CR ∧ B 3 = LF ∧ B 4 = DOT
  · simp [h]
  · rw [if_neg h]
    split <;> simp [h]

theorem pendOf_two (md : Mode) (hr : md.isRaw = true) (B : Nat → Byte) : pendOf md B = 2 ↔ B 3 = CR ∧ B 4 = LF ∧ B 5 = DOT := by
  rw [pendOf_raw md hr]
  by_cases h : B 2 = CR ∧ B 3 = LF ∧ B 4 = DOT
  · rw [if_pos h, h.2.1]
    simp only [show (1 : Nat) ≠ 2 by decide, false_iff, not_and]
    intro h'
    exact absurd h' (by decide)
  · rw [if_neg h]
    by_cases h2 : B 3 = CR ∧ B 4 = LF ∧ B 5 = DOT
    · simp [h2]
    · simp [h2]

theorem pendOf_plain (md : Mode) (hr : md.isRaw = false) (B : Nat → Byte) : pendOf md B = 0 := by
  simp [pendOf, setNextMask, hr]

theorem pend_dot (md : Mode) (B b : Nat → Byte) (hb : ∀ k, b k = B (k + 4)) (j : Nat) (h : pend (pendOf md B) j = true) : b j = DOT := by
  by_cases hr : md.isRaw = true
  · simp only [pend, decide_eq_true_eq, pendOf_one md hr, pendOf_two md hr] at h
    rcases h with ⟨rfl, _, _, h⟩ | ⟨rfl, _, _, h⟩
    · rw [hb]; exact h
    · rw [hb]; exact h
  · rw [pendOf_plain md (Bool.not_eq_true _ |>.mp hr)] at h
    simp [pend] at h

theorem killed_raw (md : Mode) (hr : md.isRaw = true) (B b : Nat → Byte) (hb : ∀ k, b k = B (k + 4)) (q : Nat) :
    killed true B q = (pend (pendOf md B) q || (decide (2 ≤ q) && nlDot b (q - 2))) := by
  have h1 := pendOf_one md hr B
  have h2 := pendOf_two md hr B
  rw [Bool.eq_iff_iff]
  match q with
  | 0 =>
    simp only [killed, pend, Bool.true_and, Bool.and_eq_true, decide_eq_true_eq, Bool.or_eq_true, Nat.zero_add, true_and, h1]
    constructor
    · rintro ⟨⟨a, b⟩, c⟩; exact .inl (.inl ⟨a, b, c⟩)
    · rintro ((⟨a, b, c⟩ | h) | h)
      · exact ⟨⟨a, b⟩, c⟩
      · omega
      · omega
  | 1 =>
    simp only [killed, pend, Bool.true_and, Bool.and_eq_true, decide_eq_true_eq, Bool.or_eq_true, true_and, h2]
    constructor
    · rintro ⟨⟨a, b⟩, c⟩; exact .inl (.inr ⟨a, b, c⟩)
    · rintro ((h | ⟨a, b, c⟩) | h)
      · omega
      · exact ⟨⟨a, b⟩, c⟩
      · omega
  | r + 2 =>
    have h3 : pend (pendOf md B) (r + 2) = false := by simp [pend]
    simp only [killed, h3, nlDot, Bool.true_and, Bool.and_eq_true, decide_eq_true_eq, Bool.or_eq_true, Bool.false_eq_true, false_or, Nat.add_sub_cancel, hb]
    constructor
    · rintro ⟨⟨a, b⟩, c⟩
      exact ⟨by omega, ⟨a, by rw [← b]⟩, c⟩
    · rintro ⟨_, ⟨a, b⟩, c⟩
      exact ⟨⟨a, by rw [← b]⟩, c⟩

theorem next_one (md : Mode) (hr : md.isRaw = true) (B b : Nat → Byte) (hb : ∀ k, b k = B (k + 4)) (w : Nat) (hw : 2 ≤ w) :
    pendOf md (shift w B) = 1 ↔ nlDot b (w - 2) = true := by
  rw [pendOf_one md hr]
  simp only [shift, nlDot, Bool.and_eq_true, decide_eq_true_eq, hb, and_assoc]
  rw [show w - 2 + 4 = w + 2 by omega, show w - 2 + 1 + 4 = w + 3 by omega, show w - 2 + 2 + 4 = w + 4 by omega]

theorem next_two (md : Mode) (hr : md.isRaw = true) (B b : Nat → Byte) (hb : ∀ k, b k = B (k + 4)) (w : Nat) (hw : 2 ≤ w) :
    pendOf md (shift w B) = 2 ↔ nlDot b (w - 1) = true := by
  rw [pendOf_two md hr]
  simp only [shift, nlDot, Bool.and_eq_true, decide_eq_true_eq, hb, and_assoc]
  rw [show w - 1 + 4 = w + 3 by omega, show w - 1 + 1 + 4 = w + 4 by omega, show w - 1 + 2 + 4 = w + 5 by omega]

theorem next_zero (md : Mode) (hr : md.isRaw = true) (B b : Nat → Byte) (hb : ∀ k, b k = B (k + 4)) (w : Nat) (hw : 2 ≤ w)
    (h : ∀ q, q < w → nlDot b q = false) : pendOf md (shift w B) = 0 := by
  have h1 := next_one md hr B b hb w hw
  have h2 := next_two md hr B b hb w hw
  rw [h _ (by omega)] at h1 h2
  have := pendOf_le md (shift w B)
  generalize pendOf md (shift w B) = pd at *
  simp at h1 h2
  omega

theorem term_end (B b : Nat → Byte) (hb : ∀ k, b k = B (k + 4)) (j : Nat) : TermAt B (j + 4) ↔ endAt b j := by
  unfold TermAt endAt
  simp only [hb]

theorem nextMaskAt (md : Mode) (hr : md.isRaw = true) (B b : Nat → Byte) (hb : ∀ k, b k = B (k + 4)) (m0 m1 : Bool)
    (h0 : m0 = (special (b 0) || pend (pendOf md B) 0)) (h1 : m1 = (special (b 1) || pend (pendOf md B) 1)) :
    setNextMaskAt md.isRaw b m0 m1 = pendOf md B := by
  have p1 := pendOf_one md hr B
  have p2 := pendOf_two md hr B
  have p3 := pendOf_le md B
  have hs : special DOT = false := by decide
  have hd : DOT ≠ LF := by decide
  unfold setNextMaskAt
  rw [if_pos hr, h0, h1]
  by_cases d0 : b 0 = DOT
  · rw [if_pos d0, d0, hs]
    have : pendOf md B ≠ 2 := by
      intro h
      have := (p2.1 h).2.1
      have h4 : b 0 = B 4 := hb 0
      rw [← h4, d0] at this
      exact hd this
    clear p1 p2 h0 h1
    generalize pendOf md B = pd at *
    simp only [pend, Bool.false_or, decide_eq_true_eq]
    rcases p3 with rfl | rfl | rfl <;> simp_all
  · rw [if_neg d0]
    have : pendOf md B ≠ 1 := by
      intro h
      have := (p1.1 h).2.2
      have h4 : b 0 = B 4 := hb 0
      rw [← h4] at this
      exact d0 this
    by_cases d1 : b 1 = DOT
    · rw [if_pos d1, d1, hs]
      clear p1 p2 h0 h1
      generalize pendOf md B = pd at *
      simp only [pend, Bool.false_or, decide_eq_true_eq]
      rcases p3 with rfl | rfl | rfl <;> simp_all
    · rw [if_neg d1]
      have : pendOf md B ≠ 2 := by
        intro h
        have := (p2.1 h).2.2
        have h4 : b 1 = B 5 := hb 1
        rw [← h4] at this
        exact d1 this
      omega

/-! ### A round -/

/-- What is to be shown of a round. -/
def RoundOk (md : Mode) (B : Nat → Byte) (e : Bool) : Round Regs → Prop
  | .brk nm => md = .endRaw ∧ nm = pendOf md B
  | .next stores adv s' => Puts (removed md.isRaw B e) (val B e) (2 * c.n) stores adv ∧ Rel c s' (escP B e (2 * c.n)) (pendOf md (shift (2 * c.n) B)) ∧
      (md = .endRaw → ∀ j, j < 2 * c.n → ¬ TermAt B (j + 4))

theorem roundOk_unescape (md : Mode) (s : Regs) (e : Bool) (B b : Nat → Byte) (hb : ∀ k, b k = B (k + 4)) (hs : s.esc = e)
    (hoff : ∀ j, j < c.n → s.off j = offs (decide (j = 0) && e)) (mask maskEq : BitVec (2 * c.n))
    (hm : ∀ q, q < 2 * c.n → mask.getLsbD q = (special (b q) || killed md.isRaw B q)) (hq : ∀ q, q < 2 * c.n → maskEq.getLsbD q = decide (b q = EQ)) (cmp : Vec)
    (hc : ∀ j, j < c.n → cmp j = cmpLane c (pendOf md (shift (2 * c.n) B)) j)
    (ht : md = .endRaw → ∀ j, j < 2 * c.n → ¬ endAt b j) : RoundOk c md B e (unescape c s b mask maskEq cmp) := by
  obtain ⟨stores, adv, off, h1, h2, h3⟩ := unescape_ok c s e hs hoff md.isRaw B b hb mask maskEq hm hq cmp
  rw [h1]
  exact ⟨h3, ⟨rfl, h2, hc⟩, fun h j hj => by rw [term_end B b hb]; exact ht h j hj⟩

theorem iter_ok (hv : c.Valid) (md : Mode) (s : Regs) (e : Bool) (B b : Nat → Byte) (hb : ∀ k, b k = B (k + 4)) (hR : Rel c s e (pendOf md B)) :
    RoundOk c md B e (iter c md s b).round := by
  have hn := n_cases c
  obtain ⟨hs, hoff, hcmp⟩ := hR
  have s0 : ∀ j, shiftData c b 0 0 j = b j := fun j => by rw [shiftData_apply]; congr 1; omega
  have s1 : ∀ j, shiftData c b 1 0 j = b (c.n + j) := fun j => by rw [shiftData_apply]; congr 1; omega
  have hmask := mask_get c b s.cmp (pendOf md B) hcmp (pend_dot md B b hb)
  have hmeq := maskEq_get c b
  have h3 := pendOf_le md B
  have hkr : md.isRaw = true → ∀ q, killed md.isRaw B q = (pend (pendOf md B) q || (decide (2 ≤ q) && nlDot b (q - 2))) := by
    intro hr q; rw [hr]; exact killed_raw md hr B b hb q
  have hkp : md.isRaw = false → ∀ q, killed md.isRaw B q = false := by
    intro hr q; rw [hr]; simp [killed]
  -- a round without line break characters
  have quiet : (∀ q, q < 2 * c.n → b q ≠ CR) → pendOf md B = 0 → (∀ q, q < 2 * c.n → killed md.isRaw B q = false) ∧ pendOf md (shift (2 * c.n) B) = 0 ∧
      (∀ j, j < 2 * c.n → ¬ endAt b j) := by
    intro hcr hp
    have hnl : ∀ q, q < 2 * c.n → nlDot b q = false := fun q h => by simp [nlDot, hcr q h]
    refine ⟨?_, ?_, fun j hj h => hcr j hj h.1⟩
    · intro q h
      by_cases hr : md.isRaw = true
      · rw [hkr hr, hp, hnl _ (by omega)]; simp [pend]
      · exact hkp (Bool.not_eq_true _ |>.mp hr) q
    · by_cases hr : md.isRaw = true
      · exact next_zero md hr B b hb _ (by omega) hnl
      · exact pendOf_plain md (Bool.not_eq_true _ |>.mp hr) _
  have pzero : ∀ x, pend x 0 = false → pend x 1 = false → (x = 0 ∨ x = 1 ∨ x = 2) → x = 0 := by
    intro x h0 h1 hx
    simp only [pend, decide_eq_false_iff_not] at h0 h1
    rcases hx with rfl | rfl | rfl <;> simp at h0 h1 ⊢
  unfold iter
  simp only
  generalize hM : mask2 c (cmpVec c s.cmp (shiftData c b 0 0)) (cmpVec c (fresh c) (shiftData c b 1 0)) = mask at *
  generalize hMe : mask2 c (cmpeq (shiftData c b 0 0) (set1 EQ)) (cmpeq (shiftData c b 1 0) (set1 EQ)) = maskEq at *
  by_cases hz : mask = 0#_
  · rw [if_neg (by simp [hz])]
    have hz' : ∀ q, q < 2 * c.n → special (b q) = false ∧ pend (pendOf md B) q = false := by
      intro q h
      have := hmask q h
      rw [hz] at this
      simp only [BitVec.getLsbD_zero] at this
      have := this.symm
      simpa [Bool.or_eq_false_iff] using this
    have hsp : ∀ q, q < 2 * c.n → b q ≠ EQ ∧ b q ≠ CR ∧ b q ≠ LF := by
      intro q h
      have := (hz' q h).1
      simpa [special, and_assoc] using this
    have hp := pzero _ (hz' 0 (by omega)).2 (hz' 1 (by omega)).2 h3
    obtain ⟨k1, k2, k3⟩ := quiet (fun q h => (hsp q h).2.1) hp
    have hE : ∀ q, q < 2 * c.n → escP B e (q + 1) = false := by
      intro q h
      rw [escP, ← hb]
      simp [(hsp q h).1]
    have hrm : ∀ q, q < 2 * c.n → removed md.isRaw B e q = false := by
      intro q h
      rw [removed, k1 q h, ← hb]
      simp [(hsp q h).1, (hsp q h).2.1, (hsp q h).2.2]
    have hEw : escP B e (2 * c.n) = false := by
      have := hE (2 * c.n - 1) (by omega)
      rwa [show 2 * c.n - 1 + 1 = 2 * c.n by omega] at this
    refine ⟨?_, ⟨hEw.symm, ?_, ?_⟩, fun _ j hj => by rw [term_end B b hb]; exact k3 j hj⟩
    · have hc0 : cnt (removed md.isRaw B e) c.n = 0 := by
        rw [← cnt_false c.n]
        exact cnt_congr fun j hj => hrm j (by omega)
      have hc1 : cnt (fun j => removed md.isRaw B e (c.n + j)) c.n = 0 := by
        rw [← cnt_false c.n]
        exact cnt_congr fun j hj => hrm _ (by omega)
      refine Puts.two ((Half.full _ _ (removed md.isRaw B e) fun j hj => hrm j (by omega)).congr (fun _ _ => rfl) ?_)
        ((Half.full _ _ (fun j => removed md.isRaw B e (c.n + j)) fun j hj => hrm _ (by omega)).congr (fun _ _ => rfl) ?_) (by omega) (by omega)
      · intro j hj
        rw [add, s0, hoff j hj, val_eq, hb]
        congr 2
        cases j with
        | zero => simp [escP]
        | succ j => rw [hE j (by omega)]; simp
      · intro j hj
        rw [add, s1, set1, val_eq, hb]
        have := hE (c.n + j - 1) (by omega)
        rw [show c.n + j - 1 + 1 = c.n + j by omega] at this
        rw [this]; rfl
    · intro j hj
      rw [hEw]; simp [offs, set1]
    · intro j hj
      rw [k2, ← hp]; exact hcmp j hj
  · rw [if_pos hz]
    by_cases hr : md.isRaw = true
    · by_cases he : mask = maskEq
      · -- only `=`
        rw [if_neg (by simp [he])]
        have hsp : ∀ q, q < 2 * c.n → b q ≠ CR ∧ pend (pendOf md B) q = false := by
          intro q h
          have h1 := hmask q h
          rw [he, hmeq q h] at h1
          refine ⟨?_, ?_⟩
          · intro h2
            rw [h2] at h1
            simp [special] at h1
          · by_cases hpd : pend (pendOf md B) q = true
            · have h2 := pend_dot md B b hb q hpd
              rw [h2, hpd] at h1
              simp at h1
            · exact Bool.not_eq_true _ |>.mp hpd
        have hp := pzero _ (hsp 0 (by omega)).2 (hsp 1 (by omega)).2 h3
        obtain ⟨k1, k2, k3⟩ := quiet (fun q h => (hsp q h).1) hp
        apply roundOk_unescape c md s e B b hb hs hoff _ _ _ hmeq _ _ (fun _ => k3)
        · intro q h
          rw [hmask q h, (hsp q h).2, k1 q h]
        · intro j hj
          rw [k2, ← hp]; exact hcmp j hj
      · rw [if_pos ⟨hr, he⟩]
        unfold dots
        have hnm := nextMaskAt md hr B b hb _ _ (hmask 0 (by omega)) (hmask 1 (by omega))
        by_cases hk : partialKillDotFound c b = true
        · simp only [hk, if_true]
          by_cases hse : md.searchEnd = true ∧ matchEnd c b = true
          · rw [if_pos hse]
            exact ⟨by cases md <;> simp_all [Mode.searchEnd], hnm⟩
          · rw [if_neg hse]
            apply roundOk_unescape c md s e B b hb hs hoff _ _ _ hmeq
            · exact fun j hj => nextCmp_lane c b hv _ (next_one md hr B b hb _ (by omega)) (next_two md hr B b hb _ (by omega)) j hj
            · intro hmd j hj h
              apply hse
              exact ⟨by rw [hmd]; rfl, matchEnd_of c b ⟨j, hj, h⟩⟩
            · intro q h
              rw [addDots_get c b _ q h, hmask q h, hkr hr, Bool.or_assoc]
        · have hno : ∀ q, q < 2 * c.n → ¬ (b q = CR ∧ b (q + 2) = DOT) := by
            intro q h h'
            exact hk ((partialKill_iff c b).2 ⟨q, h, h'⟩)
          have hnl : ∀ q, q < 2 * c.n → nlDot b q = false := by
            intro q h
            have := hno q h
            simp only [nlDot, Bool.and_eq_false_iff, decide_eq_false_iff_not]
            by_cases h1 : b q = CR
            · right; exact fun h2 => this ⟨h1, h2⟩
            · exact .inl (.inl h1)
          have hm' : ∀ q, q < 2 * c.n → mask.getLsbD q = (special (b q) || killed md.isRaw B q) := by
            intro q h
            rw [hmask q h, hkr hr, hnl _ (by omega)]; simp
          have hc' : ∀ j, j < c.n → fresh c j = cmpLane c (pendOf md (shift (2 * c.n) B)) j := by
            intro j _
            rw [next_zero md hr B b hb _ (by omega) hnl]; exact fresh_lane c j
          simp only [hk, Bool.false_eq_true, if_false]
          by_cases hse : md.searchEnd = true
          · simp only [hse, if_true]
            by_cases hf : partialEndFound c b = true ∧ endFound c b = true
            · rw [if_pos hf]
              exact ⟨by cases md <;> simp_all [Mode.searchEnd], hnm⟩
            · rw [if_neg hf]
              apply roundOk_unescape c md s e B b hb hs hoff _ _ hm' hmeq _ hc'
              intro _ j hj h
              obtain ⟨h1, h2, h4⟩ := h
              rcases h4 with ⟨h4, _⟩ | ⟨h4, _⟩ | ⟨h4, h5⟩
              · exact hno j hj ⟨h1, h4⟩
              · exact hno j hj ⟨h1, h4⟩
              · exact hf (endFound_of c b ⟨j, hj, h1, h2, h4, h5⟩)
          · simp only [hse, Bool.false_eq_true, if_false]
            apply roundOk_unescape c md s e B b hb hs hoff _ _ hm' hmeq _ hc'
            intro hmd
            rw [hmd] at hse
            exact absurd rfl hse
    · rw [if_neg (by simp [hr])]
      have hrf := Bool.not_eq_true _ |>.mp hr
      apply roundOk_unescape c md s e B b hb hs hoff _ _ _ hmeq
      · intro j hj
        rw [pendOf_plain md hrf, ← pendOf_plain md hrf B]; exact hcmp j hj
      · intro hmd
        rw [hmd] at hr
        exact absurd rfl hr
      · intro q h
        rw [hmask q h, hkp hrf, pendOf_plain md hrf]
        simp [pend]

theorem init_ok (hv : c.Valid) (md : Mode) (e : Bool) (pd : Nat) (hpd : pd = 0 ∨ pd = 1 ∨ pd = 2) (hp : md.isRaw = false → pd = 0) :
    Rel c (init c md e pd) e pd := by
  have hn := n_cases c
  refine ⟨rfl, ?_, ?_⟩
  · intro j hj
    simp only [init]
    cases e
    · simp [offs, set1]
    · simp [offs]
  · intro j hj
    simp only [init]
    by_cases h0 : pd = 0
    · rw [if_neg (by simp [h0]), h0]; exact fresh_lane c j
    · have hr : md.isRaw = true := by
        cases h : md.isRaw
        · exact absurd (hp h) h0
        · rfl
      rw [if_pos ⟨h0, hr⟩]
      by_cases h2 : c.avx2 = true
      · have hf := hv.2 h2
        unfold cmpLane
        simp only [h2, hf, if_true]
        by_cases j1 : j = 1
        · subst j1
          rcases hpd with rfl | rfl | rfl <;> simp
        · by_cases j0 : j = 0
          · subst j0
            rcases hpd with rfl | rfl | rfl <;> simp
          · rw [if_neg (by omega), if_neg (by omega), if_neg (by omega)]
      · unfold cmpLane
        simp only [h2, Bool.false_eq_true, if_false]
        by_cases hf : c.fast = true
        · simp only [hf, if_true, insert16_apply]
          by_cases j0 : j = 0
          · subst j0
            rcases hpd with rfl | rfl | rfl
            · exact absurd rfl h0
            · decide
            · decide
          · by_cases j1 : j = 1
            · subst j1
              rcases hpd with rfl | rfl | rfl
              · exact absurd rfl h0
              · decide
              · decide
            · rw [if_neg j0, if_neg j1, if_neg (by omega), set1]
        · simp only [hf, Bool.false_eq_true, if_false, insert16_apply]
          by_cases j0 : j = 0
          · subst j0
            rcases hpd with rfl | rfl | rfl
            · exact absurd rfl h0
            · decide
            · decide
          · by_cases j1 : j = 1
            · subst j1
              rcases hpd with rfl | rfl | rfl
              · exact absurd rfl h0
              · decide
              · decide
            · rw [if_neg j0, if_neg j1, if_neg (by omega), set1]

theorem reach_ok (md : Mode) (s : Regs) (b : Nat → Byte) : (iter c md s b).reach ≤ 2 * c.n + look md := by
  unfold iter
  simp only
  split
  · split
    · rename_i h
      have hl : 2 ≤ look md := by cases md <;> simp_all [look, Mode.isRaw]
      have hl2 : md.searchEnd = true → look md = 4 := by cases md <;> simp_all [look, Mode.searchEnd]
      unfold dots
      simp only
      split
      · rename_i heq
        revert heq
        split
        · split
          · rename_i h1; rintro ⟨⟩; simp only; rw [hl2 h1.1]; omega
          · simp
        · split
          · rename_i h1
            split
            · rintro ⟨⟩; simp only; rw [hl2 h1]; omega
            · simp
          · simp
      · rename_i heq
        revert heq
        split
        · split
          · simp
          · rintro ⟨⟩
            simp only
            split
            · rename_i h1; rw [hl2 h1]; omega
            · omega
        · split
          · rename_i h1
            split
            · simp
            · rintro ⟨⟩; simp only; rw [hl2 h1]; omega
          · rintro ⟨⟩; simp only; omega
    · simp
  · simp

theorem kernel_ok (hv : c.Valid) (md : Mode) : (kernel c md).Ok false md (Rel c) where
  width := by have := n_cases c; simp only [kernel]; omega
  dvd h := by simp at h
  init B e _ := init_ok c hv md e _ (pendOf_le md B) (fun h => pendOf_plain md h B)
  esc s e pd h := h.1
  reach s b := by
    have := reach_ok c md s b
    simp only [kernel]
    simpa using this
  iter s e B hR _ := by
    have := iter_ok c hv md s e B (fun j => B (4 + j)) (fun k => by rw [Nat.add_comm]) hR
    simp only [kernel]
    revert this
    cases (iter c md s fun j => B (4 + j)).round with
    | brk nm => exact id
    | next stores adv s' =>
      rintro ⟨⟨h1, h2, h3⟩, h4, h5⟩
      rw [blockOut_keep]
      exact ⟨h1, h2, h3, h4, h5⟩

end Yenc.Dec.Simd.X86
