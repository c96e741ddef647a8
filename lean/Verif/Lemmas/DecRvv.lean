import Verif.Model.DecoderRvv
import Verif.Lemmas.DecRound
import Verif.Lemmas.EncRvv
/-! The RISC-V decoder kernel. -/
namespace Yenc.Dec.Simd.Rvv
open Vec Yenc.Rvv
open X86 (special pend nlDot endAt)

/-! ### Instructions -/

theorem maskBytes_get (m : Mask) (i x : Nat) (hx : x < 8) : (maskBytes m i).getLsbD x = m (8 * i + x) := by
  rw [maskBytes, getLsbD_ofBits]
  simp [hx]

theorem maskLshift_get (n : Nat) (hn : 1 ≤ n) (hn8 : n < 8) (m : Mask) (x : Byte) (k : Nat) :
    maskLshift n m x k = if k < n then x.getLsbD k else m (k - n) || (decide (k < 8) && x.getLsbD k) := by
  rw [maskLshift, mor, bytesMask, bytesMask, sllx, slide1up, BitVec.getLsbD_shiftLeft]
  have h8 : k % 8 < 8 := Nat.mod_lt _ (by omega)
  by_cases hk : k < 8
  · rw [if_pos (by omega), Nat.mod_eq_of_lt hk]
    by_cases h : k < n
    · rw [if_pos h]; simp [h]
    · rw [if_neg h, maskBytes_get _ _ _ (by omega), show 8 * (k / 8) + (k - n) = k - n by omega]
      simp [h, hk]
  · rw [if_neg (show ¬ k / 8 = 0 by omega), if_neg (show ¬ k < n by omega), srlx, BitVec.getLsbD_ushiftRight]
    by_cases h : k % 8 < n
    · rw [maskBytes_get _ (k / 8 - 1) _ (by omega), show 8 * (k / 8 - 1) + (8 - n + k % 8) = k - n by omega]
      simp [h, hk]
    · have e : (maskBytes m (k / 8 - 1)).getLsbD (8 - n + k % 8) = false := BitVec.getLsbD_of_ge _ _ (by omega)
      rw [e, maskBytes_get _ _ _ (by omega), show 8 * (k / 8) + (k % 8 - n) = k - n by omega]
      simp [h, hk, h8]

theorem shift1_get (m : Mask) (e : Bool) (k : Nat) : maskLshift 1 m (BitVec.ofNat 8 e.toNat) k = if k = 0 then e else m (k - 1) := by
  rw [maskLshift_get 1 (by omega) (by omega)]
  by_cases h : k = 0
  · subst h; rw [if_pos (by omega), if_pos rfl]; cases e <;> decide
  · rw [if_neg (by omega), if_neg h]
    have : (decide (k < 8) && (BitVec.ofNat 8 e.toNat).getLsbD k) = false := by
      cases e
      · simp
      · match k, h with
        | 1, _ | 2, _ | 3, _ | 4, _ | 5, _ | 6, _ | 7, _ => decide
        | k + 8, _ => simp
    rw [this, Bool.or_false]

theorem shift2_get (m : Mask) (k : Nat) : maskLshift 2 m 0#8 k = (decide (2 ≤ k) && m (k - 2)) := by
  rw [maskLshift_get 2 (by omega) (by omega)]
  by_cases h : k < 2
  · rw [if_pos h]; simp [show ¬ 2 ≤ k by omega]
  · rw [if_neg h]; simp [show 2 ≤ k by omega]

theorem cpop_pos (m : Mask) (vl : Nat) : 0 < cpop m vl ↔ ∃ q, q < vl ∧ m q = true := by
  rw [cpop, List.countP_pos_iff]
  simp

theorem cpop_full (m : Mask) (vl : Nat) : cpop m vl = vl ↔ ∀ q, q < vl → m q = true := by
  have h : cpop m vl = (List.range vl).length ↔ ∀ q ∈ List.range vl, m q = true := List.countP_eq_length
  rw [List.length_range] at h
  rw [h]
  simp

theorem lastBit_get (vl q : Nat) : lastBit vl q = decide (q + 1 = vl) := by
  rw [lastBit, mseq, slide1down]
  simp only [Nat.div_one, Nat.mod_one]
  split
  · rename_i h; simp [h]
  · rename_i h; simp [h, set1]

section
variable (vl : Nat) (md : Mode) (J : Junk) (b : Nat → Byte)

theorem app_low {n : Nat} (x : BitVec n) (y : Byte) : ((x ++ y) >>> 0).setWidth 8 = y := by
  apply BitVec.eq_of_getLsbD_eq
  intro i hi
  rw [BitVec.getLsbD_setWidth, BitVec.getLsbD_ushiftRight, BitVec.getLsbD_append, Nat.zero_add, if_pos hi]
  simp [hi]

theorem app_high {n : Nat} (x : BitVec n) (y : Byte) (k : Nat) (hk : 8 ≤ k) : ((x ++ y) >>> k).setWidth 8 = (x >>> (k - 8)).setWidth 8 := by
  apply BitVec.eq_of_getLsbD_eq
  intro i hi
  rw [BitVec.getLsbD_setWidth, BitVec.getLsbD_ushiftRight, BitVec.getLsbD_append, if_neg (by omega), BitVec.getLsbD_setWidth, BitVec.getLsbD_ushiftRight,
    show k + i - 8 = k - 8 + i by omega]

theorem word_byte (k : Nat) (hk : k < 2 ∨ (md.searchEnd = true ∧ k < 4)) : (nextWord vl md J b >>> (8 * k)).setWidth 8 = b (vl + k) := by
  unfold nextWord
  have h1 : ∀ x : BitVec 16, k < 2 → ((x ++ b (vl + 1) ++ b vl) >>> (8 * k)).setWidth 8 = b (vl + k) := by
    intro x hk
    match k, hk with
    | 0, _ => exact app_low _ _
    | 1, _ => rw [app_high _ _ _ (by omega)]; exact app_low _ _
  by_cases hs : md.searchEnd = true
  · rw [if_pos hs]
    match k, (show k < 4 by omega) with
    | 0, _ => exact app_low _ _
    | 1, _ => rw [app_high _ _ _ (by omega)]; exact app_low _ _
    | 2, _ => rw [app_high _ _ _ (by omega), app_high _ _ _ (by omega)]; exact app_low _ _
    | 3, _ =>
      rw [app_high _ _ _ (by omega), app_high _ _ _ (by omega), app_high _ _ _ (by omega)]
      apply BitVec.eq_of_getLsbD_eq
      intro i hi
      rw [BitVec.getLsbD_setWidth, BitVec.getLsbD_ushiftRight]
      simp [hi]
  · rw [if_neg hs]
    exact h1 _ (by simpa [hs] using hk)

theorem word_byte2 : ((nextWord vl md J b >>> 16) >>> 0).setWidth 8 = (nextWord vl md J b >>> (8 * 2)).setWidth 8 := by
  rw [BitVec.ushiftRight_zero]

variable (hv : vl % 8 = 0)

theorem nextData1_apply (j : Nat) : nextData1 vl md J b j = b (j + 1) := by
  rw [nextData1, slide1down]
  simp only [Nat.div_one, Nat.mod_one]
  split
  · rename_i h
    rw [word_byte vl md J b 0 (by omega), ← h]
  · rw [load, Nat.zero_add]

include hv in
theorem nextData2_apply (j : Nat) : nextData2 vl md J b j = b (j + 2) := by
  rw [nextData2, slide1down]
  split
  · rename_i h
    rw [word_byte vl md J b _ (by omega)]
    congr 1; omega
  · rw [load, Nat.zero_add]

include hv in
theorem nextData3_apply (hs : md.searchEnd = true) (j : Nat) : nextData3 vl md J b j = b (j + 3) := by
  rw [nextData3, slide1down]
  simp only [Nat.div_one, Nat.mod_one]
  split
  · rename_i h
    rw [Nat.mul_zero, word_byte2, word_byte vl md J b 2 (by simp [hs])]
    congr 1; omega
  · rw [nextData2_apply vl md J b hv]

include hv in
theorem nextData4_apply (hs : md.searchEnd = true) (j : Nat) : nextData4 vl md J b j = b (j + 4) := by
  rw [nextData4, slide1down]
  split
  · rename_i h
    rw [word_byte vl md J b _ (by right; exact ⟨hs, by omega⟩)]
    congr 1; omega
  · rw [load, Nat.zero_add]

theorem mseq_apply (a : Vec) (x : Byte) (j : Nat) : mseq a x j = decide (a j = x) := by
  rw [mseq, Bool.eq_iff_iff]; simp

theorem cmpEq_apply (j : Nat) : cmpEq b j = decide (b j = EQ) := by rw [cmpEq, mseq_apply, load, Nat.zero_add]
theorem cmpCr_apply (j : Nat) : cmpCr b j = decide (b j = CR) := by rw [cmpCr, mseq_apply, load, Nat.zero_add]

include hv in
theorem match2CrDot_apply (j : Nat) : match2CrDot vl md J b j = (decide (b j = CR) && decide (b (j + 2) = DOT)) := by
  rw [match2CrDot, mand, cmpCr_apply, mseq_apply, nextData2_apply vl md J b hv j]

theorem match1Lf_apply (j : Nat) : match1Lf vl md J b j = decide (b (j + 1) = LF) := by
  rw [match1Lf, mseq_apply, nextData1_apply vl md J b j]

include hv in
theorem match2NlDot_apply (j : Nat) : match2NlDot vl md J b j = nlDot b j := by
  rw [match2NlDot, mand, match2CrDot_apply vl md J b hv j, match1Lf_apply vl md J b j, nlDot, Bool.and_assoc, Bool.and_comm (decide (b (j + 2) = DOT)), ← Bool.and_assoc]

include hv in
theorem match3EqY_apply (hs : md.searchEnd = true) (j : Nat) : match3EqY vl md J b j = (decide (b (j + 2) = EQ) && decide (b (j + 3) = LY)) := by
  rw [match3EqY, mand, mseq_apply, mseq_apply, nextData2_apply vl md J b hv j, nextData3_apply vl md J b hv hs j]

include hv in
theorem matchEnd_of (hs : md.searchEnd = true) (j : Nat) (h : endAt b j) : matchEnd vl md J b j = true := by
  obtain ⟨h1, h2, h3⟩ := h
  rw [matchEnd, mor, mand, mor, match4Nl, match4EqY, mand, mand, mseq_apply, mseq_apply, mseq_apply, mseq_apply, nextData3_apply vl md J b hv hs j,
    nextData4_apply vl md J b hv hs j, match2NlDot_apply vl md J b hv j, mand, mand, cmpCr_apply, match1Lf_apply vl md J b j, match3EqY_apply vl md J b hv hs j, nlDot]
  rcases h3 with ⟨h3, h4, h5⟩ | ⟨h3, h4, h5⟩ | ⟨h3, h4⟩
  · simp [h1, h2, h3, h4, h5]
  · simp [h1, h2, h3, h4, h5]
  · simp [h1, h2, h3, h4]

include hv in
theorem endFound_of (hs : md.searchEnd = true) (j : Nat) (h1 : b j = CR) (h2 : b (j + 1) = LF) (h3 : b (j + 2) = EQ) (h4 : b (j + 3) = LY) :
    match3EqY vl md J b j = true ∧ endFound vl md J b j = true := by
  have h := match3EqY_apply vl md J b hv hs j
  refine ⟨by rw [h]; simp [h3, h4], ?_⟩
  rw [endFound, mand, mand, cmpCr_apply, match1Lf_apply vl md J b j, h]
  simp [h1, h2, h3, h4]

end

/-! ### Compaction -/

theorem filterMap_keep (m : Mask) (a : Vec) (l : List Nat) : (l.filterMap fun k => if m k then some (a k) else none) = (l.filter m).map a := by
  induction l with
  | nil => rfl
  | cons x l ih =>
    simp only [List.filterMap_cons, List.filter_cons]
    cases h : m x <;> simp [ih]

theorem compress_puts (vl : Nat) (c : Mask) (d junk : Vec) (rm : Nat → Bool) (v : Nat → Byte) (hrm : ∀ q, q < vl → rm q = !c q) (hd : ∀ q, q < vl → d q = v q) :
    Puts rm v vl [(0, toList (Rvv.compress c d junk vl) vl)] (cpop c vl) := by
  have hk : keep (fun q => !c q) d vl = ((List.range vl).filter c).map d := by
    simp only [keep, Bool.not_not]
  have hl : (((List.range vl).filter c).map d).length ≤ vl := by
    have := List.length_filter_le c (List.range vl)
    simpa using this
  have hh : Half (fun q => !c q) d vl (toList (Rvv.compress c d junk vl) vl) := by
    refine ⟨toList (fun j => junk ((((List.range vl).filter c).map d).length + j)) (vl - (((List.range vl).filter c).map d).length), ?_, by simp [toList]⟩
    rw [hk, ← Enc.Simd.Rvv.toList_getD _ junk _ hl]
    unfold Rvv.compress
    rw [filterMap_keep]
  have hp := (Puts.nil (fun q => !c q) d).snoc (b := vl) (S := toList (Rvv.compress c d junk vl) vl) (by simpa only [Nat.zero_add] using hh)
  simp only [Nat.zero_add, List.nil_append] at hp
  rw [hk] at hp
  rw [show cpop c vl = (((List.range vl).filter c).map d).length by rw [cpop, List.countP_eq_length_filter, List.length_map]]
  exact hp.congr (fun j hj => (hrm j hj).symm) hd

/-! ### Escapes -/

theorem even_get : ∀ q, q < 64 → evenBits q = (0x5555555555555555 : Nat).testBit q := by decide

theorem asInt_low (vl : Nat) (hv : vl ≤ 64) (J : Junk) (m : Mask) : (asInt vl J m).setWidth vl = ofBits vl m vl := by
  apply BitVec.eq_of_getLsbD_eq
  intro i hi
  rw [BitVec.getLsbD_setWidth, asInt, mask64, getLsbD_ofBits, getLsbD_ofBits]
  simp [hi, show i < 64 by omega]

theorem fixEq_get (vl : Nat) (hv : vl ≤ 64) (J : Junk) (eq sh : Mask) (q : Nat) (hq : q < vl) :
    fixEq vl J eq sh q = (fixEqMask (ofBits vl eq vl) (ofBits vl sh vl)).getLsbD q := by
  have hE : ofBits vl evenBits vl = Yenc.Dec.evenBits vl := by
    apply BitVec.eq_of_getLsbD_eq
    intro i hi
    rw [getLsbD_ofBits, Yenc.Dec.evenBits, BitVec.getLsbD_ofNat, even_get i (by omega)]
    simp [hi]
  have hS : ofBits vl (mand (mandn eq sh) evenBits) vl = ofBits vl eq vl &&& ~~~ ofBits vl sh vl &&& Yenc.Dec.evenBits vl := by
    rw [← hE]
    apply BitVec.eq_of_getLsbD_eq
    intro i hi
    rw [getLsbD_ofBits, BitVec.getLsbD_and, BitVec.getLsbD_and, BitVec.getLsbD_not, getLsbD_ofBits, getLsbD_ofBits, getLsbD_ofBits, mand, mandn]
    simp [hi]
  have hO : oddGroups vl J eq (mand (mandn eq sh) evenBits) q = (ofBits vl eq vl + (ofBits vl eq vl &&& ~~~ ofBits vl sh vl &&& Yenc.Dec.evenBits vl)).getLsbD q := by
    rw [← hS, ← asInt_low vl hv J eq, ← asInt_low vl hv J (mand (mandn eq sh) evenBits), ← BitVec.setWidth_add _ _ hv, BitVec.getLsbD_setWidth, oddGroups, if_pos hv]
    simp [hq]
  rw [fixEq, mand, mxor, hO, fixEqMask, BitVec.getLsbD_and, BitVec.getLsbD_xor, ← hE, getLsbD_ofBits (f := evenBits), getLsbD_ofBits (f := eq) (j := q)]
  simp [hq]

/-- What the registers hold. -/
def OffOk (vl : Nat) (off : Vec) (e : Bool) : Prop := ∀ j, j < vl → off j = if j = 0 ∧ e = true then 106#8 else 42#8
def LfOk (vl pd : Nat) (lf : Vec) : Prop := ∀ j, j < vl → lf j = if pend pd j then DOT else LF
def Rel (vl : Nat) (s : Regs) (e : Bool) (pd : Nat) : Prop := s.esc = e ∧ OffOk vl s.off e ∧ LfOk vl pd s.lf

theorem off_bits : ∀ e : Bool, 42#8 ||| BitVec.ofNat 8 (e.toNat <<< 6) = if e then 106#8 else 42#8 := by decide

theorem OffOk.next {vl : Nat} {off : Vec} {e : Bool} (h : OffOk vl off e) (e' : Bool) : OffOk vl (setFirst off (42#8 ||| BitVec.ofNat 8 (e'.toNat <<< 6))) e' := by
  intro j hj
  rw [setFirst]
  by_cases h0 : j = 0
  · rw [if_pos h0, off_bits]; simp [h0]
  · rw [if_neg h0, h j hj]; simp [h0]

section
variable (vl : Nat) (md : Mode) (J : Junk) (s : Regs) (e : Bool) (B b : Nat → Byte) (hb : ∀ k, b k = B (k + 4))

include hb in
theorem finish_ok (hv : 0 < vl) (hoff : OffOk vl s.off e) (raw : Bool) (c eq shift1 : Mask) (lf : Vec)
    (hc : ∀ q, q < vl → removed raw B e q = !c q) (he : ∀ q, q < vl → eq q = escP B e (q + 1)) (hs1 : ∀ q, q < vl → shift1 q = escP B e q) :
    ∃ off, (⟨decide (cpop (mand eq (lastBit vl)) vl ≠ 0), setFirst s.off (42#8 ||| BitVec.ofNat 8 ((decide (cpop (mand eq (lastBit vl)) vl ≠ 0)).toNat <<< 6)), lf⟩ : Regs) = ⟨escP B e vl, off, lf⟩ ∧
      OffOk vl off (escP B e vl) ∧ Puts (removed raw B e) (val B e) vl [(0, toList (Rvv.compress c (sub (load b 0) (merge s.off 106#8 shift1)) J.tail vl) vl)] (cpop c vl) := by
  have hl : decide (cpop (mand eq (lastBit vl)) vl ≠ 0) = escP B e vl := by
    rw [Bool.eq_iff_iff, decide_eq_true_eq, ← Nat.pos_iff_ne_zero, cpop_pos]
    have hlast : escP B e vl = eq (vl - 1) := by
      rw [he _ (by omega), show vl - 1 + 1 = vl by omega]
    rw [hlast]
    constructor
    · rintro ⟨q, hq, h⟩
      rw [mand, lastBit_get, Bool.and_eq_true, decide_eq_true_eq] at h
      rw [show vl - 1 = q by omega]; exact h.1
    · intro h
      exact ⟨vl - 1, by omega, by rw [mand, lastBit_get, h]; simp; omega⟩
  rw [hl]
  refine ⟨_, rfl, hoff.next _, compress_puts vl c _ J.tail _ _ hc ?_⟩
  intro q hq
  rw [sub, load, Nat.zero_add, merge, hs1 q hq, val, ← hb]
  by_cases h : escP B e q = true
  · rw [if_pos h, if_pos h]
  · rw [if_neg h, if_neg h, hoff q hq, if_neg]
    rintro ⟨rfl, he⟩
    exact h he

include hb in
/-- Up to 64 bytes, the sum of the masks is right. -/
theorem fixEq_ok (hv64 : vl ≤ 64) (hs : s.esc = e) (q : Nat) (h : q < vl) :
    fixEq vl J (cmpEq b) (maskLshift 1 (cmpEq b) (BitVec.ofNat 8 s.esc.toNat)) q = escP B e (q + 1) := by
  have hq : ∀ q, q < vl → (ofBits vl (cmpEq b) vl).getLsbD q = decide (b q = EQ) := by
    intro q h
    rw [getLsbD_ofBits, cmpEq_apply]; simp [h]
  have hsh : ∀ q, q < vl → (ofBits vl (maskLshift 1 (cmpEq b) (BitVec.ofNat 8 s.esc.toNat)) vl).getLsbD q = if q = 0 then e else (ofBits vl (cmpEq b) vl).getLsbD (q - 1) := by
    intro q h
    rw [getLsbD_ofBits, shift1_get, hs, getLsbD_ofBits]
    simp [h, show q - 1 < vl by omega]
  rw [fixEq_get vl hv64 J _ _ q h]
  exact fix_case hb hq hsh hv64 q h

include hb in
theorem unescape_ok (hv : 0 < vl) (hfix : ∀ q, q < vl → fixEq vl J (cmpEq b) (maskLshift 1 (cmpEq b) (BitVec.ofNat 8 s.esc.toNat)) q = escP B e (q + 1)) (hs : s.esc = e) (hoff : OffOk vl s.off e) (raw : Bool) (c : Mask) (lf : Vec)
    (hc : ∀ q, q < vl → c q = !(special (b q) || killed raw B q)) :
    ∃ stores adv off, unescape vl J b s c (cmpEq b) lf = .next stores adv ⟨escP B e vl, off, lf⟩ ∧ OffOk vl off (escP B e vl) ∧ Puts (removed raw B e) (val B e) vl stores adv := by
  have hm : ∀ q, q < vl → (ofBits vl (fun q => !c q) vl).getLsbD q = (special (b q) || killed raw B q) := by
    intro q h
    rw [getLsbD_ofBits, hc q h]; simp [h]
  have hq : ∀ q, q < vl → (ofBits vl (cmpEq b) vl).getLsbD q = decide (b q = EQ) := by
    intro q h
    rw [getLsbD_ofBits, cmpEq_apply]; simp [h]
  have hsh : ∀ q, q < vl → (ofBits vl (maskLshift 1 (cmpEq b) (BitVec.ofNat 8 s.esc.toNat)) vl).getLsbD q = if q = 0 then e else (ofBits vl (cmpEq b) vl).getLsbD (q - 1) := by
    intro q h
    rw [getLsbD_ofBits, shift1_get, hs, getLsbD_ofBits]
    simp [h, show q - 1 < vl by omega]
  unfold unescape
  simp only
  by_cases hz : cpop (mandn (maskLshift 1 (cmpEq b) (BitVec.ofNat 8 s.esc.toNat)) c) vl ≠ 0
  · rw [if_pos hz]
    have hf := hfix
    clear hfix
    generalize fixEq vl J (cmpEq b) (maskLshift 1 (cmpEq b) (BitVec.ofNat 8 s.esc.toNat)) = eq at *
    have hs1 : ∀ q, q < vl → maskLshift 1 eq (BitVec.ofNat 8 s.esc.toNat) q = escP B e q := by
      intro q h
      rw [shift1_get, hs]
      cases q with
      | zero => rfl
      | succ q => rw [if_neg (by omega), Nat.add_sub_cancel, hf q (by omega)]
    obtain ⟨off, h1, h2, h3⟩ := finish_ok vl J s e B b hb hv hoff raw (mor (maskLshift 1 eq (BitVec.ofNat 8 s.esc.toNat)) c) eq _ lf
      (fun q h => by rw [removed_mask hb hm q h, mor, hs1 q h, hm q h, hc q h]; simp [Bool.not_or]) hf hs1
    rw [h1]
    exact ⟨_, _, off, rfl, h2, h3⟩
  · rw [if_neg hz]
    have hz' : ofBits vl (fun q => !c q) vl &&& ofBits vl (maskLshift 1 (cmpEq b) (BitVec.ofNat 8 s.esc.toNat)) vl = 0#vl := by
      rw [eq_zero_iff]
      intro q h
      rw [BitVec.getLsbD_and, getLsbD_ofBits, getLsbD_ofBits]
      have : ¬ ∃ q, q < vl ∧ mandn (maskLshift 1 (cmpEq b) (BitVec.ofNat 8 s.esc.toNat)) c q = true := by
        rw [← cpop_pos]; omega
      have := fun h' => this ⟨q, h, h'⟩
      have := Bool.not_eq_true _ |>.mp this
      rw [mandn] at this
      simp only [h, decide_true, Bool.true_and]
      rw [Bool.and_comm]; exact this
    obtain ⟨k1, k2⟩ := nofix_case hb hm hq hsh hz'
    obtain ⟨off, h1, h2, h3⟩ := finish_ok vl J s e B b hb hv hoff raw c (cmpEq b) (maskLshift 1 (cmpEq b) (BitVec.ofNat 8 s.esc.toNat)) lf
      (fun q h => by rw [k2 q h, hm q h, hc q h]; simp) (fun q h => by rw [k1 q h, cmpEq_apply]) (fun q h => by
        rw [shift1_get, hs]
        cases q with
        | zero => rfl
        | succ q => rw [if_neg (by omega), Nat.add_sub_cancel, k1 q (by omega), cmpEq_apply])
    rw [h1]
    exact ⟨_, _, off, rfl, h2, h3⟩

end

/-! ### A round -/

theorem cmp_apply (vl : Nat) (md : Mode) (lf : Vec) (pd : Nat) (b : Nat → Byte) (hlf : LfOk vl pd lf) (hpl : md.isRaw = false → pd = 0)
    (hx : ∀ j, pend pd j = true → b j = DOT) (q : Nat) (hq : q < vl) : cmp md lf b q = !(special (b q) || pend pd q) := by
  rw [cmp, mnor, mor, cmpEq_apply, cmpCr_apply]
  have h : (if md.isRaw then mseqv (load b 0) lf else mseq (load b 0) LF) q = (decide (b q = LF) || pend pd q) := by
    split
    · rw [mseqv, load, Nat.zero_add, hlf q hq]
      by_cases hp : pend pd q = true
      · rw [if_pos hp, hx q hp, hp]; simp
      · rw [if_neg hp, Bool.not_eq_true _ |>.mp hp, Bool.or_false, Bool.eq_iff_iff]; simp
    · rename_i h
      rw [mseq_apply, load, Nat.zero_add, hpl (Bool.not_eq_true _ |>.mp h)]
      simp [pend]
  rw [h, special, Bool.or_assoc, Bool.or_assoc, Bool.or_assoc]

theorem pend_big (pd j : Nat) (hj : 2 ≤ j) : pend pd j = false := by
  simp only [pend, decide_eq_false_iff_not]
  omega

theorem nextLf_ok (vl : Nat) (hv : vl % 8 = 0) (hv0 : 8 ≤ vl) (md : Mode) (J : Junk) (b : Nat → Byte) (pd' : Nat)
    (h1 : pd' = 1 ↔ nlDot b (vl - 2) = true) (h2 : pd' = 2 ↔ nlDot b (vl - 1) = true) : LfOk vl pd' (nextLf vl md J b) := by
  intro j hj
  rw [nextLf, merge, bytesMask, srlx, BitVec.getLsbD_ushiftRight, slidedown]
  have hp : (if j / 8 + (vl / 8 - 1) < vl / 8 then maskBytes (match2NlDot vl md J b) (j / 8 + (vl / 8 - 1)) else 0#8).getLsbD (6 + j % 8) = pend pd' j := by
    by_cases hj8 : j < 8
    · rw [if_pos (by omega), show j / 8 + (vl / 8 - 1) = vl / 8 - 1 by omega, Nat.mod_eq_of_lt hj8]
      by_cases hj2 : j < 2
      · rw [maskBytes_get _ _ _ (by omega), match2NlDot_apply vl md J b hv, show 8 * (vl / 8 - 1) + (6 + j) = vl - 2 + j by omega]
        rw [Bool.eq_iff_iff]
        match j, hj2 with
        | 0, _ => rw [Nat.add_zero, ← h1]; simp [pend]
        | 1, _ => rw [show vl - 2 + 1 = vl - 1 by omega, ← h2]; simp [pend]
      · rw [pend_big _ _ (by omega)]
        exact BitVec.getLsbD_of_ge _ _ (by omega)
    · rw [if_neg (by omega), pend_big _ _ (by omega), BitVec.getLsbD_zero]
  rw [hp]; rfl

theorem freshLf_ok (vl : Nat) : LfOk vl 0 (set1 LF) := by
  intro j _
  simp [pend, set1]

theorem init_ok (vl : Nat) (md : Mode) (e : Bool) (pd : Nat) (hpd : pd = 0 ∨ pd = 1 ∨ pd = 2) (hp : md.isRaw = false → pd = 0) :
    Rel vl (init md e pd) e pd := by
  refine ⟨rfl, ?_, ?_⟩
  · intro j _
    simp only [init]
    cases e
    · simp [set1]
    · by_cases h : j = 0 <;> simp [setFirst, set1, h]
  · intro j _
    simp only [init]
    split
    · rename_i h
      rw [insert16_apply]
      by_cases hj : j < 2
      · match j, hj with
        | 0, _ | 1, _ => rcases hpd with rfl | rfl | rfl <;> first | decide | exact absurd rfl h.1
      · rw [if_neg (by omega), if_neg (by omega), pend_big _ _ (by omega)]; rfl
    · rename_i h
      have h0 : pd = 0 := by
        by_cases hr : md.isRaw = true
        · by_cases hp0 : pd = 0
          · exact hp0
          · exact absurd ⟨hp0, hr⟩ h
        · exact hp (Bool.not_eq_true _ |>.mp hr)
      subst h0
      simp [pend, set1]

section
variable (vl : Nat) (hv8 : vl % 8 = 0) (hv0 : 8 ≤ vl) (md : Mode) (s : Regs) (e : Bool) (B b : Nat → Byte) (hb : ∀ k, b k = B (k + 4))

include hv0 hb in
theorem roundOk_unescape (J : Junk) (hfix : ∀ q, q < vl → fixEq vl J (cmpEq b) (maskLshift 1 (cmpEq b) (BitVec.ofNat 8 s.esc.toNat)) q = escP B e (q + 1)) (hs : s.esc = e) (hoff : OffOk vl s.off e) (c : Mask) (hc : ∀ q, q < vl → c q = !(special (b q) || killed md.isRaw B q)) (lf : Vec)
    (hlf : LfOk vl (pendOf md (shift vl B)) lf)
    (ht : md = .endRaw → ∀ j, j < vl → ¬ endAt b j) : RoundOk (Rel vl) vl md B e (unescape vl J b s c (cmpEq b) lf) := by
  obtain ⟨stores, adv, off, h1, h2, h3⟩ := unescape_ok vl J s e B b hb (by omega) hfix hs hoff md.isRaw c lf hc
  rw [h1]
  exact ⟨h3, ⟨rfl, h2, hlf⟩, fun h j hj => by rw [X86.term_end B b hb]; exact ht h j hj⟩

include hv8 hv0 hb in
theorem iter_ok (junk : Regs → (Nat → Byte) → Junk) (hfix : ∀ q, q < vl → fixEq vl (junk s b) (cmpEq b) (maskLshift 1 (cmpEq b) (BitVec.ofNat 8 s.esc.toNat)) q = escP B e (q + 1)) (hR : Rel vl s e (pendOf md B)) : RoundOk (Rel vl) vl md B e (iter vl junk md s b).round := by
  obtain ⟨hs, hoff, hlf⟩ := hR
  have hpl : md.isRaw = false → pendOf md B = 0 := fun h => X86.pendOf_plain md h B
  have hx := X86.pend_dot md B b hb
  have hc := cmp_apply vl md s.lf _ b hlf hpl hx
  have hkr : md.isRaw = true → ∀ q, killed md.isRaw B q = (pend (pendOf md B) q || (decide (2 ≤ q) && nlDot b (q - 2))) := by
    intro hr q; rw [hr]; exact X86.killed_raw md hr B b hb q
  have hkp : md.isRaw = false → ∀ q, killed md.isRaw B q = false := by
    intro hr q; rw [hr]; simp [killed]
  unfold iter
  simp only
  generalize junk s b = J at *
  generalize cmp md s.lf b = c at *
  by_cases hz : cpop c vl ≠ vl
  · rw [if_pos hz]
    by_cases hr : md.isRaw = true
    · by_cases he : cpop (mxnor c (cmpEq b)) vl ≠ 0
      · rw [if_pos ⟨hr, he⟩]
        have hnm : endMask md b c = pendOf md B := by
          refine X86.nextMaskAt md hr B b hb _ _ ?_ ?_
          · rw [BitVec.getLsbD_not, maskBytes_get _ _ _ (by omega), hc _ (by omega)]; simp
          · rw [BitVec.getLsbD_not, maskBytes_get _ _ _ (by omega), hc _ (by omega)]; simp
        unfold dots
        by_cases hk : cpop (match2CrDot vl md J b) vl > 0
        · rw [if_pos hk]
          by_cases hse : md.searchEnd = true ∧ cpop (matchEnd vl md J b) vl > 0
          · rw [if_pos hse]
            exact ⟨by cases md <;> simp_all [Mode.searchEnd], hnm⟩
          · rw [if_neg hse]
            apply roundOk_unescape vl hv0 md s e B b hb J hfix hs hoff
            · intro q h
              rw [mandn, shift2_get, hc q h, hkr hr]
              by_cases h2 : 2 ≤ q
              · rw [match2NlDot_apply vl md J b hv8]
                simp [h2, Bool.not_or, Bool.and_assoc]
              · simp [h2]
            · exact nextLf_ok vl hv8 hv0 md J b _ (X86.next_one md hr B b hb _ (by omega)) (X86.next_two md hr B b hb _ (by omega))
            · intro hmd j hj h
              apply hse
              have hsE : md.searchEnd = true := by rw [hmd]; rfl
              exact ⟨hsE, (cpop_pos _ _).2 ⟨j, hj, matchEnd_of vl md J b hv8 hsE j h⟩⟩
        · rw [if_neg hk]
          have hno : ∀ q, q < vl → ¬ (b q = CR ∧ b (q + 2) = DOT) := fun q h h' => hk ((cpop_pos _ _).2 ⟨q, h, by
            rw [match2CrDot_apply vl md J b hv8]; simp [h'.1, h'.2]⟩)
          have hnl := no_nlDot hno
          have hc' : ∀ q, q < vl → c q = !(special (b q) || killed md.isRaw B q) := by
            intro q h
            rw [hc q h, hkr hr, hnl _ (by omega)]; simp
          have hl' : LfOk vl (pendOf md (shift vl B)) (set1 LF) := by
            rw [X86.next_zero md hr B b hb _ (by omega) hnl]; exact freshLf_ok vl
          by_cases hse : md.searchEnd = true
          · rw [if_pos hse]
            by_cases hf : cpop (match3EqY vl md J b) vl ≠ 0 ∧ cpop (endFound vl md J b) vl > 0
            · rw [if_pos hf]
              exact ⟨by cases md <;> simp_all [Mode.searchEnd], hnm⟩
            · rw [if_neg hf]
              apply roundOk_unescape vl hv0 md s e B b hb J hfix hs hoff _ hc' _ hl'
              intro _ j hj h
              obtain ⟨h1, h2, h4⟩ := h
              rcases h4 with ⟨h4, _⟩ | ⟨h4, _⟩ | ⟨h4, h5⟩
              · exact hno j hj ⟨h1, h4⟩
              · exact hno j hj ⟨h1, h4⟩
              · have := endFound_of vl md J b hv8 hse j h1 h2 h4 h5
                exact hf ⟨Nat.pos_iff_ne_zero.1 ((cpop_pos _ _).2 ⟨j, hj, this.1⟩), (cpop_pos _ _).2 ⟨j, hj, this.2⟩⟩
          · rw [if_neg hse]
            apply roundOk_unescape vl hv0 md s e B b hb J hfix hs hoff _ hc' _ hl'
            intro hmd
            rw [hmd] at hse
            exact absurd rfl hse
      · rw [if_neg (by simp only [he, and_false, not_false_eq_true])]
        have he' : ∀ q, q < vl → (special (b q) || pend (pendOf md B) q) = decide (b q = EQ) := by
          intro q h
          have h1 : ¬ ∃ q, q < vl ∧ mxnor c (cmpEq b) q = true := by rw [← cpop_pos]; omega
          have h2 := Bool.not_eq_true _ |>.mp fun h' => h1 ⟨q, h, h'⟩
          rw [mxnor, hc q h, cmpEq_apply] at h2
          revert h2
          cases (special (b q) || pend (pendOf md B) q) <;> cases decide (b q = EQ) <;> simp
        obtain ⟨k0, k1, k2, k3⟩ := only_eq (W := vl) (by omega) md hb he'
        apply roundOk_unescape vl hv0 md s e B b hb J hfix hs hoff _ _ _ _ (fun _ => k2)
        · intro q h
          rw [hc q h, k3 q h, k0]; simp [pend]
        · rw [k1, ← k0]; exact hlf
    · rw [if_neg (by simp [hr])]
      have hrf := Bool.not_eq_true _ |>.mp hr
      apply roundOk_unescape vl hv0 md s e B b hb J hfix hs hoff
      · intro q h
        rw [hc q h, hkp hrf, X86.pendOf_plain md hrf]
        simp [pend]
      · rw [X86.pendOf_plain md hrf, ← X86.pendOf_plain md hrf B]; exact hlf
      · intro hmd
        rw [hmd] at hr
        exact absurd rfl hr
  · rw [if_neg hz]
    have hfull : cpop c vl = vl := Decidable.not_not.1 hz
    have hall := (cpop_full c vl).1 hfull
    obtain ⟨k0, k1, k2, k3, k4⟩ := none_special (W := vl) (by omega) md hb e fun q hq => by
      have := hall q hq
      rw [hc q hq] at this
      simpa using this
    have hEw : escP B e vl = false := by
      have := k4 (vl - 1) (by omega)
      rwa [show vl - 1 + 1 = vl by omega] at this
    have hl' : LfOk vl (pendOf md (shift vl B)) (if md.isRaw then set1 LF else s.lf) := by
      rw [k1]
      split
      · exact freshLf_ok vl
      · rw [← k0]; exact hlf
    refine ⟨?_, ⟨hEw.symm, ?_, hl'⟩, fun _ j hj => by rw [X86.term_end B b hb]; exact k2 j hj⟩
    · have hh : Half (removed md.isRaw B e) (val B e) vl (toList (sub (load b 0) s.off) vl) :=
        (Half.full _ vl _ k3).congr (fun _ _ => rfl) fun q hq => by
          rw [sub, load, Nat.zero_add, hoff q hq, val, ← hb]
          cases q with
          | zero => cases e <;> simp [escP]
          | succ q => rw [k4 q (by omega)]; simp
      have hp := (Puts.nil (removed md.isRaw B e) (val B e)).snoc (b := vl) (S := toList (sub (load b 0) s.off) vl) (by simpa only [Nat.zero_add] using hh)
      have hc0 : cnt (removed md.isRaw B e) vl = 0 := by
        rw [← cnt_false vl]
        exact cnt_congr fun j hj => k3 j hj
      simp only [Nat.zero_add, List.nil_append, keep_length, hc0, Nat.sub_zero] at hp
      rw [hfull]
      exact hp
    · rw [hEw]
      intro j _
      simp [set1]

end

theorem reach_ok (vl : Nat) (junk : Regs → (Nat → Byte) → Junk) (md : Mode) (s : Regs) (b : Nat → Byte) : (iter vl junk md s b).reach ≤ vl + look md := by
  unfold iter
  simp only
  split
  · split
    · rename_i h
      have h := h.1
      split <;> (cases md <;> simp_all [Mode.isRaw, Mode.searchEnd, look])
    · simp
  · simp

/-- The kernel is right if it is right about which `=` escape something. -/
theorem kernel_ok_of (vl : Nat) (hv8 : vl % 8 = 0) (hv0 : 8 ≤ vl) (junk : Regs → (Nat → Byte) → Junk) (md : Mode)
    (hfix : ∀ (s : Regs) (B : Nat → Byte) (q : Nat), q < vl →
      fixEq vl (junk s fun j => B (4 + j)) (cmpEq fun j => B (4 + j)) (maskLshift 1 (cmpEq fun j => B (4 + j)) (BitVec.ofNat 8 s.esc.toNat)) q = escP B s.esc (q + 1)) :
    (kernel vl junk md).Ok false md (Rel vl) where
  width := by simp only [kernel]; omega
  dvd h := by cases h
  init B e _ := init_ok vl md e _ (X86.pendOf_le md B) (fun h => X86.pendOf_plain md h B)
  esc s e pd h := h.1
  reach s b := by
    have := reach_ok vl junk md s b
    simpa [kernel] using this
  iter s e B hR _ := (iter_ok vl hv8 hv0 md s e B (fun j => B (4 + j)) (fun k => by rw [Nat.add_comm]) junk (by rw [← hR.1]; exact hfix s B) hR).iter

theorem kernel_ok (vl : Nat) (hv8 : vl % 8 = 0) (hv0 : 8 ≤ vl) (hv64 : vl ≤ 64) (junk : Regs → (Nat → Byte) → Junk) (md : Mode) : (kernel vl junk md).Ok false md (Rel vl) :=
  kernel_ok_of vl hv8 hv0 junk md fun s B q h => fixEq_ok vl _ s s.esc B _ (fun k => by rw [Nat.add_comm]) hv64 rfl q h

end Yenc.Dec.Simd.Rvv
