import Verif.Model.DecoderX86
import Verif.Lemmas.Vec
import Verif.Lemmas.DecSimd
/-! Compaction: what the stores of a round write. -/
namespace Yenc.Dec.Simd
open Yenc Vec

/-- Number of `j < n` with `f j`. -/
def cnt (f : Nat → Bool) (n : Nat) : Nat := ((List.range n).filter f).length

/-- The bytes `d j`, `j < n`, that are not to be removed. -/
def keep (rm : Nat → Bool) (d : Nat → Byte) (n : Nat) : List Byte := ((List.range n).filter fun j => !rm j).map d

theorem cnt_le (f : Nat → Bool) (n : Nat) : cnt f n ≤ n := by
  have := List.length_filter_le f (List.range n)
  simpa [cnt] using this

theorem cnt_congr {f g : Nat → Bool} {n : Nat} (h : ∀ j, j < n → f j = g j) : cnt f n = cnt g n := by
  unfold cnt
  congr 1
  apply List.filter_congr
  intro j hj
  exact h j (List.mem_range.1 hj)

theorem cnt_add (f : Nat → Bool) (a b : Nat) : cnt f (a + b) = cnt f a + cnt (fun j => f (a + j)) b := by
  simp only [cnt, List.range_add, List.filter_append, List.length_append, List.filter_map, List.length_map]
  rfl

theorem cnt_false (n : Nat) : cnt (fun _ => false) n = 0 := by
  simp [cnt]

theorem keep_congr {rm rm' : Nat → Bool} {d d' : Nat → Byte} {n : Nat} (h : ∀ j, j < n → rm j = rm' j) (h2 : ∀ j, j < n → d j = d' j) :
    keep rm d n = keep rm' d' n := by
  unfold keep
  rw [List.filter_congr (fun j hj => by rw [h j (List.mem_range.1 hj)])]
  apply List.map_congr_left
  intro j hj
  exact h2 j (List.mem_range.1 (List.mem_filter.1 hj).1)

theorem keep_add (rm : Nat → Bool) (d : Nat → Byte) (a b : Nat) :
    keep rm d (a + b) = keep rm d a ++ keep (fun j => rm (a + j)) (fun j => d (a + j)) b := by
  simp only [keep, List.range_add, List.filter_append, List.map_append, List.filter_map, List.map_map]
  rfl

theorem keep_length (rm : Nat → Bool) (d : Nat → Byte) (n : Nat) : (keep rm d n).length = n - cnt rm n := by
  induction n with
  | zero => rfl
  | succ n ih =>
    rw [keep_add, List.length_append, ih, cnt_add]
    have := cnt_le rm n
    simp only [keep, cnt, List.range_one, List.map_nil] at *
    cases h : rm (n + 0) <;> simp at h <;> simp [h] <;> omega

theorem keep_all (d : Nat → Byte) (n : Nat) : keep (fun _ => false) d n = toList d n := by
  simp only [keep, toList, Bool.not_false]
  rw [List.filter_eq_self.2 (fun _ _ => rfl)]

theorem blockOut_keep (raw : Bool) (B : Nat → Byte) (e : Bool) (n : Nat) :
    blockOut raw B e n = keep (removed raw B e) (val B e) n := by
  induction n with
  | zero => rfl
  | succ n ih =>
    rw [blockOut, keep_add, ih]
    congr 1
    cases h : removed raw B e n <;> simp [keep, h]

theorem popcnt_eq {w : Nat} (x : BitVec w) : popcnt x = cnt x.getLsbD w := rfl

/-- Bits `s .. s + k - 1`. -/
theorem getLsbD_field (w k s i : Nat) : (BitVec.ofNat w ((2 ^ k - 1) <<< s)).getLsbD i = (decide (i < w) && (decide (s ≤ i) && decide (i - s < k))) := by
  rw [BitVec.getLsbD_ofNat, Nat.testBit_shiftLeft, Nat.testBit_two_pow_sub_one]

theorem getLsbD_low (w k i : Nat) : (BitVec.ofNat w (2 ^ k - 1)).getLsbD i = (decide (i < w) && decide (i < k)) := by
  rw [BitVec.getLsbD_ofNat, Nat.testBit_two_pow_sub_one]

/-- Counting the bits `s .. s + k - 1`. -/
theorem popcnt_field {w : Nat} (x y : BitVec w) (k s : Nat) (hk : s + k ≤ w) (hy : ∀ i, i < w → y.getLsbD i = (decide (s ≤ i) && decide (i - s < k))) :
    popcnt (x &&& y) = cnt (fun j => x.getLsbD (s + j)) k := by
  rw [popcnt_eq]
  rw [show cnt (x &&& y).getLsbD w = cnt (x &&& y).getLsbD (s + (k + (w - s - k))) by congr 1; omega]
  rw [cnt_add, cnt_add]
  have h1 : cnt (x &&& y).getLsbD s = 0 := by
    rw [← cnt_false s]
    apply cnt_congr
    intro j hj
    rw [BitVec.getLsbD_and, hy j (by omega)]
    simp; omega
  have h2 : cnt (fun j => (x &&& y).getLsbD (s + (k + j))) (w - s - k) = 0 := by
    rw [← cnt_false (w - s - k)]
    apply cnt_congr
    intro j hj
    rw [BitVec.getLsbD_and, hy _ (by omega), decide_eq_false (show ¬ s + (k + j) - s < k by omega)]
    simp
  rw [h1, h2]
  simp only [Nat.zero_add, Nat.add_zero]
  apply cnt_congr
  intro j hj
  rw [BitVec.getLsbD_and, hy _ (by omega)]
  simp [hj, Nat.add_sub_cancel_left]

/-- Counting all bits when only the low `k` can be set. -/
theorem popcnt_low {w : Nat} (x : BitVec w) (k : Nat) (hk : k ≤ w) (h : ∀ i, k ≤ i → x.getLsbD i = false) : popcnt x = cnt x.getLsbD k := by
  rw [popcnt_eq]
  obtain ⟨r, rfl⟩ := Nat.exists_eq_add_of_le hk
  rw [cnt_add]
  have h1 : cnt (fun j => x.getLsbD (k + j)) r = 0 := by
    rw [← cnt_false r]
    apply cnt_congr
    intro j _
    exact h _ (by omega)
  rw [h1, Nat.add_zero]

/-! ### Sequences of stores -/

/-- `S` begins with the bytes kept of `n`, and is at most `n` bytes long. -/
def Half (rm : Nat → Bool) (d : Nat → Byte) (n : Nat) (S : List Byte) : Prop := ∃ t, S = keep rm d n ++ t ∧ S.length ≤ n

/-- Stores and advance that put down the bytes kept of `n`. -/
def Puts (rm : Nat → Bool) (d : Nat → Byte) (n : Nat) (stores : List (Nat × List Byte)) (adv : Nat) : Prop :=
  (∀ st ∈ stores, st.1 + st.2.length ≤ n) ∧
  (∃ t, (keep rm d n ++ t).length ≤ n ∧ ∀ m p, applyStores m p stores = m.wr p (keep rm d n ++ t)) ∧
  adv = (keep rm d n).length

theorem applyStores_append (m : Mem) (p : Nat) (a b : List (Nat × List Byte)) : applyStores m p (a ++ b) = applyStores (applyStores m p a) p b := by
  induction a generalizing m with
  | nil => rfl
  | cons x a ih => obtain ⟨o, bs⟩ := x; simp only [List.cons_append, applyStores, ih]

theorem Puts.nil (rm : Nat → Bool) (d : Nat → Byte) : Puts rm d 0 [] 0 :=
  ⟨by simp, ⟨[], by simp [keep], by intro m p; simp [keep, applyStores, Mem.wr]⟩, rfl⟩

theorem Puts.snoc {rm : Nat → Bool} {d : Nat → Byte} {a : Nat} {stores : List (Nat × List Byte)} {adv : Nat} (h : Puts rm d a stores adv)
    {b : Nat} {S : List Byte} (hS : Half (fun j => rm (a + j)) (fun j => d (a + j)) b S) :
    Puts rm d (a + b) (stores ++ [(adv, S)]) (adv + (keep (fun j => rm (a + j)) (fun j => d (a + j)) b).length) := by
  obtain ⟨h1, ⟨t, h2, h3⟩, h4⟩ := h
  obtain ⟨t', h5, h6⟩ := hS
  have hk := keep_add rm d a b
  refine ⟨?_, ?_, ?_⟩
  · intro st hst
    rw [List.mem_append, List.mem_singleton] at hst
    rcases hst with hst | rfl
    · have := h1 st hst; omega
    · simp only
      have : adv ≤ a := by rw [h4, keep_length]; omega
      omega
  · refine ⟨t' ++ t.drop S.length, ?_, ?_⟩
    · have e1 : S.length = (keep (fun j => rm (a + j)) (fun j => d (a + j)) b).length + t'.length := by rw [h5, List.length_append]
      have e2 : (keep rm d a).length ≤ a := by rw [keep_length]; omega
      rw [hk]
      simp only [List.length_append, List.length_drop] at *
      omega
    · intro m p
      rw [applyStores_append, h3]
      simp only [applyStores]
      rw [h4, Mem.wr_wr_drop]
      congr 1
      rw [hk, h5]
      simp only [List.append_assoc]
  · rw [hk, List.length_append, h4]

theorem Half.full (d : Vec) (n : Nat) (rm : Nat → Bool) (h : ∀ j, j < n → rm j = false) : Half rm d n (toList d n) :=
  ⟨[], by rw [List.append_nil, keep_congr (rm' := fun _ => false) h (fun _ _ => rfl), keep_all], by simp [toList]⟩

/-- Only what the first `n` bits and bytes are matters. -/
theorem Half.congr {rm rm' : Nat → Bool} {d d' : Nat → Byte} {n : Nat} {S : List Byte} (h : Half rm d n S) (h1 : ∀ j, j < n → rm j = rm' j)
    (h2 : ∀ j, j < n → d j = d' j) : Half rm' d' n S := by
  obtain ⟨t, h3, h4⟩ := h
  exact ⟨t, by rw [h3, keep_congr h1 h2], h4⟩

theorem Puts.congr {rm rm' : Nat → Bool} {d d' : Nat → Byte} {n : Nat} {S : List (Nat × List Byte)} {adv : Nat} (h : Puts rm d n S adv)
    (h1 : ∀ j, j < n → rm j = rm' j) (h2 : ∀ j, j < n → d j = d' j) : Puts rm' d' n S adv := by
  unfold Puts at *
  rw [← keep_congr h1 h2]
  exact h

namespace X86

theorem lutLoop_eq (k s j : Nat) :
    lutLoop k s j = ((List.range s).filter fun t => !k.testBit t).map fun t => BitVec.ofNat 8 (j + t) := by
  induction s generalizing k j with
  | zero => rfl
  | succ s ih =>
    rw [lutLoop, ih, List.range_succ_eq_map, List.filter_cons, List.filter_map]
    have h2 : (fun t => !k.testBit t) ∘ Nat.succ = fun t => !(k / 2).testBit t := by
      funext t
      simp [Nat.testBit_succ]
    rw [h2]
    have h3 : k.testBit 0 = decide (k % 2 = 1) := Nat.testBit_zero k
    by_cases h : k % 2 = 0
    · rw [if_pos h, if_pos (by rw [h3]; simp [h])]
      simp only [List.singleton_append, List.map_cons, List.map_map, Nat.add_zero]
      congr 1
      apply List.map_congr_left
      intro t _
      simp only [Function.comp]
      congr 1
      omega
    · rw [if_neg h, if_neg (by rw [h3]; simp; omega)]
      simp only [List.nil_append, List.map_map]
      apply List.map_congr_left
      intro t _
      simp only [Function.comp]
      congr 1
      omega

theorem lut_idx : ∀ t, t < 16 → (BitVec.ofNat 8 t).msb = false ∧ (BitVec.ofNat 8 t).toNat % 16 = t := by decide

theorem pshufb_row (d : Vec) (i : Nat) : ∃ z, toList (pshufb d (compactRow i)) 16 = keep i.testBit d 16 ++ z := by
  refine ⟨List.replicate (16 - (keep i.testBit d 16).length) 0#8, ?_⟩
  have hl : (keep i.testBit d 16).length ≤ 16 := by rw [keep_length]; omega
  apply List.ext_getElem
  · simp [toList]; omega
  · intro j h1 h2
    have hj : j < 16 := by simpa [toList] using h1
    have e1 : (toList (pshufb d (compactRow i)) 16)[j]'h1 = pshufb d (compactRow i) j := by simp [toList]
    refine Eq.trans e1 ?_
    rw [pshufb, compactRow, lutLoop_eq]
    by_cases hk : j < (keep i.testBit d 16).length
    · rw [List.getElem_append_left hk]
      have hf : j < ((List.range 16).filter fun t => !i.testBit t).length := by simpa [keep] using hk
      have hm : ((List.range 16).filter fun t => !i.testBit t)[j] < 16 :=
        List.mem_range.1 (List.mem_filter.1 (List.getElem_mem hf)).1
      rw [List.getD_eq_getElem?_getD, List.getElem?_eq_getElem (by simpa using hf), Option.getD_some, List.getElem_map, Nat.zero_add, (lut_idx _ hm).1, (lut_idx _ hm).2]
      simp only [keep, List.getElem_map, Bool.false_eq_true, if_false]
      congr 1
      omega
    · rw [List.getElem_append_right (by omega), List.getElem_replicate]
      have hg : (((List.range 16).filter fun t => !i.testBit t).map fun t => BitVec.ofNat 8 (0 + t)).getD j 128#8 = 128#8 := by
        rw [List.getD_eq_getElem?_getD, List.getElem?_eq_none, Option.getD_none]
        simpa [keep] using Nat.le_of_not_lt hk
      rw [hg, if_pos (by decide)]

/-- Removing by table: the row has 15 bits, lane 15 is always moved along, and overwritten later if it was to go. -/
theorem half_row (d : Vec) (i : Nat) (rm : Nat → Bool) (h : ∀ j, j < 15 → i.testBit j = rm j) (h15 : i.testBit 15 = false) :
    Half rm d 16 (toList (pshufb d (compactRow i)) 16) := by
  obtain ⟨z, hz⟩ := pshufb_row d i
  have e : ∀ f, keep f d 16 = keep f d 15 ++ keep (fun j => f (15 + j)) (fun j => d (15 + j)) 1 := fun f => keep_add f d 15 1
  have e1 : keep i.testBit d 16 = keep rm d 15 ++ [d 15] := by
    rw [e, keep_congr h (fun _ _ => rfl)]
    congr 1
    simp [keep, h15]
  refine ⟨(if rm 15 then [d 15] else []) ++ z, ?_, by simp [toList]⟩
  rw [hz, e1, e rm]
  cases hr : rm 15 <;> simp [keep, hr]

theorem pshufb_lo (d r1 r2 : Vec) : toList (pshufb d (inserti128 r1 r2)) 16 = toList (pshufb d r1) 16 := by
  apply toList_congr
  intro j hj
  simp only [pshufb, inserti128, if_pos hj]

theorem pshufb_hi (d r1 r2 : Vec) : toList (fun j => pshufb d (inserti128 r1 r2) (16 + j)) 16 = toList (pshufb (fun j => d (16 + j)) r2) 16 := by
  apply toList_congr
  intro j hj
  simp only [pshufb, inserti128, if_neg (show ¬ 16 + j < 16 by omega), Nat.add_sub_cancel_left,
    show (16 + j) / 16 * 16 = 16 by omega, show j / 16 * 16 = 0 by omega, Nat.zero_add]

theorem half_compress (c : Cfg) {n : Nat} (k : BitVec n) (d : Vec) (rm : Nat → Bool) (h : ∀ j, j < n → k.getLsbD j = !rm j) :
    Half rm d n (compressBytes c k d) := by
  have h1 : compress k d = keep rm d n := by
    unfold compress keep
    rw [List.filter_congr (fun j hj => h j (List.mem_range.1 hj))]
  unfold compressBytes
  rw [h1]
  have hl : (keep rm d n).length ≤ n := by rw [keep_length]; omega
  simp only
  split
  · exact ⟨[], by simp, hl⟩
  · exact ⟨_, rfl, by simp; omega⟩

/-! `sse2_compact_vect` -/

theorem dropLane_apply (k : Nat) (d : Vec) (j : Nat) : dropLane k d j = if j < k then d j else if j + 1 < 16 then d (j + 1) else 0#8 := by
  simp only [dropLane, Vec.or, Vec.and, andnot, srliSi, bm_not, bm_and_byte]
  by_cases h : j < k
  · simp [h]
  · simp [h]

theorem toList_dropLane (k : Nat) (hk : k < 16) (d : Vec) :
    toList (dropLane k d) 16 = toList d k ++ toList (fun j => d (k + 1 + j)) (15 - k) ++ [0#8] := by
  have h : toList (dropLane k d) 16 = toList (dropLane k d) (k + (15 - k) + 1) := by congr 1; omega
  rw [h, toList_append, toList_append]
  congr 1
  · congr 1
    · apply toList_congr
      intro j hj
      rw [dropLane_apply, if_pos hj]
    · apply toList_congr
      intro j hj
      rw [dropLane_apply, if_neg (by omega), if_pos (by omega)]
      congr 1; omega
  · simp only [toList, List.range_one, List.map_cons, List.map_nil]
    rw [dropLane_apply, if_neg (by omega), if_neg (by omega)]

theorem testBit_sub_pow (m j : Nat) (hm : m ≠ 0) (hj : j < m.log2) : (m - 2 ^ m.log2).testBit j = m.testBit j := by
  have h1 : 2 ^ m.log2 ≤ m := Nat.log2_self_le hm
  rw [← Nat.testBit_two_pow_add_gt hj (m - 2 ^ m.log2), show 2 ^ m.log2 + (m - 2 ^ m.log2) = m by omega]

theorem keep_none (rm : Nat → Bool) (d : Nat → Byte) (n : Nat) (h : ∀ j, j < n → rm j = false) : keep rm d n = toList d n := by
  rw [keep_congr (rm' := fun _ => false) h (fun _ _ => rfl), keep_all]

theorem compactVect_spec (m : Nat) (d : Vec) (k : Nat) (hk : k ≤ 16) (hm : m < 2 ^ k) :
    ∃ z, toList (compactVect m d) 16 = keep m.testBit d k ++ toList (fun j => d (k + j)) (16 - k) ++ z := by
  induction m using Nat.strongRecOn generalizing d k with
  | _ m ih =>
  rw [compactVect]
  by_cases h0 : m = 0
  · subst h0
    refine ⟨[], ?_⟩
    rw [dif_pos rfl, keep_none _ _ _ (by simp), List.append_nil, ← toList_append]
    congr 1; omega
  · rw [dif_neg h0]
    have hi : m.log2 < k := (Nat.log2_lt h0).2 hm
    have hp : 2 ^ m.log2 ≤ m := Nat.log2_self_le h0
    have hlt : m < 2 ^ (m.log2 + 1) := (Nat.log2_lt h0).1 (by omega)
    have hpos := Nat.two_pow_pos m.log2
    obtain ⟨z, hz⟩ := ih (m - 2 ^ m.log2) (by omega) (dropLane m.log2 d) m.log2 (by omega) (by rw [Nat.pow_succ] at hlt; omega)
    generalize hl : m.log2 = l at *
    have hd := toList_dropLane l (by omega) d
    have e1 : keep (m - 2 ^ l).testBit (dropLane l d) l = keep m.testBit d l := by
      apply keep_congr
      · intro j hj
        have := testBit_sub_pow m j h0 (by omega)
        rw [hl] at this
        exact this
      · intro j hj
        rw [dropLane_apply, if_pos hj]
    have e2 : toList (fun j => dropLane l d (l + j)) (16 - l) = toList (fun j => d (l + 1 + j)) (15 - l) ++ [0#8] := by
      rw [show toList (dropLane l d) 16 = toList (dropLane l d) (l + (16 - l)) by congr 1; omega, toList_append] at hd
      rw [List.append_assoc] at hd
      exact (List.append_inj hd (by simp [toList])).2
    have hbit : m.testBit l = true := by
      have : m = 2 ^ l + (m - 2 ^ l) := by omega
      rw [this, Nat.testBit_two_pow_add_eq, Nat.testBit_lt_two_pow (by rw [Nat.pow_succ] at hlt; omega)]
      rfl
    have e3 : keep m.testBit d k = keep m.testBit d l ++ toList (fun j => d (l + 1 + j)) (k - l - 1) := by
      rw [show k = l + (1 + (k - l - 1)) by omega, keep_add, keep_add]
      congr 1
      rw [keep_none (fun j => m.testBit (l + (1 + j)))]
      · simp only [keep, List.range_one, Nat.add_zero, List.filter_cons, hbit, List.filter_nil]
        rw [show l + (1 + (k - l - 1)) - l - 1 = k - l - 1 by omega]
        simp only [Nat.add_assoc]
        rfl
      · intro j hj
        apply Nat.testBit_lt_two_pow
        exact Nat.lt_of_lt_of_le hlt (Nat.pow_le_pow_right (by omega) (by omega))
    refine ⟨[0#8] ++ z, ?_⟩
    rw [hz, e1, e2, e3]
    simp only [List.append_assoc]
    congr 1
    rw [show 15 - l = (k - l - 1) + (16 - k) by omega, toList_append]
    simp only [List.append_assoc]
    congr 1
    congr 1
    apply toList_congr
    intro j hj
    congr 1
    omega

theorem half_compactVect (d : Vec) (m : Nat) (hm : m < 2 ^ 16) (rm : Nat → Bool) (h : ∀ j, j < 16 → m.testBit j = rm j) :
    Half rm d 16 (toList (compactVect m d) 16) := by
  obtain ⟨z, hz⟩ := compactVect_spec m d 16 (by omega) hm
  refine ⟨z, ?_, by simp [toList]⟩
  rw [hz, keep_congr h (fun _ _ => rfl)]
  simp [toList]

end X86
end Yenc.Dec.Simd
