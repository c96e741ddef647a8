import Verif.Lemmas.DecNeon
/-! The NEON kernels: a round as a whole. -/
namespace Yenc.Dec.Simd.Neon
open Vec
open X86 (special pend nlDot endAt lutLoop lutLoop_eq compactRow)

/-! ### Compaction -/

theorem lane64_toNat (v : Vec) : (lane 64 v).toNat = (v 0).toNat + 256 * (v 1).toNat + 65536 * (v 2).toNat + 16777216 * (v 3).toNat +
    4294967296 * ((v 4).toNat + 256 * (v 5).toNat + 65536 * (v 6).toNat + 16777216 * (v 7).toNat) := by
  have e : lane 64 v = (lane 32 (fun j => v (4 + j)) ++ lane 32 v : BitVec 64) := by
    apply BitVec.eq_of_getLsbD_eq
    intro i hi
    rw [Enc.Simd.Neon.getLsbD_lane, BitVec.getLsbD_append, Enc.Simd.Neon.getLsbD_lane, Enc.Simd.Neon.getLsbD_lane]
    by_cases h : i < 32
    · simp [h, hi]
    · rw [show 4 + (i - 32) / 8 = i / 8 by omega, show (i - 32) % 8 = i % 8 by omega]
      simp [h, hi, show i - 32 < 32 by omega]
  rw [e, BitVec.toNat_append, Enc.Simd.Neon.lane32_toNat, Enc.Simd.Neon.lane32_toNat]
  have h0 := (v 0).isLt
  have h1 := (v 1).isLt
  have h2 := (v 2).isLt
  have h3 := (v 3).isLt
  rw [← Nat.shiftLeft_add_eq_or_of_lt (by omega), Nat.shiftLeft_eq, show 2 ^ 32 = 4294967296 from rfl]
  simp only [Nat.reduceAdd]
  omega

theorem countAt_eq {w : Nat} (hw : 8 ≤ w) (x : BitVec w) (k : Nat) : countAt x k = x.toNat / 2 ^ (8 * k) % 256 := by
  have h2 : 2 ^ 8 ≤ 2 ^ w := Nat.pow_le_pow_right (by omega) hw
  rw [countAt, BitVec.toNat_and, BitVec.toNat_ushiftRight, Nat.shiftRight_eq_div_pow, BitVec.toNat_ofNat, Nat.mod_eq_of_lt (by omega),
    show (0xff : Nat) = 2 ^ 8 - 1 from rfl, Nat.and_two_pow_sub_one_eq_mod]

theorem field (lo p x q S hi : Nat) (hq : q = p) (hlo : lo < p) (hx : x < 256) (hS : S = lo + p * (x + 256 * hi)) : S / q % 256 = x := by
  rw [hS, hq, Nat.add_mul_div_left _ _ (by omega), Nat.div_eq_of_lt hlo, Nat.zero_add, Nat.add_mul_mod_self_left, Nat.mod_eq_of_lt hx]

theorem counts64 {C A : BitVec 64} {c0 c1 c2 c3 c4 c5 c6 c7 : Nat}
    (hC : C.toNat = c0 + 256 * c1 + 65536 * c2 + 16777216 * c3 + 4294967296 * (c4 + 256 * c5 + 65536 * c6 + 16777216 * c7))
    (h0 : c0 ≤ 8) (h1 : c1 ≤ 8) (h2 : c2 ≤ 8) (h3 : c3 ≤ 8) (h4 : c4 ≤ 8) (h5 : c5 ≤ 8) (h6 : c6 ≤ 8) (h7 : c7 ≤ 8)
    (hA : A = 0x0808080808080808#64 - C) :
    countAt (A + A >>> 8) 0 = 16 - c0 - c1 ∧ countAt (A + A >>> 8) 2 = 16 - c2 - c3 ∧ countAt (A + A >>> 8) 4 = 16 - c4 - c5 ∧
      countAt (A + A >>> 8) 6 = 16 - c6 - c7 := by
  have hA' : A.toNat = (8 - c0) + 256 * (8 - c1) + 65536 * (8 - c2) + 16777216 * (8 - c3) +
      4294967296 * ((8 - c4) + 256 * (8 - c5) + 65536 * (8 - c6) + 16777216 * (8 - c7)) := by
    rw [hA, BitVec.toNat_sub_of_le, hC, show (0x0808080808080808#64).toNat = 0x0808080808080808 from rfl]
    · omega
    · rw [BitVec.le_def, hC, show (0x0808080808080808#64).toNat = 0x0808080808080808 from rfl]
      omega
  clear hC hA
  obtain ⟨a0, e0⟩ : ∃ a, a = 8 - c0 := ⟨_, rfl⟩
  obtain ⟨a1, e1⟩ : ∃ a, a = 8 - c1 := ⟨_, rfl⟩
  obtain ⟨a2, e2⟩ : ∃ a, a = 8 - c2 := ⟨_, rfl⟩
  obtain ⟨a3, e3⟩ : ∃ a, a = 8 - c3 := ⟨_, rfl⟩
  obtain ⟨a4, e4⟩ : ∃ a, a = 8 - c4 := ⟨_, rfl⟩
  obtain ⟨a5, e5⟩ : ∃ a, a = 8 - c5 := ⟨_, rfl⟩
  obtain ⟨a6, e6⟩ : ∃ a, a = 8 - c6 := ⟨_, rfl⟩
  obtain ⟨a7, e7⟩ : ∃ a, a = 8 - c7 := ⟨_, rfl⟩
  rw [← e0, ← e1, ← e2, ← e3, ← e4, ← e5, ← e6, ← e7] at hA'
  have hS : (A + A >>> 8).toNat = (a0 + a1) + 256 * (a1 + a2) + 65536 * (a2 + a3) + 16777216 * (a3 + a4) +
      4294967296 * ((a4 + a5) + 256 * (a5 + a6) + 65536 * (a6 + a7) + 16777216 * a7) := by
    rw [BitVec.toNat_add, BitVec.toNat_ushiftRight, Nat.shiftRight_eq_div_pow]
    have hd : A.toNat / 2 ^ 8 = a1 + 256 * a2 + 65536 * a3 + 16777216 * a4 + 4294967296 * (a5 + 256 * a6 + 65536 * a7) := by
      rw [hA', show (a0 + 256 * a1 + 65536 * a2 + 16777216 * a3 + 4294967296 * (a4 + 256 * a5 + 65536 * a6 + 16777216 * a7)) =
        a0 + 256 * (a1 + 256 * a2 + 65536 * a3 + 16777216 * a4 + 4294967296 * (a5 + 256 * a6 + 65536 * a7)) by omega, show 2 ^ 8 = 256 from rfl,
        Nat.add_mul_div_left _ _ (by omega), Nat.div_eq_of_lt (by omega), Nat.zero_add]
    rw [hd, hA', Nat.mod_eq_of_lt (by rw [show 2 ^ 64 = 18446744073709551616 from rfl]; omega)]
    omega
  simp only [countAt_eq (show 8 ≤ 64 by decide), hS]
  clear hS hA'
  refine ⟨?_, ?_, ?_, ?_⟩
  · refine Eq.trans (field 0 1 (a0 + a1) _ _ ((a1 + a2) + 256 * (a2 + a3) + 65536 * (a3 + a4) + 16777216 * ((a4 + a5) + 256 * (a5 + a6) + 65536 * (a6 + a7) + 16777216 * a7)) rfl (by omega) (by omega) ?_) (by omega)
    omega
  · refine Eq.trans (field ((a0 + a1) + 256 * (a1 + a2)) 65536 (a2 + a3) _ _ ((a3 + a4) + 256 * ((a4 + a5) + 256 * (a5 + a6) + 65536 * (a6 + a7) + 16777216 * a7)) rfl (by omega) (by omega) ?_) (by omega)
    omega
  · refine Eq.trans (field ((a0 + a1) + 256 * (a1 + a2) + 65536 * (a2 + a3) + 16777216 * (a3 + a4)) 4294967296 (a4 + a5) _ _ ((a5 + a6) + 256 * (a6 + a7) + 65536 * a7) rfl (by omega) (by omega) ?_) (by omega)
    omega
  · refine Eq.trans (field ((a0 + a1) + 256 * (a1 + a2) + 65536 * (a2 + a3) + 16777216 * (a3 + a4) + 4294967296 * ((a4 + a5) + 256 * (a5 + a6)))
      281474976710656 (a6 + a7) _ _ a7 rfl (by omega) (by omega) ?_) (by omega)
    omega

theorem counts32 {C A : BitVec 32} {c0 c1 c2 c3 : Nat} (hC : C.toNat = c0 + 256 * c1 + 65536 * c2 + 16777216 * c3)
    (h0 : c0 ≤ 8) (h1 : c1 ≤ 8) (h2 : c2 ≤ 8) (h3 : c3 ≤ 8) (hA : A = 0x08080808#32 - C) :
    countAt A 0 = 8 - c0 ∧ countAt A 1 = 8 - c1 ∧ countAt A 2 = 8 - c2 ∧ countAt A 3 = 8 - c3 := by
  have hA' : A.toNat = (8 - c0) + 256 * (8 - c1) + 65536 * (8 - c2) + 16777216 * (8 - c3) := by
    rw [hA, BitVec.toNat_sub_of_le, hC, show (0x08080808#32).toNat = 0x08080808 from rfl]
    · omega
    · rw [BitVec.le_def, hC, show (0x08080808#32).toNat = 0x08080808 from rfl]
      omega
  clear hC hA
  simp only [countAt_eq (show 8 ≤ 32 by decide), hA']
  refine ⟨?_, ?_, ?_, ?_⟩
  · rw [show 2 ^ (8 * 0) = 1 from rfl]; omega
  · rw [show 2 ^ (8 * 1) = 256 from rfl]; omega
  · rw [show 2 ^ (8 * 2) = 65536 from rfl]; omega
  · rw [show 2 ^ (8 * 3) = 16777216 from rfl]; omega

theorem tbx_row (n : Nat) (hn : n ≤ 16) (d : Vec) (i : Nat) :
    ∃ z, toList (tbx n (set1 0#8) d fun j => (lutLoop i n 0).getD j 0x80#8) n = keep i.testBit d n ++ z := by
  refine ⟨List.replicate (n - (keep i.testBit d n).length) 0#8, ?_⟩
  have hl : (keep i.testBit d n).length ≤ n := by rw [keep_length]; omega
  apply List.ext_getElem
  · simp [toList]; omega
  · intro j h1 h2
    have hj : j < n := by simpa [toList] using h1
    have e1 : (toList (tbx n (set1 0#8) d fun j => (lutLoop i n 0).getD j 0x80#8) n)[j]'h1 = tbx n (set1 0#8) d (fun j => (lutLoop i n 0).getD j 0x80#8) j := by
      simp [toList]
    refine Eq.trans e1 ?_
    simp only [tbx, lutLoop_eq]
    by_cases hk : j < (keep i.testBit d n).length
    · rw [List.getElem_append_left hk]
      have hf : j < ((List.range n).filter fun t => !i.testBit t).length := by simpa [keep] using hk
      have hm : ((List.range n).filter fun t => !i.testBit t)[j] < n :=
        List.mem_range.1 (List.mem_filter.1 (List.getElem_mem hf)).1
      rw [List.getD_eq_getElem?_getD, List.getElem?_eq_getElem (by simpa using hf), Option.getD_some, List.getElem_map, Nat.zero_add]
      rw [BitVec.toNat_ofNat, Nat.mod_eq_of_lt (by omega), if_pos hm]
      simp only [keep, List.getElem_map]
    · rw [List.getElem_append_right (by omega), List.getElem_replicate]
      have hg : (((List.range n).filter fun t => !i.testBit t).map fun t => BitVec.ofNat 8 (0 + t)).getD j 128#8 = 128#8 := by
        rw [List.getD_eq_getElem?_getD, List.getElem?_eq_none, Option.getD_none]
        simpa [keep] using Nat.le_of_not_lt hk
      rw [hg, if_neg (by show ¬ 128 < n; omega), set1]

theorem half16 {w : Nat} (hw : 16 ≤ w) (x : BitVec w) (d : Vec) :
    Half x.getLsbD d 16 (toList (tbx 16 (set1 0#8) d (compactRow (x &&& 0x7fff#w).toNat)) 16) := by
  obtain ⟨z, hz⟩ := tbx_row 16 (by omega) d (x &&& 0x7fff#w).toNat
  have e : ∀ f, keep f d 16 = keep f d 15 ++ keep (fun j => f (15 + j)) (fun j => d (15 + j)) 1 := fun f => keep_add f d 15 1
  have e1 : keep (x &&& 0x7fff#w).toNat.testBit d 16 = keep x.getLsbD d 15 ++ [d 15] := by
    rw [e, keep_congr (rm' := x.getLsbD) (fun j hj => by rw [X86.testBit_7fff hw]; simp [hj]) (fun _ _ => rfl)]
    congr 1
    have : (x &&& 0x7fff#w).toNat.testBit 15 = false := by rw [X86.testBit_7fff hw]; simp
    simp only [keep, List.range_one, List.filter_cons, List.filter_nil, Nat.add_zero, this, Bool.not_false, if_true, List.map_cons, List.map_nil]
  refine ⟨(if x.getLsbD 15 then [d 15] else []) ++ z, ?_, by simp [toList]⟩
  refine Eq.trans hz ?_
  rw [e1, e x.getLsbD]
  cases hr : x.getLsbD 15 <;> simp [keep, hr]

theorem testBit_ff {w : Nat} (hw : 8 ≤ w) (x : BitVec w) (j : Nat) (hj : j < 8) : (x &&& 0xff#w).toNat.testBit j = x.getLsbD j := by
  rw [BitVec.testBit_toNat, BitVec.getLsbD_and, show (0xff : Nat) = 2 ^ 8 - 1 from rfl, getLsbD_low]
  simp [hj, show j < w by omega]

theorem half8 {w : Nat} (hw : 8 ≤ w) (x : BitVec w) (d : Vec) :
    Half x.getLsbD d 8 (toList (tbx 8 (set1 0#8) d (thinRow (x &&& 0xff#w).toNat)) 8) := by
  obtain ⟨z, hz⟩ := tbx_row 8 (by omega) d (x &&& 0xff#w).toNat
  refine ⟨z, ?_, by simp [toList]⟩
  refine Eq.trans hz ?_
  rw [keep_congr (fun j hj => testBit_ff hw x j hj) (fun _ _ => rfl)]

theorem cnt_shift {w : Nat} (x : BitVec w) (s k : Nat) : cnt (x >>> s).getLsbD k = cnt (fun j => x.getLsbD (s + j)) k := by
  apply cnt_congr
  intro j _
  rw [BitVec.getLsbD_ushiftRight]

theorem cnt_split (t : Nat → Bool) (s s' : Nat) (hs : s' = s + 8) : cnt (fun j => t (s + j)) 16 = cnt (fun j => t (s + j)) 8 + cnt (fun j => t (s' + j)) 8 := by
  have e : (fun j => t (s + (8 + j))) = fun j => t (s' + j) := by funext j; congr 1; omega
  rw [show (16 : Nat) = 8 + 8 from rfl, cnt_add, e]

theorem compact_puts (a64 : Bool) (mask : BitVec (wid a64)) (pk : Vec) (hpk : PackOk a64 pk mask.getLsbD) (d : Nat → Vec) :
    Puts mask.getLsbD (fun q => d (q / 16) (q % 16)) (wid a64) (compact a64 mask pk d).1 (compact a64 mask pk d).2 := by
  have hcn : ∀ q s, q < 2 * nreg a64 → s = 8 * q → (cntv pk q).toNat = cnt (fun j => mask.getLsbD (s + j)) 8 := by
    rintro q s hq rfl
    exact Enc.Simd.Neon.cntv_eq pk q _ (fun i hi => hpk q hq i hi)
  have cl : ∀ s, cnt (fun j => mask.getLsbD (s + j)) 8 ≤ 8 := fun s => cnt_le _ _
  have c0 : ∀ n, cnt (fun j => mask.getLsbD (0 + j)) n = cnt mask.getLsbD n := fun n => by simp only [Nat.zero_add]
  cases a64 with
  | true =>
    have hC := lane64_toNat (cntv pk)
    rw [hcn 0 0 (by decide) rfl, hcn 1 8 (by decide) rfl, hcn 2 16 (by decide) rfl, hcn 3 24 (by decide) rfl, hcn 4 32 (by decide) rfl, hcn 5 40 (by decide) rfl, hcn 6 48 (by decide) rfl, hcn 7 56 (by decide) rfl] at hC
    obtain ⟨k0, k2, k4, k6⟩ := counts64 hC (cl _) (cl _) (cl _) (cl _) (cl _) (cl _) (cl _) (cl _) rfl
    simp only [compact, if_true]
    rw [k0, k2, k4, k6]
    have r : ∀ h, h < 4 → Half (fun j => mask.getLsbD (16 * h + j)) (fun j => (fun q => d (q / 16) (q % 16)) (16 * h + j)) 16
        (toList (tbx 16 (set1 0#8) (d h) (compactRow ((mask >>> (16 * h)) &&& 0x7fff#_).toNat)) 16) := by
      intro h hh
      apply (half16 (by decide) (mask >>> (16 * h)) (d h)).congr
      · intro j hj; rw [BitVec.getLsbD_ushiftRight]
      · intro j hj
        simp only
        rw [show (16 * h + j) / 16 = h by omega, show (16 * h + j) % 16 = j by omega]
    have r0 := r 0 (by omega)
    have r1 := r 1 (by omega)
    have r2 := r 2 (by omega)
    have r3 := r 3 (by omega)
    simp only [Nat.mul_zero, Nat.zero_add] at r0
    have s0 := cnt_split mask.getLsbD 0 8 rfl
    have s1 := cnt_split mask.getLsbD 16 24 rfl
    have s2 := cnt_split mask.getLsbD 32 40 rfl
    have s3 := cnt_split mask.getLsbD 48 56 rfl
    rw [c0 16] at s0
    refine Puts.fourN (n := 16) r0 r1 r2 r3 ?_ ?_ ?_ ?_
    · rw [s0]; omega
    · rw [s1]; omega
    · show _ = 16 - cnt (fun j => mask.getLsbD (32 + j)) 16
      rw [s2]; omega
    · show _ = 16 - cnt (fun j => mask.getLsbD (48 + j)) 16
      rw [s3]; omega
  | false =>
    have hC := Enc.Simd.Neon.lane32_toNat (cntv pk)
    rw [hcn 0 0 (by decide) rfl, hcn 1 8 (by decide) rfl, hcn 2 16 (by decide) rfl, hcn 3 24 (by decide) rfl] at hC
    obtain ⟨k0, k1, k2, k3⟩ := counts32 hC (cl _) (cl _) (cl _) (cl _) rfl
    simp only [compact, Bool.false_eq_true, if_false]
    rw [k0, k1, k2, k3]
    have r : ∀ (k : Nat) (v : Vec), (∀ j, j < 8 → v j = d ((8 * k + j) / 16) ((8 * k + j) % 16)) →
        Half (fun j => mask.getLsbD (8 * k + j)) (fun j => (fun q => d (q / 16) (q % 16)) (8 * k + j)) 8
        (toList (tbx 8 (set1 0#8) v (thinRow ((mask >>> (8 * k)) &&& 0xff#_).toNat)) 8) := by
      intro k v hv
      apply (half8 (by decide) (mask >>> (8 * k)) v).congr
      · intro j hj; rw [BitVec.getLsbD_ushiftRight]
      · exact hv
    have r0 := r 0 (d 0) (fun j hj => by rw [show (8 * 0 + j) / 16 = 0 by omega, show (8 * 0 + j) % 16 = j by omega])
    have r1 := r 1 (high (d 0)) (fun j hj => by rw [show (8 * 1 + j) / 16 = 0 by omega, show (8 * 1 + j) % 16 = 8 + j by omega, high])
    have r2 := r 2 (d 1) (fun j hj => by rw [show (8 * 2 + j) / 16 = 1 by omega, show (8 * 2 + j) % 16 = j by omega])
    have r3 := r 3 (high (d 1)) (fun j hj => by rw [show (8 * 3 + j) / 16 = 1 by omega, show (8 * 3 + j) % 16 = 8 + j by omega, high])
    simp only [Nat.mul_zero, Nat.zero_add] at r0
    refine Puts.fourN (n := 8) r0 r1 r2 r3 ?_ ?_ ?_ ?_
    · rw [c0]
    · rfl
    · rfl
    · rfl

/-! ### Unescaping -/

theorem tst_bit : ∀ k, k < 8 → ∀ x : Byte, decide (x &&& 1#8 <<< k ≠ 0#8) = x.getLsbD k := by decide +kernel

theorem rotated_apply (m : Vec) (h k : Nat) (hk : k + 2 * h < 16) : rotated m h k = m (k + 2 * h) := by
  induction h generalizing k with
  | zero => rfl
  | succ h ih =>
    rw [rotated, ext, if_pos (by omega), ih _ (by omega)]
    congr 1; omega

theorem idx_row : ∀ j, j < 16 → (make [0, 0, 0, 0, 0, 0, 0, 0, 1, 1, 1, 1, 1, 1, 1, 1] j : Byte).toNat = j / 8 := by decide

theorem vMaskEq_apply (a64 : Bool) (x : BitVec (wid a64)) (h j : Nat) (hh : h < nreg a64) (hj : j < 16) :
    vMaskEq a64 (dup x) h j = bm (x.getLsbD (16 * h + j)) := by
  have hw : wid a64 / 8 = 2 * nreg a64 := by unfold wid; omega
  have key : ∀ q, q = 2 * h + j / 8 → (dup x q).getLsbD (j % 8) = x.getLsbD (16 * h + j) := by
    rintro q rfl
    rw [dup_get x _ _ (by omega) (by omega)]
    congr 1; omega
  unfold vMaskEq
  rw [tst, bits_eq j hj, tst_bit _ (by omega)]
  congr 1
  cases a64 with
  | true =>
    have hh : h < 4 := hh
    rw [if_pos rfl, tbx, idx_row j hj, if_pos (by omega), rotated_apply _ _ _ (by omega)]
    exact key _ (by omega)
  | false =>
    rw [if_neg (by decide), combine]
    split
    · rw [set1]; exact key _ (by omega)
    · rw [set1]; exact key _ (by omega)

theorem bslv (p : Bool) (x y : Byte) : (bm p &&& x) ||| (~~~ bm p &&& y) = if p then x else y := by
  rw [bm_not, bm_and_byte, bm_and_byte]; cases p <;> simp

theorem dataFix_apply (a64 : Bool) (B b : Nat → Byte) (hb : ∀ k, b k = B (k + 4)) (e : Bool) (x : BitVec (wid a64))
    (hx : ∀ q, q < wid a64 → x.getLsbD q = escP B e q) (q : Nat) (hq : q < wid a64) : dataFix a64 (dup x) b (q / 16) (q % 16) = val B e q := by
  unfold wid at hq
  rw [dataFix, sub, bsl, vMaskEq_apply a64 x _ _ (by omega) (by omega), show 16 * (q / 16) + q % 16 = q by omega, hx q (by unfold wid; omega), bslv, data_apply,
    show 16 * (q / 16) + q % 16 = q by omega, val, hb, set1, set1]
  cases escP B e q <;> rfl

theorem off_bsl : ∀ p : Bool, ((42#8 : Byte) &&& 106#8) ||| (~~~ (42#8 : Byte) &&& (if p then (106#8 : Byte) else 42#8)) = if p then (106#8 : Byte) else 42#8 := by decide

theorem dataFast_apply (B b : Nat → Byte) (hb : ∀ k, b k = B (k + 4)) (e : Bool) (off : Vec) (hoff : ∀ j, j < 16 → off j = if j = 0 ∧ e = true then 106#8 else 42#8)
    (W : Nat) (hE : ∀ q, q < W → escP B e (q + 1) = decide (b q = EQ)) (q : Nat) (hq : q < W) : dataFast off b (q / 16) (q % 16) = val B e q := by
  have hv : ∀ y : Byte, y = (if escP B e q then 106#8 else 42#8) → b q - y = val B e q := by
    rintro y rfl
    rw [val, hb]
    cases escP B e q <;> rfl
  rw [dataFast, sub, data_apply, show 16 * (q / 16) + q % 16 = q by omega]
  apply hv
  rw [bsl, set1]
  by_cases h0 : q = 0
  · subst h0
    simp only [Nat.zero_div, Nat.zero_mod, if_true, ext, set1, show 0 + 15 < 16 by omega]
    rw [hoff 0 (by omega)]
    have := off_bsl e
    simp only [escP, true_and]
    exact this
  · have hm : ext (if q / 16 = 0 then set1 42#8 else cmpEq b (q / 16 - 1)) (cmpEq b (q / 16)) 15 (q % 16) = bm (escP B e q) := by
      have he := hE (q - 1) (by omega)
      rw [show q - 1 + 1 = q by omega] at he
      rw [ext, he]
      split
      · rw [if_neg (by omega), cmpEq_apply]
        rw [show 16 * (q / 16 - 1) + (q % 16 + 15) = q - 1 by omega]
      · rw [cmpEq_apply, show 16 * (q / 16) + (q % 16 + 15 - 16) = q - 1 by omega]
    rw [hm, bslv]
    have ho : (if q / 16 = 0 then off else set1 42#8) (q % 16) = 42#8 := by
      split
      · rw [hoff _ (by omega), if_neg (by omega)]
      · rfl
    rw [ho]

theorem PackOk.bic {a64 : Bool} {pk : Vec} {mask : BitVec (wid a64)} (h : PackOk a64 pk mask.getLsbD) (x : BitVec (wid a64)) :
    PackOk a64 (bic pk (dup x)) (mask &&& ~~~ x).getLsbD := by
  intro q hq i hi
  rw [Vec.bic, BitVec.getLsbD_and, BitVec.getLsbD_not, h q hq i hi, dup_get x q i (by unfold wid; omega) hi, BitVec.getLsbD_and, BitVec.getLsbD_not]
  simp [hi, show 8 * q + i < wid a64 by unfold wid; omega]

theorem PackOk.or {a64 : Bool} {pk : Vec} {mask : BitVec (wid a64)} (h : PackOk a64 pk mask.getLsbD) (x : BitVec (wid a64)) :
    PackOk a64 (Vec.or pk (dup x)) (mask ||| x).getLsbD := by
  intro q hq i hi
  rw [Vec.or, BitVec.getLsbD_or, h q hq i hi, dup_get x q i (by unfold wid; omega) hi, BitVec.getLsbD_or]

/-- `yencOffset`. -/
def OffOk (off : Vec) (e : Bool) : Prop := ∀ j, j < 16 → off j = if j = 0 ∧ e = true then 106#8 else 42#8

theorem OffOk.set {off : Vec} {e : Bool} (h : OffOk off e) (e' : Bool) : OffOk (setLane (BitVec.ofNat 8 (e'.toNat <<< 6) ||| 42#8) off 0) e' := by
  intro j hj
  rw [setLane]
  by_cases h0 : j = 0
  · subst h0; rw [if_pos rfl]; cases e' <;> decide
  · rw [if_neg h0, h j hj, if_neg (by omega), if_neg (by omega)]

theorem unescape_ok (a64 : Bool) (s : Regs) (e : Bool) (hs : s.esc = e) (hoff : OffOk s.off e) (raw : Bool) (B b : Nat → Byte)
    (hb : ∀ k, b k = B (k + 4)) (mask maskEq : BitVec (wid a64)) (pk : Vec) (hpk : PackOk a64 pk mask.getLsbD)
    (hm : ∀ q, q < wid a64 → mask.getLsbD q = (special (b q) || killed raw B q))
    (hq : ∀ q, q < wid a64 → maskEq.getLsbD q = decide (b q = EQ)) (mix : Vec) :
    ∃ stores adv off, unescape a64 s b mask maskEq pk mix = .next stores adv ⟨escP B e (wid a64), off, mix⟩ ∧
      OffOk off (escP B e (wid a64)) ∧ Puts (removed raw B e) (val B e) (wid a64) stores adv := by
  subst hs
  have hW : 32 ≤ wid a64 ∧ wid a64 ≤ 64 := by rcases nreg_cases a64 with h | h <;> omega
  have hsh : ∀ (x : BitVec (wid a64)) q, q < wid a64 → (x <<< 1 ||| BitVec.ofNat _ s.esc.toNat).getLsbD q = if q = 0 then s.esc else x.getLsbD (q - 1) := by
    intro x q h
    rw [← shl1_add_eq]; exact shl1_add_getLsbD _ _ _ h
  unfold unescape
  simp only
  generalize hz : maskEq <<< 1 ||| BitVec.ofNat _ s.esc.toNat = sh
  have hsh1 : ∀ q, q < wid a64 → sh.getLsbD q = if q = 0 then s.esc else maskEq.getLsbD (q - 1) := by
    intro q h; rw [← hz]; exact hsh _ q h
  by_cases h0 : mask &&& sh ≠ 0#_
  · rw [if_pos h0]
    have hfix := fix_case hb hq hsh1 (by omega)
    generalize fixEqMask maskEq sh = fx at hfix ⊢
    have hesc := hfix (wid a64 - 1) (by omega)
    rw [show wid a64 - 1 + 1 = wid a64 by omega] at hesc
    have hx : ∀ q, q < wid a64 → (fx <<< 1 ||| BitVec.ofNat _ s.esc.toNat).getLsbD q = escP B s.esc q := by
      intro q h
      rw [hsh _ q h]
      cases q with
      | zero => rfl
      | succ q => rw [if_neg (by omega), Nat.add_sub_cancel, hfix q (by omega)]
    generalize fx <<< 1 ||| BitVec.ofNat _ s.esc.toNat = x at hx ⊢
    rw [hesc]
    refine ⟨_, _, _, rfl, hoff.set _, ?_⟩
    apply (compact_puts a64 _ _ (hpk.bic x) _).congr
    · intro q h
      rw [removed_mask hb hm q h, BitVec.getLsbD_and, BitVec.getLsbD_not, hx q h, Bool.and_comm]
      simp [h]
    · intro q h
      exact dataFix_apply a64 B b hb s.esc x hx q h
  · rw [if_neg h0]
    obtain ⟨hE, hrm⟩ := nofix_case hb hm hq hsh1 (Decidable.not_not.1 h0)
    have hesc : maskEq.getLsbD (wid a64 - 1) = escP B s.esc (wid a64) := by
      have := hE (wid a64 - 1) (by omega)
      rw [show wid a64 - 1 + 1 = wid a64 by omega] at this
      rw [this, hq _ (by omega)]
    rw [hesc]
    refine ⟨_, _, _, rfl, hoff.set _, ?_⟩
    apply (compact_puts a64 _ _ hpk _).congr
    · intro q h; rw [hrm q h]
    · intro q h
      exact dataFast_apply B b hb s.esc s.off hoff _ hE q h

/-! ### What is carried along -/

/-- `nextMaskMix` resp. `lfCompare`. -/
def MixOk (a64 : Bool) (pd : Nat) (mix : Vec) : Prop :=
  ∀ j, j < 16 → if a64 then (if pend pd j then (mix j).getLsbD (j % 8) = true else mix j = 0#8) else mix j = if pend pd j then DOT else LF

/-- Registers that go with a carried escape `e` and a pending `nextMask` of `pd`. -/
def Rel (a64 : Bool) (s : Regs) (e : Bool) (pd : Nat) : Prop := s.esc = e ∧ OffOk s.off e ∧ MixOk a64 pd s.mix

theorem crlf_table : ∀ x : Byte, (if x.toNat < 16 then crlfTable x.toNat else bm (decide (x = EQ))) = bm (special x) := by decide +kernel

theorem and_bit : ∀ k, k < 8 → ∀ x : Byte, x &&& 1#8 <<< k = bm (x.getLsbD k) &&& 1#8 <<< k := by decide +kernel

theorem pend_big (pd q : Nat) (h : 2 ≤ q) : pend pd q = false := by
  simp only [pend, decide_eq_false_iff_not]; omega

section
variable (a64 : Bool) (md : Mode) (mix : Vec) (pd : Nat) (hmix : MixOk a64 pd mix) (hpl : md.isRaw = false → pd = 0) (b : Nat → Byte)
  (hx : ∀ j, pend pd j = true → b j = DOT)
include hmix hpl hx

theorem cmp_lane (h j : Nat) (hj : j < 16) :
    cmp a64 md mix b h j &&& bits j = bm (special (b (16 * h + j)) || pend pd (16 * h + j)) &&& bits j ∧
    (cmp a64 md mix b h j ≠ 0#8 ↔ (special (b (16 * h + j)) || pend pd (16 * h + j)) = true) := by
  have hm := hmix j hj
  cases a64 with
  | true =>
    have hc : tbx 16 (cmpEq b h) crlfTable (data b h) j = bm (special (b (16 * h + j))) := crlf_table _
    simp only [cmp, if_true]
    simp only [if_true] at hm
    by_cases hr : h = 0 ∧ md.isRaw = true
    · rw [if_pos hr, Vec.or, hc]
      obtain ⟨rfl, hr⟩ := hr
      simp only [Nat.mul_zero, Nat.zero_add]
      by_cases hp : pend pd j = true
      · rw [hp] at hm ⊢
        simp only [if_true] at hm
        refine ⟨?_, ?_⟩
        · rw [bits_eq j hj, and_bit _ (by omega), BitVec.getLsbD_or, hm, Bool.or_true, Bool.or_true]
        · rw [or_ne, bm_ne]
          simp only [Bool.or_true, iff_true]
          right
          intro h0
          rw [h0] at hm
          simp at hm
      · rw [Bool.not_eq_true _ |>.mp hp] at hm ⊢
        simp only [Bool.false_eq_true, if_false] at hm
        rw [hm, BitVec.or_zero, bm_ne, Bool.or_false]
        exact ⟨rfl, Iff.rfl⟩
    · rw [if_neg hr, hc]
      have hp : pend pd (16 * h + j) = false := by
        by_cases h0 : h = 0
        · rw [hpl (Bool.not_eq_true _ |>.mp fun h1 => hr ⟨h0, h1⟩)]; simp [pend]
        · exact pend_big _ _ (by omega)
      rw [hp, Bool.or_false, bm_ne]
      exact ⟨rfl, Iff.rfl⟩
  | false =>
    simp only [Bool.false_eq_true, if_false] at hm
    have hc : cmp false md mix b h j = bm (special (b (16 * h + j)) || pend pd (16 * h + j)) := by
      simp only [cmp, Bool.false_eq_true, if_false, Vec.or, cmpCr_apply, cmpEq_apply, cmpeq, data_apply, bm_or]
      congr 1
      by_cases hp : pend pd (16 * h + j) = true
      · have h0 : h = 0 := by
          by_cases h0 : h = 0
          · exact h0
          · rw [pend_big _ _ (by omega)] at hp; cases hp
        subst h0
        simp only [Nat.mul_zero, Nat.zero_add] at hp
        simp only [Nat.mul_zero, Nat.zero_add, if_true, hm, hp, hx j hp, decide_true, Bool.or_true, Bool.true_or]
      · rw [Bool.not_eq_true _ |>.mp hp]
        have hl : (if h = 0 then mix else set1 LF) j = LF := by
          split
          · rename_i h0
            subst h0
            simp only [Nat.mul_zero, Nat.zero_add] at hp
            rw [hm, if_neg hp]
          · rfl
        rw [hl, special, Bool.or_false]
        rw [Bool.or_comm, ← Bool.or_assoc]
        rfl
    rw [hc, bm_ne]
    exact ⟨rfl, Iff.rfl⟩

theorem cmp_says : Says a64 (cmp a64 md mix b) fun q => special (b q) || pend pd q :=
  fun r _ j hj => (cmp_lane a64 md mix pd hmix hpl b hx r j hj).1

theorem any_iff : (if a64 then isNonzero a64 (orAll a64 (cmp a64 md mix b)) else decide (lane (wid a64) (packed a64 (cmp a64 md mix b) (cmpEq b)) ≠ 0#_)) = true ↔
    ∃ q, q < wid a64 ∧ (special (b q) || pend pd q) = true := by
  split
  · exact nonzero_iff a64 _ (fun q => (special (b q) || pend pd q) = true) fun r _ j hj => (cmp_lane a64 md mix pd hmix hpl b hx r j hj).2
  · rw [decide_eq_true_eq, ne_zero_iff]
    have hp := packed_ok (eq := cmpEq b) (cmp_says a64 md mix pd hmix hpl b hx)
    constructor
    · rintro ⟨q, hq, h⟩; rw [hp.get q hq] at h; exact ⟨q, hq, h⟩
    · rintro ⟨q, hq, h⟩; refine ⟨q, hq, ?_⟩; rw [hp.get q hq]; exact h

end

theorem lf_bsl : (LF &&& DOT) ||| (~~~ LF &&& LF) = LF := by decide

theorem nextMix_ok (a64 : Bool) (md : Mode) (b : Nat → Byte) (mix : Vec) (pd pd' : Nat) (hmix : MixOk a64 pd mix)
    (h1 : pd' = 1 ↔ nlDot b (wid a64 - 2) = true) (h2 : pd' = 2 ↔ nlDot b (wid a64 - 1) = true) : MixOk a64 pd' (nextMix a64 md b mix) := by
  have hp : ∀ j, j < 2 → pend pd' j = nlDot b (wid a64 - 2 + j) := by
    intro j hj
    have hW : 2 ≤ wid a64 := by rcases nreg_cases a64 with h | h <;> omega
    rw [Bool.eq_iff_iff]
    match j, hj with
    | 0, _ => rw [Nat.add_zero, ← h1]; simp [pend]
    | 1, _ => rw [show wid a64 - 2 + 1 = wid a64 - 1 by omega, ← h2]; simp [pend]
  intro j hj
  cases a64 with
  | true =>
    simp only [if_true, nextMix, ext]
    by_cases hj2 : j < 2
    · rw [if_pos (show j + 14 < 16 by omega), match2NlDot_apply true md b 3 _ (by decide) (by omega), hp j hj2]
      have e : wid true - 2 + j = 16 * 3 + (j + 14) := by show 64 - 2 + j = _; omega
      rw [e]
      split
      · rename_i h; rw [h]; exact bm_get _ _ (by omega)
      · rename_i h; rw [Bool.not_eq_true _ |>.mp h]; rfl
    · rw [if_neg (show ¬ j + 14 < 16 by omega), pend_big _ _ (by omega), if_neg (by simp)]; rfl
  | false =>
    have hhi : ∀ k, k < 8 → mix (8 + k) = LF := by
      intro k hk
      have := hmix (8 + k) (by omega)
      rw [if_neg (by decide), pend_big _ _ (by omega)] at this
      simpa using this
    simp only [Bool.false_eq_true, if_false, nextMix, combine]
    by_cases hj8 : j < 8
    · rw [if_pos hj8]
      simp only [bsl, high]
      rw [hhi j hj8]
      by_cases hj2 : j < 2
      · rw [if_pos (by omega), match2NlDot_apply false md b 1 _ (by decide) (by omega), bslv, hp j hj2]
        have e : wid false - 2 + j = 16 * 1 + (8 + (j + 6)) := by show 32 - 2 + j = _; omega
        rw [e]; rfl
      · rw [if_neg (by omega), pend_big _ _ (by omega), set1, set1, lf_bsl]; rfl
    · rw [if_neg hj8, pend_big _ _ (by omega), high, hhi _ (by omega)]; rfl

theorem freshMix_ok (a64 : Bool) (mix : Vec) (pd : Nat) (hmix : MixOk a64 pd mix) : MixOk a64 0 (freshMix a64 mix) := by
  have hp : ∀ j, pend 0 j = false := fun j => by simp [pend]
  intro j hj
  rw [hp]
  cases a64 with
  | true => simp [freshMix, set1]
  | false =>
    have hhi : ∀ k, k < 8 → mix (8 + k) = LF := by
      intro k hk
      have := hmix (8 + k) (by omega)
      rw [if_neg (by decide), pend_big _ _ (by omega)] at this
      simpa using this
    simp only [Bool.false_eq_true, if_false, freshMix, combine, high]
    split
    · exact hhi _ (by omega)
    · exact hhi _ (by omega)

theorem init_ok (a64 : Bool) (md : Mode) (e : Bool) (pd : Nat) (hpd : pd = 0 ∨ pd = 1 ∨ pd = 2) (hp : md.isRaw = false → pd = 0) :
    Rel a64 (init a64 md e pd) e pd := by
  refine ⟨rfl, ?_, ?_⟩
  · intro j hj
    simp only [init]
    cases e
    · simp [set1]
    · rw [if_pos rfl]
      have : ∀ j, j < 16 → make (106#8 :: List.replicate 15 42#8) j = if j = 0 ∧ true = true then 106#8 else 42#8 := by decide
      exact this j hj
  · intro j hj
    simp only [init]
    cases a64 with
    | true =>
      simp only [if_true]
      by_cases j0 : j = 0
      · subst j0
        rcases hpd with rfl | rfl | rfl <;> decide
      · by_cases j1 : j = 1
        · subst j1
          rcases hpd with rfl | rfl | rfl <;> decide
        · rw [pend_big _ _ (by omega)]
          simp only [Bool.false_eq_true, if_false]
          rcases hpd with rfl | rfl | rfl <;> simp [setLane, j0, j1, set1]
    | false =>
      simp only [Bool.false_eq_true, if_false]
      by_cases hr : md.isRaw = true
      · rw [if_pos hr]
        by_cases j0 : j = 0
        · subst j0
          rcases hpd with rfl | rfl | rfl <;> decide
        · by_cases j1 : j = 1
          · subst j1
            rcases hpd with rfl | rfl | rfl <;> decide
          · rw [pend_big _ _ (by omega)]
            rcases hpd with rfl | rfl | rfl <;> simp [setLane, j0, j1, set1]
      · rw [if_neg hr, hp (Bool.not_eq_true _ |>.mp hr)]
        simp [pend, set1]

/-! ### A round -/

theorem plainPuts (off : Vec) (b : Nat → Byte) (rm : Nat → Bool) (v : Nat → Byte) (k : Nat) (hrm : ∀ q, q < 16 * k → rm q = false)
    (hv : ∀ q, q < 16 * k → sub (data b (q / 16)) (if q / 16 = 0 then off else set1 42#8) (q % 16) = v q) :
    Puts rm v (16 * k) ((List.range k).map fun h => (16 * h, toList (sub (data b h) (if h = 0 then off else set1 42#8)) 16)) (16 * k) := by
  induction k with
  | zero => exact Puts.nil _ _
  | succ k ih =>
    have p := (ih (fun q h => hrm q (by omega)) (fun q h => hv q (by omega))).snoc (b := 16)
      (S := toList (sub (data b k) (if k = 0 then off else set1 42#8)) 16)
      ((Half.full _ 16 (fun j => rm (16 * k + j)) fun j hj => hrm _ (by omega)).congr (fun _ _ => rfl) fun j hj => by
        have := hv (16 * k + j) (by omega)
        rw [show (16 * k + j) / 16 = k by omega, show (16 * k + j) % 16 = j by omega] at this
        exact this)
    have hc : cnt (fun j => rm (16 * k + j)) 16 = 0 := by
      rw [← cnt_false 16]
      exact cnt_congr fun j hj => hrm _ (by omega)
    rw [keep_length, hc, Nat.sub_zero] at p
    rw [List.range_succ, List.map_append]
    exact p

section
variable (a64 : Bool) (md : Mode) (s : Regs) (e : Bool) (B b : Nat → Byte) (hb : ∀ k, b k = B (k + 4))
include hb

theorem roundOk_unescape (hs : s.esc = e) (hoff : OffOk s.off e) (mask maskEq : BitVec (wid a64)) (pk : Vec) (hpk : PackOk a64 pk mask.getLsbD)
    (hm : ∀ q, q < wid a64 → mask.getLsbD q = (special (b q) || killed md.isRaw B q)) (hq : ∀ q, q < wid a64 → maskEq.getLsbD q = decide (b q = EQ)) (mix : Vec)
    (hmix : MixOk a64 (pendOf md (shift (wid a64) B)) mix)
    (ht : md = .endRaw → ∀ j, j < wid a64 → ¬ endAt b j) : RoundOk (Rel a64) (wid a64) md B e (unescape a64 s b mask maskEq pk mix) := by
  obtain ⟨stores, adv, off, h1, h2, h3⟩ := unescape_ok a64 s e hs hoff md.isRaw B b hb mask maskEq pk hpk hm hq mix
  rw [h1]
  exact ⟨h3, ⟨rfl, h2, hmix⟩, fun h j hj => by rw [X86.term_end B b hb]; exact ht h j hj⟩

theorem iter_ok (hR : Rel a64 s e (pendOf md B)) : RoundOk (Rel a64) (wid a64) md B e (iter a64 md s b).round := by
  have hW : 32 ≤ wid a64 ∧ wid a64 ≤ 64 := by rcases nreg_cases a64 with h | h <;> omega
  obtain ⟨hs, hoff, hmix⟩ := hR
  have hpl : md.isRaw = false → pendOf md B = 0 := fun h => X86.pendOf_plain md h B
  have hx := X86.pend_dot md B b hb
  have hany := any_iff a64 md s.mix _ hmix hpl b hx
  have hpk := packed_ok (eq := cmpEq b) (cmp_says a64 md s.mix _ hmix hpl b hx)
  have hmask := hpk.get
  have hmeq := maskEq_ok (f := cmp a64 md s.mix b) (Says.of_bm (a64 := a64) (f := cmpEq b) (t := fun q => decide (b q = EQ)) fun r _ j _ => cmpEq_apply b r j)
  have hkr : md.isRaw = true → ∀ q, killed md.isRaw B q = (pend (pendOf md B) q || (decide (2 ≤ q) && nlDot b (q - 2))) := by
    intro hr q; rw [hr]; exact X86.killed_raw md hr B b hb q
  have hkp : md.isRaw = false → ∀ q, killed md.isRaw B q = false := by
    intro hr q; rw [hr]; simp [killed]
  unfold iter
  simp only
  generalize packed a64 (cmp a64 md s.mix b) (cmpEq b) = pk at *
  generalize maskEqOf a64 (cmp a64 md s.mix b) (cmpEq b) = maskEq at *
  have hpk' : PackOk a64 pk (lane (wid a64) pk).getLsbD := by
    intro q hq i hi
    rw [hmask _ (by unfold wid; omega)]
    exact hpk q hq i hi
  generalize lane (wid a64) pk = mask at *
  by_cases hz : ∃ q, q < wid a64 ∧ (special (b q) || pend (pendOf md B) q) = true
  · rw [if_pos (hany.2 hz)]
    by_cases hr : md.isRaw = true
    · by_cases he : mask = maskEq
      · rw [if_neg (by simp [he])]
        obtain ⟨k0, k1, k2, k3⟩ := only_eq (W := wid a64) (by omega) md hb fun q hq => by rw [← hmask q hq, he, hmeq q hq]
        apply roundOk_unescape a64 md s e B b hb hs hoff _ _ _ hpk' _ hmeq _ _ (fun _ => k2)
        · intro q h
          rw [hmask q h, k3 q h, k0]; simp [pend]
        · rw [k1, ← k0]; exact hmix
      · rw [if_pos ⟨hr, he⟩]
        unfold dots
        have hnm := X86.nextMaskAt md hr B b hb _ _ (hmask 0 (by omega)) (hmask 1 (by omega))
        have hki := partialKill_iff a64 md b
        by_cases hk : isNonzero a64 (orAll a64 (match2CrDot a64 md b)) = true
        · simp only [hk, if_true]
          by_cases hse : md.searchEnd = true ∧ matchEnd a64 md b = true
          · rw [if_pos hse]
            exact ⟨by cases md <;> simp_all [Mode.searchEnd], hnm⟩
          · rw [if_neg hse]
            apply roundOk_unescape a64 md s e B b hb hs hoff _ _ _ (hpk'.or _) _ hmeq
            · exact nextMix_ok a64 md b _ _ _ hmix (X86.next_one md hr B b hb _ (by omega)) (X86.next_two md hr B b hb _ (by omega))
            · intro hmd j hj h
              apply hse
              exact ⟨by rw [hmd]; rfl, matchEnd_of a64 md b ⟨j, hj, h⟩⟩
            · intro q h
              rw [BitVec.getLsbD_or, killDots_get a64 md b q h, hmask q h, hkr hr, Bool.or_assoc]
        · have hno : ∀ q, q < wid a64 → ¬ (b q = CR ∧ b (q + 2) = DOT) := fun q h h' => hk (hki.2 ⟨q, h, h'⟩)
          have hnl := no_nlDot hno
          have hm' : ∀ q, q < wid a64 → mask.getLsbD q = (special (b q) || killed md.isRaw B q) := by
            intro q h
            rw [hmask q h, hkr hr, hnl _ (by omega)]; simp
          have hc' : MixOk a64 (pendOf md (shift (wid a64) B)) (freshMix a64 s.mix) := by
            rw [X86.next_zero md hr B b hb _ (by omega) hnl]; exact freshMix_ok a64 _ _ hmix
          simp only [hk, Bool.false_eq_true, if_false]
          by_cases hse : md.searchEnd = true
          · simp only [hse, if_true]
            by_cases hf : isNonzero a64 (orAll a64 (match3EqY a64 md b)) = true ∧ endFound a64 md b = true
            · rw [if_pos hf]
              exact ⟨by cases md <;> simp_all [Mode.searchEnd], hnm⟩
            · rw [if_neg hf]
              apply roundOk_unescape a64 md s e B b hb hs hoff _ _ _ hpk' hm' hmeq _ hc'
              intro _ j hj h
              obtain ⟨h1, h2, h4⟩ := h
              rcases h4 with ⟨h4, _⟩ | ⟨h4, _⟩ | ⟨h4, h5⟩
              · exact hno j hj ⟨h1, h4⟩
              · exact hno j hj ⟨h1, h4⟩
              · exact hf (endFound_of a64 md b ⟨j, hj, h1, h2, h4, h5⟩)
          · simp only [hse, Bool.false_eq_true, if_false]
            apply roundOk_unescape a64 md s e B b hb hs hoff _ _ _ hpk' hm' hmeq _ hc'
            intro hmd
            rw [hmd] at hse
            exact absurd rfl hse
    · rw [if_neg (by simp [hr])]
      have hrf := Bool.not_eq_true _ |>.mp hr
      apply roundOk_unescape a64 md s e B b hb hs hoff _ _ _ hpk' _ hmeq
      · rw [X86.pendOf_plain md hrf, ← X86.pendOf_plain md hrf B]; exact hmix
      · intro hmd
        rw [hmd] at hr
        exact absurd rfl hr
      · intro q h
        rw [hmask q h, hkp hrf, X86.pendOf_plain md hrf]
        simp [pend]
  · rw [if_neg fun h => hz (hany.1 h)]
    obtain ⟨k0, k1, k2, k3, k4⟩ := none_special (W := wid a64) (by omega) md hb e fun q hq =>
      Bool.not_eq_true _ |>.mp fun h => hz ⟨q, hq, h⟩
    have hEw : escP B e (wid a64) = false := by
      have := k4 (wid a64 - 1) (by omega)
      rwa [show wid a64 - 1 + 1 = wid a64 by omega] at this
    refine ⟨plainPuts s.off b _ _ (nreg a64) k3 ?_, ⟨hEw.symm, ?_, ?_⟩, fun _ j hj => by rw [X86.term_end B b hb]; exact k2 j hj⟩
    · intro q hq
      rw [sub, data_apply, show 16 * (q / 16) + q % 16 = q by omega, val, ← hb]
      cases q with
      | zero =>
        simp only [Nat.zero_div, Nat.zero_mod, if_true, hoff 0 (by omega), escP]
        cases e <;> simp
      | succ q =>
        rw [k4 q (by unfold wid; omega)]
        simp only [Bool.false_eq_true, if_false]
        congr 1
        split
        · rw [hoff _ (by omega), if_neg (by omega)]
        · rfl
    · rw [hEw]
      intro j hj
      simp only [Bool.false_eq_true, and_false, if_false]
      cases a64 with
      | true => rfl
      | false =>
        simp only [Bool.false_eq_true, if_false, combine]
        split
        · rfl
        · rw [high, hoff _ (by omega), if_neg (by omega)]
    · rw [k1, ← k0]; exact hmix

end

theorem reach_ok (a64 : Bool) (md : Mode) (s : Regs) (b : Nat → Byte) : (iter a64 md s b).reach ≤ wid a64 + if md = .endRaw then 16 else look md := by
  unfold iter
  simp only
  generalize (if a64 then isNonzero a64 (orAll a64 (cmp a64 md s.mix b)) else decide (lane (wid a64) (packed a64 (cmp a64 md s.mix b) (cmpEq b)) ≠ 0#_)) = any
  split
  · split
    · rename_i h
      have h := h.1
      split <;> (cases md <;> simp_all [Mode.isRaw, Mode.searchEnd, look])
    · simp
  · simp

/-- Only the search for the end needs to be allowed to read on. -/
theorem kernel_ok (a64 : Bool) (md : Mode) (lax : Bool) (hl : md = .endRaw → lax = true) : (kernel a64 md).Ok lax md (Rel a64) where
  width := by rcases nreg_cases a64 with h | h <;> simp only [kernel] <;> omega
  dvd _ := ⟨nreg a64, rfl⟩
  init B e _ := init_ok a64 md e _ (X86.pendOf_le md B) (fun h => X86.pendOf_plain md h B)
  esc s e pd h := h.1
  reach s b := by
    have := reach_ok a64 md s b
    simp only [kernel]
    refine Nat.le_trans this (Nat.add_le_add_left ?_ _)
    cases md <;> cases lax <;> simp_all [Mode.isRaw, look]
  iter s e B hR _ := (iter_ok a64 md s e B (fun j => B (4 + j)) (fun k => by rw [Nat.add_comm]) hR).iter

end Yenc.Dec.Simd.Neon
