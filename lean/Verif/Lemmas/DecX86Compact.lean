import Verif.Lemmas.Compact
import Verif.Lemmas.DecX86
/-! The x86 kernels: compaction. -/
namespace Yenc.Dec.Simd
open Yenc Vec

theorem Puts.two {rm : Nat → Bool} {d : Nat → Byte} {n : Nat} {S1 S2 : List Byte} {a1 adv : Nat} (h1 : Half rm d n S1)
    (h2 : Half (fun j => rm (n + j)) (fun j => d (n + j)) n S2) (ha : a1 = n - cnt rm n)
    (hb : adv = 2 * n - cnt rm n - cnt (fun j => rm (n + j)) n) : Puts rm d (2 * n) [(0, S1), (a1, S2)] adv := by
  have e : ∀ k, 0 + k = k := Nat.zero_add
  have p1 := (Puts.nil rm d).snoc (b := n) (S := S1) (by simpa only [e] using h1)
  have p2 := p1.snoc (b := n) (S := S2) (by simpa only [e] using h2)
  simp only [e, List.nil_append, List.cons_append, keep_length] at p2
  have l1 := cnt_le rm n
  have l2 := cnt_le (fun j => rm (n + j)) n
  rw [← ha, show n + n = 2 * n by omega, show a1 + (n - cnt (fun j => rm (n + j)) n) = adv by omega] at p2
  exact p2

theorem Puts.four {rm : Nat → Bool} {d : Nat → Byte} {S1 S2 S3 S4 : List Byte} {a1 a2 a3 adv : Nat} (h1 : Half rm d 16 S1)
    (h2 : Half (fun j => rm (16 + j)) (fun j => d (16 + j)) 16 S2)
    (h3 : Half (fun j => rm (32 + j)) (fun j => d (32 + j)) 16 S3)
    (h4 : Half (fun j => rm (48 + j)) (fun j => d (48 + j)) 16 S4)
    (ha : a1 = 16 - cnt rm 16) (hb : a2 = 32 - cnt rm 16 - cnt (fun j => rm (16 + j)) 16)
    (hc : a3 = 48 - cnt rm 16 - cnt (fun j => rm (16 + j)) 16 - cnt (fun j => rm (32 + j)) 16)
    (hd : adv = 64 - cnt rm 16 - cnt (fun j => rm (16 + j)) 16 - cnt (fun j => rm (32 + j)) 16 - cnt (fun j => rm (48 + j)) 16) :
    Puts rm d 64 [(0, S1), (a1, S2), (a2, S3), (a3, S4)] adv := by
  have e : ∀ k, 0 + k = k := Nat.zero_add
  have p1 := (Puts.nil rm d).snoc (b := 16) (S := S1) (by simpa only [e] using h1)
  have p2 := p1.snoc (b := 16) (S := S2) (by simpa only [e] using h2)
  have p3 := p2.snoc (b := 16) (S := S3) (by simpa only [e] using h3)
  have p4 := p3.snoc (b := 16) (S := S4) (by simpa only [e] using h4)
  simp only [e, List.nil_append, List.cons_append, keep_length, show 16 + 16 = 32 from rfl, show 32 + 16 = 48 from rfl,
    show 48 + 16 = 64 from rfl] at p4
  have l1 := cnt_le rm 16
  have l2 := cnt_le (fun j => rm (16 + j)) 16
  have l3 := cnt_le (fun j => rm (32 + j)) 16
  have l4 := cnt_le (fun j => rm (48 + j)) 16
  rw [← ha, show a1 + (16 - cnt (fun j => rm (16 + j)) 16) = a2 by omega, show a2 + (16 - cnt (fun j => rm (32 + j)) 16) = a3 by omega,
    show a3 + (16 - cnt (fun j => rm (48 + j)) 16) = adv by omega] at p4
  exact p4

namespace X86

/-- Two adjacent bytes of a mask. -/
theorem bitsSetInv_add {w : Nat} (x : BitVec w) (s : Nat) (hs : s + 16 ≤ w) :
    bitsSetInv ((x >>> s).setWidth 8) + bitsSetInv ((x >>> (s + 8)).setWidth 8) = 16 - cnt (fun j => x.getLsbD (s + j)) 16 := by
  have h : ∀ k, popcnt ((x >>> k).setWidth 8) = cnt (fun j => x.getLsbD (k + j)) 8 := by
    intro k
    rw [popcnt_eq]
    apply cnt_congr
    intro j hj
    rw [BitVec.getLsbD_setWidth, BitVec.getLsbD_ushiftRight]
    simp [hj]
  rw [bitsSetInv, bitsSetInv, h, h, show (16 : Nat) = 8 + 8 from rfl, cnt_add]
  have l1 := cnt_le (fun j => x.getLsbD (s + j)) 8
  have l2 := cnt_le (fun j => x.getLsbD (s + 8 + j)) 8
  have e : cnt (fun j => x.getLsbD (s + (8 + j))) 8 = cnt (fun j => x.getLsbD (s + 8 + j)) 8 := by
    apply cnt_congr
    intro j _
    congr 1; omega
  omega

theorem testBit_7fff {w : Nat} (hw : 16 ≤ w) (x : BitVec w) (j : Nat) : (x &&& 0x7fff#w).toNat.testBit j = (x.getLsbD j && decide (j < 15)) := by
  rw [BitVec.testBit_toNat, BitVec.getLsbD_and, show (0x7fff : Nat) = 2 ^ 15 - 1 from rfl, getLsbD_low]
  by_cases h : j < 15
  · simp [h, show j < w by omega]
  · simp [h]

theorem testBit_7fff0 {w : Nat} (hw : 20 ≤ w) (x : BitVec w) (j : Nat) :
    ((x &&& 0x7fff0#w).toNat / 16).testBit j = (x.getLsbD (4 + j) && decide (j < 15)) := by
  rw [show (16 : Nat) = 2 ^ 4 from rfl, Nat.testBit_div_two_pow, BitVec.testBit_toNat, BitVec.getLsbD_and,
    show (0x7fff0 : Nat) = (2 ^ 15 - 1) <<< 4 from rfl, getLsbD_field, Nat.add_comm]
  by_cases h : j < 15
  · simp [h, show 4 + j < w by omega]
  · simp [h]

theorem half_low {w : Nat} (hw : 16 ≤ w) (x : BitVec w) (d : Vec) : Half x.getLsbD d 16 (toList (pshufb d (compactRow (x &&& 0x7fff#w).toNat)) 16) := by
  apply half_row
  · intro j hj
    rw [testBit_7fff hw]; simp [hj]
  · rw [testBit_7fff hw]; simp

theorem half_high {w : Nat} (hw : 20 ≤ w) (x : BitVec w) (d : Vec) :
    Half (fun j => x.getLsbD (4 + j)) d 16 (toList (pshufb d (compactRow ((x &&& 0x7fff0#w).toNat / 16))) 16) := by
  apply half_row
  · intro j hj
    rw [testBit_7fff0 hw]; simp [hj]
  · rw [testBit_7fff0 hw]; simp

theorem popcnt_ffff {w : Nat} (hw : 16 ≤ w) (x : BitVec w) : popcnt (x &&& 0xffff#w) = cnt x.getLsbD 16 := by
  have := popcnt_field x 0xffff#w 16 0 (by omega) (by
    intro i hi
    rw [show (0xffff : Nat) = 2 ^ 16 - 1 from rfl, getLsbD_low]
    simp [hi])
  rw [this]
  apply cnt_congr
  intro j _
  rw [Nat.zero_add]

theorem popcnt_shl {w : Nat} (k s : Nat) (hw : s + k ≤ w) (x : BitVec w) :
    popcnt (x &&& BitVec.ofNat w ((2 ^ k - 1) <<< s)) = cnt (fun j => x.getLsbD (s + j)) k := by
  apply popcnt_field x _ k s hw
  intro i hi
  rw [getLsbD_field]
  simp [hi]

theorem compact_puts (c : Cfg) (mask : BitVec (2 * c.n)) (dA dB : Vec) :
    Puts mask.getLsbD (fun j => if j < c.n then dA j else dB (j - c.n)) (2 * c.n) (compact c mask dA dB).1 (compact c mask dA dB).2 := by
  have hn := n_cases c
  have dlo : ∀ j, j < c.n → dA j = (fun j => if j < c.n then dA j else dB (j - c.n)) j := fun j hj => by simp only [if_pos hj]
  have dhi : ∀ k j, dB (k + j) = (fun j => if j < c.n then dA j else dB (j - c.n)) (c.n + k + j) := fun k j => by
    simp only [if_neg (show ¬ c.n + k + j < c.n by omega)]
    congr 1; omega
  unfold compact
  by_cases hb2 : c.vbmi2 = true
  · rw [if_pos hb2]
    apply Puts.two
    · apply Half.congr (half_compress c _ _ mask.getLsbD _) (fun _ _ => rfl) dlo
      intro j hj
      rw [BitVec.getLsbD_not, BitVec.getLsbD_setWidth]
      simp [hj]
    · apply Half.congr (half_compress c _ _ (fun j => mask.getLsbD (c.n + j)) _) (fun _ _ => rfl) (fun j _ => by
        have := dhi 0 j; rw [Nat.zero_add, Nat.add_zero] at this; exact this)
      intro j hj
      rw [BitVec.getLsbD_not, BitVec.getLsbD_setWidth, BitVec.getLsbD_ushiftRight]
      simp [hj]
    · have := popcnt_shl c.n 0 (by omega) mask
      simp only [Nat.shiftLeft_zero, Nat.zero_add] at this
      rw [this]
    · have := popcnt_shl c.n 0 (by omega) mask
      simp only [Nat.shiftLeft_zero, Nat.zero_add] at this
      rw [this]
      show 2 * c.n - cnt mask.getLsbD c.n - popcnt (mask >>> c.n) = _
      congr 1
      rw [popcnt_low _ c.n (by omega)]
      · apply cnt_congr
        intro j _
        rw [BitVec.getLsbD_ushiftRight]
      · intro i hi
        rw [BitVec.getLsbD_ushiftRight, BitVec.getLsbD_of_ge _ _ (by omega)]
  rw [if_neg hb2]
  by_cases ha2 : c.avx2 = true
  · have hn2 := n_avx ha2
    rw [if_pos ha2]
    have hA1 : Half mask.getLsbD (fun j => if j < c.n then dA j else dB (j - c.n)) 16
        (toList (pshufb dA (inserti128 (compactRow (mask &&& 0x7fff#_).toNat) (compactRow (((mask >>> 12) &&& 0x7fff0#_).toNat / 16)))) 16) := by
      rw [pshufb_lo]
      exact (half_low (by omega) _ _).congr (fun _ _ => rfl) (fun j hj => dlo j (by omega))
    have hA2 : Half (fun j => mask.getLsbD (16 + j)) (fun j => (fun j => if j < c.n then dA j else dB (j - c.n)) (16 + j)) 16
        (toList (fun j => pshufb dA (inserti128 (compactRow (mask &&& 0x7fff#_).toNat) (compactRow (((mask >>> 12) &&& 0x7fff0#_).toNat / 16))) (16 + j)) 16) := by
      rw [pshufb_hi]
      apply (half_high (by omega) _ _).congr
      · intro j hj
        rw [BitVec.getLsbD_ushiftRight]
        congr 1; omega
      · intro j hj
        exact dlo (16 + j) (by omega)
    have hc1 : popcnt (mask &&& 0xffff#_) = cnt mask.getLsbD 16 := popcnt_ffff (by omega) _
    have hc2 : popcnt (mask &&& 0xffff0000#_) = cnt (fun j => mask.getLsbD (16 + j)) 16 := popcnt_shl 16 16 (by omega) mask
    have e64 : 2 * c.n = 64 := by omega
    by_cases h64 : c.amd64 = true
    · rw [if_pos h64]
      have hc3 : popcnt (mask >>> 28 &&& 0xffff0#_) = cnt (fun j => mask.getLsbD (32 + j)) 16 := by
        refine (popcnt_shl 16 4 (by omega) (mask >>> 28)).trans ?_
        apply cnt_congr
        intro j _
        rw [BitVec.getLsbD_ushiftRight]
        congr 1; omega
      have hc4 : popcnt ((mask >>> 28 >>> 20).setWidth 32) = cnt (fun j => mask.getLsbD (48 + j)) 16 := by
        rw [popcnt_low _ 16 (by omega)]
        · apply cnt_congr
          intro j hj
          rw [BitVec.getLsbD_setWidth, BitVec.getLsbD_ushiftRight, BitVec.getLsbD_ushiftRight]
          simp only [show j < 32 by omega, decide_true, Bool.true_and]
          congr 1; omega
        · intro i hi
          rw [BitVec.getLsbD_setWidth, BitVec.getLsbD_ushiftRight, BitVec.getLsbD_ushiftRight, BitVec.getLsbD_of_ge _ _ (by omega)]
          simp
      simp only [hc1, hc2, hc3, hc4]
      have := @Puts.four mask.getLsbD (fun j => if j < c.n then dA j else dB (j - c.n)) _ _
        (toList (pshufb dB (inserti128 (compactRow ((mask >>> 28 &&& 0x7fff0#_).toNat / 16)) (compactRow (((mask >>> 28 >>> 16) &&& 0x7fff0#_).toNat / 16)))) 16)
        (toList (fun j => pshufb dB (inserti128 (compactRow ((mask >>> 28 &&& 0x7fff0#_).toNat / 16)) (compactRow (((mask >>> 28 >>> 16) &&& 0x7fff0#_).toNat / 16))) (16 + j)) 16)
        _ _ _ _ hA1 hA2 ?_ ?_ rfl rfl rfl rfl
      · simpa only [e64] using this
      · rw [pshufb_lo]
        apply (half_high (by omega) _ _).congr
        · intro j hj
          rw [BitVec.getLsbD_ushiftRight]
          congr 1; omega
        · intro j hj
          have := dhi 0 j
          rw [hn2] at this
          simpa [hn2] using this
      · rw [pshufb_hi]
        apply (half_high (by omega) _ _).congr
        · intro j hj
          rw [BitVec.getLsbD_ushiftRight, BitVec.getLsbD_ushiftRight]
          congr 1; omega
        · intro j hj
          have := dhi 16 j
          rw [hn2] at this
          simpa [hn2] using this
    · rw [if_neg h64]
      have hc3 : popcnt (mask >>> 32 &&& 0xffff#_) = cnt (fun j => mask.getLsbD (32 + j)) 16 := by
        rw [popcnt_ffff (by omega)]
        apply cnt_congr
        intro j _
        rw [BitVec.getLsbD_ushiftRight]
      have hc4 : popcnt (mask >>> 32 &&& 0xffff0000#_) = cnt (fun j => mask.getLsbD (48 + j)) 16 := by
        refine (popcnt_shl 16 16 (by omega) (mask >>> 32)).trans ?_
        apply cnt_congr
        intro j _
        rw [BitVec.getLsbD_ushiftRight]
        congr 1; omega
      simp only [hc1, hc2, hc3, hc4]
      have := @Puts.four mask.getLsbD (fun j => if j < c.n then dA j else dB (j - c.n)) _ _
        (toList (pshufb dB (inserti128 (compactRow (mask >>> 32 &&& 0x7fff#_).toNat) (compactRow (((mask >>> 32 >>> 12) &&& 0x7fff0#_).toNat / 16)))) 16)
        (toList (fun j => pshufb dB (inserti128 (compactRow (mask >>> 32 &&& 0x7fff#_).toNat) (compactRow (((mask >>> 32 >>> 12) &&& 0x7fff0#_).toNat / 16))) (16 + j)) 16)
        _ _ _ _ hA1 hA2 ?_ ?_ rfl rfl rfl rfl
      · simpa only [e64] using this
      · rw [pshufb_lo]
        apply (half_low (by omega) _ _).congr
        · intro j hj
          rw [BitVec.getLsbD_ushiftRight]
        · intro j hj
          have := dhi 0 j
          rw [hn2] at this
          simpa [hn2] using this
      · rw [pshufb_hi]
        apply (half_high (by omega) _ _).congr
        · intro j hj
          rw [BitVec.getLsbD_ushiftRight, BitVec.getLsbD_ushiftRight]
          congr 1; omega
        · intro j hj
          have := dhi 16 j
          rw [hn2] at this
          simpa [hn2] using this
  rw [if_neg ha2]
  have hn1 := n_sse (Bool.not_eq_true _ |>.mp ha2)
  have e32 : 2 * c.n = 2 * 16 := by omega
  have hA : ∀ S, Half mask.getLsbD dA 16 S → Half mask.getLsbD (fun j => if j < c.n then dA j else dB (j - c.n)) 16 S :=
    fun S h => h.congr (fun _ _ => rfl) (fun j hj => dlo j (by omega))
  have hB : ∀ S, Half (fun j => mask.getLsbD (16 + j)) dB 16 S → Half (fun j => mask.getLsbD (16 + j)) (fun j => (fun j => if j < c.n then dA j else dB (j - c.n)) (16 + j)) 16 S :=
    fun S h => h.congr (fun _ _ => rfl) (fun j hj => by
      have := dhi 0 j
      rw [hn1] at this
      simpa [hn1] using this)
  have hi1 : bitsSetInv (mask.setWidth 8) + bitsSetInv ((mask >>> 8).setWidth 8) = 16 - cnt mask.getLsbD 16 := by
    have := bitsSetInv_add mask 0 (by omega)
    simp only [Nat.zero_add, BitVec.ushiftRight_zero] at this
    exact this
  have hi2 : bitsSetInv ((mask >>> 16).setWidth 8) + bitsSetInv ((mask >>> 24).setWidth 8) = 16 - cnt (fun j => mask.getLsbD (16 + j)) 16 :=
    bitsSetInv_add mask 16 (by omega)
  have l1 := cnt_le mask.getLsbD 16
  have l2 := cnt_le (fun j => mask.getLsbD (16 + j)) 16
  have fin : ∀ S1 S2 a1 adv, Half mask.getLsbD dA 16 S1 → Half (fun j => mask.getLsbD (16 + j)) dB 16 S2 → a1 = 16 - cnt mask.getLsbD 16 →
      adv = 2 * 16 - cnt mask.getLsbD 16 - cnt (fun j => mask.getLsbD (16 + j)) 16 →
      Puts mask.getLsbD (fun j => if j < c.n then dA j else dB (j - c.n)) (2 * c.n) [(0, S1), (a1, S2)] adv := by
    intro S1 S2 a1 adv h1 h2 h3 h4
    have := Puts.two (hA _ h1) (hB _ h2) h3 h4
    simpa only [e32] using this
  have hrow2 : Half (fun j => mask.getLsbD (16 + j)) dB 16 (toList (pshufb dB (compactRow (((mask >>> 12) &&& 0x7fff0#_).toNat / 16))) 16) := by
    apply (half_high (by omega) _ _).congr _ (fun _ _ => rfl)
    intro j hj
    rw [BitVec.getLsbD_ushiftRight]
    congr 1; omega
  by_cases hs : c.ssse3 = true
  · rw [if_pos hs]
    by_cases hp : c.popcnt = true
    · rw [if_pos hp]
      apply fin _ _ _ _ (half_low (by omega) _ _) hrow2
      · rw [popcnt_ffff (by omega)]
      · rw [popcnt_ffff (by omega)]
        show 32 - cnt mask.getLsbD 16 - _ = 32 - _ - _
        congr 1
        exact popcnt_shl 16 16 (by omega) mask
    · rw [if_neg hp]
      apply fin _ _ _ _ (half_low (by omega) _ _) hrow2 hi1
      simp only [hi1, hi2]; omega
  · rw [if_neg hs]
    refine fin _ _ _ _ (half_compactVect _ _ ?_ _ ?_) (half_compactVect _ _ ?_ _ ?_) hi1 ?_
    · apply Nat.lt_pow_two_of_testBit
      intro i hi
      rw [BitVec.testBit_toNat, BitVec.getLsbD_and, show (0xffff : Nat) = 2 ^ 16 - 1 from rfl, getLsbD_low]
      simp; omega
    · intro j hj
      rw [BitVec.testBit_toNat, BitVec.getLsbD_and, show (0xffff : Nat) = 2 ^ 16 - 1 from rfl, getLsbD_low]
      simp [hj, show j < 2 * c.n by omega]
    · apply Nat.lt_pow_two_of_testBit
      intro i hi
      rw [BitVec.testBit_toNat, BitVec.getLsbD_ushiftRight, BitVec.getLsbD_of_ge _ _ (by omega)]
    · intro j hj
      rw [BitVec.testBit_toNat, BitVec.getLsbD_ushiftRight]
    · simp only [hi1, hi2]; omega

end X86
end Yenc.Dec.Simd
