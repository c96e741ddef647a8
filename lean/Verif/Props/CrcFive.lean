import Verif.Props.CrcFew
import Verif.Lemmas.CrcFive
/-!
C110: five changed bits.
-/
namespace Yenc.Props
open Yenc Yenc.Crc Spec

/-- Five bits, not too far apart, are not a multiple of the generator. -/
theorem five_bits (l : List Bool) (hl : l.length ≤ 300) (h5 : l.count true = 5) : pi l ≠ 0 := by
  obtain ⟨l1, a1, a2, a3⟩ := first_bit l 4 h5
  obtain ⟨l2, b1, b2, b3⟩ := first_bit l1 3 a2
  obtain ⟨l3, c1, c2, c3⟩ := first_bit l2 2 b2
  obtain ⟨l4, d1, d2, d3⟩ := first_bit l3 1 c2
  obtain ⟨l5, f1, f2, f3⟩ := first_bit l4 0 d2
  rw [a3, b3, c3, d3, f3, no_bit l5 f2, add_zero]
  intro h
  have e0 : x ^ l4.length = x ^ (l4.length - l5.length) * x ^ l5.length := by rw [← pow_add]; congr 1; omega
  have e1 : x ^ l3.length = x ^ (l3.length - l5.length) * x ^ l5.length := by rw [← pow_add]; congr 1; omega
  have e2 : x ^ l2.length = x ^ (l2.length - l5.length) * x ^ l5.length := by rw [← pow_add]; congr 1; omega
  have e3 : x ^ l1.length = x ^ (l1.length - l5.length) * x ^ l5.length := by rw [← pow_add]; congr 1; omega
  refine Five.pentanomial (l4.length - l5.length) (l3.length - l5.length) (l2.length - l5.length) (l1.length - l5.length)
    (by omega) (by omega) (by omega) (by omega) (by omega) (by omega) (by omega) (by omega) ?_
  apply x_pow_cancel (n := l5.length)
  linear_combination h - e0 - e1 - e2 - e3

/-- C110: a change of up to five bits, less than 300 bits apart, changes the checksum. -/
theorem C110_five_bits (hi : Crc.IsImpl impl) (addr addr' : Nat) (d e : List Byte) (p w w' s : List Bool)
    (hd : bitsOf d = p ++ w ++ s) (he : bitsOf e = p ++ w' ++ s) (hlen : w.length = w'.length) (hw : w.length ≤ 300) (hne : w ≠ w') (h5 : differing w w' ≤ 5) :
    apiCrc32 impl addr [.buffer d] ≠ apiCrc32 impl addr' [.buffer e] := by
  by_cases h4 : differing w w' ≤ 4
  · exact C95_four_bits hi addr addr' d e p w w' s hd he hlen (by omega) hne h4
  intro h
  rw [apiCrc32_nil hi.correct, apiCrc32_nil hi.correct] at h
  injection h with h
  have hl : d.length = e.length := by
    have h1 := Crc.bitsOf_length d
    have h2 := Crc.bitsOf_length e
    rw [hd] at h1
    rw [he] at h2
    simp only [List.length_append] at h1 h2
    omega
  have h6 := (Crc.crc1_eq_iff 0 d e hl).1 (Crc.packCrc_inj h)
  rw [hd, he, Crc.pi_append, Crc.pi_append, Crc.pi_append, Crc.pi_append, hlen] at h6
  have h7 : pi w = pi w' := by
    apply Crc.x_pow_cancel (n := s.length)
    linear_combination h6
  refine five_bits (List.zipWith (· ^^ ·) w w') (by rw [List.length_zipWith]; omega) (by unfold differing at h4 h5; omega) ?_
  rw [pi_zipWith w w' hlen, h7, Crc.add_self]

/-- C110: in data of at most 37 bytes, every change of up to five bits changes the checksum. -/
theorem C110_short (hi : Crc.IsImpl impl) (addr addr' : Nat) (d e : List Byte) (hlen : d.length = e.length) (hd : d.length ≤ 37) (hne : d ≠ e)
    (h5 : differing (bitsOf d) (bitsOf e) ≤ 5) : apiCrc32 impl addr [.buffer d] ≠ apiCrc32 impl addr' [.buffer e] :=
  C110_five_bits hi addr addr' d e [] (bitsOf d) (bitsOf e) [] (by simp) (by simp) (by rw [Crc.bitsOf_length, Crc.bitsOf_length, hlen]) (by rw [Crc.bitsOf_length]; omega)
    (fun h => hne (Crc.bitsOf_inj h)) h5

example := C110_short Crc.IsImpl.generic 0 0 [1#8, 2#8, 3#8] [0#8, 5#8, 2#8] rfl (by decide) (by decide) (by decide)

/-- Five bits, at the distances 89, 117, 155 and 300. -/
def fiveBits (n : Nat) : List Byte :=
  List.replicate n 0#8 ++ [8#8] ++ List.replicate 17 0#8 ++ [0x10#8] ++ List.replicate 4 0#8 ++ [4#8] ++ List.replicate 2 0#8 ++ [0x40#8] ++ List.replicate 10 0#8 ++ [0x80#8]

theorem fiveBits_pi (n : Nat) : pi (bitsOf (fiveBits n)) = 0 := by
  have h1 : pi (bitsOf [8#8]) = x ^ 4 := by
    show AdjoinRoot.mk crcP (polyOfBits [false, false, false, true, false, false, false, false]) = _
    simp only [polyOfBits, List.foldl, if_true, Bool.false_eq_true, if_false, map_add, map_mul, map_one, map_zero, zero_mul, zero_add, add_zero, one_mul, AdjoinRoot.mk_X]
    show x * x * x * x = _
    ring
  have h2 : pi (bitsOf [0x10#8]) = x ^ 3 := by
    show AdjoinRoot.mk crcP (polyOfBits [false, false, false, false, true, false, false, false]) = _
    simp only [polyOfBits, List.foldl, if_true, Bool.false_eq_true, if_false, map_add, map_mul, map_one, map_zero, zero_mul, zero_add, add_zero, one_mul, AdjoinRoot.mk_X]
    show x * x * x = _
    ring
  have h3 : pi (bitsOf [4#8]) = x ^ 5 := by
    show AdjoinRoot.mk crcP (polyOfBits [false, false, true, false, false, false, false, false]) = _
    simp only [polyOfBits, List.foldl, if_true, Bool.false_eq_true, if_false, map_add, map_mul, map_one, map_zero, zero_mul, zero_add, add_zero, one_mul, AdjoinRoot.mk_X]
    show x * x * x * x * x = _
    ring
  have h4 : pi (bitsOf [0x40#8]) = x ^ 1 := by
    show AdjoinRoot.mk crcP (polyOfBits [false, false, false, false, false, false, true, false]) = _
    simp only [polyOfBits, List.foldl, if_true, Bool.false_eq_true, if_false, map_add, map_mul, map_one, map_zero, zero_mul, zero_add, add_zero, one_mul, AdjoinRoot.mk_X]
    show x = _
    ring
  have h5 : pi (bitsOf [0x80#8]) = 1 := by
    show AdjoinRoot.mk crcP (polyOfBits [false, false, false, false, false, false, false, true]) = _
    simp [polyOfBits]
  unfold fiveBits
  simp only [bitsOf_append, pi_append, pi_zeros, h1, h2, h3, h4, h5, bitsOf_length, List.length_replicate, List.length_cons, List.length_nil]
  have h := Five.pentanomial_sharp
  rw [show (300 : Nat) = 4 + 8 * 17 + 8 + 8 * 4 + 8 + 8 * 2 + 8 + 8 * 10 + 8 from rfl, show (155 : Nat) = 3 + 8 * 4 + 8 + 8 * 2 + 8 + 8 * 10 + 8 from rfl,
    show (117 : Nat) = 5 + 8 * 2 + 8 + 8 * 10 + 8 from rfl, show (89 : Nat) = 1 + 8 * 10 + 8 from rfl] at h
  simp only [pow_add] at h
  linear_combination h

/-- Not so in longer data: in any data of 38 bytes or more there are five bits whose change goes unnoticed. -/
theorem C110_long_false (hi : Crc.IsImpl impl) (addr addr' : Nat) (d : List Byte) (hd : 38 ≤ d.length) :
    ∃ e : List Byte, e.length = d.length ∧ differing (bitsOf d) (bitsOf e) = 5 ∧ apiCrc32 impl addr [.buffer d] = apiCrc32 impl addr' [.buffer e] := by
  have hz : ∀ n, (fiveBits n).length = n + 38 := by
    intro n; unfold fiveBits; simp only [List.length_append, List.length_replicate, List.length_cons, List.length_nil]
  have hl : d.length = (fiveBits (d.length - 38)).length := by rw [hz]; omega
  have hl' : (xorBuf d (fiveBits (d.length - 38))).length = d.length := by
    unfold xorBuf; rw [List.length_zipWith, ← hl, Nat.min_self]
  have hb : (bitsOf d).length = (bitsOf (fiveBits (d.length - 38))).length := by rw [bitsOf_length, bitsOf_length, ← hl]
  refine ⟨xorBuf d (fiveBits (d.length - 38)), hl', ?_, ?_⟩
  · unfold differing
    rw [bitsOf_xorBuf _ _ hl, xor_xor_self _ _ hb]
    unfold fiveBits
    simp only [bitsOf_append, List.count_append, count_zeros]
    decide
  · rw [apiCrc32_nil hi.correct, apiCrc32_nil hi.correct, (Crc.crc1_eq_iff 0 d (xorBuf d (fiveBits (d.length - 38))) hl'.symm).2]
    rw [bitsOf_xorBuf _ _ hl, pi_zipWith _ _ hb, fiveBits_pi, add_zero]

-- 38 zero bytes
example := C110_long_false Crc.IsImpl.generic 0 0 (List.replicate 38 0#8) (by decide)

end Yenc.Props
