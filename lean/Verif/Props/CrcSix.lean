import Verif.Props.CrcFive
import Verif.Lemmas.CrcSix
/-!
C111: six changed bits.
-/
namespace Yenc.Props
open Yenc Yenc.Crc Spec

/-- Six bits, not too far apart, are not a multiple of the generator. -/
theorem six_bits (l : List Bool) (hl : l.length ≤ 203) (h6 : l.count true = 6) : pi l ≠ 0 := by
  obtain ⟨l1, a1, a2, a3⟩ := first_bit l 5 h6
  obtain ⟨l2, b1, b2, b3⟩ := first_bit l1 4 a2
  obtain ⟨l3, c1, c2, c3⟩ := first_bit l2 3 b2
  obtain ⟨l4, d1, d2, d3⟩ := first_bit l3 2 c2
  obtain ⟨l5, f1, f2, f3⟩ := first_bit l4 1 d2
  obtain ⟨l6, g1, g2, g3⟩ := first_bit l5 0 f2
  rw [a3, b3, c3, d3, f3, g3, no_bit l6 g2, add_zero]
  intro h
  have e0 : x ^ l5.length = x ^ (l5.length - l6.length) * x ^ l6.length := by rw [← pow_add]; congr 1; omega
  have e1 : x ^ l4.length = x ^ (l4.length - l6.length) * x ^ l6.length := by rw [← pow_add]; congr 1; omega
  have e2 : x ^ l3.length = x ^ (l3.length - l6.length) * x ^ l6.length := by rw [← pow_add]; congr 1; omega
  have e3 : x ^ l2.length = x ^ (l2.length - l6.length) * x ^ l6.length := by rw [← pow_add]; congr 1; omega
  have e4 : x ^ l1.length = x ^ (l1.length - l6.length) * x ^ l6.length := by rw [← pow_add]; congr 1; omega
  refine Six.sextinomial (l5.length - l6.length) (l4.length - l6.length) (l3.length - l6.length) (l2.length - l6.length) (l1.length - l6.length)
    (by omega) (by omega) (by omega) (by omega) (by omega) (by omega) ?_
  apply x_pow_cancel (n := l6.length)
  linear_combination h - e0 - e1 - e2 - e3 - e4

/-- C111: a change of up to six bits, less than 203 bits apart, changes the checksum. -/
theorem C111_six_bits (hi : Crc.IsImpl impl) (addr addr' : Nat) (d e : List Byte) (p w w' s : List Bool)
    (hd : bitsOf d = p ++ w ++ s) (he : bitsOf e = p ++ w' ++ s) (hlen : w.length = w'.length) (hw : w.length ≤ 203) (hne : w ≠ w') (h6 : differing w w' ≤ 6) :
    apiCrc32 impl addr [.buffer d] ≠ apiCrc32 impl addr' [.buffer e] := by
  by_cases hq : differing w w' ≤ 5
  · exact C110_five_bits hi addr addr' d e p w w' s hd he hlen (by omega) hne hq
  intro h
  rw [apiCrc32_nil hi.correct, apiCrc32_nil hi.correct] at h
  injection h with h
  have hl : d.length = e.length := by
    have h1 := Crc.bitsOf_length d
    have h2 := Crc.bitsOf_length e
    rw [hd] at h1
    rw [he] at h2
    simp only [List.length_append] at h1 h2
    omega
  have h8 := (Crc.crc1_eq_iff 0 d e hl).1 (Crc.packCrc_inj h)
  rw [hd, he, Crc.pi_append, Crc.pi_append, Crc.pi_append, Crc.pi_append, hlen] at h8
  have h7 : pi w = pi w' := by
    apply Crc.x_pow_cancel (n := s.length)
    linear_combination h8
  refine six_bits (List.zipWith (· ^^ ·) w w') (by rw [List.length_zipWith]; omega) (by unfold differing at hq h6; omega) ?_
  rw [pi_zipWith w w' hlen, h7, Crc.add_self]

/-- C111: in data of at most 25 bytes, every change of up to six bits changes the checksum. -/
theorem C111_short (hi : Crc.IsImpl impl) (addr addr' : Nat) (d e : List Byte) (hlen : d.length = e.length) (hd : d.length ≤ 25) (hne : d ≠ e)
    (h6 : differing (bitsOf d) (bitsOf e) ≤ 6) : apiCrc32 impl addr [.buffer d] ≠ apiCrc32 impl addr' [.buffer e] :=
  C111_six_bits hi addr addr' d e [] (bitsOf d) (bitsOf e) [] (by simp) (by simp) (by rw [Crc.bitsOf_length, Crc.bitsOf_length, hlen]) (by rw [Crc.bitsOf_length]; omega)
    (fun h => hne (Crc.bitsOf_inj h)) h6

example := C111_short Crc.IsImpl.generic 0 0 [1#8, 2#8, 3#8] [0#8, 5#8, 0#8] rfl (by decide) (by decide) (by decide)

/-- Six bits, at the distances 79, 85, 123, 186 and 203. -/
def sixBits (n : Nat) : List Byte :=
  List.replicate n 0#8 ++ [0x10#8] ++ List.replicate 1 0#8 ++ [0x20#8] ++ List.replicate 7 0#8 ++ [0x10#8] ++ List.replicate 4 0#8 ++ [0x4#8] ++ [0x1#8] ++ List.replicate 8 0#8 ++ [0x80#8]

theorem sixBits_pi (n : Nat) : pi (bitsOf (sixBits n)) = 0 := by
  have h1 : pi (bitsOf [0x10#8]) = x ^ 3 := by
    show AdjoinRoot.mk crcP (polyOfBits [false, false, false, false, true, false, false, false]) = _
    simp only [polyOfBits, List.foldl, if_true, Bool.false_eq_true, if_false, map_add, map_mul, map_one, map_zero, zero_mul, zero_add, add_zero, one_mul, AdjoinRoot.mk_X]
    show x * x * x = _
    ring
  have h2 : pi (bitsOf [0x20#8]) = x ^ 2 := by
    show AdjoinRoot.mk crcP (polyOfBits [false, false, false, false, false, true, false, false]) = _
    simp only [polyOfBits, List.foldl, if_true, Bool.false_eq_true, if_false, map_add, map_mul, map_one, map_zero, zero_mul, zero_add, add_zero, one_mul, AdjoinRoot.mk_X]
    show x * x = _
    ring
  have h3 : pi (bitsOf [0x4#8]) = x ^ 5 := by
    show AdjoinRoot.mk crcP (polyOfBits [false, false, true, false, false, false, false, false]) = _
    simp only [polyOfBits, List.foldl, if_true, Bool.false_eq_true, if_false, map_add, map_mul, map_one, map_zero, zero_mul, zero_add, add_zero, one_mul, AdjoinRoot.mk_X]
    show x * x * x * x * x = _
    ring
  have h4 : pi (bitsOf [0x1#8]) = x ^ 7 := by
    show AdjoinRoot.mk crcP (polyOfBits [true, false, false, false, false, false, false, false]) = _
    simp only [polyOfBits, List.foldl, if_true, Bool.false_eq_true, if_false, map_add, map_mul, map_one, map_zero, zero_mul, zero_add, add_zero, one_mul, AdjoinRoot.mk_X]
    show x * x * x * x * x * x * x = _
    ring
  have h5 : pi (bitsOf [0x80#8]) = 1 := by
    show AdjoinRoot.mk crcP (polyOfBits [false, false, false, false, false, false, false, true]) = _
    simp [polyOfBits]
  unfold sixBits
  simp only [bitsOf_append, pi_append, pi_zeros, h1, h2, h3, h4, h5, bitsOf_length, List.length_replicate, List.length_cons, List.length_nil]
  have h := Six.sextinomial_sharp
  rw [show (203 : Nat) = 3 + 8 * 1 + 8 + 8 * 7 + 8 + 8 * 4 + 8 + 8 + 8 * 8 + 8 from rfl, show (186 : Nat) = 2 + 8 * 7 + 8 + 8 * 4 + 8 + 8 + 8 * 8 + 8 from rfl,
    show (123 : Nat) = 3 + 8 * 4 + 8 + 8 + 8 * 8 + 8 from rfl, show (85 : Nat) = 5 + 8 + 8 * 8 + 8 from rfl, show (79 : Nat) = 7 + 8 * 8 + 8 from rfl] at h
  simp only [pow_add] at h
  linear_combination h

/-- Not so in longer data: in any data of 26 bytes or more there are six bits whose change goes unnoticed. -/
theorem C111_long_false (hi : Crc.IsImpl impl) (addr addr' : Nat) (d : List Byte) (hd : 26 ≤ d.length) :
    ∃ e : List Byte, e.length = d.length ∧ differing (bitsOf d) (bitsOf e) = 6 ∧ apiCrc32 impl addr [.buffer d] = apiCrc32 impl addr' [.buffer e] := by
  have hz : ∀ n, (sixBits n).length = n + 26 := by
    intro n; unfold sixBits; simp only [List.length_append, List.length_replicate, List.length_cons, List.length_nil]
  have hl : d.length = (sixBits (d.length - 26)).length := by rw [hz]; omega
  have hl' : (xorBuf d (sixBits (d.length - 26))).length = d.length := by
    unfold xorBuf; rw [List.length_zipWith, ← hl, Nat.min_self]
  have hb : (bitsOf d).length = (bitsOf (sixBits (d.length - 26))).length := by rw [bitsOf_length, bitsOf_length, ← hl]
  refine ⟨xorBuf d (sixBits (d.length - 26)), hl', ?_, ?_⟩
  · unfold differing
    rw [bitsOf_xorBuf _ _ hl, xor_xor_self _ _ hb]
    unfold sixBits
    simp only [bitsOf_append, List.count_append, count_zeros]
    decide
  · rw [apiCrc32_nil hi.correct, apiCrc32_nil hi.correct, (Crc.crc1_eq_iff 0 d (xorBuf d (sixBits (d.length - 26))) hl'.symm).2]
    rw [bitsOf_xorBuf _ _ hl, pi_zipWith _ _ hb, sixBits_pi, add_zero]

-- 26 zero bytes
example := C111_long_false Crc.IsImpl.generic 0 0 (List.replicate 26 0#8) (by decide)

end Yenc.Props
