import Verif.Props.CrcCount
import Verif.Lemmas.CrcTwo
import Verif.Lemmas.CrcFour
/-!
C94, C95: two changed bytes and four changed bits.
-/
namespace Yenc.Props
open Yenc Yenc.Crc Spec

/-- The number of positions in which two Buffers differ. -/
def differingBytes (a b : List Byte) : Nat := (List.zipWith (fun x y => decide (x ≠ y)) a b).count true

/-- C94: two bytes less than 145212 bytes apart, either or both of which are replaced by anything else, change the checksum. -/
theorem C94_two_bytes (hi : Crc.IsImpl impl) (addr addr' : Nat) (p m s : List Byte) (a a' b b' : Byte) (hm : m.length + 1 < 145212) (hne : a ≠ a' ∨ b ≠ b') :
    apiCrc32 impl addr [.buffer (p ++ [a] ++ m ++ [b] ++ s)] ≠ apiCrc32 impl addr' [.buffer (p ++ [a'] ++ m ++ [b'] ++ s)] := by
  intro h
  rw [apiCrc32_nil hi.correct, apiCrc32_nil hi.correct] at h
  injection h with h
  have h1 := (Crc.crc1_eq_iff 0 _ _ (by simp)).1 (Crc.packCrc_inj h)
  rw [← mu_eq_pi, ← mu_eq_pi] at h1
  simp only [mu_append, mu_cons, mu_nil, List.length_cons, List.length_nil, Nat.mul_zero, pow_zero, mul_one, add_zero, zero_add] at h1
  have h2 : beta (a ^^^ a') * x ^ (8 * (m.length + 1)) + beta (b ^^^ b') = 0 := by
    apply x_pow_cancel (n := 8 * s.length)
    rw [beta_xor, beta_xor, zero_mul, Nat.mul_add, pow_add]
    linear_combination h1 + (beta a' * x ^ (8 * m.length) * x ^ (8 * 1) + beta b') * x ^ (8 * s.length) * Crc.two_eq_zero
  obtain ⟨e1, e2⟩ := Two.two_bytes _ _ _ (by omega) hm h2
  rcases hne with hne | hne
  · exact hne (BitVec.xor_eq_zero_iff.1 e1)
  · exact hne (BitVec.xor_eq_zero_iff.1 e2)

example := C94_two_bytes Crc.IsImpl.generic 0 0 [1#8] [2#8, 3#8] [] 4#8 5#8 6#8 255#8 (by decide) (.inl (by decide))

/-- The first differing byte. -/
theorem first_byte (d e : List Byte) (n : Nat) (hl : d.length = e.length) (h : differingBytes d e = n + 1) :
    ∃ p a a' r r', d = p ++ a :: r ∧ e = p ++ a' :: r' ∧ a ≠ a' ∧ r.length = r'.length ∧ differingBytes r r' = n := by
  induction d generalizing e with
  | nil => rw [List.length_eq_zero_iff.1 hl.symm] at h; simp [differingBytes] at h
  | cons y d ih =>
    cases e with
    | nil => simp at hl
    | cons z e =>
      have hl' : d.length = e.length := by simpa using hl
      unfold differingBytes at h
      rw [List.zipWith_cons_cons, List.count_cons] at h
      by_cases hyz : y = z
      · subst hyz
        obtain ⟨p, a, a', r, r', h1, h2, h3⟩ := ih e hl' (by unfold differingBytes; simpa using h)
        exact ⟨y :: p, a, a', r, r', by rw [h1]; rfl, by rw [h2]; rfl, h3⟩
      · refine ⟨[], y, z, d, e, rfl, rfl, hyz, hl', ?_⟩
        unfold differingBytes
        simpa [hyz] using h

theorem no_byte (d e : List Byte) (hl : d.length = e.length) (h : differingBytes d e = 0) : d = e := by
  induction d generalizing e with
  | nil => exact (List.length_eq_zero_iff.1 hl.symm).symm
  | cons y d ih =>
    cases e with
    | nil => simp at hl
    | cons z e =>
      unfold differingBytes at h ih
      rw [List.zipWith_cons_cons, List.count_cons] at h
      have hyz : y = z := by
        by_contra hne
        simp [hne] at h
      rw [hyz, ih e (by simpa using hl) (by omega)]

/-- C94: in data of at most 145212 bytes, every change of one or two bytes changes the checksum. -/
theorem C94_short (hi : Crc.IsImpl impl) (addr addr' : Nat) (d e : List Byte) (hlen : d.length = e.length) (hd : d.length ≤ 145212) (hne : d ≠ e)
    (h2 : differingBytes d e ≤ 2) : apiCrc32 impl addr [.buffer d] ≠ apiCrc32 impl addr' [.buffer e] := by
  obtain ⟨n, hn⟩ : ∃ n, differingBytes d e = n + 1 := ⟨differingBytes d e - 1, by
    have : differingBytes d e ≠ 0 := fun h => hne (no_byte d e hlen h)
    omega⟩
  obtain ⟨p, a, a', r, r', rfl, rfl, haa, hr, hrn⟩ := first_byte d e n hlen hn
  rcases n with _ | n
  · obtain rfl := no_byte r r' hr hrn
    have := C35_burst_bytes hi addr addr' p [a] [a'] r rfl (by simp) (by simpa using haa)
    simpa using this
  · obtain ⟨m, b, b', s, s', rfl, rfl, hbb, hs, hsn⟩ := first_byte r r' n hr hrn
    obtain rfl : n = 0 := by omega
    obtain rfl := no_byte s s' hs hsn
    have := C94_two_bytes hi addr addr' p m s a a' b b' (by simp only [List.length_append, List.length_cons] at hd; omega) (Or.inl haa)
    simpa using this

example := C94_short Crc.IsImpl.generic 0 0 [1#8, 2#8, 3#8] [0#8, 2#8, 255#8] rfl (by decide) (by decide) (by decide)

/-- Two bytes at the distance 145212. -/
def twoBytes (n : Nat) : List Byte := List.replicate n 0#8 ++ [0xF8#8] ++ List.replicate 145211 0#8 ++ [0xA9#8]

theorem differingBytes_xor (d z : List Byte) (h : d.length = z.length) : differingBytes d (xorBuf d z) = z.countP (· ≠ 0#8) := by
  induction d generalizing z with
  | nil => rw [List.length_eq_zero_iff.1 h.symm]; rfl
  | cons y d ih =>
    cases z with
    | nil => simp at h
    | cons w z =>
      have h1 : xorBuf (y :: d) (w :: z) = (y ^^^ w) :: xorBuf d z := rfl
      unfold differingBytes at ih ⊢
      rw [h1, List.zipWith_cons_cons, List.count_cons, ih z (by simpa using h), List.countP_cons]
      congr 1
      have : (y ≠ y ^^^ w) ↔ w ≠ 0#8 := by
        rw [not_iff_not]
        constructor
        · intro hy
          have := congrArg (y ^^^ ·) hy
          simp only [← BitVec.xor_assoc, BitVec.xor_self, BitVec.zero_xor] at this
          exact this.symm
        · rintro rfl; simp
      simp only [this, decide_not, beq_true]

/-- Not so in longer data: in any data of 145213 bytes or more there are two bytes that can be replaced unnoticed. -/
theorem C94_long_false (hi : Crc.IsImpl impl) (addr addr' : Nat) (d : List Byte) (hd : 145213 ≤ d.length) :
    ∃ e : List Byte, e.length = d.length ∧ differingBytes d e = 2 ∧ apiCrc32 impl addr [.buffer d] = apiCrc32 impl addr' [.buffer e] := by
  have hz : ∀ n k : Nat, (List.replicate n 0#8 ++ [0xF8#8] ++ List.replicate k 0#8 ++ [0xA9#8] : List Byte).length = n + k + 2 := by
    intro n k; simp only [List.length_append, List.length_replicate, List.length_cons, List.length_nil]; omega
  have hc : ∀ n k : Nat, (List.replicate n 0#8 ++ [0xF8#8] ++ List.replicate k 0#8 ++ [0xA9#8] : List Byte).countP (· ≠ 0#8) = 2 := by
    intro n k; simp [List.countP_append, List.countP_replicate]
  have hp : ∀ n, mu (twoBytes n) = 0 := by
    intro n
    unfold twoBytes
    simp only [mu_append, mu_zeros, mu_cons, mu_nil, List.length_replicate, List.length_cons, List.length_nil]
    have h := Two.two_bytes_sharp
    rw [show 8 * 145212 = 8 * 145211 + 8 * (0 + 1) from rfl, pow_add] at h
    linear_combination h
  have hl : d.length = (twoBytes (d.length - 145213)).length := by unfold twoBytes; rw [hz]; omega
  have hl' : (xorBuf d (twoBytes (d.length - 145213))).length = d.length := by
    unfold xorBuf; rw [List.length_zipWith, ← hl, Nat.min_self]
  refine ⟨xorBuf d (twoBytes (d.length - 145213)), hl', ?_, ?_⟩
  · rw [differingBytes_xor _ _ hl]
    unfold twoBytes
    exact hc _ _
  · rw [apiCrc32_nil hi.correct, apiCrc32_nil hi.correct, (Crc.crc1_eq_iff 0 d _ hl'.symm).2]
    rw [bitsOf_xorBuf _ _ hl, pi_zipWith _ _ (by rw [bitsOf_length, bitsOf_length, ← hl]), ← mu_eq_pi (twoBytes _), hp, add_zero]

/-- Two bytes of "abcdef" replaced. -/
example : differingBytes [0x61, 0x62, 0x63, 0x64, 0x65, 0x66] [0x61, 0x00, 0x63, 0x64, 0x65, 0xff] = 2 ∧
    apiCrc32 genericImpl 0 [.buffer [0x61, 0x62, 0x63, 0x64, 0x65, 0x66]] ≠ apiCrc32 genericImpl 0 [.buffer [0x61, 0x00, 0x63, 0x64, 0x65, 0xff]] := by decide +kernel

/-- Four bits, not too far apart, are not a multiple of the generator. -/
theorem four_bits (l : List Bool) (hl : l.length ≤ 3006) (h4 : l.count true = 4) : pi l ≠ 0 := by
  obtain ⟨l1, a1, a2, a3⟩ := first_bit l 3 h4
  obtain ⟨l2, b1, b2, b3⟩ := first_bit l1 2 a2
  obtain ⟨l3, c1, c2, c3⟩ := first_bit l2 1 b2
  obtain ⟨l4, d1, d2, d3⟩ := first_bit l3 0 c2
  rw [a3, b3, c3, d3, no_bit l4 d2, add_zero]
  intro h
  have e1 : x ^ l3.length = x ^ (l3.length - l4.length) * x ^ l4.length := by rw [← pow_add]; congr 1; omega
  have e2 : x ^ l2.length = x ^ (l2.length - l4.length) * x ^ l4.length := by rw [← pow_add]; congr 1; omega
  have e3 : x ^ l1.length = x ^ (l1.length - l4.length) * x ^ l4.length := by rw [← pow_add]; congr 1; omega
  refine Four.quadrinomial (l3.length - l4.length) (l2.length - l4.length) (l1.length - l4.length) (by omega) (by omega) (by omega) (by omega) ?_
  apply x_pow_cancel (n := l4.length)
  linear_combination h - e1 - e2 - e3

/-- C95: a change of up to four bits, less than 3006 bits apart, changes the checksum. -/
theorem C95_four_bits (hi : Crc.IsImpl impl) (addr addr' : Nat) (d e : List Byte) (p w w' s : List Bool)
    (hd : bitsOf d = p ++ w ++ s) (he : bitsOf e = p ++ w' ++ s) (hlen : w.length = w'.length) (hw : w.length ≤ 3006) (hne : w ≠ w') (h4 : differing w w' ≤ 4) :
    apiCrc32 impl addr [.buffer d] ≠ apiCrc32 impl addr' [.buffer e] := by
  by_cases h3 : differing w w' ≤ 3
  · exact C88_three_bits hi addr addr' d e p w w' s hd he hlen (by omega) hne h3
  intro h
  rw [apiCrc32_nil hi.correct, apiCrc32_nil hi.correct] at h
  injection h with h
  have hl : d.length = e.length := by
    have h1 := Crc.bitsOf_length d
    have h2 := Crc.bitsOf_length e
    rw [hd] at h1
    rw [he] at h2
    simp only [List.length_append] at h1 h2
    omega
  have h5 := (Crc.crc1_eq_iff 0 d e hl).1 (Crc.packCrc_inj h)
  rw [hd, he, Crc.pi_append, Crc.pi_append, Crc.pi_append, Crc.pi_append, hlen] at h5
  have h6 : pi w = pi w' := by
    apply Crc.x_pow_cancel (n := s.length)
    linear_combination h5
  refine four_bits (List.zipWith (· ^^ ·) w w') (by rw [List.length_zipWith]; omega) (by unfold differing at h3 h4; omega) ?_
  rw [pi_zipWith w w' hlen, h6, Crc.add_self]

/-- C95: in data of at most 375 bytes, every change of up to four bits changes the checksum. -/
theorem C95_short (hi : Crc.IsImpl impl) (addr addr' : Nat) (d e : List Byte) (hlen : d.length = e.length) (hd : d.length ≤ 375) (hne : d ≠ e)
    (h4 : differing (bitsOf d) (bitsOf e) ≤ 4) : apiCrc32 impl addr [.buffer d] ≠ apiCrc32 impl addr' [.buffer e] :=
  C95_four_bits hi addr addr' d e [] (bitsOf d) (bitsOf e) [] (by simp) (by simp) (by rw [Crc.bitsOf_length, Crc.bitsOf_length, hlen]) (by rw [Crc.bitsOf_length]; omega)
    (fun h => hne (Crc.bitsOf_inj h)) h4

example := C95_short Crc.IsImpl.generic 0 0 [1#8, 2#8, 3#8] [0#8, 5#8, 3#8] rfl (by decide) (by decide) (by decide)

/-- Four bits, at the distances 2215, 2866 and 3006. -/
def fourBits (n : Nat) : List Byte :=
  List.replicate n 0#8 ++ [2#8] ++ List.replicate 16 0#8 ++ [0x20#8] ++ List.replicate 81 0#8 ++ [1#8] ++ List.replicate 275 0#8 ++ [0x80#8]

theorem fourBits_pi (n : Nat) : pi (bitsOf (fourBits n)) = 0 := by
  have h1 : pi (bitsOf [1#8]) = x ^ 7 := by
    show AdjoinRoot.mk crcP (polyOfBits [true, false, false, false, false, false, false, false]) = _
    simp only [polyOfBits, List.foldl, if_true, Bool.false_eq_true, if_false, map_add, map_mul, map_one, map_zero, zero_mul, zero_add, add_zero, one_mul, AdjoinRoot.mk_X]
    show x * x * x * x * x * x * x = _
    ring
  have h2 : pi (bitsOf [2#8]) = x ^ 6 := by
    show AdjoinRoot.mk crcP (polyOfBits [false, true, false, false, false, false, false, false]) = _
    simp only [polyOfBits, List.foldl, if_true, Bool.false_eq_true, if_false, map_add, map_mul, map_one, map_zero, zero_mul, zero_add, add_zero, one_mul, AdjoinRoot.mk_X]
    show x * x * x * x * x * x = _
    ring
  have h3 : pi (bitsOf [0x20#8]) = x ^ 2 := by
    show AdjoinRoot.mk crcP (polyOfBits [false, false, false, false, false, true, false, false]) = _
    simp only [polyOfBits, List.foldl, if_true, Bool.false_eq_true, if_false, map_add, map_mul, map_one, map_zero, zero_mul, zero_add, add_zero, one_mul, AdjoinRoot.mk_X]
    show x * x = _
    ring
  have h4 : pi (bitsOf [0x80#8]) = 1 := by
    show AdjoinRoot.mk crcP (polyOfBits [false, false, false, false, false, false, false, true]) = _
    simp [polyOfBits]
  unfold fourBits
  simp only [bitsOf_append, pi_append, pi_zeros, h1, h2, h3, h4, bitsOf_length, List.length_replicate, List.length_cons, List.length_nil]
  have h5 := Four.quadrinomial_sharp
  rw [show (3006 : Nat) = 6 + 8 * 16 + 8 + 8 * 81 + 8 + 8 * 275 + 8 from rfl, show (2866 : Nat) = 2 + 8 * 81 + 8 + 8 * 275 + 8 from rfl, show (2215 : Nat) = 7 + 8 * 275 + 8 from rfl] at h5
  simp only [pow_add] at h5
  linear_combination h5

/-- Not so in longer data: in any data of 376 bytes or more there are four bits whose change goes unnoticed. -/
theorem C95_long_false (hi : Crc.IsImpl impl) (addr addr' : Nat) (d : List Byte) (hd : 376 ≤ d.length) :
    ∃ e : List Byte, e.length = d.length ∧ differing (bitsOf d) (bitsOf e) = 4 ∧ apiCrc32 impl addr [.buffer d] = apiCrc32 impl addr' [.buffer e] := by
  have hz : ∀ n, (fourBits n).length = n + 376 := by
    intro n; unfold fourBits; simp only [List.length_append, List.length_replicate, List.length_cons, List.length_nil]
  have hl : d.length = (fourBits (d.length - 376)).length := by rw [hz]; omega
  have hl' : (xorBuf d (fourBits (d.length - 376))).length = d.length := by
    unfold xorBuf; rw [List.length_zipWith, ← hl, Nat.min_self]
  have hb : (bitsOf d).length = (bitsOf (fourBits (d.length - 376))).length := by rw [bitsOf_length, bitsOf_length, ← hl]
  refine ⟨xorBuf d (fourBits (d.length - 376)), hl', ?_, ?_⟩
  · unfold differing
    rw [bitsOf_xorBuf _ _ hl, xor_xor_self _ _ hb]
    unfold fourBits
    simp only [bitsOf_append, List.count_append, count_zeros]
    decide
  · rw [apiCrc32_nil hi.correct, apiCrc32_nil hi.correct, (Crc.crc1_eq_iff 0 d (xorBuf d (fourBits (d.length - 376))) hl'.symm).2]
    rw [bitsOf_xorBuf _ _ hl, pi_zipWith _ _ hb, fourBits_pi, add_zero]

/-- Four bits of "abcd" flipped. -/
example : differing (bitsOf [0x61, 0x62, 0x63, 0x64]) (bitsOf [0x60, 0x60, 0x73, 0xe4]) = 4 ∧
    apiCrc32 genericImpl 0 [.buffer [0x61, 0x62, 0x63, 0x64]] ≠ apiCrc32 genericImpl 0 [.buffer [0x60, 0x60, 0x73, 0xe4]] := by decide +kernel

end Yenc.Props
