import Mathlib.Data.Fintype.BigOperators
import Verif.Props.Crc
import Verif.Lemmas.CrcThree
/-!
C87, C88: what a matching checksum says about data that was changed at will, at random, or in a few bits.
-/
namespace Yenc.Props
open Yenc Yenc.Crc Spec

/-- The Buffer with the bytes `d 0`, `d 1`, ... -/
def bufOf {n : Nat} (d : Fin n → Fin 256) : List Byte := List.ofFn fun i => BitVec.ofFin (d i)

theorem bufOf_length {n : Nat} (d : Fin n → Fin 256) : (bufOf d).length = n := by simp [bufOf]

theorem bufOf_inj {n : Nat} {d e : Fin n → Fin 256} (h : bufOf d = bufOf e) : d = e := by
  funext i
  have := congrFun (List.ofFn_injective h) i
  simpa using this

theorem bufOf_surj {n : Nat} (l : List Byte) (h : l.length = n) : ∃ d : Fin n → Fin 256, bufOf d = l := by
  subst h
  refine ⟨fun i => (l[i]).toFin, ?_⟩
  simp [bufOf]

/-- The value of the checksum as a function of four adjacent bytes. -/
theorem four_bijective (p s : List Byte) : Function.Bijective fun w : Fin 4 → Fin 256 => (crc1 0 (p ++ bufOf w ++ s)).toFin := by
  rw [Fintype.bijective_iff_injective_and_card]
  constructor
  · intro w w' h
    by_contra hne
    have := C35_burst_bytes Crc.IsImpl.generic 0 0 p (bufOf w) (bufOf w') s (by simp [bufOf_length]) (by simp [bufOf_length]) (fun h => hne (bufOf_inj h))
    rw [apiCrc32_nil Crc.IsImpl.generic.correct, apiCrc32_nil Crc.IsImpl.generic.correct] at this
    exact this (by rw [BitVec.toFin_inj.1 h])
  · simp

/-- C87: whatever the data, any four adjacent bytes of it can be set, in exactly one way, so that the checksum is a given one.  So the checksum is no
protection against changes made on purpose. -/
theorem C87_patch (hi : Crc.IsImpl impl) (addr : Nat) (p s : List Byte) (r : List Byte) (hr : r.length = 4) :
    ∃! w : List Byte, w.length = 4 ∧ apiCrc32 impl addr [.buffer (p ++ w ++ s)] = .ret r := by
  obtain ⟨v, hv⟩ := crcBuf_exists hr
  obtain ⟨w, hw⟩ := (four_bijective p s).2 v.toFin
  refine ⟨bufOf w, ⟨bufOf_length w, ?_⟩, ?_⟩
  · rw [apiCrc32_nil hi.correct, BitVec.toFin_inj.1 hw, hv.pack]
  · rintro w' ⟨h4, h⟩
    obtain ⟨w', rfl⟩ := bufOf_surj w' h4
    rw [apiCrc32_nil hi.correct, ← hv.pack] at h
    injection h with h
    have : w' = w := (four_bijective p s).1 (by
      show (crc1 0 _).toFin = (crc1 0 _).toFin
      rw [packCrc_inj h]; exact hw.symm)
    rw [this]

example := C87_patch Crc.IsImpl.generic 0 [1#8, 2#8] [3#8] [1#8, 2#8, 3#8, 4#8] rfl

/-- C87: of the data of one length, of four bytes or more, the same share, one in `2^32`, has each of the checksums. -/
theorem C87_uniform (hi : Crc.IsImpl impl) (addr n : Nat) (r : List Byte) (hr : r.length = 4) :
    (Finset.univ.filter fun d : Fin (n + 4) → Fin 256 => apiCrc32 impl addr [.buffer (bufOf d)] = .ret r).card = 256 ^ n := by
  have hc : (256 : Nat) ^ n = (Finset.univ : Finset (Fin n → Fin 256)).card := by simp
  rw [hc]
  refine Finset.card_bij (fun d _ i => d (Fin.castAdd 4 i)) (fun _ _ => Finset.mem_univ _) ?_ ?_
  · intro d hd e he h
    simp only [Finset.mem_filter, Finset.mem_univ, true_and] at hd he
    have hsplit : ∀ d : Fin (n + 4) → Fin 256, bufOf d = bufOf (fun i => d (Fin.castAdd 4 i)) ++ bufOf (fun i => d (Fin.natAdd n i)) := by
      intro d
      unfold bufOf
      rw [← List.ofFn_fin_append]
      congr 1
      funext i
      refine Fin.addCases (fun i => ?_) (fun i => ?_) i <;> simp
    rw [hsplit d] at hd
    rw [hsplit e, ← h] at he
    obtain ⟨_, _, hu⟩ := C87_patch hi addr (bufOf fun i => d (Fin.castAdd 4 i)) [] r hr
    have h1 := hu _ ⟨bufOf_length _, by rw [List.append_nil]; exact hd⟩
    have h2 := hu _ ⟨bufOf_length _, by rw [List.append_nil]; exact he⟩
    exact bufOf_inj (by rw [hsplit d, hsplit e, ← h, h1, h2])
  · intro a _
    obtain ⟨w, ⟨h4, hw⟩, _⟩ := C87_patch hi addr (bufOf a) [] r hr
    obtain ⟨w, rfl⟩ := bufOf_surj w h4
    refine ⟨Fin.append a w, ?_, ?_⟩
    · simp only [Finset.mem_filter, Finset.mem_univ, true_and]
      rw [← hw, List.append_nil]
      congr 3
      unfold bufOf
      rw [← List.ofFn_fin_append]
      congr 1
      funext i
      refine Fin.addCases (fun i => ?_) (fun i => ?_) i <;> simp
    · funext i; simp

example := C87_uniform Crc.IsImpl.generic 0 1000 [1#8, 2#8, 3#8, 4#8] rfl

/-- C87: of the ways to change data of four bytes or more, without changing its length, less than one in `2^32` go unnoticed by the checksum. -/
theorem C87_unnoticed (hi : Crc.IsImpl impl) (addr addr' n : Nat) (d : Fin (n + 4) → Fin 256) :
    let changed := Finset.univ.filter fun e : Fin (n + 4) → Fin 256 => e ≠ d
    (changed.filter fun e => apiCrc32 impl addr' [.buffer (bufOf e)] = apiCrc32 impl addr [.buffer (bufOf d)]).card * 2 ^ 32 < changed.card := by
  intro changed
  have hu := C87_uniform hi addr' n (packCrc (crc1 0 (bufOf d))) (packCrc_buf _).1
  rw [apiCrc32_nil hi.correct]
  have h1 : changed.card = 256 ^ (n + 4) - 1 := by
    have : changed = Finset.univ.erase d := by ext e; simp [changed]
    rw [this, Finset.card_erase_of_mem (Finset.mem_univ _)]; simp
  have h2 : (changed.filter fun e => apiCrc32 impl addr' [.buffer (bufOf e)] = .ret (packCrc (crc1 0 (bufOf d)))) =
      (Finset.univ.filter fun e : Fin (n + 4) → Fin 256 => apiCrc32 impl addr' [.buffer (bufOf e)] = .ret (packCrc (crc1 0 (bufOf d)))).erase d := by
    ext e
    simp [changed]
  rw [h2, Finset.card_erase_of_mem (by simp [apiCrc32_nil hi.correct]), hu, h1, Nat.pow_add]
  have : 0 < 256 ^ n := Nat.pow_pos (by norm_num)
  omega

/-- Four bytes that give "hello????!" the checksum zero. -/
example : apiCrc32 genericImpl 0 [.buffer ([0x68, 0x65, 0x6c, 0x6c, 0x6f] ++ [0x81, 0x15, 0x60, 0x89] ++ [0x21])] = .ret [0, 0, 0, 0] := by decide +kernel

/-- The number of positions in which two sequences of bits differ. -/
def differing (a b : List Bool) : Nat := (List.zipWith (· ^^ ·) a b).count true

theorem pi_zipWith (a b : List Bool) (h : a.length = b.length) : pi (List.zipWith (· ^^ ·) a b) = pi a + pi b := by
  induction a using List.reverseRecOn generalizing b with
  | nil => rw [List.length_eq_zero_iff.1 h.symm]; simp [pi, polyOfBits]
  | append_singleton a x ih =>
    induction b using List.reverseRecOn with
    | nil => simp at h
    | append_singleton b y _ =>
      have hl : a.length = b.length := by simpa using h
      rw [List.zipWith_append hl, pi_append, pi_append, pi_append, ih b hl]
      have : pi (List.zipWith (· ^^ ·) [x] [y]) = pi [x] + pi [y] := by
        cases x <;> cases y <;> simp [pi, polyOfBits, Crc.two_eq_zero, one_add_one_eq_two]
      rw [this]
      simp only [List.zipWith_cons_cons, List.zipWith_nil_left, List.length_cons, List.length_nil, zero_add, pow_one]
      ring

/-- The first set bit. -/
theorem first_bit (l : List Bool) (n : Nat) (h : l.count true = n + 1) : ∃ l', l'.length < l.length ∧ l'.count true = n ∧ pi l = x ^ l'.length + pi l' := by
  induction l with
  | nil => simp at h
  | cons b l ih =>
    cases b with
    | false =>
      obtain ⟨l', h1, h2, h3⟩ := ih (by simpa using h)
      refine ⟨l', by simp; omega, h2, ?_⟩
      rw [← h3, ← List.singleton_append, pi_append]
      simp [pi, polyOfBits]
    | true =>
      refine ⟨l, by simp, by simpa using h, ?_⟩
      rw [← List.singleton_append, pi_append]
      simp [pi, polyOfBits]

theorem no_bit (l : List Bool) (h : l.count true = 0) : pi l = 0 := by
  induction l with
  | nil => simp [pi, polyOfBits]
  | cons b l ih =>
    cases b with
    | true => simp at h
    | false =>
      rw [← List.singleton_append, pi_append, ih (by simpa using h)]
      simp [pi, polyOfBits]

/-- One to three bits, not too far apart, are not a multiple of the generator. -/
theorem few_bits (l : List Bool) (hl : l.length ≤ 91639) (h0 : l.count true ≠ 0) (h3 : l.count true ≤ 3) : pi l ≠ 0 := by
  obtain ⟨n, hn⟩ : ∃ n, l.count true = n + 1 := ⟨l.count true - 1, by omega⟩
  obtain ⟨l1, a1, a2, a3⟩ := first_bit l n hn
  rcases n with _ | n
  · rw [a3, no_bit l1 a2, add_zero]; exact x_pow_ne_zero _
  obtain ⟨l2, b1, b2, b3⟩ := first_bit l1 n a2
  have e1 : x ^ l1.length = x ^ (l1.length - l2.length) * x ^ l2.length := by rw [← pow_add]; congr 1; omega
  rcases n with _ | n
  · rw [a3, b3, no_bit l2 b2, add_zero]
    intro h
    have h1 : x ^ (l1.length - l2.length) = 1 := x_pow_cancel (n := l2.length) (by linear_combination h - e1 - x ^ l2.length * Crc.two_eq_zero)
    have := x_pow_inj (m := l1.length - l2.length) (n := 0) (by omega) (by norm_num) (by rw [h1, pow_zero])
    omega
  obtain ⟨l3, c1, c2, c3⟩ := first_bit l2 n b2
  obtain rfl : n = 0 := by omega
  rw [a3, b3, c3, no_bit l3 c2, add_zero]
  intro h
  have e2 : x ^ l2.length = x ^ (l2.length - l3.length) * x ^ l3.length := by rw [← pow_add]; congr 1; omega
  have e3 : x ^ l1.length = x ^ (l2.length - l3.length + (l1.length - l2.length)) * x ^ l3.length := by rw [← pow_add]; congr 1; omega
  refine Three.trinomial (l2.length - l3.length) (l1.length - l2.length) (by omega) (by omega) ?_
  apply x_pow_cancel (n := l3.length)
  linear_combination h - e2 - e3

theorem count_zero_eq (a b : List Bool) (h : a.length = b.length) (h0 : differing a b = 0) : a = b := by
  induction a generalizing b with
  | nil => exact (List.length_eq_zero_iff.1 h.symm).symm
  | cons x a ih =>
    cases b with
    | nil => simp at h
    | cons y b =>
      unfold differing at h0 ih
      rw [List.zipWith_cons_cons, List.count_cons] at h0
      rw [ih b (by simpa using h) (by omega)]
      cases x <;> cases y <;> simp at h0 ⊢

/-- C88: a change of one, two or three bits, less than 91639 bits apart, changes the checksum. -/
theorem C88_three_bits (hi : Crc.IsImpl impl) (addr addr' : Nat) (d e : List Byte) (p w w' s : List Bool)
    (hd : bitsOf d = p ++ w ++ s) (he : bitsOf e = p ++ w' ++ s) (hlen : w.length = w'.length) (hw : w.length ≤ 91639) (hne : w ≠ w') (h3 : differing w w' ≤ 3) :
    apiCrc32 impl addr [.buffer d] ≠ apiCrc32 impl addr' [.buffer e] := by
  intro h
  rw [apiCrc32_nil hi.correct, apiCrc32_nil hi.correct] at h
  injection h with h
  have hl : d.length = e.length := by
    have h1 := Crc.bitsOf_length d
    have h2 := Crc.bitsOf_length e
    rw [hd] at h1
    rw [he] at h2
    simp only [List.length_append] at h1 h2
    omega
  have h4 := (Crc.crc1_eq_iff 0 d e hl).1 (Crc.packCrc_inj h)
  rw [hd, he, Crc.pi_append, Crc.pi_append, Crc.pi_append, Crc.pi_append, hlen] at h4
  have h5 : pi w = pi w' := by
    apply Crc.x_pow_cancel (n := s.length)
    linear_combination h4
  refine few_bits (List.zipWith (· ^^ ·) w w') (by rw [List.length_zipWith]; omega) (fun h0 => hne (count_zero_eq w w' hlen h0)) h3 ?_
  rw [pi_zipWith w w' hlen, h5, Crc.add_self]

/-- C88: in data of at most 11454 bytes, every change of one, two or three bits changes the checksum. -/
theorem C88_short (hi : Crc.IsImpl impl) (addr addr' : Nat) (d e : List Byte) (hlen : d.length = e.length) (hd : d.length ≤ 11454) (hne : d ≠ e)
    (h3 : differing (bitsOf d) (bitsOf e) ≤ 3) : apiCrc32 impl addr [.buffer d] ≠ apiCrc32 impl addr' [.buffer e] :=
  C88_three_bits hi addr addr' d e [] (bitsOf d) (bitsOf e) [] (by simp) (by simp) (by rw [Crc.bitsOf_length, Crc.bitsOf_length, hlen]) (by rw [Crc.bitsOf_length]; omega)
    (fun h => hne (Crc.bitsOf_inj h)) h3

example := C88_short Crc.IsImpl.generic 0 0 [1#8, 2#8, 3#8] [0#8, 2#8, 0#8] rfl (by decide) (by decide) (by decide)

theorem bitsOf_xorBuf (a b : List Byte) (h : a.length = b.length) : bitsOf (xorBuf a b) = List.zipWith (· ^^ ·) (bitsOf a) (bitsOf b) := by
  induction a generalizing b with
  | nil => rw [List.length_eq_zero_iff.1 h.symm]; rfl
  | cons x a ih =>
    cases b with
    | nil => simp at h
    | cons y b =>
      have h1 : xorBuf (x :: a) (y :: b) = [x ^^^ y] ++ xorBuf a b := rfl
      rw [h1, ← List.singleton_append (x := x), ← List.singleton_append (x := y), bitsOf_append, bitsOf_append, bitsOf_append, ih b (by simpa using h),
        List.zipWith_append (by rw [bitsOf_length, bitsOf_length]; rfl)]
      congr 1
      simp [bitsOf, List.range, List.range.loop]

theorem xor_xor_self (a b : List Bool) (h : a.length = b.length) : List.zipWith (· ^^ ·) a (List.zipWith (· ^^ ·) a b) = b := by
  induction a generalizing b with
  | nil => exact (List.length_eq_zero_iff.1 h.symm).symm
  | cons x a ih =>
    cases b with
    | nil => simp at h
    | cons y b => rw [List.zipWith_cons_cons, List.zipWith_cons_cons, ih b (by simpa using h)]; simp

theorem pi_zeros (n : Nat) : pi (bitsOf (List.replicate n 0#8)) = 0 := by rw [← mu_eq_pi, mu_zeros]

theorem count_zeros (n : Nat) : (bitsOf (List.replicate n 0#8)).count true = 0 := by
  induction n with
  | zero => rfl
  | succ n ih => rw [List.replicate_succ, ← List.singleton_append, bitsOf_append, List.count_append, ih]; decide

/-- Three bits, at the distances 41678 and 91639. -/
def threeBits (n : Nat) : List Byte := List.replicate n 0#8 ++ [1#8] ++ List.replicate 6244 0#8 ++ [2#8] ++ List.replicate 5208 0#8 ++ [0x80#8]

theorem threeBits_length (n : Nat) : (threeBits n).length = n + 11455 := by
  have h : ∀ a b : Nat, (List.replicate n 0#8 ++ [1#8] ++ List.replicate a 0#8 ++ [2#8] ++ List.replicate b 0#8 ++ [0x80#8]).length = n + (a + b + 3) := by
    intro a b
    simp only [List.length_append, List.length_replicate, List.length_cons, List.length_nil]; omega
  exact h 6244 5208

theorem threeBits_count (n : Nat) : (bitsOf (threeBits n)).count true = 3 := by
  unfold threeBits
  simp only [bitsOf_append, List.count_append, count_zeros]
  decide

theorem threeBits_pi (n : Nat) : pi (bitsOf (threeBits n)) = 0 := by
  have h1 : pi (bitsOf [1#8]) = x ^ 7 := by
    show AdjoinRoot.mk crcP (polyOfBits [true, false, false, false, false, false, false, false]) = _
    simp only [polyOfBits, List.foldl, if_true, Bool.false_eq_true, if_false, map_add, map_mul, map_one, map_zero, zero_mul, zero_add, add_zero, one_mul, AdjoinRoot.mk_X]
    show x * x * x * x * x * x * x = _
    ring
  have h2 : pi (bitsOf [2#8]) = x ^ 6 := by
    show AdjoinRoot.mk crcP (polyOfBits [false, true, false, false, false, false, false, false]) = _
    simp only [polyOfBits, List.foldl, if_true, Bool.false_eq_true, if_false, map_add, map_mul, map_one, map_zero, zero_mul, zero_add, add_zero, one_mul, AdjoinRoot.mk_X]
    show x * x * x * x * x * x = _
    ring
  have h3 : pi (bitsOf [0x80#8]) = 1 := by
    show AdjoinRoot.mk crcP (polyOfBits [false, false, false, false, false, false, false, true]) = _
    simp [polyOfBits]
  unfold threeBits
  simp only [bitsOf_append, pi_append, pi_zeros, h1, h2, h3, bitsOf_length, List.length_replicate, List.length_cons, List.length_nil]
  have h4 := Three.trinomial_sharp
  rw [show (91639 : Nat) = 7 + 8 * 6244 + 8 + 8 * 5208 + 8 from rfl, show (41678 : Nat) = 6 + 8 * 5208 + 8 from rfl] at h4
  simp only [pow_add] at h4
  linear_combination h4

/-- Not so in longer data: in any data of 11455 bytes or more there are three bits whose change goes unnoticed. -/
theorem C88_long_false (hi : Crc.IsImpl impl) (addr addr' : Nat) (d : List Byte) (hd : 11455 ≤ d.length) :
    ∃ e : List Byte, e.length = d.length ∧ differing (bitsOf d) (bitsOf e) = 3 ∧ apiCrc32 impl addr [.buffer d] = apiCrc32 impl addr' [.buffer e] := by
  have hl : d.length = (threeBits (d.length - 11455)).length := by rw [threeBits_length]; omega
  have hl' : (xorBuf d (threeBits (d.length - 11455))).length = d.length := by
    unfold xorBuf; rw [List.length_zipWith, ← hl, Nat.min_self]
  have hb : (bitsOf d).length = (bitsOf (threeBits (d.length - 11455))).length := by rw [bitsOf_length, bitsOf_length, ← hl]
  refine ⟨xorBuf d (threeBits (d.length - 11455)), hl', ?_, ?_⟩
  · unfold differing
    rw [bitsOf_xorBuf _ _ hl, xor_xor_self _ _ hb, threeBits_count]
  · rw [apiCrc32_nil hi.correct, apiCrc32_nil hi.correct, (Crc.crc1_eq_iff 0 d (xorBuf d (threeBits (d.length - 11455))) hl'.symm).2]
    rw [bitsOf_xorBuf _ _ hl, pi_zipWith _ _ hb, threeBits_pi, add_zero]

/-- Three bits of "abc" flipped. -/
example : differing (bitsOf [0x61, 0x62, 0x63]) (bitsOf [0x60, 0x60, 0x73]) = 3 ∧
    apiCrc32 genericImpl 0 [.buffer [0x61, 0x62, 0x63]] ≠ apiCrc32 genericImpl 0 [.buffer [0x60, 0x60, 0x73]] := by decide +kernel

end Yenc.Props
