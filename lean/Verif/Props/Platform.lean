import Verif.Lemmas.Platform
import Verif.Lemmas.CrcImpl
import Verif.Lemmas.CrcErr
/-!
C68: the sizes computed by `encode` and `encodeTo` on platforms whose `size_t` has 32 bits, and in builds with `disable_avx256`; the length argument of `crc32_combine` there.
-/
namespace Yenc.Props
open Yenc

variable {eimpl : Enc.Impl} {impl : Crc.Impl}

/-- C68: where the size needed (two characters for each byte, line breaks, 66 bytes) fits `size_t`, `encode` returns the reference encoding, and `encodeTo` writes it to
every buffer of `maxSize` bytes.  Partial: it has to fit. -/
theorem C68_encode_partial (he : Enc.IsImpl eimpl) (P : Platform) (d : List Byte) (ls col : Nat) (h1 : 1 ≤ ls) (h2 : ls + 6 < 2 ^ 31) (h3 : col < ls)
    (hfit : 2 * d.length + 2 * (2 * d.length / ls) + 66 < 2 ^ P.bits) :
    Enc.apiEncodeOn P eimpl [.buffer d, .int ls, .int col] = .ret (Spec.encode ls true col d) ∧
      ∀ dest : List Byte, Js.maxSize d.length ls ≤ dest.length →
        Enc.apiEncodeToOn P eimpl [.buffer d, .buffer dest, .int ls, .int col] =
          .ret (toInt32 (Spec.encode ls true col d).length, Spec.encode ls true col d) := by
  unfold Enc.apiEncodeOn Enc.apiEncodeToOn
  by_cases hne : d = []
  · subst hne; simp [Spec.encode, toInt32]
  have hp : (if P.avx256 then 64 else 32 : Nat) = 64 ∨ (if P.avx256 then 64 else 32 : Nat) = 32 := by split <;> simp
  have hm := P.maxSize_eq d.length ls hfit
  obtain ⟨c1, e1⟩ := Enc.runInto_pad he.correct ls col d true h1 h2 h3 hne (P.maxSize d.length ls) (by omega)
  simp only [hne, if_false, Enc.lineArgs_eq ls col h1 (by omega) h3, Outcome.bind, Int.toNat_natCast, e1, true_and]
  intro dest hd
  unfold Js.maxSize at hd
  rw [if_neg (by simpa using hne), if_neg (by omega), Nat.mul_comm d.length 2] at hd
  obtain ⟨c2, e2⟩ := Enc.runInto_pad he.correct ls col d true h1 h2 h3 hne dest.length (by omega)
  rw [if_neg (by omega), e2]

/-- C68: with whatever integers they are called, `encode` and `encodeTo` stay inside their buffers, if the size needed with the line size in force fits. -/
theorem C68_never_ub_partial (he : Enc.IsImpl eimpl) (P : Platform) (d dest : List Byte) (ls col : Int) (hls2 : toInt32 ls + 6 < 2 ^ 31)
    (hfit : ∀ n : Nat, 1 ≤ n → (n : Int) = (if toInt32 ls = 0 then 128 else toInt32 ls) → 2 * d.length + 2 * (2 * d.length / n) + 66 < 2 ^ P.bits) :
    Enc.apiEncodeOn P eimpl [.buffer d, .int ls, .int col] ≠ .ub ∧
      Enc.apiEncodeToOn P eimpl [.buffer d, .buffer dest, .int ls, .int col] ≠ .ub := by
  by_cases hne : d = []
  · subst hne; simp [Enc.apiEncodeOn, Enc.apiEncodeToOn]
  simp only [Enc.apiEncodeOn, Enc.apiEncodeToOn, hne, if_false]
  rcases Enc.lineArgs_cases ls col with ⟨m, h⟩ | ⟨a, b, h, ha, hb, hls⟩
  · simp [h, Outcome.bind]
  · have hp : (if P.avx256 then 64 else 32 : Nat) = 64 ∨ (if P.avx256 then 64 else 32 : Nat) = 32 := by split <;> simp
    have hm := P.maxSize_eq d.length a (hfit a ha hls)
    obtain ⟨col', h4⟩ := Enc.runInto_pad he.correct a b d true ha (by omega) hb hne (P.maxSize d.length a) (by omega)
    simp only [h, Outcome.bind, Int.toNat_natCast, h4]
    refine ⟨by simp, ?_⟩
    split
    · simp
    · rename_i hlt
      obtain ⟨col'', h5⟩ := Enc.runInto_pad he.correct a b d true ha (by omega) hb hne dest.length (by omega)
      simp [h5]

/-- C68, 64-bit platforms: full, for every length a Buffer can have (at most `2^53`). -/
theorem C68_64 (he : Enc.IsImpl eimpl) (avx256 : Bool) (d dest : List Byte) (hd : d.length ≤ 2 ^ 53) (ls col : Int) (hls : toInt32 ls ≤ 2147483641) :
    Enc.apiEncodeOn ⟨64, avx256⟩ eimpl [.buffer d, .int ls, .int col] ≠ .ub ∧
      Enc.apiEncodeToOn ⟨64, avx256⟩ eimpl [.buffer d, .buffer dest, .int ls, .int col] ≠ .ub := by
  refine C68_never_ub_partial he _ d dest ls col (by omega) fun n _ _ => ?_
  have := Nat.div_le_self (2 * d.length) n
  show _ < 2 ^ 64
  omega

example := C68_64 .generic true [65#8] [] (by decide) 128 0 (by decide)

/-- C68, 32-bit platforms, where Buffers are shorter than `2^30` bytes.  Partial: short buffers, or line sizes of at least 3 (0 means 128). -/
theorem C68_32_partial (he : Enc.IsImpl eimpl) (avx256 : Bool) (d dest : List Byte) (ls col : Int) (hls2 : toInt32 ls ≤ 2147483641)
    (hd : d.length ≤ 715827871 ∨ (d.length < 2 ^ 30 ∧ -2 ^ 31 ≤ ls ∧ ls < 2 ^ 31 ∧ ls ≠ 1 ∧ ls ≠ 2)) :
    Enc.apiEncodeOn ⟨32, avx256⟩ eimpl [.buffer d, .int ls, .int col] ≠ .ub ∧
      Enc.apiEncodeToOn ⟨32, avx256⟩ eimpl [.buffer d, .buffer dest, .int ls, .int col] ≠ .ub := by
  refine C68_never_ub_partial he _ d dest ls col (by omega) fun n hn hls => ?_
  show _ < 2 ^ 32
  rcases hd with hd | ⟨hd, r1, r2, r3, r4⟩
  · have := Nat.div_le_self (2 * d.length) n
    omega
  · rw [toInt32_of_range ls r1 r2] at hls
    have h3 : 3 ≤ n := by
      by_cases h0 : ls = 0
      · rw [if_pos h0] at hls; omega
      · rw [if_neg h0] at hls; omega
    have := Nat.div_le_div_left (a := 2 * d.length) h3 (by omega)
    omega

example := C68_32_partial .generic true [65#8] [] (-3) 0 (by decide) (by decide)

/-- C68 is false on 32-bit platforms: for a Buffer of 715827883 bytes and line size 1 the size wraps around to 68 bytes (36 with `disable_avx256`), while the encoding has
more than `2^31`: `encode` writes outside the memory it has allocated, and `encodeTo` outside a buffer of 68 bytes, whatever the implementation. -/
theorem C68_32_false (he : Enc.IsImpl eimpl) (avx256 : Bool) :
    ∃ d : List Byte, d.length < 2 ^ 30 ∧ Enc.apiEncodeOn ⟨32, avx256⟩ eimpl [.buffer d, .int 1, .int 0] = .ub ∧
      ∀ dest : List Byte, dest.length = 68 → Enc.apiEncodeToOn ⟨32, avx256⟩ eimpl [.buffer d, .buffer dest, .int 1, .int 0] = .ub := by
  obtain ⟨n, hn⟩ : ∃ n, n = 715827883 := ⟨_, rfl⟩
  refine ⟨List.replicate n 65#8, by rw [List.length_replicate]; omega, ?_⟩
  have hlen : n ≤ (Spec.encode 1 true 0 (List.replicate n 65#8)).length := by
    obtain ⟨k, j, h1, h2, h3, h4, h5⟩ := Enc.encode_size 1 (by omega) true 0 (List.replicate n 65#8)
    rw [List.length_replicate] at *
    omega
  have hne : List.replicate n (65#8 : Byte) ≠ [] := by
    intro h
    have := congrArg List.length h
    rw [List.length_replicate, hn] at this
    cases this
  have hmax : Platform.maxSize ⟨32, avx256⟩ n 1 ≤ 68 := by
    rw [hn]
    cases avx256 <;> decide +kernel
  have hargs := Enc.lineArgs_eq 1 0 (by omega) (by omega) (by omega) []
  unfold Enc.apiEncodeOn Enc.apiEncodeToOn
  simp only [hne, if_false]
  constructor
  · rw [show (Arg.int 1) = Arg.int ((1 : Nat) : Int) from rfl, show (Arg.int 0) = Arg.int ((0 : Nat) : Int) from rfl, hargs]
    simp only [Outcome.bind, Int.toNat_natCast, List.length_replicate]
    rw [Enc.runInto_short he.correct 1 0 _ true (by omega) (by omega) (by omega) hne _ (by omega)]
  · intro dest hd
    rw [show (Arg.int 1) = Arg.int ((1 : Nat) : Int) from rfl, show (Arg.int 0) = Arg.int ((0 : Nat) : Int) from rfl, hargs]
    simp only [Outcome.bind, Int.toNat_natCast, List.length_replicate]
    rw [if_neg (by omega), Enc.runInto_short he.correct 1 0 _ true (by omega) (by omega) (by omega) hne _ (by omega)]

/-- C68, `crc32_combine`: lengths that fit `size_t` are taken as they are.  Partial: they have to fit. -/
theorem C68_combine_partial (P : Platform) (hb : P.bits ≤ 64) (a b : Arg) (n : Nat) (hn : n < 2 ^ P.bits) :
    Crc.apiCombineOn P impl [a, b, .int n] = Crc.apiCombine impl [a, b, .int n] := by
  unfold Crc.apiCombineOn Crc.apiCombine
  simp only [List.getD_cons_succ, List.getD_cons_zero, argToInt, Outcome.bind]
  have : (BitVec.ofInt P.bits (n : Int)).setWidth 64 = BitVec.ofInt 64 (n : Int) := by
    apply BitVec.eq_of_toNat_eq
    have h64 : 2 ^ P.bits ≤ 2 ^ 64 := Nat.pow_le_pow_right (by omega) hb
    simp only [BitVec.toNat_setWidth, BitVec.ofInt_natCast, BitVec.toNat_ofNat, Nat.mod_eq_of_lt hn]
  rw [this]

example := C68_combine_partial (impl := Crc.genericImpl) ⟨32, true⟩ (by decide) (.buffer [1#8, 2#8, 3#8, 4#8]) (.buffer [1#8, 2#8, 3#8, 4#8]) 4000000000 (by decide)

/-- C68 is false for `crc32_combine` on 32-bit platforms: a length of `2^32` is taken as 0. -/
theorem C68_combine_32_false (hi : Crc.IsImpl impl) (avx256 : Bool) :
    ∃ a b : List Byte, Crc.apiCombineOn ⟨32, avx256⟩ impl [.buffer a, .buffer b, .int (2 ^ 32)] ≠
      Crc.apiCombine impl [.buffer a, .buffer b, .int (2 ^ 32)] := by
  refine ⟨Crc.packCrc 1#32, Crc.packCrc 0#32, fun h => ?_⟩
  rw [Crc.apiCombine_eq (Crc.packCrc_buf _) (Crc.packCrc_buf _), Crc.apiCombineOn, if_neg (by simp), Crc.twoCrcs_eq (Crc.packCrc_buf _) (Crc.packCrc_buf _)] at h
  simp only [Outcome.bind, argToInt, List.getD_cons_succ, List.getD_cons_zero] at h
  injection h with h
  have h2 := congrArg Crc.phi (Crc.packCrc_inj h)
  rw [Crc.phi_combine hi.correct, Crc.phi_combine hi.correct] at h2
  have e1 : ((BitVec.ofInt 32 (2 ^ 32)).setWidth 64).toNat = 0 := by decide
  have e2 : (BitVec.ofInt 64 (2 ^ 32)).toNat = 2 ^ 32 := by decide
  have e3 : Crc.x ^ (8 * 2 ^ 32) = Crc.x ^ 8 := Crc.x_pow_congr (by unfold Nat.ModEq; norm_num)
  rw [e1, e2, e3, Nat.mul_zero, pow_zero, mul_one] at h2
  have h3 := add_right_cancel h2
  rw [mul_comm, ← Crc.phi_advance] at h3
  exact absurd (Crc.phi_injective h3) (by decide +kernel)

-- the hypotheses can be met
example : 2 * [65#8, 66#8].length + 2 * (2 * [65#8, 66#8].length / 1) + 66 < 2 ^ (Platform.mk 32 false).bits := by decide

end Yenc.Props
