import Verif.Lemmas.CrcErr
import Verif.Lemmas.CrcImpl
/-!
Properties C25-C37 and C54-C58: `crc32`, `crc32_combine`, `crc32_zeroes`, `crc32_multiply`, `crc32_shift`.
-/
namespace Yenc.Props
open Spec Polynomial

variable {impl : Crc.Impl}
open Yenc.Crc (apiCrc32 apiCombine apiZeroes apiMultiply apiShift)

/-! ### crc32 -/

/-- C25: `crc32(data)` and `crc32(data, init)` return the CRC-32 of the specification, whatever the address of the data. -/
theorem C25_crc32 (hi : Crc.IsImpl impl) (addr : Nat) (data : List Byte) :
    (∃ b r, apiCrc32 impl addr [.buffer data] = .ret b ∧ CrcBuf b r ∧ IsCrc32 0 data r) ∧
    ∀ ib init, CrcBuf ib init →
      ∃ b r, apiCrc32 impl addr [.buffer data, .buffer ib] = .ret b ∧ CrcBuf b r ∧ IsCrc32 init data r :=
  ⟨⟨_, _, Crc.apiCrc32_nil hi.correct addr data, Crc.packCrc_buf _, Crc.crc1_spec _ _⟩,
   fun _ _ hb => ⟨_, _, Crc.apiCrc32_init hi.correct addr data hb [], Crc.packCrc_buf _, Crc.crc1_spec _ _⟩⟩

/-- The CRC of the specification exists and is unique, so C25 determines the result. -/
theorem C25_crc32_unique (init : BitVec 32) (data : List Byte) : ∃! r, IsCrc32 init data r :=
  ⟨_, Crc.crc1_spec init data, fun _ h => Crc.isCrc32_unique h (Crc.crc1_spec _ _)⟩

-- "123456789" has CRC-32 CBF43926
example : apiCrc32 Crc.genericImpl 3 [.buffer [0x31#8, 0x32#8, 0x33#8, 0x34#8, 0x35#8, 0x36#8, 0x37#8, 0x38#8, 0x39#8]] =
    .ret [0xcb#8, 0xf4#8, 0x39#8, 0x26#8] := by decide +kernel

/-- C37: the address of the buffer does not matter. -/
theorem C37_crc32_address (hi : Crc.IsImpl impl) (addr addr' : Nat) (data : List Byte) (rest : List Arg) :
    apiCrc32 impl addr (.buffer data :: rest) = apiCrc32 impl addr' (.buffer data :: rest) := by
  simp only [Crc.apiCrc32, hi.correct.incr_eq]

/-- C26: feeding the data in two parts. -/
theorem C26_crc32_incremental (hi : Crc.IsImpl impl) (addr1 addr2 addr3 : Nat) (a b ca : List Byte) :
    (apiCrc32 impl addr1 [.buffer a] = .ret ca →
      apiCrc32 impl addr2 [.buffer b, .buffer ca] = apiCrc32 impl addr3 [.buffer (a ++ b)]) ∧
    ∀ ib, apiCrc32 impl addr1 [.buffer a, .buffer ib] = .ret ca →
      apiCrc32 impl addr2 [.buffer b, .buffer ca] = apiCrc32 impl addr3 [.buffer (a ++ b), .buffer ib] := by
  constructor
  · intro h
    rw [Crc.apiCrc32_nil hi.correct] at h
    injection h with h
    rw [Crc.apiCrc32_init hi.correct addr2 b (h ▸ Crc.packCrc_buf _), Crc.apiCrc32_nil hi.correct, Crc.crc1_append]
  · intro ib h
    by_cases hl : ib.length = 4
    · obtain ⟨v, hv⟩ := Crc.crcBuf_exists hl
      rw [Crc.apiCrc32_init hi.correct addr1 a hv] at h
      injection h with h
      rw [Crc.apiCrc32_init hi.correct addr2 b (h ▸ Crc.packCrc_buf _), Crc.apiCrc32_init hi.correct addr3 _ hv, Crc.crc1_append]
    · simp [Crc.apiCrc32, Crc.initArg, hl, Outcome.bind] at h

/-- Feeding the data in any number of pieces: the result of a whole sequence of calls. -/
def crcPieces (impl : Crc.Impl) (addr : Nat → Nat) : Nat → List Byte → List (List Byte) → Outcome (List Byte)
  | _, c, [] => .ret c
  | i, c, d :: ds => (apiCrc32 impl (addr i) [.buffer d, .buffer c]).bind fun c' => crcPieces impl addr (i + 1) c' ds

theorem C26_crc32_pieces (hi : Crc.IsImpl impl) (addr : Nat → Nat) (i addr' : Nat) (ib : List Byte) (hib : ib.length = 4) (ds : List (List Byte)) :
    crcPieces impl addr i ib ds = apiCrc32 impl addr' [.buffer ds.flatten, .buffer ib] := by
  obtain ⟨v, hv⟩ := Crc.crcBuf_exists hib
  rw [Crc.apiCrc32_init hi.correct addr' _ hv]
  induction ds generalizing i ib v with
  | nil => simp [crcPieces, Crc.crc1, hv.pack]
  | cons d ds ih =>
    rw [crcPieces, Crc.apiCrc32_init hi.correct _ _ hv, Outcome.bind]
    rw [ih (i + 1) _ rfl _ (Crc.packCrc_buf _), List.flatten_cons, Crc.crc1_append]

example := C26_crc32_pieces (impl := Crc.genericImpl) .generic (fun i => i) 0 0 [1#8, 2#8, 3#8, 4#8] rfl [[5#8, 6#8], [], [7#8]]

/-- C36: the Buffers are big-endian.  Every 4-byte Buffer is a value, every value has exactly one 4-byte Buffer, and `crc32` of no data gives back its second argument. -/
theorem C36_crc_buffers (hi : Crc.IsImpl impl) (addr : Nat) :
    (∀ b, b.length = 4 → ∃! v, CrcBuf b v) ∧ (∀ v, ∃! b, CrcBuf b v) ∧
    (∀ b, b.length = 4 → apiCrc32 impl addr [.buffer [], .buffer b] = .ret b) := by
  refine ⟨fun b hb => ?_, fun v => ⟨_, Crc.packCrc_buf v, fun b hb => hb.unique (Crc.packCrc_buf v)⟩, fun b hb => ?_⟩
  · obtain ⟨v, hv⟩ := Crc.crcBuf_exists hb
    exact ⟨v, hv, fun w hw => hw.val_unique hv⟩
  · obtain ⟨v, hv⟩ := Crc.crcBuf_exists hb
    rw [Crc.apiCrc32_init hi.correct _ _ hv]
    simp [Crc.crc1, hv.pack]

example : CrcBuf [0x01#8, 0x02#8, 0x03#8, 0x04#8] 0x01020304#32 := ⟨rfl, by decide⟩

/-! ### combine and zeroes -/

/-- C27: `crc32_combine(crc32(a, c), crc32(b), b.length)` is `crc32(a + b, c)`. -/
theorem C27_combine (hi : Crc.IsImpl impl) (addr1 addr2 addr3 : Nat) (a b ca cb : List Byte) (init : List Arg)
    (hlen : b.length < 2 ^ 63)
    (ha : apiCrc32 impl addr1 (.buffer a :: init) = .ret ca) (hb : apiCrc32 impl addr2 [.buffer b] = .ret cb) :
    apiCombine impl [.buffer ca, .buffer cb, .int b.length] = apiCrc32 impl addr3 (.buffer (a ++ b) :: init) := by
  rw [Crc.apiCrc32_nil hi.correct] at hb
  injection hb with hb
  have key : ∀ v, ca = Crc.packCrc (Crc.crc1 v a) → apiCombine impl [.buffer ca, .buffer cb, .int b.length] = .ret (Crc.packCrc (Crc.crc1 v (a ++ b))) := by
    intro v hv
    rw [hv, ← hb, Crc.apiCombine_eq (Crc.packCrc_buf _) (Crc.packCrc_buf _)]
    congr 2
    apply Crc.phi_injective
    have e1 := Crc.phi_not_crc1 v (a ++ b)
    have e2 := Crc.phi_not_crc1 v a
    have e3 := Crc.phi_not_crc1 0 b
    rw [Crc.not_xor_not] at e1 e2 e3
    have e4 : Crc.phi (~~~(0 : BitVec 32)) = Crc.phi 0xffffffff#32 := rfl
    rw [e4] at e3
    rw [Crc.mu_append, List.length_append] at e1
    rw [Crc.phi_combine hi.correct, Crc.toNat_ofInt64 _ (by omega)]
    linear_combination Crc.x ^ (8 * b.length) * e2 + e3 - e1
  cases init with
  | nil =>
    rw [Crc.apiCrc32_nil hi.correct] at ha ⊢
    injection ha with ha
    exact key 0 ha.symm
  | cons ib rest =>
    cases ib with
    | buffer ib =>
      by_cases hl : ib.length = 4
      · obtain ⟨v, hv⟩ := Crc.crcBuf_exists hl
        rw [Crc.apiCrc32_init hi.correct _ _ hv] at ha ⊢
        injection ha with ha
        exact key v ha.symm
      · simp [Crc.apiCrc32, Crc.initArg, hl, Outcome.bind] at ha
    | int => simp [Crc.apiCrc32, Crc.initArg, Outcome.bind] at ha
    | bool => simp [Crc.apiCrc32, Crc.initArg, Outcome.bind] at ha
    | other => simp [Crc.apiCrc32, Crc.initArg, Outcome.bind] at ha

example : apiCombine Crc.genericImpl [.buffer [0x9b#8, 0xe3#8, 0xe0#8, 0xa3#8], .buffer [0x13#8, 0x1d#8, 0xa0#8, 0x70#8], .int 5] =
    .ret [0xcb#8, 0xf4#8, 0x39#8, 0x26#8] := by decide +kernel

/-- C28: `crc32_zeroes(n, crc32(a))` is the CRC of `a` followed by `n` null bytes. -/
theorem C28_zeroes (hi : Crc.IsImpl impl) (addr addr' : Nat) (a ca : List Byte) (n : Nat) (hn : n < 2 ^ 31) :
    (apiCrc32 impl addr [.buffer a] = .ret ca →
      apiZeroes impl [.int n, .buffer ca] = apiCrc32 impl addr' [.buffer (a ++ List.replicate n 0#8)]) ∧
    apiZeroes impl [.int n] = apiCrc32 impl addr' [.buffer (List.replicate n 0#8)] := by
  have e : (BitVec.ofNat 64 n).toNat = n := by rw [BitVec.toNat_ofNat]; omega
  constructor
  · intro ha
    rw [Crc.apiCrc32_nil hi.correct] at ha ⊢
    injection ha with ha
    rw [Crc.apiZeroes_nonneg (Crc.initArg_pos _ (ha ▸ Crc.packCrc_buf _)) n hn, Crc.zeros_eq hi.correct, e]
  · rw [Crc.apiCrc32_nil hi.correct, Crc.apiZeroes_nonneg (Crc.initArg_nil _) n hn]
    have := Crc.zeros_eq hi.correct 0 [] (BitVec.ofNat 64 n)
    rw [e] at this
    rw [List.nil_append] at this
    rw [← this]; rfl

/-- C29: a negative count removes null bytes, and undoes the positive count on every 4-byte value. -/
theorem C29_zeroes_negative (hi : Crc.IsImpl impl) (addr addr' : Nat) (a c : List Byte) (n : Nat) (hn : n < 2 ^ 31) :
    (apiCrc32 impl addr [.buffer (a ++ List.replicate n 0#8)] = .ret c →
      apiZeroes impl [.int (-n), .buffer c] = apiCrc32 impl addr' [.buffer a]) ∧
    ∀ b, b.length = 4 →
      (apiZeroes impl [.int n, .buffer b]).bind (fun d => apiZeroes impl [.int (-n), .buffer d]) = .ret b ∧
      (apiZeroes impl [.int (-n), .buffer b]).bind (fun d => apiZeroes impl [.int n, .buffer d]) = .ret b := by
  have e : (BitVec.ofNat 64 n).toNat = n := by rw [BitVec.toNat_ofNat]; omega
  rcases Nat.eq_zero_or_pos n with rfl | h0
  · have hz : ∀ b, b.length = 4 → apiZeroes impl [.int 0, .buffer b] = .ret b := by
      intro b hb
      obtain ⟨v, hv⟩ := Crc.crcBuf_exists hb
      have h1 := Crc.apiZeroes_nonneg (impl := impl) (Crc.initArg_pos 0 hv) 0 (by omega)
      simp only [Nat.cast_zero] at h1
      rw [h1]
      have : ~~~(Crc.zeros impl v 0#64) = ~~~v := by
        apply Crc.phi_injective; rw [Crc.phi_zeros hi.correct]; simp
      rw [BitVec.not_inj.1 this, hv.pack]
    constructor
    · intro h
      simp only [List.replicate_zero, List.append_nil] at h
      have hc : c.length = 4 := by
        rw [Crc.apiCrc32_nil hi.correct] at h; injection h with h; rw [← h]; rfl
      simp only [Nat.cast_zero, neg_zero]
      rw [hz c hc, ← h, C37_crc32_address hi]
    · intro b hb
      simp only [Nat.cast_zero, neg_zero]
      rw [hz b hb, Outcome.bind, hz b hb]; exact ⟨rfl, rfl⟩
  · constructor
    · intro h
      rw [Crc.apiCrc32_nil hi.correct] at h ⊢
      injection h with h
      rw [Crc.apiZeroes_neg (Crc.initArg_pos _ (h ▸ Crc.packCrc_buf _)) n h0 hn]
      have hz := Crc.zeros_eq hi.correct 0 a (BitVec.ofNat 64 n)
      rw [e] at hz
      rw [← hz, Crc.unzero_zeros hi.correct]
    · intro b hb
      obtain ⟨v, hv⟩ := Crc.crcBuf_exists hb
      rw [Crc.apiZeroes_neg (Crc.initArg_pos _ hv) n h0 hn, Crc.apiZeroes_nonneg (Crc.initArg_pos _ hv) n hn]
      simp only [Outcome.bind]
      rw [Crc.apiZeroes_neg (Crc.initArg_pos _ (Crc.packCrc_buf _)) n h0 hn, Crc.apiZeroes_nonneg (Crc.initArg_pos _ (Crc.packCrc_buf _)) n hn,
        Crc.unzero_zeros hi.correct, Crc.zeros_unzero hi.correct, hv.pack]
      exact ⟨rfl, rfl⟩

example : apiZeroes Crc.genericImpl [.int (-1), .buffer [0xd2#8, 0x02#8, 0xef#8, 0x8d#8]] = .ret [0, 0, 0, 0] := by decide +kernel

/-! ### multiply and shift -/

/-- C30: `crc32_multiply` is the product of polynomials modulo the generator. -/
theorem C30_multiply (hi : Crc.IsImpl impl) (a b : List Byte) (v w : BitVec 32) (ha : CrcBuf a v) (hb : CrcBuf b w) :
    ∃ c r, apiMultiply impl [.buffer a, .buffer b] = .ret c ∧ CrcBuf c r ∧ toPoly r = (toPoly v * toPoly w) %ₘ crcP := by
  refine ⟨_, _, Crc.apiMultiply_eq ha hb [], Crc.packCrc_buf _, ?_⟩
  rw [← Crc.toPoly_mod (impl.multiply v w), ← Crc.mk_eq_iff, Crc.mk_toPoly, hi.correct.multiply, map_mul, Crc.mk_toPoly, Crc.mk_toPoly]

/-- C30: the laws of a field: commutative, associative, distributive over exclusive or, identity `80000000`, zero, inverses, no zero divisors. -/
theorem C30_multiply_field (hi : Crc.IsImpl impl) (a b c : List Byte) (ha : a.length = 4) (hb : b.length = 4) (hc : c.length = 4) :
    apiMultiply impl [.buffer a, .buffer b] = apiMultiply impl [.buffer b, .buffer a] ∧
    (apiMultiply impl [.buffer a, .buffer b]).bind (fun ab => apiMultiply impl [.buffer ab, .buffer c]) =
      (apiMultiply impl [.buffer b, .buffer c]).bind (fun bc => apiMultiply impl [.buffer a, .buffer bc]) ∧
    apiMultiply impl [.buffer a, .buffer (xorBuf b c)] =
      (apiMultiply impl [.buffer a, .buffer b]).bind (fun ab => (apiMultiply impl [.buffer a, .buffer c]).bind fun ac => .ret (xorBuf ab ac)) ∧
    apiMultiply impl [.buffer a, .buffer [0x80#8, 0, 0, 0]] = .ret a ∧
    apiMultiply impl [.buffer a, .buffer [0, 0, 0, 0]] = .ret [0, 0, 0, 0] ∧
    (a ≠ [0, 0, 0, 0] → ∃ d, d.length = 4 ∧ apiMultiply impl [.buffer a, .buffer d] = .ret [0x80#8, 0, 0, 0]) ∧
    (apiMultiply impl [.buffer a, .buffer b] = .ret [0, 0, 0, 0] → a = [0, 0, 0, 0] ∨ b = [0, 0, 0, 0]) := by
  obtain ⟨u, hu⟩ := Crc.crcBuf_exists ha
  obtain ⟨v, hv⟩ := Crc.crcBuf_exists hb
  obtain ⟨w, hw⟩ := Crc.crcBuf_exists hc
  have hm := hi.correct.multiply
  have hone : CrcBuf [0x80#8, 0, 0, 0] 0x80000000#32 := ⟨rfl, by decide⟩
  have hzero : CrcBuf [0, 0, 0, 0] 0#32 := ⟨rfl, by decide⟩
  have hx : CrcBuf (xorBuf b c) (v ^^^ w) := by
    rw [← hv.pack, ← hw.pack, ← Crc.packCrc_xor]; exact Crc.packCrc_buf _
  refine ⟨?_, ?_, ?_, ?_, ?_, ?_, ?_⟩
  · rw [Crc.apiMultiply_eq hu hv, Crc.apiMultiply_eq hv hu]
    congr 2; apply Crc.phi_injective; rw [hm, hm, mul_comm]
  · rw [Crc.apiMultiply_eq hu hv, Crc.apiMultiply_eq hv hw, Outcome.bind, Outcome.bind,
      Crc.apiMultiply_eq (Crc.packCrc_buf _) hw, Crc.apiMultiply_eq hu (Crc.packCrc_buf _)]
    congr 2; apply Crc.phi_injective; rw [hm, hm, hm, hm, mul_assoc]
  · rw [Crc.apiMultiply_eq hu hv, Crc.apiMultiply_eq hu hw, Crc.apiMultiply_eq hu hx, Outcome.bind, Outcome.bind, ← Crc.packCrc_xor]
    congr 2; apply Crc.phi_injective; rw [hm, Crc.phi_xor, Crc.phi_xor, hm, hm, mul_add]
  · rw [Crc.apiMultiply_eq hu hone, ← hu.pack]
    congr 2; apply Crc.phi_injective; rw [hm, Crc.phi_one, mul_one]
  · rw [Crc.apiMultiply_eq hu hzero, ← hzero.pack]
    congr 2; apply Crc.phi_injective; rw [hm, Crc.phi_zero, mul_zero]
  · intro hne
    have hu0 : u ≠ 0#32 := by rintro rfl; exact hne (hu.unique hzero)
    obtain ⟨n, hn⟩ := Crc.exists_pow u hu0
    obtain ⟨k, hk1, hk2⟩ : ∃ k, k < 2 ^ 32 ∧ (k + n) % (2 ^ 32 - 1) = 0 :=
      ⟨(2 ^ 32 - 1) - n % (2 ^ 32 - 1), by omega, by omega⟩
    refine ⟨Crc.packCrc (Crc.shift 0x80000000#32 (BitVec.ofNat 32 k)), rfl, ?_⟩
    rw [Crc.apiMultiply_eq hu (Crc.packCrc_buf _), ← hone.pack]
    congr 2; apply Crc.phi_injective
    rw [hm, ← Crc.x_pow_eq_phi k hk1, hn, Crc.phi_one, ← pow_add, ← pow_zero Crc.x]
    exact Crc.x_pow_congr (by unfold Nat.ModEq; omega)
  · intro h
    rw [Crc.apiMultiply_eq hu hv, ← hzero.pack] at h
    injection h with h
    have h2 := Crc.packCrc_inj h
    have h3 := hm u v
    rw [h2, Crc.phi_zero] at h3
    by_cases hu0 : u = 0#32
    · left; subst hu0; exact hu.unique hzero
    · right
      have hv0 := Crc.phi_eq_zero ((Crc.isUnit_phi u hu0).mul_right_eq_zero.1 h3.symm)
      subst hv0; exact hv.unique hzero

example : apiMultiply Crc.genericImpl [.buffer [0x40#8, 0, 0, 0], .buffer [0, 0, 0, 1]] = .ret [0xed#8, 0xb8#8, 0x83#8, 0x20#8] := by decide +kernel

/-- C31: `crc32_shift(n, c)` is `c` times `X^n`; for negative `n` the result times `X^(-n)` is `c`. -/
theorem C31_shift (hi : Crc.IsImpl impl) (n : Int) (h1 : -2 ^ 31 < n) (h2 : n < 2 ^ 31) (c : List Byte) (v : BitVec 32) (hc : CrcBuf c v) :
    ∃ b r, apiShift impl [.int n, .buffer c] = .ret b ∧ CrcBuf b r ∧
      (toPoly r * X ^ (-n).toNat) %ₘ crcP = (toPoly v * X ^ n.toNat) %ₘ crcP := by
  obtain ⟨r, hr1, hr2⟩ := Crc.apiShift_spec hi.correct (Crc.initArg_pos _ hc) n h1 h2
  refine ⟨_, r, hr1, Crc.packCrc_buf r, ?_⟩
  rw [← Crc.mk_eq_iff]
  simpa [Crc.mk_toPoly] using hr2

example := C31_shift (impl := Crc.genericImpl) .generic (-100000) (by decide) (by decide) _ 0x12345678#32 (Crc.packCrc_buf _)

/-- C31: shifts compose, `0` does nothing, opposite shifts cancel, and the default second argument is `80000000`. -/
theorem C31_shift_group (hi : Crc.IsImpl impl) (n m : Int) (h1 : -2 ^ 31 < n) (h2 : n < 2 ^ 31) (h3 : -2 ^ 31 < m) (h4 : m < 2 ^ 31)
    (c : List Byte) (hc : c.length = 4) :
    (-2 ^ 31 < n + m → n + m < 2 ^ 31 →
      (apiShift impl [.int n, .buffer c]).bind (fun d => apiShift impl [.int m, .buffer d]) = apiShift impl [.int (n + m), .buffer c]) ∧
    apiShift impl [.int 0, .buffer c] = .ret c ∧
    (apiShift impl [.int n, .buffer c]).bind (fun d => apiShift impl [.int (-n), .buffer d]) = .ret c ∧
    apiShift impl [.int n] = apiShift impl [.int n, .buffer [0x80#8, 0, 0, 0]] := by
  obtain ⟨v, hv⟩ := Crc.crcBuf_exists hc
  have comp : ∀ k : Int, -2 ^ 31 < k → k < 2 ^ 31 → -2 ^ 31 < n + k → n + k < 2 ^ 31 →
      (apiShift impl [.int n, .buffer c]).bind (fun d => apiShift impl [.int k, .buffer d]) = apiShift impl [.int (n + k), .buffer c] := by
    intro k hk1 hk2 h5 h6
    obtain ⟨r, hr1, hr2⟩ := Crc.apiShift_spec hi.correct (Crc.initArg_pos _ hv) n h1 h2
    obtain ⟨s, hs1, hs2⟩ := Crc.apiShift_spec hi.correct (Crc.initArg_pos _ (Crc.packCrc_buf r)) k hk1 hk2
    obtain ⟨t, ht1, ht2⟩ := Crc.apiShift_spec hi.correct (Crc.initArg_pos _ hv) (n + k) h5 h6
    rw [hr1, Outcome.bind, hs1, ht1]
    congr 2
    apply Crc.phi_injective
    apply Crc.x_pow_cancel (n := (-k).toNat + (-n).toNat + (n + k).toNat + (-(n + k)).toNat)
    have e : (-k).toNat + (-n).toNat + (n + k).toNat = n.toNat + k.toNat + (-(n + k)).toNat := by omega
    calc Crc.phi s * Crc.x ^ ((-k).toNat + (-n).toNat + (n + k).toNat + (-(n + k)).toNat)
        = (Crc.phi s * Crc.x ^ (-k).toNat) * Crc.x ^ (-n).toNat * Crc.x ^ (n + k).toNat * Crc.x ^ (-(n + k)).toNat := by
          rw [pow_add, pow_add, pow_add]; ring
      _ = (Crc.phi r * Crc.x ^ (-n).toNat) * Crc.x ^ k.toNat * Crc.x ^ (n + k).toNat * Crc.x ^ (-(n + k)).toNat := by rw [hs2]; ring
      _ = Crc.phi v * Crc.x ^ (n + k).toNat * Crc.x ^ (n.toNat + k.toNat + (-(n + k)).toNat) := by rw [hr2, pow_add, pow_add]; ring
      _ = Crc.phi t * Crc.x ^ ((-k).toNat + (-n).toNat + (n + k).toNat + (-(n + k)).toNat) := by
          rw [← ht2, ← e, pow_add _ ((-k).toNat + (-n).toNat + (n + k).toNat)]; ring
  have zero : apiShift impl [.int 0, .buffer c] = .ret c := by
    obtain ⟨r, hr1, hr2⟩ := Crc.apiShift_spec hi.correct (Crc.initArg_pos _ hv) 0 (by omega) (by omega)
    rw [hr1, ← hv.pack]
    congr 2
    apply Crc.phi_injective
    simpa using hr2
  refine ⟨comp m h3 h4, zero, ?_, ?_⟩
  · rw [comp (-n) (by omega) (by omega) (by omega) (by omega), Int.add_right_neg, zero]
  · have hone : CrcBuf [0x80#8, 0, 0, 0] 0x80000000#32 := ⟨rfl, by decide⟩
    simp only [Crc.apiShift, Crc.initArg_nil, Crc.initArg_pos _ hone]

example := C31_shift_group (impl := Crc.genericImpl) .generic (-1000) 77 (by decide) (by decide) (by decide) (by decide) [1#8, 2#8, 3#8, 4#8] rfl

/-- C32: the README's formula, `crc32_combine(c1, c2, len)` is `crc32_shift(len*8, c1)` exclusive or `c2`. -/
theorem C32_combine_by_shift (hi : Crc.IsImpl impl) (c1 c2 : List Byte) (h1 : c1.length = 4) (h2 : c2.length = 4) (len : Nat) (hl : len * 8 < 2 ^ 31) :
    apiCombine impl [.buffer c1, .buffer c2, .int len] =
      (apiShift impl [.int (len * 8 : Nat), .buffer c1]).bind fun s => .ret (xorBuf s c2) := by
  obtain ⟨v, hv⟩ := Crc.crcBuf_exists h1
  obtain ⟨w, hw⟩ := Crc.crcBuf_exists h2
  obtain ⟨r, hr1, hr2⟩ := Crc.apiShift_spec hi.correct (Crc.initArg_pos _ hv) (len * 8 : Nat) (by omega) (by omega)
  rw [hr1, Outcome.bind, Crc.apiCombine_eq hv hw]
  conv_rhs => rw [← hw.pack, ← Crc.packCrc_xor]
  congr 2
  apply Crc.phi_injective
  rw [Crc.phi_combine hi.correct, Crc.phi_xor, Crc.toNat_ofInt64 _ (by omega)]
  rw [Int.toNat_natCast, show (-((len * 8 : Nat) : Int)).toNat = 0 by omega, pow_zero, mul_one] at hr2
  rw [hr2, mul_comm 8 len]

example := C32_combine_by_shift (impl := Crc.genericImpl) .generic [1#8, 2#8, 3#8, 4#8] [5#8, 6#8, 7#8, 8#8] rfl rfl 1000000 (by decide)

/-! ### Reduction of exponents -/

/-- C33: both versions of `crc32_powmod` are congruent to their argument modulo `2^32 - 1`, for all 64-bit values. -/
theorem C33_powmod (n : BitVec 64) :
    (Crc.powmod n).toNat ≡ n.toNat [MOD 2 ^ 32 - 1] ∧ (Crc.powmodPortable n).toNat ≡ n.toNat [MOD 2 ^ 32 - 1] :=
  ⟨Crc.powmod_modEq n, Crc.powmodPortable_eq n ▸ Crc.powmod_modEq n⟩

/-- C33: `crc32_bytepow` (GNU C and Visual C++) is congruent to 8 times its argument. -/
theorem C33_bytepow (n : BitVec 64) : (Crc.bytepow n).toNat ≡ 8 * n.toNat [MOD 2 ^ 32 - 1] := Crc.bytepow_modEq n

/-- C33 fails for the version of `crc32_bytepow` for other compilers: the last addition can carry out of 32 bits. -/
theorem C33_bytepow_portable_false : ¬ ∀ n : BitVec 64, (Crc.bytepowPortable n).toNat ≡ 8 * n.toNat [MOD 2 ^ 32 - 1] := by
  intro h
  have := h 0x20000000FFFFFFFF#64
  revert this
  unfold Nat.ModEq
  decide +kernel

/-- C33 for that version, partial: lengths below `2^61`. -/
theorem C33_bytepow_portable_partial (n : BitVec 64) (h : n.toNat < 2 ^ 61) : (Crc.bytepowPortable n).toNat ≡ 8 * n.toNat [MOD 2 ^ 32 - 1] :=
  Crc.bytepowPortable_modEq n h

example := C33_bytepow_portable_partial 0x1fffffffffffffff#64 (by decide)

/-- The two loops of `crc32_shift` agree. -/
theorem C33_shift_portable (c n : BitVec 32) : Crc.shiftPortable c n = Crc.shift c n := Crc.shiftPortable_eq c n

/-! ### Large counts -/

/-- C34 as coded: only the low 32 bits of the count are used, as a signed number. -/
theorem C34_zeroes_truncates (n : Int) (rest : List Arg) :
    apiZeroes impl (.int n :: rest) = apiZeroes impl (.int (toInt32 n) :: rest) ∧
    apiShift impl (.int n :: rest) = apiShift impl (.int (toInt32 n) :: rest) := by
  have : toInt32 (toInt32 n) = toInt32 n := by
    unfold toInt32
    rw [BitVec.ofInt_toInt]
  simp only [Crc.apiZeroes, Crc.apiShift, argToInt, Outcome.bind, this, and_self]

/-- C34 is false: appending `2^32` null bytes by `crc32_zeroes` leaves the CRC of the empty buffer as it is, while the real CRC is
different; and a count of `2^31` has no defined outcome. -/
theorem C34_zeroes_large_false (hi : Crc.IsImpl impl) (addr : Nat) :
    (¬ ∀ n : Nat, apiZeroes impl [.int n] = apiCrc32 impl addr [.buffer (List.replicate n 0#8)]) ∧
    (∀ rest v, Crc.initArg 0 rest = .ret v → apiZeroes impl (.int (2 ^ 31) :: rest) = .ub) := by
  constructor
  · intro h
    obtain ⟨n, hn⟩ : ∃ n : Nat, n = 2 ^ 32 := ⟨_, rfl⟩
    have h1 := h n
    rw [(C34_zeroes_truncates _ _).1, Crc.apiCrc32_nil hi.correct] at h1
    have e : toInt32 (n : Int) = ((0 : Nat) : Int) := by rw [hn]; decide
    rw [e, Crc.apiZeroes_nonneg (Crc.initArg_nil _) 0 (by omega)] at h1
    injection h1 with h1
    have h2 := Crc.packCrc_inj h1
    have h3 := Crc.phi_not_crc1 0 (List.replicate n 0#8)
    rw [← h2, Crc.phi_zeros hi.correct, Crc.mu_zeros, List.length_replicate] at h3
    simp only [BitVec.toNat_ofNat, Nat.zero_mod, mul_zero, pow_zero, mul_one, zero_mul, add_zero] at h3
    have h4 : Crc.x ^ (8 * n) = Crc.x ^ 8 := Crc.x_pow_congr (by rw [hn]; unfold Nat.ModEq; norm_num)
    rw [h4, mul_comm, ← Crc.phi_advance] at h3
    exact absurd (Crc.phi_injective h3) (by decide +kernel)
  · intro rest v hv
    have e : toInt32 (2 ^ 31) = -2 ^ 31 := by decide
    simp only [Crc.apiZeroes, hv, Outcome.bind, argToInt, e, Crc.negInt]
    simp

/-! ### Error detection -/

/-- C35: a burst error of at most 32 bits (in transmission order) changes the CRC. -/
theorem C35_burst (hi : Crc.IsImpl impl) (addr addr' : Nat) (d e : List Byte) (p w w' s : List Bool)
    (hd : bitsOf d = p ++ w ++ s) (he : bitsOf e = p ++ w' ++ s) (hlen : w.length = w'.length) (h32 : w.length ≤ 32) (hne : w ≠ w') :
    apiCrc32 impl addr [.buffer d] ≠ apiCrc32 impl addr' [.buffer e] := by
  intro h
  rw [Crc.apiCrc32_nil hi.correct, Crc.apiCrc32_nil hi.correct] at h
  injection h with h
  have hl : d.length = e.length := by
    have h1 := Crc.bitsOf_length d
    have h2 := Crc.bitsOf_length e
    rw [hd] at h1
    rw [he] at h2
    simp only [List.length_append] at h1 h2
    omega
  have h3 := (Crc.crc1_eq_iff 0 d e hl).1 (Crc.packCrc_inj h)
  rw [hd, he, Crc.pi_append, Crc.pi_append, Crc.pi_append, Crc.pi_append, hlen] at h3
  apply hne
  apply Crc.pi_inj hlen h32
  apply Crc.x_pow_cancel (n := s.length)
  linear_combination h3

/-- Two bits of the second byte differ, and one of the third. -/
example := C35_burst (impl := Crc.genericImpl) .generic 0 0 [1#8, 2#8, 3#8] [1#8, 4#8, 2#8] (bitsOf [1#8]) (bitsOf [2#8, 3#8]) (bitsOf [4#8, 2#8]) [] (by decide) (by decide) (by decide) (by decide) (by decide)

/-- C35: any change inside 4 consecutive bytes (in particular to a single byte) changes the CRC. -/
theorem C35_burst_bytes (hi : Crc.IsImpl impl) (addr addr' : Nat) (p w w' s : List Byte) (hlen : w.length = w'.length) (h4 : w.length ≤ 4) (hne : w ≠ w') :
    apiCrc32 impl addr [.buffer (p ++ w ++ s)] ≠ apiCrc32 impl addr' [.buffer (p ++ w' ++ s)] :=
  C35_burst hi addr addr' _ _ (bitsOf p) (bitsOf w) (bitsOf w') (bitsOf s) (by simp [Crc.bitsOf_append]) (by simp [Crc.bitsOf_append])
    (by rw [Crc.bitsOf_length, Crc.bitsOf_length, hlen]) (by rw [Crc.bitsOf_length]; omega) (fun h => hne (Crc.bitsOf_inj h))

example : (bitsOf [0x80#8, 0x01#8] = [false, false, false, false, false, false, false] ++ [true, true] ++ [false, false, false, false, false, false, false]) ∧
    bitsOf [0x00#8, 0x00#8] = [false, false, false, false, false, false, false] ++ [false, false] ++ [false, false, false, false, false, false, false] := by decide

/-- C54: flipping any two bits less than `2^32 - 1` bits (512 MiB) apart changes the CRC. -/
theorem C54_two_bits (hi : Crc.IsImpl impl) (addr addr' : Nat) (d e : List Byte) (p m s : List Bool) (b c : Bool)
    (hd : bitsOf d = p ++ [b] ++ m ++ [c] ++ s) (he : bitsOf e = p ++ [!b] ++ m ++ [!c] ++ s) (hm : m.length + 1 < 2 ^ 32 - 1) :
    apiCrc32 impl addr [.buffer d] ≠ apiCrc32 impl addr' [.buffer e] := by
  intro h
  rw [Crc.apiCrc32_nil hi.correct, Crc.apiCrc32_nil hi.correct] at h
  injection h with h
  have hl : d.length = e.length := by
    have h1 := Crc.bitsOf_length d
    have h2 := Crc.bitsOf_length e
    rw [hd] at h1
    rw [he] at h2
    simp only [List.length_append, List.length_cons, List.length_nil] at h1 h2
    omega
  have h3 := (Crc.crc1_eq_iff 0 d e hl).1 (Crc.packCrc_inj h)
  have hs : ∀ b : Bool, Crc.pi [b] + Crc.pi [!b] = 1 := by
    intro b; cases b <;> simp [Crc.pi, polyOfBits]
  rw [hd, he] at h3
  simp only [Crc.pi_append, List.length_cons, List.length_nil, zero_add, pow_one] at h3
  have h4 : Crc.x ^ (m.length + 1) = 1 := by
    apply Crc.x_pow_cancel (n := s.length)
    have e1 := hs b
    have e2 := hs c
    linear_combination h3 - (Crc.x ^ (m.length + 1) * Crc.x ^ s.length) * e1 - Crc.x ^ s.length * e2
      + (Crc.x ^ (m.length + 1) * Crc.x ^ s.length * Crc.pi [!b] + Crc.x ^ s.length * Crc.pi [!c] - Crc.x ^ s.length) * Crc.two_eq_zero
  have h5 := Crc.x_pow_inj (m := m.length + 1) (n := 0) hm (by norm_num) (by rw [h4, pow_zero])
  omega

example := C54_two_bits (impl := Crc.genericImpl) .generic 0 0 [1#8, 2#8] [0#8, 3#8] [] ((bitsOf [1#8, 2#8]).drop 1 |>.take 7) ((bitsOf [1#8, 2#8]).drop 9) true false (by decide) (by decide) (by decide)

/-- C55: `crc32` is affine over exclusive or: for buffers of one length, the CRCs of three and of their exclusive or cancel. -/
theorem C55_affine (hi : Crc.IsImpl impl) (addr : Nat) (a b c ca cb cc : List Byte) (hab : a.length = b.length) (hbc : b.length = c.length)
    (ha : apiCrc32 impl addr [.buffer a] = .ret ca) (hb : apiCrc32 impl addr [.buffer b] = .ret cb) (hc : apiCrc32 impl addr [.buffer c] = .ret cc) :
    apiCrc32 impl addr [.buffer (xorBuf (xorBuf a b) c)] = .ret (xorBuf (xorBuf ca cb) cc) := by
  rw [Crc.apiCrc32_nil hi.correct] at ha hb hc ⊢
  injection ha with ha
  injection hb with hb
  injection hc with hc
  rw [← ha, ← hb, ← hc, ← Crc.packCrc_xor, ← Crc.packCrc_xor]
  congr 2
  have hmu : ∀ a b : List Byte, a.length = b.length → Crc.mu (xorBuf a b) = Crc.mu a + Crc.mu b := by
    intro a
    induction a with
    | nil => intro b hb; rw [List.length_eq_zero_iff.1 hb.symm]; simp [xorBuf]
    | cons x a ih =>
      intro b hb
      cases b with
      | nil => simp at hb
      | cons y b =>
        simp only [List.length_cons, Nat.add_right_cancel_iff] at hb
        have e : xorBuf (x :: a) (y :: b) = (x ^^^ y) :: xorBuf a b := rfl
        have hlx : (xorBuf a b).length = a.length := by simp [xorBuf, hb]
        rw [e, Crc.mu_cons, Crc.mu_cons, Crc.mu_cons, ih b hb, Crc.beta_xor, hlx, ← hb]; ring
  have hl : (xorBuf a b).length = a.length := by simp [xorBuf, hab]
  have hl2 : (xorBuf (xorBuf a b) c).length = a.length := by simp [xorBuf, hab, hbc]
  apply Crc.phi_injective
  have e1 := Crc.phi_not_crc1 0 a
  have e2 := Crc.phi_not_crc1 0 b
  have e3 := Crc.phi_not_crc1 0 c
  have e4 := Crc.phi_not_crc1 0 (xorBuf (xorBuf a b) c)
  rw [hmu _ _ (by omega), hmu _ _ hab, hl2] at e4
  rw [← hbc, ← hab] at e3
  rw [← hab] at e2
  rw [Crc.not_xor_not] at e1 e2 e3 e4
  rw [Crc.phi_xor, Crc.phi_xor]
  linear_combination e4 - e1 - e2 - e3 + (Crc.phi 0xffffffff#32 - Crc.phi (~~~(0 : BitVec 32)) * Crc.x ^ (8 * a.length)) * Crc.two_eq_zero

/-- C56: for fixed data, `crc32(data, ·)` is a bijection of the 4-byte Buffers: the result determines the initial value. -/
theorem C56_init_bijective (hi : Crc.IsImpl impl) (addr : Nat) (data : List Byte) (r : List Byte) (hr : r.length = 4) :
    ∃! i : List Byte, i.length = 4 ∧ apiCrc32 impl addr [.buffer data, .buffer i] = .ret r := by
  have hinj : Function.Injective (fun v => Crc.crc1 v data) := by
    intro v w h
    have h1 := Crc.phi_not_crc1 v data
    have h2 := Crc.phi_not_crc1 w data
    simp only at h
    rw [h] at h1
    apply BitVec.not_inj.1
    apply Crc.phi_injective
    apply Crc.x_pow_cancel (n := 8 * data.length)
    linear_combination h2 - h1
  obtain ⟨v, hv⟩ := Crc.crcBuf_exists hr
  have hsurj : ∃ u, Crc.crc1 u data = v := by
    -- undo the data: go back `8 * length` steps
    have hx : ∃ u, Crc.phi (~~~u) * Crc.x ^ (8 * data.length) = Crc.phi (~~~v) + Crc.mu data * Crc.x ^ 32 := by
      have hmu : ∃ w, Crc.phi w = Crc.mu data * Crc.x ^ 32 := ⟨data.foldl Crc.step 0, by
        have hz : Crc.phi 0 = 0 := Crc.phi_zero
        rw [Crc.phi_foldl_step, hz]; ring⟩
      obtain ⟨w, hw⟩ := hmu
      obtain ⟨k, hk⟩ : ∃ k, k = 8 * data.length % (2 ^ 32 - 1) := ⟨_, rfl⟩
      refine ⟨~~~(Crc.shift (~~~v ^^^ w) (~~~(BitVec.ofNat 32 k))), ?_⟩
      rw [BitVec.not_not, Crc.phi_shift, ← hw, ← Crc.phi_xor]
      have := Crc.x_pow_not (BitVec.ofNat 32 k)
      rw [show (BitVec.ofNat 32 k).toNat = k by rw [BitVec.toNat_ofNat]; omega,
        Crc.x_pow_congr (m := k) (n := 8 * data.length) (by unfold Nat.ModEq; omega)] at this
      rw [mul_assoc, this, mul_one]
    obtain ⟨u, hu⟩ := hx
    refine ⟨u, BitVec.not_inj.1 (Crc.phi_injective ?_)⟩
    rw [Crc.phi_not_crc1, hu]
    linear_combination (Crc.mu data * Crc.x ^ 32) * Crc.two_eq_zero
  obtain ⟨u, hu⟩ := hsurj
  refine ⟨Crc.packCrc u, ⟨rfl, ?_⟩, ?_⟩
  · rw [Crc.apiCrc32_init hi.correct _ _ (Crc.packCrc_buf u), hu, hv.pack]
  · rintro i ⟨hi1, hi2⟩
    obtain ⟨w, hw⟩ := Crc.crcBuf_exists hi1
    rw [Crc.apiCrc32_init hi.correct _ _ hw, ← hv.pack] at hi2
    injection hi2 with hi2
    have h3 : Crc.crc1 w data = Crc.crc1 u data := (Crc.packCrc_inj hi2).trans hu.symm
    rw [hinj h3] at hw
    exact hw.unique (Crc.packCrc_buf u)

example := C56_init_bijective (impl := Crc.genericImpl) .generic 0 [1#8, 2#8] [1#8, 2#8, 3#8, 4#8] rfl

/-- C57: `crc32_shift(n)`, `-2^31 < n < 2^31`, takes every non-zero 4-byte value exactly once. -/
theorem C57_shift_enumerates (hi : Crc.IsImpl impl) (b : List Byte) (hb : b.length = 4) (hne : b ≠ [0, 0, 0, 0]) :
    ∃! n : Int, -2 ^ 31 < n ∧ n < 2 ^ 31 ∧ apiShift impl [.int n] = .ret b := by
  obtain ⟨v, hv⟩ := Crc.crcBuf_exists hb
  have hzero : CrcBuf [0, 0, 0, 0] 0#32 := ⟨rfl, by decide⟩
  have hv0 : v ≠ 0#32 := by rintro rfl; exact hne (hv.unique hzero)
  obtain ⟨k, hk⟩ := Crc.exists_pow v hv0
  have key : ∀ n : Int, -2 ^ 31 < n → n < 2 ^ 31 →
      (apiShift impl [.int n] = .ret b ↔ Crc.x ^ n.toNat = Crc.x ^ (k + (-n).toNat)) := by
    intro n h1 h2
    obtain ⟨r, hr1, hr2⟩ := Crc.apiShift_spec hi.correct (Crc.initArg_nil 0x80000000#32) n h1 h2
    rw [Crc.phi_one, one_mul] at hr2
    rw [hr1, ← hv.pack]
    constructor
    · intro h
      injection h with h
      rw [Crc.packCrc_inj h, hk] at hr2
      rw [pow_add, hr2]
    · intro h
      congr 2
      apply Crc.phi_injective
      apply Crc.x_pow_cancel (n := (-n).toNat)
      rw [hr2, h, hk, pow_add]
  have hmod : ∀ a b : Nat, Crc.x ^ a = Crc.x ^ b ↔ a % (2 ^ 32 - 1) = b % (2 ^ 32 - 1) := by
    intro a b
    constructor
    · intro h
      have ha := Crc.x_pow_congr (Nat.mod_modEq a (2 ^ 32 - 1))
      have hb := Crc.x_pow_congr (Nat.mod_modEq b (2 ^ 32 - 1))
      exact Crc.x_pow_inj (Nat.mod_lt _ (by norm_num)) (Nat.mod_lt _ (by norm_num)) (by rw [ha, hb, h])
    · intro h; exact Crc.x_pow_congr h
  have ex : ∃ n : Int, -2 ^ 31 < n ∧ n < 2 ^ 31 ∧ (n.toNat % (2 ^ 32 - 1) = (k + (-n).toNat) % (2 ^ 32 - 1)) := by
    by_cases hlt : k % (2 ^ 32 - 1) < 2 ^ 31
    · exact ⟨(k % (2 ^ 32 - 1) : Nat), by omega, by omega, by omega⟩
    · exact ⟨(k % (2 ^ 32 - 1) : Nat) - (2 ^ 32 - 1), by omega, by omega, by omega⟩
  obtain ⟨n, h1, h2, h3⟩ := ex
  refine ⟨n, ⟨h1, h2, (key n h1 h2).2 ((hmod _ _).2 h3)⟩, ?_⟩
  rintro m ⟨m1, m2, m3⟩
  have m4 := (hmod _ _).1 ((key m m1 m2).1 m3)
  omega

example : apiShift Crc.genericImpl [.int (-1)] = .ret [0xdb#8, 0x71#8, 0x06#8, 0x41#8] := by decide +kernel

/-- C59: the library functions `crc32_2pow(n)` and `crc32_256pow(n)` are `X^n` (for negative `n`, its inverse) and `X^(8n)`. -/
theorem C59_powers (hi : Crc.IsImpl impl) (n : Int) (h1 : -2 ^ 63 < n) (h2 : n < 2 ^ 63) (m : BitVec 64) :
    (∃ r, Crc.pow2 impl n = some r ∧ (toPoly r * X ^ (-n).toNat) %ₘ crcP = X ^ n.toNat %ₘ crcP) ∧
    toPoly (Crc.pow256 impl m) = X ^ (8 * m.toNat) %ₘ crcP := by
  constructor
  · rw [Crc.pow2, if_neg (by omega)]
    refine ⟨_, rfl, ?_⟩
    rw [← Crc.mk_eq_iff]
    simp only [map_mul, map_pow, Crc.mk_toPoly, AdjoinRoot.mk_X, hi.correct.shift, Crc.phi_one, one_mul]
    have e : (BitVec.ofNat 64 n.natAbs).toNat = n.natAbs := by rw [BitVec.toNat_ofNat]; omega
    rcases lt_or_ge n 0 with hn | hn
    · rw [if_pos hn, show (4294967295#32) = BitVec.allOnes 32 from rfl, BitVec.xor_allOnes,
        show (-n).toNat = n.natAbs by omega, show n.toNat = 0 by omega, pow_zero]
      have := Crc.x_pow_not (Crc.powmod (BitVec.ofNat 64 n.natAbs))
      rwa [Crc.x_pow_powmod, e] at this
    · rw [if_neg (by omega), show (-n).toNat = 0 by omega, show n.toNat = n.natAbs by omega, pow_zero, mul_one]
      rw [show ∀ v : BitVec 32, v ^^^ (0 : BitVec 32) = v from fun v => by simp, Crc.x_pow_powmod, e]
  · rw [← Crc.toPoly_mod (Crc.pow256 impl m), ← Crc.mk_eq_iff]
    simp only [map_pow, Crc.mk_toPoly, AdjoinRoot.mk_X, Crc.pow256, hi.correct.shift, Crc.phi_one, one_mul, Crc.x_pow_bytepow]

example : Crc.pow2 Crc.genericImpl (-1) = some 0xDB710641#32 := by decide +kernel

/-- C58: calls with missing or wrongly sized CRC Buffers throw; they never read outside a Buffer. -/
theorem C58_bad_crc_arguments (addr : Nat) (data b c : List Byte) (n : Int) (hb : b.length ≠ 4) (a : Arg) (rest : List Arg)
    (ha : ∀ d, a ≠ .buffer d) :
    (∃ m, apiCrc32 impl addr [] = .throw m) ∧ (∃ m, apiCrc32 impl addr (a :: rest) = .throw m) ∧
    (∃ m, apiCrc32 impl addr (.buffer data :: a :: rest) = .throw m) ∧ (∃ m, apiCrc32 impl addr (.buffer data :: .buffer b :: rest) = .throw m) ∧
    (∃ m, apiCombine impl [.buffer b, .buffer c, .int n] = .throw m) ∧ (∃ m, apiCombine impl [.buffer c, .buffer b, .int n] = .throw m) ∧
    (∃ m, apiCombine impl [.buffer b, .buffer c] = .throw m) ∧
    (∃ m, apiMultiply impl [.buffer b, .buffer c] = .throw m) ∧ (∃ m, apiMultiply impl [.buffer c, .buffer b] = .throw m) ∧
    (∃ m, apiMultiply impl [.buffer c] = .throw m) ∧
    (∃ m, apiZeroes impl [] = .throw m) ∧ (∃ m, apiZeroes impl [.int n, .buffer b] = .throw m) ∧
    (∃ m, apiShift impl [] = .throw m) ∧ (∃ m, apiShift impl [.int n, .buffer b] = .throw m) := by
  have ha' : ∀ d rest, Crc.initArg d (a :: rest) = .throw "Second argument must be a 4 byte buffer" := by
    intro d rest; cases a <;> simp [Crc.initArg] at ha ⊢
  have ha2 : apiCrc32 impl addr (a :: rest) = .throw "You must supply a Buffer" := by
    cases a <;> simp [Crc.apiCrc32] at ha ⊢
  refine ⟨⟨_, rfl⟩, ⟨_, ha2⟩, ⟨_, by simp only [Crc.apiCrc32, ha', Outcome.bind]; rfl⟩, ?_, ?_, ?_, ?_, ?_, ?_, ?_, ⟨_, rfl⟩, ?_, ⟨_, rfl⟩, ?_⟩ <;>
    simp [Crc.apiCrc32, Crc.apiCombine, Crc.apiMultiply, Crc.apiZeroes, Crc.apiShift, Crc.twoCrcs, Crc.initArg, hb, ha', Outcome.bind]

example := C58_bad_crc_arguments (impl := Crc.genericImpl) 0 [1#8] [1#8, 2#8, 3#8] [1#8, 2#8, 3#8, 4#8] 5 (by decide) (.int 1) [] (by intro d h; cases h)

end Yenc.Props
