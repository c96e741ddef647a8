import Verif.Lemmas.CrcField
import Verif.Model.CrcBindings
import Verif.Lemmas.Api
/-! The CRC entry points, reduced to ring computations. -/
namespace Yenc.Crc
open Polynomial Yenc.Spec

/-- What an implementation has to satisfy. -/
structure Correct (impl : Impl) : Prop where
  incr : ∀ addr data init, ∃ r, impl.incr addr data init = some r ∧ IsCrc32 init data r
  multiply : ∀ a b, phi (impl.multiply a b) = phi a * phi b
  shift : ∀ a n, phi (impl.shift a n) = phi a * x ^ n.toNat

theorem generic_correct : Correct genericImpl := ⟨generic_spec, phi_multiply, phi_shift⟩

/-- The CRC, one byte at a time. -/
def crc1 (init : U32) (data : List Byte) : U32 := ~~~(data.foldl step (~~~init))

theorem crc1_spec (init : U32) (data : List Byte) : IsCrc32 init data (crc1 init data) := by
  rw [isCrc32_iff, crc1, BitVec.not_not, phi_foldl_step]

theorem phi_not_crc1 (init : U32) (data : List Byte) :
    phi (~~~(crc1 init data)) = phi (~~~init) * x ^ (8 * data.length) + mu data * x ^ 32 :=
  (isCrc32_iff _ _ _).1 (crc1_spec init data)

theorem isCrc32_iff_eq {init r : U32} {data : List Byte} : IsCrc32 init data r ↔ r = crc1 init data :=
  ⟨fun h => isCrc32_unique h (crc1_spec _ _), fun h => h ▸ crc1_spec _ _⟩

theorem Correct.incr_eq {impl : Impl} (h : Correct impl) (addr : Nat) (data : List Byte) (init : U32) :
    impl.incr addr data init = some (crc1 init data) := by
  obtain ⟨r, h1, h2⟩ := h.incr addr data init
  rw [h1, isCrc32_iff_eq.1 h2]

theorem crc1_append (init : U32) (a b : List Byte) : crc1 (crc1 init a) b = crc1 init (a ++ b) := by
  unfold crc1; rw [BitVec.not_not, List.foldl_append]

theorem not_xor_not (v : U32) : phi (~~~v) = phi v + phi 0xffffffff#32 := by
  rw [← phi_xor]; congr 1
  rw [show 0xffffffff#32 = BitVec.allOnes 32 from rfl, BitVec.xor_allOnes]

/-! ### Buffers -/

theorem toNat_disj (a b c d : Nat) (ha : a < 256) (hb : b < 256) (hc : c < 256) (hd : d < 256) :
    a <<< 24 % 2 ^ 32 ||| b <<< 16 % 2 ^ 32 ||| c <<< 8 % 2 ^ 32 ||| d = 256 * (256 * (256 * a + b) + c) + d := by
  simp only [Nat.shiftLeft_eq]
  rw [show a * 2 ^ 24 % 2 ^ 32 = 2 ^ 24 * a by omega, show b * 2 ^ 16 % 2 ^ 32 = 2 ^ 16 * b by omega,
    show c * 2 ^ 8 % 2 ^ 32 = 2 ^ 8 * c by omega, ← Nat.two_pow_add_eq_or_of_lt (by omega),
    show 2 ^ 24 * a + 2 ^ 16 * b = 2 ^ 16 * (2 ^ 8 * a + b) by omega, ← Nat.two_pow_add_eq_or_of_lt (by omega),
    show 2 ^ 16 * (2 ^ 8 * a + b) + 2 ^ 8 * c = 2 ^ 8 * (2 ^ 8 * (2 ^ 8 * a + b) + c) by omega, ← Nat.two_pow_add_eq_or_of_lt (by omega)]
  omega

theorem readCrc_eq {b : List Byte} {v : U32} (h : CrcBuf b v) : readCrc b = .ret v := by
  obtain ⟨h1, h2⟩ := h
  rcases b with _ | ⟨a, _ | ⟨b, _ | ⟨c, _ | ⟨d, _ | ⟨e, l⟩⟩⟩⟩⟩ <;> simp at h1
  rw [readCrc]
  congr 1
  apply BitVec.eq_of_toNat_eq
  rw [← h2]
  simp only [BitVec.toNat_or, BitVec.toNat_shiftLeft, BitVec.toNat_setWidth]
  have ha := a.isLt
  have hb := b.isLt
  have hc := c.isLt
  have hd := d.isLt
  rw [Nat.mod_eq_of_lt (show a.toNat < 2 ^ 32 by omega), Nat.mod_eq_of_lt (show b.toNat < 2 ^ 32 by omega),
    Nat.mod_eq_of_lt (show c.toNat < 2 ^ 32 by omega), Nat.mod_eq_of_lt (show d.toNat < 2 ^ 32 by omega), toNat_disj _ _ _ _ ha hb hc hd]
  simp [beValue]

theorem crcBuf_exists {b : List Byte} (h : b.length = 4) : ∃ v, CrcBuf b v := by
  rcases b with _ | ⟨a, _ | ⟨b, _ | ⟨c, _ | ⟨d, _ | ⟨e, l⟩⟩⟩⟩⟩ <;> simp at h
  refine ⟨BitVec.ofNat 32 (beValue [a, b, c, d]), rfl, ?_⟩
  rw [BitVec.toNat_ofNat, Nat.mod_eq_of_lt]
  have ha := a.isLt
  have hb := b.isLt
  have hc := c.isLt
  have hd := d.isLt
  simp only [beValue, List.foldl_cons, List.foldl_nil]
  omega

theorem packCrc_buf (v : U32) : CrcBuf (packCrc v) v := by
  refine ⟨rfl, ?_⟩
  have := v.isLt
  simp only [packCrc, beValue, List.foldl_cons, List.foldl_nil, BitVec.toNat_setWidth, BitVec.toNat_ushiftRight, Nat.shiftRight_eq_div_pow]
  omega

theorem _root_.Yenc.Spec.CrcBuf.unique {b c : List Byte} {v : U32} (hb : CrcBuf b v) (hc : CrcBuf c v) : b = c := by
  obtain ⟨h1, h2⟩ := hb
  obtain ⟨h3, h4⟩ := hc
  rcases b with _ | ⟨a, _ | ⟨b, _ | ⟨c', _ | ⟨d, _ | ⟨e, l⟩⟩⟩⟩⟩ <;> simp at h1
  rcases c with _ | ⟨a', _ | ⟨b', _ | ⟨c, _ | ⟨d', _ | ⟨e, l⟩⟩⟩⟩⟩ <;> simp at h3
  rw [← h4] at h2
  simp only [beValue, List.foldl_cons, List.foldl_nil] at h2
  have := a.isLt
  have := b.isLt
  have := c'.isLt
  have := d.isLt
  have := a'.isLt
  have := b'.isLt
  have := c.isLt
  have := d'.isLt
  have e1 : a = a' := BitVec.eq_of_toNat_eq (by omega)
  have e2 : b = b' := BitVec.eq_of_toNat_eq (by omega)
  have e3 : c' = c := BitVec.eq_of_toNat_eq (by omega)
  have e4 : d = d' := BitVec.eq_of_toNat_eq (by omega)
  rw [e1, e2, e3, e4]

theorem _root_.Yenc.Spec.CrcBuf.pack {b : List Byte} {v : U32} (h : CrcBuf b v) : packCrc v = b := (packCrc_buf v).unique h

theorem _root_.Yenc.Spec.CrcBuf.val_unique {b : List Byte} {v w : U32} (h : CrcBuf b v) (h' : CrcBuf b w) : v = w :=
  BitVec.eq_of_toNat_eq (h.2.symm.trans h'.2)

theorem packCrc_inj {v w : U32} (h : packCrc v = packCrc w) : v = w :=
  (packCrc_buf v).val_unique (h ▸ packCrc_buf w)

theorem packCrc_xor (v w : U32) : packCrc (v ^^^ w) = xorBuf (packCrc v) (packCrc w) := by
  simp only [packCrc, xorBuf, List.zipWith_cons_cons, List.zipWith_nil_right, BitVec.ushiftRight_xor_distrib, BitVec.setWidth_xor]

/-! ### Entry points -/

theorem initArg_nil (d : U32) : initArg d [] = .ret d := rfl
theorem initArg_buf (d : U32) {b : List Byte} {v : U32} (h : CrcBuf b v) (rest : List Arg) : initArg d (.buffer b :: rest) = .ret v := by
  rw [initArg, if_neg (by simp [h.1]), readCrc_eq h]

variable {impl : Impl}

theorem apiCrc32_nil (h : Correct impl) (addr : Nat) (data : List Byte) :
    apiCrc32 impl addr [.buffer data] = .ret (packCrc (crc1 0 data)) := by
  simp [apiCrc32, initArg, Outcome.bind, h.incr_eq]

theorem apiCrc32_init (h : Correct impl) (addr : Nat) (data : List Byte) {b : List Byte} {v : U32} (hb : CrcBuf b v) (rest : List Arg) :
    apiCrc32 impl addr (.buffer data :: .buffer b :: rest) = .ret (packCrc (crc1 v data)) := by
  simp [apiCrc32, initArg_buf _ hb, Outcome.bind, h.incr_eq]

theorem twoCrcs_eq {a b : List Byte} {v w : U32} (ha : CrcBuf a v) (hb : CrcBuf b w) (rest : List Arg) :
    twoCrcs (.buffer a :: .buffer b :: rest) = .ret (v, w) := by
  simp [twoCrcs, ha.1, hb.1, readCrc_eq ha, readCrc_eq hb, Outcome.bind]

theorem apiCombine_eq {a b : List Byte} {v w : U32} (ha : CrcBuf a v) (hb : CrcBuf b w) (n : Int) (rest : List Arg) :
    apiCombine impl (.buffer a :: .buffer b :: .int n :: rest) = .ret (packCrc (combine impl v w (BitVec.ofInt 64 n))) := by
  unfold apiCombine
  rw [if_neg (by simp), twoCrcs_eq ha hb]
  simp [Outcome.bind, argToInt]

theorem apiMultiply_eq {a b : List Byte} {v w : U32} (ha : CrcBuf a v) (hb : CrcBuf b w) (rest : List Arg) :
    apiMultiply impl (.buffer a :: .buffer b :: rest) = .ret (packCrc (impl.multiply v w)) := by
  unfold apiMultiply
  rw [if_neg (by simp), twoCrcs_eq ha hb]
  simp [Outcome.bind]

theorem toNat_ofInt64 (n : Nat) (h : n < 2 ^ 64) : (BitVec.ofInt 64 (n : Int)).toNat = n := by
  rw [BitVec.toNat_ofInt]; omega

/-- `zeros` and `unzero`, in the ring. -/
theorem phi_zeros (h : Correct impl) (c : U32) (n : U64) : phi (~~~(zeros impl c n)) = phi (~~~c) * x ^ (8 * n.toNat) := by
  unfold zeros; rw [BitVec.not_not, h.shift, x_pow_bytepow]

theorem phi_unzero (h : Correct impl) (c : U32) (n : U64) : phi (~~~(unzero impl c n)) * x ^ (8 * n.toNat) = phi (~~~c) := by
  unfold unzero; rw [BitVec.not_not, h.shift, ← x_pow_bytepow, mul_assoc, x_pow_not, mul_one]

theorem phi_combine (h : Correct impl) (a b : U32) (n : U64) : phi (combine impl a b n) = phi a * x ^ (8 * n.toNat) + phi b := by
  unfold combine; rw [phi_xor, h.shift, x_pow_bytepow]

theorem initArg_pos (d : U32) {b : List Byte} {v : U32} (h : CrcBuf b v) : initArg d [.buffer b] = .ret v := initArg_buf d h []

theorem apiZeroes_nonneg {rest : List Arg} {v : U32} (hi : initArg 0 rest = .ret v) (n : Nat) (hn : n < 2 ^ 31) :
    apiZeroes impl (.int n :: rest) = .ret (packCrc (zeros impl v (BitVec.ofNat 64 n))) := by
  simp only [apiZeroes, hi, Outcome.bind, argToInt]
  rw [toInt32_of_range (n : Int) (by omega) (by omega), if_neg (by omega)]
  congr 3

theorem apiZeroes_neg {rest : List Arg} {v : U32} (hi : initArg 0 rest = .ret v) (n : Nat) (h0 : 0 < n) (hn : n < 2 ^ 31) :
    apiZeroes impl (.int (-n) :: rest) = .ret (packCrc (unzero impl v (BitVec.ofNat 64 n))) := by
  simp only [apiZeroes, hi, Outcome.bind, argToInt]
  rw [toInt32_of_range (-(n : Int)) (by omega) (by omega), if_pos (by omega), negInt, if_neg (by omega)]
  simp only [neg_neg]
  congr 3

theorem apiShift_nonneg {rest : List Arg} {v : U32} (hi : initArg 0x80000000#32 rest = .ret v) (n : Nat) (hn : n < 2 ^ 31) :
    apiShift impl (.int n :: rest) = .ret (packCrc (impl.shift v (powmod (BitVec.ofNat 64 n)))) := by
  simp only [apiShift, hi, Outcome.bind, argToInt]
  rw [toInt32_of_range (n : Int) (by omega) (by omega), if_neg (by omega)]
  congr 3

theorem apiShift_neg {rest : List Arg} {v : U32} (hi : initArg 0x80000000#32 rest = .ret v) (n : Nat) (h0 : 0 < n) (hn : n < 2 ^ 31) :
    apiShift impl (.int (-n) :: rest) = .ret (packCrc (impl.shift v (~~~(powmod (BitVec.ofNat 64 n))))) := by
  simp only [apiShift, hi, Outcome.bind, argToInt]
  rw [toInt32_of_range (-(n : Int)) (by omega) (by omega), if_pos (by omega), negInt, if_neg (by omega)]
  simp only [neg_neg]
  congr 3

/-- `crc32_shift(n, c)` for every `n` in range: multiplication by a possibly negative power of `x`. -/
theorem apiShift_spec (h : Correct impl) {rest : List Arg} {v : U32} (hi : initArg 0x80000000#32 rest = .ret v) (n : Int)
    (h1 : -2 ^ 31 < n) (h2 : n < 2 ^ 31) :
    ∃ r, apiShift impl (.int n :: rest) = .ret (packCrc r) ∧ phi r * x ^ (-n).toNat = phi v * x ^ n.toNat := by
  rcases lt_or_ge n 0 with hn | hn
  · obtain ⟨m, rfl⟩ : ∃ m : Nat, n = -m := ⟨n.natAbs, by omega⟩
    refine ⟨_, apiShift_neg hi m (by omega) (by omega), ?_⟩
    rw [h.shift]
    simp only [neg_neg, Int.toNat_natCast, Int.toNat_neg_natCast, pow_zero, mul_one]
    have := x_pow_not (powmod (BitVec.ofNat 64 m))
    rw [x_pow_powmod, BitVec.toNat_ofNat, Nat.mod_eq_of_lt (by omega)] at this
    rw [mul_assoc, this, mul_one]
  · obtain ⟨m, rfl⟩ : ∃ m : Nat, n = m := ⟨n.natAbs, by omega⟩
    refine ⟨_, apiShift_nonneg hi m (by omega), ?_⟩
    rw [h.shift, x_pow_powmod, BitVec.toNat_ofNat, Nat.mod_eq_of_lt (by omega)]
    simp

theorem x_pow_cancel {a b : R} {n : Nat} (h : a * x ^ n = b * x ^ n) : a = b := (isUnit_x.pow n).mul_right_cancel h

/-- Zero bytes only multiply. -/
theorem mu_zeros (n : Nat) : mu (List.replicate n 0#8) = 0 := by
  induction n with
  | zero => rfl
  | succ n ih => rw [List.replicate_succ, mu_cons, ih, beta_zero]; ring

theorem zeros_eq (h : Correct impl) (c : U32) (a : List Byte) (n : U64) :
    zeros impl (crc1 c a) n = crc1 c (a ++ List.replicate n.toNat 0#8) := by
  have : ~~~(zeros impl (crc1 c a) n) = ~~~(crc1 c (a ++ List.replicate n.toNat 0#8)) := by
    apply phi_injective
    rw [phi_zeros h, phi_not_crc1, phi_not_crc1, mu_append, mu_zeros, List.length_append, List.length_replicate]
    ring
  exact BitVec.not_inj.1 this

theorem unzero_zeros (h : Correct impl) (c : U32) (n : U64) : unzero impl (zeros impl c n) n = c := by
  have : ~~~(unzero impl (zeros impl c n) n) = ~~~c := by
    apply phi_injective
    apply x_pow_cancel (n := 8 * n.toNat)
    rw [phi_unzero h, phi_zeros h]
  exact BitVec.not_inj.1 this

theorem zeros_unzero (h : Correct impl) (c : U32) (n : U64) : zeros impl (unzero impl c n) n = c := by
  have : ~~~(zeros impl (unzero impl c n) n) = ~~~c := by
    apply phi_injective
    rw [phi_zeros h, phi_unzero h]
  exact BitVec.not_inj.1 this

end Yenc.Crc
