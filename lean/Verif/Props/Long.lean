import Verif.Lemmas.Long
/-!
C75: Buffers of 2 GiB and more where a `long` has 32 bits and `size_t` 64, as on 64-bit Windows.  (`crc32` there: C62.)

`IsImplL L I I'` says that `I` is one of the implementations with a sufficient `long`, the ones all other properties are about, and `I'` the same source code with a `long` of `L` bits.
-/
namespace Yenc.Props
open Yenc

/-- C75 for encoding, Buffers up to `2^(L-1) - 1` bytes (2 GiB less one byte on Windows): `encode`, `encodeTo` and the incremental encoder give what they give with a sufficient `long`.
Partial: longer Buffers, see `C75_encode_x86` and `C75_encode_false`. -/
theorem C75_encode_partial (L : Nat) (hL : 0 < L) {I I' : Enc.Impl} (hI : Enc.IsImplL L I I') (data : List Byte) (hd : data.length < 2 ^ (L - 1)) (rest : List Arg) :
    Enc.apiEncode I' (.buffer data :: rest) = Enc.apiEncode I (.buffer data :: rest) ∧ Enc.apiEncodeTo I' (.buffer data :: rest) = Enc.apiEncodeTo I (.buffer data :: rest) ∧
      Enc.apiEncodeIncr I' (.buffer data :: rest) = Enc.apiEncodeIncr I (.buffer data :: rest) := by
  have hr : ∀ ls col fin size, Enc.runInto I' ls col data fin size = Enc.runInto I ls col data fin size := by
    intro ls col fin size
    simp only [Enc.runInto, hI.eq hL _ _ _ _ hd]
  refine ⟨by simp only [Enc.apiEncode, hr], ?_, ?_⟩
  · rcases rest with _ | ⟨a, rest⟩
    · rfl
    · cases a <;> simp only [Enc.apiEncodeTo, hr]
  · rcases rest with _ | ⟨a, rest⟩
    · simp only [Enc.apiEncodeIncr, hr]
    · cases a <;> simp only [Enc.apiEncodeIncr, hr]

/-- C75 for encoding on x86 (SSE2 to VBMI2) with line sizes from 16 on: Buffers of every length are encoded as the reference does, whatever the size of a `long` (9 bits suffice: only what the
kernel leaves over is indexed by a `long`). -/
theorem C75_encode_x86 (L : Nat) (hL : 9 ≤ L) {I I' : Enc.Impl} (hI : Enc.IsX86L L I I') (data : List Byte) (ls col : Nat) (h1 : 16 ≤ ls) (h2 : ls ≤ 2147483647) (h3 : col < ls) :
    Enc.apiEncode I' [.buffer data, .int ls, .int col] = .ret (Spec.encode ls true col data) := by
  rw [← Enc.apiEncode_eq hI.correct ls col data (by omega) (by omega) h3]
  have hr : ∀ fin size, Enc.runInto I' ls col data fin size = Enc.runInto I ls col data fin size := by
    intro fin size
    simp only [Enc.runInto, hI.eq hL ls col (by omega)]
  simp only [Enc.apiEncode, Enc.lineArgs_eq ls col (by omega) (by omega) h3, Outcome.bind, hr]

/-- C75 for decoding, Buffers up to `2^(L-1) - 1` bytes: `decodeTo` and `decodeChunk` do to memory what they do with a sufficient `long`.  Partial: longer Buffers, see
`C75_decode_false`. -/
theorem C75_decode_partial (L : Nat) (hL : 0 < L) {I I' : Dec.M.Impl} (hI : Dec.Simd.IsImplL L I I') (m : Mem) (data output : Dec.M.View) (hd : data.len < 2 ^ (L - 1)) :
    (∀ strip, Dec.M.decodeTo I' m data output strip = Dec.M.decodeTo I m data output strip) ∧ ∀ prev, Dec.M.decodeChunk I' m data output prev = Dec.M.decodeChunk I m data output prev := by
  have h := hI.eq hL data.len hd
  constructor
  · intro strip
    unfold Dec.M.decodeTo
    cases strip <;> simp only [h.plain, h.raw, if_true, if_false, Bool.false_eq_true]
  · intro prev
    simp only [Dec.M.decodeChunk, h.endRaw]

/-- C75 is false for encoding: with a `long` of 32 bits the portable encoder, and the x86 ones for line sizes below 16, have undefined behaviour for every Buffer from 2 GiB to
4 GiB less one byte; and of a Buffer of 4 GiB and less than 2 GiB more the portable encoder encodes only what exceeds 4 GiB. -/
theorem C75_encode_false :
    (∀ (data : List Byte) (ls col : Nat), 1 ≤ ls → ls < 2 ^ 31 → col < ls → 2 ^ 31 ≤ data.length → data.length < 2 ^ 32 →
      Enc.apiEncode (Enc.genericL 32) [.buffer data, .int ls, .int col] = .ub ∧
        ∀ I I', Enc.IsX86L 32 I I' → ls < 16 → Enc.apiEncode I' [.buffer data, .int ls, .int col] = .ub) ∧
    ∀ (s t : List Byte) (ls col : Nat), 1 ≤ ls → ls ≤ 2147483641 → col < ls → s.length = 2 ^ 32 → t.length < 2 ^ 31 → t ≠ [] →
      Enc.apiEncode (Enc.genericL 32) [.buffer (s ++ t), .int ls, .int col] = .ret (Spec.encode ls true col t) := by
  constructor
  · intro data ls col h1 h2 h3 h4 h5
    have hne : data ≠ [] := by rintro rfl; simp at h4
    have hg := Enc.genericL_none ls col data h4 h5
    constructor
    · simp only [Enc.apiEncode, hne, if_false, Enc.lineArgs_eq ls col h1 h2 h3, Outcome.bind, Enc.runInto, hg]
    · intro I I' hI h6
      simp only [Enc.apiEncode, hne, if_false, Enc.lineArgs_eq ls col h1 h2 h3, Outcome.bind, Enc.runInto, hI.none ls col data (by omega) h4 h5]
  · intro s t ls col h1 h2 h3 h4 h5 h6
    have hne : s ++ t ≠ [] := by simp [h6]
    have hg : ∀ size, Enc.runInto (Enc.genericL 32) ls col (s ++ t) true size = Enc.runInto Enc.encodeGeneric ls col t true size := by
      intro size
      simp only [Enc.runInto, Enc.genericL_above ls col s t true h4 h5]
    have hm : yencMaxSize t.length ls ≤ yencMaxSize (s ++ t).length ls := by
      rw [yencMaxSize_eq, yencMaxSize_eq, List.length_append]
      have := Nat.div_le_div_right (c := ls) (show 2 * t.length ≤ 2 * (s.length + t.length) by omega)
      omega
    obtain ⟨c, e, -⟩ := Enc.runInto_eq Enc.generic_correct ls col t true h1 (by omega) h3 h6 _ hm
    simp only [Enc.apiEncode, hne, if_false, Enc.lineArgs_eq ls col h1 (by omega) h3, Outcome.bind, Int.toNat_natCast, hg, e]

/-- C75 is false for decoding: with a `long` of 32 bits, `decodeTo` has undefined behaviour for every Buffer from 2 GiB plus twice the vector width to 4 GiB less one byte with all vectorised decoders, with and
without dot stripping; the portable decoder reports that nothing was decoded, and leaves the output as it was. -/
theorem C75_decode_false (m : Mem) (data output : Dec.M.View) (ho : data.len ≤ output.len) (h2 : data.len < 2 ^ 32) :
    (∀ (I I' : Dec.M.Impl) (w : Nat), Dec.Simd.IsSimdL 32 I I' w → 2 ^ 31 + 2 * w + 1 ≤ data.len → ∀ strip, Dec.M.decodeTo I' m data output strip = .ub) ∧
      (2 ^ 31 < data.len → Dec.M.decodeTo (Dec.Simd.genericL 32) m data output false = .ret (0, m) ∧ Dec.M.decodeTo (Dec.Simd.genericL 32) m data output true = .ub) := by
  constructor
  · intro I I' w hI h1 strip
    obtain ⟨hp, hr⟩ := hI.none m data.addr output.addr data.len h1 h2
    unfold Dec.M.decodeTo
    rw [if_neg (by omega), if_neg (by omega)]
    cases strip
    · simp only [Bool.false_eq_true, if_false, hp]
    · simp only [if_true, hr]
  · intro h1
    have hk := Dec.Simd.toLong_neg data.len (by omega) h2
    have hs : ∀ md st, Dec.Simd.scalarL 32 md m data.addr output.addr data.len st = _ := fun md st => by
      unfold Dec.Simd.scalarL
      simp only [hk]
      rw [if_neg (by omega), if_neg (by omega), if_neg (by omega)]
    unfold Dec.M.decodeTo
    rw [if_neg (by omega), if_neg (by omega)]
    refine ⟨?_, ?_⟩
    · simp only [Bool.false_eq_true, if_false, Dec.Simd.genericL, hs, Option.map_some, Nat.sub_self]; rfl
    · rw [if_neg (by omega), if_neg (by omega)]
      simp only [if_true, Dec.Simd.genericL, hs]; rfl

-- there are such implementations and Buffers: AVX2, and 3 GiB (for `C75_encode_partial` and `C75_decode_partial`: 1 GiB)
example : Enc.IsX86L 32 (Enc.Simd.encode (Enc.Simd.run (Enc.Simd.X86.avx2 ⟨false, false, false, true⟩)) fun _ => 0#8)
    (Enc.Simd.encodeL 32 (Enc.Simd.run (Enc.Simd.X86.avx2 ⟨false, false, false, true⟩)) fun _ => 0#8) := .avx2 _ _
example (n : Nat) (hn : n = 3 * 2 ^ 30) : ∃ data : List Byte, 2 ^ 31 ≤ data.length ∧ data.length < 2 ^ 32 :=
  ⟨List.replicate n 65#8, by rw [List.length_replicate]; omega, by rw [List.length_replicate]; omega⟩
example : ∃ I I', Dec.Simd.IsSimdL 32 I I' 64 := ⟨_, _, .rvv 64 (.inr rfl) fun _ _ => ⟨fun _ => 0#8, fun _ => false, 0#16, fun a _ => a⟩⟩
example : (⟨0, 3 * 2 ^ 30⟩ : Dec.M.View).len < 2 ^ 32 ∧ 2 ^ 31 + 2 * 64 + 1 ≤ (⟨0, 3 * 2 ^ 30⟩ : Dec.M.View).len := by decide

end Yenc.Props
