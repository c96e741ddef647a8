import Verif.Props.Encode
import Mathlib.Tactic.ByContra
/-!
C74: line sizes near the largest `int`.  The scalar encoder adds up to 16 to the column before it looks whether the line is full, so that `int col` overflows (encoder.cc:72) for
line sizes above 2147483641; the vectorised encoders measure the column from the end of the line.
-/
namespace Yenc.Props
open Yenc

variable {eimpl : Enc.Impl}

/-- C74 with a vectorised encoder: for every line size the argument can express, `encode` gives the reference encoding, and `encodeTo` writes it to every buffer that is accepted. -/
theorem C74_vector (he : Enc.IsImpl eimpl) (hv : eimpl ≠ Enc.encodeGeneric) (d : List Byte) (ls col : Nat) (h1 : 1 ≤ ls) (h2 : ls ≤ 2147483647) (h3 : col < ls) :
    Enc.apiEncode eimpl [.buffer d, .int ls, .int col] = .ret (Spec.encode ls true col d) ∧
      ∀ dest : List Byte, Js.maxSize d.length ls ≤ dest.length →
        Enc.apiEncodeTo eimpl [.buffer d, .buffer dest, .int ls, .int col] = .ret (toInt32 (Spec.encode ls true col d).length, Spec.encode ls true col d) := by
  refine ⟨Enc.apiEncode_eq (he.vector hv) ls col d h1 (by omega) h3, fun dest hd => ?_⟩
  unfold Enc.apiEncodeTo
  by_cases hne : d = []
  · subst hne; simp [Spec.encode, toInt32]
  unfold Js.maxSize at hd
  rw [if_neg (by simpa using hne), if_neg (by omega), Nat.mul_comm d.length 2] at hd
  have hm := yencMaxSize_eq d.length ls
  obtain ⟨c2, e2, -⟩ := Enc.runInto_eq (he.vector hv) ls col d true h1 (by omega) h3 hne dest.length (by omega)
  simp only [hne, if_false, Enc.lineArgs_eq ls col h1 (by omega) h3, Outcome.bind, Int.toNat_natCast, e2]
  rw [if_neg (by omega)]

/-- C74 with the scalar encoder: the line sizes for which it is right whatever the data and the column are those up to 2147483641; for the other six its behaviour is undefined
for some data and column. -/
theorem C74_portable (ls : Nat) (h1 : 1 ≤ ls) (h2 : ls ≤ 2147483647) :
    (∀ (d : List Byte) (col : Nat), col < ls → Enc.apiEncode Enc.encodeGeneric [.buffer d, .int ls, .int col] = .ret (Spec.encode ls true col d)) ↔ ls ≤ 2147483641 := by
  constructor
  · intro h
    by_contra hn
    obtain ⟨d, col, h3, -, h4, -⟩ := C11_never_ub_false ls (by omega) (by omega)
    rw [h d col h3] at h4
    cases h4
  · intro h d col h3
    exact Enc.apiEncode_eq Enc.generic_correct ls col d h1 (by omega) h3

example := C74_portable 2147483647 (by decide) (by decide)

/-- C74 is false: with the scalar encoder and the largest line size, ten NUL characters placed at the end of the line (encoded NUL: byte 214) have no defined encoding. -/
theorem C74_overflow_false : ¬ ∀ (eimpl : Enc.Impl), Enc.IsImpl eimpl → ∀ (d : List Byte) (ls col : Nat), 1 ≤ ls → ls ≤ 2147483647 → col < ls →
    Enc.apiEncode eimpl [.buffer d, .int ls, .int col] = .ret (Spec.encode ls true col d) := by
  intro h
  have := (C74_portable 2147483647 (by decide) (by decide)).mp fun d col h3 => h _ .generic d 2147483647 col (by decide) (by decide) h3
  omega

/-- C74: `encode` with line sizes between 1 and 2147483641, all implementations (C03).  Partial: the six larger ones need a vectorised encoder. -/
theorem C74_encode_partial (he : Enc.IsImpl eimpl) (d : List Byte) (ls col : Nat) (h1 : 1 ≤ ls) (h2 : ls ≤ 2147483641) (h3 : col < ls) :
    Enc.apiEncode eimpl [.buffer d, .int ls, .int col] = .ret (Spec.encode ls true col d) :=
  Enc.apiEncode_eq he.correct ls col d h1 (by omega) h3

-- a vectorised encoder is not the scalar one: given nothing to encode, it writes nothing
example : ∃ eimpl, Enc.IsImpl eimpl ∧ eimpl ≠ Enc.encodeGeneric := by
  refine ⟨Enc.Simd.encode (Enc.Simd.run (Enc.Simd.X86.avx2 ⟨false, false, false, true⟩)) (fun _ => 0#8), .avx2 _ _, fun h => ?_⟩
  have h1 := congrFun (congrFun (congrFun (congrFun h 128) 0) []) false
  have h2 : Enc.encodeGeneric 128 0 [] false = none := by unfold Enc.encodeGeneric Enc.body; rw [if_pos rfl]
  rw [h2] at h1
  simp [Enc.Simd.encode] at h1

end Yenc.Props
