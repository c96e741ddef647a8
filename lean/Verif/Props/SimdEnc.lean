import Verif.Lemmas.Api
/-!
Property C40: the vectorised encoders.
-/
namespace Yenc.Props
open Yenc

variable {eimpl : Enc.Impl}

theorem lineArgs_range {rest : List Arg} {ls col : Int} (h : Enc.lineArgs rest = .ret (ls, col)) : 1 ≤ ls ∧ 0 ≤ col ∧ col < ls ∧
    (ls = 128 ∨ ∃ n, rest[0]? = some (.int n) ∧ ls = toInt32 n) := by
  unfold Enc.lineArgs at h
  match rest, h with
  | [], h => simp at h; omega
  | [a], h =>
    cases ha : argToInt a with
    | ub => simp [ha, Outcome.bind] at h
    | throw m => simp [ha, Outcome.bind] at h
    | ret n =>
      have hn : a = .int n := by cases a <;> simp_all [argToInt]
      simp only [ha, Outcome.bind] at h
      by_cases h0 : toInt32 n = 0
      · simp [h0] at h; omega
      · simp only [h0, if_false] at h
        by_cases h1 : toInt32 n < 0
        · simp [h1] at h
        · simp [h1] at h; exact ⟨by omega, by omega, by omega, Or.inr ⟨n, by simp [hn], h.1.symm⟩⟩
  | a :: b :: r, h =>
    cases ha : argToInt a with
    | ub => simp [ha, Outcome.bind] at h
    | throw m => simp [ha, Outcome.bind] at h
    | ret n =>
      have hn : a = .int n := by cases a <;> simp_all [argToInt]
      simp only [ha, Outcome.bind] at h
      generalize hl : (if toInt32 n = 0 then 128 else toInt32 n) = l at h
      have hl0 : l ≠ 0 ∧ (l = 128 ∨ l = toInt32 n) := by subst hl; split <;> omega
      have hl1 : l = 128 ∨ ∃ k, (a :: b :: r)[0]? = some (.int k) ∧ l = toInt32 k := hl0.2.imp_right fun h => ⟨n, by simp [hn], h⟩
      by_cases h1 : l < 0
      · simp [h1] at h
      · simp only [h1, if_false] at h
        cases hb : argToInt b with
        | ub => simp [hb] at h
        | throw m => simp [hb] at h
        | ret m =>
          simp only [hb] at h
          by_cases h2 : toInt32 m > l ∨ toInt32 m < 0
          · rw [if_pos h2] at h; simp at h
          · rw [if_neg h2] at h
            simp only [Outcome.ret.injEq, Prod.mk.injEq] at h
            by_cases h3 : toInt32 m = l
            · simp only [h3, if_true] at h; rw [← h.1]; exact ⟨by omega, by omega, by omega, hl1⟩
            · simp only [h3, if_false] at h; rw [← h.1]; exact ⟨by omega, by omega, by omega, hl1⟩

/-- The bytes `runInto` gives do not depend on the implementation. -/
theorem runInto_bytes (he : Enc.IsImpl eimpl) {ls col : Int} (h1 : 1 ≤ ls) (h1' : ls + 6 < 2 ^ 31) (h2 : 0 ≤ col) (h3 : col < ls) (src : List Byte) (hne : src ≠ []) (fin : Bool) (size : Nat)
    (hs : yencMaxSize src.length ls.toNat ≤ size) :
    ∃ c1 c2, Enc.runInto eimpl ls col src fin size = .ret (Spec.encode ls.toNat fin col.toNat src, c1) ∧
      Enc.runInto Enc.encodeGeneric ls col src fin size = .ret (Spec.encode ls.toNat fin col.toNat src, c2) := by
  obtain ⟨l, rfl⟩ := Int.eq_ofNat_of_zero_le (show 0 ≤ ls by omega)
  obtain ⟨c, rfl⟩ := Int.eq_ofNat_of_zero_le h2
  obtain ⟨c1, k1, -⟩ := Enc.runInto_eq he.correct l c src fin (by omega) (by omega) (by omega) hne size hs
  obtain ⟨c2, k2, -⟩ := Enc.runInto_eq Enc.IsImpl.generic.correct l c src fin (by omega) (by omega) (by omega) hne size hs
  exact ⟨c1, c2, k1, k2⟩

/-- C40 for `encode`: whatever the arguments (except for line sizes above 2147483641), every implementation returns the bytes the scalar encoder returns, or throws the same. -/
theorem C40_encode (he : Enc.IsImpl eimpl) (args : List Arg) (hls : ∀ n, args[1]? = some (.int n) → toInt32 n ≤ 2147483641) : Enc.apiEncode eimpl args = Enc.apiEncode Enc.encodeGeneric args := by
  unfold Enc.apiEncode
  split
  · rename_i src rest
    by_cases hne : src = []
    · rw [if_pos hne, if_pos hne]
    · rw [if_neg hne, if_neg hne]
      cases ha : Enc.lineArgs rest with
      | ub => rfl
      | throw m => rfl
      | ret a =>
        obtain ⟨h1, h2, h3, h4⟩ := lineArgs_range ha
        have h5 : a.1 + 6 < 2 ^ 31 := by
          rcases h4 with h4 | ⟨n, h4, h5⟩
          · omega
          · have := hls n (by simpa using h4); omega
        obtain ⟨c1, c2, k1, k2⟩ := runInto_bytes he h1 h5 h2 h3 src hne true _ (Nat.le_refl _)
        simp only [Outcome.bind, k1, k2]
  · rfl

/-- C40 for `encodeTo`: the same length and bytes, or the same exception, whatever the arguments (except for line sizes above 2147483641). -/
theorem C40_encodeTo (he : Enc.IsImpl eimpl) (args : List Arg) (hls : ∀ n, args[2]? = some (.int n) → toInt32 n ≤ 2147483641) : Enc.apiEncodeTo eimpl args = Enc.apiEncodeTo Enc.encodeGeneric args := by
  unfold Enc.apiEncodeTo
  split
  · rename_i src dest rest
    by_cases hne : src = []
    · rw [if_pos hne, if_pos hne]
    · rw [if_neg hne, if_neg hne]
      cases ha : Enc.lineArgs rest with
      | ub => rfl
      | throw m => rfl
      | ret a =>
        obtain ⟨h1, h2, h3, h4⟩ := lineArgs_range ha
        have h5 : a.1 + 6 < 2 ^ 31 := by
          rcases h4 with h4 | ⟨n, h4, h5⟩
          · omega
          · have := hls n (by simpa using h4); omega
        simp only [Outcome.bind]
        by_cases hd : dest.length < yencMaxSize src.length a.1.toNat
        · rw [if_pos hd, if_pos hd]
        · rw [if_neg hd, if_neg hd]
          obtain ⟨c1, c2, k1, k2⟩ := runInto_bytes he h1 h5 h2 h3 src hne true dest.length (by omega)
          rw [k1, k2]
  · rfl

/-- C40 on memory: with a vectorised encoder, whatever the destination contained before and whatever line size (up to 2147483641), column and (non-empty) input, the encoder terminates, reads only the
input, and leaves at the destination exactly the bytes the scalar encoder writes, touching at most 8 bytes after them. -/
theorem C40_memory (he : Enc.IsImpl eimpl) (ls col : Nat) (h1 : 1 ≤ ls) (h1' : ls + 6 < 2 ^ 31) (h2 : col < ls) (src : List Byte) (hne : src ≠ []) (fin : Bool) :
    ∃ w c w' c', eimpl ls col src fin = some (w, c) ∧ Enc.encodeGeneric ls col src fin = some (w', c') ∧ w.out = w'.out ∧ w.hi ≤ w'.out.length + 8 := by
  obtain ⟨w, c, k1, k2, k3, -⟩ := he.correct ls col src fin h1 h1' h2 hne
  obtain ⟨w', c', k4, k5, -, -⟩ := Enc.generic_correct ls col src fin h1 h1' h2 hne
  exact ⟨w, c, w', c', k1, k4, by rw [k2, k5], by rw [k2, ← k5] at k3; exact k3⟩

/-! The implementations x86 builds install are among those. -/

/-- encoder_sse2.cc:8. -/
def sse2Cfg : Enc.Simd.X86.Cfg := ⟨false, false, false, false, false, false, false, false, false, false, false⟩
/-- encoder_ssse3.cc:10. -/
def ssse3Cfg : Enc.Simd.X86.Cfg := ⟨true, false, false, false, false, false, true, false, false, false, false⟩
/-- encoder_avx.cc:8. -/
def avxCfg : Enc.Simd.X86.Cfg := ⟨true, true, true, false, false, false, true, false, false, false, false⟩
/-- encoder_avx2.cc:8. -/
def avx2Cfg : Enc.Simd.X86.Cfg2 := ⟨false, false, false, true⟩
/-- encoder_vbmi2.cc:15. -/
def vbmi2Cfg : Enc.Simd.X86.Cfg2 := ⟨true, true, false, true⟩

example (m0 : Mem) : Enc.IsImpl (Enc.Simd.encode (Enc.Simd.run (Enc.Simd.X86.sse sse2Cfg)) m0) := .sse _ ⟨by decide, by decide, by decide⟩ _
example (m0 : Mem) : Enc.IsImpl (Enc.Simd.encode (Enc.Simd.run (Enc.Simd.X86.sse ssse3Cfg)) m0) := .sse _ ⟨by decide, by decide, by decide⟩ _
example (m0 : Mem) : Enc.IsImpl (Enc.Simd.encode (Enc.Simd.run (Enc.Simd.X86.sse avxCfg)) m0) := .sse _ ⟨by decide, by decide, by decide⟩ _
example (m0 : Mem) : Enc.IsImpl (Enc.Simd.encode (Enc.Simd.run (Enc.Simd.X86.avx2 avx2Cfg)) m0) := .avx2 _ _
example (m0 : Mem) : Enc.IsImpl (Enc.Simd.encode (Enc.Simd.run (Enc.Simd.X86.avx2 vbmi2Cfg)) m0) := .avx2 _ _
example (m0 : Mem) : Enc.IsImpl (Enc.Simd.encode (Enc.Simd.eRun (Enc.Simd.Neon.neon true)) m0) := .neon _ _
/-! A RISC-V processor with vectors of 256 bits. -/
example (m0 : Mem) (junk : Nat → Vec) : Enc.IsImpl (Enc.Simd.encode (Enc.Simd.eRun (Enc.Simd.Rvv.rvv 64 junk)) m0) := .rvv _ ⟨8, by decide, by decide, by decide⟩ _ _

/-- 200 characters with escaped ones and several full lines. -/
def simdInput : List Byte := List.replicate 100 200#8 ++ [214#8, 224#8, 19#8, 65#8] ++ List.replicate 96 4#8

/-! The kernels do work: of 200 characters they handle 157 (SSE2), 125 (AVX2), 156 (NEON) and 158 (RVV), and leave the rest to the scalar loop. -/
example : ((Enc.Simd.run (Enc.Simd.X86.sse sse2Cfg) 64 0 simdInput ⟨fun _ => 0, 0, 0⟩).map fun r => (r.2.1, r.1.p)) = some (157, 165) := by decide +kernel
example : ((Enc.Simd.run (Enc.Simd.X86.avx2 avx2Cfg) 64 0 simdInput ⟨fun _ => 0, 0, 0⟩).map fun r => (r.2.1, r.1.p)) = some (125, 132) := by decide +kernel
example : ((Enc.Simd.eRun (Enc.Simd.Neon.neon true) 64 0 simdInput ⟨fun _ => 0, 0, 0⟩).map fun r => (r.2.1, r.1.p)) = some (156, 164) := by decide +kernel
example : ((Enc.Simd.eRun (Enc.Simd.Neon.neon false) 64 0 simdInput ⟨fun _ => 0, 0, 0⟩).map fun r => (r.2.1, r.1.p)) = some (156, 164) := by decide +kernel
example : ((Enc.Simd.eRun (Enc.Simd.Rvv.rvv 32 fun _ _ => 0xff#8) 64 0 simdInput ⟨fun _ => 0, 0, 0⟩).map fun r => (r.2.1, r.1.p)) = some (158, 166) := by decide +kernel

end Yenc.Props
