import Verif.Lemmas.Startup
import Verif.Props.Encode
import Verif.Props.Crc
/-!
Property C67: what is selected when the module is loaded. The processor is described in `Spec/Cpu.lean`, apart from the code; the other properties are stated for every implementation, and this one says
that the implementation selected is one of them and can be executed.

Hypotheses: `Build.Wf`, what is true of every compilation; `Coherent`, what is true of every processor; `hb`: the processor has what the compiler was told to assume everywhere (in a build with
`enable_native_tuning`, the default, all extensions of the machine it was compiled on); `h2`: it has SSE2.
-/
namespace Yenc.Props
open Startup
open Spec (Cpu CpuidRegs Feature ArmFeature RvFeature RvCpu Usable Coherent RvUsable)

/-! ### Processors and builds for examples -/

instance (c : Cpu) : Decidable c.Osxsave := inferInstanceAs (Decidable (_ = true))
instance (c : Cpu) : Decidable c.Ymm := inferInstanceAs (Decidable (_ ∧ _ ∧ _))
instance (c : Cpu) : Decidable c.Zmm := inferInstanceAs (Decidable (_ ∧ _ ∧ _ ∧ _))
instance (c : Cpu) (p : CpuidRegs → Bool) : Decidable (c.Leaf7 p) := inferInstanceAs (Decidable (_ ∧ _))
instance (c : Cpu) : Decidable c.Avx10 := inferInstanceAs (Decidable (_ ∧ _ ∧ _ ∧ _ ∧ _ ∧ _))
instance (c : Cpu) (x : Feature) : Decidable (Usable c x) := by
  cases x <;> (simp only [Usable]; infer_instance)

/-- A processor with AVX2 (Haswell). -/
def haswell : Cpu where
  cpuid l s :=
    if l = 0 then ⟨13#32, 0#32, 0#32, 0#32⟩
    else if l = 1 then ⟨0x306C3#32, 0#32, 0x7FFAFBBF#32, 0xBFEBFBFF#32⟩
    else if l = 7 ∧ s = 0 then ⟨0#32, 0x27AB#32, 0#32, 0#32⟩
    else if l = 0x80000000 then ⟨0x80000008#32, 0#32, 0#32, 0#32⟩
    else if l = 0x80000001 then ⟨0#32, 0#32, 0x21#32, 0x2C100800#32⟩
    else ⟨0#32, 0#32, 0#32, 0#32⟩
  xcr0 := 7#32

/-- The same under an operating system that does not preserve the upper halves of vector registers. -/
def haswellNoYmm : Cpu := { haswell with xcr0 := 3#32 }

/-- A processor with VBMI2 (Ice Lake). -/
def icelake : Cpu where
  cpuid l s :=
    if l = 0 then ⟨27#32, 0#32, 0#32, 0#32⟩
    else if l = 1 then ⟨0x606A6#32, 0#32, 0x7FFEFBFF#32, 0xBFEBFBFF#32⟩
    else if l = 7 ∧ s = 0 then ⟨0#32, 0xF3BFBFEB#32, 0x40417F5E#32, 0#32⟩
    else if l = 0x80000000 then ⟨0x80000008#32, 0#32, 0#32, 0#32⟩
    else if l = 0x80000001 then ⟨0#32, 0#32, 0x121#32, 0x2C100800#32⟩
    else ⟨0#32, 0#32, 0#32, 0#32⟩
  xcr0 := 0xE7#32

/-- A processor without SSE2 (Pentium III). -/
def pentium3 : Cpu where
  cpuid l _ :=
    if l = 0 then ⟨3#32, 0#32, 0#32, 0#32⟩
    else if l = 1 then ⟨0x6B1#32, 0#32, 0#32, 0x383FBFF#32⟩
    else if l = 0x80000000 then ⟨0#32, 0#32, 0#32, 0#32⟩
    else ⟨0#32, 0#32, 0#32, 0#32⟩
  xcr0 := 0#32

/-- A recent GCC for x64, without native tuning. -/
def x64 : Build := ⟨.gnu true true true true true, true, fun x => x == .sse2, false, {}, false, false⟩
/-- The same for ia32. -/
def ia32 : Build := { x64 with amd64 := false, base := fun _ => false }
/-- A native build on a processor with AVX2 but neither LZCNT nor BMI (VIA Eden X4, `-march=eden-x4`), with `disable_avx256`. -/
def eden : Build :=
  ⟨.gnu true true true true true, true, fun x => [.sse2, .sse3, .ssse3, .sse41, .sse42, .popcnt, .xsave, .avx, .avx2, .pclmul].contains x, true, {}, true, false⟩

theorem haswell_coherent : Coherent haswell := by
  constructor <;> decide +kernel
theorem icelake_coherent : Coherent icelake := by
  constructor <;> decide +kernel
theorem pentium3_coherent : Coherent pentium3 := by
  constructor <;> decide +kernel

theorem closed_of {base : Feature → Bool} (h : ∀ x ∈ allFeatures, base x = true → ∀ y ∈ implied x, base y = true) : ∀ x y, base x = true → y ∈ implied x → base y = true :=
  fun x y hx hy => h x (mem_allFeatures x) hx y hy

theorem x64_wf : x64.Wf where
  closed := closed_of (by decide +kernel)
  sse2 := by decide
  msvc := by intro v h; exact absurd h (by simp [x64])
  native := fun h => absurd h (by decide)
  tune := fun _ => rfl
  slow := by decide
  vl := by decide
  lzcnt := by decide
theorem ia32_wf : ia32.Wf where
  closed := closed_of (by decide +kernel)
  sse2 := by decide
  msvc := by intro v h; exact absurd h (by simp [ia32, x64])
  native := fun h => absurd h (by decide)
  tune := fun _ => rfl
  slow := by decide
  vl := by decide
  lzcnt := by decide
theorem eden_wf : eden.Wf where
  closed := closed_of (by decide +kernel)
  sse2 := by decide
  msvc := by intro v h; exact absurd h (by simp [eden])
  native := by intro _ v; simp [eden]
  tune := fun _ => rfl
  slow := by decide
  vl := by decide
  lzcnt := by decide

variable {b : Build} {c : Cpu}

/-! ### x86 -/

/-- C67, no instruction the processor does not have, encoder: loading the module does not die, and neither code that runs while it is loaded nor the encoder selected contains instructions the
processor and the operating system do not support: those the compiler may generate in the files that run, and those written out as intrinsics. -/
theorem C67_encoder_executable (hw : b.Wf) (hc : Coherent c) (hb : ∀ x, b.base x = true → Usable c x) (h2 : Usable c .sse2) :
    ∃ s, encoderInit b c .start = some s ∧ (∀ f ∈ s.ran, ∀ x, b.assumes f x = true → Usable c x) ∧ ∀ x ∈ s.fn.uses b, Usable c x := by
  obtain ⟨s, h, h1, h2⟩ := encoderInit_runs hw hc hb h2 (EncState.Runs.start (b := b) (c := c))
  exact ⟨s, h, h1, h2⟩

/-- The same for the decoder. -/
theorem C67_decoder_executable (hw : b.Wf) (hc : Coherent c) (hb : ∀ x, b.base x = true → Usable c x) (h2 : Usable c .sse2) :
    ∃ s, decoderInit b c .start = some s ∧ (∀ f ∈ s.ran, ∀ x, b.assumes f x = true → Usable c x) ∧ ∀ x ∈ s.fn.uses b, Usable c x := by
  obtain ⟨s, h, h1, h2⟩ := decoderInit_runs hw hc hb h2 (DecState.Runs.start (b := b) (c := c))
  exact ⟨s, h, h1, h2⟩

/-- The same for the CRC functions. -/
theorem C67_crc_executable (hw : b.Wf) (hc : Coherent c) (hb : ∀ x, b.base x = true → Usable c x) (h2 : Usable c .sse2) :
    ∃ s, crcInit b c .start = some s ∧ (∀ f ∈ s.ran, ∀ x, b.assumes f x = true → Usable c x) ∧ ∀ x ∈ s.uses b, Usable c x := by
  obtain ⟨s, h, h1, h2⟩ := crcInit_runs hw hc hb h2 (CrcState.Runs.start (b := b) (c := c))
  exact ⟨s, h, h1, h2⟩

theorem x64_base (h2 : Usable c .sse2) : ∀ x, x64.base x = true → Usable c x := by
  intro x hx
  have : x = .sse2 := by simpa [x64] using hx
  rw [this]
  exact h2

-- hypotheses met, and what is selected: AVX2 on Haswell, no AVX at all without support by the operating system, VBMI2 on Ice Lake
example : x64.Wf ∧ Coherent haswell ∧ (∀ x, x64.base x = true → Usable haswell x) ∧ Usable haswell .sse2 := ⟨x64_wf, haswell_coherent, x64_base (by decide +kernel), by decide +kernel⟩
example : (encoderInit x64 haswell .start).map (·.fn) = some (.avx2 .avx2 AVX2) := by rfl
example : (encoderInit x64 haswellNoYmm .start).map (·.fn) = some (.sse .ssse3 SSSE3) := by rfl
example : (encoderInit x64 icelake .start).map (·.fn) = some (.avx2 .vbmi2 VBMI2) := by rfl
example : (decoderInit x64 haswell .start).map (·.fn) = some (.avx2 .avx2 AVX2) := by rfl
example : (crcInit x64 haswell .start).map (·.incr) = some .clmul := by rfl
example : (crcInit x64 icelake .start).map (·.incr) = some .clmul256 := by rfl

/-- C67, the functions selected are the ones other theorems are about, and have the tables they read; encoder. `_partial`: only if a compiler that assumes AVX2 assumes LZCNT, see
`C67_tables_false`. -/
theorem C67_encoder_selected_partial (hw : b.Wf) (hz : b.base .avx2 = true → b.base .lzcnt = true) {s : EncState} (h : encoderInit b c .start = some s) (m0 : Mem) :
    ∃ i, s.impl b m0 = some i ∧ Enc.IsImpl i :=
  encoderInit_good hw hz (EncState.Good.start (b := b)) h m0

/-- The same for the decoder. -/
theorem C67_decoder_selected (hw : b.Wf) {s : DecState} (h : decoderInit b c .start = some s) : ∃ i, s.impl b = some i ∧ Dec.M.IsImpl i :=
  decoderInit_good hw (DecState.Good.start (b := b)) h

/-- The same for the CRC functions. -/
theorem C67_crc_selected (s : CrcState) (target : Crc.Util.Target) (around : Nat → List Byte → Nat → Byte) : Crc.IsImpl (s.impl b target around) :=
  crcState_isImpl s target around

example : x64.Wf ∧ (x64.base .avx2 = true → x64.base .lzcnt = true) := ⟨x64_wf, by decide⟩

/-- C67, as seen by the user: on every x86 processor with SSE2 and in every build, loading the module succeeds, and what `encode` returns `decode` turns back into the data, and `crc32` returns the
CRC-32. (`m0`, `around`: what is in memory; `loc`: where buffers are.) -/
theorem C67_module_partial (hw : b.Wf) (hc : Coherent c) (hb : ∀ x, b.base x = true → Usable c x) (h2 : Usable c .sse2) (hz : b.base .avx2 = true → b.base .lzcnt = true)
    (target : Crc.Util.Target) (m0 m1 : Mem) (around : Nat → List Byte → Nat → Byte) (loc : List Byte → Nat × Nat) (hloc : ∀ l, (loc l).2 ≤ (loc l).1 ∨ (loc l).1 + l.length ≤ (loc l).2) :
    ∃ se sd sc e d, encoderInit b c .start = some se ∧ decoderInit b c .start = some sd ∧ crcInit b c .start = some sc ∧ se.impl b m0 = some e ∧ sd.impl b = some d ∧
      (∀ (data : List Byte) (ls col : Nat), 1 ≤ ls → ls + 6 < 2 ^ 31 → col < ls →
        ∃ out, Enc.apiEncode e [.buffer data, .int ls, .int col] = .ret out ∧ Dec.apiDecode (Dec.ofMem d m1 loc) [.buffer out, .bool false] = .ret data) ∧
      ∀ (addr : Nat) (data : List Byte), ∃ r v, Crc.apiCrc32 (sc.impl b target around) addr [.buffer data] = .ret r ∧ Spec.CrcBuf r v ∧ Spec.IsCrc32 0 data v := by
  obtain ⟨se, he, -⟩ := C67_encoder_executable hw hc hb h2
  obtain ⟨sd, hd, -⟩ := C67_decoder_executable hw hc hb h2
  obtain ⟨sc, hs, -⟩ := C67_crc_executable hw hc hb h2
  obtain ⟨e, he1, he2⟩ := C67_encoder_selected_partial hw hz he m0
  obtain ⟨d, hd1, hd2⟩ := C67_decoder_selected hw hd
  exact ⟨se, sd, sc, e, d, he, hd, hs, he1, hd1, fun data ls col h1 h2 h3 => C01_round_trip he2 (.ofMem d hd2 m1 loc hloc) data ls col h1 h2 h3,
    fun addr data => (C25_crc32 (C67_crc_selected sc target around) addr data).1⟩

example : ∃ loc : List Byte → Nat × Nat, ∀ l, (loc l).2 ≤ (loc l).1 ∨ (loc l).1 + l.length ≤ (loc l).2 := ⟨fun _ => (1000, 1000), fun _ => Or.inl (Nat.le_refl _)⟩

/-- C67 fails: in a native build for a processor with AVX2 but without LZCNT, with `disable_avx256` (without it such a build does not compile), the tables of the encoder are in the order of LZCNT
(`ISA_LEVEL_AVX2` contains the flag) but read in the order of BSR. -/
theorem C67_tables_false :
    ∃ b : Build, b.Wf ∧ ∀ c, ∃ s, encoderInit b c .start = some s ∧ s.fn.reads b = some (.main, .sse false) ∧ s.luts = [(.main, .sse true)] ∧ ∀ m0, s.impl b m0 = none := by
  refine ⟨eden, eden_wf, fun c => ⟨encoderNative eden .start, rfl, ?_, ?_, fun m0 => ?_⟩⟩
  · decide +kernel
  · decide +kernel
  · have h1 : (encoderNative eden .start).fn.reads eden = some (.main, .sse false) := by decide +kernel
    have h2 : (encoderNative eden .start).luts = [(.main, .sse true)] := by decide +kernel
    unfold EncState.impl
    rw [h1]
    simp only [h2]
    exact if_neg (by decide)

/-- C67 fails without SSE2, which the code does not ask for (the README says it is used when available): a build for ia32 selects the functions that use it on a processor that does not have it. -/
theorem C67_sse2_false :
    ia32.Wf ∧ Coherent pentium3 ∧ (∀ x, ia32.base x = true → Usable pentium3 x) ∧ ¬ Usable pentium3 .sse2 ∧
      ∃ s, encoderInit ia32 pentium3 .start = some s ∧ .sse2 ∈ s.fn.uses ia32 := by
  refine ⟨ia32_wf, pentium3_coherent, fun x h => absurd h (by simp [ia32]), by decide +kernel, encoderSse2 ia32 .start, rfl, ?_⟩
  decide +kernel

/-- The code reads leaf 7 of CPUID without asking whether it exists. A processor (Intel) answers with the highest leaf it has if asked for one it does not have; nothing prevents this from looking
like AVX2. (Then the last part of `Coherent.avx` is false.) -/
theorem C67_leaf7_false :
    ∃ c : Cpu, Usable c .sse2 ∧ Usable c .avx ∧ Usable c .sse42 ∧ Usable c .popcnt ∧ ¬ Usable c .avx2 ∧ ∃ s, encoderInit x64 c .start = some s ∧ .avx2 ∈ s.fn.uses x64 := by
  refine ⟨{ haswell with cpuid := fun l s => if l = 0 then ⟨4#32, 0#32, 0#32, 0#32⟩ else haswell.cpuid l s }, ?_, ?_, ?_, ?_, ?_, _, rfl, ?_⟩
  · decide +kernel
  · decide +kernel
  · decide +kernel
  · decide +kernel
  · decide +kernel
  · decide +kernel

/-! ### ARM and RISC-V -/

/-- C67 on ARM: only instructions the operating system reports are used, and the functions selected are the ones other theorems are about. -/
theorem C67_arm (ab : ArmBuild) (has : ArmFeature → Bool) :
    (∀ x ∈ (armInit ab has .start).uses, has x = true) ∧
      ∀ m0 around, Enc.IsImpl ((armInit ab has .start).enc' ab m0) ∧ Dec.M.IsImpl ((armInit ab has .start).dec' ab) ∧ Crc.IsImpl ((armInit ab has .start).crc' ab around) :=
  ⟨armInit_uses ab has (by simp [ArmState.start, ArmState.uses]), fun m0 around => armState_isImpl ab _ m0 around⟩

example : (armInit ⟨true, true, true, true, true, false⟩ (fun _ => true) .start).uses = [.neon, .neon, .crc, .crc, .crc, .crc, .pmull] := by rfl
example : (armInit ⟨true, true, true, true, true, false⟩ (fun x => x == .neon) .start).uses = [.neon, .neon] := by rfl

/-- C67 on RISC-V: only instructions the operating system reports are used, and the functions selected are the ones other theorems are about. `_partial`: the decoder for vectors of 128 and 256 bits
only (`C38_rvv_wide_false`). -/
theorem C67_riscv_partial (rb : RvBuild) (cpu : RvCpu) :
    (∀ x ∈ (rvInit rb cpu .start).uses, RvUsable cpu x) ∧ (∀ vl junk m0, Enc.Simd.Rvv.Vl2 vl → Enc.IsImpl ((rvInit rb cpu .start).enc' vl junk m0)) ∧
      (∀ vl junk, vl = 32 ∨ vl = 64 → Dec.M.IsImpl ((rvInit rb cpu .start).dec' vl junk)) ∧ ∀ around, Crc.IsImpl ((rvInit rb cpu .start).crc' rb around) :=
  ⟨rvInit_uses rb cpu (by simp [RvState.start, RvState.uses]), (rvState_isImpl rb _ fun _ _ _ => 0).1, (rvState_isImpl rb _ fun _ _ _ => 0).2.1, fun around => (rvState_isImpl rb _ around).2.2⟩

example : (rvInit ⟨true, true, true⟩ ⟨0x20112D#64, some 0x200#64⟩ .start).uses = [.i, .m, .a, .f, .d, .c, .v, .zbkc] := by rfl
example : Enc.Simd.Rvv.Vl2 32 := ⟨7, by omega, by omega, rfl⟩

end Yenc.Props
