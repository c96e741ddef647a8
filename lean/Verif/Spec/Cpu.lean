import Verif.Model.Vec
/-!
What a processor and operating system say about the instructions a program may use, after the manuals (Intel SDM vol. 2A, CPUID, and vol. 1, 13.2-13.3 and 15.2; the AVX10 specification,
355989; AMD APM vol. 3, appendix D, for LZCNT; the Linux interfaces `AT_HWCAP` and `riscv_hwprobe`). This does not depend on the code of `/repo`.
-/
namespace Yenc.Spec

/-- The result of CPUID. -/
structure CpuidRegs where
  eax : BitVec 32
  ebx : BitVec 32
  ecx : BitVec 32
  edx : BitVec 32
deriving DecidableEq

/-- An x86 processor as set up by the operating system: the answers of CPUID for each leaf and subleaf, and the register XCR0. -/
structure Cpu where
  cpuid : Nat → Nat → CpuidRegs
  xcr0 : BitVec 32

namespace Cpu

/-- The highest basic leaf. -/
def maxLeaf (c : Cpu) : Nat := (c.cpuid 0 0).eax.toNat
/-- The highest extended leaf. -/
def maxExt (c : Cpu) : Nat := (c.cpuid 0x80000000 0).eax.toNat

/-- The instruction XGETBV may be executed: CPUID.1:ECX.OSXSAVE. -/
def Osxsave (c : Cpu) : Prop := (c.cpuid 1 0).ecx.getLsbD 27 = true
/-- The operating system preserves the vector registers of 256 bits. -/
def Ymm (c : Cpu) : Prop := c.Osxsave ∧ c.xcr0.getLsbD 1 = true ∧ c.xcr0.getLsbD 2 = true
/-- ... those of 512 bits, and the mask registers. -/
def Zmm (c : Cpu) : Prop := c.Ymm ∧ c.xcr0.getLsbD 5 = true ∧ c.xcr0.getLsbD 6 = true ∧ c.xcr0.getLsbD 7 = true

/-- A flag in CPUID.(7,0). -/
def Leaf7 (c : Cpu) (p : CpuidRegs → Bool) : Prop := 7 ≤ c.maxLeaf ∧ p (c.cpuid 7 0) = true

/-- AVX10, version 1 or later, for vectors of 256 bits. -/
def Avx10 (c : Cpu) : Prop :=
  7 ≤ c.maxLeaf ∧ 1 ≤ (c.cpuid 7 0).eax.toNat ∧ (c.cpuid 7 1).edx.getLsbD 19 = true ∧ 0x24 ≤ c.maxLeaf ∧ 1 ≤ ((c.cpuid 0x24 0).ebx.setWidth 8).toNat ∧
    (c.cpuid 0x24 0).ebx.getLsbD 17 = true

end Cpu

/-- Extensions of the instruction set. The `avx512` ones are for vectors of 128 and 256 bits, `evex512` is their use with vectors of 512 bits. -/
inductive Feature where
  | sse2 | sse3 | ssse3 | sse41 | sse42 | popcnt | lzcnt | xsave | avx | f16c | fma | avx2 | bmi1 | bmi2
  | avx512f | avx512cd | avx512bw | avx512dq | avx512vl | avx512vbmi2 | evex512 | pclmul | vpclmul | gfni
deriving DecidableEq

/-- The program may execute these instructions. -/
def Usable (c : Cpu) : Feature → Prop
  | .sse2 => (c.cpuid 1 0).edx.getLsbD 26 = true
  | .sse3 => (c.cpuid 1 0).ecx.getLsbD 0 = true
  | .ssse3 => (c.cpuid 1 0).ecx.getLsbD 9 = true
  | .sse41 => (c.cpuid 1 0).ecx.getLsbD 19 = true
  | .sse42 => (c.cpuid 1 0).ecx.getLsbD 20 = true
  | .popcnt => (c.cpuid 1 0).ecx.getLsbD 23 = true
  | .lzcnt => 0x80000001 ≤ c.maxExt ∧ (c.cpuid 0x80000001 0).ecx.getLsbD 5 = true
  | .xsave => (c.cpuid 1 0).ecx.getLsbD 26 = true ∧ c.Osxsave
  | .avx => (c.cpuid 1 0).ecx.getLsbD 28 = true ∧ c.Ymm
  | .f16c => (c.cpuid 1 0).ecx.getLsbD 29 = true ∧ c.Ymm
  | .fma => (c.cpuid 1 0).ecx.getLsbD 12 = true ∧ c.Ymm
  | .avx2 => c.Leaf7 (·.ebx.getLsbD 5) ∧ c.Ymm
  | .bmi1 => c.Leaf7 (·.ebx.getLsbD 3)
  | .bmi2 => c.Leaf7 (·.ebx.getLsbD 8)
  | .avx512f => (c.Leaf7 (·.ebx.getLsbD 16) ∨ c.Avx10) ∧ c.Zmm
  | .avx512cd => (c.Leaf7 (·.ebx.getLsbD 28) ∨ c.Avx10) ∧ c.Zmm
  | .avx512bw => (c.Leaf7 (·.ebx.getLsbD 30) ∨ c.Avx10) ∧ c.Zmm
  | .avx512dq => (c.Leaf7 (·.ebx.getLsbD 17) ∨ c.Avx10) ∧ c.Zmm
  | .avx512vl => (c.Leaf7 (·.ebx.getLsbD 31) ∨ c.Avx10) ∧ c.Zmm
  | .avx512vbmi2 => (c.Leaf7 (·.ecx.getLsbD 6) ∨ c.Avx10) ∧ c.Zmm
  | .evex512 => (c.Leaf7 (·.ebx.getLsbD 16) ∨ (c.Avx10 ∧ (c.cpuid 0x24 0).ebx.getLsbD 18 = true)) ∧ c.Zmm
  | .pclmul => (c.cpuid 1 0).ecx.getLsbD 1 = true
  | .vpclmul => c.Leaf7 (·.ecx.getLsbD 10) ∧ c.Ymm
  | .gfni => c.Leaf7 (·.ecx.getLsbD 8)

/-- What holds of every processor on the market, though CPUID could say otherwise: newer extensions come with older ones. -/
structure Coherent (c : Cpu) : Prop where
  /-- SSSE3 comes with SSE3, SSE4.1 with SSSE3. -/
  ssse3 : (c.cpuid 1 0).ecx.getLsbD 9 = true → (c.cpuid 1 0).ecx.getLsbD 0 = true
  /-- AVX comes with SSE4.2 and POPCNT, and the leaves 7 and 80000001h exist. -/
  avx : (c.cpuid 1 0).ecx.getLsbD 28 = true → (c.cpuid 1 0).ecx.getLsbD 20 = true ∧ (c.cpuid 1 0).ecx.getLsbD 23 = true ∧ 7 ≤ c.maxLeaf ∧ 0x80000001 ≤ c.maxExt
  /-- A subleaf of leaf 7 that does not exist reads as 0. -/
  subleaf : (c.cpuid 7 0).eax.toNat < 1 → (c.cpuid 7 1).edx = 0#32
  /-- The leaf that describes AVX10 exists if AVX10 does. -/
  avx10 : (c.cpuid 7 1).edx.getLsbD 19 = true → 0x24 ≤ c.maxLeaf
  /-- AVX512 and AVX10 come with FMA and F16C. -/
  avx512 : (c.cpuid 7 0).ebx.getLsbD 16 = true ∨ (c.cpuid 7 1).edx.getLsbD 19 = true → (c.cpuid 1 0).ecx.getLsbD 12 = true ∧ (c.cpuid 1 0).ecx.getLsbD 29 = true
  /-- VBMI2 comes with the AVX512 extensions of the first processors for servers. -/
  vbmi2 : (c.cpuid 7 0).ecx.getLsbD 6 = true → (c.cpuid 7 0).ebx.getLsbD 17 = true ∧ (c.cpuid 7 0).ebx.getLsbD 28 = true

/-- The extensions of ARM processors that matter here. -/
inductive ArmFeature where
  | neon | crc | pmull
deriving DecidableEq

/-- The extensions of RISC-V processors that matter here. `zbkc` has the instructions CLMUL and CLMULH, `zbc` has CLMULR as well. -/
inductive RvFeature where
  | i | m | a | f | d | c | v | zbc | zbkc
deriving DecidableEq

/-- A RISC-V processor as described by Linux: `AT_HWCAP` (a bit for each letter), and the extensions reported by `riscv_hwprobe` if that call exists (bits of
`RISCV_HWPROBE_KEY_IMA_EXT_0`). -/
structure RvCpu where
  hwcap : BitVec 64
  hwprobe : Option (BitVec 64)

def RvCpu.probe (c : RvCpu) (n : Nat) : Prop := match c.hwprobe with
  | some x => x.getLsbD n = true
  | none => False

/-- The program may execute these instructions. -/
def RvUsable (cpu : RvCpu) : RvFeature → Prop
  | .i => cpu.hwcap.getLsbD 8 = true
  | .m => cpu.hwcap.getLsbD 12 = true
  | .a => cpu.hwcap.getLsbD 0 = true
  | .f => cpu.hwcap.getLsbD 5 = true
  | .d => cpu.hwcap.getLsbD 3 = true
  | .c => cpu.hwcap.getLsbD 2 = true
  | .v => cpu.hwcap.getLsbD 21 = true
  | .zbc => cpu.probe 7
  -- the instructions of Zbkc are among those of Zbc
  | .zbkc => cpu.probe 9 ∨ cpu.probe 7

end Yenc.Spec
