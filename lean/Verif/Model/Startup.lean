import Verif.Model.Dispatch
import Verif.Model.CrcBindings
import Verif.Spec.Cpu
/-!
Model of what happens when the module is loaded: `init_all`, `/repo/src/yencode.cc:448-452`, which asks the processor what it can do (`/repo/src/platform.cc`) and sets the function pointers
(`encoder_init`, encoder.cc:172-198; `decoder_init`, decoder.cc:403-429; `crc32_init`, crc.cc:230-297), with the compiler switches of `/repo/binding.gyp`.

Not modelled: MSVC before 2010 (platform.cc:66-73), the `#ifdef`s by which platform.cc:3-57 and crc.cc:243-280 find the operating system's way to tell the features of an ARM processor (these are taken to be what
it tells), and reporting functions (`encode_isa_level` and so on, which node-yencode does not call).
-/
namespace Yenc.Startup
open Spec (Cpu CpuidRegs Feature ArmFeature RvFeature RvCpu)

/-! ### Levels -/

/-- `YEncDecIsaLevel` on x86, common.h:225-240 (an `int`; all values are small). -/
abbrev Isa := BitVec 32
/-- common.h:227. -/
abbrev POPCNT : Isa := 0x1#32
/-- common.h:228. -/
abbrev LZCNT : Isa := 0x2#32
/-- common.h:229. -/
abbrev EVEX512 : Isa := 0x4#32
/-- common.h:230. -/
abbrev SSE2 : Isa := 0x100#32
/-- common.h:231. -/
abbrev SSSE3 : Isa := 0x200#32
/-- common.h:232. -/
abbrev SSE41 : Isa := 0x300#32
/-- common.h:233. -/
abbrev SSE4_POPCNT : Isa := 0x301#32
/-- common.h:235. -/
abbrev AVX : Isa := 0x381#32
/-- common.h:236. -/
abbrev AVX2 : Isa := 0x403#32
/-- common.h:238. -/
abbrev AVX3 : Isa := 0x507#32
/-- common.h:239. -/
abbrev VBMI2 : Isa := 0x603#32

/-! ### Asking the processor (platform.cc) -/

/-- `_GET_XCR()`, platform.cc:79-83: without OSXSAVE the instruction is undefined and the program dies. -/
def getXcr (c : Cpu) : Option (BitVec 32) := if (c.cpuid 1 0).ecx.getLsbD 27 then some c.xcr0 else none

/-- platform.cc:101-108: the features found first. -/
def features (flags flags2 : CpuidRegs) : Isa :=
  (if flags.ecx &&& 0x800000#32 ≠ 0#32 then POPCNT else 0#32) ||| (if flags2.ecx &&& 0x20#32 ≠ 0#32 then LZCNT ||| POPCNT else 0#32)

/-- `family`, platform.cc:110. The shifts of an `int` keep the sign, but the masks leave only bits that come from the number itself. -/
def family (eax : BitVec 32) : BitVec 32 := ((eax >>> 8) &&& 0xf#32) + ((eax >>> 16) &&& 0xff0#32)
/-- `model`, platform.cc:111. -/
def model (eax : BitVec 32) : BitVec 32 := ((eax >>> 4) &&& 0xf#32) + ((eax >>> 12) &&& 0xf0#32)

/-- platform.cc:113-121: processors on which SSSE3 is slow. -/
def slowSsse3 (eax : BitVec 32) : Bool :=
  (family eax == 6#32 && [0x1C#32, 0x26#32, 0x27#32, 0x35#32, 0x36#32, 0x37#32, 0x4A#32, 0x4C#32, 0x4D#32, 0x5A#32, 0x5D#32].contains (model eax)) ||
    (family eax == 0x5f#32 && [0#32, 1#32, 2#32].contains (model eax))
/-- platform.cc:124: processors on which PBLENDVB is slow. -/
def slowBlend (eax : BitVec 32) : Bool := family eax == 6#32 && [0x5c#32, 0x5f#32, 0x7a#32, 0x9c#32].contains (model eax)

/-- `cpu_supports_isa`, platform.cc:98-167. -/
def supportsIsa (c : Cpu) : Option Isa :=
  let flags := c.cpuid 1 0
  let ret := features flags (c.cpuid 0x80000001 0)
  if slowSsse3 flags.eax then some (ret ||| SSE2)
  else if flags.ecx &&& 0x200#32 = 0x200#32 then
    if slowBlend flags.eax then some (ret ||| SSSE3)
    else if flags.ecx &&& 0x80000#32 ≠ 0#32 then
      if flags.ecx &&& 0x1C800000#32 = 0x1C800000#32 then
        match getXcr c with
        | none => none
        | some x =>
          let xcr := x &&& 0xff#32
          if xcr &&& 6#32 = 6#32 then
            let cpuInfo := c.cpuid 7 0
            if cpuInfo.ebx &&& 0x128#32 = 0x128#32 ∧ ret &&& LZCNT ≠ 0#32 then
              let avx512 :=
                if cpuInfo.ebx &&& 0xC0010000#32 = 0xC0010000#32 then
                  if cpuInfo.ecx &&& 0x40#32 ≠ 0#32 then ret ||| EVEX512 ||| VBMI2 else ret ||| EVEX512 ||| AVX3
                else ret ||| AVX2
              if xcr &&& 0xE0#32 = 0xE0#32 then
                if (c.cpuid 7 1).edx &&& 0x80000#32 ≠ 0#32 then
                  let cpuInfo2 := c.cpuid 0x24 0
                  if 1 ≤ (cpuInfo2.ebx &&& 0xff#32).toNat ∧ cpuInfo2.ebx &&& 0x20000#32 ≠ 0#32 then
                    if cpuInfo2.ebx &&& 0x40000#32 ≠ 0#32 then some (ret ||| EVEX512 ||| VBMI2) else some (ret ||| VBMI2)
                  else some avx512
                else some avx512
              else some (ret ||| AVX2)
            else some (ret ||| AVX)
          else some (ret ||| SSE41)
      else some (ret ||| SSE41)
    else some (ret ||| SSSE3)
  else some (ret ||| SSE2)

/-- `cpu_supports_crc_isa`, platform.cc:169-187. -/
def supportsCrcIsa (c : Cpu) : Option Nat :=
  let flags := c.cpuid 1 0
  if flags.ecx &&& 0x80202#32 = 0x80202#32 then
    if flags.ecx &&& 0x1C000000#32 = 0x1C000000#32 then
      match getXcr c with
      | none => none
      | some x =>
        if x &&& 0xff#32 &&& 6#32 = 6#32 then
          let cpuInfo := c.cpuid 7 0
          if cpuInfo.ebx &&& 0x20#32 = 0x20#32 ∧ cpuInfo.ecx &&& 0x400#32 = 0x400#32 then some 2 else some 1
        else some 1
    else some 1
  else some 0

/-! ### The build -/

/-- The groups of source files with compiler switches of their own, binding.gyp:94-303, and the rest. -/
inductive File where
  | main | sse2 | ssse3 | avx | avx2 | vbmi2 | clmul | clmul256
deriving DecidableEq

/-- What a compiler switch brings along (GCC: common/config/i386/i386-common.cc; Clang: X86.td), transitively. -/
def implied : Feature → List Feature
  | .sse2 | .popcnt | .lzcnt | .xsave | .bmi1 | .bmi2 => []
  | .sse3 | .pclmul | .gfni => [.sse2]
  | .ssse3 => [.sse3, .sse2]
  | .sse41 => [.ssse3, .sse3, .sse2]
  | .sse42 => [.sse41, .ssse3, .sse3, .sse2, .popcnt]
  | .avx => [.sse42, .sse41, .ssse3, .sse3, .sse2, .popcnt, .xsave]
  | .f16c | .fma | .avx2 => [.avx, .sse42, .sse41, .ssse3, .sse3, .sse2, .popcnt, .xsave]
  | .vpclmul => [.pclmul, .avx, .sse42, .sse41, .ssse3, .sse3, .sse2, .popcnt, .xsave]
  | .avx512f | .evex512 => [.avx512f, .f16c, .fma, .avx2, .avx, .sse42, .sse41, .ssse3, .sse3, .sse2, .popcnt, .xsave]
  | .avx512cd | .avx512bw | .avx512dq | .avx512vl => [.avx512f, .f16c, .fma, .avx2, .avx, .sse42, .sse41, .ssse3, .sse3, .sse2, .popcnt, .xsave]
  | .avx512vbmi2 => [.avx512bw, .avx512f, .f16c, .fma, .avx2, .avx, .sse42, .sse41, .ssse3, .sse3, .sse2, .popcnt, .xsave]

/-- The compiler: GCC or Clang, with the answers to the questions of binding.gyp:211, 243, 276-277, whether it has the macro `__EVEX512__`, and whether it splits stores or is otherwise tuned
(`__tune_...__`, only in native builds); or MSVC, with `_MSC_VER`. -/
inductive Compiler where
  | gnu (avx2 vbmi2 noEvex512 vpclmul evexMacro : Bool)
  | msvc (ver : Nat)

/-- The processor a native build is tuned for (macros `__tune_...__`): those that matter. -/
structure Tune where
  /-- atom, slm or btver1: no PSHUFB in the encoder. -/
  slowShuffle : Bool := false
  /-- btver2: neither in the decoder. -/
  btver2 : Bool := false
  /-- slm, goldmont, goldmont_plus, tremont: no PBLENDVB. -/
  slowBlend : Bool := false
  btver1 : Bool := false
  /-- amdfam10 or k8. -/
  k8 : Bool := false
  /-- core2 or atom: halves are stored separately. -/
  split : Bool := false
  /-- bdver4 or znver1. -/
  zen1 : Bool := false
  /-- `COMPRESS_STORE` writes directly. -/
  compressStore : Bool := false

/-- A build for x86. -/
structure Build where
  compiler : Compiler
  /-- x64 rather than ia32. -/
  amd64 : Bool
  /-- What the compiler takes for granted everywhere. -/
  base : Feature → Bool
  /-- `enable_native_tuning`, binding.gyp:3, 12-27, 48-50: compiled for the processor of the machine it is compiled on (not on Windows). -/
  native : Bool
  tune : Tune
  /-- `disable_avx256`, binding.gyp:4, 42-44. -/
  disableAvx256 : Bool
  /-- `disable_crcutil`, binding.gyp:5, 45-47, or an ABI with 32-bit pointers on x64 (`__ILP32__`). -/
  disableCrcutil : Bool

/-- Compiler switches for a group of files, binding.gyp:112, 137, 161, 187, 214, 246, 281 and, for MSVC, 186, 224, 256, 299 (`EnableEnhancedInstructionSet` 3 is `/arch:AVX`). -/
def switches : Compiler → File → List Feature
  | _, .main => []
  | .gnu .., .sse2 => [.sse2]
  | .gnu .., .ssse3 => [.ssse3]
  | .gnu .., .avx => [.avx, .popcnt]
  | .gnu avx2 _ _ _ _, .avx2 => if avx2 then [.avx2, .popcnt, .bmi1, .bmi2, .lzcnt] else []
  | .gnu _ vbmi2 noEvex _ _, .vbmi2 =>
    if vbmi2 then [.avx512vbmi2, .avx512vl, .avx512bw, .popcnt, .bmi1, .bmi2, .lzcnt] ++ (if noEvex then [] else [.evex512]) else []
  | .gnu .., .clmul => [.ssse3, .sse41, .pclmul]
  | .gnu _ _ _ vpclmul _, .clmul256 => if vpclmul then [.avx2, .vpclmul, .pclmul] else []
  | .msvc _, .sse2 | .msvc _, .ssse3 | .msvc _, .clmul => []
  | .msvc _, .avx | .msvc _, .avx2 | .msvc _, .clmul256 => [.avx]
  | .msvc _, .vbmi2 => [.avx512f, .avx512cd, .avx512bw, .avx512dq, .avx512vl, .evex512, .bmi1, .bmi2, .lzcnt]

namespace Build

/-- Instructions the compiler may use anywhere in a group of files. -/
def assumes (b : Build) (f : File) (x : Feature) : Bool := b.base x || (switches b.compiler f).any fun s => s == x || (implied s).contains x

/-- Macros like `__AVX2__` in a group of files: what the compiler assumes, resp. common.h:61-89 for MSVC. -/
def defd (b : Build) (f : File) (x : Feature) : Bool :=
  match b.compiler with
  | .gnu .. => b.assumes f x
  | .msvc v =>
    match x with
    | .sse2 | .ssse3 | .sse41 => true
    | .popcnt | .lzcnt => decide (1600 ≤ v)
    | .avx => b.assumes f x || decide (1700 ≤ v)
    | .avx2 => b.assumes f x || decide (1800 ≤ v)
    | .avx512f | .avx512bw => b.assumes f x || decide (1911 ≤ v)
    | .avx512vl => b.assumes f x || decide (1912 ≤ v)
    | .avx512vbmi2 => decide (1920 ≤ v)
    | _ => b.assumes f x

/-- `encoder_has_avx10`, `decoder_has_avx10`, encoder_vbmi2.cc:4-8, decoder_vbmi2.cc:4-8. (`__EVEX512__` and `__EVEX256__` are known to compilers that have the switch `-mno-evex512`.) -/
def hasAvx10 (b : Build) : Bool :=
  match b.compiler with
  | .gnu _ _ noEvex _ evexMacro =>
    -- __EVEX512__ is defined by compilers that know it if vectors of 512 bits may be used, __EVEX256__ if they may not
    !(evexMacro && b.assumes .vbmi2 .evex512) && (evexMacro && noEvex) && b.defd .vbmi2 .avx512vl && b.defd .vbmi2 .avx512vbmi2 && b.defd .vbmi2 .avx512bw
  | .msvc _ => false

/-- What is true of every build. -/
structure Wf (b : Build) : Prop where
  /-- Compilers that take an extension for granted take what it implies for granted, too. -/
  closed : ∀ x y, b.base x = true → y ∈ implied x → b.base y = true
  /-- Compilers for x64 take SSE2 for granted. -/
  sse2 : b.amd64 = true → b.base .sse2 = true
  /-- binding.gyp:9-10: `/arch:SSE2` in builds with MSVC. -/
  msvc : ∀ v, b.compiler = .msvc v → b.base .sse2 = true
  /-- binding.gyp:12, 48: not on Windows. -/
  native : b.native = true → ∀ v, b.compiler ≠ .msvc v
  /-- Tuning for the processor at hand is part of `-march=native`. -/
  tune : b.native = false → b.tune = {}
  /-- No processor with AVX512 is one of those with slow shuffles. -/
  slow : b.base .avx512vl = true → b.tune.slowShuffle = false ∧ b.tune.btver1 = false ∧ b.tune.btver2 = false
  /-- VBMI2 comes with the other parts of AVX512. -/
  vl : b.base .avx512vbmi2 = true → b.base .avx512vl = true
  /-- Otherwise it does not compile: `_lzcnt_u32` in encoder_avx_base.h:80-575 without the instruction. -/
  lzcnt : b.native = true → b.base .avx2 = true → b.disableAvx256 = false → b.base .lzcnt = true

end Build

/-! ### Encoder -/

/-- What `_do_encode` points to: the function, its instance `use_isa`, and the group of files it is compiled in. -/
inductive EncFn where
  | generic
  | sse (f : File) (isa : Isa)
  | avx2 (f : File) (isa : Isa)

/-- The tables of the encoder: those of `encoder_sse_lut` (encoder_sse_base.h:27-80), whose entries are in the order of LZCNT or of BSR (line 69), and those of `encoder_avx2_lut`
(encoder_avx_base.h:33-77), with or without VBMI2 (line 35). -/
inductive EncTable where
  | sse (lz : Bool)
  | avx2 (vbmi2 : Bool)
deriving DecidableEq

/-- The tables made by `encoder_sse_lut<isa>`, encoder_sse_base.h:69: the order depends on `use_isa` only. -/
def sseTable (isa : Isa) : EncTable := .sse (decide (isa &&& LZCNT ≠ 0#32))
/-- ... by `encoder_avx2_lut<isa>`, encoder_avx_base.h:35. -/
def avx2Table (isa : Isa) : EncTable := .avx2 (decide (VBMI2 ≤ isa))

/-- The encoder's pointer; which tables of a group of files have been filled; and the groups whose code has run so far. -/
structure EncState where
  fn : EncFn
  luts : List (File × EncTable)
  ran : List File

/-- encoder.cc:148-151. -/
def EncState.start : EncState := ⟨.generic, [], []⟩

variable (b : Build)

/-- `encoder_sse2_init`, encoder_sse2.cc:4-14. -/
def encoderSse2 (s : EncState) : EncState :=
  if b.defd .sse2 .sse2 then ⟨.sse .sse2 SSE2, (.sse2, sseTable SSE2) :: s.luts, .sse2 :: s.ran⟩ else { s with ran := .sse2 :: s.ran }
/-- `encoder_ssse3_init`, encoder_ssse3.cc:6-18. -/
def encoderSsse3 (s : EncState) : EncState :=
  if b.defd .ssse3 .ssse3 then ⟨.sse .ssse3 SSSE3, (.ssse3, sseTable SSSE3) :: s.luts, .ssse3 :: s.ran⟩ else encoderSse2 b { s with ran := .ssse3 :: s.ran }
/-- `encoder_avx_init`, encoder_avx.cc:4-16. -/
def encoderAvx (s : EncState) : EncState :=
  if b.defd .avx .avx && b.defd .avx .popcnt then ⟨.sse .avx SSE4_POPCNT, (.avx, sseTable SSE4_POPCNT) :: s.luts, .avx :: s.ran⟩ else encoderSsse3 b { s with ran := .avx :: s.ran }
/-- `encoder_avx2_init`, encoder_avx2.cc:4-16. -/
def encoderAvx2 (s : EncState) : EncState :=
  if b.defd .avx2 .avx2 && !b.disableAvx256 then ⟨.avx2 .avx2 AVX2, (.avx2, avx2Table AVX2) :: s.luts, .avx2 :: s.ran⟩ else encoderAvx b { s with ran := .avx2 :: s.ran }
/-- `encoder_vbmi2_init`, encoder_vbmi2.cc:10-31. -/
def encoderVbmi2 (s : EncState) : EncState :=
  if b.defd .vbmi2 .avx512vl && b.defd .vbmi2 .avx512vbmi2 && b.defd .vbmi2 .avx512bw then
    if !b.disableAvx256 then ⟨.avx2 .vbmi2 VBMI2, (.vbmi2, avx2Table VBMI2) :: s.luts, .vbmi2 :: s.ran⟩ else ⟨.sse .vbmi2 VBMI2, (.vbmi2, sseTable VBMI2) :: s.luts, .vbmi2 :: s.ran⟩
  else encoderAvx2 b { s with ran := .vbmi2 :: s.ran }

/-- `ISA_NATIVE`, common.h:259-287. -/
def isaNative : Isa :=
  match b.compiler with
  | .msvc _ => SSE2
  | .gnu .. =>
    let l := if b.base .avx512vbmi2 then VBMI2 else if b.base .avx512bw then AVX3 else if b.base .avx2 then AVX2 else if b.base .sse41 then SSE41
      else if b.base .ssse3 then SSSE3 else SSE2
    if b.base .popcnt then (if b.base .lzcnt then l ||| POPCNT ||| LZCNT else l ||| POPCNT) else l

/-- `encoder_native_init`, encoder.cc:153-169. -/
def encoderNative (s : EncState) : EncState :=
  if b.base .avx2 && !b.disableAvx256 then ⟨.avx2 .main (isaNative b), (.main, avx2Table (isaNative b)) :: s.luts, .main :: s.ran⟩
  else ⟨.sse .main (isaNative b), (.main, sseTable (isaNative b)) :: s.luts, .main :: s.ran⟩

/-- `encoder_init` on x86, encoder.cc:172-188. `none`: the program is killed by an undefined instruction. -/
def encoderInit (c : Cpu) (s : EncState) : Option EncState :=
  if b.native then some (encoderNative b s)
  else
    match supportsIsa c with
    | none => none
    | some isa =>
      some <|
        if VBMI2 ≤ isa ∧ (b.hasAvx10 = true ∨ isa &&& EVEX512 ≠ 0#32) then encoderVbmi2 b s
        else if AVX2 ≤ isa then encoderAvx2 b s
        else if AVX ≤ isa then encoderAvx b s
        else if SSSE3 ≤ isa then encoderSsse3 b s
        else encoderSse2 b s

/-- `do_encode_sse<isa>` as compiled in a group of files: the `#if`s of encoder_sse_base.h. -/
def encCfg (f : File) (isa : Isa) : Enc.Simd.X86.Cfg where
  ssse3 := decide (SSSE3 ≤ isa)
  blendv := b.defd f .sse41 && !b.tune.slowBlend && decide (SSE41 ≤ isa)
  popcnt := b.defd f .popcnt && !b.tune.btver1 && decide (isa &&& POPCNT ≠ 0#32)
  lzcnt := b.defd f .lzcnt && decide (isa &&& LZCNT ≠ 0#32)
  avx3 := b.defd f .avx512vl && b.defd f .avx512bw && decide (AVX3 ≤ isa)
  vbmi2 := b.defd f .avx512vbmi2 && b.defd f .avx512vl && b.defd f .avx512bw && decide (VBMI2 ≤ isa)
  pshufb := b.defd f .ssse3 && !b.tune.slowShuffle && decide (SSSE3 ≤ isa)
  btver1 := b.tune.btver1
  branching := decide (isa < SSSE3)
  asm := match b.compiler with
    | .gnu .. => b.tune.k8 || decide (VBMI2 ≤ isa)
    | .msvc _ => false
  split := b.tune.split

/-- `do_encode_avx2<isa>`: the `#if`s of encoder_avx_base.h. -/
def encCfg2 (f : File) (isa : Isa) : Enc.Simd.X86.Cfg2 where
  avx3 := b.defd f .avx512vl && b.defd f .avx512bw && decide (AVX3 ≤ isa)
  vbmi2 := b.defd f .avx512vbmi2 && b.defd f .avx512vl && b.defd f .avx512bw && decide (VBMI2 ≤ isa)
  zen1 := b.tune.zen1
  asm := match b.compiler with
    | .gnu .. => b.amd64 && decide (VBMI2 ≤ isa)
    | .msvc _ => false

/-- The function behind the pointer. `m0` is what the destination contains before the call. -/
def EncFn.impl (fn : EncFn) (m0 : Mem) : Enc.Impl :=
  match fn with
  | .generic => Enc.encodeGeneric
  | .sse f isa => Enc.Simd.encode (Enc.Simd.run (Enc.Simd.X86.sse (encCfg b f isa))) m0
  | .avx2 f isa => Enc.Simd.encode (Enc.Simd.run (Enc.Simd.X86.avx2 (encCfg2 b f isa))) m0

/-- Instructions an encoder function executes because they are written in it (as intrinsics) for its `use_isa`. -/
def EncFn.uses (fn : EncFn) : List Feature :=
  match fn with
  | .generic => []
  | .sse f isa =>
    let c := encCfg b f isa
    [.sse2] ++ (if c.ssse3 then [.ssse3] else []) ++ (if c.blendv then [.sse41] else []) ++ (if c.popcnt then [.popcnt] else []) ++ (if c.lzcnt then [.lzcnt] else []) ++
      (if c.avx3 then [.avx512f, .avx512vl, .avx512bw] else []) ++ (if c.vbmi2 then [.avx512vbmi2] else [])
  | .avx2 f isa =>
    let c := encCfg2 b f isa
    [.avx2, .popcnt, .lzcnt] ++ (if c.avx3 then [.avx512f, .avx512vl, .avx512bw] else []) ++ (if c.vbmi2 then [.avx512vbmi2] else [])

/-- The tables a function reads: its index comes from LZCNT only if the compiler has it (encoder_sse_base.h:107-118, 517-524). -/
def EncFn.reads (fn : EncFn) : Option (File × EncTable) :=
  match fn with
  | .generic => none
  | .sse f isa => some (f, .sse (encCfg b f isa).lzcnt)
  | .avx2 f isa => some (f, .avx2 (encCfg2 b f isa).vbmi2)

/-- The encoder after start-up: `none` if it reads tables that have not been made, or not in that way. -/
def EncState.impl (s : EncState) (m0 : Mem) : Option Enc.Impl :=
  match s.fn.reads b with
  | none => some (s.fn.impl b m0)
  | some t => if t ∈ s.luts then some (s.fn.impl b m0) else none

/-! ### Decoder -/

/-- What `_do_decode`, `_do_decode_raw` and `_do_decode_end_raw` point to. -/
inductive DecFn where
  | generic
  | sse (f : File) (isa : Isa)
  | avx2 (f : File) (isa : Isa)

/-- The decoder's pointers, the groups of files whose `lookups` have been allocated and filled, and the groups whose code has run. -/
structure DecState where
  fn : DecFn
  luts : List File
  ran : List File

/-- decoder.cc:341-347. -/
def DecState.start : DecState := ⟨.generic, [], []⟩

/-- `decoder_set_sse2_funcs`, decoder_sse2.cc:28-38. -/
def decoderSse2 (s : DecState) : DecState :=
  if b.defd .sse2 .sse2 then ⟨.sse .sse2 SSE2, .sse2 :: s.luts, .sse2 :: s.ran⟩ else { s with ran := .sse2 :: s.ran }
/-- `decoder_set_ssse3_funcs`, decoder_ssse3.cc:4-18 (`decoder_sse_init` is compiled in decoder_sse2.cc). -/
def decoderSsse3 (s : DecState) : DecState :=
  if b.defd .ssse3 .ssse3 then ⟨.sse .ssse3 SSSE3, .ssse3 :: s.luts, .sse2 :: .ssse3 :: s.ran⟩ else decoderSse2 b { s with ran := .ssse3 :: s.ran }
/-- `decoder_set_avx_funcs`, decoder_avx.cc:4-18. -/
def decoderAvx (s : DecState) : DecState :=
  if b.defd .avx .avx && b.defd .avx .popcnt then ⟨.sse .avx SSE4_POPCNT, .avx :: s.luts, .sse2 :: .avx :: s.ran⟩ else decoderSsse3 b { s with ran := .avx :: s.ran }
/-- `decoder_set_avx2_funcs`, decoder_avx2.cc:4-18. -/
def decoderAvx2 (s : DecState) : DecState :=
  if b.defd .avx2 .avx2 && !b.disableAvx256 then ⟨.avx2 .avx2 AVX2, .avx2 :: s.luts, .avx2 :: s.ran⟩ else decoderAvx b { s with ran := .avx2 :: s.ran }
/-- `decoder_set_vbmi2_funcs`, decoder_vbmi2.cc:10-32: no tables. -/
def decoderVbmi2 (s : DecState) : DecState :=
  if b.defd .vbmi2 .avx512vl && b.defd .vbmi2 .avx512vbmi2 && b.defd .vbmi2 .avx512bw then
    if !b.disableAvx256 then ⟨.avx2 .vbmi2 VBMI2, s.luts, .vbmi2 :: s.ran⟩ else ⟨.sse .vbmi2 VBMI2, s.luts, .vbmi2 :: s.ran⟩
  else decoderAvx2 b { s with ran := .vbmi2 :: s.ran }
/-- `decoder_set_native_funcs`, decoder.cc:352-376. -/
def decoderNative (s : DecState) : DecState :=
  if b.base .avx2 && !b.disableAvx256 then ⟨.avx2 .main (isaNative b), .main :: s.luts, .main :: s.ran⟩
  else ⟨.sse .main (isaNative b), .main :: s.luts, .sse2 :: .main :: s.ran⟩

/-- `decoder_init` on x86, decoder.cc:403-419. -/
def decoderInit (c : Cpu) (s : DecState) : Option DecState :=
  if b.native then some (decoderNative b s)
  else
    match supportsIsa c with
    | none => none
    | some isa =>
      some <|
        if VBMI2 ≤ isa ∧ (b.hasAvx10 = true ∨ isa &&& EVEX512 ≠ 0#32) then decoderVbmi2 b s
        else if AVX2 ≤ isa then decoderAvx2 b s
        else if AVX ≤ isa then decoderAvx b s
        else if SSSE3 ≤ isa then decoderSsse3 b s
        else decoderSse2 b s

/-- `do_decode_sse<..., isa>` (decoder_sse_base.h:108-124 and the other `#if`s there) and `do_decode_avx2<..., isa>` (decoder_avx2_base.h:76-82, 145, 227, 547). -/
def decCfg (avx2 : Bool) (f : File) (isa : Isa) : Dec.Simd.X86.Cfg where
  avx2 := avx2
  fast := avx2 || (b.defd f .ssse3 && !b.tune.slowShuffle && !b.tune.btver2 && decide (SSSE3 ≤ isa))
  blend := avx2 || (b.defd f .sse41 && !b.tune.slowBlend && decide (SSE41 ≤ isa))
  ssse3 := avx2 || (b.defd f .ssse3 && decide (SSSE3 ≤ isa))
  palignr := !b.tune.btver1
  popcnt := avx2 || (b.defd f .popcnt && !b.tune.btver1 && decide (isa &&& POPCNT ≠ 0#32))
  avx3 := b.defd f .avx512vl && b.defd f .avx512bw && decide (AVX3 ≤ isa)
  maskCmp := b.defd f .avx512vl && b.defd f .avx512bw && decide (AVX3 ≤ isa) && !(match b.compiler with | .gnu .. => false | .msvc _ => !b.amd64)
  vbmi2 := b.defd f .avx512vbmi2 && b.defd f .avx512vl && (avx2 || b.defd f .popcnt) && decide (VBMI2 ≤ isa)
  compressStore := b.tune.compressStore
  amd64 := b.amd64

/-- The functions behind the pointers. -/
def DecFn.impl (fn : DecFn) : Dec.M.Impl :=
  match fn with
  | .generic => Dec.M.generic
  | .sse f isa => Dec.Simd.impl (Dec.Simd.X86.kernel (decCfg b false f isa)) false
  | .avx2 f isa => Dec.Simd.impl (Dec.Simd.X86.kernel (decCfg b true f isa)) false

/-- Instructions a decoder function executes because they are written in it for its `use_isa`. -/
def DecFn.uses (fn : DecFn) : List Feature :=
  match fn with
  | .generic => []
  | .sse f isa =>
    let c := decCfg b false f isa
    [.sse2] ++ (if c.ssse3 then [.ssse3] else []) ++ (if c.blend then [.sse41] else []) ++ (if c.popcnt then [.popcnt] else []) ++
      (if b.defd f .lzcnt && decide (isa &&& LZCNT ≠ 0#32) then [.lzcnt] else []) ++
      (if c.avx3 then [.avx512f, .avx512vl, .avx512bw] else []) ++ (if c.vbmi2 then [.avx512vbmi2] else [])
  | .avx2 f isa =>
    let c := decCfg b true f isa
    [.avx2, .popcnt] ++ (if c.avx3 then [.avx512f, .avx512vl, .avx512bw] else []) ++ (if c.vbmi2 then [.avx512vbmi2] else [])

/-- The group of files whose `lookups` a decoder function reads (decoder_sse_base.h:88, 524-554, 641-681, decoder_avx2_base.h:547-590): all but the ones with VBMI2. -/
def DecFn.reads (fn : DecFn) : Option File :=
  match fn with
  | .generic => none
  | .sse f isa => if (decCfg b false f isa).vbmi2 && (decCfg b false f isa).avx3 then none else some f
  | .avx2 f isa => if (decCfg b true f isa).vbmi2 then none else some f

/-- The decoder after start-up: `none` if it reads tables that have not been made. -/
def DecState.impl (s : DecState) : Option Dec.M.Impl :=
  match s.fn.reads b with
  | none => some (s.fn.impl b)
  | some f => if f ∈ s.luts then some (s.fn.impl b) else none

/-! ### CRC -/

/-- What `_do_crc32_incremental` points to. -/
inductive CrcFn where
  | generic | clmul | clmul256

/-- The pointers of the CRC functions (`_crc32_multiply` and `_crc32_shift` go together), and the groups of files that have run. -/
structure CrcState where
  incr : CrcFn
  mulClmul : Bool
  ran : List File

/-- crc.cc:188-192. -/
def CrcState.start : CrcState := ⟨.generic, false, []⟩

/-- crc_folding.cc:22: the file has something in it. -/
def clmulCompiled : Bool :=
  match b.compiler with
  | .gnu .. => b.defd .clmul .pclmul && b.defd .clmul .ssse3 && b.defd .clmul .sse41
  | .msvc v => decide (1600 ≤ v)

/-- crc_folding_256.cc:5. -/
def clmul256Compiled : Bool :=
  !b.disableAvx256 &&
  match b.compiler with
  | .gnu .. => b.defd .clmul256 .vpclmul && b.defd .clmul256 .avx2 && b.defd .clmul256 .pclmul
  | .msvc v => decide (1920 ≤ v)

/-- `crc_clmul_set_funcs`, crc_folding.cc:502-512. -/
def crcClmul (s : CrcState) : CrcState := if clmulCompiled b then ⟨.clmul, true, .clmul :: s.ran⟩ else { s with ran := .clmul :: s.ran }
/-- `crc_clmul256_set_funcs`, crc_folding_256.cc:213-222. -/
def crcClmul256 (s : CrcState) : CrcState :=
  if clmul256Compiled b then { crcClmul b { s with ran := .clmul256 :: s.ran } with incr := .clmul256 } else crcClmul b { s with ran := .clmul256 :: s.ran }

/-- `crc32_init` on x86, crc.cc:230-239. -/
def crcInit (c : Cpu) (s : CrcState) : Option CrcState :=
  match supportsCrcIsa c with
  | none => none
  | some 2 => some (crcClmul256 b s)
  | some 1 => some (crcClmul b s)
  | some _ => some s

/-- `ENABLE_AVX512` in crc_folding.cc:28-30, crc_folding_256.cc:10-12. -/
def crcAvx512 (f : File) : Bool := b.defd f .avx512vl && b.native

/-- crc_folding.cc:382. -/
def crcGfni : Bool := b.defd .clmul .gfni && b.native

/-- The functions behind the pointers. `target` is the variant of crcutil the compiler selects, `around` what memory contains near the data. -/
def CrcState.impl (s : CrcState) (target : Crc.Util.Target) (around : Nat → List Byte → Nat → Byte) : Crc.Impl where
  incr := match s.incr with
    | .generic => if b.disableCrcutil then Crc.generic else fun addr data init => Crc.Util.incr target ⟨addr, data, around addr data⟩ init
    | .clmul => fun addr data init => Crc.X86.crcFold (crcAvx512 b .clmul) ⟨addr, data, around addr data⟩ init
    | .clmul256 => fun addr data init => Crc.X86.crcFold256 (crcAvx512 b .clmul256) ⟨addr, data, around addr data⟩ init
  multiply := if s.mulClmul then Crc.X86.multiply else Crc.multiply
  shift := if s.mulClmul then Crc.X86.shift (crcAvx512 b .clmul) (crcGfni b) else Crc.shift

/-- Instructions written in the CRC functions. -/
def CrcState.uses (s : CrcState) : List Feature :=
  (match s.incr with
    | .generic => []
    | .clmul => [.sse2, .ssse3, .sse41, .pclmul] ++ (if crcAvx512 b .clmul then [.avx512f, .avx512vl] else [])
    | .clmul256 => [.avx2, .vpclmul, .pclmul] ++ (if crcAvx512 b .clmul256 then [.avx512f, .avx512vl] else [])) ++
  (if s.mulClmul then [.sse2, .ssse3, .sse41, .pclmul] ++ (if crcAvx512 b .clmul then [.avx512f, .avx512vl] else []) ++ (if crcGfni b then [.gfni] else []) else [])

/-! ### ARM -/

/-- A build for ARM: 64 or 32 bits, which of encoder_neon.cc/decoder_neon*.cc, crc_arm.cc (crc_arm.cc:3-26) and crc_arm_pmull.cc (crc_arm_pmull.cc:4-19) are not empty, and whether
`__GNUC__` or `_MSC_VER` is defined. -/
structure ArmBuild where
  a64 : Bool
  neon : Bool
  crc : Bool
  pmull : Bool
  bitscan : Bool
  msvc : Bool

/-- The function pointers on ARM: NEON encoder, NEON decoder, and whether crc_arm.cc resp. crc_arm_pmull.cc provide the CRC functions. -/
structure ArmState where
  enc : Bool
  dec : Bool
  crc : Bool
  mulArm : Bool
  shiftArm : Bool
  pmull : Bool

def ArmState.start : ArmState := ⟨false, false, false, false, false, false⟩

/-- `init_all` on ARM: encoder.cc:189-192, decoder.cc:420-423 with `encoder_neon_init` (encoder_neon.cc:523-550) and `decoder_set_neon_funcs` (decoder_neon.cc:453-462, decoder_neon64.cc:437-446), crc.cc:241-285
with `crc_arm_set_funcs` (crc_arm.cc:214-226) and `crc_pmull_set_funcs` (crc_arm_pmull.cc:207-214). `has` is what the operating system says. -/
def armInit (b : ArmBuild) (has : ArmFeature → Bool) (s : ArmState) : ArmState :=
  let s := if has .neon && b.neon then { s with enc := true, dec := true } else s
  if has .crc then
    let s := if b.crc then { s with crc := true, mulArm := s.mulArm || b.a64, shiftArm := s.shiftArm || (b.a64 && b.bitscan) } else s
    if has .pmull && b.pmull then { s with pmull := true } else s
  else s

/-- Instructions written in the functions selected (crc_arm_pmull.cc uses CRC instructions as well). -/
def ArmState.uses (s : ArmState) : List ArmFeature :=
  (if s.enc then [.neon] else []) ++ (if s.dec then [.neon] else []) ++ (if s.crc then [.crc] else []) ++ (if s.mulArm then [.crc] else []) ++
    (if s.shiftArm then [.crc] else []) ++ (if s.pmull then [.crc, .pmull] else [])

def ArmState.enc' (s : ArmState) (b : ArmBuild) (m0 : Mem) : Enc.Impl :=
  if s.enc then Enc.Simd.encode (Enc.Simd.eRun (Enc.Simd.Neon.neon b.a64)) m0 else Enc.encodeGeneric
def ArmState.dec' (s : ArmState) (b : ArmBuild) : Dec.M.Impl :=
  if s.dec then Dec.Simd.impl (Dec.Simd.Neon.kernel b.a64) true else Dec.M.generic
def ArmState.crc' (s : ArmState) (b : ArmBuild) (around : Nat → List Byte → Nat → Byte) : Crc.Impl where
  incr := if s.crc then fun addr data init => (Crc.Arm.armCalc (if b.a64 then 3 else 2) ⟨addr, data, around addr data⟩ (~~~init) data.length).map fun r => ~~~r else Crc.generic
  multiply := if s.pmull then Crc.Arm.multiplyPmull b.a64 else if s.mulArm then Crc.Arm.multiply else Crc.multiply
  shift := if s.pmull then Crc.Arm.shiftPmull b.a64 b.msvc else if s.shiftArm then Crc.Arm.shift else if b.bitscan then Crc.shift else Crc.shiftPortable

/-! ### RISC-V -/

/-- A build for RISC-V: 64 or 32 bits, and whether encoder_rvv.cc/decoder_rvv.cc (common.h:303-310) resp. crc_riscv.cc (crc_riscv.cc:3) are not empty. -/
structure RvBuild where
  xlen64 : Bool
  rvv : Bool
  zbkc : Bool

structure RvState where
  vec : Bool
  crc : Bool

def RvState.start : RvState := ⟨false, false⟩

/-- `cpu_supports_rvv`, platform.cc:200-211. -/
def supportsRvv (c : RvCpu) : Bool := c.hwcap &&& 0x20112D#64 == 0x20112D#64

/-- crc.cc:286-296. -/
def supportsZbkc (c : RvCpu) : Bool :=
  match c.hwprobe with
  | none => false
  | some x => x &&& (1#64 <<< 7 ||| 1#64 <<< 9) != 0#64

/-- `init_all` on RISC-V: encoder.cc:193-196, decoder.cc:424-427, crc.cc:286-296 with encoder_rvv.cc:201-207, decoder_rvv.cc:273-281, crc_riscv.cc:241-251. -/
def rvInit (b : RvBuild) (c : RvCpu) (s : RvState) : RvState :=
  let s := if supportsRvv c && b.rvv then { s with vec := true } else s
  if supportsZbkc c && b.zbkc then { s with crc := true } else s

/-- Instructions the compiler may use in the functions selected (binding.gyp:353 `-march=rv64gcv`, 475 `-march=rv64gc_zbkc`), beyond those of the rest of the program. -/
def RvState.uses (s : RvState) : List RvFeature :=
  (if s.vec then [.i, .m, .a, .f, .d, .c, .v] else []) ++ (if s.crc then [.zbkc] else [])

def RvState.enc' (s : RvState) (vl : Nat) (junk : Nat → Vec) (m0 : Mem) : Enc.Impl :=
  if s.vec then Enc.Simd.encode (Enc.Simd.eRun (Enc.Simd.Rvv.rvv vl junk)) m0 else Enc.encodeGeneric
def RvState.dec' (s : RvState) (vl : Nat) (junk : Dec.Simd.Rvv.Regs → (Nat → Byte) → Dec.Simd.Rvv.Junk) : Dec.M.Impl :=
  if s.vec then Dec.Simd.impl (Dec.Simd.Rvv.kernel vl junk) false else Dec.M.generic
def RvState.crc' (s : RvState) (b : RvBuild) (around : Nat → List Byte → Nat → Byte) : Crc.Impl where
  incr := if s.crc then fun addr data init => (Crc.Rv.crcCalc (if b.xlen64 then 64 else 32) ⟨addr, data, around addr data⟩ (~~~init) data.length).map fun r => ~~~r else Crc.generic
  multiply := if s.crc then Crc.Rv.multiply (if b.xlen64 then 64 else 32) else Crc.multiply
  shift := if s.crc then Crc.Rv.shift (if b.xlen64 then 64 else 32) else Crc.shift

end Yenc.Startup
