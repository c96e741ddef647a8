import Verif.Model.Startup
import Mathlib.Tactic.SplitIfs
import Mathlib.Tactic.Tauto
/-!
Facts about start-up: what the levels found by `cpu_supports_isa` say about the processor, and that the functions selected are among the ones the other theorems are about.
-/
namespace Yenc.Startup
open Spec (Cpu CpuidRegs Feature ArmFeature RvFeature RvCpu Usable Coherent RvUsable)

/-! ### Bits -/

theorem bit_of_and_eq {w : Nat} {x m : BitVec w} (h : x &&& m = m) (i : Nat) (hm : m.getLsbD i = true) : x.getLsbD i = true := by
  have h' : (x &&& m).getLsbD i = m.getLsbD i := by rw [h]
  rw [BitVec.getLsbD_and, hm] at h'
  simpa using h'

theorem bit_of_and_ne {x m : BitVec 32} (h : x &&& m ≠ 0#32) (i : Nat) (hm : m = BitVec.twoPow 32 i) : x.getLsbD i = true := by
  rw [hm, BitVec.and_twoPow] at h
  cases hb : x.getLsbD i
  · simp [hb] at h
  · rfl

theorem bits_of_xcr {x : BitVec 32} {m : BitVec 32} (h : x &&& 0xff#32 &&& m = m) (i : Nat) (hm : m.getLsbD i = true) : x.getLsbD i = true := by
  have := bit_of_and_eq h i hm
  rw [BitVec.getLsbD_and, Bool.and_eq_true] at this
  exact this.1

theorem avx10_version {x : BitVec 32} (h : 1 ≤ (x &&& 0xff#32).toNat) : 1 ≤ (x.setWidth 8).toNat := by
  have : (x &&& 0xff#32).toNat = (x.setWidth 8).toNat := by
    rw [BitVec.toNat_and, BitVec.toNat_setWidth]
    exact Nat.and_two_pow_sub_one_eq_mod x.toNat 8
  omega

/-! ### Levels -/

/-- What a level says about the processor. -/
structure Level (c : Cpu) (isa : Isa) : Prop where
  ssse3 : SSSE3 ≤ isa → Usable c .ssse3 ∧ Usable c .sse3
  avx : AVX ≤ isa → Usable c .avx ∧ Usable c .sse42 ∧ Usable c .sse41 ∧ Usable c .popcnt ∧ Usable c .xsave
  avx2 : AVX2 ≤ isa → Usable c .avx2 ∧ Usable c .bmi1 ∧ Usable c .bmi2 ∧ Usable c .lzcnt
  vbmi2 : VBMI2 ≤ isa → Usable c .avx512f ∧ Usable c .avx512cd ∧ Usable c .avx512bw ∧ Usable c .avx512dq ∧ Usable c .avx512vl ∧ Usable c .avx512vbmi2 ∧ Usable c .f16c ∧ Usable c .fma
  evex : VBMI2 ≤ isa → isa &&& EVEX512 ≠ 0#32 → Usable c .evex512

theorem features_cases (f f2 : CpuidRegs) : features f f2 = 0#32 ∨ features f f2 = 1#32 ∨ features f f2 = 3#32 := by
  unfold features
  split_ifs <;> decide

theorem features_lzcnt (f f2 : CpuidRegs) (h : features f f2 &&& LZCNT ≠ 0#32) : f2.ecx.getLsbD 5 = true := by
  unfold features at h
  by_cases h2 : f2.ecx &&& 0x20#32 ≠ 0#32
  · exact bit_of_and_ne h2 5 (by decide)
  · rw [if_neg h2] at h
    split_ifs at h <;> exact absurd (by decide) h

theorem getXcr_eq {c : Cpu} {x : BitVec 32} (h : getXcr c = some x) : c.Osxsave ∧ x = c.xcr0 := by
  unfold getXcr at h
  split at h
  · rename_i hb
    exact ⟨hb, (Option.some.inj h).symm⟩
  · simp at h

theorem getXcr_isSome {c : Cpu} (h : c.Osxsave) : getXcr c = some c.xcr0 := by
  unfold getXcr
  exact if_pos h

theorem isSome_ite {α : Type} {p : Prop} [Decidable p] {a b : Option α} (ha : a.isSome = true) (hb : b.isSome = true) : (if p then a else b).isSome = true := by
  split <;> assumption

theorem supportsIsa_ne_none (c : Cpu) : ∃ isa, supportsIsa c = some isa := by
  rw [← Option.isSome_iff_exists]
  unfold supportsIsa
  dsimp only
  by_cases h : (c.cpuid 1 0).ecx &&& 0x1C800000#32 = 0x1C800000#32
  · rw [getXcr_isSome (bit_of_and_eq h 27 (by decide))]
    dsimp only
    repeat' first | exact Option.isSome_some | refine isSome_ite ?_ ?_
  · rw [if_neg h]
    repeat' first | exact Option.isSome_some | refine isSome_ite ?_ ?_

theorem supportsCrcIsa_ne_none (c : Cpu) : ∃ n, supportsCrcIsa c = some n := by
  rw [← Option.isSome_iff_exists]
  unfold supportsCrcIsa
  dsimp only
  by_cases h : (c.cpuid 1 0).ecx &&& 0x1C000000#32 = 0x1C000000#32
  · rw [getXcr_isSome (bit_of_and_eq h 27 (by decide))]
    dsimp only
    repeat' first | exact Option.isSome_some | refine isSome_ite ?_ ?_
  · rw [if_neg h]
    repeat' first | exact Option.isSome_some | refine isSome_ite ?_ ?_

/-- A level below those of AVX. -/
theorem Level.of_low {c : Cpu} (f l : Isa) (hf : f = 0#32 ∨ f = 1#32 ∨ f = 3#32) (hl : l = SSE2 ∨ ((l = SSSE3 ∨ l = SSE41) ∧ Usable c .ssse3 ∧ Usable c .sse3)) :
    Level c (f ||| l) := by
  refine ⟨fun h => ?_, fun h => absurd h ?_, fun h => absurd h ?_, fun h => absurd h ?_, fun h => absurd h ?_⟩
  · rcases hl with rfl | ⟨_, h'⟩
    · exact absurd h (by rcases hf with rfl | rfl | rfl <;> decide)
    · exact h'
  all_goals rcases hl with rfl | ⟨rfl | rfl, _⟩ <;> rcases hf with rfl | rfl | rfl <;> decide

/-- Facts about AVX, AVX2, AVX512 as a level needs them. -/
def HasAvx (c : Cpu) : Prop := (Usable c .ssse3 ∧ Usable c .sse3) ∧ Usable c .avx ∧ Usable c .sse42 ∧ Usable c .sse41 ∧ Usable c .popcnt ∧ Usable c .xsave
def HasAvx2 (c : Cpu) : Prop := Usable c .avx2 ∧ Usable c .bmi1 ∧ Usable c .bmi2 ∧ Usable c .lzcnt
def HasVbmi2 (c : Cpu) : Prop :=
  Usable c .avx512f ∧ Usable c .avx512cd ∧ Usable c .avx512bw ∧ Usable c .avx512dq ∧ Usable c .avx512vl ∧ Usable c .avx512vbmi2 ∧ Usable c .f16c ∧ Usable c .fma

theorem Level.of_avx {c : Cpu} (f : Isa) (hf : f = 0#32 ∨ f = 1#32 ∨ f = 3#32) (h : HasAvx c) : Level c (f ||| AVX) := by
  refine ⟨fun _ => h.1, fun _ => h.2, fun h => absurd h ?_, fun h => absurd h ?_, fun h => absurd h ?_⟩
  all_goals rcases hf with rfl | rfl | rfl <;> decide

theorem Level.of_avx2 {c : Cpu} (f l : Isa) (hf : f = 0#32 ∨ f = 1#32 ∨ f = 3#32) (hl : l = AVX2 ∨ l = EVEX512 ||| AVX3) (h : HasAvx c) (h2 : HasAvx2 c) : Level c (f ||| l) := by
  refine ⟨fun _ => h.1, fun _ => h.2, fun _ => h2, fun h => absurd h ?_, fun h => absurd h ?_⟩
  all_goals rcases hl with rfl | rfl <;> rcases hf with rfl | rfl | rfl <;> decide

theorem Level.of_vbmi2 {c : Cpu} (f l : Isa) (hf : f = 0#32 ∨ f = 1#32 ∨ f = 3#32) (hl : l = VBMI2 ∨ l = EVEX512 ||| VBMI2 ∧ Usable c .evex512) (h : HasAvx c) (h2 : HasAvx2 c)
    (h3 : HasVbmi2 c) : Level c (f ||| l) := by
  refine ⟨fun _ => h.1, fun _ => h.2, fun _ => h2, fun _ => h3, fun _ he => ?_⟩
  rcases hl with rfl | ⟨_, h'⟩
  · exact absurd (by rcases hf with rfl | rfl | rfl <;> decide) he
  · exact h'

theorem level_of_supportsIsa {c : Cpu} (hc : Coherent c) {isa : Isa} (h : supportsIsa c = some isa) : Level c isa := by
  have hf := features_cases (c.cpuid 1 0) (c.cpuid 0x80000001 0)
  have hlz := features_lzcnt (c.cpuid 1 0) (c.cpuid 0x80000001 0)
  unfold supportsIsa at h
  dsimp only at h
  generalize features (c.cpuid 1 0) (c.cpuid 0x80000001 0) = f at *
  by_cases hs : slowSsse3 (c.cpuid 1 0).eax = true
  · rw [if_pos hs] at h
    cases h
    exact Level.of_low f _ hf (Or.inl rfl)
  rw [if_neg hs] at h
  by_cases h9 : (c.cpuid 1 0).ecx &&& 0x200#32 = 0x200#32
  rotate_left
  · rw [if_neg h9] at h
    cases h
    exact Level.of_low f _ hf (Or.inl rfl)
  rw [if_pos h9] at h
  have hss : Usable c .ssse3 ∧ Usable c .sse3 := ⟨bit_of_and_eq h9 9 (by decide), hc.ssse3 (bit_of_and_eq h9 9 (by decide))⟩
  by_cases hb : slowBlend (c.cpuid 1 0).eax = true
  · rw [if_pos hb] at h
    cases h
    exact Level.of_low f _ hf (Or.inr ⟨Or.inl rfl, hss⟩)
  rw [if_neg hb] at h
  by_cases h19 : (c.cpuid 1 0).ecx &&& 0x80000#32 ≠ 0#32
  rotate_left
  · rw [if_neg h19] at h
    cases h
    exact Level.of_low f _ hf (Or.inr ⟨Or.inl rfl, hss⟩)
  rw [if_pos h19] at h
  by_cases h1c : (c.cpuid 1 0).ecx &&& 0x1C800000#32 = 0x1C800000#32
  rotate_left
  · rw [if_neg h1c] at h
    cases h
    exact Level.of_low f _ hf (Or.inr ⟨Or.inr rfl, hss⟩)
  rw [if_pos h1c] at h
  have hos : c.Osxsave := bit_of_and_eq h1c 27 (by decide)
  rw [getXcr_isSome hos] at h
  dsimp only at h
  by_cases hx : c.xcr0 &&& 0xff#32 &&& 6#32 = 6#32
  rotate_left
  · rw [if_neg hx] at h
    cases h
    exact Level.of_low f _ hf (Or.inr ⟨Or.inr rfl, hss⟩)
  rw [if_pos hx] at h
  have hymm : c.Ymm := ⟨hos, bits_of_xcr hx 1 (by decide), bits_of_xcr hx 2 (by decide)⟩
  have h28 := bit_of_and_eq h1c 28 (by decide)
  obtain ⟨h42, hpop, h7, hext⟩ := hc.avx h28
  have hA : HasAvx c :=
    ⟨hss, ⟨h28, hymm⟩, h42, bit_of_and_ne h19 19 (by decide), bit_of_and_eq h1c 23 (by decide), bit_of_and_eq h1c 26 (by decide), hos⟩
  by_cases h128 : (c.cpuid 7 0).ebx &&& 0x128#32 = 0x128#32 ∧ f &&& LZCNT ≠ 0#32
  rotate_left
  · rw [if_neg h128] at h
    cases h
    exact Level.of_avx f hf hA
  rw [if_pos h128] at h
  have h2 : HasAvx2 c :=
    ⟨⟨⟨h7, bit_of_and_eq h128.1 5 (by decide)⟩, hymm⟩, ⟨h7, bit_of_and_eq h128.1 3 (by decide)⟩, ⟨h7, bit_of_and_eq h128.1 8 (by decide)⟩, hext, hlz h128.2⟩
  by_cases hE : c.xcr0 &&& 0xff#32 &&& 0xE0#32 = 0xE0#32
  rotate_left
  · rw [if_neg hE] at h
    cases h
    exact Level.of_avx2 f _ hf (Or.inl rfl) hA h2
  rw [if_pos hE] at h
  have hzmm : c.Zmm := ⟨hymm, bits_of_xcr hE 5 (by decide), bits_of_xcr hE 6 (by decide), bits_of_xcr hE 7 (by decide)⟩
  -- the part about AVX512
  have h512 : ∀ {isa}, (if (c.cpuid 7 0).ebx &&& 0xC0010000#32 = 0xC0010000#32 then
        if (c.cpuid 7 0).ecx &&& 0x40#32 ≠ 0#32 then f ||| EVEX512 ||| VBMI2 else f ||| EVEX512 ||| AVX3
      else f ||| AVX2) = isa → Level c isa := by
    intro isa h
    by_cases hC : (c.cpuid 7 0).ebx &&& 0xC0010000#32 = 0xC0010000#32
    rotate_left
    · rw [if_neg hC] at h
      subst h
      exact Level.of_avx2 f _ hf (Or.inl rfl) hA h2
    rw [if_pos hC] at h
    by_cases h40 : (c.cpuid 7 0).ecx &&& 0x40#32 ≠ 0#32
    rotate_left
    · rw [if_neg h40, BitVec.or_assoc] at h
      subst h
      exact Level.of_avx2 f _ hf (Or.inr rfl) hA h2
    rw [if_pos h40, BitVec.or_assoc] at h
    subst h
    have h16 := bit_of_and_eq hC 16 (by decide)
    have h6 := bit_of_and_ne h40 6 (by decide)
    obtain ⟨hfma, hf16⟩ := hc.avx512 (Or.inl h16)
    obtain ⟨hdq, hcd⟩ := hc.vbmi2 h6
    exact Level.of_vbmi2 f _ hf (Or.inr ⟨rfl, Or.inl ⟨h7, h16⟩, hzmm⟩) hA h2
      ⟨⟨Or.inl ⟨h7, h16⟩, hzmm⟩, ⟨Or.inl ⟨h7, hcd⟩, hzmm⟩, ⟨Or.inl ⟨h7, bit_of_and_eq hC 30 (by decide)⟩, hzmm⟩, ⟨Or.inl ⟨h7, hdq⟩, hzmm⟩,
        ⟨Or.inl ⟨h7, bit_of_and_eq hC 31 (by decide)⟩, hzmm⟩, ⟨Or.inl ⟨h7, h6⟩, hzmm⟩, ⟨hf16, hymm⟩, ⟨hfma, hymm⟩⟩
  by_cases h19 : (c.cpuid 7 1).edx &&& 0x80000#32 ≠ 0#32
  rotate_left
  · rw [if_neg h19] at h
    exact h512 (Option.some.inj h)
  rw [if_pos h19] at h
  by_cases hv : 1 ≤ ((c.cpuid 0x24 0).ebx &&& 0xff#32).toNat ∧ (c.cpuid 0x24 0).ebx &&& 0x20000#32 ≠ 0#32
  rotate_left
  · rw [if_neg hv] at h
    exact h512 (Option.some.inj h)
  rw [if_pos hv] at h
  have h10 := bit_of_and_ne h19 19 (by decide)
  have hsub : 1 ≤ (c.cpuid 7 0).eax.toNat := by
    apply Nat.le_of_not_lt
    intro hn
    rw [hc.subleaf hn] at h10
    simp at h10
  have hA10 : c.Avx10 := ⟨h7, hsub, h10, hc.avx10 h10, avx10_version hv.1, bit_of_and_ne hv.2 17 (by decide)⟩
  obtain ⟨hfma, hf16⟩ := hc.avx512 (Or.inr h10)
  have h3 : HasVbmi2 c := ⟨⟨Or.inr hA10, hzmm⟩, ⟨Or.inr hA10, hzmm⟩, ⟨Or.inr hA10, hzmm⟩, ⟨Or.inr hA10, hzmm⟩, ⟨Or.inr hA10, hzmm⟩, ⟨Or.inr hA10, hzmm⟩, ⟨hf16, hymm⟩, ⟨hfma, hymm⟩⟩
  by_cases he : (c.cpuid 0x24 0).ebx &&& 0x40000#32 ≠ 0#32
  · rw [if_pos he, BitVec.or_assoc] at h
    cases h
    exact Level.of_vbmi2 f _ hf (Or.inr ⟨rfl, Or.inr ⟨hA10, bit_of_and_ne he 18 (by decide)⟩, hzmm⟩) hA h2 h3
  · rw [if_neg he] at h
    cases h
    exact Level.of_vbmi2 f _ hf (Or.inl rfl) hA h2 h3

/-- What `cpu_supports_crc_isa` says. -/
theorem level_of_supportsCrcIsa {c : Cpu} (hc : Coherent c) {n : Nat} (h : supportsCrcIsa c = some n) :
    n ≤ 2 ∧ (1 ≤ n → Usable c .pclmul ∧ Usable c .ssse3 ∧ Usable c .sse3 ∧ Usable c .sse41) ∧
      (2 ≤ n → Usable c .avx ∧ Usable c .sse42 ∧ Usable c .popcnt ∧ Usable c .xsave ∧ Usable c .avx2 ∧ Usable c .vpclmul) := by
  unfold supportsCrcIsa at h
  dsimp only at h
  by_cases h1 : (c.cpuid 1 0).ecx &&& 0x80202#32 = 0x80202#32
  rotate_left
  · rw [if_neg h1] at h
    cases h
    exact ⟨by omega, fun h => by omega, fun h => by omega⟩
  rw [if_pos h1] at h
  have hp : Usable c .pclmul ∧ Usable c .ssse3 ∧ Usable c .sse3 ∧ Usable c .sse41 :=
    ⟨bit_of_and_eq h1 1 (by decide), bit_of_and_eq h1 9 (by decide), hc.ssse3 (bit_of_and_eq h1 9 (by decide)), bit_of_and_eq h1 19 (by decide)⟩
  have one : ∀ {n}, some 1 = some n → n ≤ 2 ∧ (1 ≤ n → Usable c .pclmul ∧ Usable c .ssse3 ∧ Usable c .sse3 ∧ Usable c .sse41) ∧
      (2 ≤ n → Usable c .avx ∧ Usable c .sse42 ∧ Usable c .popcnt ∧ Usable c .xsave ∧ Usable c .avx2 ∧ Usable c .vpclmul) := by
    intro n h
    cases h
    exact ⟨by omega, fun _ => hp, fun h => by omega⟩
  by_cases h1c : (c.cpuid 1 0).ecx &&& 0x1C000000#32 = 0x1C000000#32
  rotate_left
  · rw [if_neg h1c] at h
    exact one h
  rw [if_pos h1c] at h
  have hos : c.Osxsave := bit_of_and_eq h1c 27 (by decide)
  rw [getXcr_isSome hos] at h
  dsimp only at h
  by_cases hx : c.xcr0 &&& 0xff#32 &&& 6#32 = 6#32
  rotate_left
  · rw [if_neg hx] at h
    exact one h
  rw [if_pos hx] at h
  by_cases h2 : (c.cpuid 7 0).ebx &&& 0x20#32 = 0x20#32 ∧ (c.cpuid 7 0).ecx &&& 0x400#32 = 0x400#32
  rotate_left
  · rw [if_neg h2] at h
    exact one h
  rw [if_pos h2] at h
  cases h
  have hymm : c.Ymm := ⟨hos, bits_of_xcr hx 1 (by decide), bits_of_xcr hx 2 (by decide)⟩
  have h28 := bit_of_and_eq h1c 28 (by decide)
  obtain ⟨h42, hpop, h7, -⟩ := hc.avx h28
  exact ⟨Nat.le_refl _, fun _ => hp, fun _ => ⟨⟨h28, hymm⟩, h42, hpop, ⟨bit_of_and_eq h1c 26 (by decide), hos⟩, ⟨⟨h7, bit_of_and_eq h2.1 5 (by decide)⟩, hymm⟩,
    ⟨h7, bit_of_and_eq h2.2 10 (by decide)⟩, hymm⟩⟩

/-! ### Compiler switches -/

/-- All extensions. -/
def allFeatures : List Feature :=
  [.sse2, .sse3, .ssse3, .sse41, .sse42, .popcnt, .lzcnt, .xsave, .avx, .f16c, .fma, .avx2, .bmi1, .bmi2, .avx512f, .avx512cd, .avx512bw, .avx512dq, .avx512vl, .avx512vbmi2, .evex512,
    .pclmul, .vpclmul, .gfni]

theorem mem_allFeatures (x : Feature) : x ∈ allFeatures := by cases x <;> decide

theorem implied_trans {s x y : Feature} (h1 : x ∈ implied s) (h2 : y ∈ implied x) : y ∈ implied s := by
  have h : ∀ s ∈ allFeatures, ∀ x ∈ implied s, ∀ y ∈ implied x, y ∈ implied s := by decide +kernel
  exact h s (mem_allFeatures s) x h1 y h2

theorem assumes_iff (b : Build) (f : File) (x : Feature) : b.assumes f x = true ↔ b.base x = true ∨ ∃ s ∈ switches b.compiler f, s = x ∨ x ∈ implied s := by
  simp [Build.assumes]

theorem assumes_closed {b : Build} (hw : b.Wf) {f : File} {x y : Feature} (h : b.assumes f x = true) (hy : y ∈ implied x) : b.assumes f y = true := by
  rw [assumes_iff] at h ⊢
  rcases h with h | ⟨s, hs, rfl | h⟩
  · exact Or.inl (hw.closed x y h hy)
  · exact Or.inr ⟨s, hs, Or.inr hy⟩
  · exact Or.inr ⟨s, hs, Or.inr (implied_trans h hy)⟩

theorem assumes_main (b : Build) (x : Feature) : b.assumes .main x = b.base x := by
  simp [Build.assumes, switches]

/-- What the switches for a group of files may bring. -/
def brings (evex : Bool) : File → List Feature
  | .main => []
  | .sse2 => [.sse2]
  | .ssse3 => [.sse2, .ssse3, .sse3]
  | .avx => [.sse2, .ssse3, .sse3, .avx, .sse42, .sse41, .popcnt, .xsave]
  | .avx2 => [.sse2, .ssse3, .sse3, .avx, .sse42, .sse41, .popcnt, .xsave, .avx2, .bmi1, .bmi2, .lzcnt]
  | .vbmi2 => [.sse2, .ssse3, .sse3, .avx, .sse42, .sse41, .popcnt, .xsave, .avx2, .bmi1, .bmi2, .lzcnt, .avx512f, .avx512cd, .avx512bw, .avx512dq, .avx512vl, .avx512vbmi2, .f16c, .fma] ++
      (if evex then [.evex512] else [])
  | .clmul => [.sse2, .ssse3, .sse3, .sse41, .pclmul]
  | .clmul256 => [.sse2, .ssse3, .sse3, .sse41, .pclmul, .avx, .sse42, .popcnt, .xsave, .avx2, .vpclmul]

/-- Vectors of 512 bits are not excluded by a switch. -/
def evexSwitch : Compiler → Bool
  | .gnu _ _ noEvex _ _ => !noEvex
  | .msvc _ => true

theorem brings_of_switches (k : Compiler) (f : File) (s x : Feature) (hs : s ∈ switches k f) (h : s = x ∨ x ∈ implied s) : x ∈ brings (evexSwitch k) f := by
  have key : ∀ (l m : List Feature), (∀ s ∈ l, s ∈ m ∧ ∀ x ∈ implied s, x ∈ m) → s ∈ l → x ∈ m := by
    intro l m hlm hl
    rcases h with rfl | h
    · exact (hlm s hl).1
    · exact (hlm s hl).2 x h
  refine key _ _ ?_ hs
  cases k with
  | gnu a v n p e =>
    cases f <;> cases a <;> cases v <;> cases n <;> cases p <;> cases e <;> decide +kernel
  | msvc v => cases f <;> (simp only [switches, evexSwitch]; decide +kernel)

/-- The processor can do what the compiler assumes in a group of files. -/
def FileOk (b : Build) (c : Cpu) (f : File) : Prop := ∀ x, b.assumes f x = true → Usable c x

theorem FileOk.of {b : Build} {c : Cpu} (hb : ∀ x, b.base x = true → Usable c x) {f : File} (h : ∀ x ∈ brings (evexSwitch b.compiler) f, Usable c x) : FileOk b c f := by
  intro x hx
  rw [assumes_iff] at hx
  rcases hx with hx | ⟨s, hs, hx⟩
  · exact hb x hx
  · exact h x (brings_of_switches _ _ _ _ hs hx)

variable {b : Build} {c : Cpu}

theorem fileOk_main (hb : ∀ x, b.base x = true → Usable c x) : FileOk b c .main := .of hb (by simp [brings])

theorem fileOk_sse2 (hb : ∀ x, b.base x = true → Usable c x) (h2 : Usable c .sse2) : FileOk b c .sse2 := .of hb (by simpa [brings] using h2)

theorem fileOk_ssse3 (hb : ∀ x, b.base x = true → Usable c x) (h2 : Usable c .sse2) {isa : Isa} (hl : Level c isa) (h : SSSE3 ≤ isa) : FileOk b c .ssse3 := by
  refine .of hb ?_
  obtain ⟨h3, h4⟩ := hl.ssse3 h
  simp only [brings, List.forall_mem_cons]
  exact ⟨h2, h3, h4, by simp⟩

theorem fileOk_avx (hb : ∀ x, b.base x = true → Usable c x) (h2 : Usable c .sse2) {isa : Isa} (hl : Level c isa) (h : AVX ≤ isa) : FileOk b c .avx := by
  refine .of hb ?_
  obtain ⟨h3, h4⟩ := hl.ssse3 (BitVec.le_trans (by decide) h)
  obtain ⟨ha, h42, h41, hp, hx⟩ := hl.avx h
  simp only [brings, List.forall_mem_cons]
  exact ⟨h2, h3, h4, ha, h42, h41, hp, hx, by simp⟩

theorem fileOk_avx2 (hb : ∀ x, b.base x = true → Usable c x) (h2 : Usable c .sse2) {isa : Isa} (hl : Level c isa) (h : AVX2 ≤ isa) : FileOk b c .avx2 := by
  refine .of hb ?_
  obtain ⟨h3, h4⟩ := hl.ssse3 (BitVec.le_trans (by decide) h)
  obtain ⟨ha, h42, h41, hp, hx⟩ := hl.avx (BitVec.le_trans (by decide) h)
  obtain ⟨ha2, hb1, hb2, hlz⟩ := hl.avx2 h
  simp only [brings, List.forall_mem_cons]
  exact ⟨h2, h3, h4, ha, h42, h41, hp, hx, ha2, hb1, hb2, hlz, by simp⟩

theorem fileOk_vbmi2 (hb : ∀ x, b.base x = true → Usable c x) (h2 : Usable c .sse2) {isa : Isa} (hl : Level c isa) (h : VBMI2 ≤ isa) (he : b.hasAvx10 = true ∨ isa &&& EVEX512 ≠ 0#32) :
    FileOk b c .vbmi2 := by
  refine .of hb ?_
  obtain ⟨h3, h4⟩ := hl.ssse3 (BitVec.le_trans (by decide) h)
  obtain ⟨ha, h42, h41, hp, hx⟩ := hl.avx (BitVec.le_trans (by decide) h)
  obtain ⟨ha2, hb1, hb2, hlz⟩ := hl.avx2 (BitVec.le_trans (by decide) h)
  obtain ⟨hf, hcd, hbw, hdq, hvl, hv, hf16, hfma⟩ := hl.vbmi2 h
  simp only [brings, List.forall_mem_append, List.forall_mem_cons]
  refine ⟨⟨h2, h3, h4, ha, h42, h41, hp, hx, ha2, hb1, hb2, hlz, hf, hcd, hbw, hdq, hvl, hv, hf16, hfma, by simp⟩, ?_⟩
  cases hs : evexSwitch b.compiler with
  | false => simp
  | true =>
    simp only [if_true, List.forall_mem_cons]
    refine ⟨?_, by simp⟩
    rcases he with he | he
    · exfalso
      revert he hs
      cases hk : b.compiler with
      | gnu a v n p e =>
        cases n
        · simp [Build.hasAvx10, hk]
        · simp [evexSwitch]
      | msvc v => simp [Build.hasAvx10, hk]
    · exact hl.evex h he

theorem fileOk_clmul (hb : ∀ x, b.base x = true → Usable c x) (h2 : Usable c .sse2) (h : Usable c .pclmul ∧ Usable c .ssse3 ∧ Usable c .sse3 ∧ Usable c .sse41) : FileOk b c .clmul := by
  refine .of hb ?_
  simp only [brings, List.forall_mem_cons]
  exact ⟨h2, h.2.1, h.2.2.1, h.2.2.2, h.1, by simp⟩

theorem fileOk_clmul256 (hb : ∀ x, b.base x = true → Usable c x) (h2 : Usable c .sse2) (h : Usable c .pclmul ∧ Usable c .ssse3 ∧ Usable c .sse3 ∧ Usable c .sse41)
    (h' : Usable c .avx ∧ Usable c .sse42 ∧ Usable c .popcnt ∧ Usable c .xsave ∧ Usable c .avx2 ∧ Usable c .vpclmul) : FileOk b c .clmul256 := by
  refine .of hb ?_
  obtain ⟨ha, h42, hp, hx, ha2, hv⟩ := h'
  simp only [brings, List.forall_mem_cons]
  exact ⟨h2, h.2.1, h.2.2.1, h.2.2.2, h.1, ha, h42, hp, hx, ha2, hv, by simp⟩

/-! ### Native builds -/

theorem native_levels (hw : b.Wf) (k : ∀ v, b.compiler ≠ .msvc v) :
    (SSSE3 ≤ isaNative b → b.base .ssse3 = true) ∧ (AVX3 ≤ isaNative b → SSSE3 ≤ isaNative b ∧ isaNative b &&& POPCNT ≠ 0#32) ∧
      (VBMI2 ≤ isaNative b ↔ b.base .avx512vbmi2 = true) ∧ (isaNative b &&& LZCNT ≠ 0#32 → b.base .lzcnt = true ∨ b.base .avx2 = true) := by
  have h1 := hw.closed .avx512vbmi2 .ssse3
  have h2 := hw.closed .avx512bw .ssse3
  have h3 := hw.closed .avx2 .ssse3
  have h4 := hw.closed .sse41 .ssse3
  have h5 := hw.closed .avx512vbmi2 .avx2
  have h6 := hw.closed .avx512bw .avx2
  cases hk : b.compiler with
  | msvc v => exact absurd hk (k v)
  | gnu _ _ _ _ _ =>
    simp only [isaNative, hk]
    replace h1 := fun h => h1 h (by decide)
    replace h2 := fun h => h2 h (by decide)
    replace h3 := fun h => h3 h (by decide)
    replace h4 := fun h => h4 h (by decide)
    replace h5 := fun h => h5 h (by decide)
    replace h6 := fun h => h6 h (by decide)
    generalize b.base .avx512vbmi2 = x1 at *
    generalize b.base .avx512bw = x2 at *
    generalize b.base .avx2 = x3 at *
    generalize b.base .sse41 = x4 at *
    generalize b.base .ssse3 = x5 at *
    generalize b.base .popcnt = x6 at *
    generalize b.base .lzcnt = x7 at *
    clear hw k hk
    refine ⟨?_, ?_, ?_, ?_⟩
    · clear h5 h6
      revert h1 h2 h3 h4
      cases x1 <;> cases x2 <;> cases x3 <;> cases x4 <;> cases x5 <;> cases x6 <;> cases x7 <;> simp only [if_true, if_false, Bool.false_eq_true] <;> decide +kernel
    · clear h1 h2 h3 h4 h5 h6
      cases x1 <;> cases x2 <;> cases x3 <;> cases x4 <;> cases x5 <;> cases x6 <;> cases x7 <;> simp only [if_true, if_false, Bool.false_eq_true] <;> decide +kernel
    · clear h1 h2 h3 h4 h5 h6
      cases x1 <;> cases x2 <;> cases x3 <;> cases x4 <;> cases x5 <;> cases x6 <;> cases x7 <;> simp only [if_true, if_false, Bool.false_eq_true] <;> decide +kernel
    · clear h1 h2 h3 h4
      revert h5 h6
      cases x1 <;> cases x2 <;> cases x3 <;> cases x4 <;> cases x5 <;> cases x6 <;> cases x7 <;> simp only [if_true, if_false, Bool.false_eq_true] <;> decide +kernel

/-! ### Macros -/

theorem defd_main (k : ∀ v, b.compiler ≠ .msvc v) (x : Feature) : b.defd .main x = b.base x := by
  unfold Build.defd
  cases hk : b.compiler with
  | gnu _ _ _ _ _ => exact assumes_main b x
  | msvc v => exact absurd hk (k v)

/-- In the files for VBMI2, if they are compiled at all. -/
theorem defd_vbmi2 (hw : b.Wf) (h : (b.defd .vbmi2 .avx512vl && b.defd .vbmi2 .avx512vbmi2 && b.defd .vbmi2 .avx512bw) = true) :
    b.defd .vbmi2 .avx512vl = true ∧ b.defd .vbmi2 .avx512vbmi2 = true ∧ b.defd .vbmi2 .avx512bw = true ∧ b.defd .vbmi2 .ssse3 = true ∧ b.defd .vbmi2 .popcnt = true ∧
      ((b.base .avx2 = true → b.base .lzcnt = true) → b.defd .vbmi2 .lzcnt = true) := by
  simp only [Bool.and_eq_true] at h
  obtain ⟨⟨h1, h2⟩, h3⟩ := h
  refine ⟨h1, h2, h3, ?_⟩
  unfold Build.defd at *
  cases hk : b.compiler with
  | gnu a v n p e =>
    rw [hk] at h1 h2 h3
    dsimp only at h1 h2 h3 ⊢
    refine ⟨assumes_closed hw h1 (by decide), assumes_closed hw h1 (by decide), fun hz => ?_⟩
    rw [assumes_iff] at h2 ⊢
    rcases h2 with h2 | ⟨s, hs, _⟩
    · exact Or.inl (hz (hw.closed _ _ h2 (by decide)))
    · refine Or.inr ⟨.lzcnt, ?_, Or.inl rfl⟩
      rw [hk] at hs ⊢
      cases v
      · simp [switches] at hs
      · simp [switches]
  | msvc v =>
    simp only [hk, decide_eq_true_eq] at h2 ⊢
    exact ⟨trivial, by omega, fun _ => by omega⟩

/-! ### Encoder -/

/-- Nothing has been or will be executed that the processor does not have. -/
def EncState.Runs (b : Build) (c : Cpu) (s : EncState) : Prop := (∀ f ∈ s.ran, FileOk b c f) ∧ ∀ x ∈ s.fn.uses b, Usable c x

theorem EncState.Runs.start : EncState.start.Runs b c := ⟨by simp [EncState.start], by simp [EncState.start, EncFn.uses]⟩

theorem EncState.Runs.cons {s : EncState} (h : s.Runs b c) {f : File} (hf : FileOk b c f) : ({ s with ran := f :: s.ran } : EncState).Runs b c :=
  ⟨by simpa using ⟨hf, h.1⟩, h.2⟩

theorem uses_sse2 (h2 : Usable c .sse2) : ∀ x ∈ (EncFn.sse .sse2 SSE2).uses b, Usable c x := by
  have e1 : decide (SSSE3 ≤ SSE2) = false := by decide
  have e2 : decide (SSE41 ≤ SSE2) = false := by decide
  have e3 : decide (SSE2 &&& POPCNT ≠ 0#32) = false := by decide
  have e4 : decide (SSE2 &&& LZCNT ≠ 0#32) = false := by decide
  have e5 : decide (AVX3 ≤ SSE2) = false := by decide
  have e6 : decide (VBMI2 ≤ SSE2) = false := by decide
  simpa [EncFn.uses, encCfg, e1, e2, e3, e4, e5, e6] using h2

theorem uses_ssse3 (h2 : Usable c .sse2) {isa : Isa} (hl : Level c isa) (h : SSSE3 ≤ isa) : ∀ x ∈ (EncFn.sse .ssse3 SSSE3).uses b, Usable c x := by
  have e2 : decide (SSE41 ≤ SSSE3) = false := by decide
  have e3 : decide (SSSE3 &&& POPCNT ≠ 0#32) = false := by decide
  have e4 : decide (SSSE3 &&& LZCNT ≠ 0#32) = false := by decide
  have e5 : decide (AVX3 ≤ SSSE3) = false := by decide
  have e6 : decide (VBMI2 ≤ SSSE3) = false := by decide
  have e1 : decide (SSSE3 ≤ SSSE3) = true := by decide
  simp only [EncFn.uses, encCfg, e1, e2, e3, e4, e5, e6, Bool.and_false, if_true, Bool.false_eq_true, if_false, List.append_nil, List.cons_append, List.nil_append, List.forall_mem_cons]
  exact ⟨h2, (hl.ssse3 h).1, by simp⟩

theorem forall_mem_ite {p : Bool} {l : List Feature} (h : p = true → ∀ x ∈ l, Usable c x) : ∀ x ∈ (if p = true then l else []), Usable c x := by
  cases p
  · simp
  · simpa using h rfl

theorem uses_avx (h2 : Usable c .sse2) {isa : Isa} (hl : Level c isa) (h : AVX ≤ isa) : ∀ x ∈ (EncFn.sse .avx SSE4_POPCNT).uses b, Usable c x := by
  have e4 : decide (SSE4_POPCNT &&& LZCNT ≠ 0#32) = false := by decide
  have e5 : decide (AVX3 ≤ SSE4_POPCNT) = false := by decide
  have e6 : decide (VBMI2 ≤ SSE4_POPCNT) = false := by decide
  obtain ⟨h3, h4⟩ := hl.ssse3 (BitVec.le_trans (by decide) h)
  obtain ⟨ha, h42, h41, hp, hx⟩ := hl.avx h
  simp only [EncFn.uses, encCfg, e4, e5, e6, Bool.and_false, Bool.false_eq_true, if_false, List.append_nil, List.forall_mem_append]
  refine ⟨⟨⟨by simpa using h2, forall_mem_ite fun _ => by simpa using h3⟩, forall_mem_ite fun _ => by simpa using h41⟩, forall_mem_ite fun _ => by simpa using hp⟩

theorem uses_avx2 {isa : Isa} (hl : Level c isa) (h : AVX2 ≤ isa) : ∀ x ∈ (EncFn.avx2 .avx2 AVX2).uses b, Usable c x := by
  have e5 : decide (AVX3 ≤ AVX2) = false := by decide
  have e6 : decide (VBMI2 ≤ AVX2) = false := by decide
  obtain ⟨ha, h42, h41, hp, hx⟩ := hl.avx (BitVec.le_trans (by decide) h)
  obtain ⟨ha2, hb1, hb2, hlz⟩ := hl.avx2 h
  simp only [EncFn.uses, encCfg2, e5, e6, Bool.and_false, Bool.false_eq_true, if_false, List.append_nil, List.forall_mem_cons]
  exact ⟨ha2, hp, hlz, by simp⟩

theorem uses_vbmi2 (h2 : Usable c .sse2) {isa : Isa} (hl : Level c isa) (h : VBMI2 ≤ isa) :
    (∀ x ∈ (EncFn.avx2 .vbmi2 VBMI2).uses b, Usable c x) ∧ ∀ x ∈ (EncFn.sse .vbmi2 VBMI2).uses b, Usable c x := by
  obtain ⟨h3, h4⟩ := hl.ssse3 (BitVec.le_trans (by decide) h)
  obtain ⟨ha, h42, h41, hp, hx⟩ := hl.avx (BitVec.le_trans (by decide) h)
  obtain ⟨ha2, hb1, hb2, hlz⟩ := hl.avx2 (BitVec.le_trans (by decide) h)
  obtain ⟨hf, hcd, hbw, hdq, hvl, hv, hf16, hfma⟩ := hl.vbmi2 h
  have h512 : ∀ x ∈ [Feature.avx512f, .avx512vl, .avx512bw], Usable c x := by
    simp only [List.forall_mem_cons]
    exact ⟨hf, hvl, hbw, by simp⟩
  constructor
  · simp only [EncFn.uses, List.forall_mem_append, List.forall_mem_cons]
    exact ⟨⟨⟨ha2, hp, hlz, by simp⟩, forall_mem_ite fun _ => h512⟩, forall_mem_ite fun _ => by simpa using hv⟩
  · simp only [EncFn.uses, List.forall_mem_append]
    exact ⟨⟨⟨⟨⟨⟨by simpa using h2, forall_mem_ite fun _ => by simpa using h3⟩, forall_mem_ite fun _ => by simpa using h41⟩, forall_mem_ite fun _ => by simpa using hp⟩,
      forall_mem_ite fun _ => by simpa using hlz⟩, forall_mem_ite fun _ => h512⟩, forall_mem_ite fun _ => by simpa using hv⟩

theorem encoderSse2_runs (hb : ∀ x, b.base x = true → Usable c x) (h2 : Usable c .sse2) {s : EncState} (hs : s.Runs b c) : (encoderSse2 b s).Runs b c := by
  unfold encoderSse2
  split
  · exact ⟨by simpa using ⟨fileOk_sse2 hb h2, hs.1⟩, uses_sse2 h2⟩
  · exact hs.cons (fileOk_sse2 hb h2)

theorem encoderSsse3_runs (hb : ∀ x, b.base x = true → Usable c x) (h2 : Usable c .sse2) {isa : Isa} (hl : Level c isa) (h : SSSE3 ≤ isa) {s : EncState} (hs : s.Runs b c) :
    (encoderSsse3 b s).Runs b c := by
  unfold encoderSsse3
  have hf := fileOk_ssse3 hb h2 hl h
  split
  · exact ⟨by simpa using ⟨hf, hs.1⟩, uses_ssse3 h2 hl h⟩
  · exact encoderSse2_runs hb h2 (hs.cons hf)

theorem encoderAvx_runs (hb : ∀ x, b.base x = true → Usable c x) (h2 : Usable c .sse2) {isa : Isa} (hl : Level c isa) (h : AVX ≤ isa) {s : EncState} (hs : s.Runs b c) :
    (encoderAvx b s).Runs b c := by
  unfold encoderAvx
  have hf := fileOk_avx hb h2 hl h
  split
  · exact ⟨by simpa using ⟨hf, hs.1⟩, uses_avx h2 hl h⟩
  · exact encoderSsse3_runs hb h2 hl (BitVec.le_trans (by decide) h) (hs.cons hf)

theorem encoderAvx2_runs (hb : ∀ x, b.base x = true → Usable c x) (h2 : Usable c .sse2) {isa : Isa} (hl : Level c isa) (h : AVX2 ≤ isa) {s : EncState} (hs : s.Runs b c) :
    (encoderAvx2 b s).Runs b c := by
  unfold encoderAvx2
  have hf := fileOk_avx2 hb h2 hl h
  split
  · exact ⟨by simpa using ⟨hf, hs.1⟩, uses_avx2 hl h⟩
  · exact encoderAvx_runs hb h2 hl (BitVec.le_trans (by decide) h) (hs.cons hf)

theorem encoderVbmi2_runs (hb : ∀ x, b.base x = true → Usable c x) (h2 : Usable c .sse2) {isa : Isa} (hl : Level c isa) (h : VBMI2 ≤ isa)
    (he : b.hasAvx10 = true ∨ isa &&& EVEX512 ≠ 0#32) {s : EncState} (hs : s.Runs b c) : (encoderVbmi2 b s).Runs b c := by
  unfold encoderVbmi2
  have hf := fileOk_vbmi2 hb h2 hl h he
  split
  · split
    · exact ⟨by simpa using ⟨hf, hs.1⟩, (uses_vbmi2 h2 hl h).1⟩
    · exact ⟨by simpa using ⟨hf, hs.1⟩, (uses_vbmi2 h2 hl h).2⟩
  · exact encoderAvx2_runs hb h2 hl (BitVec.le_trans (by decide) h) (hs.cons hf)

theorem encoderNative_runs (hw : b.Wf) (hn : b.native = true) (hb : ∀ x, b.base x = true → Usable c x) (h2 : Usable c .sse2) {s : EncState} (hs : s.Runs b c) :
    (encoderNative b s).Runs b c := by
  have hk := hw.native hn
  have hd := defd_main hk
  obtain ⟨hN1, -, hN3, -⟩ := native_levels hw hk
  have hm := fileOk_main hb
  have h512 : b.base .avx512vl = true → b.base .avx512bw = true → ∀ x ∈ [Feature.avx512f, .avx512vl, .avx512bw], Usable c x := by
    intro h h'
    simp only [List.forall_mem_cons]
    exact ⟨hb _ (hw.closed _ _ h (by decide)), hb _ h, hb _ h', by simp⟩
  unfold encoderNative
  split
  · rename_i hi
    simp only [Bool.and_eq_true, Bool.not_eq_true'] at hi
    refine ⟨by simpa using ⟨hm, hs.1⟩, ?_⟩
    simp only [EncFn.uses, encCfg2, hd, List.forall_mem_append, List.forall_mem_cons]
    refine ⟨⟨⟨hb _ hi.1, hb _ (hw.closed _ _ hi.1 (by decide)), hb _ (hw.lzcnt hn hi.1 hi.2), by simp⟩, forall_mem_ite fun h => ?_⟩, forall_mem_ite fun h => ?_⟩
    · simp only [Bool.and_eq_true] at h
      exact h512 h.1.1 h.1.2
    · simp only [Bool.and_eq_true] at h
      simpa using hb _ h.1.1.1
  · refine ⟨by simpa using ⟨hm, hs.1⟩, ?_⟩
    simp only [EncFn.uses, encCfg, hd, List.forall_mem_append]
    refine ⟨⟨⟨⟨⟨⟨by simpa using h2, forall_mem_ite fun h => ?_⟩, forall_mem_ite fun h => ?_⟩, forall_mem_ite fun h => ?_⟩, forall_mem_ite fun h => ?_⟩, forall_mem_ite fun h => ?_⟩,
      forall_mem_ite fun h => ?_⟩
    · simpa using hb _ (hN1 (of_decide_eq_true h))
    · simp only [Bool.and_eq_true] at h
      simpa using hb _ h.1.1
    · simp only [Bool.and_eq_true] at h
      simpa using hb _ h.1.1
    · simp only [Bool.and_eq_true] at h
      simpa using hb _ h.1
    · simp only [Bool.and_eq_true] at h
      exact h512 h.1.1 h.1.2
    · simp only [Bool.and_eq_true] at h
      simpa using hb _ h.1.1.1

theorem encoderInit_runs (hw : b.Wf) (hc : Coherent c) (hb : ∀ x, b.base x = true → Usable c x) (h2 : Usable c .sse2) {s : EncState} (hs : s.Runs b c) :
    ∃ s', encoderInit b c s = some s' ∧ s'.Runs b c := by
  unfold encoderInit
  by_cases hn : b.native = true
  · rw [if_pos hn]
    exact ⟨_, rfl, encoderNative_runs hw hn hb h2 hs⟩
  rw [if_neg hn]
  obtain ⟨isa, hi⟩ := supportsIsa_ne_none c
  have hl := level_of_supportsIsa hc hi
  rw [hi]
  refine ⟨_, rfl, ?_⟩
  split
  · rename_i h
    exact encoderVbmi2_runs hb h2 hl h.1 h.2 hs
  split
  · rename_i h
    exact encoderAvx2_runs hb h2 hl h hs
  split
  · rename_i h
    exact encoderAvx_runs hb h2 hl h hs
  split
  · rename_i h
    exact encoderSsse3_runs hb h2 hl h hs
  · exact encoderSse2_runs hb h2 hs

/-- The encoder selected is one of those the other theorems are about, and its tables have been made. -/
def EncState.Good (b : Build) (s : EncState) : Prop := ∀ m0, ∃ i, s.impl b m0 = some i ∧ Enc.IsImpl i

theorem EncState.Good.start : EncState.start.Good b := fun m0 => ⟨Enc.encodeGeneric, by simp [EncState.impl, EncState.start, EncFn.reads, EncFn.impl], .generic⟩

theorem EncState.Good.sse {f : File} {isa : Isa} {l : List (File × EncTable)} {r : List File} (hv : (encCfg b f isa).Valid)
    (ht : isa &&& LZCNT ≠ 0#32 → b.defd f .lzcnt = true) : (EncState.mk (.sse f isa) ((f, sseTable isa) :: l) r).Good b := by
  intro m0
  refine ⟨Enc.Simd.encode (Enc.Simd.run (Enc.Simd.X86.sse (encCfg b f isa))) m0, ?_, .sse _ hv m0⟩
  have e : (encCfg b f isa).lzcnt = decide (isa &&& LZCNT ≠ 0#32) := by
    simp only [encCfg]
    by_cases h : isa &&& LZCNT ≠ 0#32
    · rw [ht h, Bool.true_and]
    · rw [decide_eq_false h, Bool.and_false]
  have e' : (f, EncTable.sse (encCfg b f isa).lzcnt) ∈ (f, sseTable isa) :: l := by
    rw [e]
    exact List.mem_cons_self ..
  exact if_pos e'

theorem EncState.Good.avx2 {f : File} {isa : Isa} {l : List (File × EncTable)} {r : List File}
    (ht : VBMI2 ≤ isa → b.defd f .avx512vbmi2 = true ∧ b.defd f .avx512vl = true ∧ b.defd f .avx512bw = true) : (EncState.mk (.avx2 f isa) ((f, avx2Table isa) :: l) r).Good b := by
  intro m0
  refine ⟨Enc.Simd.encode (Enc.Simd.run (Enc.Simd.X86.avx2 (encCfg2 b f isa))) m0, ?_, .avx2 _ m0⟩
  have e : (encCfg2 b f isa).vbmi2 = decide (VBMI2 ≤ isa) := by
    simp only [encCfg2]
    by_cases h : VBMI2 ≤ isa
    · obtain ⟨h1, h2, h3⟩ := ht h
      rw [h1, h2, h3]
      rfl
    · rw [decide_eq_false h, Bool.and_false]
  have e' : (f, EncTable.avx2 (encCfg2 b f isa).vbmi2) ∈ (f, avx2Table isa) :: l := by
    rw [e]
    exact List.mem_cons_self ..
  exact if_pos e'

theorem encCfg_valid_low (f : File) (isa : Isa) (h : ¬ AVX3 ≤ isa) : (encCfg b f isa).Valid := by
  have h' : ¬ VBMI2 ≤ isa := fun h' => h (BitVec.le_trans (by decide) h')
  refine ⟨?_, ?_, ?_⟩ <;> simp [encCfg, h, h']

theorem encCfg_valid_high (f : File) (isa : Isa) (h1 : b.defd f .avx512vl = true → b.defd f .ssse3 = true ∧ b.defd f .popcnt = true ∧ b.tune.slowShuffle = false ∧ b.tune.btver1 = false)
    (h2 : AVX3 ≤ isa → SSSE3 ≤ isa ∧ isa &&& POPCNT ≠ 0#32) : (encCfg b f isa).Valid := by
  refine ⟨?_, ?_, ?_⟩
  · simp [encCfg]
  · intro h
    simp only [encCfg, Bool.and_eq_true, decide_eq_true_eq] at h
    obtain ⟨h3, h4, h5, h6⟩ := h1 h.1.1
    obtain ⟨h7, h8⟩ := h2 h.2
    simp [encCfg, h3, h4, h5, h6, h7, h8]
  · intro h
    simp only [encCfg, Bool.and_eq_true, decide_eq_true_eq] at h ⊢
    exact ⟨⟨h.1.1.2, h.1.2⟩, BitVec.le_trans (by decide) h.2⟩

theorem encoderSse2_good {s : EncState} (hs : s.Good b) : (encoderSse2 b s).Good b := by
  unfold encoderSse2
  split
  · exact .sse (encCfg_valid_low _ _ (by decide)) (fun h => absurd (by decide) h)
  · exact hs

theorem encoderSsse3_good {s : EncState} (hs : s.Good b) : (encoderSsse3 b s).Good b := by
  unfold encoderSsse3
  split
  · exact .sse (encCfg_valid_low _ _ (by decide)) (fun h => absurd (by decide) h)
  · exact encoderSse2_good (s := { s with ran := .ssse3 :: s.ran }) hs

theorem encoderAvx_good {s : EncState} (hs : s.Good b) : (encoderAvx b s).Good b := by
  unfold encoderAvx
  split
  · exact .sse (encCfg_valid_low _ _ (by decide)) (fun h => absurd (by decide) h)
  · exact encoderSsse3_good (s := { s with ran := .avx :: s.ran }) hs

theorem encoderAvx2_good {s : EncState} (hs : s.Good b) : (encoderAvx2 b s).Good b := by
  unfold encoderAvx2
  split
  · exact .avx2 (fun h => absurd h (by decide))
  · exact encoderAvx_good (s := { s with ran := .avx2 :: s.ran }) hs

theorem encoderVbmi2_good (hw : b.Wf) (hn : b.native = false) (hz : b.base .avx2 = true → b.base .lzcnt = true) {s : EncState} (hs : s.Good b) : (encoderVbmi2 b s).Good b := by
  unfold encoderVbmi2
  split
  · rename_i h
    obtain ⟨h1, h2, h3, h4, h5, h6⟩ := defd_vbmi2 hw h
    have ht := hw.tune hn
    split
    · exact .avx2 (fun _ => ⟨h2, h1, h3⟩)
    · exact .sse (encCfg_valid_high _ _ (fun _ => ⟨h4, h5, by rw [ht], by rw [ht]⟩) (fun _ => by decide)) (fun _ => h6 hz)
  · exact encoderAvx2_good (s := { s with ran := .vbmi2 :: s.ran }) hs

theorem encoderNative_good (hw : b.Wf) (hn : b.native = true) (hz : b.base .avx2 = true → b.base .lzcnt = true) (s : EncState) : (encoderNative b s).Good b := by
  have hk := hw.native hn
  have hd := defd_main hk
  obtain ⟨-, hN2, hN3, hN4⟩ := native_levels hw hk
  unfold encoderNative
  split
  · refine .avx2 fun h => ?_
    have h' := hN3.1 h
    simp only [hd]
    exact ⟨h', hw.vl h', hw.closed _ _ h' (by decide)⟩
  · refine .sse (encCfg_valid_high _ _ (fun h => ?_) hN2) fun h => ?_
    · simp only [hd] at h ⊢
      exact ⟨hw.closed _ _ h (by decide), hw.closed _ _ h (by decide), (hw.slow h).1, (hw.slow h).2.1⟩
    · rw [hd]
      rcases hN4 h with h | h
      · exact h
      · exact hz h

theorem encoderInit_good (hw : b.Wf) (hz : b.base .avx2 = true → b.base .lzcnt = true) {s s' : EncState} (hs : s.Good b) (h : encoderInit b c s = some s') : s'.Good b := by
  unfold encoderInit at h
  by_cases hn : b.native = true
  · rw [if_pos hn] at h
    cases h
    exact encoderNative_good hw hn hz s
  rw [if_neg hn] at h
  have hn' : b.native = false := by simpa using hn
  obtain ⟨isa, hi⟩ := supportsIsa_ne_none c
  rw [hi] at h
  cases h
  split
  · exact encoderVbmi2_good hw hn' hz hs
  split
  · exact encoderAvx2_good hs
  split
  · exact encoderAvx_good hs
  split
  · exact encoderSsse3_good hs
  · exact encoderSse2_good hs

/-! ### Decoder -/

/-- Nothing has been or will be executed that the processor does not have. -/
def DecState.Runs (b : Build) (c : Cpu) (s : DecState) : Prop := (∀ f ∈ s.ran, FileOk b c f) ∧ ∀ x ∈ s.fn.uses b, Usable c x

theorem DecState.Runs.start : DecState.start.Runs b c := ⟨by simp [DecState.start], by simp [DecState.start, DecFn.uses]⟩

theorem DecState.Runs.cons {s : DecState} (h : s.Runs b c) {f : File} (hf : FileOk b c f) : ({ s with ran := f :: s.ran } : DecState).Runs b c :=
  ⟨by simpa using ⟨hf, h.1⟩, h.2⟩

theorem decUses_sse2 (h2 : Usable c .sse2) : ∀ x ∈ (DecFn.sse .sse2 SSE2).uses b, Usable c x := by
  have e1 : decide (SSSE3 ≤ SSE2) = false := by decide
  have e2 : decide (SSE41 ≤ SSE2) = false := by decide
  have e3 : decide (SSE2 &&& POPCNT ≠ 0#32) = false := by decide
  have e4 : decide (SSE2 &&& LZCNT ≠ 0#32) = false := by decide
  have e5 : decide (AVX3 ≤ SSE2) = false := by decide
  have e6 : decide (VBMI2 ≤ SSE2) = false := by decide
  simpa [DecFn.uses, decCfg, e1, e2, e3, e4, e5, e6] using h2

theorem decUses_ssse3 (h2 : Usable c .sse2) {isa : Isa} (hl : Level c isa) (h : SSSE3 ≤ isa) : ∀ x ∈ (DecFn.sse .ssse3 SSSE3).uses b, Usable c x := by
  have e2 : decide (SSE41 ≤ SSSE3) = false := by decide
  have e3 : decide (SSSE3 &&& POPCNT ≠ 0#32) = false := by decide
  have e4 : decide (SSSE3 &&& LZCNT ≠ 0#32) = false := by decide
  have e5 : decide (AVX3 ≤ SSSE3) = false := by decide
  have e6 : decide (VBMI2 ≤ SSSE3) = false := by decide
  simp only [DecFn.uses, decCfg, e2, e3, e4, e5, e6, Bool.and_false, Bool.false_or, Bool.false_eq_true, if_false, List.append_nil, List.forall_mem_append]
  exact ⟨by simpa using h2, forall_mem_ite fun _ => by simpa using (hl.ssse3 h).1⟩

theorem decUses_avx (h2 : Usable c .sse2) {isa : Isa} (hl : Level c isa) (h : AVX ≤ isa) : ∀ x ∈ (DecFn.sse .avx SSE4_POPCNT).uses b, Usable c x := by
  have e4 : decide (SSE4_POPCNT &&& LZCNT ≠ 0#32) = false := by decide
  have e5 : decide (AVX3 ≤ SSE4_POPCNT) = false := by decide
  have e6 : decide (VBMI2 ≤ SSE4_POPCNT) = false := by decide
  obtain ⟨h3, h4⟩ := hl.ssse3 (BitVec.le_trans (by decide) h)
  obtain ⟨ha, h42, h41, hp, hx⟩ := hl.avx h
  simp only [DecFn.uses, decCfg, e4, e5, e6, Bool.and_false, Bool.false_or, Bool.false_eq_true, if_false, List.append_nil, List.forall_mem_append]
  exact ⟨⟨⟨by simpa using h2, forall_mem_ite fun _ => by simpa using h3⟩, forall_mem_ite fun _ => by simpa using h41⟩, forall_mem_ite fun _ => by simpa using hp⟩

theorem decUses_avx2 {isa : Isa} (hl : Level c isa) (h : AVX2 ≤ isa) : ∀ x ∈ (DecFn.avx2 .avx2 AVX2).uses b, Usable c x := by
  have e5 : decide (AVX3 ≤ AVX2) = false := by decide
  have e6 : decide (VBMI2 ≤ AVX2) = false := by decide
  obtain ⟨ha, h42, h41, hp, hx⟩ := hl.avx (BitVec.le_trans (by decide) h)
  simp only [DecFn.uses, decCfg, e5, e6, Bool.and_false, Bool.false_eq_true, if_false, List.append_nil, List.forall_mem_cons]
  exact ⟨(hl.avx2 h).1, hp, by simp⟩

theorem decUses_vbmi2 (h2 : Usable c .sse2) {isa : Isa} (hl : Level c isa) (h : VBMI2 ≤ isa) :
    (∀ x ∈ (DecFn.avx2 .vbmi2 VBMI2).uses b, Usable c x) ∧ ∀ x ∈ (DecFn.sse .vbmi2 VBMI2).uses b, Usable c x := by
  obtain ⟨h3, h4⟩ := hl.ssse3 (BitVec.le_trans (by decide) h)
  obtain ⟨ha, h42, h41, hp, hx⟩ := hl.avx (BitVec.le_trans (by decide) h)
  obtain ⟨ha2, hb1, hb2, hlz⟩ := hl.avx2 (BitVec.le_trans (by decide) h)
  obtain ⟨hf, hcd, hbw, hdq, hvl, hv, hf16, hfma⟩ := hl.vbmi2 h
  have h512 : ∀ x ∈ [Feature.avx512f, .avx512vl, .avx512bw], Usable c x := by
    simp only [List.forall_mem_cons]
    exact ⟨hf, hvl, hbw, by simp⟩
  constructor
  · simp only [DecFn.uses, List.forall_mem_append, List.forall_mem_cons]
    exact ⟨⟨⟨ha2, hp, by simp⟩, forall_mem_ite fun _ => h512⟩, forall_mem_ite fun _ => by simpa using hv⟩
  · simp only [DecFn.uses, List.forall_mem_append]
    exact ⟨⟨⟨⟨⟨⟨by simpa using h2, forall_mem_ite fun _ => by simpa using h3⟩, forall_mem_ite fun _ => by simpa using h41⟩, forall_mem_ite fun _ => by simpa using hp⟩,
      forall_mem_ite fun _ => by simpa using hlz⟩, forall_mem_ite fun _ => h512⟩, forall_mem_ite fun _ => by simpa using hv⟩

theorem decoderSse2_runs (hb : ∀ x, b.base x = true → Usable c x) (h2 : Usable c .sse2) {s : DecState} (hs : s.Runs b c) : (decoderSse2 b s).Runs b c := by
  unfold decoderSse2
  split
  · exact ⟨by simpa using ⟨fileOk_sse2 hb h2, hs.1⟩, decUses_sse2 h2⟩
  · exact hs.cons (fileOk_sse2 hb h2)

theorem decoderSsse3_runs (hb : ∀ x, b.base x = true → Usable c x) (h2 : Usable c .sse2) {isa : Isa} (hl : Level c isa) (h : SSSE3 ≤ isa) {s : DecState} (hs : s.Runs b c) :
    (decoderSsse3 b s).Runs b c := by
  unfold decoderSsse3
  have hf := fileOk_ssse3 hb h2 hl h
  split
  · exact ⟨by simpa using ⟨fileOk_sse2 hb h2, hf, hs.1⟩, decUses_ssse3 h2 hl h⟩
  · exact decoderSse2_runs hb h2 (hs.cons hf)

theorem decoderAvx_runs (hb : ∀ x, b.base x = true → Usable c x) (h2 : Usable c .sse2) {isa : Isa} (hl : Level c isa) (h : AVX ≤ isa) {s : DecState} (hs : s.Runs b c) :
    (decoderAvx b s).Runs b c := by
  unfold decoderAvx
  have hf := fileOk_avx hb h2 hl h
  split
  · exact ⟨by simpa using ⟨fileOk_sse2 hb h2, hf, hs.1⟩, decUses_avx h2 hl h⟩
  · exact decoderSsse3_runs hb h2 hl (BitVec.le_trans (by decide) h) (hs.cons hf)

theorem decoderAvx2_runs (hb : ∀ x, b.base x = true → Usable c x) (h2 : Usable c .sse2) {isa : Isa} (hl : Level c isa) (h : AVX2 ≤ isa) {s : DecState} (hs : s.Runs b c) :
    (decoderAvx2 b s).Runs b c := by
  unfold decoderAvx2
  have hf := fileOk_avx2 hb h2 hl h
  split
  · exact ⟨by simpa using ⟨hf, hs.1⟩, decUses_avx2 hl h⟩
  · exact decoderAvx_runs hb h2 hl (BitVec.le_trans (by decide) h) (hs.cons hf)

theorem decoderVbmi2_runs (hb : ∀ x, b.base x = true → Usable c x) (h2 : Usable c .sse2) {isa : Isa} (hl : Level c isa) (h : VBMI2 ≤ isa)
    (he : b.hasAvx10 = true ∨ isa &&& EVEX512 ≠ 0#32) {s : DecState} (hs : s.Runs b c) : (decoderVbmi2 b s).Runs b c := by
  unfold decoderVbmi2
  have hf := fileOk_vbmi2 hb h2 hl h he
  split
  · split
    · exact ⟨by simpa using ⟨hf, hs.1⟩, (decUses_vbmi2 h2 hl h).1⟩
    · exact ⟨by simpa using ⟨hf, hs.1⟩, (decUses_vbmi2 h2 hl h).2⟩
  · exact decoderAvx2_runs hb h2 hl (BitVec.le_trans (by decide) h) (hs.cons hf)

theorem decoderNative_runs (hw : b.Wf) (hn : b.native = true) (hb : ∀ x, b.base x = true → Usable c x) (h2 : Usable c .sse2) {s : DecState} (hs : s.Runs b c) :
    (decoderNative b s).Runs b c := by
  have hk := hw.native hn
  have hd := defd_main hk
  have hm := fileOk_main hb
  have h512 : b.base .avx512vl = true → b.base .avx512bw = true → ∀ x ∈ [Feature.avx512f, .avx512vl, .avx512bw], Usable c x := by
    intro h h'
    simp only [List.forall_mem_cons]
    exact ⟨hb _ (hw.closed _ _ h (by decide)), hb _ h, hb _ h', by simp⟩
  unfold decoderNative
  split
  · rename_i hi
    simp only [Bool.and_eq_true, Bool.not_eq_true'] at hi
    refine ⟨by simpa using ⟨hm, hs.1⟩, ?_⟩
    simp only [DecFn.uses, decCfg, hd, List.forall_mem_append, List.forall_mem_cons]
    refine ⟨⟨⟨hb _ hi.1, hb _ (hw.closed _ _ hi.1 (by decide)), by simp⟩, forall_mem_ite fun h => ?_⟩, forall_mem_ite fun h => ?_⟩
    · simp only [Bool.and_eq_true] at h
      exact h512 h.1.1 h.1.2
    · simp only [Bool.and_eq_true] at h
      simpa using hb _ h.1.1.1
  · refine ⟨by simpa using ⟨fileOk_sse2 hb h2, hm, hs.1⟩, ?_⟩
    simp only [DecFn.uses, decCfg, hd, List.forall_mem_append, Bool.false_or]
    refine ⟨⟨⟨⟨⟨⟨by simpa using h2, forall_mem_ite fun h => ?_⟩, forall_mem_ite fun h => ?_⟩, forall_mem_ite fun h => ?_⟩, forall_mem_ite fun h => ?_⟩, forall_mem_ite fun h => ?_⟩,
      forall_mem_ite fun h => ?_⟩
    · simp only [Bool.and_eq_true] at h
      simpa using hb _ h.1
    · simp only [Bool.and_eq_true] at h
      simpa using hb _ h.1.1
    · simp only [Bool.and_eq_true] at h
      simpa using hb _ h.1.1
    · simp only [Bool.and_eq_true] at h
      simpa using hb _ h.1
    · simp only [Bool.and_eq_true] at h
      exact h512 h.1.1 h.1.2
    · simp only [Bool.and_eq_true] at h
      simpa using hb _ h.1.1.1

theorem decoderInit_runs (hw : b.Wf) (hc : Coherent c) (hb : ∀ x, b.base x = true → Usable c x) (h2 : Usable c .sse2) {s : DecState} (hs : s.Runs b c) :
    ∃ s', decoderInit b c s = some s' ∧ s'.Runs b c := by
  unfold decoderInit
  by_cases hn : b.native = true
  · rw [if_pos hn]
    exact ⟨_, rfl, decoderNative_runs hw hn hb h2 hs⟩
  rw [if_neg hn]
  obtain ⟨isa, hi⟩ := supportsIsa_ne_none c
  have hl := level_of_supportsIsa hc hi
  rw [hi]
  refine ⟨_, rfl, ?_⟩
  split
  · rename_i h
    exact decoderVbmi2_runs hb h2 hl h.1 h.2 hs
  split
  · rename_i h
    exact decoderAvx2_runs hb h2 hl h hs
  split
  · rename_i h
    exact decoderAvx_runs hb h2 hl h hs
  split
  · rename_i h
    exact decoderSsse3_runs hb h2 hl h hs
  · exact decoderSse2_runs hb h2 hs

/-- The decoder selected is one of those the other theorems are about, and its tables have been made. -/
def DecState.Good (b : Build) (s : DecState) : Prop := ∃ i, s.impl b = some i ∧ Dec.M.IsImpl i

theorem DecState.Good.start : DecState.start.Good b := ⟨Dec.M.generic, by simp [DecState.impl, DecState.start, DecFn.reads, DecFn.impl], .generic⟩

theorem DecState.impl_of_mem {s : DecState} (h : ∀ f, s.fn.reads b = some f → f ∈ s.luts) : s.impl b = some (s.fn.impl b) := by
  unfold DecState.impl
  cases hr : s.fn.reads b with
  | none => rfl
  | some f => exact if_pos (h f hr)

theorem DecState.Good.sse {f : File} {isa : Isa} {l : List File} {r : List File} (hv : (decCfg b false f isa).Valid)
    (ht : f ∉ l → (decCfg b false f isa).vbmi2 = true ∧ (decCfg b false f isa).avx3 = true) : (DecState.mk (.sse f isa) l r).Good b := by
  refine ⟨Dec.Simd.impl (Dec.Simd.X86.kernel (decCfg b false f isa)) false, DecState.impl_of_mem fun g hg => ?_, .simd (.x86 _ hv)⟩
  simp only [DecFn.reads] at hg
  split at hg
  · simp at hg
  · rename_i hh
    cases hg
    apply Classical.byContradiction
    intro hf
    apply hh
    rw [(ht hf).1, (ht hf).2]
    rfl

theorem DecState.Good.avx2 {f : File} {isa : Isa} {l : List File} {r : List File} (ht : f ∉ l → (decCfg b true f isa).vbmi2 = true) : (DecState.mk (.avx2 f isa) l r).Good b := by
  have hv : (decCfg b true f isa).Valid := ⟨fun _ => by simp [decCfg], fun _ => by simp [decCfg]⟩
  refine ⟨Dec.Simd.impl (Dec.Simd.X86.kernel (decCfg b true f isa)) false, DecState.impl_of_mem fun g hg => ?_, .simd (.x86 _ hv)⟩
  simp only [DecFn.reads] at hg
  split at hg
  · simp at hg
  · rename_i hh
    cases hg
    apply Classical.byContradiction
    intro hf
    exact hh (ht hf)

theorem decCfg_valid_low (f : File) (isa : Isa) (h : ¬ AVX3 ≤ isa) : (decCfg b false f isa).Valid := by
  refine ⟨?_, ?_⟩ <;> simp [decCfg, h]

theorem decCfg_valid_high (f : File) (isa : Isa)
    (h1 : b.defd f .avx512vl = true → b.defd f .ssse3 = true ∧ b.tune.slowShuffle = false ∧ b.tune.btver2 = false) (h2 : AVX3 ≤ isa → SSSE3 ≤ isa) : (decCfg b false f isa).Valid := by
  refine ⟨fun h => ?_, by simp [decCfg]⟩
  simp only [decCfg, Bool.and_eq_true, decide_eq_true_eq] at h
  obtain ⟨h3, h4, h5⟩ := h1 h.1.1.1
  simp [decCfg, h3, h4, h5, h2 h.1.2]

theorem decoderSse2_good {s : DecState} (hs : s.Good b) : (decoderSse2 b s).Good b := by
  unfold decoderSse2
  split
  · exact .sse (decCfg_valid_low _ _ (by decide)) (fun h => absurd (List.mem_cons_self ..) h)
  · exact hs

theorem decoderSsse3_good {s : DecState} (hs : s.Good b) : (decoderSsse3 b s).Good b := by
  unfold decoderSsse3
  split
  · exact .sse (decCfg_valid_low _ _ (by decide)) (fun h => absurd (List.mem_cons_self ..) h)
  · exact decoderSse2_good (s := { s with ran := .ssse3 :: s.ran }) hs

theorem decoderAvx_good {s : DecState} (hs : s.Good b) : (decoderAvx b s).Good b := by
  unfold decoderAvx
  split
  · exact .sse (decCfg_valid_low _ _ (by decide)) (fun h => absurd (List.mem_cons_self ..) h)
  · exact decoderSsse3_good (s := { s with ran := .avx :: s.ran }) hs

theorem decoderAvx2_good {s : DecState} (hs : s.Good b) : (decoderAvx2 b s).Good b := by
  unfold decoderAvx2
  split
  · exact .avx2 (fun h => absurd (List.mem_cons_self ..) h)
  · exact decoderAvx_good (s := { s with ran := .avx2 :: s.ran }) hs

theorem decoderVbmi2_good (hw : b.Wf) (hn : b.native = false) {s : DecState} (hs : s.Good b) : (decoderVbmi2 b s).Good b := by
  unfold decoderVbmi2
  split
  · rename_i h
    obtain ⟨h1, h2, h3, h4, h5, -⟩ := defd_vbmi2 hw h
    have ht := hw.tune hn
    have e1 : decide (VBMI2 ≤ VBMI2) = true := by decide
    have e2 : decide (AVX3 ≤ VBMI2) = true := by decide
    split
    · exact .avx2 (fun _ => by simp only [decCfg, h1, h2, e1, Bool.true_or, Bool.and_true])
    · exact .sse (decCfg_valid_high _ _ (fun _ => ⟨h4, by rw [ht], by rw [ht]⟩) (fun _ => by decide))
        (fun _ => ⟨by simp only [decCfg, h1, h2, h5, e1, Bool.or_true, Bool.and_true], by simp only [decCfg, h1, h3, e2, Bool.and_true]⟩)
  · exact decoderAvx2_good (s := { s with ran := .vbmi2 :: s.ran }) hs

theorem decoderNative_good (hw : b.Wf) (hn : b.native = true) (s : DecState) : (decoderNative b s).Good b := by
  have hk := hw.native hn
  have hd := defd_main hk
  obtain ⟨-, hN2, -, -⟩ := native_levels hw hk
  unfold decoderNative
  split
  · exact .avx2 (fun h => absurd (List.mem_cons_self ..) h)
  · refine .sse (decCfg_valid_high _ _ (fun h => ?_) (fun h => (hN2 h).1)) (fun h => absurd (List.mem_cons_self ..) h)
    simp only [hd] at h ⊢
    exact ⟨hw.closed _ _ h (by decide), (hw.slow h).1, (hw.slow h).2.2⟩

theorem decoderInit_good (hw : b.Wf) {s s' : DecState} (hs : s.Good b) (h : decoderInit b c s = some s') : s'.Good b := by
  unfold decoderInit at h
  by_cases hn : b.native = true
  · rw [if_pos hn] at h
    cases h
    exact decoderNative_good hw hn s
  rw [if_neg hn] at h
  have hn' : b.native = false := by simpa using hn
  obtain ⟨isa, hi⟩ := supportsIsa_ne_none c
  rw [hi] at h
  cases h
  split
  · exact decoderVbmi2_good hw hn' hs
  split
  · exact decoderAvx2_good hs
  split
  · exact decoderAvx_good hs
  split
  · exact decoderSsse3_good hs
  · exact decoderSse2_good hs

/-! ### CRC -/

/-- Nothing has been or will be executed that the processor does not have. -/
def CrcState.Runs (b : Build) (c : Cpu) (s : CrcState) : Prop := (∀ f ∈ s.ran, FileOk b c f) ∧ ∀ x ∈ s.uses b, Usable c x

theorem CrcState.Runs.start : CrcState.start.Runs b c := ⟨by simp [CrcState.start], by simp [CrcState.start, CrcState.uses]⟩

theorem crcAvx512_usable (hw : b.Wf) (hb : ∀ x, b.base x = true → Usable c x) {f : File} (hf : f = .clmul ∨ f = .clmul256) (h : crcAvx512 b f = true) :
    ∀ x ∈ [Feature.avx512f, .avx512vl], Usable c x := by
  simp only [crcAvx512, Bool.and_eq_true] at h
  have hk := hw.native h.2
  have h1 : b.assumes f .avx512vl = true := by
    have h1 := h.1
    unfold Build.defd at h1
    cases hc : b.compiler with
    | gnu _ _ _ _ _ =>
      rw [hc] at h1
      exact h1
    | msvc v => exact absurd hc (hk v)
  have h2 : b.base .avx512vl = true := by
    rw [assumes_iff] at h1
    rcases h1 with h1 | ⟨s, hs, h1⟩
    · exact h1
    · have := brings_of_switches _ _ _ _ hs h1
      rcases hf with rfl | rfl <;> exact absurd this (by simp [brings])
  simp only [List.forall_mem_cons]
  exact ⟨hb _ (hw.closed _ _ h2 (by decide)), hb _ h2, by simp⟩

theorem crcGfni_usable (hw : b.Wf) (hb : ∀ x, b.base x = true → Usable c x) (h : crcGfni b = true) : ∀ x ∈ [Feature.gfni], Usable c x := by
  simp only [crcGfni, Bool.and_eq_true] at h
  have hk := hw.native h.2
  have h1 : b.assumes .clmul .gfni = true := by
    have h1 := h.1
    unfold Build.defd at h1
    cases hc : b.compiler with
    | gnu _ _ _ _ _ =>
      rw [hc] at h1
      exact h1
    | msvc v => exact absurd hc (hk v)
  rw [assumes_iff] at h1
  rcases h1 with h1 | ⟨s, hs, h1⟩
  · simpa using hb _ h1
  · exact absurd (brings_of_switches _ _ _ _ hs h1) (by simp [brings])

theorem crcClmul_runs (hw : b.Wf) (hb : ∀ x, b.base x = true → Usable c x) (h2 : Usable c .sse2)
    (h : Usable c .pclmul ∧ Usable c .ssse3 ∧ Usable c .sse3 ∧ Usable c .sse41) {s : CrcState} (hs : s.Runs b c) : (crcClmul b s).Runs b c := by
  have hf := fileOk_clmul hb h2 h
  unfold crcClmul
  have hu : ∀ x ∈ [Feature.sse2, .ssse3, .sse41, .pclmul], Usable c x := by
    simp only [List.forall_mem_cons]
    exact ⟨h2, h.2.1, h.2.2.2, h.1, by simp⟩
  split
  · refine ⟨by simpa using ⟨hf, hs.1⟩, ?_⟩
    simp only [CrcState.uses, if_true, List.forall_mem_append]
    exact ⟨⟨hu, forall_mem_ite (crcAvx512_usable hw hb (Or.inl rfl))⟩, ⟨hu, forall_mem_ite (crcAvx512_usable hw hb (Or.inl rfl))⟩, forall_mem_ite (crcGfni_usable hw hb)⟩
  · exact ⟨by simpa using ⟨hf, hs.1⟩, hs.2⟩

theorem crcClmul256_runs (hw : b.Wf) (hb : ∀ x, b.base x = true → Usable c x) (h2 : Usable c .sse2)
    (h : Usable c .pclmul ∧ Usable c .ssse3 ∧ Usable c .sse3 ∧ Usable c .sse41)
    (h' : Usable c .avx ∧ Usable c .sse42 ∧ Usable c .popcnt ∧ Usable c .xsave ∧ Usable c .avx2 ∧ Usable c .vpclmul) {s : CrcState} (hs : s.Runs b c) :
    (crcClmul256 b s).Runs b c := by
  have hf := fileOk_clmul256 hb h2 h h'
  have hs' : ({ s with ran := .clmul256 :: s.ran } : CrcState).Runs b c := ⟨by simpa using ⟨hf, hs.1⟩, hs.2⟩
  have hc := crcClmul_runs hw hb h2 h hs'
  unfold crcClmul256
  split
  · refine ⟨hc.1, ?_⟩
    have hu : ∀ x ∈ [Feature.avx2, .vpclmul, .pclmul], Usable c x := by
      simp only [List.forall_mem_cons]
      exact ⟨h'.2.2.2.2.1, h'.2.2.2.2.2, h.1, by simp⟩
    have hm := hc.2
    simp only [CrcState.uses, List.forall_mem_append] at hm ⊢
    exact ⟨⟨hu, forall_mem_ite (crcAvx512_usable hw hb (Or.inr rfl))⟩, hm.2⟩
  · exact hc

theorem crcInit_runs (hw : b.Wf) (hc : Coherent c) (hb : ∀ x, b.base x = true → Usable c x) (h2 : Usable c .sse2) {s : CrcState} (hs : s.Runs b c) :
    ∃ s', crcInit b c s = some s' ∧ s'.Runs b c := by
  unfold crcInit
  obtain ⟨n, hn⟩ := supportsCrcIsa_ne_none c
  obtain ⟨hn2, h3, h4⟩ := level_of_supportsCrcIsa hc hn
  rw [hn]
  match n, hn2 with
  | 0, _ => exact ⟨s, rfl, hs⟩
  | 1, _ => exact ⟨_, rfl, crcClmul_runs hw hb h2 (h3 (by omega)) hs⟩
  | 2, _ => exact ⟨_, rfl, crcClmul256_runs hw hb h2 (h3 (by omega)) (h4 (by omega)) hs⟩

theorem crcState_isImpl (s : CrcState) (target : Crc.Util.Target) (around : Nat → List Byte → Nat → Byte) : Crc.IsImpl (s.impl b target around) := by
  refine ⟨?_, ?_, ?_⟩
  · cases hi : s.incr with
    | generic =>
      simp only [CrcState.impl, hi]
      split
      · exact .generic
      · exact .crcutil ..
    | clmul =>
      simp only [CrcState.impl, hi]
      exact .clmul ..
    | clmul256 =>
      simp only [CrcState.impl, hi]
      exact .clmul256 ..
  · simp only [CrcState.impl]
    split
    · exact .clmul
    · exact .generic
  · simp only [CrcState.impl]
    split
    · exact .clmul ..
    · exact .generic

/-! ### ARM and RISC-V -/

theorem armInit_uses (ab : ArmBuild) (has : ArmFeature → Bool) {s : ArmState} (hs : ∀ x ∈ s.uses, has x = true) : ∀ x ∈ (armInit ab has s).uses, has x = true := by
  obtain ⟨e, d, k, m, sh, p⟩ := s
  obtain ⟨a64, neon, crc, pmull, bitscan, msvc⟩ := ab
  have e1 : ∀ (q : Bool) (l : List ArmFeature), (∀ x ∈ (if q = true then l else []), has x = true) ↔ (q = true → ∀ x ∈ l, has x = true) := by
    intro q l
    cases q <;> simp
  simp only [ArmState.uses, List.forall_mem_append, e1, List.forall_mem_cons] at hs
  cases h1 : has .neon <;> cases h2 : has .crc <;> cases h3 : has .pmull <;> cases neon <;> cases crc <;> cases pmull <;>
    simp_all [armInit, ArmState.uses, or_imp, forall_and]

theorem armState_isImpl (ab : ArmBuild) (s : ArmState) (m0 : Mem) (around : Nat → List Byte → Nat → Byte) :
    Enc.IsImpl (s.enc' ab m0) ∧ Dec.M.IsImpl (s.dec' ab) ∧ Crc.IsImpl (s.crc' ab around) := by
  refine ⟨?_, ?_, ?_, ?_, ?_⟩
  · unfold ArmState.enc'
    split
    · exact .neon _ _
    · exact .generic
  · unfold ArmState.dec'
    split
    · exact .simd (.neon _)
    · exact .generic
  · simp only [ArmState.crc']
    split
    · exact .arm _ (by split <;> simp) _
    · exact .generic
  · simp only [ArmState.crc']
    split
    · exact .pmull _
    · split
      · exact .arm
      · exact .generic
  · simp only [ArmState.crc']
    split
    · exact .pmull ..
    · split
      · exact .arm
      · split
        · exact .generic
        · exact .portable

theorem rvInit_uses (rb : RvBuild) (cpu : RvCpu) {s : RvState} (hs : ∀ x ∈ s.uses, RvUsable cpu x) : ∀ x ∈ (rvInit rb cpu s).uses, RvUsable cpu x := by
  have e1 : ∀ (q : Bool) (l : List RvFeature), (∀ x ∈ (if q = true then l else []), RvUsable cpu x) ↔ (q = true → ∀ x ∈ l, RvUsable cpu x) := by
    intro q l
    cases q <;> simp
  have hv : supportsRvv cpu = true → ∀ x ∈ [RvFeature.i, .m, .a, .f, .d, .c, .v], RvUsable cpu x := by
    intro h
    have h' : cpu.hwcap &&& 0x20112D#64 = 0x20112D#64 := by simpa [supportsRvv] using h
    simp only [List.forall_mem_cons]
    exact ⟨bit_of_and_eq h' 8 (by decide), bit_of_and_eq h' 12 (by decide), bit_of_and_eq h' 0 (by decide), bit_of_and_eq h' 5 (by decide), bit_of_and_eq h' 3 (by decide),
      bit_of_and_eq h' 2 (by decide), bit_of_and_eq h' 21 (by decide), by simp⟩
  have hz : supportsZbkc cpu = true → RvUsable cpu .zbkc := by
    intro h
    unfold supportsZbkc at h
    simp only [RvUsable, RvCpu.probe]
    cases hp : cpu.hwprobe with
    | none => simp [hp] at h
    | some x =>
      simp only [hp, bne_iff_ne] at h ⊢
      cases h7 : x.getLsbD 7
      · left
        cases h9 : x.getLsbD 9
        · exfalso
          apply h
          have e : (1#64 <<< 7 ||| 1#64 <<< 9) = BitVec.twoPow 64 7 ||| BitVec.twoPow 64 9 := by decide
          rw [e, BitVec.and_or_distrib_left, BitVec.and_twoPow, BitVec.and_twoPow, h7, h9]
          simp
        · rfl
      · right
        rfl
  simp only [RvState.uses, List.forall_mem_append, e1] at hs ⊢
  unfold rvInit
  by_cases h1 : (supportsRvv cpu && rb.rvv) = true <;> by_cases h2 : (supportsZbkc cpu && rb.zbkc) = true
  · simp only [h1, h2, if_true]
    simp only [Bool.and_eq_true] at h1 h2
    exact ⟨fun _ => hv h1.1, fun _ => by simpa using hz h2.1⟩
  · simp only [h1, h2, if_true, if_false, Bool.false_eq_true]
    simp only [Bool.and_eq_true] at h1
    exact ⟨fun _ => hv h1.1, hs.2⟩
  · simp only [h1, h2, if_true, if_false, Bool.false_eq_true]
    simp only [Bool.and_eq_true] at h2
    exact ⟨hs.1, fun _ => by simpa using hz h2.1⟩
  · simp only [h1, h2, if_false, Bool.false_eq_true]
    exact hs

theorem rvState_isImpl (rb : RvBuild) (s : RvState) (around : Nat → List Byte → Nat → Byte) :
    (∀ vl junk m0, Enc.Simd.Rvv.Vl2 vl → Enc.IsImpl (s.enc' vl junk m0)) ∧ (∀ vl junk, vl = 32 ∨ vl = 64 → Dec.M.IsImpl (s.dec' vl junk)) ∧ Crc.IsImpl (s.crc' rb around) := by
  refine ⟨fun vl junk m0 h => ?_, fun vl junk h => ?_, ?_, ?_, ?_⟩
  · unfold RvState.enc'
    split
    · exact .rvv vl h junk m0
    · exact .generic
  · unfold RvState.dec'
    split
    · exact .simd (.rvv vl h junk)
    · exact .generic
  all_goals
    simp only [RvState.crc']
    split
    · first | exact .riscv _ (by split <;> simp) | exact .riscv _ (by split <;> simp) _
    · exact .generic

end Yenc.Startup
