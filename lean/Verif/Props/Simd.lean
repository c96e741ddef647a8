import Verif.Lemmas.Vec
import Verif.Lemmas.Api
import Verif.Lemmas.DecMask
/-!
Properties C18, C38, C39: the vectorised decoders.
-/
namespace Yenc.Props
open Yenc

/-- Reference for C39: going through characters from first to last, which of those that are `=` (`true`) escape the next one.  A character that is
itself escaped does not; `e` says that the first one is escaped. -/
def escaping : Bool → List Bool → List Bool
  | _, [] => []
  | e, c :: cs => (c && !e) :: escaping (c && !e) cs

theorem escaping_map (m : Nat → Bool) (e : Bool) (n : Nat) :
    escaping e ((List.range n).map m) = (List.range n).map (Dec.escAt m e) := by
  induction n generalizing m e with
  | zero => rfl
  | succ n ih =>
    rw [List.range_succ_eq_map, List.map_cons, List.map_cons, escaping, List.map_map, List.map_map]
    have h : ∀ i, Dec.escAt (m ∘ Nat.succ) (m 0 && !e) i = Dec.escAt m e (i + 1) := by
      intro i
      induction i with
      | zero => rfl
      | succ i ih => simp only [Dec.escAt, ih]; rfl
    rw [ih]
    congr 1
    apply List.map_congr_left
    intro i _
    exact h i

/-- C39: for vectors of up to 64 characters, any pattern of `=` and either carry, `fix_eqMask` applied as the kernels do (`(maskEq << 1) + escFirst`) keeps exactly the
`=` that escape something when read from first to last. -/
theorem C39_fix_eqMask (w : Nat) (hw : w ≤ 64) (maskEq : BitVec w) (escFirst : Bool) :
    (List.range w).map (Dec.fixEqMask maskEq (maskEq <<< 1 + BitVec.ofNat w escFirst.toNat)).getLsbD =
      escaping escFirst ((List.range w).map maskEq.getLsbD) := by
  rw [escaping_map]
  apply List.map_congr_left
  intro i hi
  rw [List.mem_range] at hi
  apply Dec.fixEqMask_getLsbD hw _ _ _ _ _ i hi
  · intro h; rw [shl1_add_getLsbD _ _ _ h, if_pos rfl]
  · intro i hi; rw [shl1_add_getLsbD _ _ _ hi, if_neg (by omega), Nat.add_sub_cancel]

/-- Runs of three, four and one `=` in one mask, the first run being continued from the block before. -/
example : Dec.fixEqMask 0b0100011110000111#16 (0b0100011110000111#16 <<< 1 + BitVec.ofNat 16 true.toNat) = 0b0100001010000010#16 := by decide
example : escaping true [true, true, true, false, false, true, true] = [false, true, false, false, false, true, false] := by decide

/-! ### C38 -/

variable {dimpl : Dec.Impl}

/-- C38 for `decodeChunk`: whatever the arguments, every implementation returns what the scalar code returns, or throws the same. -/
theorem C38_decodeChunk (hd : Dec.IsImpl dimpl) (data : List Byte) (output prev : Js.Val) :
    Js.decodeChunk dimpl data output prev = Js.decodeChunk Dec.generic data output prev := by
  have h : dimpl.endRaw = Dec.generic.endRaw := by
    funext st l
    rw [hd.correct.endRaw, Dec.generic_correct.endRaw]
  have h2 : ∀ l st d, Dec.decodeIncr dimpl l st d = Dec.decodeIncr Dec.generic l st d := by
    intro l st d; simp only [Dec.decodeIncr, h]
  have h3 : ∀ l d p, Js.decodeChunkCore dimpl l d p = Js.decodeChunkCore Dec.generic l d p := by
    intro l d p; simp only [Js.decodeChunkCore, h2]
  unfold Js.decodeChunk
  split <;> simp only [h3]

/-- C38 for `decode` without dot stripping, or with it if the input does not end in `=` CR LF. -/
theorem C38_decode_partial (hd : Dec.IsImpl dimpl) (s : List Byte) (strip : Bool) (h : strip = true → ¬ [EQ, CR, LF] <:+ s) :
    Dec.apiDecode dimpl [.buffer s, .bool strip] = Dec.apiDecode Dec.generic [.buffer s, .bool strip] := by
  cases strip with
  | false => rw [Dec.apiDecode_eq hd.correct false s (by simp), Dec.apiDecode_eq Dec.generic_correct false s (by simp)]
  | true =>
    rw [Dec.apiDecode_eq hd.correct true s (fun _ => hd.correct.raw s (h rfl)), Dec.apiDecode_eq Dec.generic_correct true s (fun _ => Dec.generic_raw s)]

example := C38_decode_partial (.ofMem _ (.simd (.neon true)) (fun _ => EQ) (fun _ => (5, 5)) (fun _ => .inl (Nat.le_refl 5))) [107#8, CR, LF, DOT, DOT] true (by decide)

/-- C38 on memory, without dot stripping: for any contents of memory, any addresses with the output not beginning inside the input after its start, the vectorised code
and the scalar code give the same length and bytes. -/
theorem C38_plain_memory {I : Dec.M.Impl} (hI : Dec.M.IsImpl I) (m : Mem) (src dest len : Nat) (hs : dest ≤ src ∨ src + len ≤ dest) :
    ∃ n m1 m2, I.plain m src dest len = some (m1, n) ∧ Dec.M.generic.plain m src dest len = some (m2, n) ∧ n ≤ len ∧
      m1.rdn dest n = m2.rdn dest n ∧ ∀ x, x < dest ∨ dest + len ≤ x → m1 x = m x := by
  obtain ⟨t1, h1, l1⟩ := hI.correct.plain m src dest len hs
  obtain ⟨t2, h2, l2⟩ := Dec.M.generic_correct.plain m src dest len hs
  refine ⟨_, _, _, h1, h2, ?_, ?_, fun x hx => Mem.wr_out _ _ _ _ (by omega)⟩
  · simp only [List.length_append] at l1; omega
  · rw [Mem.rdn_wr_prefix, Mem.rdn_wr_prefix]

example := C38_plain_memory (.simd (.neon true)) (fun _ => EQ) 1000 1000 100 (by decide)

/-- C38 on memory, with end detection, from any state: the same bytes read and written, the same state and end. -/
theorem C38_end_memory {I : Dec.M.Impl} (hI : Dec.M.IsImpl I) (m : Mem) (src dest len : Nat) (st : Dec.State) (hs : dest ≤ src ∨ src + len ≤ dest) :
    ∃ n r1 r2, I.endRaw m src dest len st = some r1 ∧ Dec.M.generic.endRaw m src dest len st = some r2 ∧
      r1.src = r2.src ∧ r1.state = r2.state ∧ r1.ended = r2.ended ∧ r1.dest = dest + n ∧ r2.dest = dest + n ∧ n ≤ len ∧
      r1.m.rdn dest n = r2.m.rdn dest n ∧ ∀ x, x < dest ∨ dest + len ≤ x → r1.m x = m x := by
  obtain ⟨t1, h1, l1⟩ := hI.correct.endRaw m src dest len st hs
  obtain ⟨t2, h2, l2⟩ := Dec.M.generic_correct.endRaw m src dest len st hs
  refine ⟨_, _, _, h1, h2, rfl, rfl, rfl, rfl, rfl, ?_, ?_, fun x hx => Mem.wr_out _ _ _ _ (by omega)⟩
  · simp only [List.length_append] at l1; omega
  · simp only [Mem.rdn_wr_prefix]

example := C38_end_memory (.simd (.neon true)) (fun _ => EQ) 1000 1100 100 .crlf (by decide)

/-- When exactly the vectorised code that handles `w` bytes per round loses the last byte of an input `l` at address `a`: there are more than two rounds of input, it ends
two bytes after an address divisible by `w`, and in `=` CR LF of which the CR is escaped (i.e. it counts). -/
def LosesByte (w a : Nat) (l : List Byte) : Prop :=
  w * 2 < l.length ∧ (a + l.length) % w = 2 ∧ [EQ, CR, LF] <:+ l ∧ Spec.decode true (l.take (l.length - 2)) ≠ Spec.decode true l

/-- C38 with dot stripping, exactly: any vectorised implementation, any memory, any addresses.  Unless `LosesByte`, length and bytes are those of the scalar code;
otherwise they are these without the last byte. -/
theorem C38_strip_memory {I : Dec.M.Impl} {w : Nat} (hI : Dec.M.IsSimd I w) (m : Mem) (src dest len : Nat) (hs : dest ≤ src ∨ src + len ≤ dest) :
    ∃ n k m1 m2, I.raw m src dest len = some (m1, k) ∧ Dec.M.generic.raw m src dest len = some (m2, n) ∧ n ≤ len ∧
      (¬ LosesByte w src (m.rdn src len) → k = n) ∧ (LosesByte w src (m.rdn src len) → k + 1 = n) ∧
      m1.rdn dest k = (m2.rdn dest n).take k ∧ ∀ x, x < dest ∨ dest + len ≤ x → m1 x = m x := by
  have hs : Dec.M.Safe dest src (src + len) := hs
  obtain ⟨out, h1, h2⟩ := hI.rawOk src (m.rdn src len)
  obtain ⟨t, h2, h3⟩ := h2 m dest (by simp) (by simpa using hs)
  obtain ⟨out', h4, h5⟩ := Dec.M.generic_correct.raw src (m.rdn src len)
  obtain ⟨t2, h5, h6⟩ := h5 m dest (by simp) (by simpa using hs)
  have h7 : out' = Spec.decode true (m.rdn src len) := by
    obtain ⟨o1, st', o, g1, g2, g3, g4⟩ := Dec.M.noendRaw_sim m src dest len none (by simpa using hs)
    have g5 : o1 = Spec.decode true (m.rdn src len) := by
      have := congrArg (Option.map Prod.fst) g1
      simp only [Mem.rd, Nat.add_sub_cancel_left, Dec.noendRaw_null, Dec.nrun_crlf_spec] at this
      simpa using this.symm
    have g6 := h5
    simp only [Dec.M.generic, Mem.rdn_length, g2, Option.map_some, Option.some.injEq, Prod.mk.injEq] at g6
    rcases h4 with h4 | ⟨_, h4⟩
    · exact h4
    · have g7 := congrArg List.length h4
      rw [← g6.2, g5] at g7
      simp only [List.length_dropLast] at g7
      have : Spec.decode true (m.rdn src len) = [] := List.length_eq_zero_iff.1 (by omega)
      rw [h4, this]; rfl
  simp only [Mem.rdn_length] at h2 h3 h5 h6
  rw [List.length_append] at h3 h6
  refine ⟨out'.length, out.length, _, _, h2, h5, by omega, ?_, ?_, ?_, fun x hx => Mem.wr_out _ _ _ _ (by simp; omega)⟩
  · intro h
    rw [h1, if_neg (by rw [Dec.Simd.lost_iff]; exact h), h7]
  · intro h
    have hl := (Dec.Simd.lost_iff w src (m.rdn src len)).2 h
    have hne : 0 < (Spec.decode true (m.rdn src len)).length := by
      apply List.length_pos_iff.2
      intro h0
      have h8 := h.2.2.2
      have h9 := (Dec.Simd.lost_tail hl).2
      rw [Dec.nrun_crlf_spec, Dec.nrun_crlf_spec, h0] at h9
      exact h8 (by rw [h9, h0]; rfl)
    rw [h1, if_pos hl, h7, List.length_dropLast]; omega
  · rw [Mem.rdn_wr_prefix, Mem.rdn_wr_prefix, h1, h7]
    split
    · rw [List.dropLast_eq_take, List.length_take, Nat.min_eq_left (by omega)]
    · rw [List.take_length]

/-- The implementations of x86 builds are among those. -/
example : Dec.M.IsSimd (Dec.Simd.impl (Dec.Simd.X86.kernel .sse2Funcs) false) 32 := .x86 .sse2Funcs (by simp [Dec.Simd.X86.Cfg.Valid, Dec.Simd.X86.Cfg.sse2Funcs])
example : Dec.M.IsSimd (Dec.Simd.impl (Dec.Simd.X86.kernel .ssse3Funcs) false) 32 := .x86 .ssse3Funcs (by simp [Dec.Simd.X86.Cfg.Valid, Dec.Simd.X86.Cfg.ssse3Funcs])
example : Dec.M.IsSimd (Dec.Simd.impl (Dec.Simd.X86.kernel .avxFuncs) false) 32 := .x86 .avxFuncs (by simp [Dec.Simd.X86.Cfg.Valid, Dec.Simd.X86.Cfg.avxFuncs])
example : Dec.M.IsSimd (Dec.Simd.impl (Dec.Simd.X86.kernel .avx2Funcs) false) 64 := .x86 .avx2Funcs (by simp [Dec.Simd.X86.Cfg.Valid, Dec.Simd.X86.Cfg.avx2Funcs])
example : Dec.M.IsSimd (Dec.Simd.impl (Dec.Simd.X86.kernel .vbmi2Funcs) false) 64 := .x86 .vbmi2Funcs (by simp [Dec.Simd.X86.Cfg.Valid, Dec.Simd.X86.Cfg.vbmi2Funcs])

/-- Those of ARM builds too. -/
example : Dec.M.IsSimd (Dec.Simd.impl (Dec.Simd.Neon.kernel true) true) 64 := .neon true
example : Dec.M.IsSimd (Dec.Simd.impl (Dec.Simd.Neon.kernel false) true) 32 := .neon false

/-- And those of RISC-V builds, for vector registers of 128 and 256 bits, whatever the unspecified parts of vectors are. -/
example (junk : Dec.Simd.Rvv.Regs → (Nat → Byte) → Dec.Simd.Rvv.Junk) : Dec.M.IsSimd (Dec.Simd.impl (Dec.Simd.Rvv.kernel 32 junk) false) 32 := .rvv 32 (.inl rfl) junk
example (junk : Dec.Simd.Rvv.Regs → (Nat → Byte) → Dec.Simd.Rvv.Junk) : Dec.M.IsSimd (Dec.Simd.impl (Dec.Simd.Rvv.kernel 64 junk) false) 64 := .rvv 64 (.inr rfl) junk

/-- Unspecified parts of vectors as hardware may set them: ones.  Of the sum of masks, decoder_rvv.cc:229 only computes the first 64 bits. -/
def ones : Dec.Simd.Rvv.Junk where
  tail := fun _ => 255#8
  mask := fun _ => true
  word := -1#16
  wide := fun eq evenStart k => if k < 64 then (Rvv.mask64 eq + Rvv.mask64 evenStart).getLsbD k else true

/-- C38 is false for RISC-V with vector registers of 512 bits: 300 characters with `==` after the 64th. -/
theorem C38_rvv_wide_false :
    ((Dec.Simd.impl (Dec.Simd.Rvv.kernel 128 fun _ _ => ones) false).plain (fun x => if x = 64 ∨ x = 65 then EQ else 107#8) 0 0 300).map Prod.snd = some 298 ∧
      (Dec.M.generic.plain (fun x => if x = 64 ∨ x = 65 then EQ else 107#8) 0 0 300).map Prod.snd = some 299 := by
  decide +kernel

/-- An input as in `LosesByte` for `w` bytes per round. -/
def losing (w : Nat) : List Byte := List.replicate (2 * w - 1) 107#8 ++ [EQ, CR, LF]

theorem losing_decode (w : Nat) (hw : 1 ≤ w) :
    Spec.decode true (losing w) = List.replicate (2 * w - 1) 65#8 ++ [163#8] ∧
      Spec.decode true ((losing w).take ((losing w).length - 2)) = List.replicate (2 * w - 1) 65#8 := by
  have h : ∀ n t, Dec.nrun .none (List.replicate n 107#8 ++ t) = Dec.npre (List.replicate n 65#8) (Dec.nrun .none t) := by
    intro n t
    induction n with
    | zero => rfl
    | succ n ih =>
      rw [List.replicate_succ, List.cons_append, Dec.nrun_none_plain _ _ (by decide) (by decide) (by decide), ih, Dec.npre_npre]
      rfl
  have h1 : ∀ n t, 1 ≤ n → Dec.nrun .crlf (List.replicate n 107#8 ++ t) = Dec.npre (List.replicate n 65#8) (Dec.nrun .none t) := by
    intro n t hn
    obtain ⟨n, rfl⟩ : ∃ k, n = k + 1 := ⟨n - 1, by omega⟩
    rw [← h, List.replicate_succ, List.cons_append, Dec.nrun_crlf_cons, if_neg (by decide)]
  have h2 : (losing w).take ((losing w).length - 2) = List.replicate (2 * w - 1) 107#8 ++ [EQ] := by
    unfold losing
    rw [show List.replicate (2 * w - 1) 107#8 ++ [EQ, CR, LF] = (List.replicate (2 * w - 1) 107#8 ++ [EQ]) ++ [CR, LF] by simp]
    rw [List.take_left' (by simp)]
  rw [h2, ← Dec.nrun_crlf_spec, ← Dec.nrun_crlf_spec, losing, h1 _ _ (by omega), h1 _ _ (by omega)]
  exact ⟨rfl, by simp [Dec.npre, Dec.nrun, Dec.nstep, Dec.stepNone]⟩

theorem losing_loses (w : Nat) (hw : 4 ≤ w) : LosesByte w 0 (losing w) := by
  have h := losing_decode w (by omega)
  have hl : (losing w).length = 2 * w + 2 := by unfold losing; simp; omega
  refine ⟨by omega, ?_, ⟨_, rfl⟩, ?_⟩
  · rw [hl, Nat.zero_add, Nat.add_mod, Nat.mul_mod_left, Nat.zero_add, Nat.mod_mod, Nat.mod_eq_of_lt (by omega)]
  · rw [h.1, h.2]
    intro h
    have := congrArg List.length h
    simp at this

/-- C38 as stated is false: every vectorised implementation, called on this input at a suitable place in memory, returns one byte less than the scalar code. -/
theorem C38_strip_false {I : Dec.M.Impl} {w : Nat} (hI : Dec.M.IsSimd I w) :
    ∃ d, Dec.IsImpl d ∧
      Dec.apiDecode Dec.generic [.buffer (List.replicate (2 * w - 1) 107#8 ++ [EQ, CR, LF]), .bool true] = .ret (List.replicate (2 * w - 1) 65#8 ++ [163#8]) ∧
      Dec.apiDecode d [.buffer (List.replicate (2 * w - 1) 107#8 ++ [EQ, CR, LF]), .bool true] = .ret (List.replicate (2 * w - 1) 65#8) := by
  have hw := hI.width
  have h1 := losing_decode w (by omega)
  have h2 := losing_loses w hw
  have hl : (losing w).length = 2 * w + 2 := by unfold losing; simp; omega
  refine ⟨_, .ofMem I (.simd hI) (fun _ => 0) (fun l => (0, l.length)) (fun l => by simp), ?_, ?_⟩
  · rw [Dec.apiDecode_eq Dec.generic_correct true _ (fun _ => Dec.generic_raw _)]
    exact congrArg _ h1.1
  · rw [show List.replicate (2 * w - 1) 107#8 ++ [EQ, CR, LF] = losing w from rfl]
    have hne : losing w ≠ [] := by intro h; rw [h] at hl; simp at hl
    obtain ⟨out, g1, g2⟩ := hI.rawOk 0 (losing w)
    rw [if_pos ((Dec.Simd.lost_iff _ _ _).2 h2), h1.1, List.dropLast_concat] at g1
    obtain ⟨t, g2, g3⟩ := g2 (Mem.wr (fun _ => 0) 0 (losing w)) (losing w).length (Mem.rdn_wr _ _ _) (.inr (by omega))
    have g4 : (Dec.ofMem I (fun _ => 0) (fun l => (0, l.length))).raw (losing w) = some out := by
      simp only [Dec.ofMem, g2, Option.map_some, Mem.rdn_wr_prefix]
    simp only [Dec.apiDecode, hne, if_false, Dec.rawArg, argToBool, Outcome.bind, Dec.runPlain, if_true, g4]
    rw [if_pos (by simp at g3; omega), g1]

/-! ### C18: reads of the vectorised decoders -/

/-- C18: `decode` with any vectorised implementation, with or without dot stripping: no load before the start or beyond the end of the input, no store outside the first `len`
bytes of the output, whatever memory contains and wherever the buffers are.  (`none` is such a load or store.) -/
theorem C18_simd_decode_reads {I : Dec.M.Impl} {w : Nat} (hI : Dec.M.IsSimd I w) (m : Mem) (src dest len : Nat) (hs : dest ≤ src ∨ src + len ≤ dest) :
    I.plain m src dest len ≠ none ∧ I.raw m src dest len ≠ none := by
  have hI := (Dec.M.IsImpl.simd hI).correct
  refine ⟨?_, ?_⟩
  · obtain ⟨t, h, _⟩ := hI.plain m src dest len hs
    rw [h]; simp
  · obtain ⟨out, _, h⟩ := hI.raw src (m.rdn src len)
    have hs : Dec.M.Safe dest src (src + len) := hs
    obtain ⟨t, h, _⟩ := h m dest (by simp) (by simpa using hs)
    rw [Mem.rdn_length] at h
    rw [h]; simp

example := C18_simd_decode_reads (.neon true) (fun _ => EQ) 1000 900 1000 (by decide)

/-- C18: `decodeChunk` with any x86 implementation: the same. -/
theorem C18_x86_decodeChunk_reads (c : Dec.Simd.X86.Cfg) (hc : c.Valid) (m : Mem) (src dest len : Nat) (st : Dec.State) (hs : dest ≤ src ∨ src + len ≤ dest) :
    (Dec.Simd.impl (Dec.Simd.X86.kernel c) false).endRaw m src dest len st ≠ none := by
  obtain ⟨t, h, _⟩ := (Dec.M.IsImpl.simd (.x86 c hc)).correct.endRaw m src dest len st hs
  rw [h]; simp

example := C18_x86_decodeChunk_reads .sse2Funcs (by simp [Dec.Simd.X86.Cfg.Valid, Dec.Simd.X86.Cfg.sse2Funcs]) (fun _ => EQ) 1000 900 1000 .eq (by decide)

/-- C18: `decodeChunk` with the RISC-V implementation, for vector registers of 128 and 256 bits: the same. -/
theorem C18_rvv_decodeChunk_reads (vl : Nat) (hvl : vl = 32 ∨ vl = 64) (junk : Dec.Simd.Rvv.Regs → (Nat → Byte) → Dec.Simd.Rvv.Junk) (m : Mem) (src dest len : Nat) (st : Dec.State)
    (hs : dest ≤ src ∨ src + len ≤ dest) : (Dec.Simd.impl (Dec.Simd.Rvv.kernel vl junk) false).endRaw m src dest len st ≠ none := by
  obtain ⟨t, h, _⟩ := (Dec.M.IsImpl.simd (.rvv vl hvl junk)).correct.endRaw m src dest len st hs
  rw [h]; simp

example : Dec.Simd.X86.Cfg.avx2Funcs.Valid := by simp [Dec.Simd.X86.Cfg.Valid, Dec.Simd.X86.Cfg.avx2Funcs]

/-- C18 with the ARM code, what holds: `decodeChunk` reads at most up to the end of the aligned 16 bytes the input ends in.  What is missing: that it stays inside the input. -/
theorem C18_neon_decodeChunk_reads_partial (a64 : Bool) (m : Mem) (src dest len : Nat) (st : Dec.State) (hs : dest ≤ src ∨ src + len ≤ dest) :
    (Dec.Simd.impl (Dec.Simd.Neon.kernel a64) true).endRaw m src dest len st ≠ none := by
  obtain ⟨t, h, _⟩ := (Dec.M.IsImpl.simd (.neon a64)).correct.endRaw m src dest len st hs
  rw [h]; simp

/-- C18 is false for `decodeChunk` with the ARM code: on 132 (64-bit) resp. 68 (32-bit) aligned bytes, of which one in the second vector is a CR, it reads beyond the last. -/
theorem C18_neon_overread_false :
    (Dec.Simd.impl (Dec.Simd.Neon.kernel true) false).endRaw (fun x => if x = 64 then CR else 107#8) 0 0 132 .crlf = none ∧
      (Dec.Simd.impl (Dec.Simd.Neon.kernel false) false).endRaw (fun x => if x = 32 then CR else 107#8) 0 0 68 .crlf = none := by
  rw [← Option.isNone_iff_eq_none, ← Option.isNone_iff_eq_none]
  decide +kernel

end Yenc.Props
