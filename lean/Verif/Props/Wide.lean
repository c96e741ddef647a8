import Verif.Lemmas.DecConf
import Verif.Props.Decode
import Verif.Props.Encode
/-!
Property C73: the RISC-V decoder with vector registers of any length.  (With more than 256 bits it is wrong on some inputs, `C38_rvv_wide_false`.)
-/
namespace Yenc.Props
open Yenc Spec

variable {eimpl : Enc.Impl} {dimpl : Dec.Impl}

/-- A stream in which `=` is never followed by another `=`, by CR or by LF.  yEnc encoders write no others: a critical character is shifted by 64 after the `=`. -/
def Conformant (l : List Byte) : Prop := ∀ a x t, l = a ++ EQ :: x :: t → x ≠ EQ ∧ x ≠ CR ∧ x ≠ LF

/-- The RISC-V decoder (decoder_rvv.cc:21-266): `vl` bytes per round (any positive multiple of 8; the hardware gives `VLEN / 4`), any contents of inactive vector elements (`junk`, which also
stands for the outcome of the loop at decoder_rvv.cc:230-234 if `vl > 64`), any contents of memory, buffers anywhere. -/
inductive IsRvv : Dec.Impl → Prop where
  | mk (vl : Nat) (hv8 : vl % 8 = 0) (hv0 : 8 ≤ vl) (junk : Dec.Simd.Rvv.Regs → (Nat → Byte) → Dec.Simd.Rvv.Junk) (m0 : Mem) (loc : List Byte → Nat × Nat)
      (h : ∀ l, (loc l).2 ≤ (loc l).1 ∨ (loc l).1 + l.length ≤ (loc l).2) : IsRvv (Dec.ofMem (Dec.Simd.impl (Dec.Simd.Rvv.kernel vl junk) false) m0 loc)

/-- On conformant input the functions return what correct ones return. -/
theorem IsRvv.mended (h : IsRvv dimpl) : ∃ d', Dec.Correct d' ∧ (∀ l, Conformant l → dimpl.plain l = d'.plain l ∧ dimpl.raw l = d'.raw l) ∧
    ∀ st l, Conformant (st.str ++ l) → dimpl.endRaw st l = d'.endRaw st l := by
  cases h with
  | mk vl hv8 hv0 junk m0 loc h =>
    refine ⟨_, Dec.ofMem_correct (Dec.Simd.Rvv.mended hv8 hv0 junk) m0 loc h, fun l hl => ⟨?_, ?_⟩, fun st l hl => ?_⟩
    · simp only [Dec.ofMem]
      rw [Dec.Simd.Rvv.plain_mend hv8 hv0 junk _ _ _ _ (h l) (by rw [Mem.rdn_wr, Dec.conf_iff]; exact hl)]
    · simp only [Dec.ofMem]
      rw [Dec.Simd.Rvv.raw_mend hv8 hv0 junk _ _ _ _ (h l) (by rw [Mem.rdn_wr, Dec.conf_iff]; exact hl)]
    · simp only [Dec.ofMem]
      rw [Dec.Simd.Rvv.endRaw_mend hv8 hv0 junk _ _ _ _ st (h l) (by rw [Mem.rdn_wr, Dec.conf_iff]; exact hl)]

theorem Conformant.no_tail {l : List Byte} (h : Conformant l) : ¬ [EQ, CR, LF] <:+ l := by
  rintro ⟨a, rfl⟩
  exact (h a CR [LF] rfl).2.1 rfl

/-- C73, `decode`: on conformant input, with or without dot stripping, the reference decoder. -/
theorem C73_decode (hd : IsRvv dimpl) (l : List Byte) (hl : Conformant l) (strip : Bool) :
    Dec.apiDecode dimpl [.buffer l, .bool strip] = .ret (Spec.decode strip l) := by
  obtain ⟨d', h1, h2, _⟩ := hd.mended
  rw [← Dec.apiDecode_eq h1 strip l fun _ => h1.raw l hl.no_tail]
  simp only [Dec.apiDecode, Dec.rawArg, argToBool, Outcome.bind, Dec.runPlain, (h2 l hl).1, (h2 l hl).2]

/-- C73, `decodeChunk`: on conformant input, counting what the state string says came before, what the portable code returns. -/
theorem C73_decodeChunk (hd : IsRvv dimpl) (l s : List Byte) (hs : IsState s) (hl : Conformant (s ++ l)) (output : Js.Val) (ho : output = .undef ∨ ∃ b, output = .buffer b) :
    Js.decodeChunk dimpl l output (.str s) = Js.decodeChunk Dec.generic l output (.str s) := by
  obtain ⟨st, rfl⟩ := (IsState_iff s).mp hs
  obtain ⟨d', h1, _, h2⟩ := hd.mended
  have h3 : dimpl.endRaw st l = Dec.generic.endRaw st l := by
    rw [h2 st l hl, h1.endRaw, Dec.generic_correct.endRaw]
  have key : ∀ dest, Js.decodeChunkCore dimpl l dest st.str = Js.decodeChunkCore Dec.generic l dest st.str := by
    intro dest
    simp only [Js.decodeChunkCore, Dec.normPrev_str, Dec.stateIndex_str, Dec.decodeIncr, Dec.State.ofInt_toNat, h3]
  rcases ho with rfl | ⟨b, rfl⟩
  · exact key _
  · exact key _

/-- C73, incremental decoding: a conformant stream cut into chunks in any way, threading the state: what the portable code returns for the whole stream at once. -/
theorem C73_pieces (hd : IsRvv dimpl) (cs : List (List Byte)) (s : List Byte) (hs : IsState s) (hl : cs.flatten.length < 2 ^ 31) (hc : Conformant (s ++ cs.flatten)) :
    feed dimpl cs s = Js.decodeChunk Dec.generic cs.flatten .undef (.str s) := by
  obtain ⟨st, rfl⟩ := (IsState_iff s).mp hs
  rw [decodeChunk_str .generic _ hl, ← feed_eq .generic cs (fun c hc => by
    have : c.length ≤ cs.flatten.length := (List.sublist_flatten_of_mem hc).length_le
    omega)]
  clear hs
  induction cs generalizing st with
  | nil => rfl
  | cons c cs ih =>
    rw [List.flatten_cons, List.length_append] at hl
    rw [List.flatten_cons] at hc
    have hc' : Conformant (st.str ++ c) := by
      rw [← List.append_assoc] at hc
      exact (Dec.conf_iff _).1 (Dec.conf_left ((Dec.conf_iff _).2 hc))
    rw [feed, feed, C73_decodeChunk hd c _ ((IsState_iff _).2 ⟨st, rfl⟩) hc' _ (.inl rfl), decodeChunk_str .generic c (by omega)]
    simp only [Outcome.bind]
    by_cases he : (Dec.run st c).ended = .none
    · rw [if_neg (by simp [chunkRes, he]), if_neg (by simp [chunkRes, he])]
      have hs : (chunkRes st c).state = (Dec.run st c).state.str := by simp [chunkRes, Dec.Res.str, he]
      rw [hs, ih (by omega) _ ((Dec.conf_iff _).1 (Dec.conf_state st c cs.flatten ((Dec.conf_iff _).2 hc) he))]
    · rw [if_pos (by simp [chunkRes, he]), if_pos (by simp [chunkRes, he])]

theorem encode_conformant (ls : Nat) (fin : Bool) (col : Nat) (d : List Byte) : Conformant (Spec.encode ls fin col d) :=
  (Dec.conf_iff _).1 (Dec.conf_encode ls fin col d)

/-- C73: what `encode` returns is conformant, whatever the data. -/
theorem C73_encode_conformant (he : Enc.IsImpl eimpl) (d : List Byte) (ls col : Nat) (h1 : 1 ≤ ls) (h2 : ls + 6 < 2 ^ 31) (h3 : col < ls) :
    ∃ e, Enc.apiEncode eimpl [.buffer d, .int ls, .int col] = .ret e ∧ Conformant e :=
  ⟨_, C03_encode_reference he d ls col h1 h2 h3, encode_conformant _ _ _ _⟩

example := C73_encode_conformant .generic [19#8, 214#8, 214#8] 128 3 (by decide) (by decide) (by decide)

/-- C73, round trip: whatever the data, what any encoder wrote is decoded back. -/
theorem C73_round_trip (he : Enc.IsImpl eimpl) (hd : IsRvv dimpl) (d : List Byte) (ls col : Nat) (h1 : 1 ≤ ls) (h2 : ls + 6 < 2 ^ 31) (h3 : col < ls) :
    ∃ e, Enc.apiEncode eimpl [.buffer d, .int ls, .int col] = .ret e ∧ Dec.apiDecode dimpl [.buffer e, .bool false] = .ret d := by
  refine ⟨_, C03_encode_reference he d ls col h1 h2 h3, ?_⟩
  rw [C73_decode hd _ (encode_conformant _ _ _ _)]
  simp [Spec.decode, Enc.yDecode_encode]

example (hd : IsRvv dimpl) := C73_round_trip .generic hd [19#8, 214#8, 214#8] 128 3 (by decide) (by decide) (by decide)

/-- C73, round trip with dot stripping: the same, from column 0. -/
theorem C73_round_trip_nntp (he : Enc.IsImpl eimpl) (hd : IsRvv dimpl) (d : List Byte) (ls : Nat) (h1 : 1 ≤ ls) (h2 : ls + 6 < 2 ^ 31) :
    ∃ e, Enc.apiEncode eimpl [.buffer d, .int ls, .int 0] = .ret e ∧ Dec.apiDecode dimpl [.buffer e, .bool true] = .ret d := by
  refine ⟨_, C03_encode_reference he d ls 0 h1 h2 (by omega), ?_⟩
  rw [C73_decode hd _ (encode_conformant _ _ _ _), Enc.decode_true_encode ls h1]

example (hd : IsRvv dimpl) := C73_round_trip_nntp .generic hd [19#8, 214#8, 214#8] 128 (by decide) (by decide)

/-- C73, round trip in chunks: what any encoder wrote, cut into chunks in any way, is decoded back and never taken for an end mark. -/
theorem C73_round_trip_pieces (he : Enc.IsImpl eimpl) (hd : IsRvv dimpl) (d : List Byte) (ls : Nat) (h1 : 1 ≤ ls) (h2 : ls + 6 < 2 ^ 31) (cs : List (List Byte))
    (hcs : Enc.apiEncode eimpl [.buffer d, .int ls, .int 0] = .ret cs.flatten) (hl : cs.flatten.length < 2 ^ 31) :
    ∃ s, feed dimpl cs [CR, LF] = .ret ⟨cs.flatten.length, d.length, d, false, s⟩ := by
  have h3 := C03_encode_reference he d ls 0 h1 h2 (by omega)
  rw [Int.natCast_zero, hcs] at h3
  injection h3 with h3
  have h4 : Conformant ([CR, LF] ++ cs.flatten) := by
    rw [h3]
    exact (Dec.conf_iff _).1 ((Dec.conf_str .crlf _).2 (Dec.conf_encode ls true 0 d))
  obtain ⟨s, hs⟩ := C08_never_terminator he .generic d ls h1 h2 cs hcs (fun c hc => by
    have : c.length ≤ cs.flatten.length := (List.sublist_flatten_of_mem hc).length_le
    omega)
  refine ⟨s, ?_⟩
  rw [← hs, C73_pieces hd cs _ (by simp [IsState]) hl h4]
  have := (feed_eq (dimpl := Dec.generic) .generic cs (fun c hc => by
    have : c.length ≤ cs.flatten.length := (List.sublist_flatten_of_mem hc).length_le
    omega) .crlf)
  exact (decodeChunk_str .generic _ hl .crlf).trans this.symm

/-- C73, memory: on *any* input, conformant or not, no load before the start or beyond the end of the input and no store outside the first `len` bytes of the output (`none` would be such an
access); the count returned is at most the length of the input. -/
theorem C73_reads (vl : Nat) (hv : 8 ≤ vl) (junk : Dec.Simd.Rvv.Regs → (Nat → Byte) → Dec.Simd.Rvv.Junk) (m : Mem) (src dest len : Nat) (st : Dec.State) (hs : dest ≤ src ∨ src + len ≤ dest) :
    (∃ r, (Dec.Simd.impl (Dec.Simd.Rvv.kernel vl junk) false).plain m src dest len = some r ∧ r.2 ≤ len) ∧
      (∃ r, (Dec.Simd.impl (Dec.Simd.Rvv.kernel vl junk) false).raw m src dest len = some r ∧ r.2 ≤ len) ∧
      ∃ r, (Dec.Simd.impl (Dec.Simd.Rvv.kernel vl junk) false).endRaw m src dest len st = some r ∧ dest ≤ r.dest ∧ r.dest ≤ dest + len := by
  have h := fun md st => Dec.Simd.decode_fits (Dec.Simd.Rvv.kernel_fits vl (by omega) junk md) m src dest len st hs
  refine ⟨?_, ?_, ?_⟩
  · obtain ⟨r, h1, h2, h3⟩ := h .plain none
    refine ⟨(r.m, r.dest - dest), by simp only [Dec.Simd.impl, h1, Option.map_some], ?_⟩
    simp only; omega
  · obtain ⟨r, h1, h2, h3⟩ := h .raw none
    refine ⟨(r.m, r.dest - dest), by simp only [Dec.Simd.impl, h1, Option.map_some], ?_⟩
    simp only; omega
  · obtain ⟨r, h1, h2, h3⟩ := h .endRaw (some st)
    exact ⟨r, by simp only [Dec.Simd.impl, h1], h2, h3⟩

example := C73_reads 256 (by decide) (fun _ _ => ⟨fun _ => EQ, fun _ => true, 0xFFFF#16, fun _ _ _ => true⟩) (fun _ => EQ) 1000 900 1000 .crlf (by decide)

/-- C73: `decode` never has an undefined outcome, and never returns more bytes than it was given, on any input. -/
theorem C73_decode_total (hd : IsRvv dimpl) (l : List Byte) (strip : Bool) : ∃ o, Dec.apiDecode dimpl [.buffer l, .bool strip] = .ret o ∧ o.length ≤ l.length := by
  cases hd with
  | mk vl hv8 hv0 junk m0 loc h =>
    unfold Dec.apiDecode
    by_cases hne : l = []
    · exact ⟨[], by simp [hne], by simp⟩
    · simp only [hne, if_false, Dec.rawArg, argToBool, Outcome.bind, Dec.runPlain]
      obtain ⟨⟨r1, g1, g2⟩, ⟨r2, g3, g4⟩, _⟩ := C73_reads vl hv0 junk (m0.wr (loc l).1 l) (loc l).1 (loc l).2 l.length .crlf (h l)
      cases strip
      · simp only [Bool.false_eq_true, if_false, Dec.ofMem, g1, Option.map_some]
        rw [if_pos (by simpa using g2)]
        exact ⟨_, rfl, by simpa using g2⟩
      · simp only [if_true, Dec.ofMem, g3, Option.map_some]
        rw [if_pos (by simpa using g4)]
        exact ⟨_, rfl, by simpa using g4⟩

/-- Vectors of 512 bits, and an input with escapes, dots and line breaks. -/
example : IsRvv (Dec.ofMem (Dec.Simd.impl (Dec.Simd.Rvv.kernel 128 fun _ _ => ones) false) (fun _ => 0) fun _ => (5, 5)) := .mk 128 (by decide) (by decide) _ _ _ (by simp)

theorem conformant_example : Conformant [CR, LF, DOT, DOT, EQ, 125#8, EQ, 110#8, CR, LF, EQ] := by
  rw [Conformant, ← Dec.conf_iff]
  simp [Dec.conf, Dec.Simd.X86.special]; decide

example (hd : IsRvv dimpl) : Dec.apiDecode dimpl [.buffer [CR, LF, DOT, DOT, EQ, 125#8, EQ, 110#8, CR, LF, EQ], .bool true] = .ret [4#8, 19#8, 4#8] :=
  (C73_decode hd _ conformant_example true).trans (by decide)
example : ¬ Conformant [107#8, EQ, EQ, 107#8] := fun h => (h [107#8] EQ [107#8] rfl).1 rfl
example : IsState [EQ] ∧ Conformant ([EQ] ++ [125#8, CR, LF]) := by
  refine ⟨by simp [IsState], ?_⟩
  rw [Conformant, ← Dec.conf_iff]
  simp [Dec.conf, Dec.Simd.X86.special]; decide

end Yenc.Props
