import Verif.Lemmas.Api
/-!
Properties C08, C15, C16, C18-C24, C49, C52: the decoder, through `decode`, `decodeTo` and `decodeChunk`.
-/
namespace Yenc.Props
open Yenc Spec

variable {eimpl : Enc.Impl} {dimpl : Dec.Impl}

/-! ### One-shot decoding -/

/-- C15 without dot stripping, every implementation: the reference decoder. -/
theorem C15_decode_plain (hd : Dec.IsImpl dimpl) (s : List Byte) :
    Dec.apiDecode dimpl [.buffer s, .bool false] = .ret (Spec.decode false s) ∧
      Dec.apiDecode dimpl [.buffer s] = .ret (Spec.decode false s) := by
  have h := Dec.apiDecode_eq hd.correct false s (by simp)
  refine ⟨h, ?_⟩
  rw [← h]
  rfl

/-- C15 with dot stripping, portable implementation: the two-layer reference decoder, for every input. -/
theorem C15_decode_strip_generic (s : List Byte) :
    Dec.apiDecode Dec.generic [.buffer s, .bool true] = .ret (Spec.decode true s) :=
  Dec.apiDecode_eq Dec.generic_correct true s (fun _ => Dec.generic_raw s)

/-- C15 with dot stripping, every implementation.  Partial: inputs ending in an escaped line break (`=CR LF`) are excluded; on those
the vectorised decoders can lose the last byte (DESIGN.md, 5.8). -/
theorem C15_decode_strip_partial (hd : Dec.IsImpl dimpl) (s : List Byte)
    (hs : ¬ ([EQ, CR, LF] <:+ s)) :
    Dec.apiDecode dimpl [.buffer s, .bool true] = .ret (Spec.decode true s) :=
  Dec.apiDecode_eq hd.correct true s (fun _ => hd.correct.raw s hs)

/-- C15 with dot stripping, every implementation and every input: at worst the last byte is lost, and only if the input ends in an escaped
line break. -/
theorem C15_decode_strip_any_partial (hd : Dec.IsImpl dimpl) (s : List Byte) :
    Dec.apiDecode dimpl [.buffer s, .bool true] = .ret (Spec.decode true s) ∨
      ([EQ, CR, LF] <:+ s ∧ Dec.apiDecode dimpl [.buffer s, .bool true] = .ret (Spec.decode true s).dropLast) :=
  (Dec.apiDecode_any hd.correct true s).imp id fun h => h.2

example : Dec.apiDecode Dec.generic [.buffer [DOT, DOT, 107#8, CR, LF, DOT, DOT, EQ, 110#8, EQ], .bool true] =
    .ret [4#8, 65#8, 4#8, 4#8] :=
  (C15_decode_strip_partial .generic _ (by decide)).trans (by decide)

/-- C16: never more output than input (`decode`, `decodeTo`), for any argument list. -/
theorem C16_decode_size (args : List Arg) (src : List Byte) (out : List Byte)
    (h : Dec.apiDecode dimpl (.buffer src :: args) = .ret out) : out.length ≤ src.length := by
  unfold Dec.apiDecode at h
  by_cases hne : src = []
  · subst hne; simp at h; simp [h]
  · simp only [hne, if_false] at h
    revert h
    cases Dec.rawArg args with
    | ret b =>
      simp only [Outcome.bind, Dec.runPlain]
      split
      · simp
      · split
        · intro h; injection h with h; subst h; assumption
        · simp
    | throw => simp [Outcome.bind]
    | ub => simp [Outcome.bind]

/-- C18 (and C16): no decode call has an undefined outcome, i.e. reads or writes outside its buffers; every implementation, all inputs. -/
theorem C18_decode_no_ub (hd : Dec.IsImpl dimpl) (s dest : List Byte) (b : Bool) :
    Dec.apiDecode dimpl [.buffer s, .bool b] ≠ .ub ∧
      Dec.apiDecodeTo dimpl [.buffer s, .buffer dest, .bool b] ≠ .ub := by
  have key : ∃ o, Dec.apiDecode dimpl [.buffer s, .bool b] = .ret o := by
    rcases Dec.apiDecode_any hd.correct b s with h | h
    · exact ⟨_, h⟩
    · exact ⟨_, h.2.2⟩
  obtain ⟨o, ho⟩ := key
  refine ⟨by rw [ho]; simp, ?_⟩
  unfold Dec.apiDecodeTo
  by_cases hne : s = []
  · simp [hne]
  · simp only [hne, if_false]
    by_cases hl : dest.length < s.length
    · simp [hl]
    · simp only [hl, if_false, Dec.rawArg, argToBool, Outcome.bind]
      have h2 : Dec.runPlain dimpl b s s.length = .ret o := by
        simpa [Dec.apiDecode, hne, Dec.rawArg, argToBool, Outcome.bind] using ho
      have h3 : Dec.runPlain dimpl b s dest.length = .ret o := by
        unfold Dec.runPlain at h2 ⊢
        split at h2
        · simp at h2
        · split at h2
          · rename_i hle
            rw [if_pos (by omega)]; exact h2
          · simp at h2
      simp [h3]

/-- `decodeTo` writes what `decode` returns, at the start of a destination that is large enough. -/
theorem C16_decodeTo (hd : Dec.IsImpl dimpl) (s dest : List Byte) (b : Bool) (hl : s.length ≤ dest.length)
    (hb : b = true → ¬ ([EQ, CR, LF] <:+ s)) :
    Dec.apiDecodeTo dimpl [.buffer s, .buffer dest, .bool b] = .ret (toInt32 (Spec.decode b s).length, Spec.decode b s) ∧
      (Spec.decode b s).length ≤ s.length := by
  refine ⟨?_, Dec.decode_length b s⟩
  unfold Dec.apiDecodeTo
  by_cases hne : s = []
  · subst hne; cases b <;> simp [Spec.decode, Spec.unstuff, Spec.unstuffAux, Spec.yDecode, toInt32]
  · simp only [hne, if_false, show ¬ dest.length < s.length by omega, Dec.rawArg, argToBool, Outcome.bind]
    rw [Dec.runPlain_eq hd.correct b s _ hl]
    intro h
    exact hd.correct.raw s (hb h)

example := C16_decodeTo .generic [EQ, 107#8, CR, LF, DOT, DOT] (List.replicate 6 0#8) true (by decide) (by decide)

/-- C49: `decodeTo` with a destination shorter than the input writes nothing and returns 0 (README says it throws). -/
theorem C49_decodeTo_short (s dest : List Byte) (rest : List Arg) (h : dest.length < s.length) :
    Dec.apiDecodeTo dimpl (.buffer s :: .buffer dest :: rest) = .ret (0, []) := by
  unfold Dec.apiDecodeTo
  by_cases hne : s = []
  · simp [hne]
  · simp [hne, h]

example := C49_decodeTo_short (dimpl := Dec.generic) [1#8, 2#8] [0#8] [.bool true] (by decide)

/-- C24: decoding a dot-stuffed text with dot stripping is decoding the text without. -/
theorem C24_stuffing_undone_generic (x : List Byte) :
    Dec.apiDecode Dec.generic [.buffer (Spec.stuff x), .bool true] = Dec.apiDecode Dec.generic [.buffer x, .bool false] := by
  rw [C15_decode_strip_generic, (C15_decode_plain .generic x).1]
  simp only [Spec.decode, if_true, Bool.false_eq_true, if_false, Spec.unstuff, Spec.stuff]
  rw [Enc.unstuff_stuffAux]

/-- C24, every implementation.  Partial: texts that end (after stuffing) in an escaped line break are excluded, as in `C15_decode_strip_partial`. -/
theorem C24_stuffing_undone_partial (hd : Dec.IsImpl dimpl) (x : List Byte)
    (hs : ¬ ([EQ, CR, LF] <:+ Spec.stuff x)) :
    Dec.apiDecode dimpl [.buffer (Spec.stuff x), .bool true] = Dec.apiDecode dimpl [.buffer x, .bool false] := by
  rw [C15_decode_strip_partial hd _ hs, (C15_decode_plain hd x).1]
  simp only [Spec.decode, if_true, Bool.false_eq_true, if_false, Spec.unstuff, Spec.stuff]
  rw [Enc.unstuff_stuffAux]

example : Spec.stuff [DOT, 65#8, CR, LF, DOT] = [DOT, DOT, 65#8, CR, LF, DOT, DOT] := by decide

/-! ### Chunked decoding -/

/-- The caller's loop from the README: feed chunks, threading the state string, stop at the end of the data. -/
def feed (impl : Dec.Impl) : List (List Byte) → List Byte → Outcome Js.ChunkRes
  | [], s => .ret ⟨0, 0, [], false, s⟩
  | c :: cs, s =>
    (Js.decodeChunk impl c .undef (.str s)).bind fun r =>
    if r.ended then .ret r
    else (feed impl cs r.state).bind fun r2 =>
      .ret ⟨r.read + r2.read, r.written + r2.written, r.output ++ r2.output, r2.ended, r2.state⟩

/-- What one `decodeChunk` call returns, in terms of the automaton. -/
def chunkRes (st : Dec.State) (l : List Byte) : Js.ChunkRes :=
  ⟨(l.length - (Dec.run st l).rest.length : Nat), (Dec.run st l).out.length, (Dec.run st l).out,
    (Dec.run st l).ended ≠ .none, (Dec.run st l).str⟩

theorem decodeChunk_str (hd : Dec.IsImpl dimpl) (l : List Byte) (hl : l.length < 2 ^ 31) (st : Dec.State) :
    Js.decodeChunk dimpl l .undef (.str st.str) = .ret (chunkRes st l) :=
  Dec.decodeChunkCore_eq hd.correct l st none (by simp) hl

theorem decodeChunk_fresh (hd : Dec.IsImpl dimpl) (l : List Byte) (hl : l.length < 2 ^ 31) :
    Js.decodeChunk dimpl l .undef .undef = .ret (chunkRes .crlf l) :=
  Dec.decodeChunkCore_eq hd.correct l .crlf none (by simp) hl

theorem feed_eq (hd : Dec.IsImpl dimpl) (cs : List (List Byte)) (hl : ∀ c ∈ cs, c.length < 2 ^ 31) (st : Dec.State) :
    feed dimpl cs st.str = .ret (chunkRes st cs.flatten) := by
  induction cs generalizing st with
  | nil => simp [feed, chunkRes, Dec.run, Dec.Res.str]
  | cons c cs ih =>
    rw [feed, decodeChunk_str hd c (hl c (by simp)) st]
    simp only [Outcome.bind]
    by_cases he : (Dec.run st c).ended = .none
    · rw [if_neg (by simp [chunkRes, he])]
      have hs : (chunkRes st c).state = (Dec.run st c).state.str := by simp [chunkRes, Dec.Res.str, he]
      have h3 := Dec.run_rest_of_not_ended st c he
      have h4 := Dec.run_length (Dec.run st c).state cs.flatten
      rw [hs, ih (fun x hx => hl x (by simp [hx]))]
      simp only [chunkRes, List.flatten_cons, Dec.run_append st c cs.flatten he, h3, Dec.Res.pre, List.length_append, List.length_nil, Dec.Res.str]
      congr 2
      omega
    · rw [if_pos (by simp [chunkRes, he])]
      simp only [chunkRes, List.flatten_cons, Dec.run_append_ended st c cs.flatten he, List.length_append, Dec.Res.str]
      congr 3
      have := Dec.run_length st c
      omega

/-- The state strings of README: what a stream's history can leave behind, as long as it has not ended. -/
def IsState (s : List Byte) : Prop :=
  s ∈ ([[CR, LF], [EQ], [CR], [], [CR, LF, DOT], [CR, LF, DOT, CR], [CR, LF, EQ]] : List (List Byte))

theorem IsState_iff (s : List Byte) : IsState s ↔ ∃ st : Dec.State, s = st.str := by
  constructor
  · intro h
    simp only [IsState, List.mem_cons, List.not_mem_nil, or_false] at h
    rcases h with rfl | rfl | rfl | rfl | rfl | rfl | rfl
    · exact ⟨.crlf, rfl⟩
    · exact ⟨.eq, rfl⟩
    · exact ⟨.cr, rfl⟩
    · exact ⟨.none, rfl⟩
    · exact ⟨.crlfdt, rfl⟩
    · exact ⟨.crlfdtcr, rfl⟩
    · exact ⟨.crlfeq, rfl⟩
  · rintro ⟨st, rfl⟩; cases st <;> simp [Dec.State.str, Dec.State.toNat, Js.decodePrev, IsState]

/-- C19: any chunking gives the result of a single call on the whole stream. -/
theorem C19_chunk_independent (hd : Dec.IsImpl dimpl) (cs : List (List Byte)) (hl : cs.flatten.length < 2 ^ 31) (s : List Byte)
    (hs : IsState s) :
    ∃ r, feed dimpl cs s = .ret r ∧ Js.decodeChunk dimpl cs.flatten .undef (.str s) = .ret r := by
  obtain ⟨st, rfl⟩ := (IsState_iff s).mp hs
  refine ⟨_, feed_eq hd cs (fun c hc => ?_) st, decodeChunk_str hd _ hl st⟩
  have : c.length ≤ cs.flatten.length := (List.sublist_flatten_of_mem hc).length_le
  omega

example : IsState [CR, LF, DOT, CR] ∧ ([[DOT, CR], [], [LF, 65#8]] : List (List Byte)).flatten.length < 2 ^ 31 := by
  simp [IsState]

/-- C08: the encoded data, in any chunking, decodes back to the data and is never taken for an end mark. -/
theorem C08_never_terminator (he : Enc.IsImpl eimpl) (hd : Dec.IsImpl dimpl) (d : List Byte) (ls : Nat) (h1 : 1 ≤ ls) (h2 : ls + 6 < 2 ^ 31)
    (cs : List (List Byte)) (hcs : Enc.apiEncode eimpl [.buffer d, .int ls, .int 0] = .ret cs.flatten)
    (hl : ∀ c ∈ cs, c.length < 2 ^ 31) :
    ∃ s, feed dimpl cs [CR, LF] = .ret ⟨cs.flatten.length, d.length, d, false, s⟩ := by
  have h3 := Enc.apiEncode_eq he.correct ls 0 d h1 h2 (by omega)
  rw [show ((0 : Nat) : Int) = 0 from rfl, hcs] at h3
  injection h3 with h3
  have h4 := Enc.run_encode ls h1 true 0 d .crlf (Or.inl ⟨rfl, rfl⟩)
  refine ⟨(Dec.run .crlf cs.flatten).str, ?_⟩
  have h5 := feed_eq hd cs hl .crlf
  rw [show Dec.State.crlf.str = [CR, LF] from rfl] at h5
  rw [h5, chunkRes, h3, h4]
  simp

/-- C08 is not vacuous: every encoding can be split. -/
example : ∃ cs : List (List Byte), Enc.apiEncode Enc.encodeGeneric [.buffer [214#8, 65#8, 4#8], .int (1 : Nat), .int (0 : Nat)] = .ret cs.flatten ∧
    cs.length = 3 :=
  ⟨[[EQ], [64#8, CR], [LF, 107#8, CR, LF, EQ, 110#8]],
    (Enc.apiEncode_eq Enc.generic_correct 1 0 [214#8, 65#8, 4#8] (by decide) (by decide) (by decide)).trans (by decide), rfl⟩

/-- The first `n` bytes of `s`. -/
abbrev upTo (s : List Byte) (n : Int) : List Byte := s.take n.toNat

theorem run_crlf_ended_take (l : List Byte) (he : (Dec.run .crlf l).ended ≠ .none) :
    ∃ q, l = q ++ (Dec.run .crlf l).rest ∧ l.take (l.length - (Dec.run .crlf l).rest.length) = q ∧
      ((Dec.run .crlf l).ended = .article ↔ EndsArticle ([CR, LF] ++ q)) ∧
      ((Dec.run .crlf l).ended = .control ↔ EndsControl ([CR, LF] ++ q)) ∧
      FirstEnd q := by
  obtain ⟨q, c, h1, h2, h3, h4, h5, h6, h7⟩ := Dec.run_ended_spec .crlf [CR, LF] l Dec.Inv_init he
  have hl : l.length = q.length + 1 + (Dec.run .crlf l).rest.length := by
    conv => lhs; rw [h1]
    simp; omega
  have h1' : l = (q ++ [c]) ++ (Dec.run .crlf l).rest := by simpa using h1
  refine ⟨q ++ [c], h1', ?_, h2, h3, ?_, ?_⟩
  · conv => lhs; arg 2; rw [h1']
    rw [List.take_left' (by simp; omega)]
  · revert he
    cases hE : (Dec.run .crlf l).ended with
    | none => simp
    | article => intro _; left; exact h2.mp hE
    | control => intro _; right; exact h3.mp hE
  · intro q' hq' hne
    by_cases hq0 : q' = []
    · subst hq0
      constructor
      · rintro ⟨t, ht⟩
        have := congrArg List.length ht
        simp at this
      · rintro (⟨t, ht⟩ | ⟨t, ht⟩) <;> (have := congrArg List.length ht; simp at this)
    · rcases List.prefix_concat_iff.mp hq' with h | h
      · exact absurd h hne
      · exact h4 q' h hq0

/-- C20: a fresh `decodeChunk` reports `ended` exactly if the stream, imagined to follow a line break, contains an end mark. -/
theorem C20_end_detection (hd : Dec.IsImpl dimpl) (s : List Byte) (hl : s.length < 2 ^ 31) :
    ∃ r, Js.decodeChunk dimpl s .undef .undef = .ret r ∧
      (r.ended = false ↔ NoEnd s) ∧
      (r.ended = true → FirstEnd (upTo s r.read) ∧
        (r.state = [CR, LF, DOT, CR, LF] ↔ EndsArticle ([CR, LF] ++ upTo s r.read)) ∧
        (r.state = [CR, LF, EQ, LY] ↔ EndsControl ([CR, LF] ++ upTo s r.read)) ∧
        (r.state = [CR, LF, DOT, CR, LF] ∨ r.state = [CR, LF, EQ, LY])) := by
  refine ⟨_, decodeChunk_fresh hd s hl, ?_, ?_⟩
  · have h := Dec.run_none_iff .crlf [CR, LF] s Dec.Inv_init
    simp only [chunkRes, decide_eq_false_iff_not, Classical.not_not]
    rw [h]
    unfold NoEnd
    constructor
    · intro h q hq
      by_cases hq0 : q = []
      · subst hq0
        constructor
        · rintro ⟨t, ht⟩
          have := congrArg List.length ht
          simp at this
        · rintro (⟨t, ht⟩ | ⟨t, ht⟩) <;> (have := congrArg List.length ht; simp at this)
      · exact h q hq hq0
    · intro h q hq _; exact h q hq
  · intro he
    simp only [chunkRes, decide_eq_true_eq] at he
    obtain ⟨q, h1, h2, h3, h4, h5⟩ := run_crlf_ended_take s he
    simp only [chunkRes, upTo, Int.toNat_natCast, h2]
    refine ⟨h5, ?_, ?_, ?_⟩
    · rw [← h3]; revert he; unfold Dec.Res.str
      cases (Dec.run .crlf s).ended <;> simp
    · rw [← h4]; revert he; unfold Dec.Res.str
      cases (Dec.run .crlf s).ended <;> simp
    · revert he; unfold Dec.Res.str
      cases (Dec.run .crlf s).ended <;> simp

example : ∃ r, Js.decodeChunk Dec.generic [107#8, CR, LF, DOT, CR, LF, 65#8] .undef .undef = .ret r ∧ r.ended = true ∧ r.read = 6 :=
  ⟨_, decodeChunk_fresh .generic _ (by decide), by decide⟩

/-- C21: everything is consumed unless an end mark was found, and nothing after the end mark is; any state. -/
theorem C21_read (hd : Dec.IsImpl dimpl) (s t : List Byte) (hl : s.length + t.length < 2 ^ 31) (st : List Byte) (hst : IsState st) :
    ∃ r, Js.decodeChunk dimpl s .undef (.str st) = .ret r ∧ 0 ≤ r.read ∧ r.read ≤ s.length ∧
      (r.ended = false → r.read = s.length) ∧
      (r.ended = true → Js.decodeChunk dimpl (s ++ t) .undef (.str st) = .ret r) ∧
      r.written = r.output.length ∧ r.written ≤ r.read := by
  obtain ⟨st, rfl⟩ := (IsState_iff st).mp hst
  have h0 := Dec.run_length st s
  refine ⟨_, decodeChunk_str hd s (by omega) st, by simp [chunkRes], by simp [chunkRes], ?_, ?_, rfl, ?_⟩
  · intro he
    simp only [chunkRes, decide_eq_false_iff_not, Classical.not_not] at he
    simp [chunkRes, Dec.run_rest_of_not_ended st s he]
  · intro he
    simp only [chunkRes, decide_eq_true_eq] at he
    rw [decodeChunk_str hd (s ++ t) (by simpa using hl) st]
    simp only [chunkRes, Dec.run_append_ended st s t he, Dec.Res.str, List.length_append]
    congr 3
    omega
  · simp [chunkRes]; omega

example := C21_read .generic [107#8, EQ] [LY] (by decide) [CR, LF] (by unfold IsState; decide)

theorem nrun_lone (l x t : List Byte) (st : Dec.State) (h : l = x ++ t) (hst : (Dec.nrun .crlf x).2 = st) (ht : (Dec.nrun st t).1 = []) :
    (Dec.nrun .crlf l).1 = Spec.decode true x := by
  rw [h, Dec.nrun_append, hst, Dec.npre, ht, List.append_nil, Dec.nrun_crlf_spec]

/-- C22: without an end mark the output is the reference decoding of the chunk; with one, of what precedes it. -/
theorem C22_output (hd : Dec.IsImpl dimpl) (s : List Byte) (hl : s.length < 2 ^ 31) :
    ∃ r, Js.decodeChunk dimpl s .undef .undef = .ret r ∧
      (r.ended = false → r.output = Spec.decode true s) ∧
      (r.ended = true → ∃ x m, upTo s r.read = x ++ m ∧ r.output = Spec.decode true x ∧
        (m = [DOT, CR, LF] ∨ m = [EQ, LY] ∨ m = [DOT, EQ, LY])) := by
  refine ⟨_, decodeChunk_fresh hd s hl, ?_, ?_⟩
  · intro he
    simp only [chunkRes, decide_eq_false_iff_not, Classical.not_not] at he
    have h := Dec.run_forget .crlf s he
    simp only [Dec.State.forget] at h
    simp only [chunkRes]
    rw [← Dec.nrun_crlf_spec, h]
  · intro he
    simp only [chunkRes, decide_eq_true_eq] at he
    obtain ⟨q, c, h1, h2, h3, h4, h5, h6, h7⟩ := Dec.run_ended_spec .crlf [CR, LF] s Dec.Inv_init he
    have hln : s.length = q.length + 1 + (Dec.run .crlf s).rest.length := by
      conv => lhs; rw [h1]
      simp; omega
    have hup : upTo s ((s.length - (Dec.run .crlf s).rest.length : Nat) : Int) = q ++ [c] := by
      have h1' : s = (q ++ [c]) ++ (Dec.run .crlf s).rest := by simpa using h1
      simp only [upTo, Int.toNat_natCast]
      conv => lhs; arg 2; rw [h1']
      rw [List.take_left' (by simp; omega)]
    simp only [chunkRes, hup, h6]
    have hout : (Dec.run .crlf q).out = (Dec.nrun .crlf q).1 := by
      have h := Dec.run_forget .crlf q h5
      simp only [Dec.State.forget] at h
      rw [h]
    rw [hout]
    -- `[CR, LF] ++ q ++ [c]` ends with `[CR, LF] ++ m`, so `q ++ [c] = x ++ m`, with `x` at a line start
    have split : ∀ m : List Byte, ([CR, LF] ++ m) <:+ ([CR, LF] ++ (q ++ [c])) →
        ∃ x, q ++ [c] = x ++ m ∧ [CR, LF] <:+ ([CR, LF] ++ x) := by
      rintro m ⟨t, ht⟩
      rcases t with _ | ⟨a, _ | ⟨b, t⟩⟩
      · exact ⟨[], by simpa using ht.symm, by simp⟩
      · simp at ht
      · refine ⟨t ++ [CR, LF], ?_, ?_⟩
        · simp at ht; simp [← ht.2.2]
        · exact ⟨CR :: LF :: t, by simp⟩
    have atStart : ∀ x m' : List Byte, q = x ++ m' → [CR, LF] <:+ ([CR, LF] ++ x) → (Dec.run .crlf x).ended = .none → (Dec.nrun .crlf x).2 = .crlf := by
      intro x m' _ hx hxe
      have hI := Dec.Inv_run .crlf [LF, CR] x Dec.Inv_init hxe
      obtain ⟨t, ht⟩ := hx
      have : x.reverse ++ [LF, CR] = LF :: CR :: t.reverse := by
        have := congrArg List.reverse ht
        simpa using this.symm
      rw [this] at hI
      have hst : (Dec.run .crlf x).state = .crlf := hI.1.mpr (by simp)
      have h := Dec.run_forget .crlf x hxe
      simp only [Dec.State.forget, hst] at h
      rw [h]
    have noEnd : ∀ x m' : List Byte, q = x ++ m' → (Dec.run .crlf x).ended = .none := by
      intro x m' hx
      by_contra hcon
      rw [hx, Dec.run_append_ended .crlf x m' hcon] at h5
      exact hcon h5
    have fin : ∀ m' : List Byte, (Dec.nrun .crlf m').1 = [] → ([CR, LF] ++ (m' ++ [c])) <:+ ([CR, LF] ++ (q ++ [c])) →
        ∃ x, q ++ [c] = x ++ (m' ++ [c]) ∧ (Dec.nrun .crlf q).1 = Spec.decode true x := by
      intro m' hm hsuf
      obtain ⟨x, hx, hx2⟩ := split _ hsuf
      have hq : q = x ++ m' := by
        rw [← List.append_assoc] at hx
        exact List.append_inj_left' hx rfl
      exact ⟨x, hx, nrun_lone q x m' .crlf hq (atStart x m' hq hx2 (noEnd x m' hq)) hm⟩
    have lastc : ∀ (m : List Byte) (d : Byte), (m ++ [d]) <:+ ([CR, LF] ++ (q ++ [c])) → d = c := by
      rintro m d ⟨t, ht⟩
      rw [← List.append_assoc, ← List.append_assoc] at ht
      have := List.append_inj_right' ht rfl
      simpa using this
    have hcases : EndsArticle ([CR, LF] ++ (q ++ [c])) ∨ EndsControl ([CR, LF] ++ (q ++ [c])) := by
      revert he
      cases hE : (Dec.run .crlf s).ended with
      | none => simp
      | article => intro _; left; exact h2.mp hE
      | control => intro _; right; exact h3.mp hE
    rcases hcases with h | h | h
    · have hc : LF = c := lastc [CR, LF, DOT, CR] LF h
      subst hc
      obtain ⟨x, hx, hd⟩ := fin [DOT, CR] (by decide) h
      exact ⟨x, _, hx, hd, by simp⟩
    · have hc : LY = c := lastc [CR, LF, EQ] LY h
      subst hc
      obtain ⟨x, hx, hd⟩ := fin [EQ] (by decide) h
      exact ⟨x, _, hx, hd, by simp⟩
    · have hc : LY = c := lastc [CR, LF, DOT, EQ] LY h
      subst hc
      obtain ⟨x, hx, hd⟩ := fin [DOT, EQ] (by decide) h
      exact ⟨x, _, hx, hd, by simp⟩

example := C22_output .generic [107#8, CR, LF, EQ, LY, 101#8] (by decide)

/-- C23: a call with a state string returns a state string again, as long as the stream has not ended; so no history of calls throws. -/
theorem C23_state_round_trip (hd : Dec.IsImpl dimpl) (l : List Byte) (hl : l.length < 2 ^ 31) (s : List Byte) (hs : IsState s) :
    ∃ r, Js.decodeChunk dimpl l .undef (.str s) = .ret r ∧ (r.ended = false → IsState r.state) ∧ (l = [] → r.state = s) := by
  obtain ⟨st, rfl⟩ := (IsState_iff s).mp hs
  refine ⟨_, decodeChunk_str hd l hl st, ?_, ?_⟩
  · intro he
    simp only [chunkRes, decide_eq_false_iff_not, Classical.not_not] at he
    rw [IsState_iff]
    exact ⟨(Dec.run st l).state, by simp [chunkRes, Dec.Res.str, he]⟩
  · rintro rfl
    simp [chunkRes, Dec.run, Dec.Res.str]

example := C23_state_round_trip .generic [107#8, EQ] (by decide) [CR, LF] (by unfold IsState; decide)

/-- C23: different state strings are told apart: some continuation is decoded differently. -/
theorem C23_states_distinguished (hd : Dec.IsImpl dimpl) (s s' : List Byte) (hs : IsState s) (hs' : IsState s') (hne : s ≠ s') :
    ∃ l : List Byte, l.length < 2 ^ 31 ∧ ∀ r r', Js.decodeChunk dimpl l .undef (.str s) = .ret r →
      Js.decodeChunk dimpl l .undef (.str s') = .ret r' → (r.output, r.ended) ≠ (r'.output, r'.ended) := by
  obtain ⟨st, rfl⟩ := (IsState_iff s).mp hs
  obtain ⟨st', rfl⟩ := (IsState_iff s').mp hs'
  suffices h : ∃ l : List Byte, l.length < 2 ^ 31 ∧
      ((Dec.run st l).out, (Dec.run st l).ended ≠ .none) ≠ ((Dec.run st' l).out, (Dec.run st' l).ended ≠ .none) by
    obtain ⟨l, hl, h⟩ := h
    refine ⟨l, hl, fun r r' hr hr' hh => h ?_⟩
    rw [decodeChunk_str hd l hl st] at hr
    rw [decodeChunk_str hd l hl st'] at hr'
    injection hr with hr
    injection hr' with hr'
    subst hr hr'
    simp [chunkRes] at hh
    simp [hh]
  have key : ∀ st st' : Dec.State, st.str ≠ st'.str →
      ∃ l ∈ ([[65#8], [DOT], [LF, DOT], [LF], [LY], [CR, LF], [DOT, CR, LF]] : List (List Byte)),
        ((Dec.run st l).out ≠ (Dec.run st' l).out ∨ decide ((Dec.run st l).ended = .none) ≠ decide ((Dec.run st' l).ended = .none)) := by
    intro st st'
    cases st <;> cases st' <;> decide
  obtain ⟨l, hmem, hl⟩ := key st st' hne
  refine ⟨l, ?_, ?_⟩
  · have : ∀ l ∈ ([[65#8], [DOT], [LF, DOT], [LF], [LY], [CR, LF], [DOT, CR, LF]] : List (List Byte)), l.length < 2 ^ 31 := by decide
    exact this l hmem
  · intro hh
    rw [Prod.mk.injEq] at hh
    rcases hl with h | h
    · exact h hh.1
    · apply h
      have := hh.2
      simp only [ne_eq, eq_iff_iff] at this
      by_cases h1 : (Dec.run st l).ended = .none <;> by_cases h2 : (Dec.run st' l).ended = .none <;> simp_all

example := C23_states_distinguished .generic [CR, LF] [EQ] (by unfold IsState; decide) (by unfold IsState; decide) (by decide)

/-- C23, defect: feeding back the state string of an ended stream throws a ReferenceError (an undeclared loop variable). -/
theorem C23_ended_state_throws (l : List Byte) (hl : l ≠ []) :
    Js.decodeChunk dimpl l .undef (.str [CR, LF, EQ, LY]) = .throw "ReferenceError: i is not defined" ∧
      Js.decodeChunk dimpl l .undef (.str [CR, LF, DOT, CR, LF]) = .throw "ReferenceError: i is not defined" := by
  have h1 : Js.stateIndex (Js.normPrev [CR, LF, EQ, LY]) = none := by decide
  have h2 : Js.stateIndex (Js.normPrev [CR, LF, DOT, CR, LF]) = none := by decide
  simp [Js.decodeChunk, Js.shuffle, Js.decodeChunkCore, hl, h1, h2]

example := C23_ended_state_throws (dimpl := Dec.generic) [107#8] (by decide)

/-- C52: argument order.  With the order given in the README (data, state, output) the output buffer is ignored: the call behaves as if it had
not been given. -/
theorem C52_readme_order (l b s : List Byte) :
    Js.decodeChunk dimpl l (.str s) (.buffer b) = Js.decodeChunk dimpl l .undef (.str s) := rfl

/-- C52: with the order the code implements, an output buffer at least as long as the data does not change the result; a shorter one is refused. -/
theorem C52_output_buffer (hd : Dec.IsImpl dimpl) (l b s : List Byte) (hl : l.length < 2 ^ 31) (hs : IsState s) (hne : l ≠ []) :
    (l.length ≤ b.length → Js.decodeChunk dimpl l (.buffer b) (.str s) = Js.decodeChunk dimpl l .undef (.str s)) ∧
    (b.length < l.length → ∃ m, Js.decodeChunk dimpl l (.buffer b) (.str s) = .throw m) := by
  obtain ⟨st, rfl⟩ := (IsState_iff s).mp hs
  constructor
  · intro h
    rw [decodeChunk_str hd l hl st]
    exact Dec.decodeChunkCore_eq hd.correct l st (some b.length) (by simpa using h) hl
  · intro h
    refine ⟨"Destination buffer does not have enough space", ?_⟩
    simp only [Js.decodeChunk, Js.shuffle, Js.Val.destLen, Js.decodeChunkCore, Dec.normPrev_str, Dec.stateIndex_str, hne, if_false, Dec.decodeIncr, Dec.State.ofInt_toNat]
    simp [h, Outcome.bind]

example := C52_output_buffer .generic [107#8, EQ] [0#8] [CR, LF] (by decide) (by unfold IsState; decide) (by decide)

/-- C53: counts returned to JavaScript go through a 32-bit integer: `decodeTo` of 2^31 bytes returns a negative length. -/
theorem C53_count_truncated (hd : Dec.IsImpl dimpl) (dest : List Byte) (h : 2 ^ 31 ≤ dest.length) :
    ∃ s out, Dec.apiDecodeTo dimpl [.buffer s, .buffer dest, .bool false] = .ret (-2 ^ 31, out) ∧ out.length = 2 ^ 31 := by
  have hy : ∀ n, Spec.yDecode (List.replicate n 107#8) = List.replicate n 65#8 := by
    intro n
    induction n with
    | zero => rfl
    | succ n ih => rw [List.replicate_succ, Dec.yDecode_cons, if_neg (by decide), if_neg (by decide), ih]; rfl
  obtain ⟨n, hn⟩ : ∃ n, n = 2 ^ 31 := ⟨_, rfl⟩
  obtain ⟨h1, h2⟩ := C16_decodeTo hd (List.replicate n 107#8) dest false (by rw [List.length_replicate]; omega) (by simp)
  simp only [Spec.decode, Bool.false_eq_true, if_false, hy, List.length_replicate] at h1
  have h3 : toInt32 n = -2 ^ 31 := by rw [hn]; decide
  rw [h3] at h1
  exact ⟨_, _, h1, by rw [List.length_replicate, hn]⟩

example := C53_count_truncated .generic (List.replicate (2 ^ 31) 0#8) (by rw [List.length_replicate]; exact Nat.le_refl _)

/-- C53: below that size the returned count is the number of bytes written. -/
theorem C53_count_exact (hd : Dec.IsImpl dimpl) (s dest : List Byte) (hl : s.length ≤ dest.length) (h : s.length < 2 ^ 31) :
    ∃ out, Dec.apiDecodeTo dimpl [.buffer s, .buffer dest, .bool false] = .ret (out.length, out) := by
  obtain ⟨h1, h2⟩ := C16_decodeTo hd s dest false hl (by simp)
  rw [toInt32_of_lt _ (by omega)] at h1
  exact ⟨_, h1⟩

example := C53_count_exact .generic [107#8, EQ] [0#8, 1#8, 2#8] (by decide) (by decide)

end Yenc.Props
