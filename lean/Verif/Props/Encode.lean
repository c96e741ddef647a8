import Verif.Lemmas.Api
/-!
Properties C01-C14, C50, C51: the encoder, through the API functions `encode`, `encodeTo`, `encodeIncr`.

`eimpl`/`dimpl` range over all implementations the library can select (`Verif/Model/Dispatch.lean`). Line sizes are what the API
accepts after conversion to `int`: below 2^31.
-/
namespace Yenc.Props
open Yenc Spec

variable {eimpl : Enc.Impl} {dimpl : Dec.Impl}

/-- Sample data used to show that hypotheses can be met: contains bytes that need every kind of escape. -/
def sample : List Byte := [0#8, 214#8, 224#8, 227#8, 19#8, 4#8, 223#8, 246#8, 65#8, 4#8]

/-- C03: `encode` returns the reference yEnc encoding. -/
theorem C03_encode_reference (he : Enc.IsImpl eimpl) (d : List Byte) (ls col : Nat) (h1 : 1 ≤ ls) (h2 : ls + 6 < 2 ^ 31)
    (h3 : col < ls) :
    Enc.apiEncode eimpl [.buffer d, .int ls, .int col] = .ret (Spec.encode ls true col d) :=
  Enc.apiEncode_eq he.correct ls col d h1 h2 h3

example : Enc.apiEncode Enc.encodeGeneric [.buffer sample, .int 4, .int 1] =
    .ret [42#8, EQ, 64#8, CR, LF, EQ, 74#8, EQ, 77#8, CR, LF, EQ, 125#8, DOT, EQ, 73#8, CR, LF, EQ, 96#8, 107#8, DOT] :=
  (C03_encode_reference .generic sample 4 1 (by decide) (by decide) (by decide)).trans (by decide)

/-- C01: plain round trip. -/
theorem C01_round_trip (he : Enc.IsImpl eimpl) (hd : Dec.IsImpl dimpl) (d : List Byte) (ls col : Nat) (h1 : 1 ≤ ls)
    (h2 : ls + 6 < 2 ^ 31) (h3 : col < ls) :
    ∃ e, Enc.apiEncode eimpl [.buffer d, .int ls, .int col] = .ret e ∧
      Dec.apiDecode dimpl [.buffer e, .bool false] = .ret d := by
  refine ⟨_, C03_encode_reference he d ls col h1 h2 h3, ?_⟩
  rw [Dec.apiDecode_eq hd.correct false _ (by simp)]
  simp [Spec.decode, Enc.yDecode_encode]

example : ∃ ls col : Nat, 1 ≤ ls ∧ ls + 6 < 2 ^ 31 ∧ col < ls ∧ 0 < col := ⟨7, 3, by decide⟩

theorem encode_no_break_tail (ls : Nat) (fin : Bool) (col : Nat) (h1 : 1 ≤ ls) (d : List Byte) :
    ¬ Dec.EscapedBreakTail (Spec.encode ls fin col d) := by
  intro h
  by_cases hd : d = []
  · subst hd; simp [Dec.EscapedBreakTail, Spec.encode] at h
  have h5 := Enc.encLines_last_ne_nil ls h1 fin col d hd
  have h6 := Enc.encLines_safe ls fin col d
  have h7 := Enc.encLines_ne_nil ls fin col d
  rw [← Enc.joinLines_encLines] at h
  generalize Enc.encLines ls fin col d = L at *
  have key : ∀ L : List (List Byte), L ≠ [] → (∀ l ∈ L.getLast?, l ≠ []) → (∀ l ∈ L, ∀ b ∈ l, b ≠ NUL ∧ b ≠ CR ∧ b ≠ LF) →
      ∃ b, (Enc.joinLines L).getLast? = some b ∧ b ≠ CR ∧ b ≠ LF := by
    intro L
    induction L with
    | nil => intro h; exact absurd rfl h
    | cons l L ih =>
      intro _ hl hs
      rcases L with _ | ⟨m, ms⟩
      · simp only [Enc.joinLines]
        have hne := hl l (by simp)
        refine ⟨l.getLast hne, List.getLast?_eq_some_getLast hne, ?_⟩
        exact (hs l (by simp) _ (List.getLast_mem hne)).2
      · obtain ⟨b, hb, hb2⟩ := ih (by simp) (by simpa [List.getLast?_cons_cons] using hl)
          (fun x hx => hs x (List.mem_cons_of_mem _ hx))
        refine ⟨b, ?_, hb2⟩
        simp only [Enc.joinLines]
        rw [List.getLast?_append, List.getLast?_cons, List.getLast?_cons, hb]; simp
  obtain ⟨b, hb, hb1, hb2⟩ := key L h7 h5 h6
  obtain ⟨t, h⟩ := h
  rw [← h] at hb; simp at hb; exact hb2 hb.symm

/-- C02: round trip through the dot-unstuffing decoder, for data starting at a line start. -/
theorem C02_round_trip_nntp (he : Enc.IsImpl eimpl) (hd : Dec.IsImpl dimpl) (d : List Byte) (ls : Nat) (h1 : 1 ≤ ls)
    (h2 : ls + 6 < 2 ^ 31) :
    ∃ e, Enc.apiEncode eimpl [.buffer d, .int ls, .int 0] = .ret e ∧
      Dec.apiDecode dimpl [.buffer e, .bool true] = .ret d := by
  refine ⟨_, C03_encode_reference he d ls 0 h1 h2 (by omega), ?_⟩
  rw [Dec.apiDecode_eq hd.correct true _ (fun _ => hd.correct.raw _ (encode_no_break_tail ls true 0 h1 d))]
  rw [Enc.decode_true_encode ls h1]

example := C02_round_trip_nntp .generic .generic sample 4 (by decide) (by decide)

/-- C02, why the restriction to column 0 is needed: in the middle of a line a dot is not escaped, and the unstuffing decoder takes
the start of the data for the start of a line. -/
theorem C02_column_needed :
    Enc.apiEncode Enc.encodeGeneric [.buffer [4#8, 65#8], .int 128, .int 5] = .ret [DOT, 107#8] ∧
      Dec.apiDecode Dec.generic [.buffer [DOT, 107#8], .bool true] = .ret [65#8] := by
  decide +kernel

/-- C04: only transport-safe bytes. -/
theorem C04_safe_bytes (he : Enc.IsImpl eimpl) (d : List Byte) (ls col : Nat) (h1 : 1 ≤ ls) (h2 : ls + 6 < 2 ^ 31)
    (h3 : col < ls) :
    ∃ e, Enc.apiEncode eimpl [.buffer d, .int ls, .int col] = .ret e ∧ NUL ∉ e ∧ CrlfOnly e :=
  ⟨_, C03_encode_reference he d ls col h1 h2 h3, Enc.NUL_not_mem_encode _ _ _ _, Enc.CrlfOnly_encode _ _ _ _⟩

example := C04_safe_bytes .generic sample 4 1 (by decide) (by decide) (by decide)

/-- C05: no line started by the encoder begins with a dot, tab or space. -/
theorem C05_line_starts (he : Enc.IsImpl eimpl) (d : List Byte) (ls col : Nat) (h1 : 1 ≤ ls) (h2 : ls + 6 < 2 ^ 31)
    (h3 : col < ls) :
    ∃ e, Enc.apiEncode eimpl [.buffer d, .int ls, .int col] = .ret e ∧
      (∀ l ∈ (splitLines e).tail, ∃ b t, l = b :: t ∧ b ≠ DOT ∧ b ≠ TAB ∧ b ≠ SP) ∧
      (col = 0 → ∀ l ∈ (splitLines e).head?, ∀ b ∈ l.head?, b ≠ DOT ∧ b ≠ TAB ∧ b ≠ SP) := by
  refine ⟨_, C03_encode_reference he d ls col h1 h2 h3, ?_, ?_⟩
  · rw [Enc.splitLines_encode]
    intro l hl
    obtain ⟨h4, h5⟩ := Enc.encLines_tail_start ls true col d l hl
    rcases l with _ | ⟨b, t⟩
    · exact absurd rfl h4
    · exact ⟨b, t, rfl, h5 b (by simp)⟩
  · rintro rfl
    rw [Enc.splitLines_encode]
    exact Enc.encLines_head_start ls h1 true d

example := C05_line_starts .generic sample 4 0 (by decide) (by decide) (by decide)

/-- C06: no line ends with a tab or space, and none ends inside an escape sequence. -/
theorem C06_line_ends (he : Enc.IsImpl eimpl) (d : List Byte) (ls col : Nat) (h1 : 1 ≤ ls) (h2 : ls + 6 < 2 ^ 31)
    (h3 : col < ls) :
    ∃ e, Enc.apiEncode eimpl [.buffer d, .int ls, .int col] = .ret e ∧
      ∀ l ∈ splitLines e, (∀ b ∈ l.getLast?, b ≠ TAB ∧ b ≠ SP) ∧ paired l = true := by
  refine ⟨_, C03_encode_reference he d ls col h1 h2 h3, ?_⟩
  rw [Enc.splitLines_encode]
  intro l hl
  exact ⟨Enc.GoodEnds_true _ (Enc.encLines_ends ls h1 true col d) l hl, Enc.encLines_paired _ _ _ _ l hl⟩

example := C06_line_ends .generic sample 4 3 (by decide) (by decide) (by decide)

/-- C07: line lengths; no line break at the end of the output. -/
theorem C07_line_lengths (he : Enc.IsImpl eimpl) (d : List Byte) (ls col : Nat) (h1 : 1 ≤ ls) (h2 : ls + 6 < 2 ^ 31)
    (h3 : col < ls) (hne : d ≠ []) :
    ∃ e, Enc.apiEncode eimpl [.buffer d, .int ls, .int col] = .ret e ∧
      LineLengths ls col (splitLines e) ∧ ∀ l ∈ (splitLines e).getLast?, l ≠ [] := by
  refine ⟨_, C03_encode_reference he d ls col h1 h2 h3, Enc.encode_lineLengths ls h1 true col (by omega) d, ?_⟩
  rw [Enc.splitLines_encode]
  exact Enc.encLines_last_ne_nil ls h1 true col d hne

example := C07_line_lengths .generic sample 4 1 (by decide) (by decide) (by decide) (by decide)

/-- C07, empty data: nothing is written. -/
theorem C07_empty (args : List Arg) : Enc.apiEncode eimpl (.buffer [] :: args) = .ret [] := by
  simp [Enc.apiEncode]

/-- C09: `maxSize` minus its slack of 64 bounds the encoded length. -/
theorem C09_max_size (he : Enc.IsImpl eimpl) (d : List Byte) (ls col : Nat) (h1 : 1 ≤ ls) (h2 : ls + 6 < 2 ^ 31)
    (h3 : col < ls) :
    ∃ e, Enc.apiEncode eimpl [.buffer d, .int ls, .int col] = .ret e ∧
      e.length + (if d = [] then 0 else 64) ≤ Js.maxSize d.length ls := by
  refine ⟨_, C03_encode_reference he d ls col h1 h2 h3, ?_⟩
  by_cases hne : d = []
  · subst hne; simp [Spec.encode]
  · have := Enc.encode_length_le ls h1 true col h3 d
    unfold Js.maxSize
    rw [if_neg hne, if_neg (by simpa using hne), if_neg (by omega), Nat.mul_comm d.length 2]
    omega

example := C09_max_size .generic sample 4 1 (by decide) (by decide) (by decide)

/-- C10 is false as documented: when the length is a multiple of the line size, the encoding can be two bytes shorter than `minSize`. -/
theorem C10_min_size_false :
    ¬ ∀ (d : List Byte) (ls : Nat), 1 ≤ ls → ls + 6 < 2 ^ 31 →
      ∃ e, Enc.apiEncode Enc.encodeGeneric [.buffer d, .int ls, .int 0] = .ret e ∧ Js.minSize d.length ls ≤ e.length := by
  intro h
  obtain ⟨e, h1, h2⟩ := h [65#8] 1 (by decide) (by decide)
  have h3 : Enc.apiEncode Enc.encodeGeneric [.buffer [65#8], .int ((1 : Nat) : Int), .int 0] = .ret [107#8] := by decide +kernel
  rw [h3] at h1
  injection h1 with h1
  subst h1
  revert h2
  decide

/-- C10, the true lower bound, which is `minSize` whenever the length is not a multiple of the line size.
Partial: the documented claim (`minSize` itself, for all lengths) is false, see `C10_min_size_false`. -/
theorem C10_min_size_partial (he : Enc.IsImpl eimpl) (d : List Byte) (ls : Nat) (h1 : 1 ≤ ls) (h2 : ls + 6 < 2 ^ 31) (hne : d ≠ []) :
    ∃ e, Enc.apiEncode eimpl [.buffer d, .int ls, .int 0] = .ret e ∧
      d.length + 2 * ((d.length - 1) / ls) ≤ e.length ∧
      (d.length % ls ≠ 0 → Js.minSize d.length ls ≤ e.length) ∧
      Js.minSize d.length ls ≤ e.length + 2 := by
  refine ⟨_, C03_encode_reference he d ls 0 h1 h2 (by omega), ?_⟩
  have h5 := Enc.encode_length_ge ls h1 true d hne
  have hpos : 1 ≤ d.length := List.length_pos_iff.mpr hne
  generalize (Spec.encode ls true 0 d).length = n at *
  refine ⟨h5, ?_, ?_⟩
  · intro hm
    unfold Js.minSize
    rw [if_neg (by omega), if_neg (by omega)]
    have : d.length / ls = (d.length - 1) / ls := by
      have e1 := Nat.div_add_mod d.length ls
      symm
      rw [Nat.div_eq_iff (by omega)]
      have := Nat.mod_lt d.length (show ls > 0 by omega)
      rw [Nat.mul_comm] at e1
      generalize d.length / ls * ls = a at *
      omega
    omega
  · unfold Js.minSize
    rw [if_neg (by omega), if_neg (by omega)]
    have : d.length / ls ≤ (d.length - 1) / ls + 1 := by
      rw [← Nat.add_div_right _ (by omega)]
      apply Nat.div_le_div_right
      omega
    omega

example : ([1#8, 2#8, 3#8] : List Byte).length % 2 ≠ 0 := by decide

/-- C11: `encodeTo` with any destination it accepts behaves like `encode`, without touching memory outside the destination
(an access outside would be `ub`). The return value is exact for results below 2^31 bytes. -/
theorem C11_encodeTo (he : Enc.IsImpl eimpl) (d dest : List Byte) (ls col : Nat) (h1 : 1 ≤ ls) (h2 : ls + 6 < 2 ^ 31)
    (h3 : col < ls) (hdest : yencMaxSize d.length ls ≤ dest.length) :
    ∃ e, Enc.apiEncode eimpl [.buffer d, .int ls, .int col] = .ret e ∧
      Enc.apiEncodeTo eimpl [.buffer d, .buffer dest, .int ls, .int col] = .ret (toInt32 e.length, e) ∧
      (e.length < 2 ^ 31 → toInt32 e.length = e.length) ∧ e.length ≤ dest.length := by
  refine ⟨_, C03_encode_reference he d ls col h1 h2 h3, ?_, toInt32_of_lt _, ?_⟩
  · unfold Enc.apiEncodeTo
    by_cases hne : d = []
    · subst hne; simp [Spec.encode, toInt32]
    · obtain ⟨col', h4, _⟩ := Enc.runInto_eq he.correct ls col d true h1 h2 h3 hne _ hdest
      simp only [hne, if_false, Enc.lineArgs_eq ls col h1 (by omega) h3, Outcome.bind, Int.toNat_natCast, h4]
      rw [if_neg (by omega)]
  · have := Enc.encode_length_le ls h1 true col h3 d
    rw [yencMaxSize_eq] at hdest
    omega

example := C11_encodeTo .generic sample (List.replicate 96 0#8) 4 1 (by decide) (by decide) (by decide) (by decide)

/-- What becomes of the line size and column arguments. -/
theorem lineArgs_ints (ls col : Int) : (∃ m, Enc.lineArgs [.int ls, .int col] = .throw m) ∨
    ∃ a b : Nat, Enc.lineArgs [.int ls, .int col] = .ret ((a : Int), (b : Int)) ∧ 1 ≤ a ∧ b < a ∧ ((a : Int) = 128 ∨ (a : Int) = toInt32 ls) := by
  simp only [Enc.lineArgs, argToInt, Outcome.bind]
  generalize hl : (if toInt32 ls = 0 then 128 else toInt32 ls) = l
  have hl0 : l ≠ 0 ∧ (l = 128 ∨ l = toInt32 ls) := by subst hl; split <;> omega
  by_cases h1 : l < 0
  · left; exact ⟨_, by rw [if_pos h1]⟩
  · rw [if_neg h1]
    by_cases h2 : toInt32 col > l ∨ toInt32 col < 0
    · left; exact ⟨_, by rw [if_pos h2]⟩
    · right
      rw [if_neg h2]
      by_cases h3 : toInt32 col = l
      · exact ⟨l.toNat, 0, by rw [if_pos h3, Int.toNat_of_nonneg (by omega)]; rfl, by omega, by omega, by omega⟩
      · exact ⟨l.toNat, (toInt32 col).toNat, by
          rw [if_neg h3, Int.toNat_of_nonneg (by omega), Int.toNat_of_nonneg (by omega)], by omega, by omega, by omega⟩

theorem never_ub {n : Nat} (he : Enc.CorrectTo n eimpl) (hn : n ≤ 6) (d dest : List Byte) (ls col : Int) (hls : toInt32 ls + n < 2 ^ 31) :
    Enc.apiEncode eimpl [.buffer d, .int ls, .int col] ≠ .ub ∧
      Enc.apiEncodeTo eimpl [.buffer d, .buffer dest, .int ls, .int col] ≠ .ub := by
  by_cases hne : d = []
  · subst hne; simp [Enc.apiEncode, Enc.apiEncodeTo]
  simp only [Enc.apiEncode, Enc.apiEncodeTo, hne, if_false]
  rcases lineArgs_ints ls col with ⟨m, h⟩ | ⟨a, b, h, ha, hb, hab⟩
  · simp [h, Outcome.bind]
  · obtain ⟨col', h4, _⟩ := Enc.runInto_eq he a b d true ha (by omega) hb hne _ (Nat.le_refl _)
    simp only [h, Outcome.bind, Int.toNat_natCast, h4]
    refine ⟨by simp, ?_⟩
    split
    · simp
    · rename_i hlt
      obtain ⟨col'', h5, _⟩ := Enc.runInto_eq he a b d true ha (by omega) hb hne dest.length (by omega)
      simp [h5]

/-- C11, out-of-range inputs included: whatever integers are passed, `encode` and `encodeTo` return or throw; they never access memory
outside their buffers.  Partial: not for line sizes that are (after conversion to a 32-bit integer) larger than 2147483641, where `C11_never_ub_false`
applies; with vectorised encoders these are no exception (`C11_never_ub_vector`). -/
theorem C11_never_ub_partial (he : Enc.IsImpl eimpl) (d dest : List Byte) (ls col : Int) (hls : toInt32 ls ≤ 2147483641) :
    Enc.apiEncode eimpl [.buffer d, .int ls, .int col] ≠ .ub ∧
      Enc.apiEncodeTo eimpl [.buffer d, .buffer dest, .int ls, .int col] ≠ .ub :=
  never_ub he.correct (by omega) d dest ls col (by omega)

example := C11_never_ub_partial .generic sample [1#8, 2#8] (-5) 100 (by decide)

/-- C11 with a vectorised encoder: whatever integers are passed. -/
theorem C11_never_ub_vector (he : Enc.IsImpl eimpl) (hv : eimpl ≠ Enc.encodeGeneric) (d dest : List Byte) (ls col : Int) :
    Enc.apiEncode eimpl [.buffer d, .int ls, .int col] ≠ .ub ∧
      Enc.apiEncodeTo eimpl [.buffer d, .buffer dest, .int ls, .int col] ≠ .ub :=
  never_ub (he.vector hv) (by omega) d dest ls col (by
    have : toInt32 ls < 2 ^ 31 := by
      unfold toInt32
      have := (BitVec.ofInt 32 ls).toInt_lt
      simpa using this
    omega)

/-- C11 is false for the scalar encoder, which is used where there is no vectorised one: for each of the six largest line sizes there are a column and ten
bytes for which the column overflows an `int`. -/
theorem C11_never_ub_false (ls : Nat) (h1 : 2147483641 < ls) (h2 : ls < 2 ^ 31) :
    ∃ (d : List Byte) (col : Nat), col < ls ∧ d.length = 10 ∧ Enc.apiEncode Enc.encodeGeneric [.buffer d, .int ls, .int col] = .ub ∧
      ∀ dest : List Byte, 86 ≤ dest.length → Enc.apiEncodeTo Enc.encodeGeneric [.buffer d, .buffer dest, .int ls, .int col] = .ub := by
  have hb : Enc.encodeGeneric ls (ls - 10 : Nat) (List.replicate 10 214#8) true = none := by
    have hu : Enc.unroll8 ls (List.replicate 10 214#8) ⟨[], 0⟩ (ls - 10 : Nat) none = none := by
      rw [Enc.unroll8, dif_pos ⟨by decide, by omega⟩]
      simp only
      rw [if_neg]
      rw [show ((List.take 8 (List.replicate 10 (214#8 : Byte))).foldl Enc.doThing ⟨[], 0⟩).out.length = 16 by decide +kernel]
      simp only [List.length_nil]
      omega
    unfold Enc.encodeGeneric Enc.body
    rw [if_neg (by omega), Enc.outer_eq, if_neg (by decide), Enc.line, hu]
  refine ⟨List.replicate 10 214#8, ls - 10, by omega, by decide, ?_⟩
  have hne : ¬ (List.replicate 10 (214#8 : Byte)) = [] := by decide
  have hargs := Enc.lineArgs_eq ls (ls - 10) (by omega) h2 (by omega) []
  unfold Enc.apiEncode Enc.apiEncodeTo
  simp only [hne, if_false, hargs, Outcome.bind, Enc.runInto, hb, true_and]
  intro dest hd
  rw [if_neg]
  rw [yencMaxSize_eq, Int.toNat_natCast, List.length_replicate, Nat.div_eq_of_lt (by omega)]
  omega

/-- C12: a destination of `maxSize` bytes is accepted, one byte less than the native requirement is refused; the two sizes agree. -/
theorem C12_max_size_accepted (he : Enc.IsImpl eimpl) (d dest : List Byte) (hne : d ≠ []) (ls : Nat) (h1 : 1 ≤ ls)
    (h2 : ls + 6 < 2 ^ 31) :
    (Js.maxSize d.length ls ≤ dest.length →
      ∃ r, Enc.apiEncodeTo eimpl [.buffer d, .buffer dest, .int ls] = .ret r) ∧
    (dest.length < Js.maxSize d.length ls →
      ∃ m, Enc.apiEncodeTo eimpl [.buffer d, .buffer dest, .int ls] = .throw m) := by
  have hmax : Js.maxSize d.length ls = yencMaxSize d.length ls := by
    rw [yencMaxSize_eq]
    unfold Js.maxSize
    rw [if_neg (by simpa using hne), if_neg (by omega), Nat.mul_comm d.length 2]
  have hargs : Enc.lineArgs [.int ls] = .ret ((ls : Int), 0) := by
    simp only [Enc.lineArgs, argToInt, Outcome.bind, toInt32_of_lt ls (by omega)]
    rw [if_neg (show ¬ (ls : Int) = 0 by omega), if_neg (by omega)]
  unfold Enc.apiEncodeTo
  simp only [hne, if_false, hargs, Outcome.bind, Int.toNat_natCast]
  rw [hmax]
  constructor
  · intro h
    obtain ⟨col', h4, _⟩ := Enc.runInto_eq he.correct ls 0 d true h1 h2 (by omega) hne _ h
    rw [if_neg (by omega)]
    rw [show ((0 : Int)) = ((0 : Nat) : Int) from rfl, h4]
    exact ⟨_, rfl⟩
  · intro h
    rw [if_pos h]
    exact ⟨_, rfl⟩

example := C12_max_size_accepted .generic sample (List.replicate 96 0#8) (by decide) 4 (by decide) (by decide)

/-- C13: argument handling. -/
theorem C13_arguments (he : Enc.IsImpl eimpl) (d : List Byte) (hne : d ≠ []) (ls col : Int) (hls : -2 ^ 31 ≤ ls ∧ ls < 2 ^ 31)
    (hcol : -2 ^ 31 ≤ col ∧ col < 2 ^ 31) :
    (ls < 0 → ∃ m, Enc.apiEncode eimpl [.buffer d, .int ls, .int col] = .throw m) ∧
    (ls = 0 → Enc.apiEncode eimpl [.buffer d, .int ls, .int col] = Enc.apiEncode eimpl [.buffer d, .int 128, .int col]) ∧
    (1 ≤ ls → (col < 0 ∨ ls < col) → ∃ m, Enc.apiEncode eimpl [.buffer d, .int ls, .int col] = .throw m) ∧
    (1 ≤ ls → Enc.apiEncode eimpl [.buffer d, .int ls, .int ls] = Enc.apiEncode eimpl [.buffer d, .int ls, .int 0]) ∧
    (1 ≤ ls → Enc.apiEncode eimpl [.buffer d, .int ls] = Enc.apiEncode eimpl [.buffer d, .int ls, .int 0]) ∧
    Enc.apiEncode eimpl [.buffer d] = Enc.apiEncode eimpl [.buffer d, .int 128, .int 0] ∧
    (1 ≤ ls → ls + 6 < 2 ^ 31 → 0 ≤ col → col ≤ ls → ∃ e, Enc.apiEncode eimpl [.buffer d, .int ls, .int col] = .ret e) := by
  have t1 := toInt32_of_range ls hls.1 hls.2
  have t2 := toInt32_of_range col hcol.1 hcol.2
  have t0 := toInt32_of_range 0 (by decide) (by decide)
  have t128 := toInt32_of_range 128 (by decide) (by decide)
  refine ⟨?_, ?_, ?_, ?_, ?_, ?_, ?_⟩
  · intro h
    refine ⟨"Line size must be at least 1 byte", ?_⟩
    simp only [Enc.apiEncode, hne, if_false, Enc.lineArgs, argToInt, Outcome.bind, t1]
    rw [if_neg (show ¬ ls = 0 by omega), if_pos h]
  · rintro rfl
    simp only [Enc.apiEncode, hne, if_false, Enc.lineArgs, argToInt, Outcome.bind, t0, t128, if_true]
    rfl
  · intro h h'
    refine ⟨"Column offset cannot exceed the line size and cannot be negative", ?_⟩
    simp only [Enc.apiEncode, hne, if_false, Enc.lineArgs, argToInt, Outcome.bind, t1, t2]
    rw [if_neg (show ¬ ls = 0 by omega), if_neg (by omega), if_pos (by omega)]
  · intro h
    simp only [Enc.apiEncode, hne, if_false, Enc.lineArgs, argToInt, Outcome.bind, t1, t0]
    rw [if_neg (show ¬ ls = 0 by omega), if_neg (show ¬ ls < 0 by omega), if_neg (show ¬ (ls > ls ∨ ls < 0) by omega), if_neg (show ¬ (0 > ls ∨ (0:Int) < 0) by omega)]
    simp [show ¬ ls < 0 by omega]
  · intro h
    simp only [Enc.apiEncode, hne, if_false, Enc.lineArgs, argToInt, Outcome.bind, t1, t0]
    rw [if_neg (show ¬ ls = 0 by omega), if_neg (show ¬ ls < 0 by omega), if_neg (show ¬ (0 > ls ∨ (0:Int) < 0) by omega)]
    simp [show ¬ ls < 0 by omega]
  · simp only [Enc.apiEncode, hne, if_false, Enc.lineArgs, argToInt, Outcome.bind, t128, t0]
    simp
  · intro h hlt h' h''
    by_cases h5 : col = ls
    · obtain ⟨l, rfl⟩ := Int.eq_ofNat_of_zero_le (show 0 ≤ ls by omega)
      subst h5
      refine ⟨Spec.encode l true 0 d, ?_⟩
      have := C03_encode_reference he d l 0 (by omega) (by omega) (by omega)
      rw [← this]
      simp only [Enc.apiEncode, hne, if_false, Enc.lineArgs, argToInt, Outcome.bind, t1]
      rw [if_neg (show ¬ (l : Int) = 0 by omega), if_neg (show ¬ (l : Int) < 0 by omega), if_neg (show ¬ ((l : Int) > l ∨ (l : Int) < 0) by omega),
        show toInt32 ((0 : Nat) : Int) = 0 from t0, if_neg (show ¬ (0 > (l : Int) ∨ (0:Int) < 0) by omega)]
      simp [show ¬ (l : Int) < 0 by omega]
    · obtain ⟨l, rfl⟩ := Int.eq_ofNat_of_zero_le (show 0 ≤ ls by omega)
      obtain ⟨c, rfl⟩ := Int.eq_ofNat_of_zero_le h'
      exact ⟨_, C03_encode_reference he d l c (by omega) (by omega) (by omega)⟩

example := C13_arguments .generic sample (by decide) 4 7 (by decide) (by decide)

/-- C13, wrong types: `encode` refuses anything that is not a Buffer. -/
theorem C13_not_a_buffer (a : Arg) (ha : ∀ b, a ≠ .buffer b) (rest : List Arg) :
    ∃ m, Enc.apiEncode eimpl (a :: rest) = .throw m ∧ Enc.apiEncode eimpl [] = .throw m := by
  cases a <;> simp_all [Enc.apiEncode]

example := C13_not_a_buffer (eimpl := Enc.encodeGeneric) (.int 5) (by intro b h; cases h) [.int 4]

/-- C50: for fixed line size and column, `encode` is injective. -/
theorem C50_injective (he : Enc.IsImpl eimpl) (d d' : List Byte) (ls col : Nat) (h1 : 1 ≤ ls) (h2 : ls + 6 < 2 ^ 31)
    (h3 : col < ls) (h : Enc.apiEncode eimpl [.buffer d, .int ls, .int col] = Enc.apiEncode eimpl [.buffer d', .int ls, .int col]) :
    d = d' := by
  rw [C03_encode_reference he d ls col h1 h2 h3, C03_encode_reference he d' ls col h1 h2 h3] at h
  injection h with h
  rw [← Enc.yDecode_encode ls true col d, h, Enc.yDecode_encode]

example := C50_injective .generic sample sample 4 1 (by decide) (by decide) (by decide) rfl

/-- C51: encodings of the same data with different line layouts decode to the same bytes. -/
theorem C51_layout_independent (he : Enc.IsImpl eimpl) (hd : Dec.IsImpl dimpl) (d : List Byte) (ls ls' col col' : Nat)
    (h1 : 1 ≤ ls) (h2 : ls + 6 < 2 ^ 31) (h3 : col < ls) (h1' : 1 ≤ ls') (h2' : ls' + 6 < 2 ^ 31) (h3' : col' < ls') :
    ∃ e e', Enc.apiEncode eimpl [.buffer d, .int ls, .int col] = .ret e ∧
      Enc.apiEncode eimpl [.buffer d, .int ls', .int col'] = .ret e' ∧
      Dec.apiDecode dimpl [.buffer e, .bool false] = Dec.apiDecode dimpl [.buffer e', .bool false] := by
  obtain ⟨e, ha, hb⟩ := C01_round_trip he hd d ls col h1 h2 h3
  obtain ⟨e', ha', hb'⟩ := C01_round_trip he hd d ls' col' h1' h2' h3'
  exact ⟨e, e', ha, ha', hb.trans hb'.symm⟩

example := C51_layout_independent .generic .generic sample 4 128 1 0 (by decide) (by decide) (by decide) (by decide) (by decide) (by decide)

end Yenc.Props
