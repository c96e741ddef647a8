import Verif.Props.Decode
import Verif.Props.Encode
/-!
C53 for every entry point that returns a count, whatever the arguments.
-/
namespace Yenc.Props
open Yenc

variable {eimpl : Enc.Impl} {dimpl : Dec.Impl}

theorem toInt32_eq_iff (n : Nat) : toInt32 n = n ↔ n < 2 ^ 31 := by
  constructor
  · intro h
    have : toInt32 n < 2 ^ 31 := by
      unfold toInt32
      exact BitVec.toInt_lt
    omega
  · exact toInt32_of_lt n

/-- C53, `encodeTo`: with any arguments for which it returns, the count returned is the number of bytes written if and only if that is below 2^31. -/
theorem C53_encodeTo_exact (args : List Arg) (n : Int) (out : List Byte) (h : Enc.apiEncodeTo eimpl args = .ret (n, out)) :
    n = out.length ↔ out.length < 2 ^ 31 := by
  have hn : n = toInt32 out.length := by
    unfold Enc.apiEncodeTo at h
    split at h
    · rename_i src dest rest
      split at h
      · obtain ⟨rfl, rfl⟩ : 0 = n ∧ [] = out := by simpa using h
        decide
      · cases h1 : Enc.lineArgs rest with
        | ub => simp [h1, Outcome.bind] at h
        | throw m => simp [h1, Outcome.bind] at h
        | ret a =>
          simp only [h1, Outcome.bind] at h
          split at h
          · cases h
          · cases h2 : Enc.runInto eimpl a.1 a.2 src true dest.length with
            | ub => simp [h2] at h
            | throw m => simp [h2] at h
            | ret b =>
              simp only [h2, Outcome.ret.injEq, Prod.mk.injEq] at h
              rw [← h.2, h.1]
    · cases h
  rw [hn]
  exact toInt32_eq_iff _

/-- C53, `decodeTo`, with and without dot stripping. -/
theorem C53_decodeTo_exact (args : List Arg) (n : Int) (out : List Byte) (h : Dec.apiDecodeTo dimpl args = .ret (n, out)) :
    n = out.length ↔ out.length < 2 ^ 31 := by
  have hn : n = toInt32 out.length := by
    unfold Dec.apiDecodeTo at h
    split at h
    · rename_i src dest rest
      split at h
      · obtain ⟨rfl, rfl⟩ : 0 = n ∧ [] = out := by simpa using h
        decide
      · split at h
        · obtain ⟨rfl, rfl⟩ : 0 = n ∧ [] = out := by simpa using h
          decide
        · cases h1 : Dec.rawArg rest with
          | ub => simp [h1, Outcome.bind] at h
          | throw m => simp [h1, Outcome.bind] at h
          | ret a =>
            simp only [h1, Outcome.bind] at h
            cases h2 : Dec.runPlain dimpl a src dest.length with
            | ub => simp [h2] at h
            | throw m => simp [h2] at h
            | ret b =>
              simp only [h2, Outcome.ret.injEq, Prod.mk.injEq] at h
              rw [← h.2, h.1]
    · cases h
  rw [hn]
  exact toInt32_eq_iff _

theorem throw_else {α : Type} {c : Prop} [Decidable c] {m : String} {y : Outcome α} {r : α} (h : (if c then .throw m else y) = Outcome.ret r) : y = .ret r := by
  by_cases hc : c
  · rw [if_pos hc] at h; cases h
  · rwa [if_neg hc] at h

theorem decodeIncr_ret {src : List Byte} {state : Int} {dest : Option Nat} {r : Dec.IncrRes} (h : Dec.decodeIncr dimpl src state dest = .ret r) :
    ∃ st x, dimpl.endRaw st src = some x ∧ r = ⟨toInt32 ↑(src.length - x.rest.length), toInt32 x.out.length, x.out, x.ended.toNat, x.state.toNat⟩ := by
  unfold Dec.decodeIncr at h
  cases h1 : Dec.State.ofInt state with
  | none => simp [h1] at h
  | some st =>
    simp only [h1] at h
    replace h := throw_else h
    cases h2 : dimpl.endRaw st src with
    | none => simp [h2] at h
    | some x =>
      refine ⟨st, x, h2, ?_⟩
      simp only [h2] at h
      by_cases h3 : x.out.length ≤ src.length
      · rw [if_pos h3] at h
        exact (Outcome.ret.inj h).symm
      · rw [if_neg h3] at h
        cases h

theorem decodeChunk_ret {data : List Byte} {o p : Js.Val} {r : Js.ChunkRes} (h : Js.decodeChunk dimpl data o p = .ret r) :
    (data = [] ∧ r.read = 0 ∧ r.written = 0 ∧ r.output = []) ∨
      ∃ st x, dimpl.endRaw st data = some x ∧ r.read = toInt32 ↑(data.length - x.rest.length) ∧ r.written = toInt32 x.out.length ∧ r.output = x.out ∧
        (r.ended = false → x.ended = .none) := by
  have core : ∀ d q, Js.decodeChunkCore dimpl data d q = .ret r → (data = [] ∧ r.read = 0 ∧ r.written = 0 ∧ r.output = []) ∨
      ∃ st x, dimpl.endRaw st data = some x ∧ r.read = toInt32 ↑(data.length - x.rest.length) ∧ r.written = toInt32 x.out.length ∧ r.output = x.out ∧
        (r.ended = false → x.ended = .none) := by
    intro d q h
    unfold Js.decodeChunkCore at h
    simp only at h
    by_cases hnil : data = []
    · rw [if_pos hnil] at h
      have := Outcome.ret.inj h
      exact Or.inl ⟨hnil, by rw [← this], by rw [← this], by rw [← this]⟩
    · rw [if_neg hnil] at h
      cases h0 : Js.stateIndex (Js.normPrev q) with
      | none => simp [h0] at h
      | some st =>
        simp only [h0] at h
        cases h1 : Dec.decodeIncr dimpl data st d with
        | ub => simp [h1, Outcome.bind] at h
        | throw m => simp [h1, Outcome.bind] at h
        | ret a =>
          obtain ⟨st, x, h2, rfl⟩ := decodeIncr_ret h1
          simp only [h1, Outcome.bind] at h
          have := Outcome.ret.inj h
          refine Or.inr ⟨st, x, h2, by rw [← this], by rw [← this], by rw [← this], ?_⟩
          rw [← this]
          cases x.ended <;> simp [Dec.Ended.toNat]
  unfold Js.decodeChunk at h
  cases h0 : (Js.shuffle o p).2 with
  | other => simp [h0] at h
  | undef => rw [h0] at h; exact core _ _ h
  | null => rw [h0] at h; exact core _ _ h
  | buffer b => rw [h0] at h; exact core _ _ h
  | str b => rw [h0] at h; exact core _ _ h

/-- C53, `decodeChunk`: the count written, for any state and output argument. -/
theorem C53_decodeChunk_exact (data : List Byte) (o p : Js.Val) (r : Js.ChunkRes) (h : Js.decodeChunk dimpl data o p = .ret r) :
    r.written = r.output.length ↔ r.output.length < 2 ^ 31 := by
  rcases decodeChunk_ret h with ⟨_, _, h1, h2⟩ | ⟨st, x, _, _, h1, h2, _⟩
  · rw [h1, h2]; decide
  · rw [h1, h2]; exact toInt32_eq_iff _

/-- C53, `decodeChunk` of data without an end: the count read is the length of the data if and only if that is below 2^31.  (Data with an end: C20_end_detection, C21_read.) -/
theorem C53_read_exact (hd : Dec.IsImpl dimpl) (data : List Byte) (o p : Js.Val) (r : Js.ChunkRes) (h : Js.decodeChunk dimpl data o p = .ret r) (he : r.ended = false) :
    r.read = data.length ↔ data.length < 2 ^ 31 := by
  rcases decodeChunk_ret h with ⟨h1, h2, _⟩ | ⟨st, x, h1, h2, _, _, h3⟩
  · rw [h1, h2]; decide
  · rw [hd.correct.endRaw] at h1
    obtain rfl := Option.some.inj h1
    rw [h2, Dec.run_rest_of_not_ended _ _ (h3 he), List.length_nil, Nat.sub_zero]
    exact toInt32_eq_iff _

-- calls that return
example : ∃ n out, Dec.apiDecodeTo Dec.generic [.buffer [107#8], .buffer [0#8], .bool false] = .ret (n, out) :=
  ⟨_, _, (C16_decodeTo .generic [107#8] [0#8] false (by decide) (by simp)).1⟩
example : ∃ r, Js.decodeChunk Dec.generic [107#8] .undef .undef = .ret r ∧ (r.ended = false ↔ Spec.NoEnd [107#8]) :=
  (C20_end_detection .generic [107#8] (by decide)).imp fun _ h => ⟨h.1, h.2.1⟩
example : ∃ n out, Enc.apiEncodeTo Enc.encodeGeneric [.buffer [65#8], .buffer (List.replicate 100 0#8), .int (128 : Nat)] = .ret (n, out) := by
  obtain ⟨r, h⟩ := (C12_max_size_accepted .generic [65#8] (List.replicate 100 0#8) (by simp) 128 (by decide) (by decide)).1 (by decide)
  exact ⟨r.1, r.2, h⟩

end Yenc.Props
