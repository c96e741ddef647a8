import Verif.Lemmas.Api
/-!
Property C17: decoding a buffer into itself.  Buffers are views of one memory here; `m.rdn a n` are the `n` bytes at address `a`.
-/
namespace Yenc.Props
open Yenc Spec

variable {I : Dec.M.Impl}

/-- C17 for `decodeTo`, every implementation, any memory: decoding the `n` bytes at `a` into themselves reports the same length and leaves the
same bytes as decoding them into a buffer elsewhere; those bytes are the reference decoder's (dot stripping: save for a last byte of
inputs ending in an escaped line break, see C15); nothing outside the first `n` bytes of the output buffer changes. -/
theorem C17_decodeTo_in_place (hI : Dec.M.IsImpl I) (m : Mem) (a n b size : Nat) (strip : Bool) (hn : n ≤ size)
    (hb : b + size ≤ a ∨ a + n ≤ b) :
    ∃ out m1 m2,
      Dec.M.decodeTo I m ⟨a, n⟩ ⟨a, n⟩ strip = .ret (toInt32 out.length, m1) ∧
      Dec.M.decodeTo I m ⟨a, n⟩ ⟨b, size⟩ strip = .ret (toInt32 out.length, m2) ∧
      m1.rdn a out.length = out ∧ m2.rdn b out.length = out ∧
      (out = Spec.decode strip (m.rdn a n) ∨
        (strip = true ∧ [EQ, CR, LF] <:+ m.rdn a n ∧ out = (Spec.decode strip (m.rdn a n)).dropLast)) ∧
      (∀ x, x < a ∨ a + n ≤ x → m1 x = m x) ∧ (∀ x, x < b ∨ b + n ≤ x → m2 x = m x) := by
  by_cases h0 : n = 0
  · subst h0
    refine ⟨[], m, m, rfl, rfl, rfl, rfl, .inl ?_, fun _ _ => rfl, fun _ _ => rfl⟩
    cases strip <;> simp [Mem.rdn, Spec.decode, Spec.unstuff, Spec.unstuffAux, Spec.yDecode]
  have h := hI.correct
  have key : ∃ out, (out = Spec.decode strip (m.rdn a n) ∨
        (strip = true ∧ [EQ, CR, LF] <:+ m.rdn a n ∧ out = (Spec.decode strip (m.rdn a n)).dropLast)) ∧
      ∀ d s, n ≤ s → Dec.M.Safe d a (a + n) → ∃ t, Dec.M.decodeTo I m ⟨a, n⟩ ⟨d, s⟩ strip = .ret (toInt32 out.length, m.wr d (out ++ t)) ∧
        (out ++ t).length ≤ n := by
    cases strip with
    | false =>
      refine ⟨_, .inl rfl, ?_⟩
      intro d s hs hsafe
      obtain ⟨t, h1, h2⟩ := h.plain m a d n hsafe
      refine ⟨t, ?_, h2⟩
      simp only [Dec.M.decodeTo, h0, if_false, Bool.false_eq_true, h1]
      rw [if_neg (by omega)]
    | true =>
      obtain ⟨out, h1, h2⟩ := h.raw a (m.rdn a n)
      refine ⟨out, h1.imp id (fun h => ⟨rfl, h.1, h.2⟩), ?_⟩
      intro d s hs hsafe
      simp only [Mem.rdn_length] at h2
      obtain ⟨t, h1, h2⟩ := h2 m d rfl hsafe
      refine ⟨t, ?_, h2⟩
      simp only [Dec.M.decodeTo, h0, if_false, if_true, h1]
      rw [if_neg (by omega)]
  obtain ⟨out, ho, hd⟩ := key
  obtain ⟨t1, h1, l1⟩ := hd a n (Nat.le_refl _) (.inl (Nat.le_refl _))
  obtain ⟨t2, h2, l2⟩ := hd b size hn (by unfold Dec.M.Safe; omega)
  exact ⟨out, _, _, h1, h2, Mem.rdn_wr_prefix .., Mem.rdn_wr_prefix .., ho,
    fun x hx => Mem.wr_out _ _ _ _ (by omega), fun x hx => Mem.wr_out _ _ _ _ (by omega)⟩

example := C17_decodeTo_in_place (.simd (.neon true)) (fun _ => EQ) 1000 100 1100 100 true (by decide) (by decide)

/-- C17 for `decodeChunk` from any state: the same `read`, `written`, `ended` and `state`, and the same bytes, in place as into a separate buffer;
and all of them are what the call on separate buffers of the list model gives (the one other properties of `decodeChunk` are about). -/
theorem C17_decodeChunk_in_place (hI : Dec.M.IsImpl I) (m : Mem) (a n b size : Nat) (prev : List Byte) (hn : n ≤ size) (hn2 : n < 2 ^ 31)
    (hb : b + size ≤ a ∨ a + n ≤ b) (hst : prev ∈ [[CR, LF], [EQ], [CR], [], [CR, LF, DOT], [CR, LF, DOT, CR], [CR, LF, EQ]]) :
    ∃ out r m1 m2,
      Dec.M.decodeChunk I m ⟨a, n⟩ ⟨a, n⟩ prev = .ret (r, m1) ∧
      Dec.M.decodeChunk I m ⟨a, n⟩ ⟨b, size⟩ prev = .ret (r, m2) ∧
      Js.decodeChunk Dec.generic (m.rdn a n) .undef (.str prev) = .ret ⟨r.read, r.written, out, r.ended, r.state⟩ ∧
      r.written = out.length ∧ m1.rdn a out.length = out ∧ m2.rdn b out.length = out ∧
      (∀ x, x < a ∨ a + n ≤ x → m1 x = m x) ∧ (∀ x, x < b ∨ b + n ≤ x → m2 x = m x) := by
  have hs : ∃ s : Dec.State, prev = s.str := by
    simp only [List.mem_cons, List.not_mem_nil, or_false] at hst
    rcases hst with rfl | rfl | rfl | rfl | rfl | rfl | rfl
    · exact ⟨.crlf, rfl⟩
    · exact ⟨.eq, rfl⟩
    · exact ⟨.cr, rfl⟩
    · exact ⟨.none, rfl⟩
    · exact ⟨.crlfdt, rfl⟩
    · exact ⟨.crlfdtcr, rfl⟩
    · exact ⟨.crlfeq, rfl⟩
  obtain ⟨s, rfl⟩ := hs
  have href : Js.decodeChunk Dec.generic (m.rdn a n) .undef (.str s.str) = _ :=
    Dec.decodeChunkCore_eq Dec.generic_correct (m.rdn a n) s none (by simp) (by simpa using hn2)
  by_cases h0 : n = 0
  · subst h0
    refine ⟨[], ⟨0, 0, false, s.str⟩, m, m, ?_, ?_, ?_, rfl, rfl, rfl, fun _ _ => rfl, fun _ _ => rfl⟩
    · simp [Dec.M.decodeChunk, Dec.normPrev_str]
    · simp [Dec.M.decodeChunk, Dec.normPrev_str]
    · rw [href]; simp [Mem.rdn, Dec.run, Dec.Res.str]
  have h := hI.correct
  have key : ∀ d sz, n ≤ sz → Dec.M.Safe d a (a + n) → ∃ t, Dec.M.decodeChunk I m ⟨a, n⟩ ⟨d, sz⟩ s.str =
        .ret (⟨(n - (Dec.run s (m.rdn a n)).rest.length : Nat), (Dec.run s (m.rdn a n)).out.length, (Dec.run s (m.rdn a n)).ended ≠ .none,
          (Dec.run s (m.rdn a n)).str⟩, m.wr d ((Dec.run s (m.rdn a n)).out ++ t)) ∧ ((Dec.run s (m.rdn a n)).out ++ t).length ≤ n := by
    intro d sz hsz hsafe
    obtain ⟨t, h1, h2⟩ := h.endRaw m a d n s hsafe
    have h3 : (Dec.run s (m.rdn a n)).out.length ≤ n := by simp at h2; omega
    refine ⟨t, ?_, h2⟩
    simp only [Dec.M.decodeChunk, Dec.normPrev_str, Dec.stateIndex_str, h0, if_false, Dec.State.ofInt_toNat, h1]
    rw [if_neg (by omega)]
    congr 2
    rw [show ((a + (n - (Dec.run s (m.rdn a n)).rest.length) : Nat) : Int) - a = ((n - (Dec.run s (m.rdn a n)).rest.length : Nat) : Int) by omega,
      show ((d + (Dec.run s (m.rdn a n)).out.length : Nat) : Int) - d = ((Dec.run s (m.rdn a n)).out.length : Int) by omega,
      toInt32_of_lt _ (by omega), toInt32_of_lt _ (by omega)]
    congr 1
    simp only [Dec.Res.str]
    cases (Dec.run s (m.rdn a n)).ended <;> simp [Dec.Ended.toNat, Dec.State.str]
  obtain ⟨t1, h1, l1⟩ := key a n (Nat.le_refl _) (.inl (Nat.le_refl _))
  obtain ⟨t2, h2, l2⟩ := key b size hn (by unfold Dec.M.Safe; omega)
  refine ⟨_, _, _, _, h1, h2, ?_, rfl, Mem.rdn_wr_prefix .., Mem.rdn_wr_prefix ..,
    fun x hx => Mem.wr_out _ _ _ _ (by omega), fun x hx => Mem.wr_out _ _ _ _ (by omega)⟩
  rw [href]
  simp

/-- A memory with something to decode at 100, decoded in place and to 200. -/
example : ∃ out r m1 m2,
    Dec.M.decodeChunk Dec.M.generic (fun x => if x % 4 = 0 then EQ else 110#8) ⟨100, 9⟩ ⟨100, 9⟩ [CR, LF] = .ret (r, m1) ∧
    Dec.M.decodeChunk Dec.M.generic (fun x => if x % 4 = 0 then EQ else 110#8) ⟨100, 9⟩ ⟨200, 9⟩ [CR, LF] = .ret (r, m2) ∧
    r.written = out.length ∧ m1.rdn 100 out.length = out ∧ m2.rdn 200 out.length = out := by
  obtain ⟨out, r, m1, m2, h1, h2, _, h4, h5, h6, _⟩ :=
    C17_decodeChunk_in_place .generic (fun x => if x % 4 = 0 then EQ else 110#8) 100 9 200 9 [CR, LF] (by omega) (by omega) (by omega)
      (by simp)
  exact ⟨out, r, m1, m2, h1, h2, h4, h5, h6⟩

/-- The proviso of C17 is needed: an output that begins inside the input, after its start, overwrites input not yet read.  Here the input
`kkk` at 0 should decode to three bytes 65, but decoded to address 1 it gives 65, 23, 237. -/
theorem C17_output_ahead_of_input_differs :
    ∃ m m', Dec.M.decodeTo Dec.M.generic m ⟨0, 3⟩ ⟨1, 3⟩ false = .ret (3, m') ∧
      Spec.decode false (m.rdn 0 3) = [65#8, 65#8, 65#8] ∧ m'.rdn 1 3 = [65#8, 23#8, 237#8] := by
  refine ⟨fun _ => 107#8, (((Mem.set (fun _ => 107#8) 1 65#8).set 2 23#8).set 3 237#8), ?_, by decide, by decide⟩
  have h2 : ∀ m p, Dec.M.loopPlain 3 m 2 p = (m, 2, p) := by intro m p; rw [Dec.M.loopPlain, if_neg (by omega)]
  have h1 : ∀ m p, m 1 = 65#8 → Dec.M.loopPlain 3 m 1 p = (m.set p 23#8, 2, p + 1) := by
    intro m p h
    rw [Dec.M.loopPlain, if_pos (by omega)]
    simp only [h, h2]
    rw [if_neg (by decide), if_neg (by decide)]; rfl
  have h0 : Dec.M.loopPlain 3 (fun _ => 107#8) 0 1 = ((Mem.set (fun _ => 107#8) 1 65#8).set 2 23#8, 2, 3) := by
    rw [Dec.M.loopPlain, if_pos (by omega)]
    simp only
    rw [if_neg (by decide), if_neg (by decide)]
    exact h1 _ _ (by decide)
  simp only [Dec.M.decodeTo, Dec.M.generic, Dec.M.noendPlain, Nat.zero_add]
  rw [if_neg (by decide), if_neg (by decide), if_neg (by decide), if_neg (by decide)]
  simp only [reduceCtorEq, if_false, h0]
  rw [if_pos (by decide), if_pos (by decide)]
  rfl

end Yenc.Props
