import Verif.Lemmas.SharedRounds
import Verif.Lemmas.Api
/-! C90: the data changes during the call, in the vectorised decoders. -/
namespace Yenc.Props
open Yenc Yenc.Vec Yenc.Shared Yenc.Dec.Simd

/-- Whatever registers and bytes the rounds of the kernels are given, what they do is among what C90 allows. -/
theorem C90_rounds (md : Mode) (b : Nat → Byte) :
    (∀ c s, Simd.X86.Torn c md (Simd.forget X86.Regs.esc (X86.iter c md s b))) ∧
    (∀ a64 s, Simd.Neon.Torn a64 md (Simd.forget Neon.Regs.esc (Neon.iter a64 md s b))) ∧
    (∀ vl junk s, Simd.Rvv.Torn vl md (Simd.forget Rvv.Regs.esc (Rvv.iter vl junk md s b))) :=
  ⟨fun c s => Simd.X86.torn_iter c md s b, fun a64 s => Simd.Neon.torn_iter a64 md s b, fun vl junk s => Simd.Rvv.torn_iter vl junk md s b⟩

/-- All allowed rounds keep to the limits of the mode, also if the end is not searched and reading on is not allowed. -/
theorem torn_fine {w : Nat} {lax : Bool} {T : Mode → Iter Bool → Prop} (hT : Simd.IsTorn w lax T) (md : Mode) (hmd : md ≠ .endRaw) (mem : Nat → Nat → Byte) (addr n : Nat)
    (rs : Nat → Iter Bool) (hrs : ∀ t, T md (rs t)) (st : Option Dec.State) :
    ∃ x t s, (Simd.decode w false rs md addr n st).run mem n 0 = some (x, t) ∧ Fine n s x ∧ Reads mem t s := by
  obtain ⟨h1, _, h3⟩ := hT.within
  have : ∀ t, Simd.Within w (Simd.ahead false md) (rs t) := fun t => by
    have := h3 md _ (hrs t)
    cases lax <;> cases md <;> simp_all [Simd.ahead]
  exact (Simd.decode_post h1 (by simp) this addr n st).sound mem 0 (by intro i b h; simp at h)

/-- `decode`, with and without dot stripping, while the data changes, in the vectorised implementations: it returns, with at most as many bytes as there are in the data; nothing outside
the data and the allocated memory is touched. -/
theorem C90_decode {w : Nat} {lax : Bool} {T : Mode → Iter Bool → Prop} (hT : Simd.IsTorn w lax T) (mem : Nat → Nat → Byte) (addr : Nat) (rs : Mode → Nat → Iter Bool)
    (hrs : ∀ md t, T md (rs md t)) (src : List Byte) (raw : Bool) :
    ∃ out, Dec.apiDecode (Simd.decImpl mem w lax addr rs) [.buffer src, .bool raw] = .ret out ∧ out.length ≤ src.length := by
  unfold Dec.apiDecode
  by_cases hne : src = []
  · subst hne; exact ⟨[], by simp, by simp⟩
  · cases raw with
    | true =>
      obtain ⟨x, t, s, h1, ⟨h2, h3, _⟩, _⟩ := torn_fine hT .raw (by simp) mem addr src.length (rs .raw) (hrs .raw) none
      have : x.out.length ≤ src.length := by omega
      refine ⟨x.out, ?_, this⟩
      simp only [hne, if_false, Dec.rawArg, argToBool, Outcome.bind, Dec.runPlain, Simd.decImpl, h1, Option.map_some, if_true, if_pos this]
    | false =>
      obtain ⟨x, t, s, h1, ⟨h2, h3, _⟩, _⟩ := torn_fine hT .plain (by simp) mem addr src.length (rs .plain) (hrs .plain) none
      have : x.out.length ≤ src.length := by omega
      refine ⟨x.out, ?_, this⟩
      simp only [hne, if_false, Dec.rawArg, argToBool, Outcome.bind, Dec.runPlain, Simd.decImpl, h1, Option.map_some, Bool.false_eq_true, if_pos this]

/-- Rounds that store two registers of zeros, and rounds that remove some bytes by a mask that belongs to nothing that ever was in memory: both are allowed. -/
example (md : Mode) (t : Nat) : Simd.X86.Torn X86.Cfg.ssse3Funcs md
    ⟨32, .next (X86.compact X86.Cfg.ssse3Funcs (BitVec.ofNat _ t) (set1 0#8) (set1 1#8)).1 (X86.compact X86.Cfg.ssse3Funcs (BitVec.ofNat _ t) (set1 0#8) (set1 1#8)).2 true⟩ :=
  .pack 32 (show 32 ≤ 2 * 16 + _ by omega) _ _ _ _

/-- Two rounds that throw away all they read, then the scalar code on bytes that change with every read. -/
example : Dec.apiDecode (Simd.decImpl (fun t _ => BitVec.ofNat 8 (t + 50)) 32 false 4096 fun _ _ => ⟨32, .next [(0, toList (set1 7#8) 16), (0, toList (set1 7#8) 16)] 0 false⟩)
    [.buffer (List.replicate 70 0#8), .bool false] = .ret [8#8, 9#8, 10#8, 11#8, 12#8, 13#8] := by decide +kernel

example : Simd.IsTorn 32 false (Simd.X86.Torn X86.Cfg.ssse3Funcs) := .x86 X86.Cfg.ssse3Funcs ⟨by decide, by decide⟩

/-- `decodeTo` while the data changes, in the vectorised implementations. -/
theorem C90_decodeTo {w : Nat} {lax : Bool} {T : Mode → Iter Bool → Prop} (hT : Simd.IsTorn w lax T) (mem : Nat → Nat → Byte) (addr : Nat) (rs : Mode → Nat → Iter Bool)
    (hrs : ∀ md t, T md (rs md t)) (src dest : List Byte) (raw : Bool) (hd : src.length ≤ dest.length) :
    ∃ out, Dec.apiDecodeTo (Simd.decImpl mem w lax addr rs) [.buffer src, .buffer dest, .bool raw] = .ret (toInt32 out.length, out) ∧ out.length ≤ src.length := by
  unfold Dec.apiDecodeTo
  by_cases hne : src = []
  · subst hne; exact ⟨[], by simp [toInt32], by simp⟩
  · have : ∃ out, (if raw then (Simd.decImpl mem w lax addr rs).raw src else (Simd.decImpl mem w lax addr rs).plain src) = some out ∧ out.length ≤ src.length := by
      cases raw with
      | true =>
        obtain ⟨x, t, s, h1, ⟨h2, h3, _⟩, _⟩ := torn_fine hT .raw (by simp) mem addr src.length (rs .raw) (hrs .raw) none
        exact ⟨x.out, by simp [Simd.decImpl, h1], by omega⟩
      | false =>
        obtain ⟨x, t, s, h1, ⟨h2, h3, _⟩, _⟩ := torn_fine hT .plain (by simp) mem addr src.length (rs .plain) (hrs .plain) none
        exact ⟨x.out, by simp [Simd.decImpl, h1], by omega⟩
    obtain ⟨out, h1, h2⟩ := this
    refine ⟨out, ?_, h2⟩
    simp only [hne, if_false, Dec.rawArg, argToBool, Outcome.bind, Dec.runPlain, h1, if_neg (show ¬ dest.length < src.length by omega), if_pos (show out.length ≤ dest.length by omega)]

/-- `decodeChunk`'s native call while the data changes, in the vectorised implementations: it returns, it counts no more bytes as read than there are and no more as written than read, and an end it
reports was seen: the byte before the reported position was, at some time, the `y` of `=y`, or the line feed of the article's end. -/
theorem C90_decodeIncr {w : Nat} {lax : Bool} {T : Mode → Iter Bool → Prop} (hT : Simd.IsTorn w lax T) (mem : Nat → Nat → Byte) (addr : Nat) (rs : Mode → Nat → Iter Bool)
    (hrs : ∀ md t, T md (rs md t)) (src : List Byte) (st : Dec.State) (dest : Option Nat) (hl : src.length < 2 ^ 31) (hd : ∀ n, dest = some n → src.length ≤ n) :
    ∃ r, Dec.decodeIncr (Simd.decImpl mem w lax addr rs) src st.toNat dest = .ret r ∧ r.written = r.output.length ∧ r.written ≤ r.read ∧ r.read ≤ src.length ∧ r.state ≤ 6 ∧
      (r.ended = 0 → r.read = src.length) ∧
      (r.ended = 1 → 1 ≤ r.read ∧ r.state = 3 ∧ ∃ τ, mem τ (r.read - 1).toNat = LY) ∧
      (r.ended = 2 → 1 ≤ r.read ∧ r.state = 0 ∧ ∃ τ, mem τ (r.read - 1).toNat = LF) ∧ r.ended ≤ 2 := by
  obtain ⟨k1, k2, k3⟩ := hT.within
  obtain ⟨x, t, s, h1, ⟨h2, h3, h4⟩, h5⟩ := (Simd.decode_post k1 k2 (fun t => k3 .endRaw _ (hrs .endRaw t)) addr src.length (some st)).sound mem 0 (by intro i b h; simp at h)
  have hst : Dec.State.ofInt st.toNat = some st := by cases st <;> decide
  have hpos : src.length - (src.drop x.pos).length = x.pos := by simp; omega
  refine ⟨⟨toInt32 x.pos, toInt32 x.out.length, x.out, x.ended.toNat, x.state.toNat⟩, ?_, ?_⟩
  · unfold Dec.decodeIncr
    rw [hst]
    simp only [Simd.decImpl, h1, Option.map_some, hpos]
    cases dest with
    | none => rw [if_neg (by simp), if_pos (by omega)]
    | some n => have := hd n rfl; rw [if_neg (by simp; omega), if_pos (by omega)]
  · simp only [toInt32_of_lt x.pos (by omega), toInt32_of_lt x.out.length (by omega)]
    refine ⟨trivial, by omega, by omega, by cases x.state <;> decide, ?_, ?_, ?_, by cases x.ended <;> decide⟩
    all_goals (rcases he : x.ended <;> rw [he] at h4 <;> simp only [Dec.Ended.toNat] <;> intro hh)
    all_goals try omega
    · obtain ⟨g1, g2, g3⟩ := h4
      obtain ⟨τ, _, g4⟩ := h5 _ _ g3
      refine ⟨by omega, by rw [g1]; rfl, τ, ?_⟩
      rw [g4]; congr 1; omega
    · obtain ⟨g1, g2, g3⟩ := h4
      obtain ⟨τ, _, g4⟩ := h5 _ _ g3
      refine ⟨by omega, by rw [g1]; rfl, τ, ?_⟩
      rw [g4]; congr 1; omega

/-- The kernel takes something for a terminator that is not there any more when the scalar code reads it: no end is reported. -/
example : Dec.decodeIncr (Simd.decImpl (fun _ _ => 107#8) 32 false 4096 fun _ _ => ⟨36, .brk 2⟩) (List.replicate 70 0#8) 3 none
    = .ret ⟨70, 70, List.replicate 70 65#8, 0, 3⟩ := by decide +kernel

example : Simd.X86.Torn X86.Cfg.ssse3Funcs .endRaw ⟨36, .brk 2⟩ := .brk 36 2 rfl (show 36 ≤ 2 * 16 + 4 by omega) (by omega)

end Yenc.Props
