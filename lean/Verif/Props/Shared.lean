import Verif.Lemmas.SharedConst
import Verif.Lemmas.Api
/-! C89: the data changes during the call. -/
namespace Yenc.Props
open Yenc Yenc.Shared

/-- `L` is a copy of a Buffer of `n` bytes, each byte taken at some time. -/
def Mixture (mem : Nat → Nat → Byte) (n : Nat) (L : List Byte) : Prop := L.length = n ∧ ∀ k b, L[k]? = some b → ∃ τ, b = mem τ k

theorem mixture_of_seen {mem : Nat → Nat → Byte} {n t : Nat} {s : List (Nat × Byte)} {L : List Byte} (h : L.length = n) (hs : Seen s 0 L) (hr : Reads mem t s) :
    Mixture mem n L := by
  refine ⟨h, fun k b hk => ?_⟩
  have := hs k b hk
  rw [Nat.zero_add] at this
  obtain ⟨τ, _, h2⟩ := hr k b this
  exact ⟨τ, h2⟩

theorem yDecode_length_le (L : List Byte) : (Spec.yDecode L).length ≤ L.length := by
  fun_induction Spec.yDecode L <;> simp_all <;> omega

/-- The encoder behind the bindings. -/
theorem encImpl_run (mem : Nat → Nat → Byte) (ls col : Nat) (src : List Byte) (fin : Bool) (hls : 1 ≤ ls) (hls2 : ls + 6 < 2 ^ 31) (hcol : col < ls) (hne : src ≠ [])
    (size : Nat) (hs : yencMaxSize src.length ls ≤ size) :
    ∃ L col', Mixture mem src.length L ∧ Enc.runInto (encImpl mem) ls col src fin size = .ret (Spec.encode ls fin col L, col') ∧
      Enc.ColRel ls col' (Spec.endCol ls fin col L) ∧ (fin = false → 2 ≤ ls → col' ≤ (ls : Int)) := by
  have hn : src.length ≠ 0 := fun h => hne (List.length_eq_zero_iff.mp h)
  obtain ⟨⟨w, col'⟩, t, s, h1, ⟨L, h2, h3, h4, h5, h6⟩, h7⟩ := (encode_post ls hls hls2 col src.length fin hn).sound mem 0 (by intro i b h; simp at h)
  refine ⟨L, col', mixture_of_seen h2 h3 h7, ?_, h6⟩
  have h8 := Enc.encode_length_le ls hls fin col hcol L
  rw [yencMaxSize_eq] at hs
  unfold Enc.runInto encImpl
  rw [h1]
  simp only at h4 h5
  simp only [Option.map_some]
  rw [if_pos (by rw [h4] at h5 ⊢; rw [h2] at h8; omega), h4]

/-- `encode` while the data changes: the result is the encoding of some copy of it, each byte taken at some time during the call; nothing outside the data and the
allocated memory is touched. -/
theorem C89_encode (mem : Nat → Nat → Byte) (src : List Byte) (ls col : Nat) (hls : 1 ≤ ls) (hls2 : ls + 6 < 2 ^ 31) (hcol : col < ls) :
    ∃ L, Mixture mem src.length L ∧ Enc.apiEncode (encImpl mem) [.buffer src, .int ls, .int col] = .ret (Spec.encode ls true col L) := by
  unfold Enc.apiEncode
  by_cases hne : src = []
  · subst hne; exact ⟨[], ⟨rfl, by simp⟩, by simp [Spec.encode]⟩
  · obtain ⟨L, col', h1, h2, _⟩ := encImpl_run mem ls col src true hls hls2 hcol hne _ (Nat.le_refl _)
    exact ⟨L, h1, by simp only [hne, if_false, Enc.lineArgs_eq ls col hls (by omega) hcol, Outcome.bind, Int.toNat_natCast, h2]⟩

/-- A Buffer of three bytes that turns from tabs to zeros; the first byte is read as a tab. -/
example : Enc.apiEncode (encImpl fun t _ => if t < 1 then 223#8 else 0#8) [.buffer [1#8, 2#8, 3#8], .int 128, .int 0]
    = .ret (Spec.encode 128 true 0 [223#8, 0#8, 0#8]) := by decide +kernel

/-- A round of eight bytes is undone near the end of the line, its bytes are read again, and only what the second read gave is used. -/
example : Enc.apiEncode (encImpl fun t _ => if t < 9 then 214#8 else 0#8) [.buffer (List.replicate 20 7#8), .int 12, .int 0]
    = .ret (Spec.encode 12 true 0 (214#8 :: List.replicate 19 0#8)) := by decide +kernel

/-- `encodeTo` while the data changes. -/
theorem C89_encodeTo (mem : Nat → Nat → Byte) (src dest : List Byte) (ls col : Nat) (hls : 1 ≤ ls) (hls2 : ls + 6 < 2 ^ 31) (hcol : col < ls)
    (hd : yencMaxSize src.length ls ≤ dest.length) :
    ∃ L, Mixture mem src.length L ∧ Enc.apiEncodeTo (encImpl mem) [.buffer src, .buffer dest, .int ls, .int col] =
      .ret (toInt32 (Spec.encode ls true col L).length, Spec.encode ls true col L) := by
  unfold Enc.apiEncodeTo
  by_cases hne : src = []
  · subst hne; exact ⟨[], ⟨rfl, by simp⟩, by simp [Spec.encode, toInt32]⟩
  · obtain ⟨L, col', h1, h2, _⟩ := encImpl_run mem ls col src true hls hls2 hcol hne dest.length hd
    exact ⟨L, h1, by simp only [hne, if_false, Enc.lineArgs_eq ls col hls (by omega) hcol, Outcome.bind, Int.toNat_natCast, h2, if_neg (show ¬ dest.length < yencMaxSize src.length ls by omega)]⟩

example : yencMaxSize [1#8, 2#8].length 128 ≤ (List.replicate 70 0#8).length := by decide

/-- `encodeIncr` (without an output Buffer) while the data changes: also the column is the one of that copy (as in C14, the code may report it one short at the end of a line). -/
theorem C89_encodeIncr (mem : Nat → Nat → Byte) (src : List Byte) (ls col : Nat) (hls : 1 ≤ ls) (hls2 : ls + 6 < 2 ^ 31) (hcol : col < ls) (hne : src ≠ []) :
    ∃ L col', Mixture mem src.length L ∧ Enc.apiEncodeIncr (encImpl mem) [.buffer src, .int ls, .int col] = .ret (Spec.encode ls false col L, col') ∧
      (col' = (Spec.endCol ls false col L : Nat) ∨ ((ls : Int) - 1 ≤ col' ∧ col' ≤ ls ∧ ls ≤ Spec.endCol ls false col L)) := by
  obtain ⟨L, col', h1, h2, h3, _⟩ := encImpl_run mem ls col src false hls hls2 hcol hne _ (Nat.le_refl _)
  refine ⟨L, col', h1, ?_, h3⟩
  unfold Enc.apiEncodeIncr
  simp only [hne, if_false, Enc.lineArgs_eq ls col hls (by omega) hcol, Outcome.bind, Int.toNat_natCast, h2]

example := C89_encodeIncr (fun t _ => BitVec.ofNat 8 t) [1#8, 2#8] 128 5 (by decide) (by decide) (by decide) (by decide)

/-- `decode` without dot stripping while the data changes: the result is the decoding of some copy. -/
theorem C89_decode_plain (mem : Nat → Nat → Byte) (src : List Byte) :
    ∃ L, Mixture mem src.length L ∧ Dec.apiDecode (decImpl mem) [.buffer src, .bool false] = .ret (Spec.decode false L) := by
  unfold Dec.apiDecode
  by_cases hne : src = []
  · subst hne; exact ⟨[], ⟨rfl, by simp⟩, by simp [Spec.decode, Spec.yDecode]⟩
  · obtain ⟨out, t, s, h1, ⟨L, h2, h3, rfl⟩, h4⟩ := (decodePlain_post src.length).sound mem 0 (by intro i b h; simp at h)
    refine ⟨L, mixture_of_seen h2 h3 h4, ?_⟩
    have h5 := yDecode_length_le L
    simp only [hne, if_false, Dec.rawArg, argToBool, Outcome.bind, Dec.runPlain, decImpl, h1, Option.map_some]
    simp [Spec.decode, h2 ▸ h5]

/-- An escape character appears during the call. -/
example : Dec.apiDecode (decImpl fun t i => if t = 1 ∧ i = 1 then EQ else 107#8) [.buffer [1#8, 2#8, 3#8], .bool false] = .ret [65#8, 1#8] := by decide +kernel

/-- `decode` with dot stripping while the data changes: it returns, with at most as many bytes as there are in the data; nothing outside the data and the allocated memory is touched. -/
theorem C89_decode_dots (mem : Nat → Nat → Byte) (src : List Byte) :
    ∃ out, Dec.apiDecode (decImpl mem) [.buffer src, .bool true] = .ret out ∧ out.length ≤ src.length := by
  unfold Dec.apiDecode
  by_cases hne : src = []
  · subst hne; exact ⟨[], by simp, by simp⟩
  · obtain ⟨out, t, s, h1, h2, h4⟩ := (decodeRaw_post src.length).sound mem 0 (by intro i b h; simp at h)
    refine ⟨out, ?_, h2⟩
    simp only [hne, if_false, Dec.rawArg, argToBool, Outcome.bind, Dec.runPlain, decImpl, h1, Option.map_some, if_true, if_pos h2]

/-- `decodeTo` while the data changes. -/
theorem C89_decodeTo (mem : Nat → Nat → Byte) (src dest : List Byte) (raw : Bool) (hd : src.length ≤ dest.length) :
    ∃ out, Dec.apiDecodeTo (decImpl mem) [.buffer src, .buffer dest, .bool raw] = .ret (toInt32 out.length, out) ∧ out.length ≤ src.length := by
  unfold Dec.apiDecodeTo
  by_cases hne : src = []
  · subst hne; exact ⟨[], by simp [toInt32], by simp⟩
  · have : ∃ out, (if raw then (decImpl mem).raw src else (decImpl mem).plain src) = some out ∧ out.length ≤ src.length := by
      cases raw with
      | true =>
        obtain ⟨out, t, s, h1, h2, h4⟩ := (decodeRaw_post src.length).sound mem 0 (by intro i b h; simp at h)
        exact ⟨out, by simp [decImpl, h1], h2⟩
      | false =>
        obtain ⟨out, t, s, h1, ⟨L, h2, h3, rfl⟩, h4⟩ := (decodePlain_post src.length).sound mem 0 (by intro i b h; simp at h)
        exact ⟨Spec.yDecode L, by simp [decImpl, h1], h2 ▸ yDecode_length_le L⟩
    obtain ⟨out, h1, h2⟩ := this
    refine ⟨out, ?_, h2⟩
    simp only [hne, if_false, Dec.rawArg, argToBool, Outcome.bind, Dec.runPlain, h1, if_neg (show ¬ dest.length < src.length by omega), if_pos (show out.length ≤ dest.length by omega)]

example := C89_decodeTo (fun t _ => BitVec.ofNat 8 t) [1#8, 2#8] [0#8, 0#8, 0#8] true (by decide)

/-- `decodeChunk`'s native call while the data changes: it returns, it counts no more bytes as read than there are and no more as written than read, and an end it
reports was seen: the byte before the reported position was, at some time, the `y` of `=y`, or the line feed of the article's end. -/
theorem C89_decodeIncr (mem : Nat → Nat → Byte) (src : List Byte) (st : Dec.State) (dest : Option Nat) (hl : src.length < 2 ^ 31) (hd : ∀ n, dest = some n → src.length ≤ n) :
    ∃ r, Dec.decodeIncr (decImpl mem) src st.toNat dest = .ret r ∧ r.written = r.output.length ∧ r.written ≤ r.read ∧ r.read ≤ src.length ∧ r.state ≤ 6 ∧
      (r.ended = 0 → r.read = src.length) ∧
      (r.ended = 1 → 1 ≤ r.read ∧ r.state = 3 ∧ ∃ τ, mem τ (r.read - 1).toNat = LY) ∧
      (r.ended = 2 → 1 ≤ r.read ∧ r.state = 0 ∧ ∃ τ, mem τ (r.read - 1).toNat = LF) ∧ r.ended ≤ 2 := by
  obtain ⟨x, t, s, h1, ⟨h2, h3, h4⟩, h5⟩ := (decodeEnd_post st src.length).sound mem 0 (by intro i b h; simp at h)
  have hst : Dec.State.ofInt st.toNat = some st := by cases st <;> decide
  have hpos : src.length - (src.drop x.pos).length = x.pos := by simp; omega
  refine ⟨⟨toInt32 x.pos, toInt32 x.out.length, x.out, x.ended.toNat, x.state.toNat⟩, ?_, ?_⟩
  · unfold Dec.decodeIncr
    rw [hst]
    simp only [decImpl, h1, Option.map_some, hpos]
    cases dest with
    | none => rw [if_neg (by simp), if_pos (by omega)]
    | some n => have := hd n rfl; rw [if_neg (by simp; omega), if_pos (by omega)]
  · simp only [toInt32_of_lt x.pos (by omega), toInt32_of_lt x.out.length (by omega)]
    refine ⟨trivial, by omega, by omega, by cases x.state <;> decide, ?_, ?_, ?_, by cases x.ended <;> decide⟩
    all_goals (rcases he : x.ended <;> rw [he] at h4 <;> simp only [Dec.Ended.toNat] <;> intro hh)
    all_goals try omega
    · obtain ⟨g1, g2, g3⟩ := h4
      obtain ⟨τ, _, g4⟩ := h5 _ _ g3
      refine ⟨by omega, by rw [g1]; rfl, τ, ?_⟩
      rw [g4]; congr 1; omega
    · obtain ⟨g1, g2, g3⟩ := h4
      obtain ⟨τ, _, g4⟩ := h5 _ _ g3
      refine ⟨by omega, by rw [g1]; rfl, τ, ?_⟩
      rw [g4]; congr 1; omega

/-- A `y` that appears between the two reads of the same byte is decoded as an escaped character, and no end is reported. -/
example : Dec.decodeIncr (decImpl fun t i => if i = 0 ∧ t < 3 then EQ else if t = 2 then 88#8 else LY) [EQ, LY] 0 none
    = .ret ⟨2, 1, [LY - 106#8], 0, 3⟩ := by decide +kernel

/-- With dot stripping the result need not be the decoding of any copy: a carriage return after `=` is read twice, and if it changes in between it counts twice. -/
theorem C89_decode_dots_torn :
    ∃ (mem : Nat → Nat → Byte) (out : List Byte), Dec.apiDecode (decImpl mem) [.buffer [EQ, CR], .bool true] = .ret out ∧
      ∀ L, Mixture mem 2 L → Spec.decode true L ≠ out := by
  refine ⟨fun t i => if i = 0 then EQ else if t < 3 then CR else 107#8, [CR - 106#8, 65#8], by decide +kernel, ?_⟩
  rintro L ⟨h1, h2⟩ h
  obtain ⟨a, b, rfl⟩ : ∃ a b, L = [a, b] := by
    rcases L with _ | ⟨a, _ | ⟨b, _ | ⟨c, L⟩⟩⟩ <;> simp at h1
    exact ⟨a, b, rfl⟩
  obtain ⟨τ, ha⟩ := h2 0 a rfl
  obtain ⟨τ', hb⟩ := h2 1 b rfl
  simp only [if_true] at ha
  simp only [Nat.one_ne_zero, if_false] at hb
  subst ha
  revert h
  split at hb <;> subst hb <;> decide

/-- If the data does not change, these calls give what the models of the other properties give. -/
theorem C89_unchanged (mem : Nat → Nat → Byte) (src : List Byte) (h : ∀ τ k b, src[k]? = some b → mem τ k = b) :
    (∀ ls col : Nat, 1 ≤ ls → ls + 6 < 2 ^ 31 → col < ls →
      Enc.apiEncode (encImpl mem) [.buffer src, .int ls, .int col] = Enc.apiEncode Enc.encodeGeneric [.buffer src, .int ls, .int col]) ∧
    (∀ rest, Dec.apiDecode (decImpl mem) (.buffer src :: rest) = Dec.apiDecode Dec.generic (.buffer src :: rest)) ∧
    (∀ st dest, Dec.decodeIncr (decImpl mem) src st dest = Dec.decodeIncr Dec.generic src st dest) := by
  have hm : ∀ L, Mixture mem src.length L → L = src := by
    rintro L ⟨h1, h2⟩
    apply List.ext_getElem? 
    intro k
    rcases hk : L[k]? with _ | b
    · rw [List.getElem?_eq_none_iff] at hk
      rw [List.getElem?_eq_none (by omega)]
    · obtain ⟨τ, rfl⟩ := h2 k b hk
      obtain ⟨hlt, _⟩ := List.getElem?_eq_some_iff.mp hk
      have : src[k]? = some src[k] := List.getElem?_eq_getElem (by omega)
      rw [this, h τ k _ this]
  have hr : ∀ t k, src[k]? = some (mem t k) ∨ src.length ≤ k := by
    intro t k
    by_cases hk : k < src.length
    · left
      have : src[k]? = some src[k] := List.getElem?_eq_getElem hk
      rw [this, h t k _ this]
    · right; omega
  have hplain : (decImpl mem).plain src = Dec.generic.plain src := by
    obtain ⟨out, t, s, h1, ⟨L, h2, h3, rfl⟩, h4⟩ := (decodePlain_post src.length).sound mem 0 (by intro i b h; simp at h)
    obtain rfl := hm L (mixture_of_seen h2 h3 h4)
    rw [Dec.generic_correct.plain]
    simp [decImpl, h1, Spec.decode]
  have hraw : (decImpl mem).raw src = Dec.generic.raw src := by
    simp only [decImpl, Dec.generic]
    rw [run_eval src mem hr, decodeRaw_eval]
  have hend : ∀ st, (decImpl mem).endRaw st src = Dec.generic.endRaw st src := by
    intro st
    simp only [decImpl, Dec.generic]
    rw [← decodeEnd_eval, ← run_eval src mem hr _ 0, Option.map_map]; rfl
  refine ⟨fun ls col h1 h2 h3 => ?_, fun rest => ?_, fun st dest => ?_⟩
  · obtain ⟨L, g1, g2⟩ := C89_encode mem src ls col h1 h2 h3
    rw [g2, hm L g1, Enc.apiEncode_eq Enc.generic_correct ls col src h1 h2 h3]
  · simp only [Dec.apiDecode, Dec.runPlain, hplain, hraw]
  · simp only [Dec.decodeIncr, hend]

end Yenc.Props
