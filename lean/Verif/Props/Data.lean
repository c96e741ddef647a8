import Verif.Model.JsData
import Verif.Spec.Text
import Verif.Props.FromPost
/-!
Property C77: posting text: `encode` of a `multi_post` encoder with a string.
-/
namespace Yenc.Props
open Spec Yenc.Js

variable {lib : Lib} {env : Env}

/-! ### Lemmas -/

theorem isPair_iff {u v : Nat} : (isHigh u && isLow v) = true ↔ isPair u v := by
  simp [isHigh_iff, isLow_iff, isPair]; omega

theorem utf8Char_length_unit (u : Nat) (h : u < 0x10000) : (utf8Char (if isHigh u || isLow u then 0xFFFD else u)).length = unitBytes u := by
  by_cases hs : (isHigh u || isLow u) = true
  · rw [if_pos hs]
    have : ¬ u < 0x80 ∧ ¬ u < 0x800 := by
      simp only [Bool.or_eq_true, isHigh_iff, isLow_iff] at hs; omega
    rw [unitBytes, if_neg this.1, if_neg this.2]; rfl
  · rw [if_neg hs, utf8Char, unitBytes]
    by_cases a : u < 0x80
    · rw [if_pos a, if_pos a]; rfl
    rw [if_neg a, if_neg a]
    by_cases b : u < 0x800
    · rw [if_pos b, if_pos b]; rfl
    rw [if_neg b, if_neg b, if_pos h]; rfl

theorem utf8Encode_length (s : Str) (h : ∀ u ∈ s, u < 0x10000) : (utf8Encode s).length = utf8Bytes s := by
  fun_induction utf8Encode s with
  | case1 => rfl
  | case2 u => exact utf8Char_length_unit u (h u (by simp))
  | case3 u v r hc ih =>
    have hp := isPair_iff.1 hc
    rw [List.length_append, ih (fun x hx => h x (by simp [hx])), utf8Bytes, if_pos hp, utf8Char]
    obtain ⟨⟨_, _⟩, _, _⟩ := hp
    rw [if_neg (by omega), if_neg (by omega), if_neg (by omega)]; rfl
  | case4 u v r hc ih =>
    have hp : ¬ isPair u v := fun hp => hc (isPair_iff.2 hp)
    rw [List.length_append, ih (fun x hx => h x (by simp [hx])), utf8Bytes, if_neg hp, utf8Char_length_unit u (h u (by simp))]

theorem validText_wellFormed {s : Str} (h : ValidText s) : wellFormed s = true := by
  induction h with
  | nil => rfl
  | @unit u s h1 h2 _ ih =>
    have a : isHigh u = false := by rw [← Bool.not_eq_true, isHigh_iff]; omega
    have b : isLow u = false := by rw [← Bool.not_eq_true, isLow_iff]; omega
    cases s with
    | nil => simp [wellFormed, a, b, h1]
    | cons v r => rw [wellFormed]; simp [a, b, h1, ih]
  | @pair u v s h1 _ ih => rw [wellFormed, if_pos (isPair_iff.2 h1)]; exact ih

theorem validText_lt {s : List Nat} (h : ValidText s) : ∀ u ∈ s, u < 0x10000 := by
  induction h with
  | nil => simp
  | unit h1 _ _ ih =>
    intro x hx
    rcases List.mem_cons.1 hx with rfl | hx
    · exact h1
    · exact ih x hx
  | pair h1 _ ih =>
    obtain ⟨⟨_, _⟩, _, _⟩ := h1
    intro x hx
    rcases List.mem_cons.1 hx with rfl | hx
    · omega
    rcases List.mem_cons.1 hx with rfl | hx
    · omega
    · exact ih x hx

theorem utf8_decode_pieces (ss : List Str) (h : ∀ s ∈ ss, ValidText s) : utf8Decode (ss.map utf8Encode).flatten = ss.flatten := by
  induction ss with
  | nil => simp [utf8Decode_nil]
  | cons s t ih =>
    rw [List.map_cons, List.flatten_cons, utf8Decode_encode s _ (validText_wellFormed (h s (by simp))), ih (fun x hx => h x (by simp [hx]))]; rfl

theorem le_utf8Bytes (s : List Nat) : s.length ≤ utf8Bytes s := by
  have hu : ∀ u, 1 ≤ unitBytes u := by intro u; unfold unitBytes; split <;> [skip; split] <;> omega
  fun_induction utf8Bytes s with
  | case1 => simp
  | case2 u => simpa using hu u
  | case3 u v r _ ih => simp only [List.length_cons]; omega
  | case4 u v r _ ih => have := hu u; simp only [List.length_cons] at ih ⊢; omega

theorem utf8Bytes_eq_length (s : List Nat) : utf8Bytes s = s.length ↔ ∀ u ∈ s, u < 0x80 := by
  have hu : ∀ u, 1 ≤ unitBytes u ∧ (unitBytes u = 1 ↔ u < 0x80) := by
    intro u; unfold unitBytes
    by_cases a : u < 0x80
    · rw [if_pos a]; simp [a]
    · rw [if_neg a]; split <;> simp [a]
  fun_induction utf8Bytes s with
  | case1 => simp
  | case2 u => simpa using (hu u).2
  | case3 u v r h _ =>
    have := le_utf8Bytes r
    constructor
    · intro e; simp only [List.length_cons] at e; omega
    · intro e
      have := e u (by simp)
      obtain ⟨⟨_, _⟩, _⟩ := h
      omega
  | case4 u v r h ih =>
    have a := le_utf8Bytes (v :: r)
    have b := hu u
    have ih' : utf8Bytes (v :: r) = (v :: r).length ↔ ∀ u ∈ v :: r, u < 0x80 := ih
    rw [List.forall_mem_cons, ← ih', ← b.2]
    simp only [List.length_cons] at a ⊢
    omega

theorem runData_strs (e : YEnc) (ss : List Str) (h : e.mode = .multi) :
    e.runData lib (ss.map .str) = e.run lib (ss.map utf8Encode) := by
  have keep : ∀ (e : YEnc) d, e.mode = .multi → (e.encode lib d).1.mode = .multi := by
    intro e d h
    rw [YEnc.encode, h]
    simp only [YEnc.encodeMulti]
    split
    · exact h
    split
    · exact h
    simp only [YEnc.sums]
    rcases lib.crc32 d with c | m | _
    · simp only
      rcases Crc.apiCombine lib.crc [.buffer e.crc, .buffer c, .int d.length] with c2 | m | _
      · simp only
        split
        · split
          · exact h
          · simp only [YEnc.finish]
            split
            · exact h
            · split <;> exact h
        · simp only [YEnc.finish]
          split
          · exact h
          · split <;> exact h
      · exact h
      · exact h
    · exact h
    · exact h
  induction ss generalizing e with
  | nil => rfl
  | cons s t ih =>
    have e1 : e.encodeData lib (.str s) = e.encode lib (utf8Encode s) := by
      rw [YEnc.encodeData, if_neg (by rw [h]; decide)]; rfl
    simp only [List.map_cons, YEnc.runData, YEnc.run, e1, ih _ (keep e _ h)]

/-! ### C77 -/

/-- C77, partial: the text has no lone surrogates (`C77_lone_surrogate_false`).  A text posted as a string comes back: `from_post` of `multi_post(name, size, 1, ls).encode(text)`, where `size` is the number of bytes of the
UTF-8 form of the text, has Buffer data that reads, as UTF-8, as the text. -/
theorem C77_text_round_trip_partial (h : lib.IsLib) (hl : env.Lawful) (name : Str) (hn : SafeName name) (ls : Nat) (h1 : 1 ≤ ls) (h2 : ls + 6 < 2 ^ 31)
    (s : Str) (hv : ValidText s) (hs : utf8Bytes s ≤ 2 ^ 53) (isRaw : Bool) :
    ∃ post p d, ((multiPost name (utf8Bytes s) 1 ls).encodeData lib (.str s)).2 = .ret post ∧ fromPost lib env post isRaw = .ret (.ok p) ∧
      p.data = some d ∧ utf8Decode d = s ∧ p.warnings = ["missing_yend_newline"] ∧
      field p "begin" "size" = some (lit (toString (utf8Bytes s))) := by
  have e := utf8Encode_length s (validText_lt hv)
  obtain ⟨post, p, _, _, q1, q2, _, _, q3, _, q4, _, _, _, q5, _⟩ := C45_single h hl name hn ls 1 h1 h2 (by omega) (utf8Encode s) (by omega) isRaw
  rw [e] at q1 q5
  refine ⟨post, p, _, ?_, q2, q3, ?_, q4, q5⟩
  · rw [YEnc.encodeData, if_neg (by simp [multiPost])]
    exact q1
  · have := utf8Decode_encode s [] (validText_wellFormed hv)
    simpa [utf8Decode_nil] using this

/-- C77, parts, partial: no piece ends inside a character (`C77_cut_character_false`).  A text cut into two or more non-empty pieces, each of them valid, and posted as strings: each part parses, and the data of the parts,
joined, reads as the text. -/
theorem C77_text_parts_partial (h : lib.IsLib) (hl : env.Lawful) (name : Str) (hn : SafeName name) (ls : Nat) (h1 : 1 ≤ ls) (h2 : ls + 6 < 2 ^ 31)
    (ss : List Str) (hp : 1 < ss.length) (hne : ∀ s ∈ ss, s ≠ []) (hv : ∀ s ∈ ss, ValidText s) (hs : (ss.map utf8Bytes).sum < 2 ^ 53) (isRaw : Bool) :
    ∃ posts datas : List (List Byte),
      ((multiPost name (ss.map utf8Bytes).sum ss.length ls).runData lib (ss.map .str)).2 = posts.map .ret ∧
      posts.length = ss.length ∧ datas.length = ss.length ∧
      (∀ i (hi : i < ss.length), ∃ post p, posts[i]? = some post ∧ fromPost lib env post isRaw = .ret (.ok p) ∧ p.data = datas[i]?) ∧
      utf8Decode datas.flatten = ss.flatten := by
  have esum : (ss.map utf8Encode).flatten.length = (ss.map utf8Bytes).sum := by
    rw [List.length_flatten, List.map_map]
    exact congrArg List.sum (List.map_congr_left fun s hs => utf8Encode_length s (validText_lt (hv s hs)))
  obtain ⟨ps, q1, q2, q3⟩ := C45_parts h hl name hn ls h1 h2 (ss.map utf8Encode) (by simpa using hp) (by
    intro d hd
    obtain ⟨s, hs, rfl⟩ := List.mem_map.1 hd
    intro h0
    have e := utf8Encode_length s (validText_lt (hv s hs))
    rw [h0] at e
    have := le_utf8Bytes s
    have : s.length = 0 := by rw [← e] at this; simpa using this
    exact hne s hs (List.length_eq_zero_iff.1 this)) (by rw [esum]; exact hs) isRaw
  refine ⟨ps, ss.map utf8Encode, ?_, by simpa using q2, by simp, fun i hi => ?_, utf8_decode_pieces ss hv⟩
  · rw [runData_strs _ _ (by simp [multiPost, hp])]
    rw [feedParts, esum, List.length_map] at q1
    exact q1
  · obtain ⟨post, p, _, _, r1, r2, _, _, r3, _⟩ := q3 i (by simpa using hi)
    exact ⟨post, p, r1, r2, by rw [r3, List.getElem?_eq_getElem]⟩

/-- C77, the size: a single-part encoder accepts a string exactly if the size given is the number of bytes of its UTF-8 form. -/
theorem C77_size_in_bytes (h : lib.IsLib) (name : Str) (size ls : Nat) (h1 : 1 ≤ ls) (h2 : ls + 6 < 2 ^ 31) (s : Str) (hu : ∀ u ∈ s, u < 0x10000) :
    (∃ post, ((multiPost name size 1 ls).encodeData lib (.str s)).2 = .ret post) ↔ size = utf8Bytes s := by
  rw [YEnc.encodeData, if_neg (by simp [multiPost])]
  have c := C44_single_post_protocol h name size 1 ls h1 h2 (by omega) (utf8Encode s)
  rw [utf8Encode_length s hu] at c
  simp only [toBuffer]
  constructor
  · rintro ⟨post, hp⟩
    by_cases hc : utf8Bytes s = size
    · exact hc.symm
    · obtain ⟨⟨m, hm⟩, _⟩ := c.1 hc
      rw [hm] at hp; cases hp
  · intro hc
    exact (c.2 hc.symm).1

example := C77_size_in_bytes genericLib_isLib (lit "n") 4 128 (by decide) (by decide) [0x41, 0x20AC] (by decide)

/-- C77: so giving `text.length` as the size, works exactly for ASCII texts. -/
theorem C77_length_as_size (h : lib.IsLib) (name : Str) (ls : Nat) (h1 : 1 ≤ ls) (h2 : ls + 6 < 2 ^ 31) (s : Str) (hu : ∀ u ∈ s, u < 0x10000) :
    (∃ post, ((multiPost name s.length 1 ls).encodeData lib (.str s)).2 = .ret post) ↔ ∀ u ∈ s, u < 0x80 := by
  rw [C77_size_in_bytes h name s.length ls h1 h2 s hu, ← utf8Bytes_eq_length, eq_comm]

example := C77_length_as_size genericLib_isLib (lit "n") 128 (by decide) (by decide) [0x41, 0x20AC] (by decide)

/-- C77, false for strings with lone surrogates: two different ones give the same post. -/
theorem C77_lone_surrogate_false :
    ((multiPost (lit "n") 3 1 128).encodeData genericLib (.str [0xD800])).2 = ((multiPost (lit "n") 3 1 128).encodeData genericLib (.str [0xDBFF])).2 ∧
      ((multiPost (lit "n") 3 1 128).encodeData genericLib (.str [0xD800])).2 =
        .ret (text "=ybegin line=128 size=3 name=n\r\n" ++ [0x19#8, 0xe9#8, 0xe7#8] ++ text "\r\n=yend size=3 crc32=8b7233c9") := by
  decide +kernel

/-- C77, false for pieces cut inside a character: the two halves of U+1F600 take three bytes each, so with the size of the text (four bytes) the second
call throws. -/
theorem C77_cut_character_false :
    utf8Bytes [0xD83D, 0xDE00] = 4 ∧
    (((multiPost (lit "n") 4 2 128).runData genericLib [.str [0xD83D], .str [0xDE00]]).2.map returned) = [true, false] := by
  decide +kernel

/-- C77, unusable data (numbers, `null`, `undefined`): the call throws and, other than with data of a wrong size (C76), leaves the encoder as it
was, whatever its state. -/
theorem C77_unusable_data (lib : Lib) (e : YEnc) : (∃ m, (e.encodeData lib .other).2 = .throw m) ∧ (e.encodeData lib .other).1 = e := by
  rw [YEnc.encodeData]
  split
  · exact ⟨⟨_, rfl⟩, rfl⟩
  · exact ⟨⟨_, rfl⟩, rfl⟩

/-- C77, arrays: the post of an array of integers is the post of the Buffer of the integers modulo 256. -/
theorem C77_array (lib : Lib) (e : YEnc) (xs : List Int) (b : List Byte) (hb : b.length = xs.length)
    (hx : ∀ i (hi : i < xs.length), ((b[i]'(by omega)).toNat : Int) = xs[i] % 256) :
    e.encodeData lib (.array xs) = e.encodeData lib (.buffer b) := by
  have : xs.map (BitVec.ofInt 8) = b := by
    apply List.ext_getElem
    · simp [hb]
    · intro i h1 h2
      have := hx i (by omega)
      rw [List.getElem_map]
      apply BitVec.eq_of_toNat_eq
      rw [BitVec.toNat_ofInt]
      omega
  rw [YEnc.encodeData, YEnc.encodeData, toBuffer, toBuffer, this]

-- "é€" followed by U+1F600 is valid text of nine bytes in four code units
example : ValidText [0xE9, 0x20AC, 0xD83D, 0xDE00] ∧ utf8Bytes [0xE9, 0x20AC, 0xD83D, 0xDE00] = 9 :=
  ⟨.unit (by decide) (by decide) (.unit (by decide) (by decide) (.pair (by decide) .nil)), by decide⟩
-- the array [-1, 256, 65] is the Buffer ff 00 41
example : toBuffer (.array [-1, 256, 65]) = .ret [0xff#8, 0#8, 0x41#8] := by decide
-- a size of 4 is refused for the text above and 9 is accepted
example : (((multiPost (lit "n") 4 1 128).encodeData genericLib (.str [0xE9, 0x20AC, 0xD83D, 0xDE00])).2 = .throw "File size doesn't match total data length") ∧
    returned ((multiPost (lit "n") 9 1 128).encodeData genericLib (.str [0xE9, 0x20AC, 0xD83D, 0xDE00])).2 = true := by decide +kernel

end Yenc.Props
