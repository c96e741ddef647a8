import Verif.Lemmas.Interop
import Verif.Props.Stream
import Verif.Props.Stuffed
/-!
Property C101: what other encoders write is decoded.
-/
namespace Yenc.Props
open Spec Yenc.Js
open Yenc.Crc (apiCrc32)

variable {eimpl : Enc.Impl} {dimpl : Dec.Impl} {cimpl : Crc.Impl} {lib : Lib} {env : Env}

/-- C101: every encoding of some data, whatever it escapes and wherever its lines end, is decoded to the data. -/
theorem C101_decode (hd : Dec.IsImpl dimpl) (d t : List Byte) (h : Encoding d t) : Dec.apiDecode dimpl [.buffer t, .bool false] = .ret d := by
  rw [(C15_decode_plain hd t).1]
  simp [Spec.decode, Interop.yDecode_encoding h]

/-- Non-vacuity: the letter `A` escaped, though it need not be, and an empty line. -/
theorem interop_example : Encoding [65#8, 4#8, 65#8] (text "=" ++ [171#8] ++ text "\r\n\r\n." ++ [107#8, LF]) :=
  .esc 65#8 (by unfold Critical; decide) (.cr (.lf (.cr (.lf (.chr 4#8 (by unfold Critical; decide) (.chr 65#8 (by unfold Critical; decide) (.lf .nil)))))))

/-- C101: the same from an article, where dots at the start of lines are doubled. -/
theorem C101_decode_stuffed (hd : Dec.IsImpl dimpl) (d t : List Byte) (h : Encoding d t) : Dec.apiDecode dimpl [.buffer (stuff t), .bool true] = .ret d := by
  rw [C24_stuffing_undone_partial hd t, C101_decode hd d t h]
  rintro ⟨r, hr⟩
  exact Interop.no_escaped_break h CR LF ⟨r, [LF], by rw [show stuffAux CR LF t = stuff t from rfl, ← hr]; simp⟩

/-- C101: what this library writes is such an encoding. -/
theorem C101_encode (he : Enc.IsImpl eimpl) (d : List Byte) (ls col : Nat) (h1 : 1 ≤ ls) (h2 : ls + 6 < 2 ^ 31) (h3 : col < ls) :
    ∃ t, Enc.apiEncode eimpl [.buffer d, .int ls, .int col] = .ret t ∧ Encoding d t :=
  ⟨_, C03_encode_reference he d ls col h1 h2 h3, Interop.encoding_encode _ _ _ _⟩

example := C101_encode .generic [65#8, 214#8] 128 3 (by decide) (by decide) (by decide)

/-- C101: the body of an article made by another encoder, received in any pieces with `decodeChunk` and `crc32`: exactly the data, its CRC-32 and the rest, if no line starts with `=y`. -/
theorem C101_received (hd : Dec.IsImpl dimpl) (hc : Crc.IsImpl cimpl) (d t : List Byte) (h : Encoding d t) (hk : NoHeaderLine t)
    (addr : Nat → Nat) (i a : Nat) (e u : List Byte) (hE : IsEnd e) (cs : List (List Byte)) (hl : ∀ c ∈ cs, c.length < 2 ^ 31) (hcs : cs.flatten = stuff t ++ e ++ u) :
    ∃ crc, apiCrc32 cimpl a [.buffer d] = .ret crc ∧ receive dimpl cimpl addr i cs [CR, LF] [0#8, 0#8, 0#8, 0#8] = .ret ⟨d, crc, true, e, u⟩ := by
  refine ⟨_, Crc.apiCrc32_nil hc.correct a d, ?_⟩
  have z : CrcBuf [0#8, 0#8, 0#8, 0#8] 0 := Crc.packCrc_buf 0
  have := receive_eq hd hc addr i cs hl .crlf _ _ z
  obtain ⟨p', q', r⟩ := Interop.run_encoding h CR LF hk
  have r0 : Dec.run .crlf (stuff t) = ⟨[], d, Interop.after p' q', .none⟩ := r
  have ra : ∀ l, Dec.run (Interop.after p' q') (CR :: LF :: l) = Dec.run .crlf l := by
    intro l
    rw [Interop.run_plain p' q' CR _ (by simp [CR, DOT]) (by decide) (fun _ => by decide)]
    simp [Dec.run_none_cons, Dec.stepNone, CR, EQ, Dec.run_cr_cons, LF, Dec.Res.pre]
  have r1 : Dec.run .crlf cs.flatten = (Dec.run (Interop.after p' q') (e ++ u)).pre d := by
    rw [hcs, List.append_assoc, Dec.run_append _ _ _ (by rw [r0]), r0]
  have r2 : (Dec.run (Interop.after p' q') (e ++ u)).out = [] ∧ (Dec.run (Interop.after p' q') (e ++ u)).ended ≠ .none ∧
      (Dec.run (Interop.after p' q') (e ++ u)).str = e ∧ (Dec.run (Interop.after p' q') (e ++ u)).rest = u := by
    rcases hE with rfl | rfl
    · rw [List.cons_append, List.cons_append, ra]
      simp [Dec.run, Dec.step, Dec.stepNone, Dec.Res.str, CR, LF, DOT, EQ, LY]
    · rw [List.cons_append, List.cons_append, ra]
      simp [Dec.run, Dec.step, Dec.stepNone, Dec.Res.str, CR, LF, DOT, EQ, LY]
  rw [r1] at this
  refine this.trans ?_
  obtain ⟨a1, a2, a3, a4⟩ := r2
  have a5 : ((Dec.run (Interop.after p' q') (e ++ u)).pre d).str = e := a3
  rw [a5]
  simp [Dec.Res.pre, a1, a2, a4]

/-- Non-vacuity: the example has no line that starts with `=y`, and its dots are doubled in an article. -/
example : ¬ [CR, LF, EQ, LY] <:+: [CR, LF] ++ (text "=" ++ [171#8] ++ text "\r\n\r\n." ++ [107#8, LF]) ∧
    stuff (text "=" ++ [171#8] ++ text "\r\n\r\n." ++ [107#8, LF]) = text "=" ++ [171#8] ++ text "\r\n\r\n.." ++ [107#8, LF] := by decide

/-- The condition is needed: an encoder that escapes the byte `0x0f` at the start of a line writes `=y`, and `decodeChunk` takes that for the end of the data. -/
theorem C101_keyword_false (hd : Dec.IsImpl dimpl) :
    Encoding [15#8] [EQ, LY] ∧ ∃ r, Js.decodeChunk dimpl [EQ, LY] .undef .undef = .ret r ∧ r.ended = true ∧ r.output = [] := by
  constructor
  · exact .esc 15#8 (by unfold Critical; decide) .nil
  · exact ⟨_, decodeChunk_fresh hd [EQ, LY] (by decide), by decide, by decide⟩

/-- C101: a post with any header whose data section is an encoding of `d`: whenever `from_post` succeeds, it returns `d`. -/
theorem C101_section (h : lib.IsLib) (data : List Byte) (p : Js.Post) (hp : fromPost lib env data false = .ret (.ok p)) (ds de : Nat) (h1 : p.dataStart = some ds) (h2 : p.dataEnd = some de)
    (d : List Byte) (he : Encoding d ((data.take de).drop ds)) : p.data = some d := by
  obtain ⟨-, -, k1, k2⟩ := C60_from_post_sound h data false p hp
  cases hd : p.data with
  | none => rw [(k2 hd).1] at h1; cases h1
  | some out =>
    obtain ⟨ds', de', crc, cbuf, e1, e2, -, -, -, e3, -⟩ := k1 out hd
    rw [h1] at e1; rw [h2] at e2
    cases e1; cases e2
    rcases e3 with e3 | e3
    · rw [e3]; simp [Spec.decode, Interop.yDecode_encoding he]
    · exact absurd e3.1 (by simp)

/-- C101: the same with dots doubled. -/
theorem C101_section_stuffed (h : lib.IsLib) (data : List Byte) (p : Js.Post) (hp : fromPost lib env data true = .ret (.ok p)) (ds de : Nat) (h1 : p.dataStart = some ds) (h2 : p.dataEnd = some de)
    (d t : List Byte) (he : Encoding d t) (ht : (data.take de).drop ds = stuff t) : p.data = some d := by
  obtain ⟨-, -, k1, k2⟩ := C60_from_post_sound h data true p hp
  cases hd : p.data with
  | none => rw [(k2 hd).1] at h1; cases h1
  | some out =>
    obtain ⟨ds', de', crc, cbuf, e1, e2, -, -, -, e3, -⟩ := k1 out hd
    rw [h1] at e1; rw [h2] at e2
    cases e1; cases e2
    rcases e3 with e3 | e3
    · rw [e3, ht]
      simp only [Spec.decode, if_true, Spec.unstuff, Spec.stuff]
      rw [Enc.unstuff_stuffAux, Interop.yDecode_encoding he]
    · obtain ⟨-, ⟨r, hr⟩, -⟩ := e3
      exact absurd (⟨r, [LF], by rw [show stuffAux CR LF t = stuff t from rfl, ← ht, ← hr]; simp⟩ : [EQ, CR] <:+: stuffAux CR LF t) (Interop.no_escaped_break he CR LF)

/-- C101: an article that another encoder made: a post in an article, with text before and after, dots doubled or not. If sizes and checksum are right there are no warnings. -/
theorem C101_article (h : lib.IsLib) (hl : env.Lawful) (name : Str) (hn : SafeName name) (ls : Nat) (h1 : 1 ≤ ls) (d t : List Byte) (he : Encoding d t) (hk : ¬ [EQ, LY] <+: t)
    (hs : d.length ≤ 2 ^ 53) (crc : BitVec 32) (hc : IsCrc32 0 d crc) (pre suf : List Byte) (hb : pre = [] ∨ text "\r\n" <:+ pre) (b1 : ¬ text "=ybegin " <+: pre) (b2 : ¬ text "\r\n=ybegin " <:+: pre)
    (hsuf : ¬ text "\r\n=yend " <:+: text "\r\n" ++ suf) :
    let article := pre ++ text ("=ybegin line=" ++ toString ls ++ " size=" ++ toString d.length ++ " name=") ++ utf8Encode name ++ text "\r\n" ++ t ++
      text ("\r\n=yend size=" ++ toString d.length ++ " crc32=" ++ hex8 crc ++ "\r\n") ++ suf
    (∃ p, fromPost lib env article false = .ret (.ok p) ∧ p.data = some d ∧ p.warnings = [] ∧ field p "begin" "name" = some name) ∧
    ∃ p, fromPost lib env (stuff article) true = .ret (.ok p) ∧ p.data = some d ∧ p.warnings = [] ∧ field p "begin" "name" = some name := by
  intro article
  obtain ⟨x, y, g1, g2, -, -⟩ := fromPost_single_body h hl name hn ls h1 d.length hs (Crc.crc1 0 d) t hk false d (C101_decode h.dec d t he)
  rw [checkData_single hl ls name d.length hs] at g1
  have ea : article = pre ++ singlePost ls d.length (fileName name) t (Crc.crc1 0 d) ++ text "\r\n" ++ suf := by
    rw [Crc.isCrc32_iff_eq] at hc
    simp only [article, singlePost, hc, fileName_eq name hn.noBreak hn.len, text_append, List.append_assoc]
  generalize singlePost ls d.length (fileName name) t (Crc.crc1 0 d) = post at *
  rw [ea]
  have e := C72_embedded h pre post suf false _ g1 rfl (by simp) hb b1 b2 hsuf
  have hy : y ≤ post.length := dataEnd_le h g1 rfl rfl
  obtain ⟨p', k1, k2⟩ := stuffed_ok h e rfl rfl (by
    rw [List.append_assoc _ (text "\r\n"), cut_inside pre post _ hy, g2]
    rintro ⟨r, hr⟩
    exact Interop.unstuffed he ⟨r, [LF], by rw [← hr]; simp⟩)
  refine ⟨⟨_, e, rfl, rfl, rfl⟩, p', k1, by rw [k2.data], by rw [k2.warnings]; rfl, ?_⟩
  simp only [field, k2.props]; rfl

example := C101_article genericLib_isLib natEnv_lawful (lit "n") ⟨by decide, by decide, by decide, by decide⟩ 128 (by decide) _ _ interop_example (by decide) (by decide) _ (Crc.isCrc32_iff_eq.2 rfl)
  (text ".x\r\n") (text "y") (by decide) (by decide) (by decide) (by decide)

/-- C101: the same for one part of a file in several posts, with or without the checksum of the whole file. -/
theorem C101_article_part (h : lib.IsLib) (hl : env.Lawful) (name : Str) (hn : SafeName name) (part total ls size pos : Nat) (h1 : 1 ≤ ls) (hp : 1 ≤ part) (ht : part ≤ total)
    (ht2 : total ≤ 2 ^ 53) (hs : size ≤ 2 ^ 53) (d t : List Byte) (hd : d ≠ []) (hpos : pos + d.length ≤ size) (he : Encoding d t) (hk : ¬ [EQ, LY] <+: t)
    (pcrc : BitVec 32) (hc : IsCrc32 0 d pcrc) (crc : Option (BitVec 32)) (pre suf : List Byte) (hb : pre = [] ∨ text "\r\n" <:+ pre) (b1 : ¬ text "=ybegin " <+: pre)
    (b2 : ¬ text "\r\n=ybegin " <:+: pre) (hsuf : ¬ text "\r\n=yend " <:+: text "\r\n" ++ suf) :
    let article := pre ++ partPost part total ls size (utf8Encode name) pos d.length t pcrc crc ++ text "\r\n" ++ suf
    let Good := fun p : Js.Post => p.data = some d ∧ p.warnings = [] ∧ field p "begin" "name" = some name ∧ field p "begin" "part" = some (lit (toString part)) ∧
      field p "part" "begin" = some (lit (toString (pos + 1))) ∧ field p "part" "end" = some (lit (toString (pos + d.length)))
    (∃ p, fromPost lib env article false = .ret (.ok p) ∧ Good p) ∧ ∃ p, fromPost lib env (stuff article) true = .ret (.ok p) ∧ Good p := by
  intro article Good
  have hd' : 1 ≤ d.length := List.length_pos_iff.mpr hd
  rw [Crc.isCrc32_iff_eq] at hc
  subst hc
  obtain ⟨x, y, g1, g2, -, -⟩ := fromPost_part_body h hl name hn part total ls size pos d.length h1 hp ht ht2 hs hd' hpos (Crc.crc1 0 d) crc t hk false d (C101_decode h.dec d t he)
  rw [checkData_multi part total ls size name (pos + 1) (pos + d.length) d.length hl (by omega)] at g1
  simp only [article]
  rw [← fileName_eq name hn.noBreak hn.len]
  generalize partPost part total ls size (fileName name) pos d.length t (Crc.crc1 0 d) crc = post at *
  have e := C72_embedded h pre post suf false _ g1 rfl (by simp) hb b1 b2 hsuf
  have hy : y ≤ post.length := dataEnd_le h g1 rfl rfl
  obtain ⟨p', k1, k2⟩ := stuffed_ok h e rfl rfl (by
    rw [List.append_assoc _ (text "\r\n"), cut_inside pre post _ hy, g2]
    rintro ⟨r, hr⟩
    exact Interop.unstuffed he ⟨r, [LF], by rw [← hr]; simp⟩)
  refine ⟨⟨_, e, rfl, rfl, rfl, by simp only [lit_toString]; rfl, by simp only [lit_toString]; rfl, by simp only [lit_toString]; rfl⟩, p', k1, by rw [k2.data], by rw [k2.warnings]; rfl, ?_, ?_, ?_, ?_⟩ <;>
    simp only [field, k2.props, lit_toString] <;> rfl

example := C101_article_part genericLib_isLib natEnv_lawful (lit "n") ⟨by decide, by decide, by decide, by decide⟩ 2 3 128 9 4 (by decide) (by decide) (by decide) (by decide) (by decide) _ _
  (by decide) (by decide) interop_example (by decide) _ (Crc.isCrc32_iff_eq.2 rfl) none (text ".x\r\n") (text "y") (by decide) (by decide) (by decide) (by decide)

end Yenc.Props
