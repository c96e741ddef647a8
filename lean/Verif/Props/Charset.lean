import Verif.Lemmas.JsCharset
import Verif.Props.Number
/-!
C93: `from_post` and the `encoding` property of the module.
-/
namespace Yenc.Props
open Spec Yenc.Js

variable {lib : Lib} {env : Env}

/-- C93: with the settings `utf8`, `latin1` and `ascii`, whatever the bytes, `from_post` returns: a result, or one of the three error codes. -/
theorem C93_total (h : lib.IsLib) (cs : Charset) (hc : cs = .utf8 ∨ cs = .latin1 ∨ cs = .ascii) (data : List Byte) (isRaw : Bool) :
    ∃ r, fromPostC lib env cs data isRaw = .ret r ∧
      ((∃ p, r = .ok p) ∨ r = .error "no_start_found" ∨ r = .error "no_end_found" ∨ r = .error "missing_required_properties") := by
  rw [fromPostC_eq hc]
  exact C46_from_post_total h (Charset.KeepsAscii.asciiPrefix hc) data isRaw

example := C93_total (env := natEnv) genericLib_isLib .latin1 (by simp) (text "=ybegin ") true

/-- C93: the results are those of the model of C45, C60-C65 with the text conversion of the setting. -/
theorem C93_same_function (cs : Charset) (hc : cs = .utf8 ∨ cs = .latin1 ∨ cs = .ascii) (data : List Byte) (isRaw : Bool) :
    fromPostC lib env cs data isRaw = fromPost lib { env with toStr := cs.toStr } data isRaw :=
  fromPostC_eq hc data isRaw

/-- C93: reading a post of the library with one of these settings gives the data and its checksum without further warnings; the name is what the setting makes of the
UTF-8 bytes, without white space at the end. -/
theorem C93_name (h : lib.IsLib) (hl : env.Lawful) (cs : Charset) (hc : cs = .utf8 ∨ cs = .latin1 ∨ cs = .ascii) (name : Str) (hu : ∀ u ∈ name, u < 65536)
    (hn : ¬ [13, 10] <:+: name) (ls parts : Nat) (h1 : 1 ≤ ls) (h2 : ls + 6 < 2 ^ 31) (hp : parts ≤ 1) (d : List Byte) (hs : d.length ≤ 2 ^ 53) (isRaw : Bool) :
    ∃ post p crc cbuf, ((multiPost name d.length parts ls).encode lib d).2 = .ret post ∧ fromPostC lib env cs post isRaw = .ret (.ok p) ∧
      IsCrc32 0 d crc ∧ CrcBuf cbuf crc ∧
      p.data = some d ∧ p.crc32 = some cbuf ∧ p.warnings = ["missing_yend_newline"] ∧ p.yencStart = 0 ∧ p.yencEnd = post.length ∧
      field p "begin" "name" = some (((cs.toStr (utf8Encode (name.take 256))).reverse.dropWhile isSpace).reverse) := by
  have e : fileName name = utf8Encode (name.take 256) := by rw [fileName, removeBad_eq name hn]
  obtain ⟨ds, de, g⟩ := fromPost_single_conv h hl cs.toStr (Charset.KeepsAscii.asciiPrefix hc) (Charset.KeepsAscii.nil hc) (fileName name)
    (fileName_no_crlf name hu hn) ls h1 d hs isRaw
  have g' := (fromPostC_eq (lib := lib) (env := env) hc _ isRaw).trans g
  refine ⟨_, _, Crc.crc1 0 d, Crc.packCrc (Crc.crc1 0 d), single_eq h name ls parts h1 h2 d hp, g', Crc.crc1_spec 0 d, Crc.packCrc_buf _, ?_⟩
  rw [← e]
  simp only [true_and, field]
  rfl

/-- C93: in particular names of ASCII characters that do not end in white space come back with each of these settings. -/
theorem C93_ascii_name (h : lib.IsLib) (hl : env.Lawful) (cs : Charset) (hc : cs = .utf8 ∨ cs = .latin1 ∨ cs = .ascii) (name : Str) (hu : ∀ u ∈ name, u < 128)
    (hlen : name.length ≤ 256) (hn : ¬ [13, 10] <:+: name) (hlast : ∀ c, name.getLast? = some c → isSpace c = false)
    (ls parts : Nat) (h1 : 1 ≤ ls) (h2 : ls + 6 < 2 ^ 31) (hp : parts ≤ 1) (d : List Byte) (hs : d.length ≤ 2 ^ 53) (isRaw : Bool) :
    ∃ post p, ((multiPost name d.length parts ls).encode lib d).2 = .ret post ∧ fromPostC lib env cs post isRaw = .ret (.ok p) ∧
      p.data = some d ∧ field p "begin" "name" = some name := by
  obtain ⟨post, p, _, _, g1, g2, _, _, g3, _, _, _, _, g4⟩ := C93_name h hl cs hc name (fun u hx => by have := hu u hx; omega) hn ls parts h1 h2 hp d hs isRaw
  refine ⟨post, p, g1, g2, g3, g4.trans ?_⟩
  have e1 : utf8Encode (name.take 256) = Js.ascii name := by
    rw [List.take_of_length_le hlen]
    clear g1 g2 g3 g4 hn hlast hlen
    have one : ∀ u, u < 128 → utf8Char (if isHigh u || isLow u then 0xFFFD else u) = [BitVec.ofNat 8 u] := by
      intro u h
      have : (isHigh u || isLow u) = false := by simp [isHigh, isLow]; omega
      rw [this, if_neg (by simp), utf8Char, if_pos h]
    fun_induction utf8Encode name with
    | case1 => rfl
    | case2 u => rw [one u (hu u (by simp))]; rfl
    | case3 u v r hc ih => have := hu u (by simp); simp [isHigh] at hc; omega
    | case4 u v r hc ih => rw [one u (hu u (by simp)), ih (fun x hx => hu x (by simp [hx]))]; rfl
  have e2 := Charset.KeepsAscii.asciiPrefix (env := env) hc name [] hu
  simp only [List.append_nil, Charset.KeepsAscii.nil hc] at e2
  rw [e1, e2]
  congr 1
  cases hr : name.reverse with
  | nil => rw [List.reverse_eq_nil_iff.1 hr]; rfl
  | cons a r =>
    have ha : isSpace a = false := hlast a (by rw [← List.head?_reverse, hr]; rfl)
    rw [List.dropWhile_cons, ha, if_neg (by simp), ← hr, List.reverse_reverse]

/-- Not so for other names: the name `à` is read as the one character `Ã` with `latin1` (its second byte is a no-break space there), as `C ` without its space with `ascii`. -/
theorem C93_name_false :
    (match ((multiPost [0xE0] 1 1 128).encode genericLib [65#8]).2.bind fun post => fromPostC genericLib natEnv .latin1 post false with
      | .ret (.ok p) => field p "begin" "name" | _ => none) = some [0xC3] ∧
    (match ((multiPost [0xE0] 1 1 128).encode genericLib [65#8]).2.bind fun post => fromPostC genericLib natEnv .ascii post false with
      | .ret (.ok p) => field p "begin" "name" | _ => none) = some [67] := by
  decide +kernel

/-- C93: with `utf16le`, `from_post` finds neither start nor end in data without null bytes, such as all posts of the library: it is not recognised as a post. -/
theorem C93_utf16 (data : List Byte) (hz : 0#8 ∉ data) (isRaw : Bool) :
    fromPostC lib env .utf16le data isRaw = .ret (.error (if data.take 8 = text "=ybegin " then "no_end_found" else "no_start_found")) := by
  have e1 : ∀ s, Charset.utf16le.indexOf data (lit "\r\n") s = none := fun s => indexOf_utf16_none (by decide) hz s
  have e2 : Charset.utf16le.indexOf data (lit "\r\n=ybegin ") 0 = none := indexOf_utf16_none (by decide) hz 0
  have e3 : ∀ n s, headerLoopC .utf16le data n s none [] = .noEnd := by intro n s; cases n <;> rfl
  by_cases h : data.take 8 = text "=ybegin "
  · have e4 : findStartC .utf16le data = some 0 := by rw [findStartC, ← text_lit, if_pos h]
    simp only [fromPostC, e4, e1, e3, layoutC, if_pos h]
  · have e4 : findStartC .utf16le data = none := by rw [findStartC, ← text_lit, if_neg h, e2]
    simp only [fromPostC, e4, if_neg h]

theorem utf8Char_no_nul (c : Nat) (h : c ≠ 0) (h2 : c < 0x110000) : 0#8 ∉ utf8Char c := by
  by_cases h128 : c < 128
  · rw [utf8Char, if_pos h128, List.mem_singleton]
    intro e
    have := congrArg BitVec.toNat e
    simp at this
    omega
  · intro hm
    have := utf8Char_high c (by omega) h2 _ hm
    simp at this

theorem utf8Encode_no_nul (s : Str) (hu : ∀ u ∈ s, u < 65536) (h : 0 ∉ s) : 0#8 ∉ utf8Encode s := by
  have one : ∀ u, u < 65536 → u ≠ 0 → 0#8 ∉ utf8Char (if isHigh u || isLow u then 0xFFFD else u) := by
    intro u h1 h2
    split
    · exact utf8Char_no_nul _ (by decide) (by decide)
    · exact utf8Char_no_nul _ h2 (by omega)
  fun_induction utf8Encode s with
  | case1 => simp
  | case2 u => exact one u (hu u (by simp)) (fun e => h (by simp [e]))
  | case3 u v r hc ih =>
    simp only [List.mem_append, not_or]
    simp only [isHigh, isLow, Bool.and_eq_true, decide_eq_true_eq] at hc
    exact ⟨utf8Char_no_nul _ (by omega) (by omega), ih (fun x hx => hu x (by simp [hx])) (fun hx => h (by simp [hx]))⟩
  | case4 u v r hc ih =>
    simp only [List.mem_append, not_or]
    exact ⟨one u (hu u (by simp)) (fun e => h (by simp [e])), ih (fun x hx => hu x (by simp [hx])) (fun hx => h (List.mem_cons_of_mem _ hx))⟩

theorem printable_no_nul {s : Str} (h : Printable s) : 0#8 ∉ Js.ascii s := by
  intro hm
  simp only [Js.ascii, List.mem_map] at hm
  obtain ⟨c, hc, he⟩ := hm
  have h1 := h c hc
  have := congrArg BitVec.toNat he
  simp at this
  omega

/-- C93: with `utf16le`, no single-part post of the library is recognised, if its name has no null character. -/
theorem C93_utf16_own (h : lib.IsLib) (name : Str) (hu : ∀ u ∈ name, u < 65536) (hn : ¬ [13, 10] <:+: name) (hz : 0 ∉ name) (ls parts : Nat) (h1 : 1 ≤ ls)
    (h2 : ls + 6 < 2 ^ 31) (hp : parts ≤ 1) (d : List Byte) (isRaw : Bool) :
    ∃ post, ((multiPost name d.length parts ls).encode lib d).2 = .ret post ∧ fromPostC lib env .utf16le post isRaw = .ret (.error "no_end_found") := by
  refine ⟨_, single_eq h name ls parts h1 h2 d hp, ?_⟩
  have e8 : Js.ascii (lit "=y" ++ (lit "begin" ++ 32 :: beginProps ls d.length [])) = text "=ybegin " ++ Js.ascii (beginProps ls d.length []) := by
    rw [text_lit, ← ascii_append]; rfl
  have pb : Printable (lit "=y" ++ (lit "begin" ++ 32 :: beginProps ls d.length [])) :=
    Printable.append (by unfold Printable; decide) (.append (by unfold Printable; decide) (.cons (by decide) (printable_beginProps _ _)))
  have t8 : (text "=ybegin ").length = 8 := by decide
  have sh := single_shape ls d.length (fileName name) (Spec.encode ls true 0 d) (Crc.crc1 0 d)
  rw [C93_utf16, if_pos]
  · rw [sh, e8]
    simp only [List.append_assoc]
    rw [List.take_append_of_le_length (by rw [t8]), List.take_of_length_le (by rw [t8])]
  · rw [sh]
    simp only [List.mem_append, not_or]
    refine ⟨⟨⟨⟨printable_no_nul pb, ?_⟩, by decide⟩, Enc.NUL_not_mem_encode _ _ _ _⟩, by decide, printable_no_nul (printable_endProps _ _)⟩
    rw [fileName, removeBad_eq name hn]
    exact utf8Encode_no_nul _ (fun u hx => hu u (List.mem_of_mem_take hx)) (fun hx => hz (List.mem_of_mem_take hx))

/-- C93 does not extend C46 to `utf16le`: there are data on which `from_post` throws a `TypeError`. -/
theorem C93_utf16_false : ∃ m, fromPostC genericLib natEnv .utf16le
    (text "=ybegin " ++ [13, 0, 10, 0] ++ Charset.utf16le.bytes (lit "\r\n=yend ")) false = .throw m := by
  refine ⟨"TypeError: Cannot read properties of undefined", ?_⟩
  decide +kernel

/-- C93: with `hex`, `from_post` throws a `TypeError` on every Buffer that is not empty, posts included. -/
theorem C93_hex (data : List Byte) (hd : data ≠ []) (isRaw : Bool) :
    fromPostC lib env .hex data isRaw = .throw "TypeError: Cannot read properties of undefined" := by
  have hlen := List.length_pos_iff.2 hd
  obtain ⟨s, hs⟩ : ∃ s, findStartC .hex data = some s := by
    unfold findStartC
    split
    · exact ⟨_, rfl⟩
    · exact ⟨_, rfl⟩
  obtain ⟨ls, ds, hl, hdig⟩ := headerLoopC_hex data data.length s (min (s + 8) data.length) [] (by omega) (by omega) (by omega) hlen (by simp)
  have key : ∃ l, layoutC .hex data (.dataAt ls ds) = some l ∧ l.props.own.lookup (lit "begin") = none ∧ l.props.proto = none := by
    refine ⟨_, rfl, ?_⟩
    obtain ⟨a, b⟩ := parseLines_digits ls hdig ⟨[], none⟩ [] rfl rfl
    exact parseLines_digits _ (by intro l h; rw [List.mem_singleton.1 h]; exact (hex_digits _).trim) _ _ a b
  obtain ⟨l, k1, k2, k3⟩ := key
  have k4 : l.props.get (lit "begin") = .undef := by simp [YData.get, k2, k3]
  simp only [fromPostC, hs, indexOf_hex_crlf, hl, k1, required, k4, Outcome.bind]

-- a post, and what the settings make of it
example : (match fromPostC genericLib natEnv .latin1 (text "=ybegin line=128 size=1 name=n\r\nk\r\n=yend size=1 crc32=d3d99e8b\r\n") false with
    | .ret (.ok p) => p.data | _ => none) = some [65#8] := by decide +kernel
example : fromPostC genericLib natEnv .utf16le (text "=ybegin line=128 size=1 name=n\r\nk\r\n=yend size=1 crc32=d3d99e8b\r\n") false =
    .ret (.error "no_end_found") := by decide +kernel
-- `C93_name` and `C93_ascii_name`: their hypotheses can be met
example : natEnv.Lawful ∧ (∀ u ∈ [0xE0], u < 65536) ∧ ¬ [13, 10] <:+: [0xE0] := ⟨natEnv_lawful, by decide, by decide⟩
example : (∀ u ∈ lit "a b", u < 128) ∧ ¬ [13, 10] <:+: lit "a b" ∧ ∀ c, (lit "a b").getLast? = some c → isSpace c = false := by decide

end Yenc.Props
