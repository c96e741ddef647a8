import Verif.Model.JsCharset
import Verif.Lemmas.JsTotal
/-! `from_post` with other values of `encoding`. -/
namespace Yenc.Js
open Yenc Spec

variable {env : Env} {lib : Lib}

/-- The settings that leave ASCII text as it is. -/
def Charset.KeepsAscii (cs : Charset) : Prop := cs = .utf8 ∨ cs = .latin1 ∨ cs = .ascii

theorem indexOf_crlf {cs : Charset} (h : cs.KeepsAscii) (data : List Byte) (start : Nat) : cs.indexOf data (lit "\r\n") start = findFrom crlf data start := by
  rcases h with rfl | rfl | rfl <;> rfl

theorem indexOf_begin {cs : Charset} (h : cs.KeepsAscii) (data : List Byte) :
    cs.indexOf data (lit "\r\n=ybegin ") 0 = find (Js.ascii (lit "\r\n=ybegin ")) data := by
  have e : ∀ o : Option Nat, (match o with | some i => some (0 + i) | none => none) = o := by
    intro o; cases o <;> simp
  have e2 : cs.indexOf data (lit "\r\n=ybegin ") 0 = findFrom (Js.ascii (lit "\r\n=ybegin ")) data 0 := by
    rcases h with rfl | rfl | rfl <;> rfl
  rw [e2, findFrom, List.drop_zero]
  exact e _

theorem lastIndexOf_end {cs : Charset} (h : cs.KeepsAscii) (data : List Byte) :
    cs.lastIndexOf data (lit "\r\n=yend ") = findRev (Js.ascii (lit "\r\n=yend ")) data := by
  rcases h with rfl | rfl | rfl <;> rfl

theorem headerLoopC_eq {cs : Charset} (h : cs.KeepsAscii) (data : List Byte) (n sp : Nat) (p : Option Nat) (lines : List Str) :
    headerLoopC cs data n sp p lines = headerLoop { env with toStr := cs.toStr } data n sp p lines := by
  induction n generalizing sp p lines with
  | zero => rfl
  | succ n ih =>
    cases p with
    | none => rfl
    | some p =>
      simp only [headerLoopC, headerLoop, ih, indexOf_crlf h]

theorem findStartC_eq {cs : Charset} (h : cs.KeepsAscii) (data : List Byte) : findStartC cs data = findStart data := by
  simp only [findStartC, findStart, indexOf_begin h]
  rfl

theorem layoutC_eq {cs : Charset} (h : cs.KeepsAscii) (data : List Byte) (x : Header) :
    layoutC cs data x = layout { env with toStr := cs.toStr } data x := by
  cases x with
  | noEnd => rfl
  | empty => rfl
  | dataAt lines ds => simp only [layoutC, layout, indexOf_crlf h, lastIndexOf_end h]; rfl

/-- With these settings `from_post` is the function of `Model/JsPost.lean`. -/
theorem fromPostC_eq {cs : Charset} (h : cs.KeepsAscii) (data : List Byte) (isRaw : Bool) :
    fromPostC lib env cs data isRaw = fromPost lib { env with toStr := cs.toStr } data isRaw := by
  simp only [fromPostC, fromPost, findStartC_eq h, headerLoopC_eq (env := env) h, layoutC_eq (env := env) h, indexOf_crlf h]
  rfl

theorem Charset.KeepsAscii.asciiPrefix {cs : Charset} (h : cs.KeepsAscii) : Env.AsciiPrefix { env with toStr := cs.toStr } := by
  intro s l hs
  show cs.toStr _ = s ++ cs.toStr l
  rcases h with rfl | rfl | rfl
  · exact utf8Decode_asciis s l hs
  · simp only [Charset.toStr, latin1Str, Js.ascii, List.map_append, List.map_map]
    congr 1
    conv_rhs => rw [← List.map_id s]
    refine List.map_congr_left fun c hc => ?_
    have := hs c hc
    simp; omega
  · simp only [Charset.toStr, asciiStr, Js.ascii, List.map_append, List.map_map]
    congr 1
    conv_rhs => rw [← List.map_id s]
    refine List.map_congr_left fun c hc => ?_
    have := hs c hc
    simp; omega

theorem Charset.KeepsAscii.nil {cs : Charset} (h : cs.KeepsAscii) : cs.toStr [] = [] := by
  rcases h with rfl | rfl | rfl
  · exact utf8Decode_nil
  · rfl
  · rfl

/-! ### Names -/

/-- White space at the end removed. -/
def trimEnd (s : Str) : Str := (s.reverse.dropWhile isSpace).reverse

theorem trimEnd_last (s : Str) : ∀ c, (trimEnd s).getLast? = some c → isSpace c = false := by
  intro c hc
  rw [trimEnd, List.getLast?_reverse] at hc
  generalize s.reverse = r at hc
  induction r with
  | nil => simp at hc
  | cons a r ih =>
    rw [List.dropWhile_cons] at hc
    split at hc
    · exact ih hc
    · rename_i h
      simp only [List.head?_cons, Option.some.injEq] at hc
      subst hc
      simpa using h

theorem begin_last' (ls size : Nat) (name : Str) (h : ∀ c, name.getLast? = some c → isSpace c = false) :
    ∀ c, (beginProps ls size name).getLast? = some c → isSpace c = false := by
  intro c hc
  unfold beginProps at hc
  rw [List.getLast?_append_of_ne_nil _ (by simp), getLast_skip _ _ _ (by simp), getLast_skip _ _ _ (by simp), getLast_skip _ _ _ (by simp),
    getLast_skip _ _ _ (by simp)] at hc
  cases name with
  | nil => simp at hc; subst hc; decide
  | cons x l => rw [List.getLast?_cons_cons] at hc; exact h c hc

/-- As `fromPost_single`, for any text conversion that keeps ASCII: what is read is the conversion of the bytes of the name, without white space at the end. -/
theorem fromPost_single_conv (h : lib.IsLib) (hl : env.Lawful) (t : List Byte → Str) (ht : Env.AsciiPrefix { env with toStr := t }) (ht0 : t [] = [])
    (nm : List Byte) (hn : ¬ [CR, LF] <:+: nm) (ls : Nat) (h1 : 1 ≤ ls) (d : List Byte) (hs : d.length ≤ 2 ^ 53) (isRaw : Bool) :
    ∃ ds de, fromPost lib { env with toStr := t } (singlePost ls d.length nm (Spec.encode ls true 0 d) (Crc.crc1 0 d)) isRaw =
      .ret (.ok ⟨0, some ds, some de, (singlePost ls d.length nm (Spec.encode ls true 0 d) (Crc.crc1 0 d)).length,
        singleProps ls (trimEnd (t nm)) d.length (hex (Crc.packCrc (Crc.crc1 0 d))), some d, some (Crc.packCrc (Crc.crc1 0 d)), ["missing_yend_newline"]⟩) := by
  have ta : ∀ s : Str, (∀ c ∈ s, c < 128) → t (Js.ascii s) = s := by
    intro s hs
    have := ht s [] hs
    simp only [List.append_nil, ht0] at this
    exact this
  have e8 : Js.ascii (lit "=y" ++ (lit "begin" ++ 32 :: beginProps ls d.length [])) = text "=ybegin " ++ Js.ascii (beginProps ls d.length []) := by
    rw [text_lit, ← ascii_append]; rfl
  have pr : Printable (lit "=y" ++ (lit "begin" ++ 32 :: beginProps ls d.length [])) :=
    Printable.append (by unfold Printable; decide) (.append (by unfold Printable; decide) (.cons (by decide) (printable_beginProps _ _)))
  have l1 : trim (t (text "=ybegin " ++ (Js.ascii (beginProps ls d.length []) ++ nm))) =
      lit "=y" ++ (lit "begin" ++ 32 :: beginProps ls d.length (trimEnd (t nm))) := by
    rw [← List.append_assoc, ← e8]
    have := ht _ nm pr.lt
    simp only at this
    rw [this]
    have e9 : (lit "=y" ++ (lit "begin" ++ 32 :: beginProps ls d.length []) ++ t nm).dropWhile isSpace =
        lit "=y" ++ (lit "begin" ++ 32 :: beginProps ls d.length []) ++ t nm := by
      rw [show lit "=y" = [61, 121] by decide]; rfl
    rw [trim, e9, rev_dropWhile_append _ _ ?_]
    · rw [beginProps_name ls d.length (trimEnd (t nm))]; simp [trimEnd]
    · intro c hc
      rw [List.getLast?_append_of_ne_nil _ (by simp), List.getLast?_append_of_ne_nil _ (by simp)] at hc
      have h2 := begin_last' ls d.length [] (by simp)
      apply h2
      rw [← hc]
      have hne : beginProps ls d.length [] ≠ [] := by simp [beginProps]
      cases hb : beginProps ls d.length [] with
      | nil => exact absurd hb hne
      | cons a b => rw [List.getLast?_cons_cons]
  generalize hcr : Crc.packCrc (Crc.crc1 0 d) = c
  have hc4 : c.length = 4 := by rw [← hcr]; rfl
  have l2 : trim (t (text "=yend " ++ Js.ascii (endProps d.length (hex c)))) = lit "=y" ++ (lit "end" ++ 32 :: endProps d.length (hex c)) := by
    have e6 : text "=yend " ++ Js.ascii (endProps d.length (hex c)) = Js.ascii (lit "=y" ++ (lit "end" ++ 32 :: endProps d.length (hex c))) := by
      rw [text_lit, ← ascii_append]; rfl
    rw [e6, ta _ (Printable.append (by unfold Printable; decide) (.append (by unfold Printable; decide) (.cons (by decide) (printable_endProps _ _)))).lt]
    apply trim_line
    · simp [endProps]
    · exact end_last _ _ hc4
  have g := fromPost_one (lib := lib) (env := { env with toStr := t }) (Js.ascii (beginProps ls d.length []) ++ nm) (Spec.encode ls true 0 d)
    (Js.ascii (endProps d.length (hex c))) isRaw
    (no_crlf_append _ _ (printable_beginProps _ _).no_cr hn) (printable_endProps _ _).no_cr
    (by simp only [l1]; intro hh; exact absurd (hh.symm.trans (show _ = lit "=ybegi" from rfl)) (by decide))
    (by rw [show text "\r\n=yend " = CR :: LF :: text "=yend " from by decide]; exact (noKeyword_encode ls h1 d).cr _)
  simp only at g
  have sh := single_shape ls d.length nm (Spec.encode ls true 0 d) (Crc.crc1 0 d)
  rw [hcr, e8] at sh
  rw [List.append_assoc (text "=ybegin ")] at sh
  rw [← sh, l1, l2] at g
  generalize hp : singlePost ls d.length nm (Spec.encode ls true 0 d) (Crc.crc1 0 d) = post at g sh ⊢
  have pl : parseLines [lit "=y" ++ (lit "begin" ++ 32 :: beginProps ls d.length (trimEnd (t nm)))] ⟨[], none⟩ [] =
      (⟨[(lit "begin", beginRec ls d.length (trimEnd (t nm)))], none⟩, []) := by
    simp only [parseLines]
    rw [parseLine_eq (lit "begin") (beginProps ls d.length (trimEnd (t nm))) (by decide) (head_key (lit "line") _ (by decide))
      (begin_last' ls _ _ (trimEnd_last _)) _ _ _ (parse_begin ls d.length _ []) (by decide)]
    rfl
  have pe : parseLine (lit "=y" ++ (lit "end" ++ 32 :: endProps d.length (hex c))) ⟨[(lit "begin", beginRec ls d.length (trimEnd (t nm)))], none⟩ [] =
      (singleProps ls (trimEnd (t nm)) d.length (hex c), []) := by
    rw [parseLine_eq (lit "end") (endProps d.length (hex c)) (by decide) (head_key (lit "size") _ (by decide)) ?_ _ _ _ (parse_end d.length _ (hex_no_space _) []) (by rfl)]
    · rfl
    · exact end_last _ _ hc4
  rw [pl] at g
  simp only [pe, required_single, Outcome.bind] at g
  have ex : ((post.take (text "=ybegin " ++ (Js.ascii (beginProps ls d.length []) ++ nm) ++ [CR, LF] ++ Spec.encode ls true 0 d).length).drop
      (text "=ybegin " ++ (Js.ascii (beginProps ls d.length []) ++ nm) ++ [CR, LF]).length) = Spec.encode ls true 0 d := by
    rw [sh, List.take_left' rfl, List.drop_left' rfl]
  refine ⟨(text "=ybegin " ++ (Js.ascii (beginProps ls d.length []) ++ nm) ++ [CR, LF]).length,
    (text "=ybegin " ++ (Js.ascii (beginProps ls d.length []) ++ nm) ++ [CR, LF] ++ Spec.encode ls true 0 d).length, ?_⟩
  rw [g]
  simp only [conclude, ex, decode_body h ls h1 d isRaw, Outcome.bind, crc32_eq h, hcr]
  have k1 : checkProps { env with toStr := t } (singleProps ls (trimEnd (t nm)) d.length (hex c)) (dec d.length) ["missing_yend_newline"] = ["missing_yend_newline"] :=
    checkProps_single hl ls h1 (trimEnd (t nm)) d.length hs c hc4 _
  have k2 := checkData_single hl ls (trimEnd (t nm)) d.length hs c ["missing_yend_newline"]
  simp only [List.nil_append, List.append_nil, k1]
  exact congrArg (fun w => Outcome.ret (FromPost.ok (Post.mk 0 _ _ _ _ _ _ w))) k2

/-! ### UTF-16 -/

theorem utf16Str_mem {c : Nat} (hc : c < 256) : ∀ {b : List Byte}, c ∈ utf16Str b → 0#8 ∈ b
  | a :: b :: l, h => by
    rw [utf16Str, List.mem_cons] at h
    rcases h with h | h
    · have hb : b = 0#8 := by
        apply BitVec.eq_of_toNat_eq
        have := b.isLt
        simp only [BitVec.toNat_ofNat]
        omega
      subst hb; simp
    · have := utf16Str_mem hc h
      simp [this]
  | [], h => by simp [utf16Str] at h
  | [_], h => by simp [utf16Str] at h

theorem findU_mem {c : Nat} {pat : Str} : ∀ {l : Str} {i : Nat}, findU (c :: pat) l = some i → c ∈ l
  | [], i, h => by simp [findU] at h
  | a :: l, i, h => by
    simp only [findU] at h
    split at h
    · rename_i hp
      simp only [List.isPrefixOf, Bool.and_eq_true, beq_iff_eq] at hp
      rw [hp.1]; simp
    · cases hf : findU (c :: pat) l with
      | none => rw [hf] at h; simp at h
      | some j => exact List.mem_cons_of_mem _ (findU_mem hf)

theorem indexOf_utf16_none {c : Nat} {s : Str} (hc : c < 256) {data : List Byte} (h : 0#8 ∉ data) (start : Nat) :
    Charset.utf16le.indexOf data (c :: s) start = none := by
  unfold Charset.indexOf
  simp only
  split
  · rfl
  · cases hf : findU (c :: s) ((utf16Str data).drop (start / 2)) with
    | none => rfl
    | some i => exact absurd (utf16Str_mem hc (List.mem_of_mem_drop (findU_mem hf))) h

/-! ### Hexadecimal text -/

/-- Text of hexadecimal digits. -/
def Digits (s : Str) : Prop := ∀ c ∈ s, (48 ≤ c ∧ c ≤ 57) ∨ (97 ≤ c ∧ c ≤ 102)

theorem hexDigit_digit (n : Nat) (h : n < 16) : (48 ≤ hexDigit n ∧ hexDigit n ≤ 57) ∨ (97 ≤ hexDigit n ∧ hexDigit n ≤ 102) := by
  unfold hexDigit; split <;> omega

theorem hex_digits (b : List Byte) : Digits (hex b) := by
  intro c hc
  simp only [hex, List.mem_flatMap, List.mem_cons, List.not_mem_nil, or_false] at hc
  obtain ⟨x, _, h⟩ := hc
  have := x.isLt
  rcases h with rfl | rfl
  · exact hexDigit_digit _ (by omega)
  · exact hexDigit_digit _ (by omega)

theorem Digits.trim {s : Str} (h : Digits s) : Digits (trim s) := by
  intro c hc
  apply h
  rw [Js.trim, List.mem_reverse] at hc
  have h1 := (List.dropWhile_sublist _).subset hc
  rw [List.mem_reverse] at h1
  exact (List.dropWhile_sublist _).subset h1

theorem Digits.tag {s : Str} (h : Digits s) : Digits (lineTag s) := by
  intro c hc
  exact h c (List.mem_of_mem_drop ((List.takeWhile_sublist _).subset hc))

theorem Digits.ne_begin {s : Str} (h : Digits s) : s ≠ lit "begin" := by
  rintro rfl
  have := h 103 (by decide)
  omega

theorem Digits.ne_proto {s : Str} (h : Digits s) : s ≠ lit "__proto__" := by
  rintro rfl
  have := h 95 (by decide)
  omega

theorem Digits.not_end {s : Str} (h : Digits s) : s.take 6 ≠ lit "=yend " := by
  intro e
  have := h 61 (List.mem_of_mem_take (i := 6) (by rw [e]; decide))
  omega

/-- Lines of digits leave no begin record. -/
theorem parseLines_digits (ls : List Str) (hl : ∀ l ∈ ls, Digits l) (y : YData) (ws : List String) (hy : y.own.lookup (lit "begin") = none) (hp : y.proto = none) :
    (parseLines ls y ws).1.own.lookup (lit "begin") = none ∧ (parseLines ls y ws).1.proto = none := by
  induction ls generalizing y ws with
  | nil => exact ⟨hy, hp⟩
  | cons l ls ih =>
    have hd := (hl l (by simp)).tag
    refine ih (fun a ha => hl a (by simp [ha])) _ _ ?_ ?_
    · show (YData.set y (lineTag l) _).own.lookup _ = none
      rw [YData.set, if_neg hd.ne_proto]
      have : (lit "begin" == lineTag l) = false := by simpa using hd.ne_begin.symm
      simp only [List.lookup_cons, this]
      rw [lookup_filter_ne _ _ hd.ne_begin.symm]
      exact hy
    · show (YData.set y (lineTag l) _).proto = none
      rw [YData.set, if_neg hd.ne_proto]
      exact hp

theorem indexOf_hex_crlf (data : List Byte) (start : Nat) : Charset.hex.indexOf data (lit "\r\n") start = some (min start data.length) := rfl

theorem headerLoopC_hex (data : List Byte) (n sp p : Nat) (lines : List Str) (h0 : 0 < p) (h1 : p ≤ data.length) (h2 : data.length ≤ n + p) (h3 : 0 < n)
    (hl : ∀ l ∈ lines, Digits l) : ∃ ls ds, headerLoopC .hex data n sp (some p) lines = .dataAt ls ds ∧ ∀ l ∈ ls, Digits l := by
  induction n generalizing sp p lines with
  | zero => omega
  | succ n ih =>
    have hd : Digits (trim (Charset.hex.toStr ((data.take p).drop sp))) := (hex_digits _).trim
    have hl' : ∀ l ∈ lines ++ [trim (Charset.hex.toStr ((data.take p).drop sp))], Digits l := by
      intro l h
      rcases List.mem_append.1 h with h | h
      · exact hl l h
      · rw [List.mem_singleton.1 h]; exact hd
    simp only [headerLoopC, if_neg (show ¬ p = 0 by omega), if_neg hd.not_end]
    by_cases hc : data[p + 2]? ≠ some EQ ∨ data[p + 3]? ≠ some LY
    · rw [if_pos hc]; exact ⟨_, _, rfl, hl'⟩
    · rw [if_neg hc]
      simp only [ne_eq, not_or, not_not] at hc
      obtain ⟨q, _⟩ := List.getElem?_eq_some_iff.1 hc.2
      rw [indexOf_hex_crlf, Nat.min_eq_left (by omega)]
      exact ih _ _ _ (by omega) (by omega) (by omega) (by omega) hl'

end Yenc.Js
