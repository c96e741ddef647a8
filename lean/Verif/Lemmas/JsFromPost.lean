import Verif.Lemmas.JsEnc
import Verif.Props.Encode
import Verif.Lemmas.JsParse
/-! `from_post` applied to the output of the encoder. -/
namespace Yenc.Js
open Yenc Spec

/-- What is assumed about text conversion and Numbers: UTF-8, and exact integers up to `2^53`. -/
structure Env.Lawful (env : Env) : Prop where
  utf8 : env.toStr = utf8Decode
  num : ∀ n, n ≤ 2 ^ 53 → env.num (dec n) = env.ofNat n
  lt : ∀ a b, a ≤ 2 ^ 53 → b ≤ 2 ^ 53 → env.lt (env.ofNat a) (env.ofNat b) = decide (a < b)
  ne : ∀ a b, a ≤ 2 ^ 53 → b ≤ 2 ^ 53 → env.ne (env.ofNat a) (env.ofNat b) = decide (a ≠ b)
  range : ∀ b e, b ≤ e → e ≤ 2 ^ 53 → env.range (env.ofNat b) (env.ofNat e) = env.ofNat (e + 1 - b)

variable {env : Env} {lib : Lib}

/-! ### The lines -/

theorem headerLoop_data (data L : List Byte) (n sp p : Nat) (lines : List Str) (hp : p ≠ 0) (hL : (data.take p).drop sp = L)
    (h1 : (trim (env.toStr L)).take 6 ≠ lit "=yend ") (h2 : ¬ [EQ, LY] <+: data.drop (p + 2)) :
    headerLoop env data (n + 1) sp (some p) lines = .dataAt (lines ++ [trim (env.toStr L)]) (p + 2) := by
  have h3 : data[p + 2]? ≠ some EQ ∨ data[p + 3]? ≠ some LY := by
    by_contra hc
    simp only [ne_eq, not_or, not_not] at hc
    apply h2
    refine ⟨data.drop (p + 4), ?_⟩
    obtain ⟨q1, q2⟩ := List.getElem?_eq_some_iff.1 hc.1
    obtain ⟨q3, q4⟩ := List.getElem?_eq_some_iff.1 hc.2
    rw [List.drop_eq_getElem_cons q1, List.drop_eq_getElem_cons q3, q2, q4]; rfl
  simp only [headerLoop, if_neg hp, hL, if_neg h1, if_pos h3]

theorem headerLoop_next (data L : List Byte) (n sp p : Nat) (lines : List Str) (hp : p ≠ 0) (hL : (data.take p).drop sp = L)
    (h1 : (trim (env.toStr L)).take 6 ≠ lit "=yend ") (h2 : [EQ, LY] <+: data.drop (p + 2)) :
    headerLoop env data (n + 1) sp (some p) lines =
      headerLoop env data n (p + 2) (findFrom crlf data (p + 2)) (lines ++ [trim (env.toStr L)]) := by
  have h3 : ¬ (data[p + 2]? ≠ some EQ ∨ data[p + 3]? ≠ some LY) := by
    obtain ⟨t, ht⟩ := h2
    have a := congrArg (fun x => x[0]?) ht
    have b := congrArg (fun x => x[1]?) ht
    simp only [List.getElem?_drop] at a b
    simp only [ne_eq, not_or, not_not, Nat.add_zero] at a b ⊢
    exact ⟨a.symm, b.symm⟩
  simp only [headerLoop, if_neg hp, hL, if_neg h1, if_neg h3]

/-- Where the end of a post is found. -/
theorem layout_eq (H body tail : List Byte) (lines : List Str) (ht : CR ∉ tail) :
    layout env (H ++ body ++ (text "\r\n=yend " ++ tail)) (.dataAt lines H.length) =
      some ⟨some H.length, some (H ++ body).length, (H ++ body ++ (text "\r\n=yend " ++ tail)).length,
        (parseLine (trim (env.toStr (text "=yend " ++ tail))) (parseLines lines ⟨[], none⟩ []).1 []).1,
        (parseLines lines ⟨[], none⟩ []).2 ++ ["missing_yend_newline"] ++
          (parseLine (trim (env.toStr (text "=yend " ++ tail))) (parseLines lines ⟨[], none⟩ []).1 []).2⟩ := by
  have t8 : (text "\r\n=yend ").length = 8 := by decide
  have e8 : text "\r\n=yend " = CR :: LF :: text "=yend " := by decide
  have d0 : (H ++ body ++ (text "\r\n=yend " ++ tail)).drop H.length = body ++ (text "\r\n=yend " ++ tail) := by simp
  have hcr : ∀ i, 0 < i → ∀ l, (text "\r\n=yend " ++ tail).drop i ≠ CR :: l := by
    intro i hi l hl
    have hm : CR ∈ (text "\r\n=yend " ++ tail).drop i := by rw [hl]; simp
    obtain ⟨j, rfl⟩ : ∃ j, i = j + 1 := ⟨i - 1, by omega⟩
    have : CR ∈ LF :: text "=yend " ++ tail := List.mem_of_mem_drop (by rw [e8] at hm; exact hm)
    rw [List.cons_append, List.mem_cons, List.mem_append] at this
    rcases this with h | h | h
    · exact absurd h (by decide)
    · exact absurd h (by decide)
    · exact ht h
  have r1 : findRev (text "\r\n=yend ") (body ++ (text "\r\n=yend " ++ tail)) = some body.length := by
    refine findRev_eq (by simp [t8]) (by simp) ?_
    rintro i h1 h2 ⟨s, hs⟩
    rw [List.drop_append, List.drop_of_length_le (by omega), List.nil_append] at hs
    exact hcr (i - body.length) (by omega) _ (by rw [← hs, e8]; rfl)
  have r2 : findFrom crlf (H ++ body ++ (text "\r\n=yend " ++ tail)) (H.length + body.length + 8) = none := by
    have : (H ++ body ++ (text "\r\n=yend " ++ tail)).drop (H.length + body.length + 8) = tail := by
      rw [← List.append_assoc, List.drop_append, List.drop_of_length_le (by simp [t8]; omega)]
      simp only [List.length_append, t8, List.nil_append]
      rw [show H.length + body.length + 8 - (H.length + body.length + 8) = 0 by omega]; rfl
    rw [findFrom, this, find_none]
    rintro i hi ⟨s, hs⟩
    have hm : CR ∈ tail.drop i := by rw [← hs]; simp [crlf]
    exact ht (List.mem_of_mem_drop hm)
  have r3 : ((H ++ body ++ (text "\r\n=yend " ++ tail)).take (H ++ body ++ (text "\r\n=yend " ++ tail)).length).drop (H.length + body.length + 2) =
      text "=yend " ++ tail := by
    rw [List.take_length, List.drop_append, List.drop_of_length_le (by simp)]
    rw [List.length_append, show H.length + body.length + 2 - (H.length + body.length) = 2 by omega, e8]
    rfl
  have e : ascii (lit "\r\n=yend ") = text "\r\n=yend " := (text_lit _).symm
  simp only [layout, d0, e, r1, r2, r3, parseLines, if_true]
  rw [List.length_append (as := H)]

/-- The `=ybegin` line of a single-part post, from the first property on. -/
def beginProps (ls size : Nat) (name : Str) : Str :=
  lit "line" ++ 61 :: (dec ls ++ 32 :: (lit "size" ++ 61 :: (dec size ++ 32 :: (lit "name" ++ 61 :: name))))

/-- The `=ybegin` line of a part. -/
def beginPartProps (part total ls size : Nat) (name : Str) : Str :=
  lit "part" ++ 61 :: (dec part ++ 32 :: (lit "total" ++ 61 :: (dec total ++ 32 :: beginProps ls size name)))

/-- The `=ypart` line. -/
def partProps (b e : Nat) : Str := lit "begin" ++ 61 :: (dec b ++ 32 :: (lit "end" ++ 61 :: dec e))

/-- The `=yend` line of a single-part post. -/
def endProps (size : Nat) (crc : Str) : Str := lit "size" ++ 61 :: (dec size ++ 32 :: (lit "crc32" ++ 61 :: crc))

/-- The `=yend` line of a part; `crc` is empty or ` crc32=...`. -/
def endPartProps (size part : Nat) (pcrc : Str) (crc : Option Str) : Str :=
  lit "size" ++ 61 :: (dec size ++ 32 :: (lit "part" ++ 61 :: (dec part ++ 32 :: (lit "pcrc32" ++ 61 :: (pcrc ++
    match crc with | some c => 32 :: (lit "crc32" ++ 61 :: c) | none => [])))))

def beginRec (ls size : Nat) (name : Str) : Props := ⟨[(lit "name", name), (lit "size", dec size), (lit "line", dec ls)]⟩
def beginPartRec (part total ls size : Nat) (name : Str) : Props :=
  ⟨[(lit "name", name), (lit "size", dec size), (lit "line", dec ls), (lit "total", dec total), (lit "part", dec part)]⟩
def partRec (b e : Nat) : Props := ⟨[(lit "end", dec e), (lit "begin", dec b)]⟩
def endRec (size : Nat) (crc : Str) : Props := ⟨[(lit "crc32", crc), (lit "size", dec size)]⟩
def endPartRec (size part : Nat) (pcrc : Str) (crc : Option Str) : Props :=
  ⟨(match crc with | some c => [(lit "crc32", c)] | none => []) ++ [(lit "pcrc32", pcrc), (lit "part", dec part), (lit "size", dec size)]⟩

theorem parse_begin (ls size : Nat) (name : Str) (ws : List String) :
    parseProps (lit "begin") (beginProps ls size name) ⟨[]⟩ ws = (beginRec ls size name, ws) := by
  rw [beginProps, parseProps_cons _ _ _ _ _ _ (by decide) (dec_no_space _) (by decide) (by decide),
    parseProps_cons _ _ _ _ _ _ (by decide) (dec_no_space _) (by decide) (by rfl), parseProps_name _ _ _ (by rfl)]
  rfl

theorem parse_beginPart (part total ls size : Nat) (name : Str) (ws : List String) :
    parseProps (lit "begin") (beginPartProps part total ls size name) ⟨[]⟩ ws = (beginPartRec part total ls size name, ws) := by
  rw [beginPartProps, parseProps_cons _ _ _ _ _ _ (by decide) (dec_no_space _) (by decide) (by decide),
    parseProps_cons _ _ _ _ _ _ (by decide) (dec_no_space _) (by decide) (by rfl), beginProps,
    parseProps_cons _ _ _ _ _ _ (by decide) (dec_no_space _) (by decide) (by rfl),
    parseProps_cons _ _ _ _ _ _ (by decide) (dec_no_space _) (by decide) (by rfl), parseProps_name _ _ _ (by rfl)]
  rfl

theorem parse_part (b e : Nat) (ws : List String) : parseProps (lit "part") (partProps b e) ⟨[]⟩ ws = (partRec b e, ws) := by
  rw [partProps, parseProps_cons _ _ _ _ _ _ (by decide) (dec_no_space _) (by decide) (by decide),
    parseProps_last _ _ _ _ _ (by decide) (dec_no_space _) (by decide) (by rfl)]
  rfl

theorem parse_end (size : Nat) (crc : Str) (hc : 32 ∉ crc) (ws : List String) :
    parseProps (lit "end") (endProps size crc) ⟨[]⟩ ws = (endRec size crc, ws) := by
  rw [endProps, parseProps_cons _ _ _ _ _ _ (by decide) (dec_no_space _) (by decide) (by decide),
    parseProps_last _ _ _ _ _ (by decide) hc (by decide) (by rfl)]
  rfl

theorem parse_endPart (size part : Nat) (pcrc : Str) (crc : Option Str) (hp : 32 ∉ pcrc) (hc : ∀ c, crc = some c → 32 ∉ c) (ws : List String) :
    parseProps (lit "end") (endPartProps size part pcrc crc) ⟨[]⟩ ws = (endPartRec size part pcrc crc, ws) := by
  rw [endPartProps.eq_def, parseProps_cons _ _ _ _ _ _ (by decide) (dec_no_space _) (by decide) (by decide),
    parseProps_cons _ _ _ _ _ _ (by decide) (dec_no_space _) (by decide) (by rfl)]
  cases crc with
  | none =>
    simp only [List.append_nil]
    rw [parseProps_last _ _ _ _ _ (by decide) hp (by decide) (by rfl)]
    rfl
  | some c =>
    simp only
    rw [parseProps_cons _ _ _ _ _ _ (by decide) hp (by decide) (by rfl), parseProps_last _ _ _ _ _ (by decide) (hc c rfl) (by decide) (by rfl)]
    rfl

theorem parseLine_eq (t R : Str) (ht : 32 ∉ t) (h1 : ∀ c, R.head? = some c → isSpace c = false) (h2 : ∀ c, R.getLast? = some c → isSpace c = false)
    (y : YData) (p : Props) (ws : List String) (hp : parseProps t R ⟨[]⟩ ws = (p, ws)) (hy : y.has t = false) :
    parseLine (lit "=y" ++ (t ++ 32 :: R)) y ws = (y.set t p, ws) := by
  simp only [parseLine, lineTag_eq t R ht, lineRest_eq t R ht h1 h2, hp, hy]
  rfl

theorem trim_line (t R : Str) (hR : R ≠ []) (h2 : ∀ c, R.getLast? = some c → isSpace c = false) :
    trim (lit "=y" ++ (t ++ 32 :: R)) = lit "=y" ++ (t ++ 32 :: R) := by
  apply trim_eq
  · intro c hc
    have : (lit "=y" ++ (t ++ 32 :: R)).head? = some 61 := rfl
    rw [this] at hc
    injection hc with hc; subst hc; decide
  · intro c hc
    apply h2
    rw [← hc, List.getLast?_append_of_ne_nil _ (by simp), List.getLast?_append_of_ne_nil _ (by simp)]
    cases R with
    | nil => exact absurd rfl hR
    | cons a R => rw [List.getLast?_cons_cons]

theorem getLast_cons_dec (a : Nat) (n : Nat) : ∀ c, (a :: dec n).getLast? = some c → isSpace c = false := by
  intro c hc
  have h := dec_ne_nil n
  cases hd : dec n with
  | nil => exact absurd hd h
  | cons x l =>
    rw [hd, List.getLast?_cons_cons, ← hd] at hc
    have := dec_digits n c (List.mem_of_getLast? hc)
    simp [isSpace]; omega

theorem getLast_cons_hex (a : Nat) (b : List Byte) (hb : b ≠ []) : ∀ c, (a :: hex b).getLast? = some c → isSpace c = false := by
  intro c hc
  have h : hex b ≠ [] := by
    intro h0
    have := hex_length b
    rw [h0] at this
    cases b <;> simp at this hb
  cases hd : hex b with
  | nil => exact absurd hd h
  | cons x l =>
    rw [hd, List.getLast?_cons_cons, ← hd] at hc
    have := hex_range b c (List.mem_of_getLast? hc)
    simp [isSpace]; omega

/-- A file name that survives the trip. -/
structure SafeName (name : Str) : Prop where
  len : name.length ≤ 256
  noBreak : ¬ [13, 10] <:+: name
  wf : wellFormed name = true
  last : ∀ c, name.getLast? = some c → isSpace c = false

theorem getLast_name (a : Nat) (name : Str) (h : SafeName name) (ha : isSpace a = false) : ∀ c, (a :: name).getLast? = some c → isSpace c = false := by
  intro c hc
  cases name with
  | nil => simp at hc; exact hc ▸ ha
  | cons x l => rw [List.getLast?_cons_cons] at hc; exact h.last c hc

theorem toStr_name (hl : env.Lawful) (s name : Str) (hs : ∀ c ∈ s, c < 128) (h : SafeName name) :
    env.toStr (ascii s ++ fileName name) = s ++ name := by
  rw [hl.utf8, fileName_eq name h.noBreak h.len, utf8Decode_asciis _ _ hs]
  have := utf8Decode_encode name [] h.wf
  rw [List.append_nil] at this
  rw [this, utf8Decode_nil, List.append_nil]

theorem toStr_ascii (hl : env.Lawful) (s : Str) (hs : ∀ c ∈ s, c < 128) : env.toStr (ascii s) = s := by
  have := utf8Decode_asciis s [] hs
  rw [List.append_nil] at this
  rw [hl.utf8, this, utf8Decode_nil, List.append_nil]

/-! ### Checks -/

theorem checkNumber_dec (r : Rec) (key : String) (n : Nat) (ws : List String) (h : r.get (lit key) = some (dec n)) (hn : n ≠ 0 ∨ key = "size") :
    checkNumber r key ws = ws := by
  unfold checkNumber
  rw [h]
  have h1 := isNumber_dec n
  have h2 := dec_ne_nil n
  have h3 : dec n = [48] → n = 0 := fun h => by by_contra hc; exact dec_ne_zero hc h
  cases hd : dec n with
  | nil => exact absurd hd h2
  | cons a l =>
    rw [hd] at h1 h3
    have : ¬ (a :: l = [48] ∧ key ≠ "size") := by
      rintro ⟨h4, h5⟩
      exact hn.elim (fun h6 => h6 (h3 h4)) h5
    simp only [h1, if_neg this]
    rfl

theorem checkNumber_none (r : Rec) (key : String) (ws : List String) (h : r.get (lit key) = none) : checkNumber r key ws = ws := by
  unfold checkNumber; rw [h]

theorem truthy_dec (n : Nat) : truthy (some (dec n)) = true := by
  have := dec_ne_nil n
  cases h : dec n with
  | nil => exact absurd h this
  | cons a l => rfl

theorem checkHex_hex (e : Rec) (prop : String) (b : List Byte) (ws : List String) (hb : b.length = 4) (h : e.get (lit prop) = some (hex b)) :
    checkHex e prop ws = ws := by
  unfold checkHex
  rw [h]
  have h1 := isHex8_hex b hb
  cases hd : hex b with
  | nil => rfl
  | cons a l => rw [hd] at h1; simp [h1]

theorem checkHex_none (e : Rec) (prop : String) (ws : List String) (h : e.get (lit prop) = none) : checkHex e prop ws = ws := by
  unfold checkHex; rw [h]

theorem crcDiffers_hex (b : List Byte) : crcDiffers (some (hex b)) (hex b) true = false := by
  unfold crcDiffers
  cases hd : hex b with
  | nil => rfl
  | cons a l =>
    have h := lower_hex b
    rw [hd] at h
    simp [h]

/-! ### The data -/

theorem encode_start (ls : Nat) (h1 : 1 ≤ ls) (d t : List Byte) : ¬ [EQ, LY] <+: Spec.encode ls true 0 d ++ CR :: t := by
  cases d with
  | nil => simp [Spec.encode]
  | cons c d =>
    rw [Spec.encode]
    simp only [if_neg (show ¬ ls ≤ 0 by omega)]
    generalize Spec.encode ls true _ d = r
    have h := Enc.escape_domain (ls := ls) (col := 0) (last := true && d.isEmpty) (e := c + 42#8)
    have h' := Enc.not_critical_of_not_mustEscape (ls := ls) (col := 0) (last := true && d.isEmpty) (e := c + 42#8)
    unfold Spec.encChar
    split
    · rename_i hm
      have := h hm
      generalize c + 42#8 = e at this ⊢
      rintro ⟨s, hs⟩
      simp only [List.cons_append, List.nil_append, List.cons.injEq] at hs
      have h2 := hs.2.1
      rcases this with rfl | rfl | rfl | rfl | rfl | rfl | rfl <;> exact absurd h2 (by decide)
    · rename_i hm
      have := h' (by simpa using hm)
      generalize c + 42#8 = e at this ⊢
      rintro ⟨s, hs⟩
      simp only [List.cons_append, List.nil_append, List.cons.injEq] at hs
      exact this.2.2.2 hs.1.symm

theorem decode_body (h : lib.IsLib) (ls : Nat) (h1 : 1 ≤ ls) (d : List Byte) (isRaw : Bool) :
    Dec.apiDecode lib.dec [.buffer (Spec.encode ls true 0 d), .bool isRaw] = .ret d := by
  cases isRaw with
  | false =>
    rw [Dec.apiDecode_eq h.dec.correct false _ (by simp)]
    simp [Spec.decode, Enc.yDecode_encode]
  | true =>
    rw [Dec.apiDecode_eq h.dec.correct true _ (fun _ => h.dec.correct.raw _ (Props.encode_no_break_tail ls true 0 h1 d)), Enc.decode_true_encode ls h1]

/-- The text does not start with `=y`. -/
def NoKeyword (bd : List Byte) : Prop := ¬ [EQ, LY] <+: bd

theorem NoKeyword.cr {bd : List Byte} (h : NoKeyword bd) (t : List Byte) : ¬ [EQ, LY] <+: bd ++ CR :: t := by
  match bd, h with
  | [], _ => simp
  | [a], _ => simp
  | a :: b :: r, h => simpa [NoKeyword] using h

theorem noKeyword_encode (ls : Nat) (h1 : 1 ≤ ls) (d : List Byte) : NoKeyword (Spec.encode ls true 0 d) :=
  fun h => encode_start ls h1 d [] (h.trans (List.prefix_append _ _))

/-! ### Single-part posts -/

def singleProps (ls : Nat) (name : Str) (size : Nat) (crc : Str) : YData :=
  ⟨[(lit "end", endRec size crc), (lit "begin", beginRec ls size name)], none⟩

theorem required_single (ls : Nat) (name : Str) (size : Nat) (crc : Str) : required (singleProps ls name size crc) = .ret (some (dec size)) := by
  have e1 : (singleProps ls name size crc).get (lit "begin") = .obj (beginRec ls size name) := rfl
  have e2 : (singleProps ls name size crc).get (lit "end") = .obj (endRec size crc) := rfl
  have e3 : (beginRec ls size name).get (lit "line") = some (dec ls) := rfl
  have e4 : (beginRec ls size name).get (lit "size") = some (dec size) := rfl
  have e5 : (beginRec ls size name).has (lit "name") = true := rfl
  have e6 : Rec.get (.obj (endRec size crc)) (lit "size") = some (dec size) := rfl
  simp [required, e1, e2, e3, e4, e5, e6, truthy_dec]

theorem checkProps_single (hl : env.Lawful) (ls : Nat) (h1 : 1 ≤ ls) (name : Str) (size : Nat) (hs : size ≤ 2 ^ 53) (b : List Byte) (hb : b.length = 4) (ws : List String) :
    checkProps env (singleProps ls name size (hex b)) (dec size) ws = ws := by
  have e1 : (singleProps ls name size (hex b)).get (lit "begin") = .obj (beginRec ls size name) := rfl
  have e2 : (singleProps ls name size (hex b)).get (lit "end") = .obj (endRec size (hex b)) := rfl
  have e3 : (singleProps ls name size (hex b)).get (lit "part") = .undef := rfl
  have n1 : ∀ ws, checkNumbers (singleProps ls name size (hex b)) ws = ws := by
    intro ws
    simp only [checkNumbers, e1, e2, e3, Rec.truthy, List.foldl_cons, List.foldl_nil, if_true]
    rw [checkNumber_dec _ "line" ls _ rfl (by omega), checkNumber_none _ "total" _ rfl, checkNumber_none _ "part" _ rfl,
      checkNumber_dec _ "size" size _ rfl (.inr rfl)]
    simp only [if_false, Bool.false_eq_true]
    rw [checkNumber_dec _ "size" size _ rfl (.inr rfl), checkNumber_none _ "part" _ rfl]
  have n2 : ∀ ws, checkPart env (.obj (beginRec ls size name)) (.obj (endRec size (hex b))) ws = ws := fun ws => rfl
  have n3 : ∀ ws, checkRange env (.obj (beginRec ls size name)) .undef (.obj (endRec size (hex b))) (dec size) ws = ws := fun ws => rfl
  have n4 : ∀ ws, checkSize env (.obj (beginRec ls size name)) (.obj (endRec size (hex b))) ws = ws := by
    intro ws
    have g1 : Rec.get (.obj (beginRec ls size name)) (lit "size") = some (dec size) := rfl
    have g2 : Rec.get (.obj (endRec size (hex b))) (lit "size") = some (dec size) := rfl
    simp [checkSize, g1, g2, Env.ltS, hl.num _ hs, hl.lt _ _ hs hs]
  simp only [checkProps, e1, e2, e3, n1, n2, n3, n4]
  rw [checkHex_none _ "pcrc32" _ rfl, checkHex_hex _ "crc32" b _ hb rfl]

theorem checkData_single (hl : env.Lawful) (ls : Nat) (name : Str) (size : Nat) (hs : size ≤ 2 ^ 53) (b : List Byte) (ws : List String) :
    checkData env ((singleProps ls name size (hex b)).get (lit "part")) ((singleProps ls name size (hex b)).get (lit "end")) (dec size) size (hex b) true ws = ws := by
  have e2 : (singleProps ls name size (hex b)).get (lit "end") = .obj (endRec size (hex b)) := rfl
  have g1 : Rec.get (.obj (endRec size (hex b))) (lit "pcrc32") = none := rfl
  have g2 : Rec.get (.obj (endRec size (hex b))) (lit "crc32") = some (hex b) := rfl
  simp only [checkData, e2, g1, g2, crcDiffers_hex, hl.num _ hs, hl.ne _ _ hs hs]
  simp [crcDiffers]

theorem single_shape (ls size : Nat) (nm body : List Byte) (crc : BitVec 32) :
    singlePost ls size nm body crc =
      (ascii (lit "=y" ++ (lit "begin" ++ 32 :: beginProps ls size [])) ++ nm ++ [CR, LF]) ++ body ++
        (text "\r\n=yend " ++ ascii (endProps size (hex (Crc.packCrc crc)))) := by
  have e : text "\r\n" = [CR, LF] := by decide
  have e1 : lit "\r\n=yend size=" = lit "\r\n=yend " ++ (lit "size" ++ [61]) := by decide
  have e2 : lit "=ybegin line=" = lit "=y" ++ (lit "begin" ++ 32 :: (lit "line" ++ [61])) := by decide
  have e3 : lit " size=" = 32 :: (lit "size" ++ [61]) := by decide
  have e4 : lit " name=" = 32 :: (lit "name" ++ [61]) := by decide
  have e5 : lit " crc32=" = 32 :: (lit "crc32" ++ [61]) := by decide
  simp only [singlePost, text_append, text_toString, text_hex8 _ _ (Crc.packCrc_buf _), e]
  simp only [text_lit, e1, e2, e3, e4, e5, beginProps, endProps, ascii, List.map_append, List.map_cons, List.append_assoc, List.cons_append, List.nil_append, List.map_nil]

/-- Reading a post with one header line. -/
theorem fromPost_one (L' body tail : List Byte) (isRaw : Bool) (hL : ¬ [CR, LF] <:+: L') (ht : CR ∉ tail)
    (h1 : (trim (env.toStr (text "=ybegin " ++ L'))).take 6 ≠ lit "=yend ")
    (h2 : ¬ [EQ, LY] <+: body ++ (text "\r\n=yend " ++ tail)) :
    let H := text "=ybegin " ++ L' ++ [CR, LF]
    let data := H ++ body ++ (text "\r\n=yend " ++ tail)
    let r := parseLines [trim (env.toStr (text "=ybegin " ++ L'))] ⟨[], none⟩ []
    let q := parseLine (trim (env.toStr (text "=yend " ++ tail))) r.1 []
    fromPost lib env data isRaw = (required q.1).bind fun s =>
      match s with
      | none => .ret (.error "missing_required_properties")
      | some size => conclude lib env data isRaw 0 ⟨some H.length, some (H ++ body).length, data.length, q.1, r.2 ++ ["missing_yend_newline"] ++ q.2⟩ size := by
  intro H data r q
  have t8 : (text "=ybegin ").length = 8 := by decide
  have e0 : data = text "=ybegin " ++ (L' ++ CR :: LF :: (body ++ (text "\r\n=yend " ++ tail))) := by simp [data, H]
  have s0 : findStart data = some 0 := by
    rw [findStart, e0, List.take_append_of_le_length (by rw [t8]), ← text_lit, if_pos (by rw [List.take_of_length_le (by rw [t8])])]
  have f0 : findFrom crlf data (0 + 8) = some (8 + L'.length) := by
    rw [findFrom, e0, Nat.zero_add, List.drop_append, List.drop_of_length_le (by rw [t8]), t8, Nat.sub_self, List.nil_append, List.drop_zero, crlf,
      find_crlf _ _ hL]
  have k0 : (data.take (8 + L'.length)).drop 0 = text "=ybegin " ++ L' := by
    rw [List.drop_zero, e0, ← List.append_assoc, List.take_append_of_le_length (by rw [List.length_append, t8]), List.take_of_length_le (by rw [List.length_append, t8])]
  have k1 : data.drop (8 + L'.length + 2) = body ++ (text "\r\n=yend " ++ tail) := by
    have : data = H ++ (body ++ (text "\r\n=yend " ++ tail)) := by simp [data]
    rw [this, List.drop_append, List.drop_of_length_le (by simp [H, t8]; omega)]
    have : 8 + L'.length + 2 - H.length = 0 := by simp [H, t8]; omega
    rw [this]; rfl
  obtain ⟨n, hn⟩ : ∃ n, data.length = n + 1 := ⟨data.length - 1, by rw [e0]; simp [t8]; omega⟩
  have hH : H.length = 8 + L'.length + 2 := by simp [H, t8]; omega
  have hd := headerLoop_data (env := env) data _ n 0 (8 + L'.length) [] (by omega) k0 h1 (by rw [k1]; exact h2)
  simp only [fromPost, s0, f0, hn, hd, ← hH]
  rw [show data = H ++ body ++ (text "\r\n=yend " ++ tail) from rfl, layout_eq H body tail _ ht]
  simp only [← hn]
  rfl

/-- Reading a post with two header lines. -/
theorem fromPost_two (L' M' body tail : List Byte) (isRaw : Bool) (hL : ¬ [CR, LF] <:+: L') (hM : ¬ [CR, LF] <:+: text "=y" ++ M') (ht : CR ∉ tail)
    (h1 : (trim (env.toStr (text "=ybegin " ++ L'))).take 6 ≠ lit "=yend ") (h3 : (trim (env.toStr (text "=y" ++ M'))).take 6 ≠ lit "=yend ")
    (h2 : ¬ [EQ, LY] <+: body ++ (text "\r\n=yend " ++ tail)) :
    let H := text "=ybegin " ++ L' ++ [CR, LF] ++ (text "=y" ++ M') ++ [CR, LF]
    let data := H ++ body ++ (text "\r\n=yend " ++ tail)
    let r := parseLines [trim (env.toStr (text "=ybegin " ++ L')), trim (env.toStr (text "=y" ++ M'))] ⟨[], none⟩ []
    let q := parseLine (trim (env.toStr (text "=yend " ++ tail))) r.1 []
    fromPost lib env data isRaw = (required q.1).bind fun s =>
      match s with
      | none => .ret (.error "missing_required_properties")
      | some size => conclude lib env data isRaw 0 ⟨some H.length, some (H ++ body).length, data.length, q.1, r.2 ++ ["missing_yend_newline"] ++ q.2⟩ size := by
  intro H data r q
  have t8 : (text "=ybegin ").length = 8 := by decide
  have t2 : text "=y" = [EQ, LY] := by decide
  have e0 : data = text "=ybegin " ++ (L' ++ CR :: LF :: (text "=y" ++ M' ++ CR :: LF :: (body ++ (text "\r\n=yend " ++ tail)))) := by simp [data, H]
  have s0 : findStart data = some 0 := by
    rw [findStart, e0, List.take_append_of_le_length (by rw [t8]), ← text_lit, if_pos (by rw [List.take_of_length_le (by rw [t8])])]
  have f0 : findFrom crlf data (0 + 8) = some (8 + L'.length) := by
    rw [findFrom, e0, Nat.zero_add, List.drop_append, List.drop_of_length_le (by rw [t8]), t8, Nat.sub_self, List.nil_append, List.drop_zero, crlf,
      find_crlf _ _ hL]
  have k0 : (data.take (8 + L'.length)).drop 0 = text "=ybegin " ++ L' := by
    rw [List.drop_zero, e0, ← List.append_assoc, List.take_append_of_le_length (by rw [List.length_append, t8]), List.take_of_length_le (by rw [List.length_append, t8])]
  have k1 : data.drop (8 + L'.length + 2) = (text "=y" ++ M') ++ CR :: LF :: (body ++ (text "\r\n=yend " ++ tail)) := by
    have : data = (text "=ybegin " ++ L' ++ [CR, LF]) ++ ((text "=y" ++ M') ++ CR :: LF :: (body ++ (text "\r\n=yend " ++ tail))) := by simp [e0]
    rw [this, List.drop_append, List.drop_of_length_le (by simp [t8]; omega)]
    have : 8 + L'.length + 2 - (text "=ybegin " ++ L' ++ [CR, LF]).length = 0 := by simp [t8]; omega
    rw [this]; rfl
  have f1 : findFrom crlf data (8 + L'.length + 2) = some (8 + L'.length + 2 + (text "=y" ++ M').length) := by
    rw [findFrom, k1, crlf, find_crlf _ _ hM]
  have k2 : (data.take (8 + L'.length + 2 + (text "=y" ++ M').length)).drop (8 + L'.length + 2) = text "=y" ++ M' := by
    rw [← List.take_drop, k1, List.take_left' rfl]
  have k3 : data.drop (8 + L'.length + 2 + (text "=y" ++ M').length + 2) = body ++ (text "\r\n=yend " ++ tail) := by
    rw [Nat.add_assoc (8 + L'.length + 2), ← List.drop_drop, k1, List.drop_append, List.drop_of_length_le (by omega), Nat.add_sub_cancel_left]; rfl
  obtain ⟨n, hn⟩ : ∃ n, data.length = n + 1 + 1 := ⟨data.length - 2, by rw [e0]; simp [t8]; omega⟩
  have hH : H.length = 8 + L'.length + 2 + (text "=y" ++ M').length + 2 := by simp [H, t8]; omega
  have hd := headerLoop_next (env := env) data _ (n + 1) 0 (8 + L'.length) [] (by omega) k0 h1 (by rw [k1, t2]; simp)
  have hd2 := headerLoop_data (env := env) data _ n (8 + L'.length + 2) (8 + L'.length + 2 + (text "=y" ++ M').length) [trim (env.toStr (text "=ybegin " ++ L'))]
    (by omega) k2 h3 (by rw [k3]; exact h2)
  rw [List.nil_append, f1, hd2] at hd
  simp only [fromPost, s0, f0, hn, hd, ← hH]
  rw [show data = H ++ body ++ (text "\r\n=yend " ++ tail) from rfl, layout_eq H body tail _ ht]
  simp only [← hn]
  rfl

/-- Printable ASCII text. -/
def Printable (s : Str) : Prop := ∀ c ∈ s, 32 ≤ c ∧ c < 127

theorem Printable.append {a b : Str} (ha : Printable a) (hb : Printable b) : Printable (a ++ b) := by
  intro c hc
  rcases List.mem_append.1 hc with h | h
  · exact ha c h
  · exact hb c h

theorem Printable.cons {a : Nat} {b : Str} (ha : 32 ≤ a ∧ a < 127) (hb : Printable b) : Printable (a :: b) := by
  intro c hc
  rcases List.mem_cons.1 hc with h | h
  · exact h ▸ ha
  · exact hb c h

theorem Printable.nil : Printable [] := by simp [Printable]

theorem printable_dec (n : Nat) : Printable (dec n) := fun c hc => by have := dec_digits n c hc; omega

theorem printable_hex (b : List Byte) : Printable (hex b) := fun c hc => by have := hex_range b c hc; omega

theorem Printable.lt {s : Str} (h : Printable s) : ∀ c ∈ s, c < 128 := fun c hc => by have := h c hc; omega

theorem Printable.no_cr {s : Str} (h : Printable s) : CR ∉ ascii s := by
  intro hm
  simp only [ascii, List.mem_map] at hm
  obtain ⟨c, hc, he⟩ := hm
  have h1 := h c hc
  have := congrArg BitVec.toNat he
  simp at this
  omega

theorem no_crlf_append (l t : List Byte) (hl : CR ∉ l) (ht : ¬ [CR, LF] <:+: t) : ¬ [CR, LF] <:+: l ++ t := by
  apply not_infix_of_chain
  have ht' := chain_of_not_infix _ _ _ ht
  clear ht
  induction l with
  | nil => exact ht'
  | cons a l ih =>
    simp only [List.mem_cons, not_or] at hl
    have := ih hl.2
    simp only [List.cons_append]
    cases h : l ++ t with
    | nil => exact .singleton a
    | cons b r =>
      rw [h] at this
      refine .cons_cons ?_ this
      rintro ⟨rfl, _⟩
      exact hl.1 rfl

theorem printable_beginProps (ls size : Nat) : Printable (beginProps ls size []) :=
  .append (by unfold Printable; decide) (.cons (by decide) (.append (printable_dec _) (.cons (by decide) (.append (by unfold Printable; decide)
    (.cons (by decide) (.append (printable_dec _) (.cons (by decide) (.append (by unfold Printable; decide) (.cons (by decide) .nil)))))))))

theorem printable_endProps (size : Nat) (b : List Byte) : Printable (endProps size (hex b)) :=
  .append (by unfold Printable; decide) (.cons (by decide) (.append (printable_dec _) (.cons (by decide) (.append (by unfold Printable; decide)
    (.cons (by decide) (printable_hex b))))))

theorem beginProps_name (ls size : Nat) (name : Str) : beginProps ls size name = beginProps ls size [] ++ name := by
  simp [beginProps]

theorem safe_no_crlf {name : Str} (h : SafeName name) : ¬ [CR, LF] <:+: fileName name :=
  fileName_no_crlf name (wellFormed_lt name h.wf) h.noBreak

theorem head_key (k R : Str) (hk : isKey k = true) : ∀ c, (k ++ R).head? = some c → isSpace c = false := by
  intro c hc
  cases k with
  | nil => simp [isKey] at hk
  | cons a k =>
    simp only [List.cons_append, List.head?_cons, Option.some.injEq] at hc
    subst hc
    simp only [isKey, Bool.and_eq_true] at hk
    have := hk.1
    simp only [isPropStart, Bool.or_eq_true, decide_eq_true_eq, Bool.and_eq_true] at this
    simp [isSpace]; omega

theorem getLast_skip (a : Nat) (x y : Str) (hy : y ≠ []) : (a :: (x ++ y)).getLast? = y.getLast? := by
  rw [← List.cons_append, List.getLast?_append_of_ne_nil _ hy]

theorem begin_last (ls size : Nat) (name : Str) (h : SafeName name) : ∀ c, (beginProps ls size name).getLast? = some c → isSpace c = false := by
  intro c hc
  unfold beginProps at hc
  rw [List.getLast?_append_of_ne_nil _ (by simp), getLast_skip _ _ _ (by simp), getLast_skip _ _ _ (by simp), getLast_skip _ _ _ (by simp),
    getLast_skip _ _ _ (by simp)] at hc
  exact getLast_name 61 name h (by decide) c hc

theorem end_last (size : Nat) (b : List Byte) (hb : b.length = 4) : ∀ c, (endProps size (hex b)).getLast? = some c → isSpace c = false := by
  intro c hc
  unfold endProps at hc
  rw [List.getLast?_append_of_ne_nil _ (by simp), getLast_skip _ _ _ (by simp), getLast_skip _ _ _ (by simp)] at hc
  exact getLast_cons_hex 61 b (by rintro rfl; simp at hb) c hc

/-- `from_post` of a single-part post with any body that does not look like another header line. -/
theorem fromPost_single_body (h : lib.IsLib) (hl : env.Lawful) (name : Str) (hn : SafeName name) (ls : Nat) (h1 : 1 ≤ ls) (size : Nat)
    (hs : size ≤ 2 ^ 53) (crc0 : BitVec 32) (bd : List Byte) (hb : NoKeyword bd) (isRaw : Bool) (out : List Byte)
    (ho : Dec.apiDecode lib.dec [.buffer bd, .bool isRaw] = .ret out) :
    ∃ ds de, fromPost lib env (singlePost ls size (fileName name) bd crc0) isRaw =
      .ret (.ok ⟨0, some ds, some de, (singlePost ls size (fileName name) bd crc0).length,
        singleProps ls name size (hex (Crc.packCrc crc0)), some out, some (Crc.packCrc (Crc.crc1 0 out)),
        checkData env ((singleProps ls name size (hex (Crc.packCrc crc0))).get (lit "part")) ((singleProps ls name size (hex (Crc.packCrc crc0))).get (lit "end"))
          (dec size) out.length (hex (Crc.packCrc (Crc.crc1 0 out))) true ["missing_yend_newline"]⟩) ∧
      ((singlePost ls size (fileName name) bd crc0).take de).drop ds = bd ∧
      ds = (text "=ybegin " ++ (ascii (beginProps ls size []) ++ fileName name) ++ [CR, LF]).length ∧ de = ds + bd.length := by
  have e8 : ascii (lit "=y" ++ (lit "begin" ++ 32 :: beginProps ls size [])) = text "=ybegin " ++ ascii (beginProps ls size []) := by
    rw [text_lit, ← ascii_append]; rfl
  have l1 : trim (env.toStr (text "=ybegin " ++ (ascii (beginProps ls size []) ++ fileName name))) =
      lit "=y" ++ (lit "begin" ++ 32 :: beginProps ls size name) := by
    rw [← List.append_assoc, ← e8, toStr_name hl _ _ ?_ hn]
    · have : lit "=y" ++ (lit "begin" ++ 32 :: beginProps ls size []) ++ name = lit "=y" ++ (lit "begin" ++ 32 :: beginProps ls size name) := by
        rw [beginProps_name ls size name]; simp
      rw [this, trim_line _ _ (by simp [beginProps]) (begin_last ls _ name hn)]
    · exact (Printable.append (by unfold Printable; decide) (.append (by unfold Printable; decide) (.cons (by decide) (printable_beginProps _ _)))).lt
  generalize hcr : Crc.packCrc crc0 = c
  have hc4 : c.length = 4 := by rw [← hcr]; rfl
  have l2 : trim (env.toStr (text "=yend " ++ ascii (endProps size (hex c)))) = lit "=y" ++ (lit "end" ++ 32 :: endProps size (hex c)) := by
    have e6 : text "=yend " ++ ascii (endProps size (hex c)) = ascii (lit "=y" ++ (lit "end" ++ 32 :: endProps size (hex c))) := by
      rw [text_lit, ← ascii_append]; rfl
    rw [e6, toStr_ascii hl _ (Printable.append (by unfold Printable; decide) (.append (by unfold Printable; decide) (.cons (by decide) (printable_endProps _ _)))).lt]
    apply trim_line
    · simp [endProps]
    · exact end_last _ _ hc4
  have g := fromPost_one (lib := lib) (env := env) (ascii (beginProps ls size []) ++ fileName name) bd (ascii (endProps size (hex c))) isRaw
    (no_crlf_append _ _ (printable_beginProps _ _).no_cr (safe_no_crlf hn)) (printable_endProps _ _).no_cr
    (by rw [l1]; intro hh; exact absurd (hh.symm.trans (show _ = lit "=ybegi" from rfl)) (by decide))
    (by rw [show text "\r\n=yend " = CR :: LF :: text "=yend " from by decide]; exact hb.cr _)
  simp only at g
  have sh := single_shape ls size (fileName name) bd crc0
  rw [hcr, e8] at sh
  rw [List.append_assoc (text "=ybegin ")] at sh
  rw [← sh, l1, l2] at g
  generalize hp : singlePost ls size (fileName name) bd crc0 = post at g sh ⊢
  have pl : parseLines [lit "=y" ++ (lit "begin" ++ 32 :: beginProps ls size name)] ⟨[], none⟩ [] = (⟨[(lit "begin", beginRec ls size name)], none⟩, []) := by
    simp only [parseLines]
    rw [parseLine_eq (lit "begin") (beginProps ls size name) (by decide) (head_key (lit "line") _ (by decide)) (begin_last ls _ name hn) _ _ _ (parse_begin ls size name []) (by decide)]
    rfl
  have pe : parseLine (lit "=y" ++ (lit "end" ++ 32 :: endProps size (hex c))) ⟨[(lit "begin", beginRec ls size name)], none⟩ [] =
      (singleProps ls name size (hex c), []) := by
    rw [parseLine_eq (lit "end") (endProps size (hex c)) (by decide) (head_key (lit "size") _ (by decide)) ?_ _ _ _ (parse_end size _ (hex_no_space _) []) (by rfl)]
    · rfl
    · exact end_last _ _ hc4
  rw [pl] at g
  simp only [pe, required_single, Outcome.bind] at g
  have ex : ((post.take (text "=ybegin " ++ (ascii (beginProps ls size []) ++ fileName name) ++ [CR, LF] ++ bd).length).drop
      (text "=ybegin " ++ (ascii (beginProps ls size []) ++ fileName name) ++ [CR, LF]).length) = bd := by
    rw [sh, List.take_left' rfl, List.drop_left' rfl]
  refine ⟨_, _, ?_, ex, rfl, List.length_append⟩
  rw [g]
  simp only [conclude, ex, ho, Outcome.bind, crc32_eq h, hcr]
  rw [checkProps_single hl ls h1 name size hs c hc4]
  rfl

/-- `from_post` of a single-part post. -/
theorem fromPost_single (h : lib.IsLib) (hl : env.Lawful) (name : Str) (hn : SafeName name) (ls : Nat) (h1 : 1 ≤ ls) (d : List Byte)
    (hs : d.length ≤ 2 ^ 53) (isRaw : Bool) :
    ∃ ds de, fromPost lib env (singlePost ls d.length (fileName name) (Spec.encode ls true 0 d) (Crc.crc1 0 d)) isRaw =
      .ret (.ok ⟨0, some ds, some de, (singlePost ls d.length (fileName name) (Spec.encode ls true 0 d) (Crc.crc1 0 d)).length,
        singleProps ls name d.length (hex (Crc.packCrc (Crc.crc1 0 d))), some d, some (Crc.packCrc (Crc.crc1 0 d)), ["missing_yend_newline"]⟩) ∧
      ((singlePost ls d.length (fileName name) (Spec.encode ls true 0 d) (Crc.crc1 0 d)).take de).drop ds = Spec.encode ls true 0 d := by
  obtain ⟨ds, de, g1, g2, _⟩ := fromPost_single_body h hl name hn ls h1 d.length hs (Crc.crc1 0 d) _ (noKeyword_encode ls h1 d) isRaw d (decode_body h ls h1 d isRaw)
  rw [checkData_single hl ls name d.length hs] at g1
  exact ⟨ds, de, g1, g2⟩

/-! ### Parts -/

def multiProps (part total ls size : Nat) (name : Str) (b e len : Nat) (pcrc : Str) (crc : Option Str) : YData :=
  ⟨[(lit "end", endPartRec len part pcrc crc), (lit "part", partRec b e), (lit "begin", beginPartRec part total ls size name)], none⟩

section
variable (part total ls size : Nat) (name : Str) (b e len : Nat)

theorem required_multi (pcrc : Str) (crc : Option Str) :
    required (multiProps part total ls size name b e len pcrc crc) = .ret (some (dec len)) := by
  have e1 : (multiProps part total ls size name b e len pcrc crc).get (lit "begin") = .obj (beginPartRec part total ls size name) := rfl
  have e2 : (multiProps part total ls size name b e len pcrc crc).get (lit "end") = .obj (endPartRec len part pcrc crc) := rfl
  have e3 : (beginPartRec part total ls size name).get (lit "line") = some (dec ls) := rfl
  have e4 : (beginPartRec part total ls size name).get (lit "size") = some (dec size) := rfl
  have e5 : (beginPartRec part total ls size name).has (lit "name") = true := rfl
  have e6 : Rec.get (.obj (endPartRec len part pcrc crc)) (lit "size") = some (dec len) := by cases crc <;> rfl
  simp [required, e1, e2, e3, e4, e5, e6, truthy_dec]

theorem checkProps_multi (hl : env.Lawful) (h1 : 1 ≤ ls) (hp : 1 ≤ part) (ht : part ≤ total) (ht2 : total ≤ 2 ^ 53) (hs : size ≤ 2 ^ 53)
    (hb : 1 ≤ b) (hbe : b ≤ e) (hes : e ≤ size) (hlen : len = e + 1 - b) (p : List Byte) (hp4 : p.length = 4) (c : Option (List Byte))
    (hc : ∀ x, c = some x → x.length = 4) (ws : List String) :
    checkProps env (multiProps part total ls size name b e len (hex p) (c.map hex)) (dec len) ws = ws := by
  have e1 : (multiProps part total ls size name b e len (hex p) (c.map hex)).get (lit "begin") = .obj (beginPartRec part total ls size name) := rfl
  have e2 : (multiProps part total ls size name b e len (hex p) (c.map hex)).get (lit "end") = .obj (endPartRec len part (hex p) (c.map hex)) := rfl
  have e3 : (multiProps part total ls size name b e len (hex p) (c.map hex)).get (lit "part") = .obj (partRec b e) := rfl
  have g1 : Rec.get (.obj (endPartRec len part (hex p) (c.map hex))) (lit "size") = some (dec len) := by cases c <;> rfl
  have g2 : Rec.get (.obj (endPartRec len part (hex p) (c.map hex))) (lit "part") = some (dec part) := by cases c <;> rfl
  have g3 : Rec.get (.obj (endPartRec len part (hex p) (c.map hex))) (lit "pcrc32") = some (hex p) := by cases c <;> rfl
  have g0 : Rec.get (.obj (beginPartRec part total ls size name)) (lit "line") = some (dec ls) := rfl
  have g4 : Rec.get (.obj (beginPartRec part total ls size name)) (lit "size") = some (dec size) := rfl
  have g5 : Rec.get (.obj (beginPartRec part total ls size name)) (lit "part") = some (dec part) := rfl
  have g6 : Rec.get (.obj (beginPartRec part total ls size name)) (lit "total") = some (dec total) := rfl
  have g7 : Rec.get (.obj (partRec b e)) (lit "begin") = some (dec b) := rfl
  have g8 : Rec.get (.obj (partRec b e)) (lit "end") = some (dec e) := rfl
  have n1 : ∀ ws, checkNumbers (multiProps part total ls size name b e len (hex p) (c.map hex)) ws = ws := by
    intro ws
    simp only [checkNumbers, e1, e2, e3, Rec.truthy, List.foldl_cons, List.foldl_nil, if_true]
    rw [checkNumber_dec _ "line" ls _ g0 (by omega), checkNumber_dec _ "total" total _ g6 (by omega), checkNumber_dec _ "part" part _ g5 (by omega),
      checkNumber_dec _ "size" size _ g4 (.inr rfl), checkNumber_dec _ "begin" b _ g7 (by omega), checkNumber_dec _ "end" e _ g8 (by omega),
      checkNumber_dec _ "size" len _ g1 (.inr rfl), checkNumber_dec _ "part" part _ g2 (by omega)]
  have n2 : ∀ ws, checkPart env (.obj (beginPartRec part total ls size name)) (.obj (endPartRec len part (hex p) (c.map hex))) ws = ws := by
    intro ws
    have : ¬ total < part := by omega
    simp [checkPart, g2, g5, g6, truthy_dec, Env.ltS, hl.num total ht2, hl.num part (by omega), hl.lt total part ht2 (by omega), this]
  have n3 : ∀ ws, checkRange env (.obj (beginPartRec part total ls size name)) (.obj (partRec b e)) (.obj (endPartRec len part (hex p) (c.map hex))) (dec len) ws = ws := by
    intro ws
    have a1 : ¬ e < b := by omega
    have a2 : ¬ size < e := by omega
    simp only [checkRange, g4, g7, g8, truthy_dec, Rec.truthy, Env.ltS, hl.num e (by omega), hl.num b (by omega), hl.num len (by omega), hl.num size hs,
      hl.lt e b (by omega) (by omega), hl.range b e hbe (by omega), hl.ne len (e + 1 - b) (by omega) (by omega), hl.lt size e hs (by omega), Bool.and_self]
    simp [a1, a2, hlen]
  have n4 : ∀ ws, checkSize env (.obj (beginPartRec part total ls size name)) (.obj (endPartRec len part (hex p) (c.map hex))) ws = ws := by
    intro ws
    have : ¬ size < len := by omega
    simp [checkSize, g1, g4, g5, truthy_dec, Env.ltS, hl.num len (by omega), hl.num size hs, hl.lt size len hs (by omega), this]
  simp only [checkProps, e1, e2, e3, n1, n2, n3, n4]
  rw [checkHex_hex _ "pcrc32" p _ hp4 g3]
  cases c with
  | none => rw [checkHex_none _ "crc32" _ rfl]
  | some c => rw [checkHex_hex _ "crc32" c _ (hc c rfl) rfl]

theorem checkData_multi (hl : env.Lawful) (hlen : len ≤ 2 ^ 53) (p : List Byte) (c : Option Str) (ws : List String) :
    checkData env ((multiProps part total ls size name b e len (hex p) c).get (lit "part"))
      ((multiProps part total ls size name b e len (hex p) c).get (lit "end")) (dec len) len (hex p) true ws = ws := by
  have e2 : (multiProps part total ls size name b e len (hex p) c).get (lit "end") = .obj (endPartRec len part (hex p) c) := rfl
  have e3 : (multiProps part total ls size name b e len (hex p) c).get (lit "part") = .obj (partRec b e) := rfl
  have g3 : Rec.get (.obj (endPartRec len part (hex p) c)) (lit "pcrc32") = some (hex p) := by cases c <;> rfl
  simp only [checkData, e2, e3, g3, crcDiffers_hex, hl.num _ hlen, hl.ne _ _ hlen hlen]
  simp [Rec.truthy]

end

theorem part_shape (part total ls size : Nat) (nm : List Byte) (pos len : Nat) (body : List Byte) (pcrc : BitVec 32) (crc : Option (BitVec 32)) :
    partPost part total ls size nm pos len body pcrc crc =
      (text "=ybegin " ++ (ascii (beginPartProps part total ls size []) ++ nm) ++ [CR, LF] ++
        (text "=y" ++ ascii (lit "part" ++ 32 :: partProps (pos + 1) (pos + len))) ++ [CR, LF]) ++ body ++
        (text "\r\n=yend " ++ ascii (endPartProps len part (hex (Crc.packCrc pcrc)) (crc.map fun c => hex (Crc.packCrc c)))) := by
  have e : text "\r\n" = [CR, LF] := by decide
  have e' : lit "\r\n" = [13, 10] := by decide
  have e0 : lit "" = [] := by decide
  have e1 : lit "\r\n=yend size=" = lit "\r\n=yend " ++ (lit "size" ++ [61]) := by decide
  have e2 : lit "=ybegin part=" = lit "=ybegin " ++ (lit "part" ++ [61]) := by decide
  have e3 : lit " size=" = 32 :: (lit "size" ++ [61]) := by decide
  have e4 : lit " name=" = 32 :: (lit "name" ++ [61]) := by decide
  have e5 : lit " crc32=" = 32 :: (lit "crc32" ++ [61]) := by decide
  have e6 : lit " total=" = 32 :: (lit "total" ++ [61]) := by decide
  have e7 : lit " line=" = 32 :: (lit "line" ++ [61]) := by decide
  have e8 : lit " part=" = 32 :: (lit "part" ++ [61]) := by decide
  have e9 : lit " pcrc32=" = 32 :: (lit "pcrc32" ++ [61]) := by decide
  have e10 : lit " end=" = 32 :: (lit "end" ++ [61]) := by decide
  have e11 : lit "=ypart begin=" = lit "=y" ++ (lit "part" ++ 32 :: (lit "begin" ++ [61])) := by decide
  have e12 : BitVec.ofNat 8 13 = CR ∧ BitVec.ofNat 8 10 = LF := by decide
  cases crc with
  | none =>
    simp only [partPost, text_append, text_toString, text_hex8 _ _ (Crc.packCrc_buf _)]
    simp only [text_lit, e0, e', e1, e2, e3, e4, e6, e7, e8, e9, e10, e11, beginPartProps, beginProps, partProps, endPartProps, ascii, List.map_append, List.map_cons, List.append_assoc,
      List.cons_append, List.nil_append, List.map_nil, Option.map_none, List.append_nil, e12.1, e12.2]
  | some c =>
    simp only [partPost, text_append, text_toString, text_hex8 _ _ (Crc.packCrc_buf _)]
    simp only [text_lit, e', e1, e2, e3, e4, e5, e6, e7, e8, e9, e10, e11, beginPartProps, beginProps, partProps, endPartProps, ascii, List.map_append, List.map_cons, List.append_assoc,
      List.cons_append, List.nil_append, List.map_nil, Option.map_some, e12.1, e12.2]

theorem printable_beginPartProps (part total ls size : Nat) : Printable (beginPartProps part total ls size []) :=
  .append (by unfold Printable; decide) (.cons (by decide) (.append (printable_dec _) (.cons (by decide) (.append (by unfold Printable; decide)
    (.cons (by decide) (.append (printable_dec _) (.cons (by decide) (printable_beginProps _ _))))))))

theorem printable_partProps (b e : Nat) : Printable (partProps b e) :=
  .append (by unfold Printable; decide) (.cons (by decide) (.append (printable_dec _) (.cons (by decide) (.append (by unfold Printable; decide)
    (.cons (by decide) (printable_dec _))))))

theorem printable_endPartProps (size part : Nat) (p : List Byte) (c : Option (List Byte)) : Printable (endPartProps size part (hex p) (c.map hex)) := by
  unfold endPartProps
  refine .append (by unfold Printable; decide) (.cons (by decide) (.append (printable_dec _) (.cons (by decide) (.append (by unfold Printable; decide)
    (.cons (by decide) (.append (printable_dec _) (.cons (by decide) (.append (by unfold Printable; decide) (.cons (by decide) (.append (printable_hex _) ?_))))))))))
  cases c with
  | none => exact .nil
  | some c => exact .cons (by decide) (.append (by unfold Printable; decide) (.cons (by decide) (printable_hex c)))

theorem beginPartProps_name (part total ls size : Nat) (name : Str) :
    beginPartProps part total ls size name = beginPartProps part total ls size [] ++ name := by
  simp [beginPartProps, beginProps]

theorem beginPart_last (part total ls size : Nat) (name : Str) (h : SafeName name) :
    ∀ c, (beginPartProps part total ls size name).getLast? = some c → isSpace c = false := by
  intro c hc
  unfold beginPartProps at hc
  have : beginProps ls size name ≠ [] := by simp [beginProps]
  rw [List.getLast?_append_of_ne_nil _ (by simp), getLast_skip _ _ _ (by simp), getLast_skip _ _ _ (by simp), getLast_skip _ _ _ (by simp),
    ← List.singleton_append, List.getLast?_append_of_ne_nil _ this] at hc
  exact begin_last ls size name h c hc

theorem part_last (b e : Nat) : ∀ c, (partProps b e).getLast? = some c → isSpace c = false := by
  intro c hc
  unfold partProps at hc
  rw [List.getLast?_append_of_ne_nil _ (by simp), getLast_skip _ _ _ (by simp), getLast_skip _ _ _ (by simp)] at hc
  exact getLast_cons_dec 61 e c hc

theorem endPart_last (size part : Nat) (p : List Byte) (hp : p.length = 4) (c : Option (List Byte)) (hcl : ∀ x, c = some x → x.length = 4) :
    ∀ a, (endPartProps size part (hex p) (c.map hex)).getLast? = some a → isSpace a = false := by
  intro a ha
  unfold endPartProps at ha
  rw [List.getLast?_append_of_ne_nil _ (by simp), getLast_skip _ _ _ (by simp), getLast_skip _ _ _ (by simp), getLast_skip _ _ _ (by simp),
    getLast_skip _ _ _ (by simp)] at ha
  cases c with
  | none =>
    simp only [Option.map_none, List.append_nil] at ha
    exact getLast_cons_hex 61 p (by rintro rfl; simp at hp) a ha
  | some c =>
    simp only [Option.map_some] at ha
    rw [getLast_skip _ _ _ (by simp), getLast_skip _ _ _ (by simp)] at ha
    exact getLast_cons_hex 61 c (by rintro rfl; simpa using hcl _ rfl) a ha

/-- `from_post` of one part with any body that does not look like another header line. -/
theorem fromPost_part_body (h : lib.IsLib) (hl : env.Lawful) (name : Str) (hn : SafeName name) (part total ls size pos len : Nat) (h1 : 1 ≤ ls) (hp : 1 ≤ part)
    (ht : part ≤ total) (ht2 : total ≤ 2 ^ 53) (hs : size ≤ 2 ^ 53) (hd' : 1 ≤ len) (hpos : pos + len ≤ size) (crc0 : BitVec 32) (crc : Option (BitVec 32))
    (bd : List Byte) (hb : NoKeyword bd) (isRaw : Bool) (out : List Byte) (ho : Dec.apiDecode lib.dec [.buffer bd, .bool isRaw] = .ret out) :
    ∃ ds de, fromPost lib env (partPost part total ls size (fileName name) pos len bd crc0 crc) isRaw =
      .ret (.ok ⟨0, some ds, some de, (partPost part total ls size (fileName name) pos len bd crc0 crc).length,
        multiProps part total ls size name (pos + 1) (pos + len) len (hex (Crc.packCrc crc0)) (crc.map fun c => hex (Crc.packCrc c)),
        some out, some (Crc.packCrc (Crc.crc1 0 out)),
        checkData env ((multiProps part total ls size name (pos + 1) (pos + len) len (hex (Crc.packCrc crc0)) (crc.map fun c => hex (Crc.packCrc c))).get (lit "part"))
          ((multiProps part total ls size name (pos + 1) (pos + len) len (hex (Crc.packCrc crc0)) (crc.map fun c => hex (Crc.packCrc c))).get (lit "end"))
          (dec len) out.length (hex (Crc.packCrc (Crc.crc1 0 out))) true ["missing_yend_newline"]⟩) ∧
      ((partPost part total ls size (fileName name) pos len bd crc0 crc).take de).drop ds = bd ∧
      ds = (text "=ybegin " ++ (ascii (beginPartProps part total ls size []) ++ fileName name) ++ [CR, LF] ++
        (text "=y" ++ ascii (lit "part" ++ 32 :: partProps (pos + 1) (pos + len))) ++ [CR, LF]).length ∧ de = ds + bd.length := by
  have e8 : ascii (lit "=y" ++ (lit "begin" ++ 32 :: beginPartProps part total ls size [])) = text "=ybegin " ++ ascii (beginPartProps part total ls size []) := by
    rw [text_lit, ← ascii_append]; rfl
  have l1 : trim (env.toStr (text "=ybegin " ++ (ascii (beginPartProps part total ls size []) ++ fileName name))) =
      lit "=y" ++ (lit "begin" ++ 32 :: beginPartProps part total ls size name) := by
    rw [← List.append_assoc, ← e8, toStr_name hl _ _ ?_ hn]
    · have : lit "=y" ++ (lit "begin" ++ 32 :: beginPartProps part total ls size []) ++ name = lit "=y" ++ (lit "begin" ++ 32 :: beginPartProps part total ls size name) := by
        rw [beginPartProps_name part total ls size name]; simp
      rw [this, trim_line _ _ (by simp [beginPartProps]) (beginPart_last part total ls _ name hn)]
    · exact (Printable.append (by unfold Printable; decide) (.append (by unfold Printable; decide) (.cons (by decide) (printable_beginPartProps _ _ _ _)))).lt
  have pp : Printable (lit "part" ++ 32 :: partProps (pos + 1) (pos + len)) := .append (by unfold Printable; decide) (.cons (by decide) (printable_partProps _ _))
  have l3 : trim (env.toStr (text "=y" ++ ascii (lit "part" ++ 32 :: partProps (pos + 1) (pos + len)))) =
      lit "=y" ++ (lit "part" ++ 32 :: partProps (pos + 1) (pos + len)) := by
    rw [text_lit, ← ascii_append, toStr_ascii hl _ (Printable.append (by unfold Printable; decide) pp).lt]
    exact trim_line _ _ (by simp [partProps]) (part_last _ _)
  obtain ⟨co, hco⟩ : ∃ co : Option (List Byte), co = crc.map Crc.packCrc := ⟨_, rfl⟩
  have hco' : (crc.map fun c => hex (Crc.packCrc c)) = co.map hex := by rw [hco, Option.map_map]; rfl
  have hcl : ∀ x, co = some x → x.length = 4 := by
    intro x hx
    rw [hco] at hx
    cases crc with
    | none => simp at hx
    | some c => simp at hx; rw [← hx]; rfl
  generalize hcr : Crc.packCrc crc0 = c
  have hc4 : c.length = 4 := by rw [← hcr]; rfl
  have l2 : trim (env.toStr (text "=yend " ++ ascii (endPartProps len part (hex c) (co.map hex)))) = lit "=y" ++ (lit "end" ++ 32 :: endPartProps len part (hex c) (co.map hex)) := by
    have e6 : text "=yend " ++ ascii (endPartProps len part (hex c) (co.map hex)) = ascii (lit "=y" ++ (lit "end" ++ 32 :: endPartProps len part (hex c) (co.map hex))) := by
      rw [text_lit, ← ascii_append]; rfl
    rw [e6, toStr_ascii hl _ (Printable.append (by unfold Printable; decide) (.append (by unfold Printable; decide) (.cons (by decide) (printable_endPartProps _ _ _ _)))).lt]
    exact trim_line _ _ (by simp [endPartProps]) (endPart_last _ _ _ hc4 _ hcl)
  have g := fromPost_two (lib := lib) (env := env) (ascii (beginPartProps part total ls size []) ++ fileName name)
    (ascii (lit "part" ++ 32 :: partProps (pos + 1) (pos + len))) bd (ascii (endPartProps len part (hex c) (co.map hex))) isRaw
    (no_crlf_append _ _ (printable_beginPartProps _ _ _ _).no_cr (safe_no_crlf hn))
    (by
      rw [text_lit, ← ascii_append]
      intro hh
      exact (Printable.append (by unfold Printable; decide) pp).no_cr (hh.subset (by simp)))
    (printable_endPartProps _ _ _ _).no_cr
    (by rw [l1]; intro hh; exact absurd (hh.symm.trans (show _ = lit "=ybegi" from rfl)) (by decide))
    (by rw [l3]; intro hh; exact absurd (hh.symm.trans (show _ = lit "=ypart" from rfl)) (by decide))
    (by rw [show text "\r\n=yend " = CR :: LF :: text "=yend " from by decide]; exact hb.cr _)
  simp only at g
  have sh := part_shape part total ls size (fileName name) pos len bd crc0 crc
  rw [hcr, hco'] at sh
  rw [← sh, l1, l2, l3] at g
  generalize hpo : partPost part total ls size (fileName name) pos len bd crc0 crc = post at g sh ⊢
  have pl : parseLines [lit "=y" ++ (lit "begin" ++ 32 :: beginPartProps part total ls size name), lit "=y" ++ (lit "part" ++ 32 :: partProps (pos + 1) (pos + len))] ⟨[], none⟩ [] =
      (⟨[(lit "part", partRec (pos + 1) (pos + len)), (lit "begin", beginPartRec part total ls size name)], none⟩, []) := by
    simp only [parseLines]
    rw [parseLine_eq (lit "begin") (beginPartProps part total ls size name) (by decide) (head_key (lit "part") _ (by decide)) (beginPart_last part total ls _ name hn) _ _ _
        (parse_beginPart part total ls size name []) (by decide)]
    rw [parseLine_eq (lit "part") (partProps (pos + 1) (pos + len)) (by decide) (head_key (lit "begin") _ (by decide)) (part_last _ _) _ _ _
        (parse_part _ _ _) (by rfl)]
    rfl
  have pe : parseLine (lit "=y" ++ (lit "end" ++ 32 :: endPartProps len part (hex c) (co.map hex)))
      ⟨[(lit "part", partRec (pos + 1) (pos + len)), (lit "begin", beginPartRec part total ls size name)], none⟩ [] =
      (multiProps part total ls size name (pos + 1) (pos + len) len (hex c) (co.map hex), []) := by
    rw [parseLine_eq (lit "end") (endPartProps len part (hex c) (co.map hex)) (by decide) (head_key (lit "size") _ (by decide)) ?_ _ _ _
      (parse_endPart len part _ _ (hex_no_space _) ?_ []) (by rfl)]
    · rfl
    · exact endPart_last _ _ _ hc4 _ hcl
    · intro x hx
      cases co with
      | none => simp at hx
      | some y => simp at hx; rw [← hx]; exact hex_no_space _
  rw [pl] at g
  simp only [pe, required_multi, Outcome.bind] at g
  have ex : ((post.take (text "=ybegin " ++ (ascii (beginPartProps part total ls size []) ++ fileName name) ++ [CR, LF] ++
        (text "=y" ++ ascii (lit "part" ++ 32 :: partProps (pos + 1) (pos + len))) ++ [CR, LF] ++ bd).length).drop
      (text "=ybegin " ++ (ascii (beginPartProps part total ls size []) ++ fileName name) ++ [CR, LF] ++
        (text "=y" ++ ascii (lit "part" ++ 32 :: partProps (pos + 1) (pos + len))) ++ [CR, LF]).length) = bd := by
    rw [sh, List.take_left' rfl, List.drop_left' rfl]
  refine ⟨_, _, ?_, ex, rfl, List.length_append⟩
  rw [g]
  simp only [conclude, ex, ho, Outcome.bind, crc32_eq h, hcr, hco']
  rw [checkProps_multi part total ls size name (pos + 1) (pos + len) len hl h1 hp ht ht2 hs (by omega) (by omega) hpos (by omega) c hc4 co hcl]
  rfl

/-- `from_post` of one part of a multi-part post. -/
theorem fromPost_part (h : lib.IsLib) (hl : env.Lawful) (name : Str) (hn : SafeName name) (part total ls size pos : Nat) (h1 : 1 ≤ ls) (hp : 1 ≤ part)
    (ht : part ≤ total) (ht2 : total ≤ 2 ^ 53) (hs : size ≤ 2 ^ 53) (d : List Byte) (hd : d ≠ []) (hpos : pos + d.length ≤ size) (crc : Option (BitVec 32)) (isRaw : Bool) :
    ∃ ds de, fromPost lib env (partPost part total ls size (fileName name) pos d.length (Spec.encode ls true 0 d) (Crc.crc1 0 d) crc) isRaw =
      .ret (.ok ⟨0, some ds, some de, (partPost part total ls size (fileName name) pos d.length (Spec.encode ls true 0 d) (Crc.crc1 0 d) crc).length,
        multiProps part total ls size name (pos + 1) (pos + d.length) d.length (hex (Crc.packCrc (Crc.crc1 0 d))) (crc.map fun c => hex (Crc.packCrc c)),
        some d, some (Crc.packCrc (Crc.crc1 0 d)), ["missing_yend_newline"]⟩) ∧
      ((partPost part total ls size (fileName name) pos d.length (Spec.encode ls true 0 d) (Crc.crc1 0 d) crc).take de).drop ds = Spec.encode ls true 0 d := by
  have hd' : 1 ≤ d.length := List.length_pos_iff.mpr hd
  obtain ⟨ds, de, g1, g2, _⟩ := fromPost_part_body h hl name hn part total ls size pos d.length h1 hp ht ht2 hs hd' hpos (Crc.crc1 0 d) crc _ (noKeyword_encode ls h1 d) isRaw d
    (decode_body h ls h1 d isRaw)
  rw [checkData_multi part total ls size name (pos + 1) (pos + d.length) d.length hl (by omega)] at g1
  exact ⟨ds, de, g1, g2⟩

end Yenc.Js
