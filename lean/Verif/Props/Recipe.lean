import Verif.Lemmas.Recipe
import Verif.Props.Post
import Verif.Props.Args
/-!
Property C99: posts put together by the caller, as in the example of README.md (256-269), with the data encoded at once or in pieces.
-/
namespace Yenc.Props
open Spec Yenc.Js

variable {lib : Lib} {env : Env}

/-- The header of the example, README.md:263: `new Buffer('=ybegin line=... size=... name=...\r\n')`. -/
def recipeHeader (ls size : Nat) (name : Str) : List Byte :=
  utf8Encode (lit "=ybegin line=" ++ dec ls ++ lit " size=" ++ dec size ++ lit " name=" ++ name ++ lit "\r\n")

/-- The footer of the example, README.md:267: `new Buffer('\r\n=yend size=... crc32=' + crc.toString('hex'))`. -/
def recipeFooter (size : Nat) (crc : List Byte) : List Byte :=
  utf8Encode (lit "\r\n=yend size=" ++ dec size ++ lit " crc32=" ++ hex crc)

/-- The example, README.md:256-269, for any name and data, with the line size left out as there. -/
def recipe (lib : Lib) (name : Str) (d : List Byte) : Outcome (List Byte) :=
  (Enc.apiEncode lib.enc [.buffer d]).bind fun body =>
  (lib.crc32 d).bind fun crc =>
  .ret (recipeHeader 128 d.length name ++ body ++ recipeFooter d.length crc)

/-- The caller's state while encoding piece by piece: the text so far and the checksum so far. -/
structure Pieces where
  out : List Byte
  crc : List Byte
deriving DecidableEq

/-- The caller adds a piece: where the current line is full it writes a line break and starts at column 0, otherwise it passes the column reached to `encode`;
the checksum so far is passed to `crc32`. Nothing is written for an empty piece. -/
def addPiece (lib : Lib) (ls : Nat) (s : Pieces) (p : List Byte) : Outcome Pieces :=
  let full := decide (ls ≤ Enc.column s.out ∧ p ≠ [])
  (Enc.apiEncode lib.enc [.buffer p, .int ls, .int (if full then 0 else Enc.column s.out)]).bind fun e =>
  (Crc.apiCrc32 lib.crc (lib.addr p) [.buffer p, .buffer s.crc]).bind fun crc =>
  .ret ⟨s.out ++ (if full then [CR, LF] else []) ++ e, crc⟩

/-- The caller's loop over the pieces. -/
def addPieces (lib : Lib) (ls : Nat) : Pieces → List (List Byte) → Outcome Pieces
  | s, [] => .ret s
  | s, p :: ps => (addPiece lib ls s p).bind fun s => addPieces lib ls s ps

/-- A post with the data encoded piece by piece; the size of the file is known beforehand. -/
def recipePieces (lib : Lib) (name : Str) (ls size : Nat) (ps : List (List Byte)) : Outcome (List Byte) :=
  (addPieces lib ls ⟨[], [0, 0, 0, 0]⟩ ps).bind fun s => .ret (recipeHeader ls size name ++ s.out ++ recipeFooter size s.crc)

theorem utf8Encode_cons (a : Nat) (ha : a < 128) (s : Str) : utf8Encode (a :: s) = BitVec.ofNat 8 a :: utf8Encode s := by
  have h1 : isHigh a = false := by simp [isHigh]; omega
  have h2 : isLow a = false := by simp [isLow]; omega
  have h3 : utf8Char a = [BitVec.ofNat 8 a] := by unfold utf8Char; rw [if_pos (by omega)]
  cases s with
  | nil => simp [utf8Encode, h1, h2, h3]
  | cons b s =>
    rw [utf8Encode]
    simp [h1, h2, h3]

theorem utf8Encode_ascii_append (a s : Str) (ha : ∀ c ∈ a, c < 128) : utf8Encode (a ++ s) = ascii a ++ utf8Encode s := by
  induction a with
  | nil => rfl
  | cons x a ih =>
    rw [List.cons_append, utf8Encode_cons x (ha x (by simp)), ih fun c hc => ha c (by simp [hc])]
    rfl

theorem utf8Encode_append_ascii (s t : Str) (ht : ∀ c ∈ t, c < 128) : utf8Encode (s ++ t) = utf8Encode s ++ ascii t := by
  cases t with
  | nil => simp [ascii]
  | cons b t =>
    have hb : isLow b = false := by have := ht b (by simp); simp [isLow]; omega
    rw [← utf8Encode_asciis _ ht]
    fun_induction utf8Encode s with
    | case1 => rfl
    | case2 u =>
      simp only [List.cons_append, List.nil_append]
      rw [utf8Encode, hb, Bool.and_false, if_neg (by simp)]
    | case3 u v r h ih => simp only [List.cons_append]; rw [utf8Encode, if_pos h, List.append_assoc, ← ih]
    | case4 u v r h ih => simp only [List.cons_append] at ih ⊢; rw [utf8Encode, if_neg h, List.append_assoc, ← ih]

theorem recipe_eq (name : Str) (hn : SafeName name) (ls size : Nat) (body : List Byte) (v : BitVec 32) :
    recipeHeader ls size name ++ body ++ recipeFooter size (Crc.packCrc v) = singlePost ls size (fileName name) body v := by
  have e1 : recipeHeader ls size name = text ("=ybegin line=" ++ toString ls ++ " size=" ++ toString size ++ " name=") ++ fileName name ++ text "\r\n" := by
    unfold recipeHeader
    rw [utf8Encode_append_ascii _ _ (by decide), utf8Encode_ascii_append, fileName_eq name hn.noBreak hn.len]
    · simp only [text_append, text_toString, ascii_append]
      simp only [text_lit]
    · exact (Printable.append (.append (.append (.append (by unfold Printable; decide) (printable_dec _)) (by unfold Printable; decide)) (printable_dec _)) (by unfold Printable; decide)).lt
  have e2 : recipeFooter size (Crc.packCrc v) = text ("\r\n=yend size=" ++ toString size ++ " crc32=" ++ hex8 v) := by
    unfold recipeFooter
    rw [utf8Encode_asciis]
    · simp only [text_append, text_toString, text_hex8 _ _ (Crc.packCrc_buf _), ascii_append]
      simp only [text_lit]
    · intro c hc
      rw [List.append_assoc, List.append_assoc, List.mem_append] at hc
      rcases hc with hc | hc
      · revert c; decide
      · exact (Printable.append (printable_dec _) (.append (by unfold Printable; decide) (printable_hex _))).lt c hc
  rw [e1, e2]
  simp only [singlePost, List.append_assoc]

/-- C99: the example of the README gives exactly the post that `multi_post(name, data.length, 1).encode(data)` gives, and `from_post` reads the data back. -/
theorem C99_recipe (h : lib.IsLib) (hl : env.Lawful) (name : Str) (hn : SafeName name) (d : List Byte) (hs : d.length ≤ 2 ^ 53) :
    ∃ post, recipe lib name d = .ret post ∧ ((multiPost name d.length 1 128).encode lib d).2 = .ret post ∧
      ∀ isRaw, ∃ r, fromPost lib env post isRaw = .ret (.ok r) ∧ r.data = some d ∧ r.warnings = ["missing_yend_newline"] := by
  have e : Enc.apiEncode lib.enc [.buffer d] = .ret (Spec.encode 128 true 0 d) := by
    rw [← encode_eq h d 128 (by decide) (by decide)]
    unfold Enc.apiEncode
    dsimp only
    rw [show Enc.lineArgs [] = Enc.lineArgs [.int ((128 : Nat) : Int)] by decide]
  refine ⟨_, by rw [recipe, e]; simp only [Outcome.bind, crc32_eq h]; rfl, ?_, fun isRaw => ?_⟩
  · rw [single_eq h name 128 1 (by decide) (by decide) d (by decide), recipe_eq name hn]
  · obtain ⟨ds, de, g, _⟩ := fromPost_single h hl name hn 128 (by decide) d hs isRaw
    rw [recipe_eq name hn]
    exact ⟨_, g, rfl, rfl⟩

example := C99_recipe genericLib_isLib natEnv_lawful (lit "n") ⟨by decide, by decide, by decide, by decide⟩ [65#8, 214#8] (by decide)

theorem addPiece_eq (h : lib.IsLib) (ls : Nat) (h1 : 1 ≤ ls) (h2 : ls + 6 < 2 ^ 31) (s : Pieces) (v : BitVec 32) (hc : s.crc = Crc.packCrc v) (p : List Byte) :
    addPiece lib ls s p = .ret ⟨s.out ++ Spec.encode ls true (Enc.column s.out) p, Crc.packCrc (Crc.crc1 v p)⟩ := by
  have hcrc := Crc.apiCrc32_init h.crc.correct (lib.addr p) p (hc ▸ Crc.packCrc_buf v) []
  by_cases hp : p = []
  · subst hp
    simp only [addPiece, hcrc, ne_eq, not_true_eq_false, and_false, decide_false, Bool.false_eq_true, if_false]
    simp [Enc.apiEncode, Outcome.bind, Spec.encode]
  · by_cases hf : ls ≤ Enc.column s.out
    · have := Enc.apiEncode_eq h.enc.correct ls 0 p h1 h2 (by omega)
      simp only [addPiece, hcrc, ne_eq, hp, not_false_eq_true, and_true, hf, decide_true, if_true]
      rw [show (0 : Int) = ((0 : Nat) : Int) from rfl, this]
      simp [Outcome.bind, Enc.encode_full ls h1 true _ hf p hp]
    · have := Enc.apiEncode_eq h.enc.correct ls (Enc.column s.out) p h1 h2 (by omega)
      simp only [addPiece, hcrc, ne_eq, hf, false_and, decide_false, Bool.false_eq_true, if_false, this]
      simp [Outcome.bind]

theorem addPieces_eq (h : lib.IsLib) (ls : Nat) (h1 : 1 ≤ ls) (h2 : ls + 6 < 2 ^ 31) (ps : List (List Byte)) (out d : List Byte) (hb : Enc.Body ls out d) :
    ∃ body, addPieces lib ls ⟨out, Crc.packCrc (Crc.crc1 0 d)⟩ ps = .ret ⟨body, Crc.packCrc (Crc.crc1 0 (d ++ ps.flatten))⟩ ∧ Enc.Body ls body (d ++ ps.flatten) := by
  induction ps generalizing out d with
  | nil => exact ⟨out, by simp [addPieces], by simpa using hb⟩
  | cons p ps ih =>
    obtain ⟨body, g1, g2⟩ := ih _ _ (hb.add h1 p)
    refine ⟨body, ?_, by simpa using g2⟩
    rw [addPieces, addPiece_eq h ls h1 h2 _ _ rfl p, Outcome.bind, Crc.crc1_append, g1]
    simp

theorem start_crc : ([0, 0, 0, 0] : List Byte) = Crc.packCrc (Crc.crc1 0 []) := by decide

/-- C99: data encoded piece by piece, whatever the pieces.  Both decoders give the data back; the lines are those of an encoded message: no NUL, line breaks only as pairs, no
line starts with a dot, tab or space or ends in a tab, a space or half an escape, every line but the last has `ls` characters, or one more for an escape. -/
theorem C99_pieces (h : lib.IsLib) (ls : Nat) (h1 : 1 ≤ ls) (h2 : ls + 6 < 2 ^ 31) (ps : List (List Byte)) :
    ∃ s, addPieces lib ls ⟨[], [0, 0, 0, 0]⟩ ps = .ret s ∧
      (∃ c, CrcBuf s.crc c ∧ IsCrc32 0 ps.flatten c) ∧
      (∀ isRaw, Dec.apiDecode lib.dec [.buffer s.out, .bool isRaw] = .ret ps.flatten) ∧
      (∀ x ∈ splitLines s.out, (∀ b ∈ x, b ≠ NUL ∧ b ≠ CR ∧ b ≠ LF) ∧ paired x = true ∧ (∀ b ∈ x.head?, b ≠ DOT ∧ b ≠ TAB ∧ b ≠ SP) ∧ ∀ b ∈ x.getLast?, b ≠ TAB ∧ b ≠ SP) ∧
      LineLengths ls 0 (splitLines s.out) ∧ (ps.flatten ≠ [] → ∀ l ∈ (splitLines s.out).getLast?, l ≠ []) := by
  obtain ⟨body, g1, g2⟩ := addPieces_eq h ls h1 h2 ps [] [] (.empty ls)
  rw [← start_crc] at g1
  obtain ⟨L, l, e1, e2, e3, e4, e5⟩ := g2.lines
  have hsplit : splitLines body = L ++ [l] := by
    rw [e1, Enc.splitLines_joinLines _ (by simp) fun x hx hm => ((e4 x hx).1 _ hm).2.1 rfl]
  refine ⟨_, g1, ⟨_, Crc.packCrc_buf _, Crc.crc1_spec 0 _⟩, fun isRaw => g2.decode h.dec isRaw, ?_⟩
  simp only [hsplit]
  refine ⟨e4, e5, fun hne x hx => ?_⟩
  have : x = l := by simpa using hx.symm
  rw [this]; exact e3 hne

example := C99_pieces genericLib_isLib 128 (by decide) (by decide) [[65#8], [], [214#8]]

/-- C99: and `from_post` reads the post back, without a warning about size or checksum. -/
theorem C99_pieces_post (h : lib.IsLib) (hl : env.Lawful) (name : Str) (hn : SafeName name) (ls : Nat) (h1 : 1 ≤ ls) (h2 : ls + 6 < 2 ^ 31) (ps : List (List Byte))
    (hs : ps.flatten.length ≤ 2 ^ 53) :
    ∃ post, recipePieces lib name ls ps.flatten.length ps = .ret post ∧
      ∀ isRaw, ∃ r, fromPost lib env post isRaw = .ret (.ok r) ∧ r.data = some ps.flatten ∧ r.warnings = ["missing_yend_newline"] := by
  obtain ⟨body, g1, g2⟩ := addPieces_eq h ls h1 h2 ps [] [] (.empty ls)
  rw [← start_crc, List.nil_append] at g1
  rw [List.nil_append] at g2
  refine ⟨_, by rw [recipePieces, g1]; rfl, fun isRaw => ?_⟩
  obtain ⟨ds, de, g3, -⟩ := fromPost_single_body h hl name hn ls h1 ps.flatten.length hs (Crc.crc1 0 ps.flatten) body g2.noKeyword isRaw _ (g2.decode h.dec isRaw)
  rw [checkData_single hl ls name _ hs] at g3
  rw [recipe_eq name hn]
  exact ⟨_, g3, rfl, rfl⟩

-- the pieces 'A', '' and 'BC' in lines of two characters
example : addPieces genericLib 2 ⟨[], [0, 0, 0, 0]⟩ [[65#8], [], [66#8, 67#8]] = .ret ⟨text "kl\r\nm", [0xa3#8, 0x83#8, 0x03#8, 0x48#8]⟩ := by decide +kernel

/-- C99, why the caller has to write the line break: passed on as it is, a column after an escape at the end of a line is refused, and a column that fills the line is taken for 0. -/
theorem C99_break_needed :
    Enc.apiEncode Enc.encodeGeneric [.buffer [65#8, 214#8], .int 2, .int 0] = .ret [107#8, EQ, 64#8] ∧
    (∃ m, Enc.apiEncode Enc.encodeGeneric [.buffer [65#8], .int 2, .int 3] = .throw m) ∧
    Enc.apiEncode Enc.encodeGeneric [.buffer [65#8, 65#8], .int 2, .int 2] = .ret [107#8, 107#8] := by
  refine ⟨by decide +kernel, ⟨"Column offset cannot exceed the line size and cannot be negative", by decide +kernel⟩, by decide +kernel⟩

end Yenc.Props
