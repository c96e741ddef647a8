import Verif.Lemmas.JsTotal
import Verif.Props.Post
/-!
Properties C45, C46, C60, C61: `from_post`.
-/
namespace Yenc.Props
open Spec Yenc.Js

variable {lib : Lib} {env : Env}

/-- A property of a result: `p.props[line][key]`. -/
def field (p : Js.Post) (line key : String) : Option Str := (p.props.get (lit line)).get (lit key)

theorem lit_toString (n : Nat) : lit (toString n) = dec n := by
  simp [lit, dec, toString, Nat.repr]

theorem lit_hex8 (v : BitVec 32) : lit (hex8 v) = hex (Crc.packCrc v) := by
  have h := text_hex8 v _ (Crc.packCrc_buf v)
  rw [text_lit] at h
  have key : ∀ a b : Str, (∀ c ∈ a, c < 256) → (∀ c ∈ b, c < 256) → ascii a = ascii b → a = b := by
    intro a
    induction a with
    | nil => intro b _ _ hab; cases b <;> simp [ascii] at hab ⊢
    | cons x a ih =>
      intro b h1 h2 hab
      cases b with
      | nil => simp [ascii] at hab
      | cons y b =>
        simp only [ascii, List.map_cons, List.cons.injEq] at hab
        have e1 := congrArg BitVec.toNat hab.1
        simp only [BitVec.toNat_ofNat] at e1
        have := h1 x (by simp); have := h2 y (by simp)
        rw [ih b (fun c hc => h1 c (by simp [hc])) (fun c hc => h2 c (by simp [hc])) hab.2, show x = y by omega]
  apply key _ _ _ _ h
  · intro c hc
    simp only [lit, hex8, String.toList_ofList, List.map_map, List.mem_map, Function.comp] at hc
    obtain ⟨i, _, rfl⟩ := hc
    have : ∀ n, n < 16 → (Nat.digitChar n).toNat < 256 := by decide
    exact this _ (Nat.mod_lt _ (by decide))
  · intro c hc
    have := hex_range _ c hc
    omega

/-- C45, single-part posts: parsing the result of `multi_post(name, data.length, 1, ls).encode(data)` gives the data, its CRC-32 and the properties, and
no warning other than that the end line has no line break (the library does not write one). -/
theorem C45_single (h : lib.IsLib) (hl : env.Lawful) (name : Str) (hn : SafeName name) (ls parts : Nat) (h1 : 1 ≤ ls) (h2 : ls + 6 < 2 ^ 31) (hp : parts ≤ 1)
    (d : List Byte) (hs : d.length ≤ 2 ^ 53) (isRaw : Bool) :
    ∃ post p crc cbuf, ((multiPost name d.length parts ls).encode lib d).2 = .ret post ∧ fromPost lib env post isRaw = .ret (.ok p) ∧
      IsCrc32 0 d crc ∧ CrcBuf cbuf crc ∧
      p.data = some d ∧ p.crc32 = some cbuf ∧ p.warnings = ["missing_yend_newline"] ∧ p.yencStart = 0 ∧ p.yencEnd = post.length ∧
      field p "begin" "line" = some (lit (toString ls)) ∧ field p "begin" "size" = some (lit (toString d.length)) ∧ field p "begin" "name" = some name ∧
      field p "end" "size" = some (lit (toString d.length)) ∧ field p "end" "crc32" = some (lit (hex8 crc)) ∧
      p.props.get (lit "part") = .undef := by
  obtain ⟨ds, de, e, _⟩ := fromPost_single h hl name hn ls h1 d hs isRaw
  refine ⟨_, _, Crc.crc1 0 d, _, single_eq h name ls parts h1 h2 d hp, e, Crc.crc1_spec 0 d, Crc.packCrc_buf _, ?_⟩
  simp only [lit_toString, lit_hex8, true_and, field]
  exact ⟨rfl, rfl, rfl, rfl, rfl, rfl⟩

/-- C45, parts: for a file cut into two or more non-empty pieces, parsing each part gives its piece, the CRC-32 of the piece, and the properties. -/
theorem C45_parts (h : lib.IsLib) (hl : env.Lawful) (name : Str) (hn : SafeName name) (ls : Nat) (h1 : 1 ≤ ls) (h2 : ls + 6 < 2 ^ 31) (ds : List (List Byte))
    (hp : 1 < ds.length) (hne : ∀ d ∈ ds, d ≠ []) (hs : ds.flatten.length < 2 ^ 53) (isRaw : Bool) :
    ∃ ps : List (List Byte), (feedParts lib name ls ds).2 = ps.map .ret ∧ ps.length = ds.length ∧
      ∀ i (hi : i < ds.length), ∃ post p crc cbuf, ps[i]? = some post ∧ fromPost lib env post isRaw = .ret (.ok p) ∧
        IsCrc32 0 ds[i] crc ∧ CrcBuf cbuf crc ∧
        p.data = some ds[i] ∧ p.crc32 = some cbuf ∧ p.warnings = ["missing_yend_newline"] ∧ p.yencStart = 0 ∧ p.yencEnd = post.length ∧
        field p "begin" "part" = some (lit (toString (i + 1))) ∧ field p "begin" "total" = some (lit (toString ds.length)) ∧
        field p "begin" "line" = some (lit (toString ls)) ∧ field p "begin" "size" = some (lit (toString ds.flatten.length)) ∧
        field p "begin" "name" = some name ∧
        field p "part" "begin" = some (lit (toString ((ds.take i).flatten.length + 1))) ∧
        field p "part" "end" = some (lit (toString ((ds.take i).flatten.length + ds[i].length))) ∧
        field p "end" "size" = some (lit (toString ds[i].length)) ∧ field p "end" "part" = some (lit (toString (i + 1))) ∧
        field p "end" "pcrc32" = some (lit (hex8 crc)) ∧
        (i + 1 < ds.length → field p "end" "crc32" = none) ∧
        (i + 1 = ds.length → ∃ whole, IsCrc32 0 ds.flatten whole ∧ field p "end" "crc32" = some (lit (hex8 whole))) := by
  have b := (run_all h (show ds.flatten.length < 2 ^ 63 by omega) h1 h2 ds (EncInv.init (name := name) (size := ds.flatten.length) hp h1) (by simp)
    (by simp) (by simp)).2
  have hcount : ds.length ≤ ds.flatten.length := by
    clear b hp hs isRaw
    induction ds with
    | nil => simp
    | cons d ds ih =>
      have := List.length_pos_iff.2 (hne d (by simp))
      have h4 : ds.length ≤ ds.flatten.length := ih (fun d hd => hne d (by simp [hd]))
      simp only [List.length_cons, List.flatten_cons, List.length_append]
      omega
  refine ⟨_, b, partsOf_length .., fun i hi => ?_⟩
  have hpos : (ds.take i).flatten.length + ds[i].length ≤ ds.flatten.length := by
    have e := (C42_ranges ds).2.2 i hi
    rw [← e]
    conv_rhs => rw [← List.take_append_drop (i + 1) ds]
    rw [List.flatten_append, List.length_append]; omega
  obtain ⟨x, y, e, _⟩ := fromPost_part h hl name hn (i + 1) ds.length ls ds.flatten.length (ds.take i).flatten.length h1 (by omega) (by omega) (by omega)
    (by omega) ds[i] (hne _ (List.getElem_mem hi)) hpos (if i + 1 = ds.length then some (Crc.crc1 0 ((ds.take i).flatten ++ ds[i])) else none) isRaw
  refine ⟨_, _, Crc.crc1 0 ds[i], _, ?_, e, Crc.crc1_spec 0 _, Crc.packCrc_buf _, ?_⟩
  · rw [List.getElem?_eq_getElem (by rw [partsOf_length]; exact hi), partsOf_getElem _ _ _ _ _ _ _ _ hi]
    simp only [partOf, List.nil_append, Nat.zero_add]
  · simp only [lit_toString, lit_hex8, true_and, field]
    refine ⟨rfl, rfl, rfl, rfl, rfl, rfl, rfl, ?_, ?_, ?_, ?_, ?_⟩
    · split <;> rfl
    · split <;> rfl
    · split <;> rfl
    · intro hlt
      rw [if_neg (by omega)]; rfl
    · intro heq
      refine ⟨Crc.crc1 0 ds.flatten, Crc.crc1_spec 0 _, ?_⟩
      rw [if_pos heq, show (ds.take i).flatten ++ ds[i] = ds.flatten by
        have := congrArg List.flatten (List.take_succ_eq_append_getElem hi)
        rw [heq, List.take_length] at this
        rw [this, List.flatten_append, List.flatten_singleton]]
      rfl

/-- Numbers for examples: NaN or a natural number. -/
def natEnv : Env where
  toStr := utf8Decode
  Num := Option Nat
  num s := if s ≠ [] ∧ s.all (fun c => 48 ≤ c && c ≤ 57) then some (decVal s) else none
  ofNat := some
  lt a b := match a, b with | some a, some b => a < b | _, _ => false
  ne a b := match a, b with | some a, some b => a ≠ b | _, _ => true
  range b e := match b, e with | some b, some e => some (e + 1 - b) | _, _ => none

theorem natEnv_lawful : natEnv.Lawful where
  utf8 := rfl
  num n _ := by
    have h2 : ((dec n).all fun c => 48 ≤ c && c ≤ 57) = true := by
      rw [List.all_eq_true]; intro c hc; have := dec_digits n c hc; simpa using this
    simp only [natEnv, h2, decVal_dec, dec_ne_nil, ne_eq, not_false_eq_true, and_self, if_true]
  lt a b _ _ := rfl
  ne a b _ _ := rfl
  range b e _ _ := rfl

-- the hypotheses about the name and the environment can be met
example : SafeName (lit "my file.bin") ∧ natEnv.Lawful := by
  refine ⟨⟨by decide, by decide, by decide, by decide⟩, natEnv_lawful⟩

example := C45_single genericLib_isLib natEnv_lawful (lit "my file.bin") ⟨by decide, by decide, by decide, by decide⟩ 128 1 (by decide) (by decide) (by decide) [65#8, 214#8] (by decide) true

/-- C45 does not extend to empty pieces: the part of an empty piece is written with a range that the parser rejects. -/
theorem C45_empty_part_false :
    ((fun o : Outcome (List Byte) => o.bind fun post => fromPost genericLib natEnv post false) <$> (feedParts genericLib (lit "n") 128 [[65#8], []]).2)[1]?.map
      (fun o => match o with | .ret (.ok p) => p.warnings | _ => []) = some ["missing_yend_newline", "invalid_part_range"] := by
  decide +kernel

/-- C46: whatever the bytes, `from_post` returns: a result, or one of the three error codes.  The text conversion has to keep leading ASCII (as UTF-8, the
default, does). -/
theorem C46_from_post_total (h : lib.IsLib) (he : env.AsciiPrefix) (data : List Byte) (isRaw : Bool) :
    ∃ r, fromPost lib env data isRaw = .ret r ∧
      ((∃ p, r = .ok p) ∨ r = .error "no_start_found" ∨ r = .error "no_end_found" ∨ r = .error "missing_required_properties") := by
  unfold fromPost
  cases hs : findStart data with
  | none => exact ⟨_, rfl, .inr (.inl rfl)⟩
  | some s =>
    simp only
    cases hl : layout env data (headerLoop env data data.length s (findFrom crlf data (s + 8)) []) with
    | none => exact ⟨_, rfl, .inr (.inr (.inl rfl))⟩
    | some l =>
      obtain ⟨r1, r2⟩ := layout_records he hs hl
      obtain ⟨q, hq⟩ := required_total l.props r1 r2
      simp only [hq, Outcome.bind]
      cases q with
      | none => exact ⟨_, rfl, .inr (.inr (.inr rfl))⟩
      | some size =>
        simp only [conclude]
        split
        · obtain ⟨out, ho, _⟩ := decode_total h ((data.take _).drop _) isRaw
          rw [ho]
          simp only [Outcome.bind, crc32_eq h]
          exact ⟨_, rfl, .inl ⟨_, rfl⟩⟩
        · exact ⟨_, rfl, .inl ⟨_, rfl⟩⟩

example : natEnv.AsciiPrefix := natEnv_lawful.asciiPrefix

-- each outcome occurs
example : fromPost genericLib natEnv (text "hello") false = .ret (.error "no_start_found") := by decide +kernel
example : fromPost genericLib natEnv (text "=ybegin line=1\r\nhello") false = .ret (.error "no_end_found") := by decide +kernel
example : fromPost genericLib natEnv (text "=ybegin line=1\r\nhello\r\n=yend") false = .ret (.error "no_end_found") := by decide +kernel
example : fromPost genericLib natEnv (text "=ybegin line=1\r\nhello\r\n=yend ") false = .ret (.error "missing_required_properties") := by decide +kernel

/-! ### Soundness of results and warnings -/

/-- What is checked against the data: warnings that no earlier step issues. -/
def dataWarnings : List String := ["data_size_mismatch", "pcrc32_mismatch", "crc32_mismatch"]

/-- None of the warnings about the data. -/
def Quiet (ws : List String) : Prop := ∀ w ∈ ws, w ∉ dataWarnings

theorem Quiet.nil : Quiet [] := by simp [Quiet]

theorem Quiet.append {a b : List String} (ha : Quiet a) (hb : Quiet b) : Quiet (a ++ b) := by
  intro w hw
  rcases List.mem_append.1 hw with h | h
  · exact ha w h
  · exact hb w h

theorem Quiet.one {w : String} (h : w ∉ dataWarnings) : Quiet [w] := by intro v hv; rw [List.mem_singleton] at hv; exact hv ▸ h

theorem Quiet.push {a : List String} (ha : Quiet a) (w : String) (h : w ∉ dataWarnings) : Quiet (a ++ [w]) := ha.append (.one h)

theorem quiet_parseProps (tag : Str) (n : Nat) (line : Str) (p : Props) (ws : List String) (h : Quiet ws) : Quiet (parsePropsN tag n line p ws).2 := by
  induction n generalizing line p ws with
  | zero => simp only [parsePropsN]; split; exacts [h, h.push _ (by decide)]
  | succ n ih =>
    simp only [parsePropsN]
    split
    · simp only; split; exacts [h, h.push _ (by decide)]
    · apply ih
      split <;> split
      exacts [h.push _ (by decide), (h.push _ (by decide)).push _ (by decide), h, h.push _ (by decide)]

theorem quiet_parseLine (l : Str) (y : YData) (ws : List String) (h : Quiet ws) : Quiet (parseLine l y ws).2 := by
  simp only [parseLine]
  have := quiet_parseProps (lineTag l) (lineRest l).length (lineRest l) ⟨[]⟩ ws h
  split
  · exact Quiet.push this _ (by decide)
  · exact this

theorem quiet_parseLines (ls : List Str) (y : YData) (ws : List String) (h : Quiet ws) : Quiet (parseLines ls y ws).2 := by
  induction ls generalizing y ws with
  | nil => exact h
  | cons l ls ih => exact ih _ _ (quiet_parseLine l y ws h)

theorem quiet_layout {data : List Byte} {hd : Header} {l : Layout} (h : layout env data hd = some l) : Quiet l.warnings := by
  cases hd with
  | noEnd => simp [layout] at h
  | empty lines e =>
    simp only [layout, Option.some.injEq] at h; subst h
    exact quiet_parseLines _ _ _ .nil
  | dataAt lines ds =>
    simp only [layout] at h
    split at h
    · simp at h
    · simp only [Option.some.injEq] at h; subst h
      refine Quiet.append ?_ (quiet_parseLines _ _ _ .nil)
      have := quiet_parseLines lines ⟨[], none⟩ [] .nil
      split
      · exact Quiet.push this _ (by decide)
      · exact this

theorem quiet_checkNumber (r : Rec) (key : String) (h1 : "invalid_prop_" ++ key ∉ dataWarnings) (h2 : "zero_prop_" ++ key ∉ dataWarnings) (ws : List String)
    (h : Quiet ws) : Quiet (checkNumber r key ws) := by
  unfold checkNumber
  split
  · split
    · exact h.push _ h1
    · split
      · exact h.push _ h2
      · exact h
  · exact h

theorem quiet_checkProps (y : YData) (size : Str) (ws : List String) (h : Quiet ws) : Quiet (checkProps env y size ws) := by
  have n : ∀ ws, Quiet ws → Quiet (checkNumbers y ws) := by
    intro ws h
    simp only [checkNumbers, List.foldl_cons, List.foldl_nil]
    have a : ∀ ws, Quiet ws → Quiet (if (y.get (lit "begin")).truthy then checkNumber (y.get (lit "begin")) "size" (checkNumber (y.get (lit "begin")) "part"
        (checkNumber (y.get (lit "begin")) "total" (checkNumber (y.get (lit "begin")) "line" ws))) else ws) := by
      intro ws h
      split
      · exact quiet_checkNumber _ _ (by decide) (by decide) _ (quiet_checkNumber _ _ (by decide) (by decide) _ (quiet_checkNumber _ _ (by decide) (by decide) _
          (quiet_checkNumber _ _ (by decide) (by decide) _ h)))
      · exact h
    have b : ∀ ws, Quiet ws → Quiet (if (y.get (lit "part")).truthy then checkNumber (y.get (lit "part")) "end" (checkNumber (y.get (lit "part")) "begin" ws) else ws) := by
      intro ws h
      split
      · exact quiet_checkNumber _ _ (by decide) (by decide) _ (quiet_checkNumber _ _ (by decide) (by decide) _ h)
      · exact h
    have c : ∀ ws, Quiet ws → Quiet (if (y.get (lit "end")).truthy then checkNumber (y.get (lit "end")) "part" (checkNumber (y.get (lit "end")) "size" ws) else ws) := by
      intro ws h
      split
      · exact quiet_checkNumber _ _ (by decide) (by decide) _ (quiet_checkNumber _ _ (by decide) (by decide) _ h)
      · exact h
    exact c _ (b _ (a _ h))
  have p : ∀ b e ws, Quiet ws → Quiet (checkPart env b e ws) := by
    intro b e ws h
    simp only [checkPart]
    split
    · exact h.push _ (by decide)
    · split
      · exact h.push _ (by decide)
      · exact h
  have r : ∀ b p e ws, Quiet ws → Quiet (checkRange env b p e size ws) := by
    intro b p e ws h
    simp only [checkRange]
    split
    · split
      · exact h.push _ (by decide)
      · split
        · exact h.push _ (by decide)
        · split
          · exact h.push _ (by decide)
          · exact h
    · split
      · exact h.push _ (by decide)
      · exact h
  have x : ∀ e k ws, "invalid_prop_" ++ k ∉ dataWarnings → Quiet ws → Quiet (checkHex e k ws) := by
    intro e k ws hk h
    simp only [checkHex]
    split
    · split
      · exact h
      · exact h.push _ hk
    · exact h
  have s : ∀ b e ws, Quiet ws → Quiet (checkSize env b e ws) := by
    intro b e ws h
    simp only [checkSize]
    split
    · exact h.push _ (by decide)
    · split
      · exact h.push _ (by decide)
      · exact h
  exact s _ _ _ (x _ _ _ (by decide) (x _ _ _ (by decide) (r _ _ _ _ (p _ _ _ (n _ h)))))

theorem checkData_mem (p e : Rec) (size : Str) (len : Nat) (crc : Str) (low : Bool) (ws : List String) (h : Quiet ws) :
    ("data_size_mismatch" ∈ checkData env p e size len crc low ws ↔ env.ne (env.num size) (env.ofNat len) = true) ∧
    ("pcrc32_mismatch" ∈ checkData env p e size len crc low ws ↔ crcDiffers (e.get (lit "pcrc32")) crc low = true) ∧
    ("crc32_mismatch" ∈ checkData env p e size len crc low ws ↔ p.truthy = false ∧ crcDiffers (e.get (lit "crc32")) crc low = true) := by
  have q1 : "data_size_mismatch" ∉ ws := fun hm => h _ hm (by decide)
  have q2 : "pcrc32_mismatch" ∉ ws := fun hm => h _ hm (by decide)
  have q3 : "crc32_mismatch" ∉ ws := fun hm => h _ hm (by decide)
  simp only [checkData]
  generalize env.ne (env.num size) (env.ofNat len) = a
  generalize crcDiffers (e.get (lit "pcrc32")) crc low = b
  generalize crcDiffers (e.get (lit "crc32")) crc low = c
  generalize p.truthy = d
  cases a <;> cases b <;> cases c <;> cases d <;> simp [q1, q2, q3]

/-- How `from_post` succeeds. -/
theorem fromPost_ok {data : List Byte} {isRaw : Bool} {p : Js.Post} (hp : fromPost lib env data isRaw = .ret (.ok p)) :
    ∃ s l size, findStart data = some s ∧ layout env data (headerLoop env data data.length s (findFrom crlf data (s + 8)) []) = some l ∧
      required l.props = .ret (some size) ∧ conclude lib env data isRaw s l size = .ret (.ok p) := by
  unfold fromPost at hp
  split at hp
  · simp at hp
  · rename_i s hs
    split at hp
    · simp at hp
    · rename_i l hl
      cases hr : required l.props with
      | ret o =>
        rw [hr] at hp
        simp only [Outcome.bind] at hp
        cases o with
        | none => simp at hp
        | some size => exact ⟨s, l, size, hs, hl, hr, hp⟩
      | throw m => rw [hr] at hp; simp [Outcome.bind] at hp
      | ub => rw [hr] at hp; simp [Outcome.bind] at hp

/-- C60: what a successful `from_post` returns, for arbitrary bytes.  The post starts at the first begin marker; the data section ends at the last end
marker; `data` is the decoding of that section (by the reference decoder, up to the defect of C16 at the end of the section) and `crc32` is its
CRC-32. -/
theorem C60_from_post_sound (h : lib.IsLib) (data : List Byte) (isRaw : Bool) (p : Js.Post) (hp : fromPost lib env data isRaw = .ret (.ok p)) :
    text "=ybegin " <+: data.drop p.yencStart ∧
    (p.yencStart = 0 ∨ ∃ i, p.yencStart = i + 2 ∧ text "\r\n=ybegin " <+: data.drop i ∧ ∀ j < i, ¬ text "\r\n=ybegin " <+: data.drop j) ∧
    (∀ out, p.data = some out → ∃ ds de crc cbuf, p.dataStart = some ds ∧ p.dataEnd = some de ∧ ds ≤ de ∧
      text "\r\n=yend " <+: data.drop de ∧ (∀ i > de, ¬ text "\r\n=yend " <+: data.drop i) ∧
      (out = Spec.decode isRaw ((data.take de).drop ds) ∨
        isRaw = true ∧ Dec.EscapedBreakTail ((data.take de).drop ds) ∧ out = (Spec.decode isRaw ((data.take de).drop ds)).dropLast) ∧
      p.crc32 = some cbuf ∧ CrcBuf cbuf crc ∧ IsCrc32 0 out crc) ∧
    (p.data = none → p.dataStart = none ∧ p.dataEnd = none ∧ p.crc32 = none) := by
  obtain ⟨s, l, size, hs, hl, hr, hc⟩ := fromPost_ok hp
  have hst : p.yencStart = s := by
    simp only [conclude] at hc
    split at hc
    · obtain ⟨out, ho, _⟩ := decode_total h ((data.take _).drop _) isRaw
      rw [ho] at hc
      simp only [Outcome.bind, crc32_eq h, Outcome.ret.injEq, FromPost.ok.injEq] at hc
      rw [← hc]
    · simp only [Outcome.ret.injEq, FromPost.ok.injEq] at hc
      rw [← hc]
  have hly : (l.dataStart = none ∧ l.dataEnd = none) ∨ ∃ ds i, l.dataStart = some ds ∧ l.dataEnd = some (ds + i) ∧
      findRev (ascii (lit "\r\n=yend ")) (data.drop ds) = some i := by
    revert hl
    generalize headerLoop env data data.length s (findFrom crlf data (s + 8)) [] = hd
    intro hl
    cases hd with
    | noEnd => simp [layout] at hl
    | empty lines e => simp only [layout, Option.some.injEq] at hl; subst hl; exact .inl ⟨rfl, rfl⟩
    | dataAt lines ds =>
      simp only [layout] at hl
      split at hl
      · simp at hl
      · rename_i i hi
        simp only [Option.some.injEq] at hl; subst hl
        exact .inr ⟨ds, i, rfl, rfl, hi⟩
  refine ⟨hst ▸ (findStart_spec hs).1, ?_, ?_, ?_⟩
  · rw [hst]
    unfold findStart at hs
    split at hs
    · exact .inl (by simpa using hs.symm)
    · split at hs
      · rename_i i hi
        injection hs with hs
        rw [← text_lit] at hi
        exact .inr ⟨i, hs.symm, (find_some hi).2, find_first hi⟩
      · simp at hs
  · intro out ho
    rcases hly with ⟨h1, h2⟩ | ⟨ds, i, h1, h2, hf⟩
    · simp only [conclude, h1, h2, Outcome.ret.injEq, FromPost.ok.injEq] at hc
      rw [← hc] at ho; simp at ho
    · obtain ⟨out', ho', hx⟩ := decode_total h ((data.take (ds + i)).drop ds) isRaw
      simp only [conclude, h1, h2, ho', Outcome.bind, crc32_eq h, Outcome.ret.injEq, FromPost.ok.injEq] at hc
      rw [← hc] at ho
      simp only [Option.some.injEq] at ho
      subst ho
      rw [← text_lit] at hf
      obtain ⟨_, hf2⟩ := findRev_some hf
      rw [List.drop_drop] at hf2
      refine ⟨ds, ds + i, Crc.crc1 0 out', _, by rw [← hc], by rw [← hc], by omega, hf2, ?_, hx, by rw [← hc], Crc.packCrc_buf _, Crc.crc1_spec 0 _⟩
      intro j hj hpre
      refine findRev_last (by decide) hf (j - ds) (by omega) ?_
      rw [List.drop_drop, show ds + (j - ds) = j by omega]; exact hpre
  · intro ho
    rcases hly with ⟨h1, h2⟩ | ⟨ds, i, h1, h2, hf⟩
    · simp only [conclude, h1, h2, Outcome.ret.injEq, FromPost.ok.injEq] at hc
      rw [← hc]; exact ⟨rfl, rfl, rfl⟩
    · obtain ⟨out', ho', hx⟩ := decode_total h ((data.take (ds + i)).drop ds) isRaw
      simp only [conclude, h1, h2, ho', Outcome.bind, crc32_eq h, Outcome.ret.injEq, FromPost.ok.injEq] at hc
      rw [← hc] at ho; simp at ho

theorem crcDiffers_iff (s : Option Str) (hx : Str) (low : Bool) :
    crcDiffers s hx low = true ↔ ∃ t, s = some t ∧ t ≠ [] ∧ (if low then lower t else t) ≠ hx := by
  cases s with
  | none => simp [crcDiffers]
  | some t => cases t <;> simp [crcDiffers]

/-- C61: the warnings about the data are exact.  For every successful parse with a data section: the end line claims a size; "data_size_mismatch" is among
the warnings iff that number differs from the length of the data; "pcrc32_mismatch" iff there is a non-empty `pcrc32` whose lower-case text is not the
CRC-32 of the data in hexadecimal; "crc32_mismatch" iff there is no part line and `crc32` differs in this way. -/
theorem C61_warnings_exact (h : lib.IsLib) (data : List Byte) (isRaw : Bool) (p : Js.Post) (hp : fromPost lib env data isRaw = .ret (.ok p)) (out : List Byte)
    (ho : p.data = some out) (crc : BitVec 32) (hcrc : IsCrc32 0 out crc) :
    (∃ size, field p "end" "size" = some size ∧ size ≠ [] ∧
      ("data_size_mismatch" ∈ p.warnings ↔ env.ne (env.num size) (env.ofNat out.length) = true)) ∧
    ("pcrc32_mismatch" ∈ p.warnings ↔ ∃ t, field p "end" "pcrc32" = some t ∧ t ≠ [] ∧ lower t ≠ lit (hex8 crc)) ∧
    ("crc32_mismatch" ∈ p.warnings ↔ (p.props.get (lit "part")).truthy = false ∧
      ∃ t, field p "end" "crc32" = some t ∧ t ≠ [] ∧ lower t ≠ lit (hex8 crc)) := by
  obtain ⟨s, l, size, hs, hl, hr, hc⟩ := fromPost_ok hp
  have hsz : (l.props.get (lit "end")).get (lit "size") = some size ∧ size ≠ [] := by
    unfold required at hr
    split at hr
    · simp at hr
    · simp at hr
    · split at hr
      · simp at hr
      · split at hr
        · simp at hr
        · split at hr
          · rename_i ht
            simp only [Outcome.ret.injEq] at hr
            rw [hr] at ht
            exact ⟨hr, by rintro rfl; simp [truthy] at ht⟩
          · simp at hr
  have e : crc = Crc.crc1 0 out := Crc.isCrc32_unique hcrc (Crc.crc1_spec 0 out)
  have q := quiet_checkProps (env := env) l.props size l.warnings (quiet_layout hl)
  simp only [conclude] at hc
  split at hc
  · obtain ⟨out', ho', _⟩ := decode_total h ((data.take _).drop _) isRaw
    rw [ho'] at hc
    simp only [Outcome.bind, crc32_eq h, Outcome.ret.injEq, FromPost.ok.injEq] at hc
    have : out' = out := by rw [← hc] at ho; simpa using ho
    subst this
    obtain ⟨c1, c2, c3⟩ := checkData_mem (env := env) (l.props.get (lit "part")) (l.props.get (lit "end")) size out'.length (hex (Crc.packCrc (Crc.crc1 0 out'))) true _ q
    rw [← hc]
    simp only [field]
    refine ⟨⟨size, hsz.1, hsz.2, c1⟩, ?_, ?_⟩
    · rw [c2, crcDiffers_iff, e, lit_hex8]; simp
    · rw [c3, crcDiffers_iff, e, lit_hex8]; simp
  · simp only [Outcome.ret.injEq, FromPost.ok.injEq] at hc
    rw [← hc] at ho; simp at ho

/-- C61, the size in numbers: for a decimal number up to 2^53. -/
theorem C61_size_exact (h : lib.IsLib) (hl : env.Lawful) (data : List Byte) (isRaw : Bool) (p : Js.Post) (hp : fromPost lib env data isRaw = .ret (.ok p))
    (out : List Byte) (ho : p.data = some out) (hlen : out.length ≤ 2 ^ 53) (n : Nat) (hn : n ≤ 2 ^ 53) (hf : field p "end" "size" = some (lit (toString n))) :
    "data_size_mismatch" ∈ p.warnings ↔ n ≠ out.length := by
  obtain ⟨⟨size, h1, _, h2⟩, _⟩ := C61_warnings_exact h data isRaw p hp out ho _ (Crc.crc1_spec 0 out)
  rw [hf, Option.some.injEq] at h1
  rw [h2, ← h1, lit_toString, hl.num n hn, hl.ne _ _ hn hlen]
  simp

/-- C61, false for a post with an (invalid) line `=y__proto__ part=1`: that line makes the parser skip the `crc32` check although the post has no part
line of its own.  (C61 speaks of `p.props.part`, which is then an inherited text.) -/
theorem C61_proto_skips_check_false :
    (fun o => match o with | .ret (.ok p) => some (p.warnings, p.props.own.lookup (lit "part")) | _ => none)
      (fromPost genericLib natEnv (text "=ybegin line=128 size=1 name=n\r\n=y__proto__ part=1\r\nk\r\n=yend size=1 crc32=00000000\r\n") false) =
    some (["duplicate_line"], none) := by
  decide +kernel

-- a post with a wrong checksum and size
example : (fun o => match o with | .ret (.ok p) => some p.warnings | _ => none)
    (fromPost genericLib natEnv (text "=ybegin line=128 size=2 name=n\r\nk\r\n=yend size=2 crc32=d3d99e8c\r\n") false) =
    some ["data_size_mismatch", "crc32_mismatch"] := by decide +kernel

end Yenc.Props
