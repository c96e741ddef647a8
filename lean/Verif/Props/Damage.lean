import Verif.Lemmas.Damage
import Verif.Props.FromPost
import Verif.Props.Decode
/-!
Properties C78, C79: what damage to encoded data does to the decoded data, and that `from_post` reports it.
-/
namespace Yenc.Props
open Spec Yenc.Js

variable {eimpl : Enc.Impl} {dimpl : Dec.Impl} {lib : Lib} {env : Env}

theorem damage_local (hd : Dec.IsImpl dimpl) (isRaw : Bool) (ls : Nat) (h1 : 1 ≤ ls) (d a u b v : List Byte) (he : Spec.encode ls true 0 d = a ++ u ++ b) :
    ∃ p m m' s, d = p ++ m ++ s ∧ Dec.apiDecode dimpl [.buffer (a ++ v ++ b), .bool isRaw] = .ret (p ++ m' ++ s) ∧
      m.length ≤ u.length + 1 ∧ m'.length ≤ v.length + 2 := by
  obtain ⟨p, m, m', s, e1, e2, e3, e4, e5⟩ := Dmg.local_spec isRaw ls h1 d a u b v he
  cases isRaw with
  | false => exact ⟨p, m, m', s, e1, by rw [(C15_decode_plain hd _).1, e2], e3, e4⟩
  | true =>
    rcases C15_decode_strip_any_partial hd (a ++ v ++ b) with h | ⟨hsuf, h⟩
    · exact ⟨p, m, m', s, e1, by rw [h, e2], e3, e4⟩
    rcases List.eq_nil_or_concat b with rfl | ⟨x, c, rfl⟩
    · obtain ⟨rfl, e6⟩ := e5 rfl
      rw [e2] at h
      rcases List.eq_nil_or_concat m' with rfl | ⟨m0, y, rfl⟩
      · rcases List.eq_nil_or_concat p with rfl | ⟨p0, y, rfl⟩
        · exact ⟨[], m, [], [], e1, by rw [h]; rfl, e3, by simp⟩
        · exact ⟨p0, y :: m, [], [], by simpa using e1, by rw [h]; simp, by simp only [List.length_cons]; omega, by simp⟩
      · refine ⟨p, m, m0, [], e1, ?_, e3, by simp only [List.concat_eq_append, List.length_append] at e4; omega⟩
        rw [h]
        simp [← List.append_assoc]
    · exfalso
      rw [List.concat_eq_append] at he hsuf
      rw [← List.append_assoc] at he hsuf
      have hc := (Dmg.encode_last ls true 0 h1 d _ c he).2
      obtain ⟨t, ht⟩ := hsuf
      have : (t ++ [EQ, CR]) ++ [LF] = (a ++ v ++ x) ++ [c] := by simpa using ht
      have := (List.append_inj' this rfl).2
      simp only [List.cons.injEq, and_true] at this
      exact hc this.symm

/-- C78: damage stays local.  If somewhere in encoded data `u` is replaced by `v` (both may be empty, so this covers damaged, lost and added bytes), decoding
gives the data with a piece of at most `|u| + 1` bytes replaced by at most `|v| + 2` bytes: everything before and after the damaged place is intact. -/
theorem C78_damage_local (he : Enc.IsImpl eimpl) (hd : Dec.IsImpl dimpl) (d : List Byte) (ls : Nat) (h1 : 1 ≤ ls) (h2 : ls + 6 < 2 ^ 31) (a u b v : List Byte)
    (henc : Enc.apiEncode eimpl [.buffer d, .int ls, .int 0] = .ret (a ++ u ++ b)) (isRaw : Bool) :
    ∃ p m m' s, d = p ++ m ++ s ∧ Dec.apiDecode dimpl [.buffer (a ++ v ++ b), .bool isRaw] = .ret (p ++ m' ++ s) ∧
      m.length ≤ u.length + 1 ∧ m'.length ≤ v.length + 2 := by
  have h3 := C03_encode_reference he d ls 0 h1 h2 (by omega)
  rw [show ((0 : Nat) : Int) = 0 from rfl, henc] at h3
  injection h3 with h3
  exact damage_local hd isRaw ls h1 d a u b v h3.symm

-- an encoding with a place to damage
example : Enc.apiEncode Enc.encodeGeneric [.buffer [19#8, 19#8, 65#8], .int (128 : Nat), .int 0] = .ret ([EQ] ++ [125#8] ++ [EQ, 125#8, 107#8]) :=
  (C03_encode_reference .generic _ 128 0 (by decide) (by decide) (by decide)).trans (by decide)

/-- C78, the bounds cannot be improved: here losing one byte turns two bytes of the data into two others. -/
theorem C78_tight :
    Enc.apiEncode Enc.encodeGeneric [.buffer [19#8, 19#8, 65#8], .int (128 : Nat), .int 0] = .ret ([EQ] ++ [125#8] ++ [EQ, 125#8, 107#8]) ∧
      ∃ out, Dec.apiDecode Dec.generic [.buffer ([EQ] ++ [] ++ [EQ, 125#8, 107#8]), .bool false] = .ret out ∧
        ∀ p m m' s : List Byte, [19#8, 19#8, 65#8] = p ++ m ++ s → out = p ++ m' ++ s → 2 ≤ m.length ∧ 2 ≤ m'.length := by
  refine ⟨(C03_encode_reference .generic _ 128 0 (by decide) (by decide) (by decide)).trans (by decide), [211#8, 83#8, 65#8],
    (C15_decode_plain .generic _).1.trans (by decide), ?_⟩
  intro p m m' s e1 e2
  have l1 := congrArg List.length e1
  have l2 := congrArg List.length e2
  simp only [List.length_append, List.length_cons, List.length_nil] at l1 l2
  rcases p with _ | ⟨x, p⟩
  · have hs : s.length ≤ 1 := by
      by_contra hh
      have r1 := congrArg (fun l : List Byte => l.reverse[1]?) e1
      have r2 := congrArg (fun l : List Byte => l.reverse[1]?) e2
      simp only [List.reverse_append] at r1 r2
      rw [List.getElem?_append_left (by rw [List.length_reverse]; omega)] at r1 r2
      rw [← r1] at r2
      revert r2; decide
    simp only [List.length_nil] at l1 l2
    omega
  · simp only [List.cons_append, List.cons.injEq] at e1 e2
    exact absurd (e1.1.trans e2.1.symm) (by decide)

/-- C78, `decodeChunk`: the same, unless the damaged stream contains an end mark. -/
theorem C78_chunk (he : Enc.IsImpl eimpl) (hd : Dec.IsImpl dimpl) (d : List Byte) (ls : Nat) (h1 : 1 ≤ ls) (h2 : ls + 6 < 2 ^ 31) (a u b v : List Byte)
    (henc : Enc.apiEncode eimpl [.buffer d, .int ls, .int 0] = .ret (a ++ u ++ b)) (hl : (a ++ v ++ b).length < 2 ^ 31) :
    ∃ r, Js.decodeChunk dimpl (a ++ v ++ b) .undef .undef = .ret r ∧
      (r.ended = false → ∃ p m m' s, d = p ++ m ++ s ∧ r.output = p ++ m' ++ s ∧ m.length ≤ u.length + 1 ∧ m'.length ≤ v.length + 2) := by
  have h3 := C03_encode_reference he d ls 0 h1 h2 (by omega)
  rw [show ((0 : Nat) : Int) = 0 from rfl, henc] at h3
  injection h3 with h3
  obtain ⟨r, hr, ho, _⟩ := C22_output hd (a ++ v ++ b) hl
  refine ⟨r, hr, fun hf => ?_⟩
  obtain ⟨p, m, m', s, e1, e2, e3, e4, _⟩ := Dmg.local_spec true ls h1 d a u b v h3.symm
  exact ⟨p, m, m', s, e1, (ho hf).trans e2, e3, e4⟩

example := C78_chunk .generic .generic [65#8, 19#8] 128 (by decide) (by decide) [107#8] [EQ] [125#8] [0#8, 1#8] (by decide +kernel) (by decide)

/-- C78 is false for `decodeChunk` without that condition: whatever the data, if it starts with the byte 4 (which the encoder writes as `=n`), one damaged byte
makes the decoder report the end of the data right at the start, with no output. -/
theorem C78_chunk_false (he : Enc.IsImpl eimpl) (hd : Dec.IsImpl dimpl) (d : List Byte) (ls : Nat) (h1 : 1 ≤ ls) (h2 : ls + 6 < 2 ^ 31) :
    ∃ b, Enc.apiEncode eimpl [.buffer (4#8 :: d), .int ls, .int 0] = .ret ([EQ] ++ [110#8] ++ b) ∧
      (([EQ] ++ [LY] ++ b).length < 2 ^ 31 →
        ∃ r, Js.decodeChunk dimpl ([EQ] ++ [LY] ++ b) .undef .undef = .ret r ∧ r.ended = true ∧ r.read = 2 ∧ r.output = []) := by
  have h3 := C03_encode_reference he (4#8 :: d) ls 0 h1 h2 (by omega)
  rw [Enc.encode_cons_lt _ _ _ _ _ (by omega)] at h3
  have e : ∀ last, Spec.encChar ls 0 last (4#8 + 42#8) = [EQ, 110#8] := by intro last; simp [Spec.encChar, Spec.mustEscape]
  rw [e] at h3
  refine ⟨_, h3.trans (by rfl), fun hl => ⟨_, decodeChunk_fresh hd _ hl, ?_⟩⟩
  have hr : ∀ b, Dec.run .crlf ([EQ] ++ [LY] ++ b) = ⟨b, [], .none, .control⟩ := by
    intro b
    simp only [List.cons_append, List.nil_append]
    rw [Dec.run_crlf_cons, if_neg (by decide), if_pos rfl, Dec.run_crlfeq_cons, if_pos rfl]
  simp only [chunkRes, hr]
  refine ⟨by simp, ?_, by simp⟩
  simp only [List.length_append, List.length_cons, List.length_nil]
  omega

/-! ### `from_post` -/

theorem hexDigit_inj (a b : Nat) (ha : a < 16) (hb : b < 16) (h : hexDigit a = hexDigit b) : a = b := by
  unfold hexDigit at h
  split at h <;> split at h <;> omega

theorem hex_inj (a b : List Byte) (h : hex a = hex b) : a = b := by
  have hc : ∀ (x : Byte) l, hex (x :: l) = hexDigit (x.toNat / 16) :: hexDigit (x.toNat % 16) :: hex l := fun x l => by simp [hex]
  induction a generalizing b with
  | nil =>
    cases b with
    | nil => rfl
    | cons y b => rw [hc] at h; simp [hex] at h
  | cons x a ih =>
    cases b with
    | nil => rw [hc] at h; simp [hex] at h
    | cons y b =>
      rw [hc, hc] at h
      simp only [List.cons.injEq] at h
      have := x.isLt; have := y.isLt
      have e1 := hexDigit_inj _ _ (by omega) (by omega) h.1
      have e2 := hexDigit_inj _ _ (by omega) (by omega) h.2.1
      rw [ih b h.2.2, show x = y from BitVec.eq_of_toNat_eq (by omega)]

theorem hex_crc_ne_nil (c : BitVec 32) : hex (Crc.packCrc c) ≠ [] := by
  intro h
  have := congrArg List.length h
  rw [hex_length] at this
  simp [Crc.packCrc] at this

theorem quiet_newline : Quiet ["missing_yend_newline"] := by
  simp [Quiet, dataWarnings]

theorem size_or_crc (h : Crc.IsImpl lib.crc) (p m m' s : List Byte) (hm : m.length ≤ 4) (hne : p ++ m ++ s ≠ p ++ m' ++ s) :
    (p ++ m ++ s).length ≠ (p ++ m' ++ s).length ∨ hex (Crc.packCrc (Crc.crc1 0 (p ++ m ++ s))) ≠ hex (Crc.packCrc (Crc.crc1 0 (p ++ m' ++ s))) := by
  by_cases hlen : m.length = m'.length
  · right
    have hb := C35_burst_bytes h 0 0 p m m' s hlen hm (by rintro rfl; exact hne rfl)
    rw [Crc.apiCrc32_nil h.correct, Crc.apiCrc32_nil h.correct] at hb
    intro hh
    exact hb (by rw [hex_inj _ _ hh])
  · left
    simp only [List.length_append]; omega

/-- C79, single-part posts: `from_post` reports damage.  Take the post the library writes, and the place `dataStart`..`dataEnd` that `from_post` finds in it;
replace up to three adjacent bytes there by anything (not making the data start with `=y`).  Then `from_post` still parses the post; the data it returns
differs from the file in one place only; and unless the data is the file after all, the warnings say that the size or the checksum does not match. -/
theorem C79_single (h : lib.IsLib) (hl : env.Lawful) (name : Str) (hn : SafeName name) (ls parts : Nat) (h1 : 1 ≤ ls) (h2 : ls + 6 < 2 ^ 31) (hp : parts ≤ 1)
    (d : List Byte) (isRaw : Bool) (post : List Byte) (p : Js.Post) (ds de : Nat) (a u b v : List Byte)
    (hpost : ((multiPost name d.length parts ls).encode lib d).2 = .ret post) (hparse : fromPost lib env post isRaw = .ret (.ok p))
    (hds : p.dataStart = some ds) (hde : p.dataEnd = some de) (hcut : (post.take de).drop ds = a ++ u ++ b) (hu : u.length ≤ 3)
    (hk : ¬ [EQ, LY] <+: a ++ v ++ b) (hs : d.length + v.length + 2 ≤ 2 ^ 53) :
    ∃ p' out, fromPost lib env (post.take ds ++ (a ++ v ++ b) ++ post.drop de) isRaw = .ret (.ok p') ∧ p'.data = some out ∧ p'.props = p.props ∧
      (∃ q m m' s, d = q ++ m ++ s ∧ out = q ++ m' ++ s ∧ m.length ≤ u.length + 1 ∧ m'.length ≤ v.length + 2) ∧
      (out = d → p'.warnings = p.warnings) ∧
      (out ≠ d → "data_size_mismatch" ∈ p'.warnings ∨ "crc32_mismatch" ∈ p'.warnings) := by
  rw [single_eq h name ls parts h1 h2 d hp] at hpost
  injection hpost with hpost
  obtain ⟨x, y, g1, g2, g3, g4⟩ := fromPost_single_body h hl name hn ls h1 d.length (by omega) (Crc.crc1 0 d) _ (noKeyword_encode ls h1 d) isRaw d (decode_body h ls h1 d isRaw)
  rw [hpost, hparse] at g1
  simp only [Outcome.ret.injEq, FromPost.ok.injEq] at g1
  subst g1
  simp only [Option.some.injEq] at hds hde
  subst hds hde
  rw [hpost, hcut] at g2
  obtain ⟨q, m, m', s, e1, e2, e3, e4⟩ := damage_local h.dec isRaw ls h1 d a u b v g2.symm
  have sh : ∀ bd, singlePost ls d.length (fileName name) bd (Crc.crc1 0 d) = _ := fun bd => single_shape ls d.length (fileName name) bd (Crc.crc1 0 d)
  have hH : ascii (lit "=y" ++ (lit "begin" ++ 32 :: beginProps ls d.length [])) ++ fileName name ++ [CR, LF] =
      text "=ybegin " ++ (ascii (beginProps ls d.length []) ++ fileName name) ++ [CR, LF] := by
    rw [← List.append_assoc (text "=ybegin "), text_lit, ← ascii_append]; rfl
  have hpost' : post.take x ++ (a ++ v ++ b) ++ post.drop y = singlePost ls d.length (fileName name) (a ++ v ++ b) (Crc.crc1 0 d) := by
    rw [sh, ← hpost, sh, hH]
    generalize text "=ybegin " ++ (ascii (beginProps ls d.length []) ++ fileName name) ++ [CR, LF] = H at *
    subst g3
    rw [List.drop_left' (by rw [List.length_append]; omega), List.append_assoc H, List.take_left' rfl]
  obtain ⟨x', y', f1, _⟩ := fromPost_single_body h hl name hn ls h1 d.length (by omega) (Crc.crc1 0 d) (a ++ v ++ b) hk isRaw _ e2
  rw [hpost', f1]
  refine ⟨_, _, rfl, rfl, rfl, ⟨q, m, m', s, e1, rfl, e3, e4⟩, ?_, ?_⟩
  · intro hh
    simp only [hh]
  · intro hh
    have hlen : (q ++ m' ++ s).length ≤ 2 ^ 53 := by
      have := congrArg List.length e1
      simp only [List.length_append] at this ⊢; omega
    have key := size_or_crc h.crc q m m' s (by omega) (fun hc => hh (by rw [e1, hc]))
    obtain ⟨c1, _, c3⟩ := checkData_mem (env := env) ((singleProps ls name d.length (hex (Crc.packCrc (Crc.crc1 0 d)))).get (lit "part"))
      ((singleProps ls name d.length (hex (Crc.packCrc (Crc.crc1 0 d)))).get (lit "end")) (dec d.length) (q ++ m' ++ s).length
      (hex (Crc.packCrc (Crc.crc1 0 (q ++ m' ++ s)))) true ["missing_yend_newline"] quiet_newline
    rcases key with key | key
    · left
      rw [c1, hl.num _ (by omega), hl.ne _ _ (by omega) hlen, decide_eq_true_eq, e1]
      exact key
    · right
      rw [c3]
      refine ⟨rfl, ?_⟩
      rw [crcDiffers_iff]
      exact ⟨hex (Crc.packCrc (Crc.crc1 0 d)), rfl, hex_crc_ne_nil _, by rw [if_pos rfl, lower_hex, e1]; exact key⟩

-- a post to damage
example : ∃ post p ds de, ((multiPost (lit "x") 3 1 128).encode genericLib [19#8, 19#8, 65#8]).2 = .ret post ∧ fromPost genericLib natEnv post true = .ret (.ok p) ∧
    p.dataStart = some ds ∧ p.dataEnd = some de ∧ (post.take de).drop ds = [EQ] ++ [125#8] ++ [EQ, 125#8, 107#8] ∧
    ¬ [EQ, LY] <+: [EQ] ++ ([] : List Byte) ++ [EQ, 125#8, 107#8] := by
  obtain ⟨ds, de, g1, g2⟩ := fromPost_single genericLib_isLib natEnv_lawful (lit "x") ⟨by decide, by decide, by decide, by decide⟩ 128 (by decide)
    [19#8, 19#8, 65#8] (by decide) true
  exact ⟨_, _, ds, de, single_eq genericLib_isLib (lit "x") 128 1 (by decide) (by decide) [19#8, 19#8, 65#8] (by decide), g1, rfl, rfl, g2.trans (by decide), by decide⟩

/-- C79, why the data must not come to start with `=y`: the line is then taken for another header line; here the post no longer parses. -/
theorem C79_keyword_needed :
    ∃ post, ((multiPost (lit "x") 1 1 128).encode genericLib [4#8]).2 = .ret post ∧
      (match fromPost genericLib natEnv post false with | .ret (.ok p) => (p.dataStart, p.dataEnd) | _ => (none, none)) = (some 32, some 34) ∧
      post.drop 32 = [EQ] ++ [110#8] ++ post.drop 34 ∧
      fromPost genericLib natEnv (post.take 32 ++ [EQ, LY] ++ post.drop 34) false = .ret (.error "no_end_found") := by
  refine ⟨text "=ybegin line=128 size=1 name=x\r\n=n\r\n=yend size=1 crc32=d56f2b94", ?_, ?_, ?_, ?_⟩ <;> decide +kernel

/-- C79, parts of multi-part posts. -/
theorem C79_parts (h : lib.IsLib) (hl : env.Lawful) (name : Str) (hn : SafeName name) (ls : Nat) (h1 : 1 ≤ ls) (h2 : ls + 6 < 2 ^ 31) (fs : List (List Byte))
    (hp : 1 < fs.length) (hne : ∀ d ∈ fs, d ≠ []) (isRaw : Bool) (ps : List (List Byte)) (hps : (feedParts lib name ls fs).2 = ps.map .ret)
    (i : Nat) (hi : i < fs.length) (post : List Byte) (hpost : ps[i]? = some post) (p : Js.Post) (ds de : Nat) (a u b v : List Byte)
    (hparse : fromPost lib env post isRaw = .ret (.ok p))
    (hds : p.dataStart = some ds) (hde : p.dataEnd = some de) (hcut : (post.take de).drop ds = a ++ u ++ b) (hu : u.length ≤ 3)
    (hk : ¬ [EQ, LY] <+: a ++ v ++ b) (hs : fs.flatten.length + v.length + 2 ≤ 2 ^ 53) :
    ∃ p' out, fromPost lib env (post.take ds ++ (a ++ v ++ b) ++ post.drop de) isRaw = .ret (.ok p') ∧ p'.data = some out ∧ p'.props = p.props ∧
      (∃ q m m' s, fs[i] = q ++ m ++ s ∧ out = q ++ m' ++ s ∧ m.length ≤ u.length + 1 ∧ m'.length ≤ v.length + 2) ∧
      (out = fs[i] → p'.warnings = p.warnings) ∧
      (out ≠ fs[i] → "data_size_mismatch" ∈ p'.warnings ∨ "pcrc32_mismatch" ∈ p'.warnings) := by
  have b0 := (run_all h (show fs.flatten.length < 2 ^ 63 by omega) h1 h2 fs (EncInv.init (name := name) (size := fs.flatten.length) hp h1) (by simp)
    (by simp) (by simp)).2
  have hcount : fs.length ≤ fs.flatten.length := by
    clear b0 hp hs hi hps
    induction fs with
    | nil => simp
    | cons d ds ih =>
      have := List.length_pos_iff.2 (hne d (by simp))
      have h4 : ds.length ≤ ds.flatten.length := ih (fun d hd => hne d (by simp [hd]))
      simp only [List.length_cons, List.flatten_cons, List.length_append]
      omega
  have hpos : (fs.take i).flatten.length + fs[i].length ≤ fs.flatten.length := by
    have e := (C42_ranges fs).2.2 i hi
    rw [← e]
    conv_rhs => rw [← List.take_append_drop (i + 1) fs]
    rw [List.flatten_append, List.length_append]; omega
  have hd' : 1 ≤ fs[i].length := List.length_pos_iff.2 (hne _ (List.getElem_mem hi))
  have hpe : partPost (i + 1) fs.length ls fs.flatten.length (fileName name) (fs.take i).flatten.length fs[i].length (Spec.encode ls true 0 fs[i]) (Crc.crc1 0 fs[i])
      (if i + 1 = fs.length then some (Crc.crc1 0 ((fs.take i).flatten ++ fs[i])) else none) = post := by
    have e := hps.symm.trans b0
    have e2 := congrArg (fun l : List (Outcome (List Byte)) => l[i]?) e
    simp only [List.getElem?_map, hpost, Option.map_some] at e2
    rw [List.getElem?_eq_getElem (by rw [partsOf_length]; exact hi), partsOf_getElem _ _ _ _ _ _ _ _ hi] at e2
    simp only [partOf, List.nil_append, Nat.zero_add, Option.map_some, Option.some.injEq, Outcome.ret.injEq] at e2
    exact e2.symm
  generalize hcr : (if i + 1 = fs.length then some (Crc.crc1 0 ((fs.take i).flatten ++ fs[i])) else none) = cr at hpe
  generalize hdd : fs[i] = d at *
  generalize (fs.take i).flatten.length = pos at *
  generalize fs.flatten.length = size at *
  obtain ⟨x, y, g1, g2, g3, g4⟩ := fromPost_part_body h hl name hn (i + 1) fs.length ls size pos d.length h1 (by omega) (by omega) (by omega) (by omega) hd' hpos
    (Crc.crc1 0 d) cr _ (noKeyword_encode ls h1 d) isRaw d (decode_body h ls h1 d isRaw)
  rw [hpe, hparse] at g1
  simp only [Outcome.ret.injEq, FromPost.ok.injEq] at g1
  subst g1
  simp only [Option.some.injEq] at hds hde
  subst hds hde
  rw [hpe, hcut] at g2
  obtain ⟨q, m, m', s, e1, e2, e3, e4⟩ := damage_local h.dec isRaw ls h1 d a u b v g2.symm
  have sh : ∀ bd, partPost (i + 1) fs.length ls size (fileName name) pos d.length bd (Crc.crc1 0 d) cr = _ :=
    fun bd => part_shape (i + 1) fs.length ls size (fileName name) pos d.length bd (Crc.crc1 0 d) cr
  have hpost' : post.take x ++ (a ++ v ++ b) ++ post.drop y = partPost (i + 1) fs.length ls size (fileName name) pos d.length (a ++ v ++ b) (Crc.crc1 0 d) cr := by
    rw [sh, ← hpe, sh]
    generalize text "=ybegin " ++ (ascii (beginPartProps (i + 1) fs.length ls size []) ++ fileName name) ++ [CR, LF] ++
        (text "=y" ++ ascii (lit "part" ++ 32 :: partProps (pos + 1) (pos + d.length))) ++ [CR, LF] = H at *
    subst g3
    rw [List.drop_left' (by rw [List.length_append]; omega), List.append_assoc H, List.take_left' rfl]
  obtain ⟨x', y', f1, _⟩ := fromPost_part_body h hl name hn (i + 1) fs.length ls size pos d.length h1 (by omega) (by omega) (by omega) (by omega) hd' hpos
    (Crc.crc1 0 d) cr (a ++ v ++ b) hk isRaw _ e2
  rw [hpost', f1]
  refine ⟨_, _, rfl, rfl, rfl, ⟨q, m, m', s, e1, rfl, e3, e4⟩, ?_, ?_⟩
  · intro hh
    simp only [hh]
  · intro hh
    have hlen : (q ++ m' ++ s).length ≤ 2 ^ 53 := by
      have := congrArg List.length e1
      simp only [List.length_append] at this ⊢; omega
    have key := size_or_crc h.crc q m m' s (by omega) (fun hc => hh (by rw [e1, hc]))
    obtain ⟨c1, c2, _⟩ := checkData_mem (env := env)
      ((multiProps (i + 1) fs.length ls size name (pos + 1) (pos + d.length) d.length (hex (Crc.packCrc (Crc.crc1 0 d))) (cr.map fun c => hex (Crc.packCrc c))).get (lit "part"))
      ((multiProps (i + 1) fs.length ls size name (pos + 1) (pos + d.length) d.length (hex (Crc.packCrc (Crc.crc1 0 d))) (cr.map fun c => hex (Crc.packCrc c))).get (lit "end"))
      (dec d.length) (q ++ m' ++ s).length (hex (Crc.packCrc (Crc.crc1 0 (q ++ m' ++ s)))) true ["missing_yend_newline"] quiet_newline
    rcases key with key | key
    · left
      rw [c1, hl.num _ (by omega), hl.ne _ _ (by omega) hlen, decide_eq_true_eq, e1]
      exact key
    · right
      rw [c2, crcDiffers_iff]
      exact ⟨hex (Crc.packCrc (Crc.crc1 0 d)), by cases cr <;> rfl, hex_crc_ne_nil _, by rw [if_pos rfl, lower_hex, e1]; exact key⟩

-- a part to damage: the second of two
example : (feedParts genericLib (lit "n") 128 [[65#8], [66#8, 67#8]]).2[1]? =
      some (.ret (text "=ybegin part=2 total=2 line=128 size=3 name=n\r\n=ypart begin=2 end=3\r\nlm\r\n=yend size=2 part=2 pcrc32=6c432f52 crc32=a3830348")) ∧
    (match fromPost genericLib natEnv (text "=ybegin part=2 total=2 line=128 size=3 name=n\r\n=ypart begin=2 end=3\r\nlm\r\n=yend size=2 part=2 pcrc32=6c432f52 crc32=a3830348") true with
      | .ret (.ok p) => (p.dataStart, p.dataEnd) | _ => (none, none)) = (some 69, some 71) := by
  decide +kernel

end Yenc.Props
