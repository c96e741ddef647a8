import Verif.Lemmas.JsStuff
import Verif.Props.Around
import Verif.Lemmas.Damage
import Verif.Props.Decode
/-!
Property C80: `from_post` on an article as it comes from an NNTP server, with dots doubled at the start of lines.
-/
namespace Yenc.Props
open Spec Yenc.Js

variable {lib : Lib} {env : Env}

/-- `p'` is the post `p` found in `data`, as found in the dot-stuffed `data`: the same but for the positions, and every position `n` of `data` has become the
length of the dot-stuffed text before it. -/
structure StuffedPost (data : List Byte) (p p' : Js.Post) : Prop where
  start : p'.yencStart = (stuff (data.take p.yencStart)).length
  dataStart : p'.dataStart = p.dataStart.map fun n => (stuff (data.take n)).length
  dataEnd : p'.dataEnd = p.dataEnd.map fun n => (stuff (data.take n)).length
  yencEnd : p'.yencEnd = (stuff (data.take p.yencEnd)).length
  props : p'.props = p.props
  data : p'.data = p.data
  crc32 : p'.crc32 = p.crc32
  warnings : p'.warnings = p.warnings

/-- The same for whatever a call of `from_post` does. -/
inductive StuffedResult (data : List Byte) : Outcome FromPost → Outcome FromPost → Prop
  | error (c : String) : StuffedResult data (.ret (.error c)) (.ret (.error c))
  | ok {p p' : Js.Post} : StuffedPost data p p' → StuffedResult data (.ret (.ok p)) (.ret (.ok p'))
  | throw (m : String) : StuffedResult data (.throw m) (.throw m)
  | ub : StuffedResult data .ub .ub

theorem stuffed_of_eq (data : List Byte) {r r' : Outcome FromPost} (h : r' = r.bind fun x => .ret (x.map (spos data))) : StuffedResult data r r' := by
  subst h
  cases r with
  | throw m => exact .throw m
  | ub => exact .ub
  | ret x =>
    cases x with
    | error c => exact .error c
    | ok p => exact .ok ⟨rfl, rfl, rfl, rfl, rfl, rfl, rfl, rfl⟩

/-- C80, portable decoder: for every text whatsoever, `from_post(stuffed, true)` on the dot-stuffed text finds what `from_post(data, false)` finds in the text. -/
theorem C80_stuffed_generic (hg : lib.dec = Dec.generic) (data : List Byte) :
    StuffedResult data (fromPost lib env data false) (fromPost lib env (stuff data) true) := by
  refine stuffed_of_eq data (fromPost_stuff data fun s l size ds de _ _ _ _ _ => ?_)
  rw [hg]
  exact C24_stuffing_undone_generic _

/-- C80, every implementation.  Partial: posts whose encoded data end in an escaped line break are excluded (the vector decoders lose that byte, as in
`C15_decode_strip_partial`). -/
theorem C80_stuffed_partial (h : lib.IsLib) (data : List Byte)
    (hn : ∀ p ds de, fromPost lib env data false = .ret (.ok p) → p.dataStart = some ds → p.dataEnd = some de → ¬ [EQ, CR, LF] <:+ (data.take de).drop ds) :
    StuffedResult data (fromPost lib env data false) (fromPost lib env (stuff data) true) := by
  refine stuffed_of_eq data (fromPost_stuff data fun s l size ds de h1 h2 h3 h4 h5 => ?_)
  refine C24_stuffing_undone_partial h.dec _ fun hc => ?_
  have : ∃ p, fromPost lib env data false = .ret (.ok p) ∧ p.dataStart = some ds ∧ p.dataEnd = some de := by
    unfold fromPost
    rw [h1]
    simp only [h2, h3, Outcome.bind, conclude, h4, h5, (C15_decode_plain h.dec _).1, crc32_eq h]
    exact ⟨_, rfl, rfl, rfl⟩
  obtain ⟨p, e1, e2, e3⟩ := this
  exact hn p ds de e1 e2 e3 (suffix_of_stuff hc)

-- a text with dots at the start of lines: before the post, in its data, after it
example : stuff (text ".\r\n=ybegin line=1 size=2 name=a\r\n.\r\n.\r\n=yend size=2\r\n.") =
    text "..\r\n=ybegin line=1 size=2 name=a\r\n..\r\n..\r\n=yend size=2\r\n.." := by decide +kernel

example : (match fromPost genericLib natEnv (text ".\r\n=ybegin line=1 size=2 name=a\r\n.\r\n.\r\n=yend size=2\r\n.") false with
    | .ret (.ok p) => some (p.dataStart, p.dataEnd, p.data) | _ => none) = some (some 33, some 37, some [4#8, 4#8]) ∧
    ¬ [EQ, CR, LF] <:+ ((text ".\r\n=ybegin line=1 size=2 name=a\r\n.\r\n.\r\n=yend size=2\r\n.").take 37).drop 33 := by decide +kernel

theorem stuffed_ok (h : lib.IsLib) {data : List Byte} {p : Js.Post} (hp : fromPost lib env data false = .ret (.ok p)) {ds de : Nat} (h1 : p.dataStart = some ds)
    (h2 : p.dataEnd = some de) (hn : ¬ [EQ, CR, LF] <:+ (data.take de).drop ds) : ∃ p', fromPost lib env (stuff data) true = .ret (.ok p') ∧ StuffedPost data p p' := by
  have := C80_stuffed_partial (env := env) h data fun q a b e1 e2 e3 => by
    rw [hp] at e1
    simp only [Outcome.ret.injEq, FromPost.ok.injEq] at e1
    subst e1
    rw [h1] at e2; rw [h2] at e3
    simp only [Option.some.injEq] at e2 e3
    rw [← e2, ← e3]; exact hn
  rw [hp] at this
  generalize hr : fromPost lib env (stuff data) true = r at this
  cases this with
  | ok hs => exact ⟨_, rfl, hs⟩

theorem encode_no_break (ls : Nat) (h1 : 1 ≤ ls) (d : List Byte) : ¬ [EQ, CR, LF] <:+ Spec.encode ls true 0 d := by
  rintro ⟨t, ht⟩
  exact (Dmg.encode_last ls true 0 h1 d (t ++ [EQ, CR]) LF (by rw [← ht]; simp)).2 rfl

theorem cut_inside (pre post suf : List Byte) {ds de : Nat} (h : de ≤ post.length) :
    ((pre ++ post ++ suf).take (pre.length + de)).drop (pre.length + ds) = (post.take de).drop ds := by
  rw [List.append_assoc, take_drop_shift, List.take_append_of_le_length h]

theorem dataEnd_le (h : lib.IsLib) {data : List Byte} {isRaw : Bool} {p : Js.Post} (hp : fromPost lib env data isRaw = .ret (.ok p)) {out : List Byte} {de : Nat}
    (ho : p.data = some out) (hd : p.dataEnd = some de) : de ≤ data.length := by
  obtain ⟨_, de', _, _, _, e1, _, e2, _⟩ := (C60_from_post_sound h data isRaw p hp).2.2.1 out ho
  rw [hd] at e1
  simp only [Option.some.injEq] at e1
  subst e1
  have := e2.length_le
  rw [List.length_drop, show (text "\r\n=yend ").length = 8 by decide] at this
  omega

/-- The data section of a part. -/
theorem part_section (h : lib.IsLib) (hl : env.Lawful) (name : Str) (hn : SafeName name) (ls : Nat) (h1 : 1 ≤ ls) (h2 : ls + 6 < 2 ^ 31) (fs : List (List Byte))
    (hp : 1 < fs.length) (hne : ∀ d ∈ fs, d ≠ []) (hs : fs.flatten.length < 2 ^ 53) {ps : List (List Byte)} (hps : (feedParts lib name ls fs).2 = ps.map .ret)
    (i : Nat) (hi : i < fs.length) {post : List Byte} (hpost : ps[i]? = some post) {isRaw : Bool} {p : Js.Post} (hparse : fromPost lib env post isRaw = .ret (.ok p)) :
    ∃ ds de, p.dataStart = some ds ∧ p.dataEnd = some de ∧ (post.take de).drop ds = Spec.encode ls true 0 fs[i] := by
  have b0 := (run_all h (show fs.flatten.length < 2 ^ 63 by omega) h1 h2 fs (EncInv.init (name := name) (size := fs.flatten.length) hp h1) (by simp)
    (by simp) (by simp)).2
  have hcount : fs.length ≤ fs.flatten.length := by
    clear b0 hp hs hi hps
    induction fs with
    | nil => simp
    | cons d ds ih =>
      have := List.length_pos_iff.2 (hne d (by simp))
      have h4 : ds.length ≤ ds.flatten.length := ih (fun d hd => hne d (by simp [hd]))
      simp only [List.length_cons, List.flatten_cons, List.length_append]
      omega
  have hpos : (fs.take i).flatten.length + fs[i].length ≤ fs.flatten.length := by
    have e := (C42_ranges fs).2.2 i hi
    rw [← e]
    conv_rhs => rw [← List.take_append_drop (i + 1) fs]
    rw [List.flatten_append, List.length_append]; omega
  have hd' : 1 ≤ fs[i].length := List.length_pos_iff.2 (hne _ (List.getElem_mem hi))
  have hpe : partPost (i + 1) fs.length ls fs.flatten.length (fileName name) (fs.take i).flatten.length fs[i].length (Spec.encode ls true 0 fs[i]) (Crc.crc1 0 fs[i])
      (if i + 1 = fs.length then some (Crc.crc1 0 ((fs.take i).flatten ++ fs[i])) else none) = post := by
    have e := hps.symm.trans b0
    have e2 := congrArg (fun l : List (Outcome (List Byte)) => l[i]?) e
    simp only [List.getElem?_map, hpost, Option.map_some] at e2
    rw [List.getElem?_eq_getElem (by rw [partsOf_length]; exact hi), partsOf_getElem _ _ _ _ _ _ _ _ hi] at e2
    simp only [partOf, List.nil_append, Nat.zero_add, Option.map_some, Option.some.injEq, Outcome.ret.injEq] at e2
    exact e2.symm
  obtain ⟨x, y, g1, g2, g3, g4⟩ := fromPost_part_body h hl name hn (i + 1) fs.length ls fs.flatten.length (fs.take i).flatten.length fs[i].length h1 (by omega) (by omega)
    (by omega) (by omega) hd' hpos (Crc.crc1 0 fs[i]) _ _ (noKeyword_encode ls h1 fs[i]) isRaw fs[i] (decode_body h ls h1 fs[i] isRaw)
  rw [hpe, hparse] at g1
  simp only [Outcome.ret.injEq, FromPost.ok.injEq] at g1
  subst g1
  exact ⟨x, y, rfl, rfl, by rw [← hpe]; exact g2⟩

/-- C80: a post made by the encoder, put into an article (lines before it, text after it) which is then dot-stuffed as a whole for transmission, is found and decoded
by `from_post(article, true)`, whatever implementation is in use. -/
theorem C80_article (h : lib.IsLib) (hl : env.Lawful) (name : Str) (hn : SafeName name) (ls parts : Nat) (h1 : 1 ≤ ls) (h2 : ls + 6 < 2 ^ 31) (hp : parts ≤ 1)
    (d : List Byte) (hs : d.length ≤ 2 ^ 53) (pre suf : List Byte) (hb : pre = [] ∨ text "\r\n" <:+ pre) (b1 : ¬ text "=ybegin " <+: pre) (b2 : ¬ text "\r\n=ybegin " <:+: pre)
    (hsuf : ¬ text "\r\n=yend " <:+: text "\r\n" ++ suf) :
    ∃ post p, ((multiPost name d.length parts ls).encode lib d).2 = .ret post ∧ fromPost lib env (stuff (pre ++ post ++ text "\r\n" ++ suf)) true = .ret (.ok p) ∧
      p.data = some d ∧ p.warnings = [] ∧ p.yencStart = (stuff pre).length ∧
      field p "begin" "size" = some (lit (toString d.length)) ∧ field p "begin" "name" = some name := by
  obtain ⟨x, y, g1, g2, -, g4⟩ := fromPost_single_body h hl name hn ls h1 d.length hs (Crc.crc1 0 d) _ (noKeyword_encode ls h1 d) false d (decode_body h ls h1 d false)
  rw [checkData_single hl ls name d.length hs] at g1
  have hpost := single_eq h name ls parts h1 h2 d hp
  generalize singlePost ls d.length (fileName name) (Spec.encode ls true 0 d) (Crc.crc1 0 d) = post at *
  have e := C72_embedded h pre post suf false _ g1 rfl (by simp) hb b1 b2 hsuf
  have hy : y ≤ post.length := dataEnd_le h g1 rfl rfl
  obtain ⟨p', k1, k2⟩ := stuffed_ok h e rfl rfl (by
    rw [List.append_assoc _ (text "\r\n"), cut_inside pre post _ hy, g2]
    exact encode_no_break ls h1 d)
  refine ⟨post, p', hpost, k1, by rw [k2.data], by rw [k2.warnings]; rfl, ?_, ?_, ?_⟩
  · rw [k2.start, List.append_assoc, List.append_assoc, List.take_left]
  · simp only [field, k2.props, lit_toString]; rfl
  · simp only [field, k2.props]; rfl

example := C80_article genericLib_isLib natEnv_lawful (lit "n") ⟨by decide, by decide, by decide, by decide⟩ 128 1 (by decide) (by decide) (by decide) [65#8, 214#8] (by decide) (text ".x\r\n") (text "y") (by decide) (by decide) (by decide) (by decide)

/-- The same for the parts of a file. -/
theorem C80_article_parts (h : lib.IsLib) (hl : env.Lawful) (name : Str) (hn : SafeName name) (ls : Nat) (h1 : 1 ≤ ls) (h2 : ls + 6 < 2 ^ 31) (fs : List (List Byte))
    (hp : 1 < fs.length) (hne : ∀ d ∈ fs, d ≠ []) (hs : fs.flatten.length < 2 ^ 53) (pre suf : List Byte) (hb : pre = [] ∨ text "\r\n" <:+ pre)
    (b1 : ¬ text "=ybegin " <+: pre) (b2 : ¬ text "\r\n=ybegin " <:+: pre) (hsuf : ¬ text "\r\n=yend " <:+: text "\r\n" ++ suf) :
    ∃ ps : List (List Byte), (feedParts lib name ls fs).2 = ps.map .ret ∧ ps.length = fs.length ∧
      ∀ i (hi : i < fs.length), ∃ post p, ps[i]? = some post ∧ fromPost lib env (stuff (pre ++ post ++ text "\r\n" ++ suf)) true = .ret (.ok p) ∧
        p.data = some fs[i] ∧ p.warnings = [] ∧ p.yencStart = (stuff pre).length ∧
        field p "begin" "part" = some (lit (toString (i + 1))) ∧ field p "begin" "total" = some (lit (toString fs.length)) ∧
        field p "part" "begin" = some (lit (toString ((fs.take i).flatten.length + 1))) := by
  obtain ⟨ps, a1, a2, a3⟩ := C45_parts h hl name hn ls h1 h2 fs hp hne hs false
  refine ⟨ps, a1, a2, fun i hi => ?_⟩
  obtain ⟨post, p, crc, cbuf, e1, e2, -, -, e3, -, e4, e5, -, e6, e7, -, -, -, e8, -⟩ := a3 i hi
  obtain ⟨ds, de, i1, i2, i3⟩ := part_section h hl name hn ls h1 h2 fs hp hne hs a1 i hi e1 e2
  have e := C72_embedded h pre post suf false p e2 e5 (by rw [e4]; simp) hb b1 b2 hsuf
  obtain ⟨p', k1, k2⟩ := stuffed_ok h e (show Option.map _ p.dataStart = some _ by rw [i1]; rfl) (show Option.map _ p.dataEnd = some _ by rw [i2]; rfl) (by
    rw [List.append_assoc _ (text "\r\n"), cut_inside pre post _ (dataEnd_le h e2 e3 i2), i3]
    exact encode_no_break ls h1 _)
  refine ⟨post, p', e1, k1, by rw [k2.data]; exact e3, by rw [k2.warnings]; show p.warnings.filter _ = []; rw [e4]; rfl, ?_, ?_, ?_, ?_⟩
  · rw [k2.start, List.append_assoc, List.append_assoc, List.take_left]
  · rw [← e6]; simp only [field, k2.props]
  · rw [← e7]; simp only [field, k2.props]
  · rw [← e8]; simp only [field, k2.props]

-- an article in which lines before the post start with a dot
example : (text "\r\n" <:+ text ".Subject: a\r\n\r\n.\r\n") ∧ ¬ text "=ybegin " <+: text ".Subject: a\r\n\r\n.\r\n" ∧
    ¬ text "\r\n=ybegin " <:+: text ".Subject: a\r\n\r\n.\r\n" ∧ ¬ text "\r\n=yend " <:+: text "\r\n" ++ text ".sig\r\n" := by decide

end Yenc.Props
