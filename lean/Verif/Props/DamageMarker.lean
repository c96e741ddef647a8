import Verif.Lemmas.Marker
import Verif.Props.Damage
import Verif.Props.Header
import Verif.Props.Number
/-!
Property C79, the remaining case: bytes overwritten so that the data starts with `=y`.
-/
namespace Yenc.Props
open Spec Yenc.Js

variable {lib : Lib} {env : Env}

theorem readLine_end {t : Str} {l : Line} (h : ReadLine t l) (ht : chars "=yend " <+: t) : l.tag = chars "end" := by
  obtain ⟨r, rfl⟩ := ht
  have e : (chars "=yend " ++ r).drop 2 = chars "end" ++ 32 :: r := rfl
  obtain ⟨h1, h2⟩ := h
  rw [e] at h2
  rcases h2 with ⟨h2, _⟩ | ⟨rest, body, h2, _⟩
  · exfalso; apply h1; rw [← h2]; simp
  · have n1 : 32 ∉ chars "end" := by decide
    have key : ∀ (x y : Str) (r s : Str), 32 ∉ x → 32 ∉ y → x ++ 32 :: r = y ++ 32 :: s → x = y := by
      intro x
      induction x with
      | nil =>
        intro y r s _ hy h
        cases y with
        | nil => rfl
        | cons b y => simp at h; simp [h.1] at hy
      | cons a x ih =>
        intro y r s hx hy h
        cases y with
        | nil => simp at h; simp [h.1] at hx
        | cons b y =>
          simp only [List.cons_append, List.cons.injEq] at h
          simp only [List.mem_cons, not_or] at hx hy
          rw [h.1, ih y r s hx.2 hy.2 h.2]
    exact (key _ _ _ _ n1 h1 h2).symm

theorem forall₂_concat {α β : Type} {R : α → β → Prop} {ts : List α} {t : α} {ls : List β} (h : List.Forall₂ R (ts ++ [t]) ls) :
    ∃ la l, ls = la ++ [l] ∧ List.Forall₂ R ts la ∧ R t l := by
  induction ts generalizing ls with
  | nil =>
    cases h with
    | cons h1 h2 => cases h2; exact ⟨[], _, rfl, .nil, h1⟩
  | cons s ts ih =>
    cases h with
    | cons h1 h2 =>
      obtain ⟨la, l, rfl, f1, f2⟩ := ih h2
      exact ⟨_ :: la, l, rfl, .cons h1 f1, f2⟩

theorem valueOf_append_other (ls : List Line) (l : Line) (tag key : Str) (h : l.tag ≠ tag) : valueOf (ls ++ [l]) tag key = valueOf ls tag key := by
  simp [valueOf, h]

theorem valueOf_append_same (ls : List Line) (l : Line) (tag key : Str) (h : l.tag = tag) :
    valueOf (ls ++ [l]) tag key = (l.fields.reverse.find? (fun f => f.1 = key)).map Prod.snd := by
  simp [valueOf, h]

/-- The overwritten bytes are among the first four. -/
theorem marker_place {a u b v : List Byte} {ls : Nat} {d : List Byte} (h1 : 1 ≤ ls) (he : Spec.encode ls true 0 d = a ++ u ++ b) (hu : u.length ≤ 3)
    (huv : u.length = v.length) (hk : [EQ, LY] <+: a ++ v ++ b) {X R : List Byte} (e : a ++ v ++ b = X ++ R) (hX : 4 ≤ X.length) :
    ∃ X', Spec.encode ls true 0 d = X' ++ R ∧ 4 ≤ X'.length := by
  have ha : a.length ≤ 1 := by
    by_contra hc
    apply noKeyword_encode ls h1 d
    rw [he]
    rw [List.append_assoc] at hk ⊢
    exact (List.prefix_of_prefix_length_le hk (List.prefix_append _ _) (by simp; omega)).trans (List.prefix_append _ _)
  obtain ⟨y, rfl⟩ : a ++ v <+: X := by
    apply List.prefix_of_prefix_length_le (List.prefix_append (a ++ v) b) (by rw [e]; exact List.prefix_append X R)
    rw [List.length_append]; omega
  have hb : b = y ++ R := by
    rw [List.append_assoc (a ++ v)] at e
    exact List.append_cancel_left e
  refine ⟨a ++ u ++ y, by rw [he, hb]; simp, ?_⟩
  simp only [List.length_append] at hX ⊢
  omega

theorem marker_core (h : lib.IsLib) (hl : env.Lawful) {hs : List (List Byte)} {ts : List Str} {hls : List Line} {tail : List Byte} {t3 : Str} {l3 : Line}
    (hh : ∀ l ∈ hs, RawLine l) (hts : List.Forall₂ (fun r => Trimmed (env.toStr r)) hs ts) (hu : ∀ u ∈ ts, ¬ chars "=yend " <+: u)
    (hr : List.Forall₂ ReadLine ts hls) (htail : CR ∉ tail) (hend : text "=yend " <+: tail) (ht3 : trim (env.toStr tail) = t3) (hl3 : ReadLine t3 l3)
    (htag : l3.tag = chars "end") {d : List Byte} (hsize : (l3.fields.reverse.find? (fun f => f.1 = chars "size")).map Prod.snd = some (dec d.length))
    {ls : Nat} (h1 : 1 ≤ ls) {a u b v : List Byte} (he : Spec.encode ls true 0 d = a ++ u ++ b) (hu3 : u.length ≤ 3) (huv : u.length = v.length)
    (hk : [EQ, LY] <+: a ++ v ++ b) (hd : d.length ≤ 2 ^ 53) {data : List Byte} (hdata : data = joinLines hs ++ ((a ++ v ++ b) ++ CR :: LF :: tail))
    (hstart : text "=ybegin " <+: data) {isRaw : Bool} {p : Js.Post} (hp : fromPost lib env data isRaw = .ret (.ok p)) :
    "data_size_mismatch" ∈ p.warnings ∨ p.data = none ∧
      ∀ tag key, tag ≠ chars "end" → tag ≠ chars "__proto__" → key ≠ chars "__proto__" → (p.props.get tag).get key = valueOf hls tag key := by
  obtain ⟨s1, ended, texts, lns, s2, s3, s4, _⟩ := C63_properties h data isRaw p hp
  have hs0 : p.yencStart = 0 := by
    rcases s1 with ⟨_, e⟩ | ⟨hc, _⟩
    · exact e
    · exact absurd hstart hc
  obtain ⟨_, _, q3, _⟩ := C60_from_post_sound h data isRaw p hp
  rw [hs0, hdata] at s2
  obtain ⟨t2, ⟨e1, e2, rfl, e4⟩ | ⟨X, R, t, e1, e2, e3, e4, rfl, e6⟩⟩ := marker_layout hh hts hu
    (by rw [show text "=y" = [EQ, LY] by decide]; exact hk) htail hend
    (fun X R e hX hc => by
      obtain ⟨X', hX', _⟩ := marker_place h1 he hu3 huv hk e hX
      apply Dmg.encode_no_marker ls true 0 d
      rw [hX']
      exact hc.isInfix.trans (List.suffix_append _ _).isInfix) s2
  · right
    refine ⟨?_, ?_⟩
    · cases ho : p.data with
      | none => rfl
      | some out =>
        obtain ⟨ds, _, _, _, hds, _⟩ := q3 out ho
        rw [e1] at hds; simp at hds
    · intro tag key ht htp hkp
      obtain ⟨la, l, rfl, f1, f2⟩ := forall₂_concat s3
      rw [s4 tag key htp hkp, readLines_unique f1 hr]
      exact valueOf_append_other _ _ _ _ (by rw [readLine_end f2 e4]; exact Ne.symm ht)
  · left
    obtain ⟨lb, l, rfl, f1, f2⟩ := forall₂_concat s3
    have hf : field p "end" "size" = some (lit (toString d.length)) := by
      have g1 := s4 (chars "end") (chars "size") (by decide) (by decide)
      rw [trimmed_unique e6, ht3] at f2
      rw [readLine_unique f2 hl3, valueOf_append_same _ _ _ _ htag, hsize] at g1
      rw [lit_toString]
      exact g1
    cases ho : p.data with
    | none =>
      have := (C60_from_post_sound h data isRaw p hp).2.2.2 ho
      rw [e3] at this; simp at this
    | some out =>
      obtain ⟨ds, de, crc, cbuf, g1, g2, _, _, _, g3, _⟩ := q3 out ho
      rw [e3, Option.some.injEq] at g1
      rw [e4, Option.some.injEq] at g2
      have hsec : (data.take de).drop ds = R := by
        rw [hdata, ← g1, ← g2, ← List.append_assoc, List.take_left' List.length_append, ← List.drop_drop, List.drop_left, e1, List.drop_left]
      rw [hsec] at g3
      obtain ⟨X', hX', hX4⟩ := marker_place h1 he hu3 huv hk e1 e2
      have hlt : out.length < d.length := by
        have hsh := Dmg.short_suffix isRaw ls h1 d X' R hX' (by omega)
        rcases g3 with g3 | ⟨_, _, g3⟩
        · rw [g3]; exact hsh
        · rw [g3, List.length_dropLast]; omega
      exact (C61_size_exact h hl data isRaw p hp out ho (by omega) d.length hd hf).2 (by omega)

theorem dec_no_space (n : Nat) : ∀ c ∈ dec n, c ∉ jsSpaces := by
  intro c hc
  have := dec_digits n c hc
  rw [← isSpace_iff]
  simp [isSpace]; omega

theorem hex_no_spaces (b : List Byte) : ∀ c ∈ hex b, c ∉ jsSpaces := by
  intro c hc
  have := hex_range b c hc
  rw [← isSpace_iff]
  simp [isSpace]; omega

theorem safe_last {name : Str} (hn : SafeName name) : ∀ c, name.getLast? = some c → c ∉ jsSpaces := by
  intro z hz
  rw [← isSpace_iff, Bool.not_eq_true]
  exact getLast_name 61 name hn (by decide) z (by rw [List.getLast?_cons, hz]; rfl)

/-- C79, when overwriting bytes makes the data start with `=y`: the first line of the data is then taken for another header line.  If up to three adjacent bytes of the data
are overwritten in this way, `from_post` either returns an error or warns that the sizes do not match. -/
theorem C79_marker_single (h : lib.IsLib) (hl : env.Lawful) (name : Str) (hn : SafeName name) (ls parts : Nat) (h1 : 1 ≤ ls) (h2 : ls + 6 < 2 ^ 31) (hp : parts ≤ 1)
    (d : List Byte) (isRaw : Bool) (post : List Byte) (p : Js.Post) (ds de : Nat) (a u b v : List Byte)
    (hpost : ((multiPost name d.length parts ls).encode lib d).2 = .ret post) (hparse : fromPost lib env post isRaw = .ret (.ok p))
    (hds : p.dataStart = some ds) (hde : p.dataEnd = some de) (hcut : (post.take de).drop ds = a ++ u ++ b) (hu : u.length ≤ 3) (huv : u.length = v.length)
    (hk : [EQ, LY] <+: a ++ v ++ b) (hs : d.length ≤ 2 ^ 53) :
    (∃ c, fromPost lib env (post.take ds ++ (a ++ v ++ b) ++ post.drop de) isRaw = .ret (.error c)) ∨
      ∃ p', fromPost lib env (post.take ds ++ (a ++ v ++ b) ++ post.drop de) isRaw = .ret (.ok p') ∧
        ("data_size_mismatch" ∈ p'.warnings ∨ "size_mismatch" ∈ p'.warnings) := by
  rw [single_eq h name ls parts h1 h2 d hp] at hpost
  injection hpost with hpost
  obtain ⟨x, y, g1, g2, g3, g4⟩ := fromPost_single_body h hl name hn ls h1 d.length (by omega) (Crc.crc1 0 d) _ (noKeyword_encode ls h1 d) isRaw d (decode_body h ls h1 d isRaw)
  rw [hpost, hparse] at g1
  simp only [Outcome.ret.injEq, FromPost.ok.injEq] at g1
  subst g1
  simp only [Option.some.injEq] at hds hde
  subst hds hde
  rw [hpost, hcut] at g2
  have sh : ∀ bd, singlePost ls d.length (fileName name) bd (Crc.crc1 0 d) = _ := fun bd => single_shape ls d.length (fileName name) bd (Crc.crc1 0 d)
  have e8 : ascii (lit "=y" ++ (lit "begin" ++ 32 :: beginProps ls d.length [])) = text "=ybegin " ++ ascii (beginProps ls d.length []) := by
    rw [text_lit, ← ascii_append]; rfl
  have hH : ascii (lit "=y" ++ (lit "begin" ++ 32 :: beginProps ls d.length [])) ++ fileName name ++ [CR, LF] =
      text "=ybegin " ++ (ascii (beginProps ls d.length []) ++ fileName name) ++ [CR, LF] := by
    rw [← List.append_assoc (text "=ybegin "), e8]
  have l1 : trim (env.toStr (text "=ybegin " ++ (ascii (beginProps ls d.length []) ++ fileName name))) =
      lit "=y" ++ (lit "begin" ++ 32 :: beginProps ls d.length name) := by
    rw [← List.append_assoc, ← e8, toStr_name hl _ _ ?_ hn]
    · have : lit "=y" ++ (lit "begin" ++ 32 :: beginProps ls d.length []) ++ name = lit "=y" ++ (lit "begin" ++ 32 :: beginProps ls d.length name) := by
        rw [beginProps_name ls d.length name]; simp
      rw [this, trim_line _ _ (by simp [beginProps]) (begin_last ls _ name hn)]
    · exact (Printable.append (by unfold Printable; decide) (.append (by unfold Printable; decide) (.cons (by decide) (printable_beginProps _ _)))).lt
  generalize hcr : Crc.packCrc (Crc.crc1 0 d) = c at *
  have hc4 : c.length = 4 := by rw [← hcr]; rfl
  have l2 : trim (env.toStr (text "=yend " ++ ascii (endProps d.length (hex c)))) = lit "=y" ++ (lit "end" ++ 32 :: endProps d.length (hex c)) := by
    have e6 : text "=yend " ++ ascii (endProps d.length (hex c)) = ascii (lit "=y" ++ (lit "end" ++ 32 :: endProps d.length (hex c))) := by
      rw [text_lit, ← ascii_append]; rfl
    rw [e6, toStr_ascii hl _ (Printable.append (by unfold Printable; decide) (.append (by unfold Printable; decide) (.cons (by decide) (printable_endProps _ _)))).lt]
    exact trim_line _ _ (by simp [endProps]) (end_last _ _ hc4)
  have hpost' : post.take x ++ (a ++ v ++ b) ++ post.drop y =
      joinLines [text "=ybegin " ++ (ascii (beginProps ls d.length []) ++ fileName name)] ++
        ((a ++ v ++ b) ++ CR :: LF :: (text "=yend " ++ ascii (endProps d.length (hex c)))) := by
    have e1 : ∀ q, joinLines [text "=ybegin " ++ (ascii (beginProps ls d.length []) ++ fileName name)] ++
        ((a ++ v ++ b) ++ CR :: LF :: q) = (text "=ybegin " ++ (ascii (beginProps ls d.length []) ++ fileName name) ++ [CR, LF]) ++ (a ++ v ++ b) ++ CR :: LF :: q := by
      intro q; simp [joinLines]
    rw [e1, ← hpost, sh, hH, show text "\r\n=yend " = CR :: LF :: text "=yend " by decide]
    generalize text "=ybegin " ++ (ascii (beginProps ls d.length []) ++ fileName name) ++ [CR, LF] = H at *
    subst g3
    rw [List.drop_left' (by rw [List.length_append]; omega), List.append_assoc H, List.take_left' rfl]
    rfl
  obtain ⟨r, hr, hcase⟩ := C46_from_post_total h hl.asciiPrefix (post.take x ++ (a ++ v ++ b) ++ post.drop y) isRaw
  rcases hcase with ⟨p', rfl⟩ | rfl | rfl | rfl
  rotate_left
  · exact .inl ⟨_, hr⟩
  · exact .inl ⟨_, hr⟩
  · exact .inl ⟨_, hr⟩
  right
  refine ⟨p', hr, ?_⟩
  have rd1 := C63_written_name [(chars "line", dec ls), (chars "size", dec d.length)] name (safe_last hn) (by
    intro f hf
    simp only [List.mem_cons, List.not_mem_nil, or_false] at hf
    rcases hf with rfl | rfl
    · exact ⟨(isKey_iff (chars "line")).1 (by decide), dec_no_space _, (show chars "line" ≠ chars "name" by decide)⟩
    · exact ⟨(isKey_iff (chars "size")).1 (by decide), dec_no_space _, (show chars "size" ≠ chars "name" by decide)⟩)
  have rd3 := C63_written (chars "end") [(chars "size", dec d.length), (chars "crc32", hex c)] (by decide) (by simp) (by
    intro f hf
    simp only [List.mem_cons, List.not_mem_nil, or_false] at hf
    rcases hf with rfl | rfl
    · exact ⟨(isKey_iff (chars "size")).1 (by decide), dec_no_space _, fun hx => absurd hx.1 (by decide)⟩
    · exact ⟨(isKey_iff (chars "crc32")).1 (by decide), hex_no_spaces _, fun hx => absurd hx.1 (by decide)⟩)
  have key := marker_core h hl (hs := [text "=ybegin " ++ (ascii (beginProps ls d.length []) ++ fileName name)])
    (ts := [lit "=y" ++ (lit "begin" ++ 32 :: beginProps ls d.length name)]) (tail := text "=yend " ++ ascii (endProps d.length (hex c)))
    (by
      intro l hl
      rw [List.mem_singleton] at hl
      subst hl
      refine ⟨(show text "=y" <+: text "=ybegin " by decide).trans (List.prefix_append _ _), ?_⟩
      exact no_crlf_append _ _ (by decide) (no_crlf_append _ _ (printable_beginProps _ _).no_cr (safe_no_crlf hn)))
    (.cons (by rw [← l1]; exact trim_trimmed _) .nil)
    (by
      intro t ht
      rw [List.mem_singleton] at ht
      subst ht
      rintro ⟨z, hz⟩
      exact absurd (show chars "=ye" = chars "=yb" from congrArg (List.take 3) hz) (by decide))
    (.cons rd1 .nil)
    (by
      intro hm
      rcases List.mem_append.1 hm with hm | hm
      · exact absurd hm (by decide)
      · exact (printable_endProps _ _).no_cr hm)
    (List.prefix_append _ _) l2 rd3 rfl rfl h1 g2.symm hu huv hk hs hpost'
    (by rw [hpost']; simp only [joinLines, List.flatMap_cons, List.flatMap_nil, List.append_nil, List.append_assoc]; exact List.prefix_append _ _) hr
  rcases key with key | ⟨hnone, hf⟩
  · exact .inl key
  have f1 : field p' "begin" "size" = some (dec d.length) := hf (chars "begin") (chars "size") (by decide) (by decide) (by decide)
  have f2 : field p' "begin" "part" = none := hf (chars "begin") (chars "part") (by decide) (by decide) (by decide)
  obtain ⟨⟨size, ⟨hsz, _⟩, c1⟩, _⟩ := C61_empty h _ isRaw p' hr hnone
  obtain ⟨_, _, _, _, _, _, c2⟩ := C64_consistency_warnings h _ isRaw p' hr
  by_cases hq : size = dec d.length
  · left
    rw [c1, hq, hl.num _ hs, hl.ne _ _ hs (by omega), decide_eq_true_eq]
    intro h0
    have : d = [] := List.length_eq_zero_iff.1 h0
    subst this
    have : a ++ u ++ b = [] := by rw [g2]; rfl
    simp only [List.append_eq_nil_iff] at this
    obtain ⟨⟨rfl, rfl⟩, rfl⟩ := this
    have : v = [] := List.length_eq_zero_iff.1 (by rw [← huv]; rfl)
    subst this
    simp at hk
  · right
    rw [c2]
    left
    rw [f1, f2, hsz]
    exact ⟨by rintro ⟨t, ht, _⟩; simp at ht, by simpa using Ne.symm hq⟩

-- a post to damage: one overwritten byte turns `=n` into `=y`
example : ∃ post p ds de, ((multiPost (lit "x") 2 1 128).encode genericLib [4#8, 65#8]).2 = .ret post ∧ fromPost genericLib natEnv post true = .ret (.ok p) ∧
    p.dataStart = some ds ∧ p.dataEnd = some de ∧ (post.take de).drop ds = [EQ] ++ [110#8] ++ [107#8] ∧ [EQ, LY] <+: [EQ] ++ [LY] ++ [107#8] := by
  obtain ⟨ds, de, g1, g2⟩ := fromPost_single genericLib_isLib natEnv_lawful (lit "x") ⟨by decide, by decide, by decide, by decide⟩ 128 (by decide)
    [4#8, 65#8] (by decide) true
  exact ⟨_, _, ds, de, single_eq genericLib_isLib (lit "x") 128 1 (by decide) (by decide) [4#8, 65#8] (by decide), g1, rfl, rfl, g2.trans (by decide), by decide⟩

/-- C79, the same for parts of multi-part posts.  (`hz`: nothing equals two numbers.) -/
theorem C79_marker_parts (h : lib.IsLib) (hl : env.Lawful)
    (hz : ∀ x m n, m ≤ 2 ^ 53 → n ≤ 2 ^ 53 → env.ne x (env.ofNat m) = false → env.ne x (env.ofNat n) = false → m = n)
    (name : Str) (hn : SafeName name) (ls : Nat) (h1 : 1 ≤ ls) (h2 : ls + 6 < 2 ^ 31) (fs : List (List Byte))
    (hp : 1 < fs.length) (hne : ∀ d ∈ fs, d ≠ []) (isRaw : Bool) (ps : List (List Byte)) (hps : (feedParts lib name ls fs).2 = ps.map .ret)
    (i : Nat) (hi : i < fs.length) (post : List Byte) (hpost : ps[i]? = some post) (p : Js.Post) (ds de : Nat) (a u b v : List Byte)
    (hparse : fromPost lib env post isRaw = .ret (.ok p))
    (hds : p.dataStart = some ds) (hde : p.dataEnd = some de) (hcut : (post.take de).drop ds = a ++ u ++ b) (hu : u.length ≤ 3) (huv : u.length = v.length)
    (hk : [EQ, LY] <+: a ++ v ++ b) (hs : fs.flatten.length ≤ 2 ^ 53) :
    (∃ c, fromPost lib env (post.take ds ++ (a ++ v ++ b) ++ post.drop de) isRaw = .ret (.error c)) ∨
      ∃ p', fromPost lib env (post.take ds ++ (a ++ v ++ b) ++ post.drop de) isRaw = .ret (.ok p') ∧
        ("data_size_mismatch" ∈ p'.warnings ∨ "size_mismatch_part_range" ∈ p'.warnings) := by
  have b0 := (run_all h (show fs.flatten.length < 2 ^ 63 by omega) h1 h2 fs (EncInv.init (name := name) (size := fs.flatten.length) hp h1) (by simp)
    (by simp) (by simp)).2
  have hcount : fs.length ≤ fs.flatten.length := by
    clear b0 hp hs hi hps
    induction fs with
    | nil => simp
    | cons d ds ih =>
      have := List.length_pos_iff.2 (hne d (by simp))
      have h4 : ds.length ≤ ds.flatten.length := ih (fun d hd => hne d (by simp [hd]))
      simp only [List.length_cons, List.flatten_cons, List.length_append]
      omega
  have hpos : (fs.take i).flatten.length + fs[i].length ≤ fs.flatten.length := by
    have e := (C42_ranges fs).2.2 i hi
    rw [← e]
    conv_rhs => rw [← List.take_append_drop (i + 1) fs]
    rw [List.flatten_append, List.length_append]; omega
  have hd' : 1 ≤ fs[i].length := List.length_pos_iff.2 (hne _ (List.getElem_mem hi))
  have hpe : partPost (i + 1) fs.length ls fs.flatten.length (fileName name) (fs.take i).flatten.length fs[i].length (Spec.encode ls true 0 fs[i]) (Crc.crc1 0 fs[i])
      (if i + 1 = fs.length then some (Crc.crc1 0 ((fs.take i).flatten ++ fs[i])) else none) = post := by
    have e := hps.symm.trans b0
    have e2 := congrArg (fun l : List (Outcome (List Byte)) => l[i]?) e
    simp only [List.getElem?_map, hpost, Option.map_some] at e2
    rw [List.getElem?_eq_getElem (by rw [partsOf_length]; exact hi), partsOf_getElem _ _ _ _ _ _ _ _ hi] at e2
    simp only [partOf, List.nil_append, Nat.zero_add, Option.map_some, Option.some.injEq, Outcome.ret.injEq] at e2
    exact e2.symm
  generalize hcr0 : (if i + 1 = fs.length then some (Crc.crc1 0 ((fs.take i).flatten ++ fs[i])) else none) = cr at hpe
  generalize hdd : fs[i] = d at *
  generalize (fs.take i).flatten.length = pos at *
  generalize fs.flatten.length = size at *
  obtain ⟨x, y, g1, g2, g3, g4⟩ := fromPost_part_body h hl name hn (i + 1) fs.length ls size pos d.length h1 (by omega) (by omega) (by omega) (by omega) hd' hpos
    (Crc.crc1 0 d) cr _ (noKeyword_encode ls h1 d) isRaw d (decode_body h ls h1 d isRaw)
  rw [hpe, hparse] at g1
  simp only [Outcome.ret.injEq, FromPost.ok.injEq] at g1
  subst g1
  simp only [Option.some.injEq] at hds hde
  subst hds hde
  rw [hpe, hcut] at g2
  clear hparse b0 hcr0 hdd
  have sh := part_shape (i + 1) fs.length ls size (fileName name) pos d.length (Spec.encode ls true 0 d) (Crc.crc1 0 d) cr
  obtain ⟨co, hco⟩ : ∃ co : Option (List Byte), co = cr.map Crc.packCrc := ⟨_, rfl⟩
  have hco' : (cr.map fun c => hex (Crc.packCrc c)) = co.map hex := by rw [hco, Option.map_map]; rfl
  have hcl : ∀ x, co = some x → x.length = 4 := by
    intro x hx
    rw [hco] at hx
    cases cr with
    | none => simp at hx
    | some c => simp at hx; rw [← hx]; rfl
  rw [hco'] at sh
  generalize hcr : Crc.packCrc (Crc.crc1 0 d) = c at sh
  have hc4 : c.length = 4 := by rw [← hcr]; rfl
  generalize hpart : i + 1 = part at *
  generalize htot : fs.length = total at *
  have e8 : ascii (lit "=y" ++ (lit "begin" ++ 32 :: beginPartProps part total ls size [])) = text "=ybegin " ++ ascii (beginPartProps part total ls size []) := by
    rw [text_lit, ← ascii_append]; rfl
  have l1 : trim (env.toStr (text "=ybegin " ++ (ascii (beginPartProps part total ls size []) ++ fileName name))) =
      lit "=y" ++ (lit "begin" ++ 32 :: beginPartProps part total ls size name) := by
    rw [← List.append_assoc, ← e8, toStr_name hl _ _ ?_ hn]
    · have : lit "=y" ++ (lit "begin" ++ 32 :: beginPartProps part total ls size []) ++ name = lit "=y" ++ (lit "begin" ++ 32 :: beginPartProps part total ls size name) := by
        rw [beginPartProps_name part total ls size name]; simp
      rw [this, trim_line _ _ (by simp [beginPartProps]) (beginPart_last part total ls _ name hn)]
    · exact (Printable.append (by unfold Printable; decide) (.append (by unfold Printable; decide) (.cons (by decide) (printable_beginPartProps _ _ _ _)))).lt
  have pp : Printable (lit "part" ++ 32 :: partProps (pos + 1) (pos + d.length)) := .append (by unfold Printable; decide) (.cons (by decide) (printable_partProps _ _))
  have lm : trim (env.toStr (text "=y" ++ ascii (lit "part" ++ 32 :: partProps (pos + 1) (pos + d.length)))) =
      lit "=y" ++ (lit "part" ++ 32 :: partProps (pos + 1) (pos + d.length)) := by
    rw [text_lit, ← ascii_append, toStr_ascii hl _ (Printable.append (by unfold Printable; decide) pp).lt]
    exact trim_line _ _ (by simp [partProps]) (part_last _ _)
  have l2 : trim (env.toStr (text "=yend " ++ ascii (endPartProps d.length part (hex c) (co.map hex)))) =
      lit "=y" ++ (lit "end" ++ 32 :: endPartProps d.length part (hex c) (co.map hex)) := by
    have e6 : text "=yend " ++ ascii (endPartProps d.length part (hex c) (co.map hex)) = ascii (lit "=y" ++ (lit "end" ++ 32 :: endPartProps d.length part (hex c) (co.map hex))) := by
      rw [text_lit, ← ascii_append]; rfl
    rw [e6, toStr_ascii hl _ (Printable.append (by unfold Printable; decide) (.append (by unfold Printable; decide) (.cons (by decide) (printable_endPartProps _ _ _ _)))).lt]
    exact trim_line _ _ (by simp [endPartProps]) (endPart_last _ _ _ hc4 _ hcl)
  have hpost' : post.take x ++ (a ++ v ++ b) ++ post.drop y =
      joinLines [text "=ybegin " ++ (ascii (beginPartProps part total ls size []) ++ fileName name),
          text "=y" ++ ascii (lit "part" ++ 32 :: partProps (pos + 1) (pos + d.length))] ++
        ((a ++ v ++ b) ++ CR :: LF :: (text "=yend " ++ ascii (endPartProps d.length part (hex c) (co.map hex)))) := by
    have e1 : ∀ q, joinLines [text "=ybegin " ++ (ascii (beginPartProps part total ls size []) ++ fileName name),
          text "=y" ++ ascii (lit "part" ++ 32 :: partProps (pos + 1) (pos + d.length))] ++
        ((a ++ v ++ b) ++ CR :: LF :: q) = (text "=ybegin " ++ (ascii (beginPartProps part total ls size []) ++ fileName name) ++ [CR, LF] ++
          (text "=y" ++ ascii (lit "part" ++ 32 :: partProps (pos + 1) (pos + d.length))) ++ [CR, LF]) ++ (a ++ v ++ b) ++ CR :: LF :: q := by
      intro q; simp [joinLines]
    rw [e1, ← hpe, sh, show text "\r\n=yend " = CR :: LF :: text "=yend " by decide]
    generalize text "=ybegin " ++ (ascii (beginPartProps part total ls size []) ++ fileName name) ++ [CR, LF] ++
          (text "=y" ++ ascii (lit "part" ++ 32 :: partProps (pos + 1) (pos + d.length))) ++ [CR, LF] = H at *
    subst g3
    rw [List.drop_left' (by rw [List.length_append]; omega), List.append_assoc H, List.take_left' rfl]
    rfl
  obtain ⟨r, hr, hcase⟩ := C46_from_post_total h hl.asciiPrefix (post.take x ++ (a ++ v ++ b) ++ post.drop y) isRaw
  rcases hcase with ⟨p', rfl⟩ | rfl | rfl | rfl
  rotate_left
  · exact .inl ⟨_, hr⟩
  · exact .inl ⟨_, hr⟩
  · exact .inl ⟨_, hr⟩
  right
  refine ⟨p', hr, ?_⟩
  have rd1 := C63_written_name [(chars "part", dec part), (chars "total", dec total), (chars "line", dec ls), (chars "size", dec size)] name (safe_last hn) (by
    intro f hf
    simp only [List.mem_cons, List.not_mem_nil, or_false] at hf
    rcases hf with rfl | rfl | rfl | rfl
    · exact ⟨(isKey_iff (chars "part")).1 (by decide), dec_no_space _, (show chars "part" ≠ chars "name" by decide)⟩
    · exact ⟨(isKey_iff (chars "total")).1 (by decide), dec_no_space _, (show chars "total" ≠ chars "name" by decide)⟩
    · exact ⟨(isKey_iff (chars "line")).1 (by decide), dec_no_space _, (show chars "line" ≠ chars "name" by decide)⟩
    · exact ⟨(isKey_iff (chars "size")).1 (by decide), dec_no_space _, (show chars "size" ≠ chars "name" by decide)⟩)
  have rd2 := C63_written (chars "part") [(chars "begin", dec (pos + 1)), (chars "end", dec (pos + d.length))] (by decide) (by simp) (by
    intro f hf
    simp only [List.mem_cons, List.not_mem_nil, or_false] at hf
    rcases hf with rfl | rfl
    · exact ⟨(isKey_iff (chars "begin")).1 (by decide), dec_no_space _, fun hx => absurd hx.1 (by decide)⟩
    · exact ⟨(isKey_iff (chars "end")).1 (by decide), dec_no_space _, fun hx => absurd hx.1 (by decide)⟩)
  obtain ⟨l3, rd3, tag3, size3⟩ : ∃ l3, ReadLine (lit "=y" ++ (lit "end" ++ 32 :: endPartProps d.length part (hex c) (co.map hex))) l3 ∧ l3.tag = chars "end" ∧
      (l3.fields.reverse.find? (fun f => f.1 = chars "size")).map Prod.snd = some (dec d.length) := by
    cases co with
    | none =>
      have z := C63_written (chars "end") [(chars "size", dec d.length), (chars "part", dec part), (chars "pcrc32", hex c)] (by decide) (by simp) (by
        intro f hf
        simp only [List.mem_cons, List.not_mem_nil, or_false] at hf
        rcases hf with rfl | rfl | rfl
        · exact ⟨(isKey_iff (chars "size")).1 (by decide), dec_no_space _, fun hx => absurd hx.1 (by decide)⟩
        · exact ⟨(isKey_iff (chars "part")).1 (by decide), dec_no_space _, fun hx => absurd hx.1 (by decide)⟩
        · exact ⟨(isKey_iff (chars "pcrc32")).1 (by decide), hex_no_spaces _, fun hx => absurd hx.1 (by decide)⟩)
      have e : endPartProps d.length part (hex c) (Option.map hex none) =
          writeFields [(chars "size", dec d.length), (chars "part", dec part), (chars "pcrc32", hex c)] := by
        simp only [endPartProps, Option.map_none, List.append_nil]; rfl
      exact ⟨_, by rw [e]; exact z, rfl, rfl⟩
    | some e =>
      refine ⟨_, C63_written (chars "end") [(chars "size", dec d.length), (chars "part", dec part), (chars "pcrc32", hex c), (chars "crc32", hex e)] (by decide) (by simp) ?_, rfl, rfl⟩
      · intro f hf
        simp only [List.mem_cons, List.not_mem_nil, or_false] at hf
        rcases hf with rfl | rfl | rfl | rfl
        · exact ⟨(isKey_iff (chars "size")).1 (by decide), dec_no_space _, fun hx => absurd hx.1 (by decide)⟩
        · exact ⟨(isKey_iff (chars "part")).1 (by decide), dec_no_space _, fun hx => absurd hx.1 (by decide)⟩
        · exact ⟨(isKey_iff (chars "pcrc32")).1 (by decide), hex_no_spaces _, fun hx => absurd hx.1 (by decide)⟩
        · exact ⟨(isKey_iff (chars "crc32")).1 (by decide), hex_no_spaces _, fun hx => absurd hx.1 (by decide)⟩
  have key := marker_core h hl (hs := [text "=ybegin " ++ (ascii (beginPartProps part total ls size []) ++ fileName name),
      text "=y" ++ ascii (lit "part" ++ 32 :: partProps (pos + 1) (pos + d.length))])
    (ts := [lit "=y" ++ (lit "begin" ++ 32 :: beginPartProps part total ls size name), lit "=y" ++ (lit "part" ++ 32 :: partProps (pos + 1) (pos + d.length))])
    (tail := text "=yend " ++ ascii (endPartProps d.length part (hex c) (co.map hex)))
    (by
      intro l hl
      simp only [List.mem_cons, List.not_mem_nil, or_false] at hl
      rcases hl with rfl | rfl
      · refine ⟨(show text "=y" <+: text "=ybegin " by decide).trans (List.prefix_append _ _), ?_⟩
        exact no_crlf_append _ _ (by decide) (no_crlf_append _ _ (printable_beginPartProps _ _ _ _).no_cr (safe_no_crlf hn))
      · refine ⟨List.prefix_append _ _, ?_⟩
        rw [text_lit, ← ascii_append]
        intro hh
        exact (Printable.append (by unfold Printable; decide) pp).no_cr (hh.subset (by simp)))
    (.cons (by rw [← l1]; exact trim_trimmed _) (.cons (by rw [← lm]; exact trim_trimmed _) .nil))
    (by
      intro t ht
      simp only [List.mem_cons, List.not_mem_nil, or_false] at ht
      rcases ht with rfl | rfl
      · rintro ⟨z, hz⟩
        exact absurd (show chars "=ye" = chars "=yb" from congrArg (List.take 3) hz) (by decide)
      · rintro ⟨z, hz⟩
        exact absurd (show chars "=ye" = chars "=yp" from congrArg (List.take 3) hz) (by decide))
    (.cons rd1 (.cons rd2 .nil))
    (by
      intro hm
      rcases List.mem_append.1 hm with hm | hm
      · exact absurd hm (by decide)
      · exact (printable_endPartProps _ _ _ _).no_cr hm)
    (List.prefix_append _ _) l2 rd3 tag3 size3 h1 g2.symm hu huv hk (by omega) hpost'
    (by rw [hpost']; simp only [joinLines, List.flatMap_cons, List.flatMap_nil, List.append_nil, List.append_assoc]; exact List.prefix_append _ _) hr
  rcases key with key | ⟨hnone, hf⟩
  · exact .inl key
  have f1 : field p' "part" "begin" = some (dec (pos + 1)) := hf (chars "part") (chars "begin") (by decide) (by decide) (by decide)
  have f2 : field p' "part" "end" = some (dec (pos + d.length)) := hf (chars "part") (chars "end") (by decide) (by decide) (by decide)
  obtain ⟨⟨sz, ⟨hsz, _⟩, c1⟩, _⟩ := C61_empty h _ isRaw p' hr hnone
  obtain ⟨_, _, _, c2, _⟩ := C64_consistency_warnings h _ isRaw p' hr
  cases q1 : env.ne (env.num sz) (env.ofNat 0) with
  | true => left; exact c1.2 q1
  | false =>
    right
    have nn : ∀ n, dec n ≠ [] := fun n hh => by have := truthy_dec n; rw [hh] at this; simp [truthy] at this
    refine c2.2 ⟨_, _, sz, ⟨f1, nn _⟩, ⟨f2, nn _⟩, hsz, ?_, ?_⟩
    · rw [hl.num _ (by omega), hl.num _ (by omega), hl.lt _ _ (by omega) (by omega), decide_eq_false_iff_not]; omega
    · rw [hl.num (pos + d.length) (by omega), hl.num (pos + 1) (by omega), hl.range _ _ (by omega) (by omega)]
      cases q2 : env.ne (env.num sz) (env.ofNat (pos + d.length + 1 - (pos + 1))) with
      | true => rfl
      | false =>
        have := hz _ _ _ (by omega) (by omega) q1 q2
        omega

-- `hz` holds for the numbers of JavaScript, and the conditions on the post are met: one byte of the second part overwritten
example : ∀ (x : jsEnv.Num) (m n : Nat), m ≤ 2 ^ 53 → n ≤ 2 ^ 53 → jsEnv.ne x (jsEnv.ofNat m) = false → jsEnv.ne x (jsEnv.ofNat n) = false → m = n := by
  intro x m n hm hn h1 h2
  have e1 : jsEnv.ofNat m = Number.fin m := Number.rnd_nat hm
  have e2 : jsEnv.ofNat n = Number.fin n := Number.rnd_nat hn
  rw [e1] at h1
  rw [e2] at h2
  have key : ∀ (y : Number) (q : ℚ), Number.ne y (Number.fin q) = false → y = Number.fin q := by
    intro y q hy
    cases y <;> simp [Number.ne] at hy ⊢
    exact hy
  have := (key x _ h1).symm.trans (key x _ h2)
  simpa using this

example : (feedParts genericLib (lit "n") 128 [[65#8], [4#8, 67#8]]).2[1]? =
      some (.ret (text "=ybegin part=2 total=2 line=128 size=3 name=n\r\n=ypart begin=2 end=3\r\n=nm\r\n=yend size=2 part=2 pcrc32=ca60c7d1 crc32=05a0ebcb")) := by
  decide +kernel

/-- C79, false if instead of overwriting up to three bytes a whole line may get in: here the byte of the data is replaced by a part line and another byte, and nothing is reported, because
the checksum of a post with a part line is not looked at. -/
theorem C79_insert_false :
    ∃ post, ((multiPost (lit "x") 1 1 128).encode genericLib [65#8]).2 = .ret post ∧
      (match fromPost genericLib natEnv post false with | .ret (.ok p) => some (p.dataStart, p.dataEnd, p.data, p.warnings) | _ => none) =
        some (some 32, some 33, some [65#8], ["missing_yend_newline"]) ∧
      (match fromPost genericLib natEnv (post.take 32 ++ text "=ypart begin=1 end=1\r\nl" ++ post.drop 33) false with | .ret (.ok p) => some (p.data, p.warnings) | _ => none) =
        some (some [66#8], ["missing_yend_newline"]) := by
  refine ⟨text "=ybegin line=128 size=1 name=x\r\nk\r\n=yend size=1 crc32=d3d99e8b", ?_, ?_, ?_⟩ <;> decide +kernel

end Yenc.Props
