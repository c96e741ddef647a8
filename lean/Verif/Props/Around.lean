import Verif.Props.FromPost
import Verif.Lemmas.JsAround
/-! C72: posts inside other text. -/
namespace Yenc.Props
open Yenc Spec Js

variable {lib : Lib} {env : Env}

/-- The position of a post in `text`: at the very beginning, or else after a line break that is followed by the begin marker for the first time. -/
theorem findStart_before {pre data : List Byte} (h : text "=ybegin " <+: data) (hp : pre = [] ∨ text "\r\n" <:+ pre)
    (h1 : ¬ text "=ybegin " <+: pre) (h2 : ¬ text "\r\n=ybegin " <:+: pre) : findStart (pre ++ data) = some pre.length := by
  have l8 : (text "=ybegin ").length = 8 := by decide
  have a8 : ascii (lit "=ybegin ") = text "=ybegin " := by decide
  have a10 : ascii (lit "\r\n=ybegin ") = text "\r\n=ybegin " := by decide
  unfold findStart
  rw [a8, a10]
  rcases hp with rfl | ⟨x, hx⟩
  · rw [if_pos]; · rfl
    obtain ⟨t, ht⟩ := h
    rw [List.nil_append, ← ht, List.take_append_of_le_length (by omega), List.take_of_length_le (by omega)]
  · subst hx
    have n1 : (x ++ text "\r\n" ++ data).take 8 ≠ text "=ybegin " := by
      intro hc
      rcases Nat.lt_or_ge 7 (x ++ text "\r\n").length with hl | hl
      · rw [List.take_append_of_le_length (by omega)] at hc
        exact h1 (hc ▸ List.take_prefix _ _)
      · have h3 : CR ∈ (x ++ text "\r\n" ++ data).take 8 := by
          rw [List.take_append, List.take_of_length_le (by omega)]
          simp only [List.mem_append]
          exact .inl (.inr (by decide))
        rw [hc] at h3
        exact absurd h3 (by decide)
    rw [if_neg n1]
    have e10 : text "\r\n=ybegin " = text "\r\n" ++ text "=ybegin " := by decide
    have : find (text "\r\n=ybegin ") (x ++ text "\r\n" ++ data) = some x.length := by
      refine find_eq (by simp [show (text "\r\n").length = 2 by decide]) ?_ ?_
      · rw [List.append_assoc, List.drop_left, e10]
        exact (List.prefix_append_right_inj _).2 h
      · intro i hi hc
        rcases Nat.lt_or_ge (x.length + 2) (i + 10) with hl | hl
        · obtain ⟨t, ht⟩ := hc
          have g := congrArg (fun l => l[x.length - i]?) ht
          simp only [List.getElem?_drop, show i + (x.length - i) = x.length by omega] at g
          rw [List.getElem?_append_left (by simp [show (text "\r\n=ybegin ").length = 10 by decide]; omega), List.append_assoc, List.getElem?_append_right (by omega), Nat.sub_self] at g
          obtain ⟨k, hk⟩ : ∃ k, x.length - i = k + 1 := ⟨x.length - i - 1, by omega⟩
          have hk9 : k < 9 := by omega
          rw [hk, show (text "\r\n" ++ data)[0]? = some CR from rfl] at g
          have : ∀ k < 9, (text "\r\n=ybegin ")[k + 1]? ≠ some CR := by decide
          exact this k hk9 g
        · apply h2
          rw [prefix_append_iff (by simp [show (text "\r\n=ybegin ").length = 10 by decide, show (text "\r\n").length = 2 by decide]; omega)] at hc
          exact hc.isInfix.trans (List.drop_suffix _ _).isInfix
    rw [this]
    simp [show (text "\r\n").length = 2 by decide]

/-- C72: text before a post changes nothing but the positions, which move by its length.  The text is a number of lines, none of which starts with the begin marker; the rest need not be a valid post. -/
theorem C72_before (pre data : List Byte) (isRaw : Bool) (h : text "=ybegin " <+: data) (hp : pre = [] ∨ text "\r\n" <:+ pre)
    (h1 : ¬ text "=ybegin " <+: pre) (h2 : ¬ text "\r\n=ybegin " <:+: pre) :
    (∀ c, fromPost lib env data isRaw = .ret (.error c) → fromPost lib env (pre ++ data) isRaw = .ret (.error c)) ∧
    ∀ p, fromPost lib env data isRaw = .ret (.ok p) → fromPost lib env (pre ++ data) isRaw =
      .ret (.ok ⟨pre.length + p.yencStart, p.dataStart.map (pre.length + ·), p.dataEnd.map (pre.length + ·), pre.length + p.yencEnd, p.props, p.data, p.crc32, p.warnings⟩) := by
  have h0 : findStart data = some 0 := findStart_before (pre := []) h (.inl rfl) (by decide) (by decide)
  rw [fromPost_shift isRaw h0 (findStart_before h hp h1 h2)]
  constructor
  · intro c hc; rw [hc]; rfl
  · intro p hc; rw [hc]; rfl

theorem find_none_at {pat l : List Byte} (hp : pat ≠ []) (h : find pat l = none) (i : Nat) : ¬ pat <+: l.drop i := by
  intro hc
  induction l generalizing i with
  | nil => simp at hc; exact hp hc
  | cons c l ih =>
    simp only [find] at h
    by_cases h1 : pat.isPrefixOf (c :: l) = true
    · rw [if_pos h1] at h; simp at h
    · rw [if_neg h1] at h
      rcases i with _ | i
      · exact h1 (List.isPrefixOf_iff_prefix.2 hc)
      · cases h2 : find pat l with
        | none => exact ih h2 i hc
        | some k => rw [h2] at h; simp at h

theorem findFrom_none {pat data : List Byte} {k : Nat} (h : findFrom pat data k = none) : find pat (data.drop k) = none := by
  unfold findFrom at h
  cases hf : find pat (data.drop k) with
  | none => rfl
  | some i => rw [hf] at h; simp at h

theorem findStart_append {data : List Byte} {s : Nat} (suf : List Byte) (h : findStart data = some s) : findStart (data ++ suf) = some s := by
  have l8 : (ascii (lit "=ybegin ")).length = 8 := by decide
  have l10 : (ascii (lit "\r\n=ybegin ")).length = 10 := by decide
  unfold findStart at h ⊢
  have key : 8 ≤ data.length → (data ++ suf).take 8 = data.take 8 := fun h => List.take_append_of_le_length h
  by_cases h8 : data.take 8 = ascii (lit "=ybegin ")
  · have : 8 ≤ data.length := by
      have := congrArg List.length h8
      rw [l8, List.length_take] at this; omega
    rw [if_pos h8] at h
    rw [key this, if_pos h8]; exact h
  · rw [if_neg h8] at h
    cases hf : find (ascii (lit "\r\n=ybegin ")) data with
    | none => rw [hf] at h; simp at h
    | some i =>
      rw [hf] at h
      have a := prefix_len (by decide) (find_some hf).2
      rw [l10] at a
      rw [key (by omega), if_neg h8]
      have : find (ascii (lit "\r\n=ybegin ")) (data ++ suf) = some i := by
        refine find_eq (by simp; omega) ((prefix_append_iff (by omega)).2 (find_some hf).2) fun j hj hc => find_first hf j hj ?_
        exact (prefix_append_iff (by omega)).1 hc
      rw [this]; exact h

/-- `f` appends warnings, not `m`. -/
def Adds (m : String) (f : List String → List String) : Prop := ∃ c, m ∉ c ∧ ∀ ws, f ws = ws ++ c

theorem Adds.comp {m : String} {f g : List String → List String} (hf : Adds m f) (hg : Adds m g) : Adds m fun ws => f (g ws) := by
  obtain ⟨c, c1, c2⟩ := hf
  obtain ⟨d, d1, d2⟩ := hg
  exact ⟨d ++ c, by simp [c1, d1], fun ws => by simp only [d2, c2, List.append_assoc]⟩

theorem Adds.id {m : String} : Adds m fun ws => ws := ⟨[], by simp, by simp⟩

theorem Adds.one {m w : String} (h : m ≠ w) : Adds m fun ws => ws ++ [w] := ⟨[w], by simp [h], by simp⟩

theorem Adds.ite {m : String} {f g : List String → List String} (c : Prop) [Decidable c] (hf : Adds m f) (hg : Adds m g) : Adds m fun ws => if c then f ws else g ws := by
  by_cases h : c
  · simpa only [if_pos h] using hf
  · simpa only [if_neg h] using hg

/-- The warning in question. -/
abbrev noNewline : String := "missing_yend_newline"

theorem adds_checkNumber (r : Rec) (key : String) (h1 : noNewline ≠ "invalid_prop_" ++ key) (h2 : noNewline ≠ "zero_prop_" ++ key) : Adds noNewline (checkNumber r key) := by
  unfold checkNumber
  rcases r.get (lit key) with _ | _ | ⟨c, cs⟩
  · exact .id
  · exact .id
  · exact .ite _ (.one h1) (.ite _ (.one h2) .id)

theorem adds_checkNumbers (y : YData) : Adds noNewline (checkNumbers y) := by
  have b : ∀ key, key ∈ ["line", "total", "part", "size", "begin", "end"] → ∀ r, Adds noNewline (checkNumber r key) := by
    intro key hk r
    have : noNewline ≠ "invalid_prop_" ++ key ∧ noNewline ≠ "zero_prop_" ++ key := by
      revert key; decide
    exact adds_checkNumber r key this.1 this.2
  have h1 : Adds noNewline fun ws => if (y.get (lit "begin")).truthy then ["line", "total", "part", "size"].foldl (fun ws k => checkNumber (y.get (lit "begin")) k ws) ws else ws :=
    .ite _ (.comp (b "size" (by simp) _) (.comp (b "part" (by simp) _) (.comp (b "total" (by simp) _) (b "line" (by simp) _)))) .id
  have h2 : Adds noNewline fun ws => if (y.get (lit "part")).truthy then ["begin", "end"].foldl (fun ws k => checkNumber (y.get (lit "part")) k ws) ws else ws :=
    .ite _ (.comp (b "end" (by simp) _) (b "begin" (by simp) _)) .id
  have h3 : Adds noNewline fun ws => if (y.get (lit "end")).truthy then ["size", "part"].foldl (fun ws k => checkNumber (y.get (lit "end")) k ws) ws else ws :=
    .ite _ (.comp (b "part" (by simp) _) (b "size" (by simp) _)) .id
  exact h3.comp (h2.comp h1)

theorem Adds.ite1 {m w : String} {f : List String → List String} (c : Prop) [Decidable c] (h : m ≠ w) (hf : Adds m f) : Adds m fun ws => if c then ws ++ [w] else f ws :=
  .ite c (.one h) hf

theorem adds_checkPart (b e : Rec) : Adds noNewline (checkPart env b e) := by
  unfold checkPart
  exact .ite1 _ (by decide) (.ite1 _ (by decide) .id)

theorem adds_checkRange (b p e : Rec) (size : Str) : Adds noNewline (checkRange env b p e size) := by
  unfold checkRange
  simp only
  split
  · exact .ite1 _ (by decide) (.ite1 _ (by decide) (.ite1 _ (by decide) .id))
  · exact .ite1 _ (by decide) .id

theorem adds_checkHex (e : Rec) (prop : String) (h : noNewline ≠ "invalid_prop_" ++ prop) : Adds noNewline (checkHex e prop) := by
  unfold checkHex
  rcases e.get (lit prop) with _ | _ | ⟨c, cs⟩
  · exact .id
  · exact .id
  · exact .ite _ .id (.one h)

theorem adds_checkSize (b e : Rec) : Adds noNewline (checkSize env b e) := by
  unfold checkSize
  exact .ite1 _ (by decide) (.ite1 _ (by decide) .id)

theorem adds_checkProps (y : YData) (size : Str) : Adds noNewline (checkProps env y size) := by
  have h1 := adds_checkNumbers y
  have h2 := adds_checkPart (env := env) (y.get (lit "begin")) (y.get (lit "end"))
  have h3 := adds_checkRange (env := env) (y.get (lit "begin")) (y.get (lit "part")) (y.get (lit "end")) size
  have h4 := adds_checkHex (y.get (lit "end")) "pcrc32" (by decide)
  have h5 := adds_checkHex (y.get (lit "end")) "crc32" (by decide)
  have h6 := adds_checkSize (env := env) (y.get (lit "begin")) (y.get (lit "end"))
  exact h6.comp (h5.comp (h4.comp (h3.comp (h2.comp h1))))

theorem adds_checkData (p e : Rec) (size : Str) (len : Nat) (crc : Str) (low : Bool) : Adds noNewline (checkData env p e size len crc low) := by
  have h1 : Adds noNewline fun ws => if env.ne (env.num size) (env.ofNat len) then ws ++ ["data_size_mismatch"] else ws := .ite1 _ (by decide) .id
  have h2 : Adds noNewline fun ws => if crcDiffers (e.get (lit "pcrc32")) crc low then ws ++ ["pcrc32_mismatch"] else ws := .ite1 _ (by decide) .id
  have h3 : Adds noNewline fun ws => if !p.truthy && crcDiffers (e.get (lit "crc32")) crc low then ws ++ ["crc32_mismatch"] else ws := .ite1 _ (by decide) .id
  exact h3.comp (h2.comp h1)

theorem no_parseProps (tag : Str) (n : Nat) (line : Str) (p : Props) (ws : List String) (h : noNewline ∉ ws) : noNewline ∉ (parsePropsN tag n line p ws).2 := by
  have push : ∀ {ws : List String} (w : String), noNewline ∉ ws → noNewline ≠ w → noNewline ∉ ws ++ [w] := by
    intro ws w h1 h2; simp [h1, h2]
  induction n generalizing line p ws with
  | zero => simp only [parsePropsN]; split; exacts [h, push _ h (by decide)]
  | succ n ih =>
    simp only [parsePropsN]
    split
    · simp only; split; exacts [h, push _ h (by decide)]
    · apply ih
      split <;> split
      exacts [push _ h (by decide), push _ (push _ h (by decide)) (by decide), h, push _ h (by decide)]

theorem no_parseLines (ls : List Str) (y : YData) (ws : List String) (h : noNewline ∉ ws) : noNewline ∉ (parseLines ls y ws).2 := by
  induction ls generalizing y ws with
  | nil => exact h
  | cons l ls ih =>
    refine ih _ _ ?_
    simp only [parseLine]
    have := no_parseProps (lineTag l) (lineRest l).length (lineRest l) ⟨[]⟩ ws h
    split
    · rw [List.mem_append]
      rintro (hc | hc)
      · exact this hc
      · exact absurd hc (by decide)
    · exact this

/-- The warnings of a result are those of the layout and others. -/
theorem conclude_warnings {data : List Byte} {isRaw : Bool} {s : Nat} {l : Layout} {size : Str} {p : Js.Post} (h : conclude lib env data isRaw s l size = .ret (.ok p)) :
    ∃ c, noNewline ∉ c ∧ p.warnings = l.warnings ++ c ∧ p.dataStart = l.dataStart ∧ p.yencEnd = l.yencEnd ∧
      ∀ data' l', l'.props = l.props → l'.dataStart = l.dataStart → l'.dataEnd = l.dataEnd → (∀ ds de, l.dataStart = some ds → l.dataEnd = some de → (data'.take de).drop ds = (data.take de).drop ds) →
        conclude lib env data' isRaw s l' size = .ret (.ok { p with yencEnd := l'.yencEnd, warnings := l'.warnings ++ c }) := by
  obtain ⟨ds, de, ye, y, ws⟩ := l
  obtain ⟨c1, n1, e1⟩ := adds_checkProps (env := env) y size
  by_cases hd : ∃ a b, ds = some a ∧ de = some b
  · obtain ⟨a, b, rfl, rfl⟩ := hd
    simp only [conclude] at h
    cases ho : Dec.apiDecode lib.dec [.buffer ((data.take b).drop a), .bool isRaw] with
    | throw m => rw [ho] at h; simp [Outcome.bind] at h
    | ub => rw [ho] at h; simp [Outcome.bind] at h
    | ret out =>
      rw [ho] at h
      cases hc : lib.crc32 out with
      | throw m => simp [Outcome.bind, hc] at h
      | ub => simp [Outcome.bind, hc] at h
      | ret crc =>
        simp only [Outcome.bind, hc, Outcome.ret.injEq, FromPost.ok.injEq] at h
        subst h
        obtain ⟨c2, n2, e2⟩ := adds_checkData (env := env) (y.get (lit "part")) (y.get (lit "end")) size out.length (hex crc) true
        refine ⟨c1 ++ c2, by simp [n1, n2], by simp only [e1, e2, List.append_assoc], rfl, rfl, ?_⟩
        rintro data' ⟨ds', de', ye', y', ws'⟩ h1 h2 h3 h4
        simp only at h1 h2 h3
        subst h1 h2 h3
        simp only [conclude, h4 a b rfl rfl, ho, hc, Outcome.bind, e1, e2, List.append_assoc]
  · have e : ∀ data' ye' ws', conclude lib env data' isRaw s ⟨ds, de, ye', y, ws'⟩ size = .ret (.ok ⟨s, ds, de, ye', y, none, none,
        checkData env (y.get (lit "part")) (y.get (lit "end")) size 0 (lit "00000000") false (checkProps env y size ws')⟩) := by
      intro data' ye' ws'
      unfold conclude
      rcases ds with _ | a
      · rfl
      · rcases de with _ | b
        · rfl
        · exact absurd ⟨a, b, rfl, rfl⟩ hd
    rw [e] at h
    simp only [Outcome.ret.injEq, FromPost.ok.injEq] at h
    subst h
    obtain ⟨c2, n2, e2⟩ := adds_checkData (env := env) (y.get (lit "part")) (y.get (lit "end")) size 0 (lit "00000000") false
    refine ⟨c1 ++ c2, by simp [n1, n2], by simp only [e1, e2, List.append_assoc], rfl, rfl, ?_⟩
    rintro data' ⟨ds', de', ye', y', ws'⟩ h1 h2 h3 h4
    simp only at h1 h2 h3
    subst h1 h2 h3
    simp only [e, e1, e2, List.append_assoc]

/-- What `headerLoop` found lies in the data, if an end line was found. -/
theorem layout_bounds {data : List Byte} {hd : Header} {l : Layout} (h : layout env data hd = some l) :
    hd ≠ .noEnd ∧ (∀ ls ds, hd = .dataAt ls ds → ds + 8 ≤ data.length) ∧ ∀ de, l.dataEnd = some de → de ≤ data.length := by
  cases hd with
  | noEnd => simp [layout] at h
  | empty lines e =>
    simp only [layout, Option.some.injEq] at h; subst h
    exact ⟨by simp, by simp, by simp⟩
  | dataAt lines ds =>
    simp only [layout] at h
    cases hf : findRev (ascii (lit "\r\n=yend ")) (data.drop ds) with
    | none => rw [hf] at h; simp at h
    | some i =>
      rw [hf] at h
      simp only [Option.some.injEq] at h
      subst h
      have a := prefix_len yend_ne (by have := (findRev_some hf).2; rwa [List.drop_drop] at this)
      rw [show (ascii (lit "\r\n=yend ")).length = 8 by decide] at a
      refine ⟨by simp, ?_, ?_⟩
      · rintro _ _ h
        injection h with h1 h2
        omega
      · rintro de h
        simp only [Option.some.injEq] at h
        omega

theorem headerLoop_more {data : List Byte} {s : Nat} {l : Layout} (suf : List Byte)
    (h : layout env data (headerLoop env data data.length s (findFrom crlf data (s + 8)) []) = some l) :
    headerLoop env (data ++ suf) (data ++ suf).length s (findFrom crlf (data ++ suf) (s + 8)) [] = headerLoop env data data.length s (findFrom crlf data (s + 8)) [] := by
  obtain ⟨b1, b2, -⟩ := layout_bounds h
  cases hf : findFrom crlf data (s + 8) with
  | none =>
    rw [hf] at b1
    exact absurd (by cases data.length <;> rfl) b1
  | some q =>
    rw [hf] at b1 b2
    have a := prefix_len crlf_ne (findFrom_some hf).2.2
    have a2 : crlf.length = 2 := rfl
    rw [findFrom_append suf crlf_ne hf]
    have e := headerLoop_fuel (env := env) data data.length (data ++ suf).length s (some q) [] (fun r hr => by cases hr; omega) (by simp)
    rw [← e] at b1 b2 ⊢
    exact headerLoop_append (env := env) data suf _ s (some q) [] (fun r hr => by cases hr; omega) b1 fun ls ds hd => by have := b2 ls ds hd; omega

theorem layout_newline {data : List Byte} {hd : Header} {l : Layout} (h : layout env data hd = some l) (hm : noNewline ∈ l.warnings) :
    l.yencEnd = data.length ∧ layout env (data ++ text "\r\n") hd = some { l with yencEnd := data.length + 2, warnings := l.warnings.filter (· ≠ noNewline) } := by
  cases hd with
  | noEnd => simp [layout] at h
  | empty lines e =>
    simp only [layout, Option.some.injEq] at h; subst h
    exact absurd hm (no_parseLines _ _ _ (by simp))
  | dataAt lines ds =>
    have c2 : text "\r\n" = crlf := by decide
    simp only [layout] at h ⊢
    rw [c2]
    cases hf : findRev (ascii (lit "\r\n=yend ")) (data.drop ds) with
    | none => rw [hf] at h; simp at h
    | some i =>
      rw [hf] at h
      simp only [Option.some.injEq] at h
      subst h
      have l8 : (ascii (lit "\r\n=yend ")).length = 8 := by decide
      have a2 := (findRev_some hf).2
      rw [List.drop_drop] at a2
      have a3 := findRev_last yend_ne hf
      have a4 := prefix_len yend_ne a2
      rw [l8] at a4
      have e : findRev (ascii (lit "\r\n=yend ")) ((data ++ crlf).drop ds) = some i := by
        refine findRev_eq (by simp; omega) ?_ ?_
        · rw [List.drop_drop, prefix_append_iff (by omega)]; exact a2
        · intro j hj _ hc
          rw [List.drop_drop] at hc
          rcases Nat.lt_or_ge data.length (ds + j + 8) with hb | hb
          · have hl := prefix_len yend_ne hc
            rw [l8, List.length_append, show crlf.length = 2 from rfl] at hl
            obtain ⟨t, ht⟩ := hc
            have g := congrArg (fun x => x[data.length - (ds + j)]?) ht
            simp only [List.getElem?_drop, show ds + j + (data.length - (ds + j)) = data.length by omega] at g
            rw [List.getElem?_append_left (by omega), List.getElem?_append_right (by omega), Nat.sub_self] at g
            have : data.length - (ds + j) = 6 ∨ data.length - (ds + j) = 7 := by omega
            rcases this with h | h <;> rw [h] at g <;> exact absurd g (by decide)
          · rw [prefix_append_iff (by omega)] at hc
            refine a3 j hj ?_
            rw [List.drop_drop]; exact hc
      rw [e]
      cases hp : findFrom crlf data (ds + i + 8) with
      | some q =>
        rw [hp] at hm
        simp only [reduceCtorEq, if_false, List.mem_append] at hm
        rcases hm with hm | hm
        · exact absurd hm (no_parseLines _ _ _ (by simp))
        · exact absurd hm (no_parseLines _ _ _ (by simp))
      | none =>
        have e2 : findFrom crlf (data ++ crlf) (ds + i + 8) = some data.length := by
          refine findFrom_eq_some crlf_ne a4 (by simp) fun j h1 h2 hc => ?_
          rcases Nat.lt_or_ge data.length (j + 2) with hb | hb
          · obtain ⟨t, ht⟩ := hc
            have g := congrArg (fun x => x[1]?) ht
            simp only [List.getElem?_drop, show j + 1 = data.length by omega] at g
            rw [List.getElem?_append_left (by decide), List.getElem?_append_right (by omega), Nat.sub_self] at g
            exact absurd g (by decide)
          · rw [prefix_append_iff hb] at hc
            refine absurd ?_ (find_none_at crlf_ne (findFrom_none hp) (j - (ds + i + 8)))
            rw [List.drop_drop, show ds + i + 8 + (j - (ds + i + 8)) = j by omega]; exact hc
        have f1 : ∀ {ls : List Str} {y : YData}, (parseLines ls y []).2.filter (· ≠ noNewline) = (parseLines ls y []).2 := by
          intro ls y
          refine List.filter_eq_self.2 fun x hx => ?_
          simp only [decide_eq_true_eq]
          rintro rfl; exact no_parseLines ls y [] (by simp) hx
        simp only [e2, reduceCtorEq, if_false, if_true, List.filter_append, f1, List.take_left, List.take_length, true_and]
        simp

/-- C72: text after a post changes nothing, if the end line is complete and (unless the post has no data section) the end marker does not occur again. -/
theorem C72_after (data suf : List Byte) (isRaw : Bool) (p : Js.Post) (hp : fromPost lib env data isRaw = .ret (.ok p)) (hn : p.dataStart = none ∨ "missing_yend_newline" ∉ p.warnings)
    (hs : p.dataStart = none ∨ ∀ i, data.length < i + 8 → ¬ text "\r\n=yend " <+: (data ++ suf).drop i) :
    fromPost lib env (data ++ suf) isRaw = .ret (.ok p) := by
  obtain ⟨s, l, size, h1, h2, h3, h4⟩ := fromPost_ok hp
  obtain ⟨c, n, w, d, ye, k⟩ := conclude_warnings h4
  rw [d] at hn hs
  have e : layout env (data ++ suf) (headerLoop env (data ++ suf) (data ++ suf).length s (findFrom crlf (data ++ suf) (s + 8)) []) = some l := by
    rw [headerLoop_more suf h2]
    refine layout_append h2 ?_ hs
    rw [w, List.mem_append, not_or] at hn
    exact hn.imp id And.left
  unfold fromPost
  rw [findStart_append suf h1]
  simp only [e, h3, Outcome.bind]
  have b := (layout_bounds h2).2.2
  rw [k _ l rfl rfl rfl fun ds de _ h => by rw [List.take_append_of_le_length (b de h)], ← w, ← ye]

/-- C72: adding the line break that is missing after the end line removes the warning about it, moves the end and changes nothing else. -/
theorem C72_newline (data : List Byte) (isRaw : Bool) (p : Js.Post) (hp : fromPost lib env data isRaw = .ret (.ok p)) (hn : "missing_yend_newline" ∈ p.warnings) :
    p.yencEnd = data.length ∧
    fromPost lib env (data ++ text "\r\n") isRaw = .ret (.ok { p with yencEnd := data.length + 2, warnings := p.warnings.filter (· ≠ "missing_yend_newline") }) := by
  obtain ⟨s, l, size, h1, h2, h3, h4⟩ := fromPost_ok hp
  obtain ⟨c, n, w, d, ye, k⟩ := conclude_warnings h4
  have hm : noNewline ∈ l.warnings := by
    rw [w, List.mem_append] at hn
    exact hn.resolve_right n
  have e : l.yencEnd = data.length ∧ layout env (data ++ text "\r\n") (headerLoop env (data ++ text "\r\n") (data ++ text "\r\n").length s (findFrom crlf (data ++ text "\r\n") (s + 8)) []) =
      some { l with yencEnd := data.length + 2, warnings := l.warnings.filter (· ≠ noNewline) } := by
    rw [headerLoop_more _ h2]
    exact layout_newline h2 hm
  refine ⟨ye.trans e.1, ?_⟩
  unfold fromPost
  rw [findStart_append _ h1]
  simp only [e.2, h3, Outcome.bind]
  have b := (layout_bounds h2).2.2
  rw [k (data ++ text "\r\n") { l with yencEnd := data.length + 2, warnings := l.warnings.filter (· ≠ noNewline) } rfl rfl rfl
    fun ds de _ h => by rw [List.take_append_of_le_length (b de h)]]
  have fc : c.filter (· ≠ noNewline) = c := List.filter_eq_self.2 fun x hx => by simp; rintro rfl; exact n hx
  rw [w, List.filter_append, fc]

/-- A post without line break at its end, in a text. -/
theorem C72_embedded (h : lib.IsLib) (pre post suf : List Byte) (isRaw : Bool) (p : Js.Post) (hp : fromPost lib env post isRaw = .ret (.ok p)) (h0 : p.yencStart = 0)
    (hm : "missing_yend_newline" ∈ p.warnings) (hb : pre = [] ∨ text "\r\n" <:+ pre) (h1 : ¬ text "=ybegin " <+: pre) (h2 : ¬ text "\r\n=ybegin " <:+: pre)
    (hs : ¬ text "\r\n=yend " <:+: text "\r\n" ++ suf) :
    fromPost lib env (pre ++ post ++ text "\r\n" ++ suf) isRaw =
      .ret (.ok ⟨pre.length, p.dataStart.map (pre.length + ·), p.dataEnd.map (pre.length + ·), pre.length + post.length + 2, p.props, p.data, p.crc32,
        p.warnings.filter (· ≠ "missing_yend_newline")⟩) := by
  have hbeg : text "=ybegin " <+: post := by
    have := (C60_from_post_sound h post isRaw p hp).1
    rwa [h0] at this
  have e1 := (C72_newline post isRaw p hp hm).2
  have l2 : (text "\r\n").length = 2 := by decide
  have l8 : (text "\r\n=yend ").length = 8 := by decide
  have e2 := C72_after (post ++ text "\r\n") suf isRaw _ e1 (.inr (by simp)) (.inr fun i hi hc => by
    rw [List.length_append, l2] at hi
    rcases Nat.lt_or_ge i post.length with hl | hl
    · obtain ⟨t, ht⟩ := hc
      have g := congrArg (fun x => x[post.length - i]?) ht
      simp only [List.getElem?_drop, show i + (post.length - i) = post.length by omega] at g
      rw [List.getElem?_append_left (by omega), List.append_assoc, List.getElem?_append_right (by omega), Nat.sub_self, show (text "\r\n" ++ suf)[0]? = some CR from rfl] at g
      obtain ⟨k, hk⟩ : ∃ k, post.length - i = k + 1 := ⟨post.length - i - 1, by omega⟩
      rw [hk] at g
      have : ∀ k < 7, (text "\r\n=yend ")[k + 1]? ≠ some CR := by decide
      exact this k (by omega) g
    · apply hs
      obtain ⟨k, rfl⟩ : ∃ k, i = post.length + k := ⟨i - post.length, by omega⟩
      rw [List.append_assoc, ← List.drop_drop, List.drop_left] at hc
      exact hc.isInfix.trans (List.drop_suffix _ _).isInfix)
  have e3 := (C72_before pre (post ++ text "\r\n" ++ suf) isRaw ((hbeg.trans (List.prefix_append _ _)).trans (List.prefix_append _ _)) hb h1 h2).2 _ e2
  simp only [← List.append_assoc] at e3
  rw [e3, h0]
  simp [Nat.add_assoc]

/-- C72: a single-part post made by the encoder is found inside an article: lines before it (headers, say) and text after it (the terminator, say), with or without dots doubled; the result has the
data, no warnings, and the positions of the post in the article. -/
theorem C72_article (h : lib.IsLib) (hl : env.Lawful) (name : Str) (hn : SafeName name) (ls parts : Nat) (h1 : 1 ≤ ls) (h2 : ls + 6 < 2 ^ 31) (hp : parts ≤ 1)
    (d : List Byte) (hs : d.length ≤ 2 ^ 53) (isRaw : Bool) (pre suf : List Byte) (hb : pre = [] ∨ text "\r\n" <:+ pre) (b1 : ¬ text "=ybegin " <+: pre) (b2 : ¬ text "\r\n=ybegin " <:+: pre)
    (hsuf : ¬ text "\r\n=yend " <:+: text "\r\n" ++ suf) :
    ∃ post p, ((multiPost name d.length parts ls).encode lib d).2 = .ret post ∧ fromPost lib env (pre ++ post ++ text "\r\n" ++ suf) isRaw = .ret (.ok p) ∧
      p.data = some d ∧ p.warnings = [] ∧ p.yencStart = pre.length ∧ p.yencEnd = (pre ++ post).length + 2 ∧
      field p "begin" "size" = some (lit (toString d.length)) ∧ field p "begin" "name" = some name := by
  obtain ⟨post, p, crc, cbuf, e1, e2, -, -, e3, -, e4, e5, -, -, e6, e7, -⟩ := C45_single h hl name hn ls parts h1 h2 hp d hs isRaw
  refine ⟨post, _, e1, C72_embedded h pre post suf isRaw p e2 e5 (by rw [e4]; simp) hb b1 b2 hsuf, e3, ?_, rfl, by simp, e6, e7⟩
  show p.warnings.filter _ = []
  rw [e4]; rfl

/-- The same for the parts of a file. -/
theorem C72_article_parts (h : lib.IsLib) (hl : env.Lawful) (name : Str) (hn : SafeName name) (ls : Nat) (h1 : 1 ≤ ls) (h2 : ls + 6 < 2 ^ 31) (ds : List (List Byte))
    (hp : 1 < ds.length) (hne : ∀ d ∈ ds, d ≠ []) (hs : ds.flatten.length < 2 ^ 53) (isRaw : Bool) (pre suf : List Byte) (hb : pre = [] ∨ text "\r\n" <:+ pre)
    (b1 : ¬ text "=ybegin " <+: pre) (b2 : ¬ text "\r\n=ybegin " <:+: pre) (hsuf : ¬ text "\r\n=yend " <:+: text "\r\n" ++ suf) :
    ∃ ps : List (List Byte), (feedParts lib name ls ds).2 = ps.map .ret ∧ ps.length = ds.length ∧
      ∀ i (hi : i < ds.length), ∃ post p, ps[i]? = some post ∧ fromPost lib env (pre ++ post ++ text "\r\n" ++ suf) isRaw = .ret (.ok p) ∧
        p.data = some ds[i] ∧ p.warnings = [] ∧ p.yencStart = pre.length ∧ p.yencEnd = (pre ++ post).length + 2 ∧
        field p "begin" "part" = some (lit (toString (i + 1))) ∧ field p "begin" "total" = some (lit (toString ds.length)) ∧
        field p "part" "begin" = some (lit (toString ((ds.take i).flatten.length + 1))) := by
  obtain ⟨ps, a1, a2, a3⟩ := C45_parts h hl name hn ls h1 h2 ds hp hne hs isRaw
  refine ⟨ps, a1, a2, fun i hi => ?_⟩
  obtain ⟨post, p, crc, cbuf, e1, e2, -, -, e3, -, e4, e5, -, e6, e7, -, -, -, e8, -⟩ := a3 i hi
  refine ⟨post, _, e1, C72_embedded h pre post suf isRaw p e2 e5 (by rw [e4]; simp) hb b1 b2 hsuf, e3, ?_, rfl, by simp, e6, e7, e8⟩
  show p.warnings.filter _ = []
  rw [e4]; rfl

/-- Headers and terminator of an article meet the conditions. -/
example : (text "\r\n" <:+ text "Subject: =ybegin =yend\r\n.\r\n\r\n") ∧ ¬ text "=ybegin " <+: text "Subject: =ybegin =yend\r\n.\r\n\r\n" ∧
    ¬ text "\r\n=ybegin " <:+: text "Subject: =ybegin =yend\r\n.\r\n\r\n" ∧ ¬ text "\r\n=yend " <:+: text "\r\n" ++ text ".\r\n" := by decide

/-- Without the condition on the text after it C72 does not hold: with a second post there, everything up to the last end marker is taken as data of the first post. -/
theorem C72_two_posts_false :
    let post := text "=ybegin line=128 size=1 name=n\r\nk\r\n=yend size=1 crc32=d3d99e8b\r\n"
    let warnings := fun data => match fromPost genericLib natEnv data false with | .ret (.ok p) => some p.warnings | _ => none
    warnings post = some [] ∧ warnings (post ++ post) = some ["data_size_mismatch", "crc32_mismatch"] := by
  decide +kernel

end Yenc.Props
