import Verif.Lemmas.JsFromPost
/-!
`from_post` on arbitrary bytes.
-/
namespace Yenc.Js
open Yenc Spec

variable {env : Env} {lib : Lib}

/-- What is needed of the text conversion for C46: leading ASCII bytes become the same characters (UTF-8, Latin-1, ASCII). -/
def Env.AsciiPrefix (env : Env) : Prop := ∀ (s : Str) (l : List Byte), (∀ c ∈ s, c < 128) → env.toStr (ascii s ++ l) = s ++ env.toStr l

theorem Env.Lawful.asciiPrefix (hl : env.Lawful) : env.AsciiPrefix := by
  intro s l hs
  rw [hl.utf8, utf8Decode_asciis _ _ hs]

/-! ### Records -/

theorem lookup_filter_ne {α : Type} (k t : Str) (h : t ≠ k) (l : List (Str × α)) : (l.filter (fun x => x.1 ≠ k)).lookup t = l.lookup t := by
  induction l with
  | nil => rfl
  | cons x l ih =>
    obtain ⟨a, b⟩ := x
    by_cases ha : a = k
    · subst ha
      have : (t == a) = false := by simpa using h
      simp only [List.filter_cons, List.lookup_cons, this]
      simpa using ih
    · simp only [List.filter_cons, ha, List.lookup_cons]
      rw [if_pos (by simpa using ha)]
      rw [List.lookup_cons]
      split
      · rfl
      · exact ih

theorem YData.set_keeps (y : YData) (k t : Str) (v : Props) (h : (y.own.lookup t).isSome) : ((y.set k v).own.lookup t).isSome := by
  unfold YData.set
  split
  · exact h
  · by_cases ht : t = k
    · subst ht; simp
    · have : (t == k) = false := by simpa using ht
      simp only [List.lookup_cons, this]
      rw [lookup_filter_ne k t ht]; exact h

theorem YData.set_has (y : YData) (k : Str) (v : Props) (h : k ≠ lit "__proto__") : ((y.set k v).own.lookup k).isSome := by
  unfold YData.set
  rw [if_neg h]; simp

theorem parseLine_keeps (l t : Str) (y : YData) (ws : List String) (h : (y.own.lookup t).isSome) : ((parseLine l y ws).1.own.lookup t).isSome :=
  YData.set_keeps _ _ _ _ h

theorem parseLines_keeps (ls : List Str) (t : Str) (y : YData) (ws : List String) (h : (y.own.lookup t).isSome) :
    ((parseLines ls y ws).1.own.lookup t).isSome := by
  induction ls generalizing y ws with
  | nil => exact h
  | cons l ls ih => exact ih _ _ (parseLine_keeps l t y ws h)

theorem parseLines_has (ls : List Str) (l : Str) (hl : l ∈ ls) (t : Str) (ht : lineTag l = t) (hp : t ≠ lit "__proto__") (y : YData) (ws : List String) :
    ((parseLines ls y ws).1.own.lookup t).isSome := by
  induction ls generalizing y ws with
  | nil => simp at hl
  | cons a ls ih =>
    simp only [parseLines]
    rcases List.mem_cons.1 hl with rfl | hl
    · exact parseLines_keeps _ _ _ _ (by subst ht; exact YData.set_has _ _ _ hp)
    · exact ih hl _ _

/-! ### Lines -/

theorem dropWhile_shape (s : Str) : ∀ x, ((32 :: x).reverse.dropWhile isSpace).reverse = [] ∨ ∃ z, ((32 :: x).reverse.dropWhile isSpace).reverse = 32 :: z := by
  intro x
  have h : ((32 :: x).reverse.dropWhile isSpace).reverse <+: 32 :: x := by
    have := List.reverse_prefix.2 (List.dropWhile_suffix (p := isSpace) (l := (32 :: x).reverse))
    simpa using this
  cases hh : ((32 :: x).reverse.dropWhile isSpace).reverse with
  | nil => exact .inl rfl
  | cons a z =>
    rw [hh] at h
    obtain ⟨r, hr⟩ := h
    simp only [List.cons_append, List.cons.injEq] at hr
    exact .inr ⟨z, by rw [hr.1]⟩

theorem dropWhile_nil_iff {p : Nat → Bool} {l : Str} : l.dropWhile p = [] ↔ ∀ c ∈ l, p c = true := by
  induction l with
  | nil => simp
  | cons a l ih =>
    rw [List.dropWhile_cons]
    split
    · rename_i h; simp [ih, h]
    · rename_i h; simp [h]

theorem rev_dropWhile_append (a b : Str) (ha : ∀ c, a.getLast? = some c → isSpace c = false) :
    ((a ++ b).reverse.dropWhile isSpace).reverse = a ++ (b.reverse.dropWhile isSpace).reverse := by
  rw [List.reverse_append]
  have e : ∀ r : Str, (∀ c, r.head? = some c → isSpace c = false) → r.dropWhile isSpace = r := by
    intro r hr
    cases r with
    | nil => rfl
    | cons c r => simp [List.dropWhile_cons, hr c rfl]
  by_cases hb : ∀ c ∈ b, isSpace c = true
  · have h0 : b.reverse.dropWhile isSpace = [] := by
      rw [dropWhile_nil_iff]; intro c hc; exact hb c (by simpa using hc)
    rw [List.dropWhile_append, h0]
    simp only [List.isEmpty_nil, if_true]
    rw [e _ (by intro c hc; rw [List.head?_reverse] at hc; exact ha c hc)]
    simp
  · rw [List.dropWhile_append]
    have h0 : (b.reverse.dropWhile isSpace).isEmpty = false := by
      rw [Bool.eq_false_iff]
      intro h
      apply hb
      intro c hc
      have := dropWhile_nil_iff.1 (List.isEmpty_iff.1 h) c (by simpa using hc)
      exact this
    rw [h0]
    simp

/-- The tag of a trimmed line that starts with `=y`, a tag and a space. -/
theorem tag_of_trim (t x : Str) (ht : ∀ c ∈ t, isSpace c = false) : lineTag (trim (lit "=y" ++ (t ++ 32 :: x))) = t := by
  have h32 : ∀ c ∈ t, c ≠ 32 := fun c hc h => by have := ht c hc; rw [h] at this; simp [isSpace] at this
  have e1 : (lit "=y" ++ (t ++ 32 :: x)).dropWhile isSpace = lit "=y" ++ (t ++ 32 :: x) := by
    rw [show lit "=y" = [61, 121] by decide]; rfl
  have hlast : ∀ c, (lit "=y" ++ t).getLast? = some c → isSpace c = false := by
    intro c hc
    by_cases h0 : t = []
    · subst h0
      rw [show lit "=y" = [61, 121] by decide] at hc
      simp at hc; subst hc; decide
    · rw [List.getLast?_append_of_ne_nil _ h0] at hc
      exact ht c (List.mem_of_getLast? hc)
  have tw : ∀ z : Str, (z = [] ∨ ∃ y, z = 32 :: y) → (t ++ z).takeWhile (· ≠ 32) = t := by
    intro z hz
    rw [List.takeWhile_append_of_pos (by intro c hc; simpa using h32 c hc)]
    rcases hz with rfl | ⟨y, rfl⟩ <;> simp
  unfold trim lineTag
  rw [e1, ← List.append_assoc, rev_dropWhile_append _ _ hlast, List.append_assoc, List.drop_left' (by decide)]
  exact tw _ (dropWhile_shape [] x)

theorem tag_of_take (l : Str) (h : l.take 6 = lit "=yend ") : lineTag l = lit "end" := by
  have e : l = lit "=yend " ++ l.drop 6 := by rw [← h, List.take_append_drop]
  rw [e]
  rfl

/-! ### The first lines -/

/-- The lines collected by the loop extend those it started with; they end with an end line if it stopped there. -/
theorem headerLoop_lines (data : List Byte) (n sp : Nat) (p : Option Nat) (lines : List Str) :
    match headerLoop env data n sp p lines with
    | .noEnd => True
    | .empty ls _ => (∃ r, ls = lines ++ r) ∧ ∃ l ∈ ls, lineTag l = lit "end"
    | .dataAt ls _ => ∃ r, ls = lines ++ r := by
  induction n generalizing sp p lines with
  | zero => simp [headerLoop]
  | succ n ih =>
    cases p with
    | none => simp [headerLoop]
    | some p =>
      simp only [headerLoop]
      by_cases h0 : p = 0
      · simp [h0]
      rw [if_neg h0]
      by_cases h1 : (trim (env.toStr ((data.take p).drop sp))).take 6 = lit "=yend "
      · rw [if_pos h1]
        exact ⟨⟨_, rfl⟩, _, by simp, tag_of_take _ h1⟩
      rw [if_neg h1]
      by_cases h2 : data[p + 2]? ≠ some EQ ∨ data[p + 3]? ≠ some LY
      · rw [if_pos h2]
        exact ⟨_, rfl⟩
      rw [if_neg h2]
      have := ih (p + 2) (findFrom crlf data (p + 2)) (lines ++ [trim (env.toStr ((data.take p).drop sp))])
      split at this
      · trivial
      · skip
        obtain ⟨⟨r, hr⟩, hh⟩ := this
        exact ⟨⟨_, by rw [hr, List.append_assoc]⟩, hh⟩
      · skip
        obtain ⟨r, hr⟩ := this
        exact ⟨_, by rw [hr, List.append_assoc]⟩

/-- Started at the first line, the loop collects that line first. -/
theorem headerLoop_first (data : List Byte) (n sp p : Nat) :
    match headerLoop env data n sp (some p) [] with
    | .noEnd => True
    | .empty ls _ => trim (env.toStr ((data.take p).drop sp)) ∈ ls ∧ ∃ l ∈ ls, lineTag l = lit "end"
    | .dataAt ls _ => trim (env.toStr ((data.take p).drop sp)) ∈ ls := by
  cases n with
  | zero => simp [headerLoop]
  | succ n =>
    simp only [headerLoop]
    by_cases h0 : p = 0
    · simp [h0]
    rw [if_neg h0]
    by_cases h1 : (trim (env.toStr ((data.take p).drop sp))).take 6 = lit "=yend "
    · rw [if_pos h1]
      exact ⟨by simp, _, by simp, tag_of_take _ h1⟩
    rw [if_neg h1]
    by_cases h2 : data[p + 2]? ≠ some EQ ∨ data[p + 3]? ≠ some LY
    · rw [if_pos h2]; simp
    rw [if_neg h2]
    have := headerLoop_lines (env := env) data n (p + 2) (findFrom crlf data (p + 2)) ([] ++ [trim (env.toStr ((data.take p).drop sp))])
    split at this
    · trivial
    · skip
      obtain ⟨⟨r, hr⟩, hh⟩ := this
      exact ⟨by rw [hr]; simp, hh⟩
    · skip
      obtain ⟨r, hr⟩ := this
      rw [hr]; simp

/-- The bound on the number of rounds is never reached: more fuel does not change the result. -/
theorem headerLoop_fuel (data : List Byte) (n m sp : Nat) (p : Option Nat) (lines : List Str) (hp : ∀ q, p = some q → q < data.length ∧ data.length ≤ n + q)
    (hm : n ≤ m) : headerLoop env data m sp p lines = headerLoop env data n sp p lines := by
  induction n generalizing m sp p lines with
  | zero =>
    cases p with
    | none => cases m <;> rfl
    | some q => have := hp q rfl; omega
  | succ n ih =>
    obtain ⟨m, rfl⟩ : ∃ k, m = k + 1 := ⟨m - 1, by omega⟩
    cases p with
    | none => rfl
    | some q =>
      have hq := hp q rfl
      simp only [headerLoop]
      rw [ih m (q + 2) (findFrom crlf data (q + 2)) _ (fun r hr => ?_) (by omega)]
      obtain ⟨a, b, _⟩ := findFrom_some hr
      omega

theorem findStart_spec {data : List Byte} {s : Nat} (h : findStart data = some s) :
    text "=ybegin " <+: data.drop s ∧ (s = 0 ∨ ∃ i, s = i + 2 ∧ text "\r\n=ybegin " <+: data.drop i) := by
  unfold findStart at h
  split at h
  · rename_i h8
    injection h with h; subst h
    refine ⟨?_, .inl rfl⟩
    rw [text_lit, ← h8]; exact List.take_prefix _ _
  · split at h
    · rename_i i hi
      injection h with h; subst h
      obtain ⟨_, h2⟩ := find_some hi
      rw [← text_lit] at h2
      refine ⟨?_, .inr ⟨i, rfl, h2⟩⟩
      obtain ⟨r, hr⟩ := h2
      rw [← List.drop_drop, ← hr, show text "\r\n=ybegin " = [CR, LF] ++ text "=ybegin " by decide, List.append_assoc]; show _ <+: text _ ++ r
      exact List.prefix_append _ _
    · simp at h

theorem take_drop_prefix {pat data : List Byte} {s p : Nat} (h : pat <+: data.drop s) (hp : s + pat.length ≤ p) :
    ∃ r, (data.take p).drop s = pat ++ r := by
  obtain ⟨r, hr⟩ := h
  rw [List.drop_take, ← hr, List.take_append]
  rw [List.take_of_length_le (by omega)]
  exact ⟨_, rfl⟩

/-- The layout always has a begin and an end record. -/
theorem layout_records (he : env.AsciiPrefix) {data : List Byte} {s : Nat} (hs : findStart data = some s) {l : Layout}
    (h : layout env data (headerLoop env data data.length s (findFrom crlf data (s + 8)) []) = some l) :
    (l.props.own.lookup (lit "begin")).isSome ∧ (l.props.own.lookup (lit "end")).isSome := by
  obtain ⟨s1, _⟩ := findStart_spec hs
  cases hp : findFrom crlf data (s + 8) with
  | none =>
    rw [hp] at h
    have : headerLoop env data data.length s none [] = .noEnd := by cases data.length <;> rfl
    rw [this] at h; simp [layout] at h
  | some p =>
    rw [hp] at h
    obtain ⟨q1, q2, _⟩ := findFrom_some hp
    obtain ⟨r, hr⟩ := take_drop_prefix s1 (p := p) (by rw [show (text "=ybegin ").length = 8 by decide]; exact q1)
    have tb : lineTag (trim (env.toStr ((data.take p).drop s))) = lit "begin" := by
      rw [hr, text_lit, he _ _ (by decide), show lit "=ybegin " ++ env.toStr r = lit "=y" ++ (lit "begin" ++ 32 :: env.toStr r) from rfl]
      exact tag_of_trim _ _ (by decide)
    have hf := headerLoop_first (env := env) data data.length s p
    split at hf
    · rename_i e; rw [e] at h; simp [layout] at h
    · rename_i ls ye e
      rw [e] at h
      simp only [layout, Option.some.injEq] at h
      subst h
      obtain ⟨f1, l, f2, f3⟩ := hf
      exact ⟨parseLines_has _ _ f1 _ tb (by decide) _ _, parseLines_has _ _ f2 _ f3 (by decide) _ _⟩
    · rename_i ls ds e
      rw [e] at h
      simp only [layout] at h
      split at h
      · simp at h
      · rename_i i hi
        simp only [Option.some.injEq] at h
        subst h
        obtain ⟨_, h2⟩ := findRev_some hi
        rw [List.drop_drop, ← text_lit] at h2
        refine ⟨parseLines_keeps _ _ _ _ (parseLines_has _ _ hf _ tb (by decide) _ _), parseLines_has _ _ (List.mem_singleton.2 rfl) _ ?_ (by decide) _ _⟩
        have h3 : text "=yend " <+: data.drop (ds + i + 2) := by
          obtain ⟨r, hr⟩ := h2
          rw [← List.drop_drop, ← hr, show text "\r\n=yend " = [CR, LF] ++ text "=yend " by decide, List.append_assoc]; show _ <+: text _ ++ r
          exact List.prefix_append _ _
        have hlen := h3.length_le
        simp only [List.length_drop, show (text "=yend ").length = 6 by decide] at hlen
        have key : ∀ stop, ds + i + 8 ≤ stop → lineTag (trim (env.toStr ((data.take stop).drop (ds + i + 2)))) = lit "end" := by
          intro stop hstop
          obtain ⟨r, hr⟩ := take_drop_prefix h3 (p := stop) (by rw [show (text "=yend ").length = 6 by decide]; omega)
          rw [hr, text_lit, he _ _ (by decide), show lit "=yend " ++ env.toStr r = lit "=y" ++ (lit "end" ++ 32 :: env.toStr r) from rfl]
          exact tag_of_trim _ _ (by decide)
        apply key
        split
        · rename_i p hp; exact (findFrom_some hp).1
        · omega

theorem required_total (y : YData) (h1 : (y.own.lookup (lit "begin")).isSome) (h2 : (y.own.lookup (lit "end")).isSome) : ∃ s, required y = .ret s := by
  obtain ⟨b, hb⟩ := Option.isSome_iff_exists.1 h1
  obtain ⟨e, he⟩ := Option.isSome_iff_exists.1 h2
  have e1 : y.get (lit "begin") = .obj b := by simp [YData.get, hb]
  have e2 : y.get (lit "end") = .obj e := by simp [YData.get, he]
  simp only [required, e1, e2]
  split
  · exact ⟨_, rfl⟩
  · split <;> exact ⟨_, rfl⟩

theorem decode_total (h : lib.IsLib) (l : List Byte) (isRaw : Bool) : ∃ out, Dec.apiDecode lib.dec [.buffer l, .bool isRaw] = .ret out ∧
    (out = Spec.decode isRaw l ∨ isRaw = true ∧ Dec.EscapedBreakTail l ∧ out = (Spec.decode isRaw l).dropLast) := by
  rcases Dec.apiDecode_any h.dec.correct isRaw l with e | ⟨h1, h2, e⟩
  · exact ⟨_, e, .inl rfl⟩
  · exact ⟨_, e, .inr ⟨h1, h2, rfl⟩⟩

end Yenc.Js
