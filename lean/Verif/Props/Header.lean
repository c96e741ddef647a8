import Verif.Lemmas.JsHeader
import Verif.Props.FromPost
/-!
Properties C63, C64, C65: header lines, warnings about them, and errors of `from_post`.
-/
namespace Yenc.Props
open Spec Yenc.Js

variable {lib : Lib} {env : Env}

/-! ### C63: properties -/

theorem fromPost_fields (h : lib.IsLib) {data : List Byte} {isRaw : Bool} {p : Js.Post} (hp : fromPost lib env data isRaw = .ret (.ok p)) :
    ∃ l size, findStart data = some p.yencStart ∧
      layout env data (headerLoop env data data.length p.yencStart (findFrom crlf data (p.yencStart + 8)) []) = some l ∧ required l.props = .ret (some size) ∧
      p.dataStart = l.dataStart ∧ p.dataEnd = l.dataEnd ∧ p.yencEnd = l.yencEnd ∧ p.props = l.props ∧
      ((∃ out, p.data = some out ∧ p.warnings = checkData env (l.props.get (lit "part")) (l.props.get (lit "end")) size out.length (hex (Crc.packCrc (Crc.crc1 0 out))) true
          (checkProps env l.props size l.warnings)) ∨
        p.data = none ∧ p.warnings = checkData env (l.props.get (lit "part")) (l.props.get (lit "end")) size 0 (lit "00000000") false
          (checkProps env l.props size l.warnings)) := by
  obtain ⟨s, l, size, hs, hl, hr, hc⟩ := fromPost_ok hp
  simp only [conclude] at hc
  split at hc
  · obtain ⟨out, ho, _⟩ := decode_total h ((data.take _).drop _) isRaw
    rw [ho] at hc
    simp only [Outcome.bind, crc32_eq h, Outcome.ret.injEq, FromPost.ok.injEq] at hc
    subst hc
    exact ⟨l, size, hs, hl, hr, rfl, rfl, rfl, rfl, .inl ⟨out, rfl, rfl⟩⟩
  · simp only [Outcome.ret.injEq, FromPost.ok.injEq] at hc
    subst hc
    exact ⟨l, size, hs, hl, hr, rfl, rfl, rfl, rfl, .inr ⟨rfl, rfl⟩⟩

theorem findStart_starts {data : List Byte} {s : Nat} (h1 : findStart data = some s) : StartsAt data s := by
  unfold findStart at h1
  rw [← text_lit, ← text_lit] at h1
  split at h1
  · rename_i h8
    injection h1 with h1
    exact .inl ⟨by rw [← h8]; exact List.take_prefix _ _, h1.symm⟩
  · rename_i h8
    have hn : ¬ text "=ybegin " <+: data := by
      intro hp; rw [List.prefix_iff_eq_take] at hp; exact h8 hp.symm
    split at h1
    · rename_i i hi
      injection h1 with h1
      exact .inr ⟨hn, i, h1.symm, (find_some hi).2, find_first hi⟩
    · simp at h1

/-- C63: the positions and properties returned by `from_post` for arbitrary bytes are those of the lines of the post as described in `Spec/Header.lean`.  A record exists exactly for the
tags of these lines, and a property has the value given last.  (`__proto__` as a tag or name is left out: assigning to it is not storing a property.) -/
theorem C63_properties (h : lib.IsLib) (data : List Byte) (isRaw : Bool) (p : Js.Post) (hp : fromPost lib env data isRaw = .ret (.ok p)) :
    StartsAt data p.yencStart ∧
    ∃ ended texts ls, PostLines env.toStr data p.yencStart p.dataStart p.dataEnd p.yencEnd ended texts ∧ List.Forall₂ ReadLine texts ls ∧
      (∀ tag key, tag ≠ chars "__proto__" → key ≠ chars "__proto__" → (p.props.get tag).get key = valueOf ls tag key) ∧
      ∀ tag, tag ≠ chars "__proto__" → ((p.props.own.lookup tag).isSome ↔ ∃ l ∈ ls, l.tag = tag) := by
  obtain ⟨l, size, h1, h2, h3, h4, h5, h6, h7, h8⟩ := fromPost_fields h hp
  refine ⟨?_, ?_⟩
  · exact findStart_starts h1
  · obtain ⟨ended, texts, ls, a1, a2, a3, _⟩ := layout_forward (findStart_spec h1).1 h2
    refine ⟨ended, texts, ls, by rw [h4, h5, h6]; exact a1, a2, ?_, ?_⟩
    · intro tag key ht hk
      rw [h7, a3]; exact applyLines_value ls tag key ht hk
    · intro tag ht
      rw [h7, a3, applyLines_lookup ls _ tag ht]
      cases hf : ls.reverse.find? (fun l => decide (l.tag = tag)) with
      | none =>
        rw [List.find?_eq_none] at hf
        simp only [List.mem_reverse, decide_eq_true_eq] at hf
        simp only [List.lookup, Option.isSome_none, Bool.false_eq_true, false_iff]
        rintro ⟨l, hl, e⟩; exact hf l hl e
      | some l =>
        have h1 := List.find?_some hf
        have h2 := List.mem_of_find?_eq_some hf
        simp only [Option.isSome_some, true_iff]
        exact ⟨l, by simpa using h2, by simpa using h1⟩

/-- C63: the description leaves no choice. -/
theorem C63_unique (data : List Byte) (s : Nat) {ds de ds' de' : Option Nat} {stop stop' : Nat} {ended ended' : Bool} {texts texts' : List Str} {ls ls' : List Line}
    (h : PostLines env.toStr data s ds de stop ended texts) (h' : PostLines env.toStr data s ds' de' stop' ended' texts')
    (hl : List.Forall₂ ReadLine texts ls) (hl' : List.Forall₂ ReadLine texts' ls') :
    ds = ds' ∧ de = de' ∧ stop = stop' ∧ ended = ended' ∧ ls = ls' := by
  obtain ⟨h1, h2, h3, h4, rfl⟩ := postLines_unique h h'
  exact ⟨h1, h2, h3, h4, readLines_unique hl hl'⟩

theorem firstName_nil {k post : Str} (hk : IsName k) : FirstName (k ++ 61 :: post) [] k post :=
  ⟨⟨rfl, hk⟩, fun _ _ _ _ => by simp⟩

theorem writeFields_cons (f : Str × Str) (fs : List (Str × Str)) (h : fs ≠ []) : writeFields (f :: fs) = f.1 ++ 61 :: (f.2 ++ 32 :: writeFields fs) := by
  cases fs with
  | nil => exact absurd rfl h
  | cons g fs => rfl

theorem writeFields_pieces (named : Bool) (fs : List (Str × Str)) (hne : fs ≠ []) (h : ∀ f ∈ fs, IsName f.1 ∧ 32 ∉ f.2 ∧ ¬ (named = true ∧ f.1 = chars "name")) :
    Pieces named (writeFields fs) (fs.map fun f => .field f.1 f.2) := by
  induction fs with
  | nil => exact absurd rfl hne
  | cons f fs ih =>
    obtain ⟨h1, h2, h3⟩ := h f (by simp)
    by_cases e : fs = []
    · subst e; exact .last h3 (firstName_nil h1) h2
    · rw [writeFields_cons f fs e]
      exact .next h3 (firstName_nil h1) h2 (ih e (fun g hg => h g (by simp [hg])))

theorem writeFields_pieces_name (fs : List (Str × Str)) (nm : Str) (h : ∀ f ∈ fs, IsName f.1 ∧ 32 ∉ f.2 ∧ f.1 ≠ chars "name") :
    Pieces true (writeFields (fs ++ [(chars "name", nm)])) ((fs ++ [(chars "name", nm)]).map fun f => .field f.1 f.2) := by
  have hn : IsName (chars "name") := by rw [← isKey_iff]; decide
  induction fs with
  | nil => exact .name rfl (firstName_nil hn)
  | cons f fs ih =>
    obtain ⟨h1, h2, h3⟩ := h f (by simp)
    rw [List.cons_append, writeFields_cons f _ (by simp)]
    exact .next (by simp [h3]) (firstName_nil h1) h2 (ih (fun g hg => h g (by simp [hg])))

theorem trimmed_self (s : Str) (h1 : ∀ c, s.head? = some c → c ∉ jsSpaces) (h2 : ∀ c, s.getLast? = some c → c ∉ jsSpaces) : Trimmed s s :=
  ⟨[], [], by simp, by simp, by simp, h1, h2⟩

theorem name_head {k r : Str} (hk : IsName k) : ∀ c, (k ++ r).head? = some c → c ∉ jsSpaces := by
  obtain ⟨c, r', rfl, hc, _⟩ := hk
  intro d hd
  simp only [List.cons_append, List.head?_cons, Option.some.injEq] at hd
  subst hd
  simp only [Letter] at hc
  simp only [jsSpaces, List.mem_cons, List.not_mem_nil, or_false]
  omega

theorem eq_not_space : (61 : Nat) ∉ jsSpaces := by decide

theorem writeFields_head (fs : List (Str × Str)) (h : ∀ f ∈ fs, IsName f.1) : ∀ c, (writeFields fs).head? = some c → c ∉ jsSpaces := by
  cases fs with
  | nil => simp [writeFields]
  | cons f fs =>
    by_cases e : fs = []
    · subst e; exact name_head (h f (by simp))
    · rw [writeFields_cons f fs e]; exact name_head (h f (by simp))

theorem writeFields_last (fs : List (Str × Str)) (f : Str × Str) (h : ∀ c, f.2.getLast? = some c → c ∉ jsSpaces) :
    ∀ c, (writeFields (fs ++ [f])).getLast? = some c → c ∉ jsSpaces := by
  induction fs with
  | nil =>
    intro c hc
    simp only [List.nil_append, writeFields, List.getLast?_append] at hc
    cases hv : f.2 with
    | nil => rw [hv] at hc; simp at hc; rw [← hc]; exact eq_not_space
    | cons x v =>
      rw [hv] at hc
      apply h
      rw [hv]
      simpa [List.getLast?_cons_cons] using hc
  | cons g fs ih =>
    intro c hc
    rw [List.cons_append, writeFields_cons g _ (by simp)] at hc
    apply ih
    have hne : writeFields (fs ++ [f]) ≠ [] := by
      intro e
      cases fs with
      | nil => simp [writeFields] at e
      | cons a fs => rw [List.cons_append, writeFields_cons a _ (by simp)] at e; simp at e
    rw [List.getLast?_eq_some_getLast hne]
    rw [List.getLast?_append, List.getLast?_cons, List.getLast?_append, List.getLast?_cons, List.getLast?_eq_some_getLast hne] at hc
    simpa using hc

/-- C63, lines as encoders write them: `=ytag key=value ... key=value`, with values free of white space, is read as these properties, nothing being ignored. -/
theorem C63_written (tag : Str) (fs : List (Str × Str)) (ht : 32 ∉ tag) (hne : fs ≠ [])
    (h : ∀ f ∈ fs, IsName f.1 ∧ (∀ c ∈ f.2, c ∉ jsSpaces) ∧ ¬ (tag = chars "begin" ∧ f.1 = chars "name")) :
    ReadLine (chars "=y" ++ tag ++ 32 :: writeFields fs) ⟨tag, fs.map fun f => .field f.1 f.2⟩ := by
  have h32 : (32 : Nat) ∈ jsSpaces := by decide
  refine ⟨ht, .inr ⟨writeFields fs, writeFields fs, by rw [List.append_assoc]; rfl, ?_, ?_⟩⟩
  · apply trimmed_self
    · exact writeFields_head fs (fun f hf => (h f hf).1)
    · obtain ⟨gs, g, rfl⟩ := List.eq_nil_or_concat fs |>.resolve_left hne
      rw [List.concat_eq_append] at h ⊢
      exact writeFields_last gs g fun c hc => (h g (by simp)).2.1 c (List.mem_of_getLast? hc)
  · refine writeFields_pieces _ fs hne fun f hf => ⟨(h f hf).1, fun hm => (h f hf).2.1 32 hm h32, fun hh => (h f hf).2.2 ⟨by simpa using hh.1, hh.2⟩⟩

example := C63_written (chars "part") [(chars "begin", chars "1"), (chars "end", chars "5")] (by decide) (by decide)
  (by simp only [← isKey_iff]; decide)

/-- C63, the begin line as encoders write it: the file name comes last and may contain spaces. -/
theorem C63_written_name (fs : List (Str × Str)) (nm : Str) (hnm : ∀ c, nm.getLast? = some c → c ∉ jsSpaces)
    (h : ∀ f ∈ fs, IsName f.1 ∧ (∀ c ∈ f.2, c ∉ jsSpaces) ∧ f.1 ≠ chars "name") :
    ReadLine (chars "=ybegin " ++ writeFields (fs ++ [(chars "name", nm)])) ⟨chars "begin", (fs ++ [(chars "name", nm)]).map fun f => .field f.1 f.2⟩ := by
  have h32 : (32 : Nat) ∈ jsSpaces := by decide
  have hn : IsName (chars "name") := by rw [← isKey_iff]; decide
  refine ⟨(by decide : 32 ∉ chars "begin"), .inr ⟨_, _, rfl, trimmed_self _ ?_ ?_, ?_⟩⟩
  · apply writeFields_head
    intro f hf
    rcases List.mem_append.1 hf with hf | hf
    · exact (h f hf).1
    · rw [List.mem_singleton] at hf; rw [hf]; exact hn
  · exact writeFields_last fs _ hnm
  · exact writeFields_pieces_name fs nm fun f hf => ⟨(h f hf).1, fun hm => (h f hf).2.1 32 hm h32, (h f hf).2.2⟩

-- a line with a repeated property and text that is not a property
example : ReadLine (chars "=yend size=1 ?? size=2") ⟨chars "end", [.field (chars "size") (chars "1"), .ignored, .field (chars "size") (chars "2")]⟩ := by
  have hk : IsName (chars "size") := by rw [← isKey_iff]; decide
  refine ⟨by decide, .inr ⟨chars "size=1 ?? size=2", _, by decide, trimmed_self _ (by decide) (by decide), ?_⟩⟩
  refine Pieces.next (pre := []) (k := chars "size") (v := chars "1") (rest := chars "?? size=2") (by decide) (firstName_nil hk) (by decide) ?_
  exact Pieces.last (pre := chars "?? ") (k := chars "size") (v := chars "2") (by decide) (matchProp_some (by decide)) (by decide)

example : valueOf [⟨chars "end", [.field (chars "size") (chars "1"), .ignored, .field (chars "size") (chars "2")]⟩] (chars "end") (chars "size") = some (chars "2") := by
  decide

/-! ### C64: warnings about header lines -/

theorem Rec.get_of_not_truthy {r : Rec} (h : r.truthy = false) (k : Str) : r.get k = none := by
  cases r with
  | obj p => simp [Rec.truthy] at h
  | str s => rfl
  | undef => rfl

theorem truthy_iff (o : Option Str) : truthy o = true ↔ ∃ t, Given o t := by
  unfold truthy Given
  cases o with
  | none => simp
  | some t => cases t <;> simp

theorem mem_push (w c : String) (P : Prop) [Decidable P] (ws : List String) : w ∈ (if P then ws ++ [c] else ws) ↔ w ∈ ws ∨ w = c ∧ P := by
  by_cases h : P <;> simp [h]

/-- A number that is not one, or a zero. -/
def BadNumber (r : Rec) (key w : String) : Prop :=
  w = "invalid_prop_" ++ key ∧ (∃ t, Given (r.get (lit key)) t ∧ ¬ ∀ c ∈ t, Digit c) ∨ w = "zero_prop_" ++ key ∧ key ≠ "size" ∧ r.get (lit key) = some (chars "0")

theorem isNumber_iff (t : Str) : isNumber t = true ↔ t ≠ [] ∧ ∀ c ∈ t, Digit c := by
  simp [isNumber, Digit]

theorem checkNumber_mem (r : Rec) (key w : String) (ws : List String) : w ∈ checkNumber r key ws ↔ w ∈ ws ∨ BadNumber r key w := by
  unfold checkNumber BadNumber
  cases hr : r.get (lit key) with
  | none => simp [Given]
  | some t =>
    cases t with
    | nil => simp [Given, chars]
    | cons c cs =>
      have hg : ∀ u, Given (some (c :: cs)) u ↔ u = c :: cs := by
        intro u; simp only [Given, Option.some.injEq]
        constructor
        · rintro ⟨rfl, _⟩; rfl
        · rintro rfl; exact ⟨rfl, by simp⟩
      simp only [hg, exists_eq_left, Option.some.injEq]
      by_cases hn : isNumber (c :: cs) = true
      · have := ((isNumber_iff _).1 hn).2
        rw [hn, if_neg (by simp), mem_push]
        have e : (c :: cs = [48] ∧ key ≠ "size") ↔ (key ≠ "size" ∧ c :: cs = chars "0") := by rw [show chars "0" = [48] by decide]; exact and_comm
        rw [e]
        have h0 : ¬ ¬ (∀ d ∈ c :: cs, Digit d) := fun h => h this
        tauto
      · have h1 : ¬ ∀ d ∈ c :: cs, Digit d := fun h => hn ((isNumber_iff _).2 ⟨by simp, h⟩)
        have h2 : c :: cs ≠ chars "0" := by
          rintro e; rw [e] at hn; exact hn (by decide)
        simp only [Bool.not_eq_true] at hn
        rw [hn, if_pos (by simp)]
        simp only [List.mem_append, List.mem_singleton]
        tauto

theorem checkNumbers_mem (y : YData) (w : String) (ws : List String) :
    w ∈ checkNumbers y ws ↔ w ∈ ws ∨ BadNumber (y.get (lit "begin")) "line" w ∨ BadNumber (y.get (lit "begin")) "total" w ∨
      BadNumber (y.get (lit "begin")) "part" w ∨ BadNumber (y.get (lit "begin")) "size" w ∨ BadNumber (y.get (lit "part")) "begin" w ∨
      BadNumber (y.get (lit "part")) "end" w ∨ BadNumber (y.get (lit "end")) "size" w ∨ BadNumber (y.get (lit "end")) "part" w := by
  have none : ∀ (r : Rec) (key : String), r.truthy = false → ¬ BadNumber r key w := by
    intro r key hr
    simp [BadNumber, Rec.get_of_not_truthy hr, Given]
  have a : ∀ (r : Rec) (keys : List String) (ws : List String), w ∈ (if r.truthy then keys.foldl (fun ws k => checkNumber r k ws) ws else ws) ↔
      w ∈ ws ∨ ∃ k ∈ keys, BadNumber r k w := by
    intro r keys ws
    cases hr : r.truthy with
    | false =>
      simp only [Bool.false_eq_true, if_false]
      constructor
      · exact .inl
      · rintro (h | ⟨k, _, h⟩)
        exacts [h, absurd h (none r k hr)]
    | true =>
      simp only [if_true]
      clear hr
      induction keys generalizing ws with
      | nil => simp
      | cons k ks ih =>
        rw [List.foldl_cons, ih, checkNumber_mem]
        simp only [List.mem_cons, exists_eq_or_imp, or_assoc]
  simp only [checkNumbers, a, List.mem_cons, List.not_mem_nil, or_false, exists_eq_or_imp, exists_eq_left, or_assoc]

/-- Which of two conditions comes first decides between two warnings. -/
theorem mem_push2 (w c d : String) (P Q : Prop) [Decidable P] [Decidable Q] (ws : List String) :
    w ∈ (if P then ws ++ [c] else if Q then ws ++ [d] else ws) ↔ w ∈ ws ∨ w = c ∧ P ∨ w = d ∧ ¬ P ∧ Q := by
  by_cases h : P <;> by_cases h' : Q <;> simp [h, h']

theorem mem_push3 (w c d e : String) (P Q R : Prop) [Decidable P] [Decidable Q] [Decidable R] (ws : List String) :
    w ∈ (if P then ws ++ [c] else if Q then ws ++ [d] else if R then ws ++ [e] else ws) ↔
      w ∈ ws ∨ w = c ∧ P ∨ w = d ∧ ¬ P ∧ Q ∨ w = e ∧ ¬ P ∧ ¬ Q ∧ R := by
  by_cases h : P <;> by_cases h' : Q <;> by_cases h'' : R <;> simp [h, h', h'']

/-- Two given part numbers that differ. -/
def PartMismatch (bp ep : Option Str) : Prop := ∃ a b, Given bp a ∧ Given ep b ∧ a ≠ b

/-- A given part number above the given total. -/
def PartExceeds (env : Env) (total bp ep : Option Str) : Prop :=
  ∃ t a, Given total t ∧ (Given bp a ∨ Given ep a) ∧ env.lt (env.num t) (env.num a) = true

theorem checkPart_mem (b e : Rec) (w : String) (ws : List String) :
    w ∈ checkPart env b e ws ↔ w ∈ ws ∨ w = "part_number_mismatch" ∧ PartMismatch (b.get (lit "part")) (e.get (lit "part")) ∨
      w = "part_number_exceeds_total" ∧ ¬ PartMismatch (b.get (lit "part")) (e.get (lit "part")) ∧
        PartExceeds env (b.get (lit "total")) (b.get (lit "part")) (e.get (lit "part")) := by
  simp only [checkPart, mem_push2]
  generalize b.get (lit "part") = bp
  generalize e.get (lit "part") = ep
  generalize b.get (lit "total") = t
  have e1 : (truthy bp && truthy ep && decide (bp ≠ ep)) = true ↔ PartMismatch bp ep := by
    simp only [Bool.and_eq_true, truthy_iff, PartMismatch, decide_eq_true_eq]
    constructor
    · rintro ⟨⟨⟨a, ha⟩, b, hb⟩, hne⟩
      exact ⟨a, b, ha, hb, by rintro rfl; exact hne (by rw [ha.1, hb.1])⟩
    · rintro ⟨a, b, ha, hb, hne⟩
      exact ⟨⟨⟨a, ha⟩, b, hb⟩, by rw [ha.1, hb.1]; simpa using hne⟩
  have e2 : (truthy t && (truthy bp && env.ltS t bp || truthy ep && env.ltS t ep)) = true ↔ PartExceeds env t bp ep := by
    simp only [Bool.and_eq_true, Bool.or_eq_true, truthy_iff, PartExceeds]
    constructor
    · rintro ⟨⟨u, hu⟩, ⟨⟨a, ha⟩, h⟩ | ⟨⟨a, ha⟩, h⟩⟩
      · exact ⟨u, a, hu, .inl ha, by rw [hu.1, ha.1] at h; exact h⟩
      · exact ⟨u, a, hu, .inr ha, by rw [hu.1, ha.1] at h; exact h⟩
    · rintro ⟨u, a, hu, ha | ha, h⟩
      · exact ⟨⟨u, hu⟩, .inl ⟨⟨a, ha⟩, by rw [hu.1, ha.1]; exact h⟩⟩
      · exact ⟨⟨u, hu⟩, .inr ⟨⟨a, ha⟩, by rw [hu.1, ha.1]; exact h⟩⟩
  rw [e1, e2]

/-- A property above one. -/
def AboveOne (env : Env) (v : Option Str) : Prop := ∃ t, v = some t ∧ env.lt (env.ofNat 1) (env.num t) = true

theorem gt1_iff (v : Option Str) : env.gt1 v = true ↔ AboveOne env v := by
  cases v <;> simp [Env.gt1, AboveOne]

/-- What is wrong with the range of a part, by the warning given. -/
inductive BadRange (env : Env) (b e bs size : Option Str) : String → Prop
  | order (x y) : Given b x → Given e y → env.lt (env.num y) (env.num x) = true → BadRange env b e bs size "invalid_part_range"
  | size (x y z) : Given b x → Given e y → env.lt (env.num y) (env.num x) = false → size = some z →
      env.ne (env.num z) (env.range (env.num x) (env.num y)) = true → BadRange env b e bs size "size_mismatch_part_range"
  | total (x y z t) : Given b x → Given e y → env.lt (env.num y) (env.num x) = false → size = some z →
      env.ne (env.num z) (env.range (env.num x) (env.num y)) = false → bs = some t → env.lt (env.num t) (env.num y) = true →
      BadRange env b e bs size "part_range_exceeds_size"

/-- A property is given. -/
def Has (v : Option Str) : Prop := ∃ t, Given v t

theorem checkRange_mem (b p e : Rec) (size : Str) (hsz : e.get (lit "size") = some size) (w : String) (ws : List String) :
    w ∈ checkRange env b p e size ws ↔ w ∈ ws ∨
      BadRange env (p.get (lit "begin")) (p.get (lit "end")) (b.get (lit "size")) (e.get (lit "size")) w ∨
      w = "missing_part_range" ∧ ¬ (Has (p.get (lit "begin")) ∧ Has (p.get (lit "end"))) ∧
        (AboveOne env (b.get (lit "total")) ∨ AboveOne env (b.get (lit "part")) ∨ AboveOne env (e.get (lit "part"))) := by
  have ht : (p.truthy && truthy (p.get (lit "begin")) && truthy (p.get (lit "end"))) = true ↔ Has (p.get (lit "begin")) ∧ Has (p.get (lit "end")) := by
    simp only [Bool.and_eq_true, truthy_iff, Has]
    constructor
    · rintro ⟨⟨_, h1⟩, h2⟩; exact ⟨h1, h2⟩
    · rintro ⟨h1, h2⟩
      refine ⟨⟨?_, h1⟩, h2⟩
      by_contra hc
      obtain ⟨t, ht, _⟩ := h1
      rw [Rec.get_of_not_truthy (Bool.not_eq_true _ |>.mp hc)] at ht
      simp at ht
  simp only [checkRange]
  rw [hsz]
  generalize p.get (lit "begin") = pb at ht ⊢
  generalize p.get (lit "end") = pe at ht ⊢
  generalize b.get (lit "size") = bs
  by_cases hh : Has pb ∧ Has pe
  · rw [ht.2 hh]
    obtain ⟨⟨x, hx⟩, ⟨y, hy⟩⟩ := hh
    have gx : ∀ u, Given pb u ↔ u = x := fun u => ⟨fun h => by rw [hx.1] at h; simpa using h.1.symm, fun h => h ▸ hx⟩
    have gy : ∀ u, Given pe u ↔ u = y := fun u => ⟨fun h => by rw [hy.1] at h; simpa using h.1.symm, fun h => h ▸ hy⟩
    have hbr : ∀ w, BadRange env pb pe bs (some size) w ↔ w = "invalid_part_range" ∧ env.lt (env.num y) (env.num x) = true ∨
        w = "size_mismatch_part_range" ∧ env.lt (env.num y) (env.num x) = false ∧ env.ne (env.num size) (env.range (env.num x) (env.num y)) = true ∨
        w = "part_range_exceeds_size" ∧ env.lt (env.num y) (env.num x) = false ∧ env.ne (env.num size) (env.range (env.num x) (env.num y)) = false ∧
          env.ltS bs (some y) = true := by
      intro w
      constructor
      · intro h
        cases h with
        | order x' y' h1 h2 h3 =>
          rw [gx] at h1; rw [gy] at h2; subst h1 h2
          exact .inl ⟨rfl, h3⟩
        | size x' y' z h1 h2 h3 h4 h5 =>
          rw [gx] at h1; rw [gy] at h2; subst h1 h2
          simp only [Option.some.injEq] at h4; subst h4
          exact .inr (.inl ⟨rfl, h3, h5⟩)
        | total x' y' z t h1 h2 h3 h4 h5 h6 h7 =>
          rw [gx] at h1; rw [gy] at h2; subst h1 h2
          simp only [Option.some.injEq] at h4; subst h4
          exact .inr (.inr ⟨rfl, h3, h5, by rw [h6]; exact h7⟩)
      · rintro (⟨rfl, h⟩ | ⟨rfl, h1, h2⟩ | ⟨rfl, h1, h2, h3⟩)
        · exact .order x y hx hy h
        · exact .size x y size hx hy h1 rfl h2
        · cases bs with
          | none => simp [Env.ltS] at h3
          | some t => exact .total x y size t hx hy h1 rfl h2 rfl h3
    have hhas : Has pb ∧ Has pe := ⟨⟨x, hx⟩, ⟨y, hy⟩⟩
    rw [hbr]
    obtain ⟨rfl, _⟩ := hx
    obtain ⟨rfl, _⟩ := hy
    simp only [mem_push3, hhas, and_self, not_true, false_and, and_false, or_false, Bool.not_eq_true]
  · have hf : (p.truthy && truthy pb && truthy pe) = false := Bool.not_eq_true _ |>.mp fun h => hh (ht.1 h)
    rw [hf]
    have hbr : ¬ BadRange env pb pe bs (some size) w := by
      intro h
      cases h with
      | order x y h1 h2 _ => exact hh ⟨⟨x, h1⟩, ⟨y, h2⟩⟩
      | size x y z h1 h2 _ _ _ => exact hh ⟨⟨x, h1⟩, ⟨y, h2⟩⟩
      | total x y z t h1 h2 _ _ _ _ _ => exact hh ⟨⟨x, h1⟩, ⟨y, h2⟩⟩
    simp only [mem_push, hbr, hh, false_or, not_false_eq_true, true_and, Bool.or_eq_true, gt1_iff, or_assoc]

theorem isHex8_iff (t : Str) : isHex8 t = true ↔ Hex8 t := by
  simp only [isHex8, Hex8, Digit, Bool.and_eq_true, decide_eq_true_eq, List.all_eq_true, Bool.or_eq_true]
  constructor
  · rintro ⟨h1, h2⟩; exact ⟨h1, fun c hc => by have := h2 c hc; omega⟩
  · rintro ⟨h1, h2⟩; exact ⟨h1, fun c hc => by have := h2 c hc; omega⟩

theorem checkHex_mem (e : Rec) (prop w : String) (ws : List String) :
    w ∈ checkHex e prop ws ↔ w ∈ ws ∨ w = "invalid_prop_" ++ prop ∧ ∃ t, Given (e.get (lit prop)) t ∧ ¬ Hex8 t := by
  unfold checkHex
  cases hr : e.get (lit prop) with
  | none => simp [Given]
  | some t =>
    cases t with
    | nil => simp [Given]
    | cons c cs =>
      have hg : ∀ u, Given (some (c :: cs)) u ↔ u = c :: cs := by
        intro u; simp only [Given, Option.some.injEq]
        constructor
        · rintro ⟨rfl, _⟩; rfl
        · rintro rfl; exact ⟨rfl, by simp⟩
      simp only [hg, exists_eq_left, ← isHex8_iff]
      cases isHex8 (c :: cs) <;> simp

/-- The sizes given on the begin and end lines contradict each other. -/
def SizeMismatch (env : Env) (bp bs es : Option Str) : Prop :=
  ¬ Has bp ∧ bs ≠ es ∨ ∃ x y, bs = some x ∧ es = some y ∧ env.lt (env.num x) (env.num y) = true

theorem checkSize_mem (b e : Rec) (w : String) (ws : List String) :
    w ∈ checkSize env b e ws ↔ w ∈ ws ∨ w = "size_mismatch" ∧ SizeMismatch env (b.get (lit "part")) (b.get (lit "size")) (e.get (lit "size")) := by
  simp only [checkSize, mem_push2]
  generalize b.get (lit "part") = bp
  generalize b.get (lit "size") = bs
  generalize e.get (lit "size") = es
  have e1 : (!truthy bp && decide (bs ≠ es)) = true ↔ ¬ Has bp ∧ bs ≠ es := by
    simp only [Bool.and_eq_true, Bool.not_eq_true', decide_eq_true_eq, Has, ← truthy_iff, Bool.not_eq_true]
  have e2 : env.ltS bs es = true ↔ ∃ x y, bs = some x ∧ es = some y ∧ env.lt (env.num x) (env.num y) = true := by
    cases bs <;> cases es <;> simp [Env.ltS]
  rw [e1, e2, SizeMismatch]
  tauto

theorem checkData_any (p e : Rec) (size : Str) (len : Nat) (crc : Str) (low : Bool) (w : String) (ws : List String) :
    w ∈ checkData env p e size len crc low ws ↔ w ∈ ws ∨ w = "data_size_mismatch" ∧ env.ne (env.num size) (env.ofNat len) = true ∨
      w = "pcrc32_mismatch" ∧ crcDiffers (e.get (lit "pcrc32")) crc low = true ∨
      w = "crc32_mismatch" ∧ p.truthy = false ∧ crcDiffers (e.get (lit "crc32")) crc low = true := by
  simp only [checkData, mem_push, Bool.and_eq_true, Bool.not_eq_true', or_assoc]

theorem checkProps_mem (y : YData) (size : Str) (hsz : (y.get (lit "end")).get (lit "size") = some size) (w : String) (ws : List String) :
    w ∈ checkProps env y size ws ↔ w ∈ ws ∨
      (BadNumber (y.get (lit "begin")) "line" w ∨ BadNumber (y.get (lit "begin")) "total" w ∨
        BadNumber (y.get (lit "begin")) "part" w ∨ BadNumber (y.get (lit "begin")) "size" w ∨ BadNumber (y.get (lit "part")) "begin" w ∨
        BadNumber (y.get (lit "part")) "end" w ∨ BadNumber (y.get (lit "end")) "size" w ∨ BadNumber (y.get (lit "end")) "part" w) ∨
      (w = "part_number_mismatch" ∧ PartMismatch ((y.get (lit "begin")).get (lit "part")) ((y.get (lit "end")).get (lit "part")) ∨
        w = "part_number_exceeds_total" ∧ ¬ PartMismatch ((y.get (lit "begin")).get (lit "part")) ((y.get (lit "end")).get (lit "part")) ∧
          PartExceeds env ((y.get (lit "begin")).get (lit "total")) ((y.get (lit "begin")).get (lit "part")) ((y.get (lit "end")).get (lit "part"))) ∨
      (BadRange env ((y.get (lit "part")).get (lit "begin")) ((y.get (lit "part")).get (lit "end")) ((y.get (lit "begin")).get (lit "size"))
          ((y.get (lit "end")).get (lit "size")) w ∨
        w = "missing_part_range" ∧ ¬ (Has ((y.get (lit "part")).get (lit "begin")) ∧ Has ((y.get (lit "part")).get (lit "end"))) ∧
          (AboveOne env ((y.get (lit "begin")).get (lit "total")) ∨ AboveOne env ((y.get (lit "begin")).get (lit "part")) ∨
            AboveOne env ((y.get (lit "end")).get (lit "part")))) ∨
      (w = "invalid_prop_pcrc32" ∧ ∃ t, Given ((y.get (lit "end")).get (lit "pcrc32")) t ∧ ¬ Hex8 t) ∨
      (w = "invalid_prop_crc32" ∧ ∃ t, Given ((y.get (lit "end")).get (lit "crc32")) t ∧ ¬ Hex8 t) ∨
      w = "size_mismatch" ∧ SizeMismatch env ((y.get (lit "begin")).get (lit "part")) ((y.get (lit "begin")).get (lit "size"))
        ((y.get (lit "end")).get (lit "size")) := by
  simp only [checkProps, checkSize_mem, checkHex_mem, checkRange_mem _ _ _ _ hsz, checkPart_mem, checkNumbers_mem, or_assoc,
    show "invalid_prop_" ++ "pcrc32" = "invalid_prop_pcrc32" from rfl, show "invalid_prop_" ++ "crc32" = "invalid_prop_crc32" from rfl]

theorem required_size {y : YData} {size : Str} (hr : required y = .ret (some size)) : (y.get (lit "end")).get (lit "size") = some size ∧ size ≠ [] := by
  unfold required at hr
  split at hr
  · simp at hr
  · simp at hr
  · split at hr
    · simp at hr
    · split at hr
      · simp at hr
      · split at hr
        · rename_i ht
          simp only [Outcome.ret.injEq] at hr
          rw [hr] at ht
          exact ⟨hr, by rintro rfl; simp [truthy] at ht⟩
        · simp at hr

theorem badRange_iff (b e bs size : Option Str) (w : String) : BadRange env b e bs size w ↔
    w = "invalid_part_range" ∧ (∃ x y, Given b x ∧ Given e y ∧ env.lt (env.num y) (env.num x) = true) ∨
    w = "size_mismatch_part_range" ∧ (∃ x y z, Given b x ∧ Given e y ∧ size = some z ∧ env.lt (env.num y) (env.num x) = false ∧
      env.ne (env.num z) (env.range (env.num x) (env.num y)) = true) ∨
    w = "part_range_exceeds_size" ∧ (∃ x y z t, Given b x ∧ Given e y ∧ size = some z ∧ bs = some t ∧ env.lt (env.num y) (env.num x) = false ∧
      env.ne (env.num z) (env.range (env.num x) (env.num y)) = false ∧ env.lt (env.num t) (env.num y) = true) := by
  constructor
  · intro h
    cases h with
    | order x y h1 h2 h3 => exact .inl ⟨rfl, x, y, h1, h2, h3⟩
    | size x y z h1 h2 h3 h4 h5 => exact .inr (.inl ⟨rfl, x, y, z, h1, h2, h4, h3, h5⟩)
    | total x y z t h1 h2 h3 h4 h5 h6 h7 => exact .inr (.inr ⟨rfl, x, y, z, t, h1, h2, h4, h6, h3, h5, h7⟩)
  · rintro (⟨rfl, x, y, h1, h2, h3⟩ | ⟨rfl, x, y, z, h1, h2, h4, h3, h5⟩ | ⟨rfl, x, y, z, t, h1, h2, h4, h6, h3, h5, h7⟩)
    exacts [.order x y h1 h2 h3, .size x y z h1 h2 h3 h4 h5, .total x y z t h1 h2 h3 h4 h5 h6 h7]

/-- A property that should be a number but is not one. -/
def NotNumber (v : Option Str) : Prop := ∃ t, Given v t ∧ ¬ ∀ c ∈ t, Digit c

/-- All warnings of a result. -/
theorem fromPost_warnings (h : lib.IsLib) {data : List Byte} {isRaw : Bool} {p : Js.Post} (hp : fromPost lib env data isRaw = .ret (.ok p)) :
    ∃ ended texts ls, PostLines env.toStr data p.yencStart p.dataStart p.dataEnd p.yencEnd ended texts ∧ List.Forall₂ ReadLine texts ls ∧
      ∀ w, w ∈ p.warnings ↔ (w ∈ warnLines ⟨[], none⟩ ls ∨ w = "missing_yend_newline" ∧ ended = false) ∨
        (w = "invalid_prop_line" ∧ NotNumber (field p "begin" "line") ∨ w = "zero_prop_line" ∧ field p "begin" "line" = some (chars "0") ∨
          w = "invalid_prop_total" ∧ NotNumber (field p "begin" "total") ∨ w = "zero_prop_total" ∧ field p "begin" "total" = some (chars "0") ∨
          w = "invalid_prop_part" ∧ NotNumber (field p "begin" "part") ∨ w = "zero_prop_part" ∧ field p "begin" "part" = some (chars "0") ∨
          w = "invalid_prop_size" ∧ NotNumber (field p "begin" "size") ∨
          w = "invalid_prop_begin" ∧ NotNumber (field p "part" "begin") ∨ w = "zero_prop_begin" ∧ field p "part" "begin" = some (chars "0") ∨
          w = "invalid_prop_end" ∧ NotNumber (field p "part" "end") ∨ w = "zero_prop_end" ∧ field p "part" "end" = some (chars "0") ∨
          w = "invalid_prop_size" ∧ NotNumber (field p "end" "size") ∨
          w = "invalid_prop_part" ∧ NotNumber (field p "end" "part") ∨ w = "zero_prop_part" ∧ field p "end" "part" = some (chars "0")) ∨
        (w = "part_number_mismatch" ∧ PartMismatch (field p "begin" "part") (field p "end" "part") ∨
          w = "part_number_exceeds_total" ∧ ¬ PartMismatch (field p "begin" "part") (field p "end" "part") ∧
            PartExceeds env (field p "begin" "total") (field p "begin" "part") (field p "end" "part")) ∨
        (BadRange env (field p "part" "begin") (field p "part" "end") (field p "begin" "size") (field p "end" "size") w ∨
          w = "missing_part_range" ∧ ¬ (Has (field p "part" "begin") ∧ Has (field p "part" "end")) ∧
            (AboveOne env (field p "begin" "total") ∨ AboveOne env (field p "begin" "part") ∨ AboveOne env (field p "end" "part"))) ∨
        (w = "invalid_prop_pcrc32" ∧ ∃ t, Given (field p "end" "pcrc32") t ∧ ¬ Hex8 t) ∨
        (w = "invalid_prop_crc32" ∧ ∃ t, Given (field p "end" "crc32") t ∧ ¬ Hex8 t) ∨
        (w = "size_mismatch" ∧ SizeMismatch env (field p "begin" "part") (field p "begin" "size") (field p "end" "size")) ∨
        w ∈ dataWarnings ∧ w ∈ p.warnings := by
  obtain ⟨l, size, h1, h2, h3, h4, h5, h6, h7, h8⟩ := fromPost_fields h hp
  obtain ⟨ended, texts, ls, a1, a2, a3, a4⟩ := layout_forward (findStart_spec h1).1 h2
  obtain ⟨hsz, _⟩ := required_size h3
  refine ⟨ended, texts, ls, by rw [h4, h5, h6]; exact a1, a2, fun w => ?_⟩
  have hc := checkProps_mem (env := env) l.props size hsz w l.warnings
  rw [a4 w] at hc
  have hd : w ∈ p.warnings ↔ w ∈ checkProps env l.props size l.warnings ∨ w ∈ dataWarnings ∧ w ∈ p.warnings := by
    have hle : ∀ len crc low, w ∈ checkData env (l.props.get (lit "part")) (l.props.get (lit "end")) size len crc low
        (checkProps env l.props size l.warnings) ↔ w ∈ checkProps env l.props size l.warnings ∨ w ∈ dataWarnings ∧
        w ∈ checkData env (l.props.get (lit "part")) (l.props.get (lit "end")) size len crc low (checkProps env l.props size l.warnings) := by
      intro len crc low
      constructor
      · intro hw
        have hw' := hw
        rw [checkData_any] at hw
        rcases hw with hw | ⟨e, _⟩ | ⟨e, _⟩ | ⟨e, _⟩
        · exact .inl hw
        all_goals exact .inr ⟨by rw [e]; decide, hw'⟩
      · rintro (hw | hw)
        · rw [checkData_any]; exact .inl hw
        · exact hw.2
    rcases h8 with ⟨out, _, e⟩ | ⟨_, e⟩
    · rw [e]; exact hle _ _ _
    · rw [e]; exact hle _ _ _
  refine hd.trans ?_
  rw [hc]
  simp only [field, h7, BadNumber, NotNumber, or_assoc, String.reduceAppend, ne_eq, not_true, not_false_eq_true, true_and, false_and, and_false, or_false,
    String.reduceEq]

theorem warnLines_not {ls : List Line} {y : YData} {w : String} (h1 : w ≠ "ignored_line_data") (h2 : w ≠ "duplicate_property") (h3 : w ≠ "duplicate_line") :
    w ∉ warnLines y ls := fun h => by
  rcases warnLines_range ls y w h with h | h | h
  exacts [h1 h, h2 h, h3 h]

theorem readLines_names {texts : List Str} {ls : List Line} (h : List.Forall₂ ReadLine texts ls) : ∀ l ∈ ls, ∀ k ∈ l.names, IsName k := by
  induction h with
  | nil => simp
  | cons x _ ih =>
    intro l hl
    rcases List.mem_cons.1 hl with rfl | hl
    exacts [readLine_names x, ih l hl]

/-- C64: the warnings about how lines are written are exact.  `ls` are the lines of the post as described in `Spec/Header.lean`.  "duplicate_property" is also given for the names
`constructor` and `__proto__`; "duplicate_line" is exact for tags that are not names of members of every JavaScript object. -/
theorem C64_line_warnings (h : lib.IsLib) (data : List Byte) (isRaw : Bool) (p : Js.Post) (hp : fromPost lib env data isRaw = .ret (.ok p))
    (ds de : Option Nat) (stop : Nat) (ended : Bool) (texts : List Str) (ls : List Line)
    (hl : PostLines env.toStr data p.yencStart ds de stop ended texts) (hr : List.Forall₂ ReadLine texts ls) :
    ("missing_yend_newline" ∈ p.warnings ↔ ended = false) ∧
    ("ignored_line_data" ∈ p.warnings ↔ ∃ l ∈ ls, .ignored ∈ l.pieces) ∧
    ("duplicate_property" ∈ p.warnings ↔ ∃ l ∈ ls, ¬ l.names.Nodup ∨ chars "constructor" ∈ l.names ∨ chars "__proto__" ∈ l.names) ∧
    ((∀ l ∈ ls, l.tag ∉ objectProto) → ("duplicate_line" ∈ p.warnings ↔ ¬ (ls.map Line.tag).Nodup)) := by
  obtain ⟨ended', texts', ls', a1, a2, a3⟩ := fromPost_warnings h hp
  obtain ⟨_, _, _, rfl, rfl⟩ := C63_unique data _ a1 hl a2 hr
  have names := readLines_names a2
  refine ⟨?_, ?_, ?_, ?_⟩
  · rw [a3]
    simp [badRange_iff, dataWarnings, warnLines_not]
  · rw [a3, ← warnLines_ignored ls' ⟨[], none⟩]
    simp [badRange_iff, dataWarnings]
  · rw [a3]
    have e : (∃ l ∈ ls', ¬ l.names.Nodup ∨ ∃ k ∈ l.names, (⟨[]⟩ : Props).has k = true) ↔
        ∃ l ∈ ls', ¬ l.names.Nodup ∨ chars "constructor" ∈ l.names ∨ chars "__proto__" ∈ l.names := by
      refine exists_congr fun l => and_congr_right fun hl => or_congr_right ?_
      constructor
      · rintro ⟨k, hk, hh⟩
        rcases (proto_names k (names l hl k hk)).1 hh with rfl | rfl
        exacts [.inl hk, .inr hk]
      · rintro (hk | hk)
        · exact ⟨_, hk, by decide⟩
        · exact ⟨_, hk, by decide⟩
    rw [← e, ← warnLines_dupProp ls' ⟨[], none⟩]
    simp [badRange_iff, dataWarnings]
  · intro ht
    rw [a3]
    simp [badRange_iff, dataWarnings, warnLines_dupLine ls' ⟨[], none⟩ rfl ht]

/-- C64: the warnings about properties that are not what they should be are exact: numbers that are not decimal digits, zeros, checksums that are not eight hexadecimal digits. -/
theorem C64_value_warnings (h : lib.IsLib) (data : List Byte) (isRaw : Bool) (p : Js.Post) (hp : fromPost lib env data isRaw = .ret (.ok p)) :
    ("invalid_prop_line" ∈ p.warnings ↔ NotNumber (field p "begin" "line")) ∧
    ("invalid_prop_total" ∈ p.warnings ↔ NotNumber (field p "begin" "total")) ∧
    ("invalid_prop_part" ∈ p.warnings ↔ NotNumber (field p "begin" "part") ∨ NotNumber (field p "end" "part")) ∧
    ("invalid_prop_size" ∈ p.warnings ↔ NotNumber (field p "begin" "size") ∨ NotNumber (field p "end" "size")) ∧
    ("invalid_prop_begin" ∈ p.warnings ↔ NotNumber (field p "part" "begin")) ∧
    ("invalid_prop_end" ∈ p.warnings ↔ NotNumber (field p "part" "end")) ∧
    ("zero_prop_line" ∈ p.warnings ↔ field p "begin" "line" = some (chars "0")) ∧
    ("zero_prop_total" ∈ p.warnings ↔ field p "begin" "total" = some (chars "0")) ∧
    ("zero_prop_part" ∈ p.warnings ↔ field p "begin" "part" = some (chars "0") ∨ field p "end" "part" = some (chars "0")) ∧
    ("zero_prop_begin" ∈ p.warnings ↔ field p "part" "begin" = some (chars "0")) ∧
    ("zero_prop_end" ∈ p.warnings ↔ field p "part" "end" = some (chars "0")) ∧
    ("invalid_prop_pcrc32" ∈ p.warnings ↔ ∃ t, Given (field p "end" "pcrc32") t ∧ ¬ Hex8 t) ∧
    ("invalid_prop_crc32" ∈ p.warnings ↔ ∃ t, Given (field p "end" "crc32") t ∧ ¬ Hex8 t) := by
  obtain ⟨ended, texts, ls, _, _, a3⟩ := fromPost_warnings h hp
  refine ⟨?_, ?_, ?_, ?_, ?_, ?_, ?_, ?_, ?_, ?_, ?_, ?_, ?_⟩ <;> rw [a3] <;> simp [badRange_iff, dataWarnings, warnLines_not]

/-- C64: the warnings about properties that contradict each other are exact.  `env.num`, `env.lt`, `env.ne` and `env.range` are the conversion of texts to numbers, `<`, `!=` and
`end - begin + 1`. -/
theorem C64_consistency_warnings (h : lib.IsLib) (data : List Byte) (isRaw : Bool) (p : Js.Post) (hp : fromPost lib env data isRaw = .ret (.ok p)) :
    ("part_number_mismatch" ∈ p.warnings ↔ ∃ a b, Given (field p "begin" "part") a ∧ Given (field p "end" "part") b ∧ a ≠ b) ∧
    ("part_number_exceeds_total" ∈ p.warnings ↔ "part_number_mismatch" ∉ p.warnings ∧
      ∃ t a, Given (field p "begin" "total") t ∧ (Given (field p "begin" "part") a ∨ Given (field p "end" "part") a) ∧ env.lt (env.num t) (env.num a) = true) ∧
    ("invalid_part_range" ∈ p.warnings ↔
      ∃ x y, Given (field p "part" "begin") x ∧ Given (field p "part" "end") y ∧ env.lt (env.num y) (env.num x) = true) ∧
    ("size_mismatch_part_range" ∈ p.warnings ↔
      ∃ x y z, Given (field p "part" "begin") x ∧ Given (field p "part" "end") y ∧ field p "end" "size" = some z ∧ env.lt (env.num y) (env.num x) = false ∧
        env.ne (env.num z) (env.range (env.num x) (env.num y)) = true) ∧
    ("part_range_exceeds_size" ∈ p.warnings ↔
      ∃ x y z t, Given (field p "part" "begin") x ∧ Given (field p "part" "end") y ∧ field p "end" "size" = some z ∧ field p "begin" "size" = some t ∧
        env.lt (env.num y) (env.num x) = false ∧ env.ne (env.num z) (env.range (env.num x) (env.num y)) = false ∧ env.lt (env.num t) (env.num y) = true) ∧
    ("missing_part_range" ∈ p.warnings ↔ ¬ (Has (field p "part" "begin") ∧ Has (field p "part" "end")) ∧
      (AboveOne env (field p "begin" "total") ∨ AboveOne env (field p "begin" "part") ∨ AboveOne env (field p "end" "part"))) ∧
    ("size_mismatch" ∈ p.warnings ↔ ¬ Has (field p "begin" "part") ∧ field p "begin" "size" ≠ field p "end" "size" ∨
      ∃ x y, field p "begin" "size" = some x ∧ field p "end" "size" = some y ∧ env.lt (env.num x) (env.num y) = true) := by
  obtain ⟨ended, texts, ls, _, _, a3⟩ := fromPost_warnings h hp
  have m : "part_number_mismatch" ∈ p.warnings ↔ PartMismatch (field p "begin" "part") (field p "end" "part") := by
    rw [a3]; simp [badRange_iff, dataWarnings, warnLines_not]
  refine ⟨m, ?_, ?_, ?_, ?_, ?_, ?_⟩
  · rw [m, a3]; simp [badRange_iff, dataWarnings, warnLines_not, PartExceeds]
  all_goals rw [a3]; simp [badRange_iff, dataWarnings, warnLines_not, SizeMismatch]

/-- The codes of warnings. -/
def warningCodes : List String :=
  ["ignored_line_data", "duplicate_property", "duplicate_line", "missing_yend_newline", "invalid_prop_line", "invalid_prop_total", "invalid_prop_part", "invalid_prop_size",
    "invalid_prop_begin", "invalid_prop_end", "zero_prop_line", "zero_prop_total", "zero_prop_part", "zero_prop_begin", "zero_prop_end", "invalid_prop_pcrc32",
    "invalid_prop_crc32", "part_number_mismatch", "part_number_exceeds_total", "invalid_part_range", "size_mismatch_part_range", "part_range_exceeds_size",
    "missing_part_range", "size_mismatch", "data_size_mismatch", "pcrc32_mismatch", "crc32_mismatch"]

/-- C64: there are no other warnings. -/
theorem C64_codes (h : lib.IsLib) (data : List Byte) (isRaw : Bool) (p : Js.Post) (hp : fromPost lib env data isRaw = .ret (.ok p)) :
    ∀ w ∈ p.warnings, w ∈ warningCodes := by
  obtain ⟨ended, texts, ls, _, _, a3⟩ := fromPost_warnings h hp
  intro w hw
  rw [a3, badRange_iff] at hw
  by_contra hc
  have hn : ∀ c ∈ warningCodes, w ≠ c := by rintro c hm rfl; exact hc hm
  have h1 : w ∉ warnLines ⟨[], none⟩ ls := warnLines_not (hn _ (by decide)) (hn _ (by decide)) (hn _ (by decide))
  simp only [warningCodes, List.mem_cons, List.not_mem_nil, or_false, forall_eq_or_imp, forall_eq] at hn
  simp only [h1, hn, dataWarnings, List.mem_cons, List.not_mem_nil, false_and, or_false] at hw

/-- A property that is a decimal number. -/
def IsDec (v : Option Str) (n : Nat) : Prop := v = some (lit (toString n)) ∧ n < 2 ^ 53

/-- C64 in numbers: for a part whose properties are decimal numbers below 2^53, the warnings say what they mean. -/
theorem C64_numbers (h : lib.IsLib) (hl : env.Lawful) (data : List Byte) (isRaw : Bool) (p : Js.Post) (hp : fromPost lib env data isRaw = .ret (.ok p))
    {size esize : Nat} (h1 : IsDec (field p "begin" "size") size) (h2 : IsDec (field p "end" "size") esize) :
    (∀ b e, IsDec (field p "part" "begin") b → IsDec (field p "part" "end") e →
      ("invalid_part_range" ∈ p.warnings ↔ e < b) ∧
      ("size_mismatch_part_range" ∈ p.warnings ↔ b ≤ e ∧ b + esize ≠ e + 1) ∧
      ("part_range_exceeds_size" ∈ p.warnings ↔ b ≤ e ∧ b + esize = e + 1 ∧ size < e) ∧
      "missing_part_range" ∉ p.warnings) ∧
    (∀ total part, IsDec (field p "begin" "total") total → IsDec (field p "begin" "part") part → field p "end" "part" = none ∨ IsDec (field p "end" "part") part →
      ("part_number_exceeds_total" ∈ p.warnings ↔ total < part) ∧ "part_number_mismatch" ∉ p.warnings ∧
      (¬ (Has (field p "part" "begin") ∧ Has (field p "part" "end")) → ("missing_part_range" ∈ p.warnings ↔ 1 < total ∨ 1 < part)) ∧
      ("size_mismatch" ∈ p.warnings ↔ size < esize)) ∧
    (∀ part epart, IsDec (field p "begin" "part") part → IsDec (field p "end" "part") epart → ("part_number_mismatch" ∈ p.warnings ↔ part ≠ epart)) ∧
    (field p "begin" "part" = none → ("size_mismatch" ∈ p.warnings ↔ size ≠ esize)) := by
  obtain ⟨c1, c2, c3, c4, c5, c6, c7⟩ := C64_consistency_warnings h data isRaw p hp
  have hne : ∀ n : Nat, lit (toString n) ≠ [] := by intro n; rw [lit_toString]; exact dec_ne_nil n
  have g : ∀ {v : Option Str} {n : Nat}, IsDec v n → ∀ t, Given v t ↔ t = lit (toString n) := by
    rintro v n ⟨rfl, _⟩ t
    exact ⟨fun ht => by simpa using ht.1.symm, by rintro rfl; exact ⟨rfl, hne n⟩⟩
  have gs : ∀ {v : Option Str} {n : Nat}, IsDec v n → ∀ t, v = some t ↔ t = lit (toString n) := by
    rintro v n ⟨rfl, _⟩ t
    exact ⟨fun ht => by simpa using ht.symm, by rintro rfl; rfl⟩
  have num : ∀ {v : Option Str} {n : Nat}, IsDec v n → env.num (lit (toString n)) = env.ofNat n := by
    rintro v n ⟨_, hn⟩; rw [lit_toString, hl.num n (by omega)]
  have inj : ∀ {a b : Nat}, lit (toString a) = lit (toString b) ↔ a = b := by
    intro a b
    rw [lit_toString, lit_toString]
    exact ⟨fun e => by have := congrArg decVal e; simpa [decVal_dec] using this, by rintro rfl; rfl⟩
  have has : ∀ {v : Option Str} {n : Nat}, IsDec v n → Has v := fun hv => ⟨_, (g hv _).2 rfl⟩
  have above : ∀ {v : Option Str} {n : Nat}, IsDec v n → (AboveOne env v ↔ 1 < n) := by
    intro v n hv
    simp only [AboveOne, gs hv, exists_and_left, exists_eq_left, num hv, hl.lt 1 n (by decide) (Nat.le_of_lt hv.2), decide_eq_true_eq]
  have lt : ∀ {v w : Option Str} {a b : Nat}, IsDec v a → IsDec w b → (env.lt (env.ofNat a) (env.ofNat b) = true ↔ a < b) := by
    intro v w a b ha hb
    rw [hl.lt _ _ (Nat.le_of_lt ha.2) (Nat.le_of_lt hb.2), decide_eq_true_eq]
  have lt' : ∀ {v w : Option Str} {a b : Nat}, IsDec v a → IsDec w b → (env.lt (env.ofNat a) (env.ofNat b) = false ↔ b ≤ a) := by
    intro v w a b ha hb
    rw [hl.lt _ _ (Nat.le_of_lt ha.2) (Nat.le_of_lt hb.2), decide_eq_false_iff_not, Nat.not_lt]
  refine ⟨?_, ?_, ?_, ?_⟩
  · intro b e hb he
    rw [c3, c4, c5, c6]
    simp only [g hb, g he, gs h1, gs h2, exists_and_left, exists_eq_left, num hb, num he, num h1, num h2, lt he hb, lt' he hb, lt h1 he, has hb, has he, and_self, not_true,
      false_and, not_false_eq_true, and_true, true_and]
    have hr : b ≤ e → (env.ne (env.ofNat esize) (env.range (env.ofNat b) (env.ofNat e)) = true ↔ b + esize ≠ e + 1) := by
      intro hbe
      have := he.2; have := h2.2
      rw [hl.range b e hbe (by omega), hl.ne _ _ (by omega) (by omega), decide_eq_true_eq]
      omega
    refine ⟨and_congr_right hr, and_congr_right fun hbe => and_congr_left fun _ => ?_⟩
    rw [← Bool.not_eq_true, hr hbe, not_not]
  · intro total part ht hpt hep
    have m : "part_number_mismatch" ∉ p.warnings := by
      rw [c1]
      rintro ⟨a, b, ha, hb, hab⟩
      rw [g hpt] at ha
      rcases hep with hep | hep
      · rw [hep] at hb; simp [Given] at hb
      · rw [g hep] at hb; exact hab (ha.trans hb.symm)
    have hgiven : ∀ a, Given (field p "begin" "part") a ∨ Given (field p "end" "part") a ↔ a = lit (toString part) := by
      intro a
      rw [g hpt]
      rcases hep with hep | hep
      · rw [hep]; simp [Given]
      · rw [g hep]; simp
    have hab : AboveOne env (field p "begin" "part") ∨ AboveOne env (field p "end" "part") ↔ 1 < part := by
      rw [above hpt]
      rcases hep with hep | hep
      · rw [hep]; simp [AboveOne]
      · rw [above hep]; simp
    refine ⟨?_, m, ?_, ?_⟩
    · rw [c2]
      simp only [m, not_false_eq_true, true_and, hgiven, g ht, exists_and_left, exists_eq_left, num ht, num hpt, lt ht hpt]
    · intro hh
      rw [c6, hab, above ht]
      simp only [hh, not_false_eq_true, true_and]
    · rw [c7]
      simp only [has hpt, not_true, false_and, false_or, gs h1, gs h2, exists_and_left, exists_eq_left, num h1, num h2, lt h1 h2]
  · intro part epart hpt hep
    rw [c1]
    simp only [g hpt, g hep, exists_and_left, exists_eq_left, ne_eq, inj]
  · intro hn
    have hh : ¬ Has (field p "begin" "part") := by rw [hn]; rintro ⟨t, ht, _⟩; simp at ht
    rw [c7]
    simp only [hh, not_false_eq_true, true_and, gs h1, gs h2, exists_and_left, exists_eq_left, num h1, num h2, lt h1 h2]
    rw [h1.1, h2.1, Ne, Option.some.injEq, inj]
    omega

/-- C64 needs its exception: a line with one property called `constructor` is reported as a line with a repeated property. -/
theorem C64_constructor_false :
    (fun o => match o with | .ret (.ok p) => some p.warnings | _ => none)
      (fromPost genericLib natEnv (text "=ybegin line=128 size=1 constructor=1 name=n\r\nk\r\n=yend size=1\r\n") false) = some ["duplicate_property"] := by
  decide +kernel

/-- C64 needs its exception: a line with an unknown tag that is the name of a member of every JavaScript object is reported as repeated. -/
theorem C64_tag_false :
    (fun o => match o with | .ret (.ok p) => some p.warnings | _ => none)
      (fromPost genericLib natEnv (text "=ybegin line=128 size=1 name=n\r\n=ytoString a=1\r\nk\r\n=yend size=1\r\n") false) = some ["duplicate_line"] := by
  decide +kernel

-- several warnings at once
example : (fun o => match o with | .ret (.ok p) => some (p.warnings, field p "begin" "size") | _ => none)
    (fromPost genericLib natEnv (text "=ybegin ? line=0 part=2 total=1 size=x size=9 name=n\r\n=ypart begin=3 end=3\r\nk\r\n=yend size=1 part=2 pcrc32=zz") false) =
    some (["ignored_line_data", "duplicate_property", "missing_yend_newline", "zero_prop_line", "part_number_exceeds_total", "invalid_prop_pcrc32", "pcrc32_mismatch"],
      some (lit "9")) := by decide +kernel

example : IsDec (some (lit "9")) 9 := ⟨by decide, by decide⟩

/-- C61 for a post without data: a size that is not zero and checksums that are not `00000000` are reported. -/
theorem C61_empty (h : lib.IsLib) (data : List Byte) (isRaw : Bool) (p : Js.Post) (hp : fromPost lib env data isRaw = .ret (.ok p)) (ho : p.data = none) :
    (∃ size, Given (field p "end" "size") size ∧ ("data_size_mismatch" ∈ p.warnings ↔ env.ne (env.num size) (env.ofNat 0) = true)) ∧
    ("pcrc32_mismatch" ∈ p.warnings ↔ ∃ t, Given (field p "end" "pcrc32") t ∧ t ≠ chars "00000000") ∧
    ("crc32_mismatch" ∈ p.warnings ↔ (p.props.get (lit "part")).truthy = false ∧ ∃ t, Given (field p "end" "crc32") t ∧ t ≠ chars "00000000") := by
  obtain ⟨l, size, h1, h2, h3, h4, h5, h6, h7, h8⟩ := fromPost_fields h hp
  obtain ⟨hsz, hne⟩ := required_size h3
  rcases h8 with ⟨out, e, _⟩ | ⟨_, e⟩
  · rw [ho] at e; simp at e
  · obtain ⟨c1, c2, c3⟩ := checkData_mem (env := env) (l.props.get (lit "part")) (l.props.get (lit "end")) size 0 (lit "00000000") false _
      (quiet_checkProps (env := env) l.props size l.warnings (quiet_layout h2))
    rw [e]
    simp only [field, h7]
    refine ⟨⟨size, ⟨hsz, hne⟩, c1⟩, ?_, ?_⟩
    · rw [c2, crcDiffers_iff]; simp only [Given, Bool.false_eq_true, if_false, and_assoc]; rfl
    · rw [c3, crcDiffers_iff]; simp only [Given, Bool.false_eq_true, if_false, and_assoc]; rfl

-- a post without data
example : (fun o => match o with | .ret (.ok p) => some (p.warnings, p.data) | _ => none)
    (fromPost genericLib natEnv (text "=ybegin line=128 size=0 name=n\r\n=yend size=0 crc32=00000001\r\n") false) = some (["crc32_mismatch"], none) := by decide +kernel

/-! ### C65: errors -/

theorem find_none_all {pat l : List Byte} (hp : pat ≠ []) (h : find pat l = none) : ∀ i, ¬ pat <+: l.drop i := by
  intro i hi
  obtain ⟨n, hn, hm⟩ : ∃ n, pat <+: l.drop n ∧ ∀ j < n, ¬ pat <+: l.drop j := by
    classical
    have hx : ∃ n, pat <+: l.drop n := ⟨i, hi⟩
    exact ⟨Nat.find hx, Nat.find_spec hx, fun j hj => Nat.find_min hx hj⟩
  have hl : n < l.length := by
    by_contra hc
    rw [List.drop_of_length_le (by omega)] at hn
    exact hp (List.prefix_nil.1 hn)
  rw [find_eq hl hn hm] at h
  simp at h

theorem findStart_none (data : List Byte) : findStart data = none ↔ ¬ text "=ybegin " <+: data ∧ ∀ i, ¬ text "\r\n=ybegin " <+: data.drop i := by
  unfold findStart
  rw [← text_lit, ← text_lit]
  have e : data.take 8 = text "=ybegin " ↔ text "=ybegin " <+: data := by
    rw [List.prefix_iff_eq_take]; exact eq_comm
  by_cases h : data.take 8 = text "=ybegin "
  · rw [if_pos h]; simp [e.1 h]
  · rw [if_neg h]
    have h' : ¬ text "=ybegin " <+: data := fun hp => h (e.2 hp)
    cases hf : find (text "\r\n=ybegin ") data with
    | none => simp only [true_iff]; exact ⟨h', find_none_all (by decide) hf⟩
    | some i =>
      simp only [reduceCtorEq, false_iff]
      rintro ⟨_, hn⟩
      exact hn i (find_some hf).2

theorem findStart_iff (data : List Byte) (s : Nat) : findStart data = some s ↔ StartsAt data s := by
  refine ⟨findStart_starts, fun h => ?_⟩
  cases hf : findStart data with
  | none =>
    obtain ⟨h1, h2⟩ := (findStart_none data).1 hf
    rcases h with ⟨h, _⟩ | ⟨_, i, _, h, _⟩
    exacts [absurd h h1, absurd h (h2 i)]
  | some t =>
    congr 1
    rcases findStart_starts hf with ⟨a, rfl⟩ | ⟨a, i, rfl, a2, a3⟩ <;> rcases h with ⟨b, rfl⟩ | ⟨b, j, rfl, b2, b3⟩
    · rfl
    · exact absurd a b
    · exact absurd b a
    · rcases Nat.lt_trichotomy i j with hij | hij | hij
      · exact absurd a2 (b3 i hij)
      · rw [hij]
      · exact absurd b2 (a3 j hij)

/-- The properties a post must have: line length, size and name on the begin line, size on the end line. -/
def Complete (ls : List Line) : Prop :=
  Has (valueOf ls (chars "begin") (chars "line")) ∧ Has (valueOf ls (chars "begin") (chars "size")) ∧ valueOf ls (chars "begin") (chars "name") ≠ none ∧
    Has (valueOf ls (chars "end") (chars "size"))

/-- Everything `from_post` can do. -/
theorem fromPost_cases (h : lib.IsLib) (he : env.AsciiPrefix) (data : List Byte) (isRaw : Bool) :
    (fromPost lib env data isRaw = .ret (.error "no_start_found") ∧ findStart data = none) ∨
    (∃ s, StartsAt data s ∧ fromPost lib env data isRaw = .ret (.error "no_end_found") ∧
      ∀ ds de stop ended texts, ¬ PostLines env.toStr data s ds de stop ended texts) ∨
    ∃ s ds de stop ended texts ls, StartsAt data s ∧ PostLines env.toStr data s ds de stop ended texts ∧ List.Forall₂ ReadLine texts ls ∧
      (fromPost lib env data isRaw = .ret (.error "missing_required_properties") ∧ ¬ Complete ls ∨
        (∃ p, fromPost lib env data isRaw = .ret (.ok p)) ∧ Complete ls) := by
  unfold fromPost
  cases hs : findStart data with
  | none => exact .inl ⟨rfl, rfl⟩
  | some s =>
    simp only
    have hsp := (findStart_spec hs).1
    cases hl : layout env data (headerLoop env data data.length s (findFrom crlf data (s + 8)) []) with
    | none =>
      refine .inr (.inl ⟨s, findStart_starts hs, rfl, fun ds de stop ended texts hp => ?_⟩)
      have := layout_backward hsp hp
      rw [hl] at this
      simp at this
    | some l =>
      obtain ⟨r1, r2⟩ := layout_records he hs hl
      obtain ⟨ended, texts, ls, a1, a2, a3, _⟩ := layout_forward hsp hl
      refine .inr (.inr ⟨s, l.dataStart, l.dataEnd, l.yencEnd, ended, texts, ls, findStart_starts hs, a1, a2, ?_⟩)
      obtain ⟨b, hb⟩ := Option.isSome_iff_exists.1 r1
      obtain ⟨e, he⟩ := Option.isSome_iff_exists.1 r2
      have e1 : l.props.get (lit "begin") = .obj b := by simp [YData.get, hb]
      have e2 : l.props.get (lit "end") = .obj e := by simp [YData.get, he]
      have v : ∀ tag key, tag ≠ lit "__proto__" → key ≠ lit "__proto__" → valueOf ls tag key = (l.props.get tag).get key := by
        intro tag key ht hk
        rw [a3, applyLines_value ls tag key ht hk]
      have hc : Complete ls ↔ Has (b.get (lit "line")) ∧ Has (b.get (lit "size")) ∧ b.get (lit "name") ≠ none ∧ Has (e.get (lit "size")) := by
        unfold Complete
        rw [v _ _ (by decide) (by decide), v _ _ (by decide) (by decide), v _ _ (by decide) (by decide), v _ _ (by decide) (by decide)]
        show Has ((l.props.get (lit "begin")).get (lit "line")) ∧ Has ((l.props.get (lit "begin")).get (lit "size")) ∧
          (l.props.get (lit "begin")).get (lit "name") ≠ none ∧ Has ((l.props.get (lit "end")).get (lit "size")) ↔ _
        rw [e1, e2]; rfl
      have hn : b.has (lit "name") = true ↔ b.get (lit "name") ≠ none := by
        have : objectProto.contains (lit "name") = false := by decide
        simp only [Props.has, this, Bool.or_false, Option.isSome_iff_ne_none]
      have ht : ∀ o, truthy o = true ↔ Has o := truthy_iff
      simp only [required, e1, e2, Rec.get]
      by_cases h1 : Has (b.get (lit "line")) ∧ Has (b.get (lit "size")) ∧ b.get (lit "name") ≠ none
      · have hf : (!truthy (b.get (lit "line")) || !truthy (b.get (lit "size")) || !b.has (lit "name")) = false := by
          simp only [(ht _).2 h1.1, (ht _).2 h1.2.1, hn.2 h1.2.2, Bool.not_true, Bool.or_self]
        rw [hf]
        simp only [Bool.false_eq_true, if_false]
        by_cases h2 : Has (e.get (lit "size"))
        · simp only [(ht _).2 h2, if_true]
          have h3 := h2
          obtain ⟨size, hsz, _⟩ := h3
          refine .inr ⟨?_, hc.2 ⟨h1.1, h1.2.1, h1.2.2, h2⟩⟩
          rw [hsz]
          simp only [Outcome.bind, conclude]
          split
          · obtain ⟨out, ho, _⟩ := decode_total h ((data.take _).drop _) isRaw
            rw [ho]
            simp only [crc32_eq h]
            exact ⟨_, rfl⟩
          · exact ⟨_, rfl⟩
        · have h3 : truthy (e.get (lit "size")) = false := Bool.not_eq_true _ |>.mp fun hh => h2 ((ht _).1 hh)
          simp only [h3, Bool.false_eq_true, if_false]
          exact .inl ⟨rfl, fun h => h2 (hc.1 h).2.2.2⟩
      · have hf : (!truthy (b.get (lit "line")) || !truthy (b.get (lit "size")) || !b.has (lit "name")) = true := by
          by_contra hcon
          simp only [Bool.not_eq_true, Bool.or_eq_false_iff, Bool.not_eq_false'] at hcon
          exact h1 ⟨(ht _).1 hcon.1.1, (ht _).1 hcon.1.2, hn.1 hcon.2⟩
        rw [hf]
        exact .inl ⟨rfl, fun h => h1 ⟨(hc.1 h).1, (hc.1 h).2.1, (hc.1 h).2.2.1⟩⟩

/-- C65: `from_post` finds no start exactly if no begin marker opens the data or follows a line break. -/
theorem C65_no_start (h : lib.IsLib) (he : env.AsciiPrefix) (data : List Byte) (isRaw : Bool) :
    fromPost lib env data isRaw = .ret (.error "no_start_found") ↔
      ¬ text "=ybegin " <+: data ∧ ∀ i, ¬ text "\r\n=ybegin " <+: data.drop i := by
  rw [← findStart_none]
  rcases fromPost_cases h he data isRaw with ⟨e, hn⟩ | ⟨s, hs, e, _⟩ | ⟨s, ds, de, stop, ended, texts, ls, hs, _, _, ⟨e, _⟩ | ⟨⟨p, e⟩, _⟩⟩
  · simp [e, hn]
  all_goals rw [e, (findStart_iff data s).2 hs]; simp

/-- C65: there is a start but `from_post` finds no end exactly if the data from there on are not the lines of a post. -/
theorem C65_no_end (h : lib.IsLib) (he : env.AsciiPrefix) (data : List Byte) (isRaw : Bool) :
    fromPost lib env data isRaw = .ret (.error "no_end_found") ↔
      ∃ s, StartsAt data s ∧ ∀ ds de stop ended texts, ¬ PostLines env.toStr data s ds de stop ended texts := by
  rcases fromPost_cases h he data isRaw with ⟨e, hn⟩ | ⟨s, hs, e, hp⟩ | ⟨s, ds, de, stop, ended, texts, ls, hs, hp, _, ⟨e, _⟩ | ⟨⟨p, e⟩, _⟩⟩
  · rw [e]
    simp only [← findStart_iff, hn]; simp
  · simp only [e, true_iff]; exact ⟨s, hs, hp⟩
  all_goals
    rw [e]
    simp only [Outcome.ret.injEq, FromPost.error.injEq, reduceCtorEq, String.reduceEq, false_iff]
    rintro ⟨s', hs', hp'⟩
    rw [← findStart_iff] at hs hs'
    rw [hs] at hs'; injection hs' with hs'; subst hs'
    exact hp' _ _ _ _ _ hp

/-- C65: with start and end found, the result is a post exactly if the required properties are there, and an error otherwise. -/
theorem C65_required (h : lib.IsLib) (he : env.AsciiPrefix) (data : List Byte) (isRaw : Bool) (s : Nat) (hs : StartsAt data s) (ds de : Option Nat) (stop : Nat)
    (ended : Bool) (texts : List Str) (ls : List Line) (hp : PostLines env.toStr data s ds de stop ended texts) (hr : List.Forall₂ ReadLine texts ls) :
    (Complete ls → ∃ p, fromPost lib env data isRaw = .ret (.ok p)) ∧
    (¬ Complete ls → fromPost lib env data isRaw = .ret (.error "missing_required_properties")) := by
  rw [← findStart_iff] at hs
  rcases fromPost_cases h he data isRaw with ⟨_, hn⟩ | ⟨s', hs', _, hp'⟩ | ⟨s', ds', de', stop', ended', texts', ls', hs', hp', hr', hh⟩
  · rw [hs] at hn; simp at hn
  · rw [← findStart_iff, hs] at hs'; injection hs' with hs'; subst hs'
    exact absurd hp (hp' _ _ _ _ _)
  · rw [← findStart_iff, hs] at hs'; injection hs' with hs'; subst hs'
    obtain ⟨_, _, _, _, rfl⟩ := C63_unique data _ hp hp' hr hr'
    rcases hh with ⟨e, hc⟩ | ⟨e, hc⟩
    · exact ⟨fun h => absurd h hc, fun _ => e⟩
    · exact ⟨fun _ => e, fun h => absurd hc h⟩

-- a post without a size
example : fromPost genericLib natEnv (text "=ybegin line=1 size=0 name=\r\n=yend size=\r\n") false = .ret (.error "missing_required_properties") := by decide +kernel
example : (fun o => match o with | .ret (.ok p) => some (p.yencEnd, p.warnings) | _ => none)
    (fromPost genericLib natEnv (text "=ybegin line=1 size=0 name=\r\n=yend size=0\r\n") false) = some (43, []) := by decide +kernel

/-- The lines of a small post: the hypotheses of C64 and C65 can be met. -/
theorem small_post : StartsAt (text "=ybegin line=1 size=0 name=a b\r\n=yend size=0\r\n") 0 ∧
    PostLines natEnv.toStr (text "=ybegin line=1 size=0 name=a b\r\n=yend size=0\r\n") 0 none none 46 true
      [chars "=ybegin line=1 size=0 name=a b", chars "=yend size=0"] ∧
    List.Forall₂ ReadLine [chars "=ybegin line=1 size=0 name=a b", chars "=yend size=0"]
      [⟨chars "begin", [.field (chars "line") (chars "1"), .field (chars "size") (chars "0"), .field (chars "name") (chars "a b")]⟩,
        ⟨chars "end", [.field (chars "size") (chars "0")]⟩] := by
  have hk : ∀ k ∈ [chars "line", chars "size"], IsName k := by
    intro k hk; rw [← isKey_iff]; revert k; decide
  refine ⟨.inl ⟨by decide, rfl⟩, ?_, ?_⟩
  · refine PostLines.empty (raws := [text "=ybegin line=1 size=0 name=a b", text "=yend size=0"]) (rest := []) (ts := [chars "=ybegin line=1 size=0 name=a b"])
      (t := chars "=yend size=0") (by decide +kernel) ?_ ?_ (by decide) (by decide)
    · have hc : ∀ l : List Byte, CR ∉ l → ¬ [CR, LF] <:+: l := fun l hl hi => hl (hi.subset (by simp))
      intro l hl
      simp only [List.mem_cons, List.not_mem_nil, or_false] at hl
      rcases hl with rfl | rfl
      · exact ⟨by decide, hc _ (by decide)⟩
      · exact ⟨by decide, hc _ (by decide)⟩
    · refine .cons ?_ (.cons ?_ .nil)
      · rw [show natEnv.toStr (text "=ybegin line=1 size=0 name=a b") = chars "=ybegin line=1 size=0 name=a b" by decide +kernel]
        exact trimmed_self _ (by decide) (by decide)
      · rw [show natEnv.toStr (text "=yend size=0") = chars "=yend size=0" by decide +kernel]
        exact trimmed_self _ (by decide) (by decide)
  · refine .cons ?_ (.cons ?_ .nil)
    · refine C63_written_name [(chars "line", chars "1"), (chars "size", chars "0")] (chars "a b") (by decide) ?_
      intro f hf
      fin_cases hf
      · exact ⟨hk _ (by decide), by decide, by decide⟩
      · exact ⟨hk _ (by decide), by decide, by decide⟩
    · refine C63_written (chars "end") [(chars "size", chars "0")] (by decide) (by decide) ?_
      intro f hf
      rw [List.mem_singleton] at hf; subst hf
      exact ⟨hk _ (by decide), by decide, by decide⟩

example : Complete [⟨chars "begin", [.field (chars "line") (chars "1"), .field (chars "size") (chars "0"), .field (chars "name") (chars "a b")]⟩,
    ⟨chars "end", [.field (chars "size") (chars "0")]⟩] :=
  ⟨⟨chars "1", by decide, by decide⟩, ⟨chars "0", by decide, by decide⟩, by decide, ⟨chars "0", by decide, by decide⟩⟩

end Yenc.Props
