import Verif.Lemmas.EncScalar
import Verif.Lemmas.DecEnd
import Mathlib.Tactic.Tauto
/-! Facts about the reference encoder. -/
namespace Yenc.Enc
open Yenc

/-! ### Round trip -/

theorem encChar_cases (ls col : Nat) (last : Bool) (e : Byte) :
    (Spec.mustEscape ls col last e = true ∧ Spec.encChar ls col last e = [EQ, e + 64#8]) ∨
    (Spec.mustEscape ls col last e = false ∧ Spec.encChar ls col last e = [e]) := by
  unfold Spec.encChar
  cases h : Spec.mustEscape ls col last e <;> simp

theorem not_critical_of_not_mustEscape {ls col : Nat} {last : Bool} {e : Byte}
    (h : Spec.mustEscape ls col last e = false) : e ≠ NUL ∧ e ≠ CR ∧ e ≠ LF ∧ e ≠ EQ := by
  simp [Spec.mustEscape, Spec.critical] at h
  obtain ⟨⟨⟨⟨h1, h2⟩, h3⟩, h4⟩, _⟩ := h
  exact ⟨by tauto, by tauto, by tauto, by tauto⟩

/-- The special bytes that may be escaped. -/
theorem escape_domain {ls col : Nat} {last : Bool} {e : Byte} (h : Spec.mustEscape ls col last e = true) :
    e = NUL ∨ e = CR ∨ e = LF ∨ e = EQ ∨ e = DOT ∨ e = TAB ∨ e = SP := by
  simp [Spec.mustEscape, Spec.critical] at h
  tauto

theorem yDecode_encChar (ls col : Nat) (last : Bool) (c : Byte) (t : List Byte) :
    Spec.yDecode (Spec.encChar ls col last (c + 42#8) ++ t) = c :: Spec.yDecode t := by
  have h1 : ∀ c : Byte, c + 42#8 + 64#8 - 106#8 = c := by decide +kernel
  have h2 : ∀ c : Byte, c + 42#8 - 42#8 = c := by decide +kernel
  rcases encChar_cases ls col last (c + 42#8) with ⟨_, h⟩ | ⟨hm, h⟩
  · rw [h]
    simp only [List.cons_append, List.nil_append]
    rw [Dec.yDecode_cons]; simp [Dec.yFrom, h1]
  · rw [h]
    obtain ⟨_, a, b, d⟩ := not_critical_of_not_mustEscape hm
    simp only [List.cons_append, List.nil_append]
    rw [Dec.yDecode_cons]; simp [a, b, d, h2]

theorem yDecode_encode (ls : Nat) (fin : Bool) (col : Nat) (l : List Byte) :
    Spec.yDecode (Spec.encode ls fin col l) = l := by
  induction l generalizing col with
  | nil => simp [Spec.encode, Spec.yDecode]
  | cons c cs ih =>
    by_cases h : ls ≤ col
    · rw [encode_cons_ge _ _ _ _ _ h, Dec.yDecode_cons, if_pos (Or.inl rfl), Dec.yDecode_cons, if_pos (Or.inr rfl),
        yDecode_encChar, ih]
    · rw [encode_cons_lt _ _ _ _ _ (by omega), yDecode_encChar, ih]

/-! ### Lines -/

/-- Put `s` in front of the first line. -/
def prependLine (s : List Byte) : List (List Byte) → List (List Byte)
  | [] => [s]
  | l :: ls => (s ++ l) :: ls

/-- The lines of the reference encoding; the first one continues the current line. -/
def encLines (ls : Nat) (fin : Bool) : Nat → List Byte → List (List Byte)
  | _, [] => [[]]
  | col, c :: cs =>
    if ls ≤ col then
      [] :: prependLine (Spec.encChar ls 0 (fin && cs.isEmpty) (c + 42#8))
        (encLines ls fin (Spec.encChar ls 0 (fin && cs.isEmpty) (c + 42#8)).length cs)
    else
      prependLine (Spec.encChar ls col (fin && cs.isEmpty) (c + 42#8))
        (encLines ls fin (col + (Spec.encChar ls col (fin && cs.isEmpty) (c + 42#8)).length) cs)

/-- Lines joined by CR LF. -/
def joinLines : List (List Byte) → List Byte
  | [] => []
  | [l] => l
  | l :: m :: ms => l ++ CR :: LF :: joinLines (m :: ms)

theorem encLines_ne_nil (ls fin col l) : encLines ls fin col l ≠ [] := by
  unfold encLines
  split
  · simp
  · split
    · simp
    · cases encLines ls fin _ _ <;> simp [prependLine]

theorem joinLines_prepend (s : List Byte) (L : List (List Byte)) (h : L ≠ []) :
    joinLines (prependLine s L) = s ++ joinLines L := by
  rcases L with _ | ⟨l, _ | ⟨m, ms⟩⟩
  · exact absurd rfl h
  · simp [prependLine, joinLines]
  · simp [prependLine, joinLines]

theorem prependLine_ne_nil (s L) : prependLine s L ≠ [] := by cases L <;> simp [prependLine]

theorem joinLines_encLines (ls : Nat) (fin : Bool) (col : Nat) (l : List Byte) :
    joinLines (encLines ls fin col l) = Spec.encode ls fin col l := by
  induction l generalizing col with
  | nil => simp [encLines, joinLines, Spec.encode]
  | cons c cs ih =>
    unfold encLines
    by_cases h : ls ≤ col
    · rw [if_pos h, encode_cons_ge _ _ _ _ _ h]
      generalize hL : prependLine _ _ = L
      have hne : L ≠ [] := hL ▸ prependLine_ne_nil _ _
      rcases L with _ | ⟨m, ms⟩
      · exact absurd rfl hne
      · simp only [joinLines, List.nil_append]
        rw [← hL, joinLines_prepend _ _ (encLines_ne_nil _ _ _ _), ih]
    · rw [if_neg h, encode_cons_lt _ _ _ _ _ (by omega), joinLines_prepend _ _ (encLines_ne_nil _ _ _ _), ih]

theorem splitLines_append (l : List Byte) (t : List Byte) (h : CR ∉ l) :
    Spec.splitLines (l ++ CR :: LF :: t) = l :: Spec.splitLines t := by
  induction l with
  | nil => simp [Spec.splitLines]
  | cons c cs ih =>
    have hc : c ≠ CR := fun hh => h (by simp [hh])
    have ih' := ih (fun hh => h (by simp [hh]))
    rcases cs with _ | ⟨d, ds⟩
    · simp at ih' ⊢
      rw [Spec.splitLines, if_neg (by simp [hc]), ih']
    · simp only [List.cons_append] at ih' ⊢
      rw [Spec.splitLines, if_neg (by simp [hc]), ih']

theorem splitLines_single (l : List Byte) (h : CR ∉ l) : Spec.splitLines l = [l] := by
  induction l with
  | nil => simp [Spec.splitLines]
  | cons c cs ih =>
    have hc : c ≠ CR := fun hh => h (by simp [hh])
    have ih' := ih (fun hh => h (by simp [hh]))
    rcases cs with _ | ⟨d, ds⟩
    · simp [Spec.splitLines]
    · rw [Spec.splitLines, if_neg (by simp [hc]), ih']

theorem splitLines_joinLines (L : List (List Byte)) (hne : L ≠ []) (h : ∀ l ∈ L, CR ∉ l) :
    Spec.splitLines (joinLines L) = L := by
  induction L with
  | nil => exact absurd rfl hne
  | cons l L ih =>
    rcases L with _ | ⟨m, ms⟩
    · exact splitLines_single l (h l (by simp))
    · rw [joinLines, splitLines_append l _ (h l (by simp)), ih (by simp) (fun x hx => h x (by simp [hx]))]

theorem forall_prependLine {P : List Byte → Prop} (s : List Byte) (L : List (List Byte)) (hne : L ≠ [])
    (hs : ∀ l, P l → P (s ++ l)) (h : ∀ l ∈ L, P l) : ∀ l ∈ prependLine s L, P l := by
  rcases L with _ | ⟨l, L⟩
  · exact absurd rfl hne
  · intro x hx
    simp [prependLine] at hx
    rcases hx with rfl | hx
    · exact hs _ (h l (by simp))
    · exact h x (by simp [hx])

/-- A property of lines that holds of the empty line and is kept by putting a character in front holds of all lines. -/
theorem forall_encLines (P : List Byte → Prop) (ls : Nat) (fin : Bool) (h0 : P [])
    (hs : ∀ col last c l, P l → P (Spec.encChar ls col last (c + 42#8) ++ l)) (col : Nat) (src : List Byte) :
    ∀ l ∈ encLines ls fin col src, P l := by
  induction src generalizing col with
  | nil => intro l hl; simp [encLines] at hl; subst hl; exact h0
  | cons c cs ih =>
    unfold encLines
    split
    · intro l hl
      simp only [List.mem_cons] at hl
      rcases hl with rfl | hl
      · exact h0
      · exact forall_prependLine _ _ (encLines_ne_nil _ _ _ _) (fun l hl => hs _ _ _ _ hl) (ih _) l hl
    · exact forall_prependLine _ _ (encLines_ne_nil _ _ _ _) (fun l hl => hs _ _ _ _ hl) (ih _)

theorem encChar_safe (ls col : Nat) (last : Bool) (e : Byte) :
    ∀ b ∈ Spec.encChar ls col last e, b ≠ NUL ∧ b ≠ CR ∧ b ≠ LF := by
  rcases encChar_cases ls col last e with ⟨hm, h⟩ | ⟨hm, h⟩
  · rw [h]
    have := escape_domain hm
    intro b hb
    simp at hb
    rcases hb with rfl | rfl
    · simp
    · rcases this with rfl | rfl | rfl | rfl | rfl | rfl | rfl <;> decide
  · rw [h]
    intro b hb
    simp at hb; subst hb
    obtain ⟨a, b, c, d⟩ := not_critical_of_not_mustEscape hm
    exact ⟨a, b, c⟩

theorem encLines_safe (ls : Nat) (fin : Bool) (col : Nat) (src : List Byte) :
    ∀ l ∈ encLines ls fin col src, ∀ b ∈ l, b ≠ NUL ∧ b ≠ CR ∧ b ≠ LF := by
  apply forall_encLines (P := fun l => ∀ b ∈ l, b ≠ NUL ∧ b ≠ CR ∧ b ≠ LF)
  · simp
  · intro col last c l hl b hb
    rw [List.mem_append] at hb
    rcases hb with hb | hb
    · exact encChar_safe _ _ _ _ b hb
    · exact hl b hb

/-- The lines of the encoded text are the ones computed by `encLines`. -/
theorem splitLines_encode (ls : Nat) (fin : Bool) (col : Nat) (src : List Byte) :
    Spec.splitLines (Spec.encode ls fin col src) = encLines ls fin col src := by
  rw [← joinLines_encLines]
  apply splitLines_joinLines _ (encLines_ne_nil _ _ _ _)
  intro l hl hcr
  exact (encLines_safe ls fin col src l hl _ hcr).2.1 rfl

theorem paired_encChar (ls col : Nat) (last : Bool) (e : Byte) (l : List Byte) (h : Spec.paired l = true) :
    Spec.paired (Spec.encChar ls col last e ++ l) = true := by
  rcases encChar_cases ls col last e with ⟨hm, h'⟩ | ⟨hm, h'⟩
  · rw [h']; simp [Spec.paired, h]
  · rw [h']
    obtain ⟨a, b, c, d⟩ := not_critical_of_not_mustEscape hm
    rw [List.singleton_append, Spec.paired.eq_def]; simp [d, h]

theorem encLines_paired (ls : Nat) (fin : Bool) (col : Nat) (src : List Byte) :
    ∀ l ∈ encLines ls fin col src, Spec.paired l = true := by
  apply forall_encLines (P := fun l => Spec.paired l = true)
  · rfl
  · intro col last c l hl; exact paired_encChar _ _ _ _ _ hl

/-! ### Line starts -/

/-- The line is empty or begins with a byte that is safe at the start of a line. -/
def GoodStart (l : List Byte) : Prop := ∀ b ∈ l.head?, b ≠ DOT ∧ b ≠ TAB ∧ b ≠ SP

theorem encChar_start (ls : Nat) (last : Bool) (e : Byte) (t : List Byte) :
    GoodStart (Spec.encChar ls 0 last e ++ t) := by
  rcases encChar_cases ls 0 last e with ⟨hm, h'⟩ | ⟨hm, h'⟩
  · rw [h']; intro b hb; simp at hb; subst hb; simp
  · rw [h']; intro b hb; simp at hb; subst hb
    simp [Spec.mustEscape] at hm
    tauto

theorem encLines_tail_start (ls : Nat) (fin : Bool) (col : Nat) (src : List Byte) :
    ∀ l ∈ (encLines ls fin col src).tail, l ≠ [] ∧ GoodStart l := by
  induction src generalizing col with
  | nil => simp [encLines]
  | cons c cs ih =>
    unfold encLines
    split
    · intro l hl
      simp only [List.tail_cons] at hl
      generalize hL : encLines ls fin _ cs = L at hl
      have hne : L ≠ [] := hL ▸ encLines_ne_nil _ _ _ _
      rcases L with _ | ⟨m, ms⟩
      · exact absurd rfl hne
      simp only [prependLine, List.mem_cons] at hl
      rcases hl with rfl | hl
      · refine ⟨?_, encChar_start _ _ _ _⟩
        have := encChar_length ls 0 (fin && cs.isEmpty) (c + 42#8)
        intro h0; rw [List.append_eq_nil_iff] at h0; rw [h0.1] at this; simp at this
      · have := ih (Spec.encChar ls 0 (fin && cs.isEmpty) (c + 42#8)).length l
        rw [hL] at this
        exact this hl
    · intro l hl
      have := ih (col + (Spec.encChar ls col (fin && cs.isEmpty) (c + 42#8)).length) l
      generalize encLines ls fin _ cs = L at hl this
      rcases L with _ | ⟨m, ms⟩
      · simp [prependLine] at hl
      · exact this (by simpa [prependLine] using hl)

theorem encLines_head_start (ls : Nat) (hls : 1 ≤ ls) (fin : Bool) (src : List Byte) :
    ∀ l ∈ (encLines ls fin 0 src).head?, GoodStart l := by
  rcases src with _ | ⟨c, cs⟩
  · intro l hl; simp [encLines] at hl; subst hl; simp [GoodStart]
  · unfold encLines
    rw [if_neg (by omega)]
    intro l hl
    generalize encLines ls fin _ cs = L at hl
    rcases L with _ | ⟨m, ms⟩
    · simp [prependLine] at hl
      subst hl
      have := encChar_start ls (fin && cs.isEmpty) (c + 42#8) []
      simpa using this
    · simp [prependLine] at hl
      subst hl
      exact encChar_start _ _ _ _

/-! ### Line lengths -/

/-- Lengths: `n` bytes of the first line are already there. -/
def GoodLengths (ls : Nat) : Nat → List (List Byte) → Prop
  | _, [] => True
  | n, [l] => n + l.length ≤ ls + 1
  | n, l :: m :: ms => (n + l.length = ls ∨ n + l.length = ls + 1) ∧ GoodLengths ls 0 (m :: ms)

theorem GoodLengths_prepend (ls n : Nat) (s : List Byte) (L : List (List Byte)) (hne : L ≠ []) :
    GoodLengths ls n (prependLine s L) ↔ GoodLengths ls (n + s.length) L := by
  rcases L with _ | ⟨l, _ | ⟨m, ms⟩⟩
  · exact absurd rfl hne
  · simp [prependLine, GoodLengths, Nat.add_assoc]
  · simp [prependLine, GoodLengths, Nat.add_assoc]

theorem encLines_lengths (ls : Nat) (hls : 1 ≤ ls) (fin : Bool) (col : Nat) (hcol : col ≤ ls + 1) (src : List Byte) :
    GoodLengths ls col (encLines ls fin col src) := by
  induction src generalizing col with
  | nil => simp [encLines, GoodLengths]; omega
  | cons c cs ih =>
    unfold encLines
    split
    · generalize hs : Spec.encChar ls 0 (fin && cs.isEmpty) (c + 42#8) = s
      have h4 := encChar_length ls 0 (fin && cs.isEmpty) (c + 42#8)
      rw [hs] at h4
      have h5 := (GoodLengths_prepend ls 0 s _ (encLines_ne_nil ls fin s.length cs)).mpr (by simpa using ih s.length (by omega))
      generalize hL : prependLine s (encLines ls fin s.length cs) = L at *
      rcases L with _ | ⟨m, ms⟩
      · exact absurd hL (prependLine_ne_nil _ _)
      · refine ⟨?_, h5⟩
        simp; omega
    · have h4 := encChar_length ls col (fin && cs.isEmpty) (c + 42#8)
      rw [GoodLengths_prepend _ _ _ _ (encLines_ne_nil _ _ _ _)]
      exact ih _ (by omega)

/-! ### Line ends -/

/-- The line is empty or ends with a byte other than tab and space. -/
def GoodEnd (l : List Byte) : Prop := ∀ b ∈ l.getLast?, b ≠ TAB ∧ b ≠ SP

/-- All lines end well; for `fin = false` the last one is exempt. -/
def GoodEnds (fin : Bool) : List (List Byte) → Prop
  | [] => True
  | [l] => fin = true → GoodEnd l
  | l :: m :: ms => GoodEnd l ∧ GoodEnds fin (m :: ms)

theorem GoodEnd_append (s l : List Byte) (h : l ≠ [] ) (hl : GoodEnd l) : GoodEnd (s ++ l) := by
  unfold GoodEnd at *
  rw [List.getLast?_append, List.getLast?_eq_some_getLast h] at *; simpa using hl

/-- A character at the end of a line, or at the end of the message, ends well. -/
theorem encChar_end (ls col : Nat) (last : Bool) (e : Byte)
    (h : last = true ∨ col = 0 ∨ ls ≤ col + (Spec.encChar ls col last e).length) (hc : col < ls) :
    GoodEnd (Spec.encChar ls col last e) := by
  rcases encChar_cases ls col last e with ⟨hm, h'⟩ | ⟨hm, h'⟩
  · have := escape_domain hm
    rw [h']; intro b hb; simp at hb; subst hb
    rcases this with rfl | rfl | rfl | rfl | rfl | rfl | rfl <;> decide
  · rw [h'] at h ⊢
    intro b hb; simp at hb; subst hb
    simp [Spec.mustEscape] at hm
    have : (col = 0 ∨ col + 1 = ls ∨ last = true) := by
      rcases h with h | h | h
      · exact Or.inr (Or.inr h)
      · exact Or.inl h
      · simp at h; exact Or.inr (Or.inl (by omega))
    constructor
    · rintro rfl; simp at hm; rcases this with h | h | h <;> simp_all
    · rintro rfl; simp at hm; rcases this with h | h | h <;> simp_all

theorem encLines_ends (ls : Nat) (hls : 1 ≤ ls) (fin : Bool) (col : Nat) (src : List Byte) :
    GoodEnds fin (encLines ls fin col src) := by
  have key : ∀ (col : Nat) (c : Byte) (cs : List Byte), col < ls →
      (∀ col, GoodEnds fin (encLines ls fin col cs)) →
      GoodEnds fin (prependLine (Spec.encChar ls col (fin && cs.isEmpty) (c + 42#8))
        (encLines ls fin (col + (Spec.encChar ls col (fin && cs.isEmpty) (c + 42#8)).length) cs)) := by
    intro col c cs hcol ih
    have h1 := ih (col + (Spec.encChar ls col (fin && cs.isEmpty) (c + 42#8)).length)
    have h2 := encChar_end ls col (fin && cs.isEmpty) (c + 42#8)
    have h3 : ∀ n, cs ≠ [] → ls ≤ n → ∃ L, encLines ls fin n cs = [] :: L ∧ L ≠ [] := by
      intro n hne hn
      rcases cs with _ | ⟨d, ds⟩
      · exact absurd rfl hne
      · refine ⟨_, by unfold encLines; rw [if_pos hn], prependLine_ne_nil _ _⟩
    have h4 : ∀ n, n < ls → cs ≠ [] → ∃ m ms, encLines ls fin n cs = m :: ms ∧ m ≠ [] := by
      intro n hn hne
      rcases cs with _ | ⟨d, ds⟩
      · exact absurd rfl hne
      · unfold encLines; rw [if_neg (by omega)]
        have := encChar_length ls n (fin && ds.isEmpty) (d + 42#8)
        generalize encLines ls fin _ ds = L
        generalize Spec.encChar ls n (fin && ds.isEmpty) (d + 42#8) = t at *
        rcases t with _ | ⟨t0, ts⟩
        · simp at this
        · rcases L with _ | ⟨m, ms⟩
          · exact ⟨_, _, rfl, by simp⟩
          · exact ⟨_, _, rfl, by simp⟩
    generalize hs : Spec.encChar ls col (fin && cs.isEmpty) (c + 42#8) = s at *
    by_cases hcs : cs = []
    · subst hcs
      simp only [encLines, prependLine, GoodEnds, List.append_nil]
      intro hf
      exact h2 (Or.inl (by simp [hf])) hcol
    · by_cases hn : ls ≤ col + s.length
      · obtain ⟨L, hL, hLne⟩ := h3 _ hcs hn
        rw [hL] at h1 ⊢
        rcases L with _ | ⟨m, ms⟩
        · exact absurd rfl hLne
        simp only [prependLine, GoodEnds, List.append_nil] at h1 ⊢
        exact ⟨h2 (Or.inr (Or.inr hn)) hcol, h1.2⟩
      · obtain ⟨m, ms, hL, hm⟩ := h4 (col + s.length) (by omega) hcs
        rw [hL] at h1 ⊢
        rcases ms with _ | ⟨x, xs⟩
        · simp only [prependLine, GoodEnds] at h1 ⊢
          exact fun hf => GoodEnd_append _ _ hm (h1 hf)
        · simp only [prependLine, GoodEnds] at h1 ⊢
          exact ⟨GoodEnd_append _ _ hm h1.1, h1.2⟩
  induction src generalizing col with
  | nil => simp [encLines, GoodEnds, GoodEnd]
  | cons c cs ih =>
    unfold encLines
    split
    · have h := key 0 c cs (by omega) ih
      simp only [Nat.zero_add] at h
      generalize prependLine _ _ = L at *
      rcases L with _ | ⟨m, ms⟩
      · simp [GoodEnds, GoodEnd]
      · exact ⟨by simp [GoodEnd], h⟩
    · exact key col c cs (by omega) ih

/-- The last line is never empty (for non-empty input). -/
theorem encLines_last_ne_nil (ls : Nat) (hls : 1 ≤ ls) (fin : Bool) (col : Nat) (src : List Byte) (hne : src ≠ []) :
    ∀ l ∈ (encLines ls fin col src).getLast?, l ≠ [] := by
  induction src generalizing col with
  | nil => exact absurd rfl hne
  | cons c cs ih =>
    have key : ∀ col n, ∀ l ∈ (prependLine (Spec.encChar ls col (fin && cs.isEmpty) (c + 42#8)) (encLines ls fin n cs)).getLast?, l ≠ [] := by
      intro col n l hl
      have h4 := encChar_length ls col (fin && cs.isEmpty) (c + 42#8)
      generalize Spec.encChar ls col (fin && cs.isEmpty) (c + 42#8) = s at *
      by_cases hcs : cs = []
      · subst hcs
        simp [encLines, prependLine] at hl
        subst hl
        intro h0; rw [h0] at h4; simp at h4
      · have h5 := ih n hcs l
        generalize hL : encLines ls fin n cs = L at *
        rcases L with _ | ⟨m, _ | ⟨m2, ms⟩⟩
        · exact absurd hL (encLines_ne_nil _ _ _ _)
        · simp [prependLine] at hl
          subst hl
          intro h0; rw [List.append_eq_nil_iff] at h0; rw [h0.1] at h4; simp at h4
        · simp only [prependLine, List.getLast?_cons_cons] at hl h5
          exact h5 hl
    unfold encLines
    split
    · intro l hl
      have := key 0 (Spec.encChar ls 0 (fin && cs.isEmpty) (c + 42#8)).length l
      generalize hL : prependLine _ _ = L at *
      rcases L with _ | ⟨m, ms⟩
      · exact absurd hL (prependLine_ne_nil _ _)
      · simp only [List.getLast?_cons_cons] at hl
        exact this hl
    · exact key _ _

end Yenc.Enc
