import Verif.Lemmas.EncSize
import Mathlib.Data.List.Basic
/-! The decoders as a small automaton, and how it falls into step again after a damaged place. -/
namespace Yenc.Dmg
open Yenc

/-- The end of what was read: a line break, a CR, anything else. -/
inductive K where
  | o | cr | crlf
deriving DecidableEq

def K.next (k : K) (c : Byte) : K := if c = CR then .cr else if k = .cr ∧ c = LF then .crlf else .o

/-- Line position, and whether an escape character was read. -/
structure S where
  k : K
  esc : Bool
deriving DecidableEq

def step (strip : Bool) (s : S) (c : Byte) : List Byte × S :=
  if strip = true ∧ s.k = .crlf ∧ c = DOT then ([], ⟨.o, s.esc⟩)
  else if s.esc = true then ([c - 106#8], ⟨s.k.next c, false⟩)
  else if c = CR ∨ c = LF then ([], ⟨s.k.next c, false⟩)
  else if c = EQ then ([], ⟨s.k.next c, true⟩)
  else ([c - 42#8], ⟨s.k.next c, false⟩)

def out (strip : Bool) : S → List Byte → List Byte
  | _, [] => []
  | s, c :: cs => (step strip s c).1 ++ out strip (step strip s c).2 cs

def fin (strip : Bool) : S → List Byte → S
  | s, [] => s
  | s, c :: cs => fin strip (step strip s c).2 cs

theorem out_append (strip : Bool) (s : S) (a b : List Byte) : out strip s (a ++ b) = out strip s a ++ out strip (fin strip s a) b := by
  induction a generalizing s with
  | nil => rfl
  | cons c a ih => simp [out, fin, ih]

theorem fin_append (strip : Bool) (s : S) (a b : List Byte) : fin strip s (a ++ b) = fin strip (fin strip s a) b := by
  induction a generalizing s with
  | nil => rfl
  | cons c a ih => simp [fin, ih]

theorem step_length (strip : Bool) (s : S) (c : Byte) : (step strip s c).1.length ≤ 1 := by
  unfold step
  split
  · simp
  split
  · simp
  split
  · simp
  split <;> simp

theorem out_length (strip : Bool) (s : S) (a : List Byte) : (out strip s a).length ≤ a.length := by
  induction a generalizing s with
  | nil => simp [out]
  | cons c a ih =>
    have := ih (step strip s c).2
    have := step_length strip s c
    simp only [out, List.length_append, List.length_cons]
    omega

/-! ### The reference decoder -/

def kOf (p q : Byte) : K := if p = CR ∧ q = LF then .crlf else if q = CR then .cr else .o

def yFrom (esc : Bool) (l : List Byte) : List Byte := if esc then (match l with | [] => [] | d :: ds => (d - 106#8) :: Spec.yDecode ds) else Spec.yDecode l

theorem yDecode_cons (c : Byte) (cs : List Byte) : Spec.yDecode (c :: cs) =
    if c = CR ∨ c = LF then Spec.yDecode cs else if c = EQ then yFrom true cs else (c - 42#8) :: Spec.yDecode cs := by
  unfold yFrom
  simp only [if_true]
  conv => lhs; unfold Spec.yDecode
  rfl

theorem kOf_next (p q c : Byte) : kOf q c = (kOf p q).next c := by
  unfold kOf K.next
  by_cases h1 : c = CR
  · subst h1; simp
  · by_cases h2 : c = LF
    · subst h2
      by_cases h3 : q = CR
      · subst h3; simp
      · by_cases h4 : p = CR ∧ q = LF
        · simp [h3, h4]
        · simp [h3, h4]
    · simp [h1, h2]

theorem out_true (p q : Byte) (esc : Bool) (l : List Byte) : out true ⟨kOf p q, esc⟩ l = yFrom esc (Spec.unstuffAux p q l) := by
  induction l generalizing p q esc with
  | nil => cases esc <;> simp [out, yFrom, Spec.unstuffAux, Spec.yDecode]
  | cons c l ih =>
    have hk : kOf p q = .crlf ↔ p = CR ∧ q = LF := by
      unfold kOf; by_cases h : p = CR ∧ q = LF
      · simp [h]
      · rw [if_neg h]; split <;> simp [h]
    by_cases hd : p = CR ∧ q = LF ∧ c = DOT
    · have hk' := hk.2 ⟨hd.1, hd.2.1⟩
      obtain ⟨rfl, rfl, rfl⟩ := hd
      have := ih LF DOT esc
      rw [show kOf LF DOT = .o by decide] at this
      simp [out, step, hk', this, Spec.unstuffAux]
    · have hn : ¬ (True ∧ kOf p q = .crlf ∧ c = DOT) := by rw [hk]; tauto
      rw [Spec.unstuffAux, if_neg hd]
      simp only [out, step]
      rw [if_neg hn]
      cases esc with
      | true =>
        simp only [if_true, List.cons_append, List.nil_append]
        rw [← kOf_next, ih]
        simp [yFrom]
      | false =>
        simp only [Bool.false_eq_true, if_false]
        rw [show ∀ l, yFrom false l = Spec.yDecode l from fun _ => rfl, yDecode_cons]
        by_cases h1 : c = CR ∨ c = LF
        · rw [if_pos h1, if_pos h1]
          simp only [List.nil_append]
          rw [← kOf_next, ih]; simp [yFrom]
        rw [if_neg h1, if_neg h1]
        by_cases h2 : c = EQ
        · rw [if_pos h2, if_pos h2]
          simp only [List.nil_append]
          rw [← kOf_next, ih]
        rw [if_neg h2, if_neg h2]
        simp only [List.cons_append, List.nil_append]
        rw [← kOf_next, ih]; simp [yFrom]

theorem out_false (k : K) (esc : Bool) (l : List Byte) : out false ⟨k, esc⟩ l = yFrom esc l := by
  induction l generalizing k esc with
  | nil => cases esc <;> simp [out, yFrom, Spec.yDecode]
  | cons c l ih =>
    simp only [out, step, Bool.false_eq_true, false_and, if_false]
    cases esc with
    | true => simp [ih, yFrom]
    | false =>
      rw [show ∀ l, yFrom false l = Spec.yDecode l from fun _ => rfl, yDecode_cons]
      simp only [Bool.false_eq_true, if_false]
      by_cases h1 : c = CR ∨ c = LF
      · rw [if_pos h1, if_pos h1]; simp [ih, yFrom]
      rw [if_neg h1, if_neg h1]
      by_cases h2 : c = EQ
      · rw [if_pos h2, if_pos h2]; simp [ih, yFrom]
      rw [if_neg h2, if_neg h2]; simp [ih, yFrom]

theorem decode_eq (strip : Bool) (l : List Byte) : Spec.decode strip l = out strip ⟨.crlf, false⟩ l := by
  cases strip with
  | false => rw [out_false]; simp [Spec.decode, yFrom]
  | true =>
    have := out_true CR LF false l
    rw [show kOf CR LF = .crlf by decide] at this
    rw [this]; simp [Spec.decode, Spec.unstuff, yFrom]

/-! ### Encoded data -/

/-- What the encoder guarantees from the second byte on, given the line position and whether an escape character came before. -/
def good : S → List Byte → Prop
  | _, [] => True
  | s, c :: cs => (s.esc = true → c ≠ EQ ∧ c ≠ CR ∧ c ≠ LF) ∧ (c = LF ↔ s.k = .cr) ∧ (s.k = .crlf → c ≠ DOT) ∧
      good ⟨s.k.next c, c = EQ⟩ cs

theorem good_encChar (ls col : Nat) (last : Bool) (e : Byte) (k : K) (t : List Byte) (hk : (k = .o ∧ 1 ≤ col) ∨ (k = .crlf ∧ col = 0))
    (ht : good ⟨.o, false⟩ t) : good ⟨k, false⟩ (Spec.encChar ls col last e ++ t) := by
  have hkc : k ≠ .cr := by rcases hk with ⟨rfl, _⟩ | ⟨rfl, _⟩ <;> simp
  rcases Enc.encChar_cases ls col last e with ⟨hm, h⟩ | ⟨hm, h⟩
  · rw [h]
    have hd := Enc.escape_domain hm
    have key : e + 64#8 ≠ EQ ∧ e + 64#8 ≠ CR ∧ e + 64#8 ≠ LF ∧ e + 64#8 ≠ DOT := by
      rcases hd with rfl | rfl | rfl | rfl | rfl | rfl | rfl <;> decide
    simp only [List.cons_append, List.nil_append, good]
    have e1 : k.next EQ = .o := by simp [K.next]
    refine ⟨by simp, by simp [hkc], fun _ => by decide, ?_⟩
    rw [e1]
    have e2 : K.next .o (e + 64#8) = .o := by simp [K.next, key]
    refine ⟨fun _ => ⟨key.1, key.2.1, key.2.2.1⟩, by simp [key], by simp, ?_⟩
    rw [e2]; simpa [key] using ht
  · rw [h]
    obtain ⟨_, a, b, d⟩ := Enc.not_critical_of_not_mustEscape hm
    simp only [List.cons_append, List.nil_append, good]
    have e2 : k.next e = .o := by simp [K.next, a, b]
    refine ⟨by simp, by simp [b, hkc], ?_, ?_⟩
    · intro hc
      rcases hk with ⟨rfl, _⟩ | ⟨_, rfl⟩
      · simp at hc
      · rintro rfl; simp [Spec.mustEscape] at hm
    · rw [e2]; simpa [d] using ht

theorem encChar_pos (ls col : Nat) (last : Bool) (e : Byte) : 1 ≤ (Spec.encChar ls col last e).length := by
  rcases Enc.encChar_cases ls col last e with ⟨_, h⟩ | ⟨_, h⟩ <;> simp [h]

theorem good_encode (ls : Nat) (h1 : 1 ≤ ls) (fin : Bool) (col : Nat) (l : List Byte) (k : K) (hk : (k = .o ∧ 1 ≤ col) ∨ (k = .crlf ∧ col = 0)) :
    good ⟨k, false⟩ (Spec.encode ls fin col l) := by
  induction l generalizing col k with
  | nil => simp [Spec.encode, good]
  | cons c cs ih =>
    by_cases h : ls ≤ col
    · rw [Enc.encode_cons_ge _ _ _ _ _ h]
      have hk0 : k = .o := by rcases hk with ⟨h, _⟩ | ⟨_, h⟩; exact h; omega
      subst hk0
      have := good_encChar ls 0 (fin && cs.isEmpty) (c + 42#8) .crlf _ (.inr ⟨rfl, rfl⟩) (ih _ .o (.inl ⟨rfl, encChar_pos ls 0 (fin && cs.isEmpty) (c + 42#8)⟩))
      simp only [good, K.next]
      simpa using this
    · rw [Enc.encode_cons_lt _ _ _ _ _ (by omega)]
      apply good_encChar ls col _ _ k _ hk
      exact ih _ .o (.inl ⟨rfl, by have := encChar_pos ls col (fin && cs.isEmpty) (c + 42#8); omega⟩)

/-- In encoded data no dot is removed and no line break or `=` is escaped, so the state of the decoder is the one `good` speaks of. -/
theorem good_step (strip : Bool) (s : S) (c : Byte) (cs : List Byte) (h : good s (c :: cs)) : good (step strip s c).2 cs := by
  obtain ⟨h1, h2, h3, h4⟩ := h
  unfold step
  have hd : ¬ (strip = true ∧ s.k = .crlf ∧ c = DOT) := fun hh => h3 hh.2.1 hh.2.2
  rw [if_neg hd]
  by_cases he : s.esc = true
  · rw [if_pos he]
    simpa [(h1 he).1] using h4
  rw [if_neg he]
  by_cases hb : c = CR ∨ c = LF
  · rw [if_pos hb]
    have : c ≠ EQ := by rcases hb with rfl | rfl <;> decide
    simpa [this] using h4
  rw [if_neg hb]
  by_cases hq : c = EQ
  · rw [if_pos hq]; simpa [hq] using h4
  · rw [if_neg hq]; simpa [hq] using h4

theorem good_fin (strip : Bool) (s : S) (a b : List Byte) (h : good s (a ++ b)) : good (fin strip s a) b := by
  induction a generalizing s with
  | nil => exact h
  | cons c a ih => exact ih _ (good_step strip s c _ h)

/-- Right after a line break or CR no escape is pending. -/
def S.ok (s : S) : Prop := s.k ≠ .o → s.esc = false

theorem ok_step (strip : Bool) (s : S) (c : Byte) (h : s.ok) : (step strip s c).2.ok := by
  unfold step
  split
  · intro h; simp at h
  split
  · intro _; rfl
  split
  · intro _; rfl
  split
  · rename_i hq; subst hq; intro h; simp [K.next] at h
  · intro _; rfl

theorem ok_fin (strip : Bool) (s : S) (a : List Byte) (h : s.ok) : (fin strip s a).ok := by
  induction a generalizing s with
  | nil => exact h
  | cons c a ih => exact ih _ (ok_step strip s c h)

/-- Whatever the two states: two bytes of encoded data later they are the same. -/
theorem sync2 (strip : Bool) (s t : S) (c d : Byte) (hs : s.ok) (ht : t.ok) (h : good s [c, d]) : fin strip s [c, d] = fin strip t [c, d] := by
  obtain ⟨k1, e1⟩ := s
  obtain ⟨k2, e2⟩ := t
  obtain ⟨h1, h2, h3, g1, g2, g3, _⟩ := h
  simp only [S.ok] at hs ht
  simp only at h1 h2 h3 g1 g2 g3
  simp only [fin]
  have hd : ¬ (strip = true ∧ k1 = .crlf ∧ c = DOT) := fun hh => h3 hh.2.1 hh.2.2
  by_cases c1 : c = CR
  · subst c1
    have a1 : (step strip ⟨k1, e1⟩ CR).2 = ⟨.cr, false⟩ := by cases e1 <;> simp [step, K.next]
    have a2 : (step strip ⟨k2, e2⟩ CR).2 = ⟨.cr, false⟩ := by cases e2 <;> simp [step, K.next]
    rw [a1, a2]
  by_cases c2 : c = LF
  · subst c2
    have hk : k1 = .cr := h2.1 rfl
    subst hk
    have d1 : d ≠ LF := by simpa [K.next] using g2
    have d2 : d ≠ DOT := by simpa [K.next] using g3
    have a1 : (step strip ⟨.cr, e1⟩ LF).2 = ⟨.crlf, false⟩ := by cases e1 <;> simp [step, K.next]
    have a2 : ∃ k, (step strip ⟨k2, e2⟩ LF).2 = ⟨k, false⟩ := by cases e2 <;> simp [step]
    obtain ⟨k, a2⟩ := a2
    rw [a1, a2]
    simp only [step, d2, and_false, if_false, Bool.false_eq_true, K.next, d1]
  by_cases c3 : c = EQ
  · subst c3
    have dd : d ≠ EQ ∧ d ≠ CR ∧ d ≠ LF := by simpa using g1
    have a : ∀ k e, ∃ e', (step strip ⟨k, e⟩ EQ).2 = ⟨.o, e'⟩ := by
      intro k e; cases e <;> simp [step, K.next]
    obtain ⟨x, a1⟩ := a k1 e1
    obtain ⟨y, a2⟩ := a k2 e2
    rw [a1, a2]
    cases x <;> cases y <;> simp [step, K.next, dd]
  · have a : ∀ k e, ((k ≠ .o → e = false)) → (step strip ⟨k, e⟩ c).2 = ⟨.o, false⟩ := by
      intro k e hk
      unfold step
      split
      · rename_i hh
        simp only [S.mk.injEq, true_and]
        have hh2 : k = .crlf := hh.2.1
        exact hk (by rw [hh2]; simp)
      · cases e <;> simp [K.next, c1, c2, c3]
    rw [a k1 e1 hs, a k2 e2 ht]

/-- A plain byte of encoded data brings the states together at once. -/
theorem sync1 (strip : Bool) (t : S) (c : Byte) (ht : t.ok) (c1 : c ≠ CR) (c2 : c ≠ LF) (c3 : c ≠ EQ) : (step strip t c).2 = ⟨.o, false⟩ := by
  obtain ⟨k, e⟩ := t
  simp only [S.ok] at ht
  unfold step
  split
  · rename_i hh
    have hh2 : k = .crlf := hh.2.1
    simp only [S.mk.injEq, true_and]
    exact ht (by rw [hh2]; simp)
  · cases e <;> simp [K.next, c1, c2, c3]

theorem sync (strip : Bool) (s t : S) (b : List Byte) (hs : s.ok) (ht : t.ok) (h : good s b) :
    ∃ m m' r, out strip s b = m ++ r ∧ out strip t b = m' ++ r ∧ m.length ≤ 1 ∧ m'.length ≤ 2 ∧ (b = [] → m = [] ∧ m' = [] ∧ r = []) := by
  match b, h with
  | [], _ => exact ⟨[], [], [], rfl, rfl, by simp, by simp, by simp⟩
  | [c], _ =>
    have a := out_length strip s [c]
    have b := out_length strip t [c]
    simp only [List.length_singleton] at a b
    exact ⟨_, _, [], (List.append_nil _).symm, (List.append_nil _).symm, by omega, by omega, by simp⟩
  | c :: d :: r, h =>
    by_cases hc : c = CR ∨ c = LF ∨ c = EQ
    · have h' : good s [c, d] := ⟨h.1, h.2.1, h.2.2.1, h.2.2.2.1, h.2.2.2.2.1, h.2.2.2.2.2.1, trivial⟩
      have e := sync2 strip s t c d hs ht h'
      refine ⟨out strip s [c, d], out strip t [c, d], out strip (fin strip s [c, d]) r, ?_, ?_, ?_, out_length strip t [c, d], by simp⟩
      · rw [← out_append]; rfl
      · rw [e, ← out_append]; rfl
      · have hne : s.esc = false := by
          cases hx : s.esc with
          | false => rfl
          | true => have := h.1 hx; tauto
        have hnil : (step strip s c).1 = [] := by
          unfold step
          rw [hne]
          rcases hc with rfl | rfl | rfl <;> simp
        have := out_length strip (step strip s c).2 [d]
        rw [out, hnil, List.nil_append]
        exact this
    · have hn : c ≠ CR ∧ c ≠ LF ∧ c ≠ EQ := by tauto
      have e1 := sync1 strip s c hs hn.1 hn.2.1 hn.2.2
      have e2 := sync1 strip t c ht hn.1 hn.2.1 hn.2.2
      refine ⟨(step strip s c).1, (step strip t c).1, out strip ⟨.o, false⟩ (d :: r), ?_, ?_, step_length _ _ _, ?_, by simp⟩
      · rw [out, e1]
      · rw [out, e2]
      · have := step_length strip t c; omega

/-- Damage is local, reference decoder. -/
theorem local_spec (strip : Bool) (ls : Nat) (h1 : 1 ≤ ls) (d a u b v : List Byte) (he : Spec.encode ls true 0 d = a ++ u ++ b) :
    ∃ p m m' s, d = p ++ m ++ s ∧ Spec.decode strip (a ++ v ++ b) = p ++ m' ++ s ∧ m.length ≤ u.length + 1 ∧ m'.length ≤ v.length + 2 ∧
      (b = [] → s = [] ∧ m.length ≤ u.length) := by
  have hd : Spec.decode strip (Spec.encode ls true 0 d) = d := by
    cases strip with
    | false => simp [Spec.decode, Enc.yDecode_encode]
    | true => exact Enc.decode_true_encode ls h1 true d
  have hg := good_encode ls h1 true 0 d .crlf (.inr ⟨rfl, rfl⟩)
  have ok0 : S.ok ⟨.crlf, false⟩ := fun _ => rfl
  rw [he] at hg
  have g1 := good_fin strip _ _ _ hg
  have o1 := ok_fin strip _ (a ++ u) ok0
  have o2 := ok_fin strip _ (a ++ v) ok0
  obtain ⟨m, m', r, q1, q2, q3, q4, q5⟩ := sync strip _ _ b o1 o2 g1
  have u1 := out_length strip (fin strip ⟨.crlf, false⟩ a) u
  refine ⟨out strip ⟨.crlf, false⟩ a, out strip (fin strip ⟨.crlf, false⟩ a) u ++ m, out strip (fin strip ⟨.crlf, false⟩ a) v ++ m', r, ?_, ?_, ?_, ?_, ?_⟩
  · rw [← hd, decode_eq, he, out_append, out_append, q1]
    simp [List.append_assoc]
  · rw [decode_eq, out_append, out_append, q2]
    simp [List.append_assoc]
  · simp only [List.length_append]; omega
  · have := out_length strip (fin strip ⟨.crlf, false⟩ a) v
    simp only [List.length_append]; omega
  · intro hb
    obtain ⟨rfl, _, rfl⟩ := q5 hb
    simpa using u1

/-- The last byte of encoded data is neither CR nor LF. -/
theorem encode_last (ls : Nat) (fin : Bool) (col : Nat) (h1 : 1 ≤ ls) (d : List Byte) (x : List Byte) (c : Byte) (h : Spec.encode ls fin col d = x ++ [c]) :
    c ≠ CR ∧ c ≠ LF := by
  induction d generalizing col x with
  | nil => simp [Spec.encode] at h
  | cons y ys ih =>
    have key : ∀ (z t : List Byte) col', z ++ Spec.encode ls fin col' ys = x ++ [c] → (ys = [] → ∀ b, z.getLast? = some b → b ≠ CR ∧ b ≠ LF) →
        c ≠ CR ∧ c ≠ LF := by
      intro z t col' hz hl
      rcases List.eq_nil_or_concat (Spec.encode ls fin col' ys) with hn | ⟨w, e, hw⟩
      · have hys : ys = [] := by
          have := Enc.yDecode_encode ls fin col' ys
          rw [hn] at this; simpa [Spec.yDecode] using this.symm
        rw [hn, List.append_nil] at hz
        exact hl hys c (by rw [hz]; simp)
      · rw [List.concat_eq_append] at hw
        rw [hw, ← List.append_assoc] at hz
        have := (List.append_inj' hz rfl).2
        simp only [List.cons.injEq, and_true] at this
        subst this
        exact ih _ _ hw
    have ch : ∀ col last b, (Spec.encChar ls col last (y + 42#8)).getLast? = some b → b ≠ CR ∧ b ≠ LF := by
      intro col last b hb
      rcases Enc.encChar_cases ls col last (y + 42#8) with ⟨hm, h⟩ | ⟨hm, h⟩
      · rw [h] at hb
        have hd := Enc.escape_domain hm
        simp only [List.getLast?_cons_cons, List.getLast?_singleton, Option.some.injEq] at hb
        subst hb
        generalize y + 42#8 = e at *
        rcases hd with rfl | rfl | rfl | rfl | rfl | rfl | rfl <;> decide
      · rw [h] at hb
        obtain ⟨_, a, b', _⟩ := Enc.not_critical_of_not_mustEscape hm
        simp only [List.getLast?_singleton, Option.some.injEq] at hb
        subst hb; exact ⟨a, b'⟩
    by_cases hc : ls ≤ col
    · rw [Enc.encode_cons_ge _ _ _ _ _ hc, ← List.cons_append, ← List.cons_append] at h
      refine key _ [] _ h fun _ b hb => ?_
      have hp := encChar_pos ls 0 (fin && ys.isEmpty) (y + 42#8)
      have hne : Spec.encChar ls 0 (fin && ys.isEmpty) (y + 42#8) ≠ [] := by intro hh; rw [hh] at hp; simp at hp
      rw [show ∀ l : List Byte, CR :: LF :: l = [CR, LF] ++ l from fun _ => rfl, List.getLast?_append_of_ne_nil _ hne] at hb
      exact ch _ _ _ hb
    · rw [Enc.encode_cons_lt _ _ _ _ _ (by omega)] at h
      exact key _ [] _ h fun _ b hb => ch _ _ _ hb

end Yenc.Dmg
