import Verif.Spec.Loose
import Verif.Lemmas.EncBlock
/-! Loose encodings. -/
namespace Yenc.Spec
open Yenc Yenc.Enc Yenc.Enc.Simd
open Yenc.Dec.Simd (cnt cnt_add cnt_le cnt_congr)

theorem mustEscape_of (ls c : Nat) (last : Bool) (e : Byte) (h : mustEscape ls c last e = true) : mustEscape ls 0 false e = true := by
  unfold mustEscape at *
  simp only [Bool.or_eq_true, Bool.and_eq_true, decide_eq_true_eq] at *
  rcases h with (h | h) | h
  · simp [h]
  · simp [h.1]
  · rcases h.1 with h | h <;> simp [h]

theorem esc_last : ∀ e : Byte, mustEscape 5 0 false e = true → e + 64#8 ≠ TAB ∧ e + 64#8 ≠ SP := by decide +kernel

theorem mustEscape_zero (ls ls' : Nat) (e : Byte) : mustEscape ls 0 false e = mustEscape ls' 0 false e := by unfold mustEscape; simp

variable {P : Nat → Prop} {ls col : Nat}

/-- What an escape sequence stands for had to be escaped in some place. -/
theorem esc_of {c : Nat} {e : Byte} {Q : Prop} (h : mustEscape ls c false e = true ∨ (c + 2 = ls ∧ Q ∧ (e = TAB ∨ e = SP))) : mustEscape ls 0 false e = true := by
  rcases h with h | ⟨_, _, h⟩
  · exact mustEscape_of _ _ _ _ h
  · unfold mustEscape; rcases h with h | h <;> simp [h]

theorem Loose.mono {Q : Nat → Prop} {l o : List Byte} {c : Nat} (h : Loose P ls col l o c) (hPQ : ∀ k, P k → Q k) : Loose Q ls col l o c := by
  induction h with
  | nil => exact .nil
  | chr x h hc hx ih => exact ih.chr x hc hx
  | esc x h hc hx ih => exact ih.esc x hc (hx.imp id fun h => ⟨h.1, hPQ _ h.2.1, h.2.2⟩)
  | brk h hc hl ih => exact ih.brk (hc.imp id fun h => ⟨h.1, hPQ _ h.2⟩) hl

/-- A character written as the reference writes it. -/
theorem Loose.char {l o : List Byte} {c : Nat} (h : Loose P ls col l o c) (x : Byte) (hc : c < ls) :
    Loose P ls col (l ++ [x]) (o ++ encChar ls c false (x + 42#8)) (c + (encChar ls c false (x + 42#8)).length) := by
  unfold encChar
  by_cases hm : mustEscape ls c false (x + 42#8) = true
  · rw [if_pos hm]
    exact h.esc x hc (Or.inl hm)
  · rw [if_neg hm]
    exact h.chr x hc (by simpa using hm)

/-- A line that is long enough ends in neither tab nor space. -/
theorem Loose.full {l o : List Byte} {c : Nat} (h : Loose P ls col l o c) (hc : ls ≤ c) : ∀ e, o.getLast? = some e → e ≠ TAB ∧ e ≠ SP := by
  intro e he
  cases h with
  | nil => simp at he
  | chr x h hc' hx =>
    simp at he
    subst he
    unfold mustEscape at hx
    rename_i c0
    have : c0 + 1 = ls := by omega
    simp only [this, decide_true, Bool.or_true, Bool.true_or, Bool.and_true, Bool.or_eq_false_iff, decide_eq_false_iff_not] at hx
    exact hx.2
  | esc x h hc' hx =>
    simp at he
    subst he
    exact esc_last _ (by rw [mustEscape_zero 5 ls]; exact esc_of hx)
  | brk h hc' hl => simp at he; subst he; decide

/-- A line break behind a full line. -/
theorem Loose.eol {l o : List Byte} {c : Nat} (h : Loose P ls col l o c) (hc : ls ≤ c) : Loose P ls col l (o ++ [CR, LF]) 0 :=
  h.brk (Or.inl hc) (h.full hc)

/-- The last character of a line, and the line break, in the last column or one before. -/
theorem Loose.last {l o : List Byte} {c : Nat} (h : Loose P ls col l o c) (x : Byte) (hls : 3 ≤ ls) (hc : c + 1 = ls ∨ (c + 2 = ls ∧ (critical (x + 42#8) = true ∨ P l.length))) :
    Loose P ls col (l ++ [x]) (o ++ ((if critical (x + 42#8) = true ∨ x + 42#8 = TAB ∨ x + 42#8 = SP then [EQ, x + 42#8 + 64#8] else [x + 42#8]) ++ [CR, LF])) 0 := by
  by_cases hx : critical (x + 42#8) = true ∨ x + 42#8 = TAB ∨ x + 42#8 = SP
  · rw [if_pos hx, ← List.append_assoc]
    have := h.esc x (by omega) (by
      by_cases hcr : critical (x + 42#8) = true
      · left; unfold mustEscape; simp [hcr]
      · rcases hc with hc | ⟨hc, hc' | hc'⟩
        · left
          unfold mustEscape
          rcases hx with h | h | h <;> simp [h, hc]
        · exact absurd hc' hcr
        · exact Or.inr ⟨hc, hc', hx.resolve_left hcr⟩)
    exact this.eol (by omega)
  · rw [if_neg hx, ← List.append_assoc]
    simp only [not_or, Bool.not_eq_true] at hx
    have := h.chr x (by omega) (by unfold mustEscape; simp [hx]; omega)
    refine this.brk ?_ ?_
    · rcases hc with hc | ⟨hc, hc' | hc'⟩
      · left; omega
      · rw [hx.1] at hc'; exact absurd hc' (by simp)
      · right; exact ⟨by omega, by simpa using hc'⟩
    · intro e he
      simp at he
      subst he
      exact hx.2

/-- A run of characters that stays on the line. -/
theorem Loose.run {l o : List Byte} {c : Nat} (h : Loose P ls col l o c) (start : Bool) (b : Nat → Byte) (k : Nat) (hs : start = true → c = 0) (hs' : start = false → 1 ≤ c)
    (hk : c + (expand (special start b) b k).length + 1 ≤ ls) :
    Loose P ls col (l ++ (List.range k).map b) (o ++ expand (special start b) b k) (c + (expand (special start b) b k).length) := by
  induction k with
  | zero => simpa [expand_zero] using h
  | succ k ih =>
    have e1 : expand (special start b) b (k + 1) = expand (special start b) b k ++ ech (special start b) b k := by
      simp only [expand, List.range_succ, List.flatMap_append, List.flatMap_cons, List.flatMap_nil, List.append_nil]
    have hpos : 1 ≤ (ech (special start b) b k).length := by unfold ech; split <;> simp
    rw [e1, List.length_append] at hk ⊢
    have i := ih (by omega)
    have hl := expand_length (special start b) b k
    have e2 : ech (special start b) b k = encChar ls (c + (expand (special start b) b k).length) false (b k + 42#8) := by
      by_cases hf : start = true ∧ k = 0
      · obtain ⟨rfl, rfl⟩ := hf
        rw [expand_zero, hs rfl, ← encChar_first]; rfl
      · have hc1 : 1 ≤ c + (expand (special start b) b k).length := by
          cases start with
          | true => have : k ≠ 0 := fun h => hf ⟨rfl, h⟩; omega
          | false => have := hs' rfl; omega
        rw [encChar_mid ls _ _ hc1 (by omega)]
        unfold ech special mid
        have : b k + 42#8 + 64#8 = b k + 106#8 := by rw [BitVec.add_assoc]; rfl
        have hz : (start && k == 0) = false := by
          cases start
          · rfl
          · have : k ≠ 0 := fun h => hf ⟨rfl, h⟩
            simp [this]
        rw [hz, this]; simp
    have := i.char (b k) (by omega)
    rw [e2]
    rw [List.range_succ, List.map_append, List.map_cons, List.map_nil, ← List.append_assoc, ← List.append_assoc, ← Nat.add_assoc]
    exact this

/-- The reference encoding is one. -/
theorem Loose.encode {l o : List Byte} {c : Nat} (hls : 1 ≤ ls) (h : Loose P ls col l o c) (r : List Byte) :
    Loose P ls col (l ++ r) (o ++ Spec.encode ls false c r) (endCol ls false c r) := by
  induction r generalizing l o c with
  | nil => simpa [Spec.encode, endCol] using h
  | cons x r ih =>
    by_cases hc : ls ≤ c
    · rw [encode_cons_ge ls false c x r hc, endCol_cons_ge ls false c x r hc]
      have := ih ((h.eol hc).char x (by omega))
      simp only [Nat.zero_add] at this
      simpa using this
    · rw [encode_cons_lt ls false c x r (by omega), endCol_cons_lt ls false c x r (by omega)]
      have := ih (h.char x (by omega))
      simpa using this

/-- If no line may be short, it is the only one. -/
theorem Loose.exact {l o : List Byte} {c : Nat} (h : Loose P ls col l o c) (hls : 1 ≤ ls) (hP : ∀ k, ¬ P k) :
    (∀ r, r ≠ [] ∨ 1 ≤ c ∨ o = [] → o ++ Spec.encode ls false c r = Spec.encode ls false col (l ++ r) ∧ endCol ls false c r = endCol ls false col (l ++ r)) := by
  induction h with
  | nil => intro r _; simp
  | chr x h hc hx ih =>
    intro r _
    have h1 := ih (x :: r) (Or.inl (by simp))
    rw [encode_cons_lt ls false _ x r hc, endCol_cons_lt ls false _ x r hc] at h1
    simp only [Bool.false_and, encChar, hx] at h1
    simp only [List.append_assoc, List.singleton_append]; rw [← h1.1, ← h1.2]
    simp
  | esc x h hc hx ih =>
    intro r _
    have h1 := ih (x :: r) (Or.inl (by simp))
    rw [encode_cons_lt ls false _ x r hc, endCol_cons_lt ls false _ x r hc] at h1
    rcases hx with hx | hx
    · simp only [Bool.false_and, encChar, hx] at h1
      simp only [List.append_assoc, List.singleton_append]; rw [← h1.1, ← h1.2]
      simp
    · exact absurd hx.2.1 (hP _)
  | brk h hc hl ih =>
    intro r hr
    replace hr : r ≠ [] := by rcases hr with h | h | h <;> simp_all
    obtain ⟨y, r, rfl⟩ := List.exists_cons_of_ne_nil hr
    have h1 := ih (y :: r) (Or.inl (by simp))
    rcases hc with hc | hc
    · rw [encode_cons_ge ls false _ y r hc, endCol_cons_ge ls false _ y r hc] at h1
      rw [encode_cons_lt ls false 0 y r (by omega), endCol_cons_lt ls false 0 y r (by omega)]
      rw [← h1.1, ← h1.2]
      simp
    · exact absurd hc.2 (hP _)

/-- The column never gets far beyond the end of the line. -/
theorem Loose.col_le {l o : List Byte} {c : Nat} (h : Loose P ls col l o c) (hc : col ≤ ls + 1) : c ≤ ls + 1 := by
  cases h <;> omega

/-- A final tab or space was written as it is. -/
theorem Loose.final {l a : List Byte} {lc : Byte} {c : Nat} (h : Loose P ls col l (a ++ [lc]) c) (hl : lc = TAB ∨ lc = SP) :
    ∃ l' x c', l = l' ++ [x] ∧ lc = x + 42#8 ∧ Loose P ls col l' a c' ∧ c = c' + 1 ∧ c < ls := by
  have hfull := h.full
  generalize ho : a ++ [lc] = o at h
  cases h with
  | nil => simp at ho
  | chr x h hc hx =>
    obtain ⟨rfl, h1⟩ := List.append_inj' ho rfl
    simp only [List.cons.injEq, and_true] at h1
    subst h1
    refine ⟨_, x, _, rfl, rfl, h, rfl, ?_⟩
    apply Decidable.byContradiction
    intro hge
    have := hfull (by omega) (x + 42#8) (by simp)
    rcases hl with h | h
    · exact this.1 h
    · exact this.2 h
  | esc x h hc hx =>
    have h1 := congrArg List.getLast? ho
    simp at h1
    have := esc_last _ (by rw [mustEscape_zero 5 ls]; exact esc_of hx)
    rw [← h1] at this
    rcases hl with h | h <;> simp [h] at this
  | brk h hc hl' =>
    have h1 := congrArg List.getLast? ho
    simp at h1
    subst h1
    rcases hl with h | h <;> simp [LF, TAB, SP] at h

/-- Decoding gives back the data. -/
theorem Loose.decode {l o : List Byte} {c : Nat} (h : Loose P ls col l o c) (r : List Byte) : yDecode (o ++ r) = l ++ yDecode r := by
  induction h generalizing r with
  | nil => simp
  | chr x h hc hx ih =>
    rw [List.append_assoc, ih, List.append_assoc]
    congr 1
    unfold mustEscape at hx
    simp only [Bool.or_eq_false_iff] at hx
    have hcr := hx.1.1
    unfold critical at hcr
    simp only [Bool.or_eq_false_iff, decide_eq_false_iff_not] at hcr
    obtain ⟨⟨⟨_, h1⟩, h2⟩, h3⟩ := hcr
    simp only [List.cons_append, List.nil_append]
    rw [yDecode.eq_def]
    simp only [h1, h2, h3, or_self, if_false, List.cons.injEq, and_true]
    rw [BitVec.add_sub_cancel]
  | esc x h hc hx ih =>
    rw [List.append_assoc, ih, List.append_assoc]
    congr 1
    simp only [List.cons_append, List.nil_append]
    rw [yDecode.eq_def]
    simp only [show EQ ≠ CR by decide, show EQ ≠ LF by decide, or_self, if_false, if_true, List.cons.injEq, and_true]
    rw [BitVec.add_assoc]
    exact BitVec.add_sub_cancel _ _
  | brk h hc hl ih =>
    rw [List.append_assoc, ih]
    congr 1
    simp only [List.cons_append, List.nil_append]
    rw [yDecode.eq_def]
    simp only [true_or, if_true]
    rw [yDecode.eq_def]
    simp
end Yenc.Spec

namespace Yenc.Spec
open Yenc
variable {P : Nat → Prop} {ls col : Nat}

theorem esc_nul : ∀ e : Byte, mustEscape 5 0 false e = true → e + 64#8 ≠ 0#8 ∧ e + 64#8 ≠ CR := by decide +kernel

/-- No NUL is written. -/
theorem Loose.noNul {l o : List Byte} {c : Nat} (h : Loose P ls col l o c) : 0#8 ∉ o := by
  induction h with
  | nil => simp
  | chr x h hc hx ih =>
    intro hm
    rcases List.mem_append.mp hm with hm | hm
    · exact ih hm
    · simp only [List.mem_singleton] at hm
      rw [← hm] at hx
      simp [mustEscape, critical, NUL] at hx
  | esc x h hc hx ih =>
    intro hm
    rcases List.mem_append.mp hm with hm | hm
    · exact ih hm
    · simp only [List.mem_cons, List.not_mem_nil, or_false] at hm
      rcases hm with hm | hm
      · exact absurd hm (by decide)
      · exact (esc_nul _ (by rw [mustEscape_zero 5 ls]; exact esc_of hx)).1 hm.symm
  | brk h hc hl ih =>
    intro hm
    rcases List.mem_append.mp hm with hm | hm
    · exact ih hm
    · revert hm; decide

/-- The limits on a part of the text without line breaks: at the end, and anywhere. -/
def Limits (o : List Byte) (c m : Nat) : Prop :=
  (∀ a b, o = a ++ b → CR ∉ b → LF ∉ b → b.length ≤ c) ∧ ∀ a b z, o = a ++ b ++ z → CR ∉ b → LF ∉ b → b.length ≤ m

theorem Limits.snoc {o : List Byte} {c m : Nat} (h : Limits o c m) (e : Byte) (hc : c + 1 ≤ m) : Limits (o ++ [e]) (c + 1) m := by
  have h1 : ∀ a b, o ++ [e] = a ++ b → CR ∉ b → LF ∉ b → b.length ≤ c + 1 := by
    intro a b hab hcr hlf
    rcases b.eq_nil_or_concat with rfl | ⟨b', y, rfl⟩
    · simp
    · rw [List.concat_eq_append, ← List.append_assoc] at hab
      have := h.1 a b' (List.append_inj' hab rfl).1 (fun h => hcr (by simp [h])) (fun h => hlf (by simp [h]))
      simp; omega
  refine ⟨h1, fun a b z hab hcr hlf => ?_⟩
  rcases z.eq_nil_or_concat with rfl | ⟨z', y, rfl⟩
  · have := h1 a b (by simpa using hab) hcr hlf
    omega
  · rw [List.concat_eq_append, ← List.append_assoc] at hab
    exact h.2 a b z' (List.append_inj' hab rfl).1 hcr hlf

/-- A byte of a line break. -/
theorem Limits.brk {o : List Byte} {c m : Nat} (h : Limits o c m) (e : Byte) (he : e = CR ∨ e = LF) : Limits (o ++ [e]) 0 m := by
  have h1 : ∀ a b, o ++ [e] = a ++ b → CR ∉ b → LF ∉ b → b.length ≤ 0 := by
    intro a b hab hcr hlf
    rcases b.eq_nil_or_concat with rfl | ⟨b', y, rfl⟩
    · simp
    · rw [List.concat_eq_append, ← List.append_assoc] at hab
      have := (List.append_inj' hab rfl).2
      simp only [List.cons.injEq, and_true] at this
      subst this
      rcases he with rfl | rfl
      · exact absurd (by simp) hcr
      · exact absurd (by simp) hlf
  refine ⟨h1, fun a b z hab hcr hlf => ?_⟩
  rcases z.eq_nil_or_concat with rfl | ⟨z', y, rfl⟩
  · have := h1 a b (by simpa using hab) hcr hlf
    omega
  · rw [List.concat_eq_append, ← List.append_assoc] at hab
    exact h.2 a b z' (List.append_inj' hab rfl).1 hcr hlf

/-- The lines are not too long. -/
theorem Loose.lines {l o : List Byte} {c : Nat} (h : Loose P ls col l o c) : Limits o c (ls + 1) := by
  induction h with
  | nil =>
    refine ⟨fun a b h _ _ => ?_, fun a b z h _ _ => ?_⟩
    · have := congrArg List.length h; simp at this; omega
    · have := congrArg List.length h; simp at this; omega
  | chr x h hc hx ih => exact ih.snoc _ (by omega)
  | esc x h hc hx ih =>
    have := (ih.snoc EQ (by omega)).snoc (x + 42#8 + 64#8) (by omega)
    simpa using this
  | brk h hc hl ih =>
    have := (ih.brk CR (Or.inl rfl)).brk LF (Or.inr rfl)
    simpa using this

/-- The three properties, of the finished text. -/
theorem Loose.finished {l o : List Byte} {c : Nat} (h : Loose P ls col l o c) :
    yDecode (finish o) = l ∧ 0#8 ∉ finish o ∧ (∀ a b z, finish o = a ++ b ++ z → CR ∉ b → LF ∉ b → b.length ≤ ls + 1) ∧ ∀ e, (finish o).getLast? = some e → e ≠ TAB ∧ e ≠ SP := by
  unfold finish
  rcases o.eq_nil_or_concat with rfl | ⟨a, e, rfl⟩
  · have h1 := h.decode []
    have h2 := h.lines
    simp only [List.getLast?_nil]
    exact ⟨by simpa [yDecode] using h1, h.noNul, h2.2, by simp⟩
  · rw [List.concat_eq_append] at h ⊢
    have g1 : (a ++ [e]).getLast? = some e := by simp
    have g2 : (a ++ [e]).dropLast = a := by simp
    rw [g1, g2]
    simp only
    by_cases he : e = TAB ∨ e = SP
    · rw [if_pos he]
      obtain ⟨l', x, c', rfl, rfl, h1, rfl, h2⟩ := h.final he
      refine ⟨?_, ?_, ?_, ?_⟩
      · rw [h1.decode]
        congr 1
        rw [yDecode.eq_def]
        simp only [show EQ ≠ CR by decide, show EQ ≠ LF by decide, or_self, if_false, if_true, List.cons.injEq]
        refine ⟨?_, by rw [yDecode.eq_def]⟩
        rw [BitVec.add_assoc]
        exact BitVec.add_sub_cancel _ _
      · intro hm
        rcases List.mem_append.mp hm with hm | hm
        · exact h1.noNul hm
        · revert hm
          rcases he with he | he <;> rw [he] <;> decide
      · have := (h1.lines.snoc EQ (by omega)).snoc (x + 42#8 + 64#8) (by omega)
        rw [List.append_assoc] at this
        exact this.2
      · intro y hy
        simp at hy
        subst hy
        rcases he with he | he <;> rw [he] <;> decide
    · rw [if_neg he]
      have h1 := h.decode []
      refine ⟨by simpa [yDecode] using h1, h.noNul, h.lines.2, fun y hy => ?_⟩
      rw [g1] at hy
      simp at hy
      subst hy
      exact ⟨fun h => he (Or.inl h), fun h => he (Or.inr h)⟩
end Yenc.Spec
