import Verif.Lemmas.EncSpec
import Verif.Spec.Lines
/-! Line lengths and line break structure of the reference encoding. -/
namespace Yenc.Enc
open Spec

theorem CrlfOnly_safe (s t : List Byte) (hs : ∀ b ∈ s, b ≠ NUL ∧ b ≠ CR ∧ b ≠ LF) (ht : CrlfOnly t) : CrlfOnly (s ++ t) := by
  induction s with
  | nil => exact ht
  | cons b s ih =>
    have h := ih (fun x hx => hs x (by simp [hx]))
    have hb := hs b (by simp)
    refine ⟨by simp [hb.2.2], ?_⟩
    intro i
    rcases i with _ | i
    · simp only [List.cons_append, List.getElem?_cons_zero, List.getElem?_cons_succ, Option.some.injEq]
      exact iff_of_false hb.2.1 h.1
    · simpa using h.2 i

theorem CrlfOnly_break (t : List Byte) (ht : CrlfOnly t) : CrlfOnly (CR :: LF :: t) := by
  refine ⟨by simp, ?_⟩
  intro i
  rcases i with _ | _ | i
  · simp
  · simp; exact ht.1
  · simpa using ht.2 i

theorem CrlfOnly_nil : CrlfOnly [] := ⟨by simp, by simp⟩

theorem CrlfOnly_encode (ls : Nat) (fin : Bool) (col : Nat) (l : List Byte) : CrlfOnly (Spec.encode ls fin col l) := by
  induction l generalizing col with
  | nil => exact CrlfOnly_nil
  | cons c cs ih =>
    by_cases h : ls ≤ col
    · simp only [Spec.encode, h, if_true, List.cons_append]
      exact CrlfOnly_break _ (CrlfOnly_safe _ _ (encChar_safe _ _ _ _) (ih _))
    · simp only [Spec.encode, h, if_false]
      exact CrlfOnly_safe _ _ (encChar_safe _ _ _ _) (ih _)

theorem NUL_not_mem_encode (ls : Nat) (fin : Bool) (col : Nat) (l : List Byte) : NUL ∉ Spec.encode ls fin col l := by
  induction l generalizing col with
  | nil => simp [Spec.encode]
  | cons c cs ih =>
    have hs := encChar_safe
    by_cases h : ls ≤ col
    · simp only [Spec.encode, h, if_true, List.cons_append]
      intro hm
      simp only [List.mem_cons, List.mem_append, NUL_ne_CR, NUL_ne_LF, false_or] at hm
      rcases hm with hm | hm
      · exact (hs _ _ _ _ _ hm).1 rfl
      · exact ih _ hm
    · simp only [Spec.encode, h, if_false]
      intro hm
      rw [List.mem_append] at hm
      rcases hm with hm | hm
      · exact (hs _ _ _ _ _ hm).1 rfl
      · exact ih _ hm

theorem prependLine_prepend (s t : List Byte) (L : List (List Byte)) :
    prependLine s (prependLine t L) = prependLine (s ++ t) L := by
  cases L <;> simp [prependLine]

theorem paired_append (s t : List Byte) (hs : paired s = true) (ht : paired t = true) : paired (s ++ t) = true := by
  fun_induction paired s with
  | case1 => exact ht
  | case2 => simp at hs
  | case3 d ds ih => simp only [List.cons_append, paired, if_true]; exact ih hs
  | case4 c cs hc ih => 
    have := ih hs
    simp only [List.cons_append]
    rw [paired.eq_def]
    simp only [hc, if_false]
    exact this

theorem encChar_paired (ls col : Nat) (last : Bool) (e : Byte) : paired (encChar ls col last e) = true := by
  have := paired_encChar ls col last e [] rfl
  simpa using this

/-- A two-byte character is an escape pair. -/
theorem encChar_two (ls col : Nat) (last : Bool) (e : Byte) :
    (encChar ls col last e).length = 1 ∨ ∃ x, encChar ls col last e = [EQ, x] := by
  rcases encChar_cases ls col last e with ⟨_, h⟩ | ⟨_, h⟩ <;> simp [h]

theorem encLines_lineLengths_aux (ls : Nat) (hls : 1 ≤ ls) (fin : Bool) (src : List Byte) (n : Nat) (s : List Byte)
    (hp : paired s = true) (hn : n + s.length ≤ ls ∨ (n + s.length = ls + 1 ∧ EndsEscape s)) :
    LineLengths ls n (prependLine s (encLines ls fin (n + s.length) src)) := by
  induction src generalizing n s with
  | nil => simpa [encLines, prependLine, LineLengths] using hn
  | cons c cs ih =>
    unfold encLines
    split
    · rename_i h
      have h2 := encChar_two ls 0 (fin && cs.isEmpty) (c + 42#8)
      have h3 := encChar_paired ls 0 (fin && cs.isEmpty) (c + 42#8)
      generalize encChar ls 0 (fin && cs.isEmpty) (c + 42#8) = e at *
      have hne := prependLine_ne_nil e (encLines ls fin e.length cs)
      have h5 := ih 0 e h3 (by
        rcases h2 with h2 | ⟨x, rfl⟩
        · left; omega
        · by_cases h1 : ls = 1
          · right; exact ⟨by simp [h1], ⟨[], x, rfl, rfl⟩⟩
          · left; simp; omega)
      rw [Nat.zero_add] at h5
      generalize prependLine e (encLines ls fin e.length cs) = L at *
      rcases L with _ | ⟨m, ms⟩
      · exact absurd rfl hne
      · simp only [prependLine, List.append_nil, LineLengths]
        refine ⟨?_, h5⟩
        rcases hn with hn | hn
        · left; omega
        · right; exact hn
    · rename_i h
      rw [prependLine_prepend]
      have h2 := encChar_two ls (n + s.length) (fin && cs.isEmpty) (c + 42#8)
      have h3 := encChar_paired ls (n + s.length) (fin && cs.isEmpty) (c + 42#8)
      generalize encChar ls (n + s.length) (fin && cs.isEmpty) (c + 42#8) = e at *
      have h5 := ih n (s ++ e) (paired_append _ _ hp h3) (by
        rw [List.length_append]
        rcases h2 with h2 | ⟨x, rfl⟩
        · left; omega
        · by_cases h1 : n + s.length + 2 ≤ ls
          · left; simp; omega
          · right; exact ⟨by simp; omega, ⟨s, x, rfl, hp⟩⟩)
      rw [List.length_append, ← Nat.add_assoc] at h5
      exact h5

theorem encode_lineLengths (ls : Nat) (hls : 1 ≤ ls) (fin : Bool) (col : Nat) (hcol : col ≤ ls) (src : List Byte) :
    LineLengths ls col (splitLines (Spec.encode ls fin col src)) := by
  rw [splitLines_encode]
  have := encLines_lineLengths_aux ls hls fin src col [] rfl (Or.inl (by simpa using hcol))
  generalize encLines ls fin _ src = L at *
  cases L <;> simp_all [prependLine, LineLengths]

theorem GoodEnds_true (L : List (List Byte)) (h : GoodEnds true L) : ∀ l ∈ L, GoodEnd l := by
  induction L with
  | nil => simp
  | cons l L ih =>
    rcases L with _ | ⟨m, ms⟩
    · simpa [GoodEnds] using h
    · intro x hx
      rcases List.mem_cons.mp hx with rfl | hx
      · exact h.1
      · exact ih h.2 x hx

end Yenc.Enc
