import Verif.Lemmas.Loose
import Verif.Lemmas.Shared
import Verif.Lemmas.EncX86Base
import Mathlib.Tactic.ByContra
import Verif.Lemmas.EncEol
import Verif.Model.SharedEnc
/-! The vectorised encoders on data that changes: steps, and the scalar code behind the kernel. -/
namespace Yenc.Shared.SimdEnc
open Yenc Yenc.Enc Yenc.Enc.Simd Yenc.Spec
open Yenc.Dec.Simd (cnt cnt_add cnt_le cnt_congr)

/-- A byte was read twice, and was critical one time and not the other time. -/
def Unsteady (s : List (Nat × Byte)) (k : Nat) : Prop := ∃ b b', (k, b) ∈ s ∧ (k, b') ∈ s ∧ critical (b + 42#8) = true ∧ critical (b' + 42#8) = false

theorem Unsteady.mono {s s' : List (Nat × Byte)} (hs : s ⊆ s') (k : Nat) (h : Unsteady s k) : Unsteady s' k := by
  obtain ⟨b, b', h1, h2, h3⟩ := h
  exact ⟨b, b', hs h1, hs h2, h3⟩

/-- State between steps: `pos` bytes are consumed, and the column is `c`.  The sizes follow from the number `L` of line breaks.  With `ex`, what is written is a loose encoding of bytes that
were read. -/
structure St (ex : Bool) (ls col n : Nat) (s : List (Nat × Byte)) (w : W) (pos c : Nat) : Prop where
  le : pos ≤ n
  len : pos ≤ w.out.length
  size : ∃ L, (L = 0 ∨ L * ls + c ≤ 2 * pos + ls) ∧ w.out.length ≤ 2 * pos + 2 * L ∧ w.hi ≤ 2 * n + 2 * L + 12
  loose : ex = true → ∃ l, l.length = pos ∧ Seen s 0 l ∧ Loose (Unsteady s) ls col l w.out c

theorem St.mono {ex : Bool} {ls col n : Nat} {s s' : List (Nat × Byte)} {w : W} {pos c : Nat} (h : St ex ls col n s w pos c) (hs : s ⊆ s') : St ex ls col n s' w pos c :=
  ⟨h.le, h.len, h.size, fun he => by obtain ⟨l, h1, h2, h3⟩ := h.loose he; exact ⟨l, h1, h2.mono hs, h3.mono (Unsteady.mono hs)⟩⟩

/-- `k` bytes are consumed, with `brk` line breaks. -/
theorem St.step {ex : Bool} {ls col n : Nat} {s s' : List (Nat × Byte)} {w : W} {pos c : Nat} (h : St ex ls col n s w pos c) (hs : s ⊆ s') (w' : W) (k c' brk : Nat)
    (hn : pos + k ≤ n) (hlo : w.out.length + k ≤ w'.out.length) (hup : w'.out.length ≤ w.out.length + 2 * k + 2 * brk)
    (hhi : w'.hi ≤ max w.hi (w.out.length + 2 * (n - pos) + 2 * brk + 12))
    (hb : (brk = 0 ∧ c' ≤ c + 2 * k) ∨ (brk = 1 ∧ c' ≤ 2 * k ∧ ls + c' ≤ c + 2 * k))
    (hex : ex = true → ∃ x, x.length = k ∧ Seen s' pos x ∧ ∀ l, l.length = pos → Loose (Unsteady s') ls col l w.out c → Loose (Unsteady s') ls col (l ++ x) w'.out c') :
    St ex ls col n s' w' (pos + k) c' := by
  refine ⟨hn, by have := h.len; omega, ?_, fun he => ?_⟩
  · obtain ⟨L, h1, h2, h3⟩ := h.size
    refine ⟨L + brk, ?_, by omega, by omega⟩
    rcases hb with ⟨rfl, hb⟩ | ⟨rfl, hb, hb'⟩
    · rcases h1 with rfl | h1
      · exact Or.inl rfl
      · right; rw [Nat.add_zero]; omega
    · right
      rw [Nat.add_mul, Nat.one_mul]
      rcases h1 with rfl | h1 <;> omega
  · obtain ⟨l, h1, h2, h3⟩ := h.loose he
    obtain ⟨x, h4, h5, h6⟩ := hex he
    exact ⟨l ++ x, by simp; omega, (h2.mono hs).append (by rw [h1, Nat.zero_add]; exact h5), h6 l h1 (h3.mono (Unsteady.mono hs))⟩

/-- One character, read from its place. -/
theorem seen_one {s : List (Nat × Byte)} {i : Nat} {x : Byte} (h : (i, x) ∈ s) : Seen s i [x] := Seen.cons h (Seen.nil _ _)

section
variable {ex : Bool} {ls col n : Nat} {s : List (Nat × Byte)} {w : W} {pos c : Nat}

/-- A character on the line. -/
theorem St.char (h : St ex ls col n s w pos c) (x : Byte) (hp : pos < n) (hc : c < ls) (w' : W) (ho : w'.out = w.out ++ encChar ls c false (x + 42#8))
    (hhi : w'.hi ≤ max w.hi (w.out.length + 4)) : St ex ls col n ((pos, x) :: s) w' (pos + 1) (c + (encChar ls c false (x + 42#8)).length) := by
  have hl := encChar_length ls c false (x + 42#8)
  refine h.step (List.subset_cons_self _ _) w' 1 _ 0 (by omega) (by rw [ho, List.length_append]; omega) (by rw [ho, List.length_append]; omega) (by omega) (Or.inl ⟨rfl, by omega⟩) ?_
  exact fun _ => ⟨[x], rfl, seen_one List.mem_cons_self, fun l _ hl => by rw [ho]; exact hl.char x hc⟩

/-- A line break behind a full line, and a character. -/
theorem St.eol (h : St ex ls col n s w pos c) (x : Byte) (hp : pos < n) (hls : 1 ≤ ls) (hc : ls ≤ c) (w' : W) (ho : w'.out = w.out ++ CR :: LF :: encChar ls 0 false (x + 42#8))
    (hhi : w'.hi ≤ max w.hi (w.out.length + 4)) : St ex ls col n ((pos, x) :: s) w' (pos + 1) (encChar ls 0 false (x + 42#8)).length := by
  have hl := encChar_length ls 0 false (x + 42#8)
  refine h.step (List.subset_cons_self _ _) w' 1 _ 1 (by omega) (by rw [ho]; simp only [List.length_append, List.length_cons]; omega) (by rw [ho]; simp only [List.length_append, List.length_cons]; omega) (by omega) (Or.inr ⟨rfl, by omega, by omega⟩) ?_
  refine fun _ => ⟨[x], rfl, seen_one List.mem_cons_self, fun l _ hl => ?_⟩
  have := (hl.eol hc).char x (by omega)
  rw [ho]; simpa using this

/-- The last character of a line, and the line break. -/
theorem St.last (h : St ex ls col n s w pos c) (x : Byte) (hp : pos < n) (hls : 3 ≤ ls)
    (hc : c + 1 = ls ∨ (c + 2 = ls ∧ (ex = true → ∃ b, (pos, b) ∈ s ∧ critical (b + 42#8) = true))) (w' : W)
    (ho : w'.out = w.out ++ ((if critical (x + 42#8) = true ∨ x + 42#8 = TAB ∨ x + 42#8 = SP then [EQ, x + 42#8 + 64#8] else [x + 42#8]) ++ [CR, LF]))
    (hhi : w'.hi ≤ max w.hi (w.out.length + 4)) : St ex ls col n ((pos, x) :: s) w' (pos + 1) 0 := by
  have hl : w.out.length + 3 ≤ w'.out.length ∧ w'.out.length ≤ w.out.length + 4 := by
    rw [ho, List.length_append]; split <;> simp
  refine h.step (List.subset_cons_self _ _) w' 1 _ 1 (by omega) (by omega) (by omega) (by omega) (Or.inr ⟨rfl, by omega, by omega⟩) ?_
  refine fun he => ⟨[x], rfl, seen_one List.mem_cons_self, fun l hll hl => ?_⟩
  rw [ho]
  refine hl.last x hls (hc.imp id fun h => ⟨h.1, ?_⟩)
  obtain ⟨b, h1, h2⟩ := h.2 he
  cases hx : critical (x + 42#8) with
  | true => exact Or.inl rfl
  | false => exact Or.inr ⟨b, x, by rw [hll]; exact List.mem_cons_of_mem _ h1, by rw [hll]; exact List.mem_cons_self, h2, hx⟩
end

/-! ## The scalar code behind the kernel -/

/-- The end of the scalar code: the column is right, or one less in a full line. -/
def Fin (ex : Bool) (ls col n : Nat) (s : List (Nat × Byte)) (x : W × Int) : Prop :=
  ∃ c : Nat, 1 ≤ c ∧ St ex ls col n s x.1 n c ∧ (x.2 = c ∨ (x.2 = (ls : Int) - 1 ∧ ls ≤ c)) ∧ x.2 ≤ ls

theorem tail_post {ex : Bool} {ls col n : Nat} (hls : 3 ≤ ls) (f : Nat) {s : List (Nat × Byte)} {w : W} {pos c : Nat} (hf : n < pos + f) (h : St ex ls col n s w pos c) (h1 : 1 ≤ c)
    (hc : c ≤ ls ∨ pos < n) : (tail ls n f pos w c).Post n (Fin ex ls col n) s := by
  induction f generalizing s w pos c with
  | zero => have := h.le; omega
  | succ f ih =>
    rw [tail]
    by_cases hend : n ≤ pos
    · rw [if_pos hend]
      have : pos = n := by have := h.le; omega
      subst this
      exact ⟨c, h1, h, Or.inl rfl, by simp only; omega⟩
    rw [if_neg hend]
    refine ⟨by omega, fun x => ?_⟩
    have heol : ∀ (s' : List (Nat × Byte)) (w' : W) (i c' : Nat) (y : Byte), St ex ls col n s' w' i c' → i < n → ls ≤ c' → pos ≤ i →
        (tail ls n f (i + 1) (eolChar w' y).1 (eolChar w' y).2).Post n (Fin ex ls col n) ((i, y) :: s') := by
      intro s' w' i c' y h' hi hc' hpi
      have f3 := eolChar_eq w' y ls false
      have f4 := encChar_length ls 0 false (y + 42#8)
      have := h'.eol y hi (by omega) hc' (eolChar w' y).1 (by rw [f3]) (by rw [f3]; exact Nat.le_refl _)
      rw [f3] at this ⊢
      exact ih (by omega) this (by omega) (Or.inl (by omega))
    simp only
    by_cases hlt : (c : Int) < (ls : Int) - 1
    · rw [if_pos hlt]
      have f4 := encChar_length ls c false (x + 42#8)
      have e := encChar_mid ls c x h1 (by omega)
      have := h.char x (by omega) (by omega) (tailMid w x).1 (by rw [tailMid_eq, e]) (by rw [tailMid_eq]; simp only [← e]; omega)
      rw [tailMid_eq] at this ⊢
      rw [← e] at this ⊢
      simp only at this ⊢
      rw [show (c : Int) + ((encChar ls c false (x + 42#8)).length : Int) = ((c + (encChar ls c false (x + 42#8)).length : Nat) : Int) by push_cast; rfl]
      exact ih (by omega) this (by omega) (Or.inl (by omega))
    rw [if_neg hlt]
    by_cases hl : (c : Int) < ls
    · rw [if_pos hl]
      have e := lastChar_eq w x ls c h1 (by omega) false
      have f4 := encChar_length ls c false (x + 42#8)
      have hh := h.char x (by omega) (by omega) (Enc.lastChar w x) (by rw [e]) (by rw [e]; simp only; omega)
      by_cases hmore : n ≤ pos + 1
      · rw [if_pos hmore]
        have : pos + 1 = n := by omega
        rw [this] at hh
        exact ⟨_, by omega, hh, Or.inr ⟨by simp only; omega, by omega⟩, by simp only; omega⟩
      · rw [if_neg hmore]
        refine ⟨by omega, fun y => ?_⟩
        exact heol _ (Enc.lastChar w x) (pos + 1) _ y hh (by omega) (by omega) (by omega)
    · rw [if_neg hl]
      exact heol s w pos c x h (by omega) (by omega) (by omega)

theorem rest_post {ex : Bool} {ls col n : Nat} (hls : 3 ≤ ls) {s : List (Nat × Byte)} {w : W} {pos c : Nat} (h : St ex ls col n s w pos c)
    (hc : c ≤ ls ∨ pos < n) (h1 : 1 ≤ c ∨ pos < n) : (rest ls n pos w c).Post n (Fin ex ls col n) s := by
  unfold rest
  by_cases h0 : (c : Int) = 0
  · rw [if_pos h0]
    have : c = 0 := by omega
    subst this
    rw [if_neg (show ¬ n ≤ pos by omega)]
    refine ⟨by omega, fun x => ?_⟩
    have f3 := firstChar_eq w x ls false
    have f4 := encChar_length ls 0 false (x + 42#8)
    have hh := h.char x (by omega) (by omega) (firstChar w x).1 (by rw [f3]) (by rw [f3]; simp only; omega)
    rw [Nat.zero_add] at hh
    simp only
    rw [f3] at hh ⊢
    exact tail_post hls (n + 1) (by omega) hh (by omega) (Or.inl (by omega))
  · rw [if_neg h0]
    exact tail_post hls (n + 1) (by omega) h (by omega) hc

/-! ## The end -/

/-- What the encoder leaves behind. -/
structure Out (ex : Bool) (ls col n : Nat) (fin : Bool) (s : List (Nat × Byte)) (x : W × Int) : Prop where
  len : n ≤ x.1.out.length
  size : x.1.out.length ≤ 2 * n + 2 * (2 * n / ls + 1) + 1
  hi : x.1.hi ≤ 2 * n + 2 * (2 * n / ls + 1) + 17
  column : 0 ≤ x.2 ∧ x.2 ≤ (ls : Int) + 1
  loose : ex = true → ∃ (l o : List Byte) (c : Nat), l.length = n ∧ Seen s 0 l ∧ Loose (Unsteady s) ls col l o c ∧ 1 ≤ c ∧ x.1.out = (if fin then finish o else o) ∧
    (fin = false → x.2 = c ∨ ((ls : Int) - 1 ≤ x.2 ∧ x.2 ≤ ls ∧ ls ≤ c))
  last : fin = true → ∀ e, x.1.out.getLast? = some e → e ≠ TAB ∧ e ≠ SP

theorem fin_post {ex : Bool} {ls col n : Nat} (hls : 3 ≤ ls) (hls2 : ls + 1 < 2 ^ 31) (hn : n ≠ 0) (fin : Bool) {s : List (Nat × Byte)} {x : W × Int} (h : Fin ex ls col n s x) :
    (if fin then
      match doEnd x.1 x.2 with
      | none => .ub
      | some r => .ret r
    else .ret x : Prog (W × Int)).Post n (Out ex ls col n fin) s := by
  obtain ⟨c, hc1, h1, h2, h3⟩ := h
  obtain ⟨w, cc⟩ := x
  simp only at h1 h2 h3 ⊢
  obtain ⟨L, k1, k2, k3⟩ := h1.size
  have hL : L ≤ 2 * n / ls + 1 := by
    rcases k1 with rfl | k1
    · exact Nat.zero_le _
    · rcases L with _ | L
      · exact Nat.zero_le _
      · have : L ≤ 2 * n / ls := by
          rw [Nat.le_div_iff_mul_le (by omega)]
          rw [Nat.add_mul, Nat.one_mul] at k1
          omega
        omega
  have hlen := h1.len
  have hne : w.out ≠ [] := by intro h; rw [h] at hlen; simp at hlen; omega
  have hcol : 0 ≤ cc := by rcases h2 with h | h <;> omega
  have hl : ex = true → ∃ (l : List Byte), l.length = n ∧ Seen s 0 l ∧ Loose (Unsteady s) ls col l w.out c := h1.loose
  cases fin with
  | false => exact ⟨by simp only; omega, by simp only; omega, by simp only; omega, ⟨by simp only; omega, by simp only; omega⟩, fun he => by
      obtain ⟨l, g1, g2, g3⟩ := hl he
      refine ⟨l, _, c, g1, g2, g3, hc1, rfl, fun _ => ?_⟩
      rcases h2 with h | h
      · exact Or.inl h
      · exact Or.inr ⟨by simp only; omega, by simp only; omega, h.2⟩, by simp⟩
  | true =>
    simp only [if_true]
    unfold doEnd
    obtain ⟨a, lc, hw⟩ : ∃ a lc, w.out = a ++ [lc] := ⟨w.out.dropLast, w.out.getLast hne, (List.dropLast_concat_getLast hne).symm⟩
    have g1 : (a ++ [lc]).getLast? = some lc := by simp
    have g2 : (a ++ [lc]).dropLast = a := by simp
    rw [hw, g1, g2]
    have hwl := congrArg List.length hw
    simp only [List.length_append, List.length_cons, List.length_nil] at hwl
    simp only
    by_cases hlc : lc = TAB ∨ lc = SP
    · rw [if_pos hlc, if_neg (by omega)]
      refine ⟨by simp; omega, by simp; omega, by simp; omega, ⟨by simp only; omega, by simp only; omega⟩, fun he => ?_, fun _ e he => ?_⟩
      · obtain ⟨l, m1, m2, m3⟩ := hl he
        refine ⟨l, _, c, m1, m2, m3, hc1, ?_, by simp⟩
        simp only [if_true, finish]
        rw [hw, g1, g2]
        simp only
        rw [if_pos hlc]
      · simp at he
        subst he
        rcases hlc with rfl | rfl <;> decide
    · rw [if_neg hlc]
      refine ⟨by simp only; omega, by simp only; omega, by simp only; omega, ⟨by simp only; omega, by simp only; omega⟩, fun he => ?_, fun _ e he => ?_⟩
      · obtain ⟨l, m1, m2, m3⟩ := hl he
        refine ⟨l, _, c, m1, m2, m3, hc1, ?_, by simp⟩
        simp only [if_true, finish]
        rw [hw, g1]
        simp only
        rw [if_neg hlc]
      rw [hw, g1] at he
      simp at he
      subst he
      exact ⟨fun h => hlc (Or.inl h), fun h => hlc (Or.inr h)⟩

end Yenc.Shared.SimdEnc
