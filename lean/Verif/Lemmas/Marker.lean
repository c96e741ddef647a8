import Verif.Lemmas.Damage
import Verif.Lemmas.JsHeader
/-!
Encoded data whose first bytes are damaged into the start of a header line.
-/
namespace Yenc.Dmg

/-- Encoded data contains no `=y`. -/
theorem encode_chain (ls : Nat) (fin : Bool) (col : Nat) (d : List Byte) : (Spec.encode ls fin col d).IsChain (fun a b => ¬ (a = EQ ∧ b = LY)) := by
  have hc : ∀ (ls col : Nat) (last : Bool) (e : Byte) (t : List Byte), t.IsChain (fun a b => ¬ (a = EQ ∧ b = LY)) →
      (Spec.encChar ls col last e ++ t).IsChain (fun a b => ¬ (a = EQ ∧ b = LY)) := by
    intro ls col last e t ht
    rcases Enc.encChar_cases ls col last e with ⟨hm, h⟩ | ⟨hm, h⟩
    · have hd := Enc.escape_domain hm
      rw [h]
      have h1 : e + 64#8 ≠ LY ∧ e + 64#8 ≠ EQ := by
        rcases hd with rfl | rfl | rfl | rfl | rfl | rfl | rfl <;> decide
      cases t with
      | nil => simp [h1]
      | cons b t => exact .cons_cons (by simp [h1]) (.cons_cons (by simp [h1]) ht)
    · have hd := Enc.not_critical_of_not_mustEscape hm
      rw [h]
      cases t with
      | nil => simp
      | cons b t => exact .cons_cons (by simp [hd]) ht
  induction d generalizing col with
  | nil => simp [Spec.encode]
  | cons c cs ih =>
    by_cases h : ls ≤ col
    · rw [Enc.encode_cons_ge _ _ _ _ _ h]
      have := hc ls 0 (fin && cs.isEmpty) (c + 42#8) _ (ih (Spec.encChar ls 0 (fin && cs.isEmpty) (c + 42#8)).length)
      cases hx : Spec.encChar ls 0 (fin && cs.isEmpty) (c + 42#8) ++ Spec.encode ls fin (Spec.encChar ls 0 (fin && cs.isEmpty) (c + 42#8)).length cs with
      | nil => simp_all [CR, LF, EQ, LY]
      | cons a b => rw [hx] at this; simp_all [CR, LF, EQ, LY]
    · rw [Enc.encode_cons_lt _ _ _ _ _ (by omega)]
      exact hc _ _ _ _ _ (ih _)

theorem encode_no_marker (ls : Nat) (fin : Bool) (col : Nat) (d : List Byte) : ¬ [EQ, LY] <:+: Spec.encode ls fin col d :=
  Js.not_infix_of_chain _ _ _ (encode_chain ls fin col d)

theorem out_crlf (strip : Bool) (r : List Byte) (h : good ⟨.crlf, false⟩ r) : out strip ⟨.crlf, false⟩ r = out strip ⟨.o, false⟩ r := by
  cases r with
  | nil => rfl
  | cons c r =>
    obtain ⟨_, h2, h3, _⟩ := h
    have h2 : c ≠ LF := by simpa using h2
    have h3 : c ≠ DOT := h3 rfl
    have : step strip ⟨.crlf, false⟩ c = step strip ⟨.o, false⟩ c := by simp [step, h3, K.next]
    rw [out, out, this]

/-- Decoding the rest of encoded data as if it came after a line break never gives more. -/
theorem out_le (strip : Bool) (s : S) (r : List Byte) (hs : s.ok) (h : good s r) : (out strip ⟨.crlf, false⟩ r).length ≤ (out strip s r).length := by
  cases r with
  | nil => simp [out]
  | cons c r =>
    obtain ⟨k, e⟩ := s
    obtain ⟨h1, h2, h3, h4⟩ := h
    simp only at h1 h2 h3 h4
    have hd : ¬ (strip = true ∧ k = .crlf ∧ c = DOT) := fun hh => h3 hh.2.1 hh.2.2
    by_cases c1 : c = CR
    · subst c1
      have e0 : e = false := by cases e with | false => rfl | true => exact absurd rfl (h1 rfl).2.1
      subst e0
      have a : ∀ k, step strip ⟨k, false⟩ CR = ([], ⟨.cr, false⟩) := by intro k; simp [step, K.next]
      rw [out, out, a, a]
    by_cases c2 : c = LF
    · subst c2
      have hk : k = .cr := h2.1 rfl
      subst hk
      have e0 : e = false := hs (by simp)
      subst e0
      have a : step strip ⟨.cr, false⟩ LF = ([], ⟨.crlf, false⟩) := by simp [step, K.next]
      have b : step strip ⟨.crlf, false⟩ LF = ([], ⟨.o, false⟩) := by simp [step, K.next]
      rw [out, out, a, b, out_crlf strip r (by simpa [K.next] using h4)]
    by_cases c3 : c = EQ
    · subst c3
      have e0 : e = false := by cases e with | false => rfl | true => exact absurd rfl (h1 rfl).1
      subst e0
      have a : ∀ k, step strip ⟨k, false⟩ EQ = ([], ⟨.o, true⟩) := by intro k; simp [step, K.next]
      rw [out, out, a, a]
    · have e1 := sync1 strip ⟨k, e⟩ c hs c1 c2 c3
      have e2 := sync1 strip ⟨.crlf, false⟩ c (fun _ => rfl) c1 c2 c3
      have l1 : (step strip ⟨k, e⟩ c).1.length = 1 := by
        unfold step; cases e <;> simp [hd, c1, c2, c3]
      have l2 := step_length strip ⟨.crlf, false⟩ c
      rw [out, out, e1, e2, List.length_append, List.length_append]
      omega

/-- Without its first two bytes, encoded data decodes to less. -/
theorem short_suffix (strip : Bool) (ls : Nat) (h1 : 1 ≤ ls) (d x r : List Byte) (he : Spec.encode ls true 0 d = x ++ r) (hx : 2 ≤ x.length) :
    (Spec.decode strip r).length < d.length := by
  have hd : Spec.decode strip (Spec.encode ls true 0 d) = d := by
    cases strip with
    | false => simp [Spec.decode, Enc.yDecode_encode]
    | true => exact Enc.decode_true_encode ls h1 true d
  have hg := good_encode ls h1 true 0 d .crlf (.inr ⟨rfl, rfl⟩)
  have ok0 : S.ok ⟨.crlf, false⟩ := fun _ => rfl
  rw [he] at hg
  have g1 := good_fin strip _ _ _ hg
  have o1 := ok_fin strip _ x ok0
  have l := out_le strip _ r o1 g1
  have hx1 : 1 ≤ (out strip ⟨.crlf, false⟩ x).length := by
    cases d with
    | nil =>
      have := congrArg List.length he
      simp [Spec.encode] at this
      omega
    | cons c cs =>
      rw [Enc.encode_cons_lt _ _ _ _ _ (by omega)] at he
      have hlen : (Spec.encChar ls 0 (true && cs.isEmpty) (c + 42#8)).length ≤ 2 := by
        rcases Enc.encChar_cases ls 0 (true && cs.isEmpty) (c + 42#8) with ⟨_, h⟩ | ⟨_, h⟩ <;> rw [h] <;> simp
      obtain ⟨x', rfl⟩ : Spec.encChar ls 0 (true && cs.isEmpty) (c + 42#8) <+: x :=
        List.prefix_of_prefix_length_le ⟨_, he⟩ (List.prefix_append x r) (by omega)
      rw [out_append, List.length_append]
      have : (out strip ⟨.crlf, false⟩ (Spec.encChar ls 0 (true && cs.isEmpty) (c + 42#8))).length = 1 := by
        rcases Enc.encChar_cases ls 0 (true && cs.isEmpty) (c + 42#8) with ⟨hm, h⟩ | ⟨hm, h⟩
        · rw [h]; simp [out, step, K.next]
        · have hc := Enc.not_critical_of_not_mustEscape hm
          have hdot : c + 42#8 ≠ DOT := by
            intro e; rw [e] at hm; simp [Spec.mustEscape] at hm
          rw [h]; simp [out, step, hc, hdot]
      omega
  have := congrArg List.length hd
  rw [decode_eq, he, out_append, List.length_append] at this
  rw [decode_eq]
  omega

end Yenc.Dmg

namespace Yenc.Js
open Spec

/-- The first line break is in one place only. -/
theorem line_unique {a b x y : List Byte} (h : a ++ CR :: LF :: x = b ++ CR :: LF :: y) (ha : ¬ [CR, LF] <:+: a) (hb : ¬ [CR, LF] <:+: b) : a = b ∧ x = y := by
  have h1 := find_crlf a x ha
  have h2 := find_crlf b y hb
  rw [h, h2, Option.some.injEq] at h1
  have := List.append_inj h h1.symm
  simpa using this

/-- Everything has a first line, or no line break. -/
theorem first_line (l : List Byte) : ¬ [CR, LF] <:+: l ∨ ∃ a b, l = a ++ CR :: LF :: b ∧ ¬ [CR, LF] <:+: a := by
  induction l with
  | nil => left; simp
  | cons c l ih =>
    by_cases hc : [CR, LF] <+: c :: l
    · right
      obtain ⟨t, ht⟩ := hc
      exact ⟨[], t, ht.symm, by simp⟩
    · rcases ih with h | ⟨a, b, rfl, ha⟩
      · left
        rw [List.infix_cons_iff]
        exact fun hh => hh.elim hc h
      · right
        refine ⟨c :: a, b, rfl, ?_⟩
        rw [List.infix_cons_iff]
        rintro (hh | hh)
        · exact hc (hh.trans ⟨CR :: LF :: b, rfl⟩)
        · exact ha hh

theorem joinLines_append (a b : List (List Byte)) : joinLines (a ++ b) = joinLines a ++ joinLines b := by simp [joinLines]

/-- Lines of a post are determined as long as there are line breaks. -/
theorem lines_prefix : ∀ (hs raws : List (List Byte)) (x y : List Byte), joinLines hs ++ x = joinLines raws ++ y → (∀ l ∈ hs, RawLine l) → (∀ l ∈ raws, RawLine l) →
    (∃ r, raws = hs ++ r ∧ x = joinLines r ++ y) ∨ ∃ r, r ≠ [] ∧ hs = raws ++ r ∧ y = joinLines r ++ x
  | [], raws, x, y, h, _, _ => .inl ⟨raws, rfl, h⟩
  | l :: hs, [], x, y, h, _, _ => .inr ⟨l :: hs, by simp, rfl, h.symm⟩
  | l :: hs, m :: raws, x, y, h, h1, h2 => by
    rw [joinLines_cons, joinLines_cons, List.append_assoc, List.append_assoc] at h
    obtain ⟨rfl, e⟩ := line_unique h (h1 l (by simp)).2 (h2 m (by simp)).2
    rcases lines_prefix hs raws x y e (fun l hl => h1 l (by simp [hl])) (fun l hl => h2 l (by simp [hl])) with ⟨r, rfl, e'⟩ | ⟨r, hr, rfl, e'⟩
    · exact .inl ⟨r, rfl, e'⟩
    · exact .inr ⟨r, hr, rfl, e'⟩

/-- How a post is read whose data starts with `=y`: its first line is taken for a header line; either this is an end line, or the data are the other lines. -/
theorem marker_layout {toStr : List Byte → Str} {hs : List (List Byte)} {ts : List Str} {B tail : List Byte} {ds de : Option Nat} {stop : Nat} {ended : Bool} {texts : List Str}
    (hh : ∀ l ∈ hs, RawLine l) (hts : List.Forall₂ (fun r => Trimmed (toStr r)) hs ts) (hu : ∀ u ∈ ts, ¬ chars "=yend " <+: u)
    (hB : text "=y" <+: B) (htail : CR ∉ tail) (hend : text "=yend " <+: tail)
    (hsafe : ∀ X R, B = X ++ R → 4 ≤ X.length → ¬ [EQ, LY] <+: R)
    (h : PostLines toStr (joinLines hs ++ (B ++ CR :: LF :: tail)) 0 ds de stop ended texts) :
    ∃ t2, (ds = none ∧ de = none ∧ texts = ts ++ [t2] ∧ chars "=yend " <+: t2) ∨
      ∃ X R t3, B = X ++ R ∧ 4 ≤ X.length ∧ ds = some ((joinLines hs).length + X.length) ∧ de = some ((joinLines hs).length + B.length) ∧ texts = ts ++ [t2] ++ [t3] ∧
        Trimmed (toStr tail) t3 := by
  have hy : text "=y" = [EQ, LY] := by decide
  -- the first line of the data
  obtain ⟨L2, R2, hL, hR, hn2⟩ : ∃ L2 R2, B ++ CR :: LF :: tail = L2 ++ CR :: LF :: R2 ∧
      (R2 = tail ∨ ∃ X R, B = X ++ R ∧ X = L2 ++ [CR, LF] ∧ R2 = R ++ CR :: LF :: tail) ∧ RawLine L2 := by
    have raw : ∀ l r, B = l ++ r → ¬ [CR, LF] <:+: l → (r = [] ∨ ∃ t, r = CR :: t) → RawLine l := by
      intro l r e hl hr
      refine ⟨?_, hl⟩
      rcases hr with rfl | ⟨t, rfl⟩
      · rw [List.append_nil] at e; rwa [← e]
      · rw [e] at hB
        rw [hy] at hB ⊢
        match l, hB with
        | [], hB => obtain ⟨z, hz⟩ := hB; simp [EQ, CR] at hz
        | [a], hB => obtain ⟨z, hz⟩ := hB; simp [LY, CR] at hz
        | a :: b :: l, hB => obtain ⟨z, hz⟩ := hB; simp at hz; rw [← hz.1, ← hz.2.1]; exact ⟨l, rfl⟩
    rcases first_line B with h1 | ⟨a, b, e, ha⟩
    · exact ⟨B, tail, rfl, .inl rfl, raw B [] (by simp) h1 (.inl rfl)⟩
    · exact ⟨a, b ++ CR :: LF :: tail, by rw [e]; simp, .inr ⟨a ++ [CR, LF], b, by rw [e]; simp, rfl, rfl⟩, raw a _ e ha (.inr ⟨_, rfl⟩)⟩
  have hX : ∀ X R, B = X ++ R → X = L2 ++ [CR, LF] → 4 ≤ X.length := by
    intro X R _ e
    have := hn2.1.length_le
    rw [show (text "=y").length = 2 by decide] at this
    rw [e, List.length_append]; simp; omega
  -- no further line of the form of a header line that has a line break
  have hlast : ∀ r rest, R2 = joinLines r ++ rest → (∀ l ∈ r, RawLine l) → r = [] := by
    intro r rest e hr
    by_contra hne
    rcases hR with rfl | ⟨X, R, e1, e2, rfl⟩
    · apply htail
      cases r with
      | nil => exact absurd rfl hne
      | cons a r => rw [e, joinLines_cons]; simp
    · have := joinLines_start hne hr rest
      rw [← e, hy] at this
      have hs := hsafe X R e1 (hX X R e1 e2)
      exact NoKeyword.cr hs _ this
  have hB2 : text "=y" <+: B ++ CR :: LF :: tail := hB.trans (List.prefix_append _ _)
  have hstep : ∀ raws rest, joinLines hs ++ (B ++ CR :: LF :: tail) = joinLines raws ++ rest → (∀ l ∈ raws, RawLine l) →
      (raws = hs ++ [L2] ∧ rest = R2) ∨ (raws = hs ∧ rest = B ++ CR :: LF :: tail) ∨ ∃ r, r ≠ [] ∧ hs = raws ++ r ∧ text "=y" <+: rest := by
    intro raws rest e hr
    rcases lines_prefix hs raws _ rest e hh hr with ⟨r, rfl, e'⟩ | ⟨r, hne, rfl, e'⟩
    · cases r with
      | nil => right; left; exact ⟨by simp, e'.symm⟩
      | cons a r =>
        left
        rw [joinLines_cons, List.append_assoc, hL] at e'
        obtain ⟨rfl, e2⟩ := line_unique e' hn2.2 (hr a (by simp)).2
        have := hlast r rest e2 (fun l hl => hr l (by simp [hl]))
        subst this
        exact ⟨rfl, e2.symm⟩
    · right; right
      refine ⟨r, hne, rfl, ?_⟩
      rw [e']
      exact joinLines_start hne (fun l hl => hh l (by simp [hl])) _
  have hlen := hts.length_eq
  cases h with
  | empty a1 a2 a3 a4 a5 =>
    rename_i raws rest us t
    rw [List.drop_zero] at a1
    have a3l := a3.length_eq
    rcases hstep raws rest a1 a2 with ⟨rfl, rfl⟩ | ⟨rfl, _⟩ | ⟨r, hne, rfl, _⟩
    · refine ⟨t, .inl ⟨rfl, rfl, ?_, a5⟩⟩
      have e1 := trimmed_map a3
      rw [List.map_append, ← trimmed_map hts] at e1
      rw [e1]
      simp only [List.map_cons, List.map_nil]
      have := (List.append_inj' e1 rfl).2
      simp only [List.map_cons, List.map_nil, List.cons.injEq, and_true] at this
      rw [this]
    · exfalso
      have e1 := trimmed_map a3
      rw [← trimmed_map hts] at e1
      exact hu t (by rw [← e1]; simp) a5
    · exfalso
      have e1 := trimmed_map a3
      have e2 := trimmed_map hts
      rw [List.map_append, ← e1] at e2
      exact hu t (by rw [e2]; simp) a5
  | full a1 a0 a2 a3 a4 a5 b1 b2 b3 c1 c2 c3 c4 =>
    rename_i raws rest us e raw tl t
    rw [List.drop_zero] at a1
    rcases hstep raws rest a1 a2 with ⟨rfl, rfl⟩ | ⟨rfl, rfl⟩ | ⟨r, hne, rfl, ey⟩
    · rcases hR with rfl | ⟨X, R, e1, e2, rfl⟩
      · exfalso
        apply a5
        exact (show text "=y" <+: text "=yend " by decide).trans hend
      -- the end line
      · have he : e = (joinLines hs).length + B.length := by
          have d0 : (joinLines hs ++ (B ++ CR :: LF :: tail)).drop ((joinLines hs).length + B.length) = CR :: LF :: tail := by
            rw [← List.drop_drop, List.drop_left, List.drop_left]
          apply Nat.le_antisymm
          · by_contra hlt
            obtain ⟨k, rfl⟩ : ∃ k, e = (joinLines hs).length + B.length + (k + 1) := ⟨e - ((joinLines hs).length + B.length) - 1, by omega⟩
            rw [← List.drop_drop, d0, List.drop_succ_cons] at b2
            obtain ⟨z, hz⟩ := b2
            have : CR ∈ (LF :: tail).drop k := by rw [← hz]; exact List.mem_append_left _ (by decide)
            have := List.mem_of_mem_drop this
            simp only [List.mem_cons, htail, or_false] at this
            exact absurd this (by decide)
          · by_contra hlt
            refine b3 ((joinLines hs).length + B.length) (by omega) ?_
            rw [d0, show text "\r\n=yend " = CR :: LF :: text "=yend " by decide]
            obtain ⟨z, hz⟩ := hend
            exact ⟨z, by rw [← hz]; rfl⟩
        subst he
        have d2 : (joinLines hs ++ (B ++ CR :: LF :: tail)).drop ((joinLines hs).length + B.length + 2) = tail := by
          rw [← List.drop_drop, ← List.drop_drop, List.drop_left, List.drop_left]; rfl
        rw [d2] at c1
        have ht0 : tl = [] := by
          rcases c3 with ⟨_, hc⟩ | ⟨_, hc⟩
          · exfalso
            apply htail
            rw [c1]
            obtain ⟨z, hz⟩ := hc
            rw [← hz]; simp
          · exact hc
        rw [ht0, List.append_nil] at c1
        obtain ⟨t2, hus⟩ : ∃ t2, us = ts ++ [t2] := by
          have e3 := trimmed_map a3
          rw [List.map_append, ← trimmed_map hts] at e3
          exact ⟨_, e3⟩
        refine ⟨t2, .inr ⟨X, R, t, e1, hX X R e1 e2, ?_, rfl, by rw [hus], by rw [c1]; exact c4⟩⟩
        rw [joinLines_append, List.length_append, e2, joinLines_cons]
        simp [joinLines]
    · exact absurd hB2 a5
    · exact absurd ey a5

end Yenc.Js
