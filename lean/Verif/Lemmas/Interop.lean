import Verif.Spec.Interop
import Verif.Lemmas.DecAutomaton
import Verif.Lemmas.Recipe
/-! Texts of other encoders in the decoders. -/
namespace Yenc.Interop
open Spec Dec

theorem sub42 (b : Byte) : b + 42#8 - 42#8 = b := by bv_omega
theorem sub106 (b : Byte) : b + 106#8 - 106#8 = b := by bv_omega

theorem yDecode_encoding {d t : List Byte} (h : Encoding d t) : yDecode t = d := by
  induction h with
  | nil => rfl
  | chr b hc h ih =>
    simp only [Critical, not_or] at hc
    unfold yDecode
    rw [if_neg (by simp [hc]), if_neg hc.2.2.2, ih, sub42]
  | esc b hc h ih => rw [yDecode, if_neg (by decide), if_pos rfl, sub106, ih]
  | cr h ih => unfold yDecode; rw [if_pos (Or.inl rfl), ih]
  | lf h ih => unfold yDecode; rw [if_pos (Or.inr rfl), ih]

/-- The state of the decoder after two bytes none of which is an escape. -/
def after (p q : Byte) : State := if p = CR ∧ q = LF then .crlf else if q = CR then .cr else .none

theorem run_plain (p q c : Byte) (t : List Byte) (h1 : ¬ (p = CR ∧ q = LF ∧ c = DOT)) (h2 : c ≠ EQ) (h3 : q = CR → c ≠ LF) : run (after p q) (c :: t) = run .none (c :: t) := by
  unfold after
  split
  · rename_i h
    rw [run_crlf_cons, if_neg (fun e => h1 ⟨h.1, h.2, e⟩), if_neg h2]
  · split
    · rename_i h; rw [run_cr_cons, if_neg (h3 h)]
    · rfl

theorem run_encoding {d t : List Byte} (h : Encoding d t) (p q : Byte) (hk : ¬ [CR, LF, EQ, LY] <:+: [p, q] ++ t) :
    ∃ p' q', run (after p q) (stuffAux p q t) = ⟨[], d, after p' q', .none⟩ := by
  have sub : ∀ {p q c : Byte} {t : List Byte}, ¬ [CR, LF, EQ, LY] <:+: [p, q] ++ c :: t → ¬ [CR, LF, EQ, LY] <:+: [q, c] ++ t := by
    intro p q c t h hc
    exact h (hc.trans ⟨[p], [], by simp⟩)
  induction h generalizing p q with
  | nil => exact ⟨p, q, by simp [stuffAux, run]⟩
  | @chr d t b hc h ih =>
    simp only [Critical, not_or] at hc
    obtain ⟨p', q', e⟩ := ih q (b + 42#8) (sub hk)
    have e0 : after q (b + 42#8) = .none := by simp [after, hc.2.1, hc.2.2.1]
    rw [e0] at e
    have e1 : run .none ((b + 42#8) :: stuffAux q (b + 42#8) t) = ⟨[], b :: d, after p' q', .none⟩ := by
      rw [run_none_cons]
      simp [stepNone, hc, e, Res.pre, sub42]
    refine ⟨p', q', ?_⟩
    rw [stuffAux]
    split
    · rename_i hd
      rw [show after p q = .crlf by simp [after, hd], run_crlf_cons, if_pos rfl, run_crlfdt_cons, if_neg (by decide), if_neg (by decide)]
      rw [hd.2.2] at e1
      rw [hd.2.2]
      exact e1
    · rename_i hd
      rw [run_plain p q _ _ hd hc.2.2.2 (fun _ => hc.2.1), e1]
  | @esc d t b hc h ih =>
    simp only [Critical, not_or] at hc
    obtain ⟨p', q', e⟩ := ih EQ (b + 106#8) (sub (sub hk))
    have e0 : after EQ (b + 106#8) = .none := by simp [after, hc.2.1, hc.2.2.1]
    rw [e0] at e
    have e1 : run .eq ((b + 106#8) :: stuffAux EQ (b + 106#8) t) = ⟨[], b :: d, after p' q', .none⟩ := by
      rw [run_eq_cons]
      have : b + 106#8 - 42#8 - 64#8 = b := by bv_omega
      simp [stepEq, hc, e, Res.pre, this]
    refine ⟨p', q', ?_⟩
    rw [stuffAux, if_neg (by simp [EQ, DOT]), stuffAux, if_neg (by simp [EQ, LF])]
    by_cases hs : p = CR ∧ q = LF
    · rw [show after p q = .crlf by simp [after, hs], run_crlf_cons, if_neg (by decide), if_pos rfl, run_crlfeq_cons, if_neg, e1]
      intro hy
      apply hk
      rw [hs.1, hs.2, hy]
      exact ⟨[], t, by simp⟩
    · rw [show run (after p q) (EQ :: (b + 106#8) :: stuffAux EQ (b + 106#8) t) = run .none (EQ :: (b + 106#8) :: stuffAux EQ (b + 106#8) t) by
        unfold after
        rw [if_neg hs]
        split
        · rw [run_cr_cons, if_neg (by decide)]
        · rfl]
      rw [run_none_cons]
      simp [stepNone, e1, Res.pre]
  | @cr d t h ih =>
    obtain ⟨p', q', e⟩ := ih q CR (sub hk)
    have e0 : after q CR = .cr := by simp [after, CR, LF]
    rw [e0] at e
    refine ⟨p', q', ?_⟩
    rw [stuffAux, if_neg (by simp [CR, DOT]), run_plain p q _ _ (by simp [CR, DOT]) (by decide) (fun _ => by decide), run_none_cons]
    simp [stepNone, CR, EQ] at *
    simp [e, Res.pre]
  | @lf d t h ih =>
    obtain ⟨p', q', e⟩ := ih q LF (sub hk)
    refine ⟨p', q', ?_⟩
    rw [stuffAux, if_neg (by simp [LF, DOT])]
    by_cases hq : q = CR
    · subst hq
      rw [show after p CR = .cr by simp [after, CR, LF], run_cr_cons, if_pos rfl]
      rw [show after CR LF = .crlf by simp [after]] at e
      exact e
    · rw [run_plain p q _ _ (by simp [LF, DOT]) (by decide) (fun h => absurd h hq), run_none_cons]
      rw [show after q LF = .none by simp [after, hq, LF, CR]] at e
      simp only [stepNone, show (LF = EQ) = False by simp [LF, EQ], show (LF = CR) = False by simp [LF, CR], if_false, if_true]
      rw [e]
      simp [Res.pre]

theorem no_escaped_break {d t : List Byte} (h : Encoding d t) (p q : Byte) : ¬ [EQ, CR] <:+: stuffAux p q t := by
  induction h generalizing p q with
  | nil => simp [stuffAux]
  | @chr d t b hc h ih =>
    simp only [Critical, not_or] at hc
    rw [stuffAux]
    split
    · rw [List.infix_cons_iff, List.infix_cons_iff]
      simp [DOT, EQ, ih]
    · rw [List.infix_cons_iff]
      have := hc.2.2.2
      simp [ih, Ne.symm this]
  | @esc d t b hc h ih =>
    simp only [Critical, not_or] at hc
    rw [stuffAux, if_neg (by simp [EQ, DOT]), stuffAux, if_neg (by simp [EQ, LF]), List.infix_cons_iff, List.infix_cons_iff]
    simp [ih, Ne.symm hc.2.2.1, Ne.symm hc.2.2.2]
  | @cr d t h ih => rw [stuffAux, if_neg (by simp [CR, DOT]), List.infix_cons_iff]; simp [ih, CR, EQ]
  | @lf d t h ih => rw [stuffAux, if_neg (by simp [LF, DOT]), List.infix_cons_iff]; simp [ih, LF, EQ]

theorem unstuffed {d t : List Byte} (h : Encoding d t) : ¬ [EQ, CR] <:+: t := by
  induction h with
  | nil => simp
  | @chr d t b hc h ih =>
    simp only [Critical, not_or] at hc
    rw [List.infix_cons_iff]
    simp [ih, Ne.symm hc.2.2.2]
  | @esc d t b hc h ih =>
    simp only [Critical, not_or] at hc
    rw [List.infix_cons_iff, List.infix_cons_iff]
    simp [ih, Ne.symm hc.2.2.1, Ne.symm hc.2.2.2]
  | @cr d t h ih => rw [List.infix_cons_iff]; simp [ih, CR, EQ]
  | @lf d t h ih => rw [List.infix_cons_iff]; simp [ih, LF, EQ]

theorem noKeyword {t : List Byte} (h : NoHeaderLine t) : Js.NoKeyword t := fun ⟨r, hr⟩ => h ⟨[], r, by rw [← hr]; simp⟩

/-- What this library writes. -/
theorem encoding_encode (ls : Nat) (fin : Bool) (col : Nat) (d : List Byte) : Encoding d (Spec.encode ls fin col d) := by
  have key : ∀ col last (c : Byte) d t, Encoding d t → Encoding (c :: d) (encChar ls col last (c + 42#8) ++ t) := by
    intro col last c d t h
    unfold encChar
    have h106 : c + 42#8 + 64#8 = c + 106#8 := by bv_omega
    by_cases hm : mustEscape ls col last (c + 42#8) = true
    · rw [if_pos hm, h106]
      refine .esc c ?_ h
      rw [← h106]
      generalize c + 42#8 = e at hm
      have he : critical e = true ∨ e = DOT ∨ e = TAB ∨ e = SP := by
        simp only [mustEscape, Bool.or_eq_true, Bool.and_eq_true, decide_eq_true_eq] at hm
        tauto
      clear hm
      revert e
      unfold Critical
      decide +kernel
    · rw [if_neg hm]
      refine .chr c ?_ h
      simp only [mustEscape, Bool.or_eq_true, not_or] at hm
      have := hm.1.1
      simp only [critical, Critical] at *
      simp at this
      tauto
  induction d generalizing col with
  | nil => exact .nil
  | cons c d ih =>
    rw [Spec.encode]
    split
    · rw [List.cons_append, List.cons_append]
      exact .cr (.lf (key _ _ _ _ _ (ih _)))
    · exact key _ _ _ _ _ (ih _)

end Yenc.Interop
