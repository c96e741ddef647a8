import Verif.Lemmas.DecSpec
import Mathlib.Tactic.ByContra
/-! Plain decoding, chunking, and exactness of end detection. -/
namespace Yenc.Dec
open Yenc

/-! ### The plain decoder -/

theorem loopPlain_short (l out : List Byte) : (loopPlain l out).1.length ≤ 1 := by
  fun_induction loopPlain l out <;> try assumption
  rename_i l out h
  rcases l with _ | ⟨a, _ | ⟨b, l⟩⟩
  · simp
  · simp
  · exact absurd rfl (h a b l)

theorem loopPlain_spec (l out : List Byte) :
    (loopPlain l out).2 ++ Spec.yDecode (loopPlain l out).1 = out ++ Spec.yDecode l := by
  have h106 : ∀ c : Byte, c - 64#8 - 42#8 = c - 106#8 := by decide +kernel
  fun_induction loopPlain l out
  case case1 a b r out h ih => rw [ih, yDecode_cons a, if_pos h.symm]
  case case2 b r out h ih =>
    rw [ih, yDecode_cons EQ]
    simp [yFrom, h106]
  case case3 a b r out h1 h2 ih =>
    rw [ih, yDecode_cons a]
    have : ¬ (a = CR ∨ a = LF) := fun h => h1 h.symm
    simp [this, h2]
  case case4 => rfl

theorem noendPlain_spec (st : Option State) (l : List Byte) :
    (noendPlain st l).1 = yFrom (st = some .eq) l := by
  have h106 : ∀ c : Byte, c - 42#8 - 64#8 = c - 106#8 := by decide +kernel
  rcases l with _ | ⟨c, cs⟩
  · simp [noendPlain, yFrom, Spec.yDecode]
  simp only [noendPlain]
  generalize hs : (if st = some .eq then (cs, [c - 42#8 - 64#8]) else (c :: cs, [])) = s
  have h1 := loopPlain_short s.1 s.2
  have h2 := loopPlain_spec s.1 s.2
  have hs2 : s.2 ++ Spec.yDecode s.1 = yFrom (st = some .eq) (c :: cs) := by
    rw [← hs]; by_cases h : st = some .eq <;> simp [h, yFrom, h106]
  rw [hs2] at h2
  rw [← h2]
  generalize loopPlain s.1 s.2 = r at *
  obtain ⟨r1, r2⟩ := r
  rcases r1 with _ | ⟨a, _ | ⟨b, r1⟩⟩
  · simp [Spec.yDecode]
  · simp only
    rw [yDecode_cons]
    by_cases c1 : a = EQ
    · subst c1; simp [yFrom]
    · by_cases c2 : a = CR
      · subst c2; simp [Spec.yDecode]
      · by_cases c3 : a = LF
        · subst c3; simp [Spec.yDecode]
        · simp [c1, c2, c3, Spec.yDecode]
  · simp at h1

/-! ### Chunking -/

/-- Forget end detection. -/
def State.forget : State → State
  | .crlfdt => .none
  | .crlfdtcr => .cr
  | .crlfeq => .eq
  | s => s

theorem step_forget (st : State) (c : Byte) (h : (step st c).2.2 = .none) :
    nstep st.forget c = ((step st c).1.forget, (step st c).2.1) := by
  revert h
  cases st <;> simp only [step, nstep, State.forget, stepNone, stepEq] <;> (repeat' split) <;>
    simp_all

theorem run_append (st : State) (a b : List Byte) (h : (run st a).ended = .none) :
    run st (a ++ b) = (run (run st a).state b).pre (run st a).out := by
  induction a generalizing st with
  | nil => simp [run, Res.pre]
  | cons c cs ih =>
    simp only [run, List.cons_append] at h ⊢
    by_cases hc : (step st c).2.2 = .none
    · simp only [hc, if_true] at h ⊢
      rw [ih _ h]
      simp [Res.pre]
    · simp [hc] at h

theorem run_append_ended (st : State) (a b : List Byte) (h : (run st a).ended ≠ .none) :
    run st (a ++ b) = ⟨(run st a).rest ++ b, (run st a).out, (run st a).state, (run st a).ended⟩ := by
  induction a generalizing st with
  | nil => simp [run] at h
  | cons c cs ih =>
    simp only [run, List.cons_append] at h ⊢
    by_cases hc : (step st c).2.2 = .none
    · simp only [hc, if_true] at h ⊢
      rw [ih _ h]
    · simp [hc]

theorem run_rest_of_not_ended (st : State) (l : List Byte) (h : (run st l).ended = .none) : (run st l).rest = [] := by
  induction l generalizing st with
  | nil => rfl
  | cons c cs ih =>
    simp only [run] at h ⊢
    by_cases hc : (step st c).2.2 = .none
    · simp only [hc, if_true] at h ⊢; exact ih _ h
    · simp [hc] at h

/-- The unread bytes are a suffix of the input. -/
theorem run_consumed (st : State) (l : List Byte) : ∃ q, l = q ++ (run st l).rest := by
  induction l generalizing st with
  | nil => exact ⟨[], rfl⟩
  | cons c cs ih =>
    simp only [run]
    by_cases hc : (step st c).2.2 = .none
    · obtain ⟨q, hq⟩ := ih (step st c).1
      refine ⟨c :: q, ?_⟩
      simp only [hc, if_true, List.cons_append]; rw [← hq]
    · exact ⟨[c], by simp [hc]⟩

/-- If the run ends, it does so on the last byte it reads, and not before. -/
theorem run_split (st : State) (l : List Byte) (h : (run st l).ended ≠ .none) :
    ∃ q c, l = q ++ c :: (run st l).rest ∧ (run st q).ended = .none ∧
      step (run st q).state c = ((run st l).state, [], (run st l).ended) ∧ (run st l).out = (run st q).out := by
  induction l generalizing st with
  | nil => simp [run] at h
  | cons c cs ih =>
    simp only [run] at h ⊢
    by_cases hc : (step st c).2.2 = .none
    · simp only [hc, if_true] at h ⊢
      obtain ⟨q, d, h1, h2, h3, h4⟩ := ih _ h
      refine ⟨c :: q, d, by rw [List.cons_append, ← h1], ?_⟩
      simp only [run, hc, if_true]
      exact ⟨h2, h3, by rw [h4]⟩
    · refine ⟨[], c, by simp [hc], rfl, ?_⟩
      have : (step st c).2.1 = [] := by
        revert hc
        cases st <;> simp only [step] <;> (repeat' split) <;> simp_all
      simp only [hc, if_false, this, run_nil]
      exact ⟨by rw [← this], trivial⟩

theorem run_forget (st : State) (l : List Byte) (h : (run st l).ended = .none) :
    nrun st.forget l = ((run st l).out, (run st l).state.forget) := by
  induction l generalizing st with
  | nil => rfl
  | cons c cs ih =>
    simp only [run, nrun] at h ⊢
    by_cases hc : (step st c).2.2 = .none
    · simp only [hc, if_true] at h ⊢
      rw [step_forget st c hc, ih _ h]
    · simp [hc] at h

/-! ### End detection -/

/-- What the state says about the bytes read before (`h`: most recent first). -/
def Inv (st : State) (h : List Byte) : Prop :=
  (st = .crlf ↔ h[0]? = some LF ∧ h[1]? = some CR) ∧
  (st = .crlfdt ↔ h[0]? = some DOT ∧ h[1]? = some LF ∧ h[2]? = some CR) ∧
  (st = .crlfdtcr ↔ h[0]? = some CR ∧ h[1]? = some DOT ∧ h[2]? = some LF ∧ h[3]? = some CR) ∧
  (st = .crlfeq ↔ h[0]? = some EQ ∧ ((h[1]? = some LF ∧ h[2]? = some CR) ∨
      (h[1]? = some DOT ∧ h[2]? = some LF ∧ h[3]? = some CR))) ∧
  ((st = .cr ∨ st = .crlfdtcr) ↔ h[0]? = some CR)

theorem Inv_init : Inv .crlf [LF, CR] := by unfold Inv; simp

/-- Is there an end mark at the end of the reversed text? -/
def revArticle (h : List Byte) : Prop :=
  h[0]? = some LF ∧ h[1]? = some CR ∧ h[2]? = some DOT ∧ h[3]? = some LF ∧ h[4]? = some CR
def revControl (h : List Byte) : Prop :=
  h[0]? = some LY ∧ h[1]? = some EQ ∧ ((h[2]? = some LF ∧ h[3]? = some CR) ∨
      (h[2]? = some DOT ∧ h[3]? = some LF ∧ h[4]? = some CR))

theorem Inv_step (st : State) (h : List Byte) (c : Byte) (hi : Inv st h) :
    ((step st c).2.2 = .article ↔ revArticle (c :: h)) ∧
    ((step st c).2.2 = .control ↔ revControl (c :: h)) ∧
    ((step st c).2.2 = .none → Inv (step st c).1 (c :: h)) := by
  unfold Inv revArticle revControl at *
  simp only [List.getElem?_cons_zero, List.getElem?_cons_succ, Option.some.injEq] at *
  obtain ⟨i1, i2, i3, i4, i5⟩ := hi
  generalize h[0]? = a at *
  generalize h[1]? = b at *
  generalize h[2]? = d at *
  generalize h[3]? = e at *
  by_cases c1 : c = EQ
  · subst c1; cases st <;> simp [step, stepNone, stepEq] at i1 i2 i3 i4 i5 ⊢ <;> grind
  by_cases c2 : c = CR
  · subst c2; cases st <;> simp [step, stepNone, stepEq] at i1 i2 i3 i4 i5 ⊢ <;> grind
  by_cases c3 : c = LF
  · subst c3; cases st <;> simp [step, stepNone, stepEq] at i1 i2 i3 i4 i5 ⊢ <;> grind
  by_cases c4 : c = DOT
  · subst c4; cases st <;> simp [step, stepNone, stepEq] at i1 i2 i3 i4 i5 ⊢ <;> grind
  by_cases c5 : c = LY
  · subst c5; cases st <;> simp [step, stepNone, stepEq] at i1 i2 i3 i4 i5 ⊢ <;> grind
  cases st <;> simp [step, stepNone, stepEq, c1, c2, c3, c4, c5] at i1 i2 i3 i4 i5 ⊢

/-- Invariant after a run that has not ended. -/
theorem Inv_run (st : State) (h : List Byte) (l : List Byte) (hi : Inv st h) (he : (run st l).ended = .none) :
    Inv (run st l).state (l.reverse ++ h) := by
  induction l generalizing st h with
  | nil => simpa [run] using hi
  | cons c cs ih =>
    simp only [run] at he ⊢
    by_cases hc : (step st c).2.2 = .none
    · simp only [hc, if_true] at he ⊢
      have := ih _ (c :: h) ((Inv_step st h c hi).2.2 hc) he
      simpa using this
    · simp [hc] at he

theorem suffix_iff_rev (p s : List Byte) : p <:+ s ↔ p.reverse <+: s.reverse := by
  rw [List.reverse_prefix]

theorem EndsArticle_iff (s : List Byte) : Spec.EndsArticle s ↔ revArticle s.reverse := by
  unfold Spec.EndsArticle revArticle
  rw [suffix_iff_rev]
  generalize s.reverse = h
  rcases h with _ | ⟨a, _ | ⟨b, _ | ⟨c, _ | ⟨d, _ | ⟨e, t⟩⟩⟩⟩⟩ <;> simp [List.cons_prefix_cons] <;> grind

theorem EndsControl_iff (s : List Byte) : Spec.EndsControl s ↔ revControl s.reverse := by
  unfold Spec.EndsControl revControl
  rw [suffix_iff_rev, suffix_iff_rev]
  generalize s.reverse = h
  rcases h with _ | ⟨a, _ | ⟨b, _ | ⟨c, _ | ⟨d, _ | ⟨e, t⟩⟩⟩⟩⟩ <;> simp [List.cons_prefix_cons] <;> grind

/-- A run that has not ended has seen no end mark (`h`: what precedes the input). -/
theorem run_none_iff (st : State) (h : List Byte) (l : List Byte) (hi : Inv st h.reverse) :
    (run st l).ended = .none ↔
      ∀ q, q <+: l → q ≠ [] → ¬ Spec.EndsArticle (h ++ q) ∧ ¬ Spec.EndsControl (h ++ q) := by
  constructor
  · intro he q hq hne
    obtain ⟨t, rfl⟩ := hq
    obtain ⟨q', c, rfl⟩ : ∃ q' c, q = q' ++ [c] := ⟨_, _, (List.dropLast_concat_getLast hne).symm⟩
    have h1 : (run st q').ended = .none := by
      by_contra hcon
      rw [List.append_assoc, run_append_ended _ _ _ hcon] at he
      exact hcon he
    have h2 : (run st (q' ++ [c])).ended = .none := by
      by_contra hcon
      rw [run_append_ended _ _ _ hcon] at he
      exact hcon he
    rw [run_append _ _ _ h1] at h2
    have h3 := Inv_run st h.reverse q' hi h1
    have h4 := Inv_step _ _ c h3
    have h5 : (step (run st q').state c).2.2 = .none := by
      by_contra hcon
      simp [run, Res.pre, hcon] at h2
    rw [EndsArticle_iff, EndsControl_iff]
    have h6 : (h ++ (q' ++ [c])).reverse = c :: (q'.reverse ++ h.reverse) := by simp
    rw [h6, ← h4.1, ← h4.2.1, h5]
    simp
  · intro hh
    by_contra hcon
    obtain ⟨q, c, h1, h2, h3, h4⟩ := run_split st l hcon
    have h5 := Inv_run st h.reverse q hi h2
    have h6 := Inv_step _ _ c h5
    have h7 := hh (q ++ [c]) ⟨(run st l).rest, by rw [List.append_assoc]; exact h1.symm⟩ (by simp)
    rw [EndsArticle_iff, EndsControl_iff] at h7
    have h8 : (h ++ (q ++ [c])).reverse = c :: (q.reverse ++ h.reverse) := by simp
    rw [h8, ← h6.1, ← h6.2.1, h3] at h7
    simp at h7
    revert h7 hcon
    cases (run st l).ended <;> simp

/-- A run that ended did so at the first end mark, of the reported kind. -/
theorem run_ended_spec (st : State) (h : List Byte) (l : List Byte) (hi : Inv st h.reverse)
    (he : (run st l).ended ≠ .none) :
    ∃ q c, l = q ++ c :: (run st l).rest ∧
      ((run st l).ended = .article ↔ Spec.EndsArticle (h ++ (q ++ [c]))) ∧
      ((run st l).ended = .control ↔ Spec.EndsControl (h ++ (q ++ [c]))) ∧
      (∀ q', q' <+: q → q' ≠ [] → ¬ Spec.EndsArticle (h ++ q') ∧ ¬ Spec.EndsControl (h ++ q')) ∧
      (run st q).ended = .none ∧ (run st l).out = (run st q).out ∧
      step (run st q).state c = ((run st l).state, [], (run st l).ended) := by
  obtain ⟨q, c, h1, h2, h3, h4⟩ := run_split st l he
  have h5 := Inv_run st h.reverse q hi h2
  have h6 := Inv_step _ _ c h5
  have h8 : (h ++ (q ++ [c])).reverse = c :: (q.reverse ++ h.reverse) := by simp
  refine ⟨q, c, h1, ?_, ?_, (run_none_iff st h q hi).mp h2, h2, h4, h3⟩
  · rw [EndsArticle_iff, h8, ← h6.1, h3]
  · rw [EndsControl_iff, h8, ← h6.2.1, h3]

end Yenc.Dec
