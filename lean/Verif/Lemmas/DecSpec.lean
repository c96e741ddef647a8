import Verif.Lemmas.DecAutomaton
/-! The decoder automata compute the two-layer reference decoding, and stop exactly at the end marks. -/
namespace Yenc.Dec
open Yenc

/-! ### The decoder without end detection -/

/-- One byte of `do_decode_noend_scalar<true>`. -/
def nstep (st : State) (c : Byte) : State × List Byte :=
  match st with
  | .eq => stepEq c
  | .cr => if c = LF then (.crlf, []) else stepNone c
  | .crlf => if c = DOT then (.none, []) else stepNone c
  | _ => stepNone c

def nrun : State → List Byte → List Byte × State
  | st, [] => ([], st)
  | st, c :: cs => ((nstep st c).2 ++ (nrun (nstep st c).1 cs).1, (nrun (nstep st c).1 cs).2)

def npre (out : List Byte) (r : List Byte × State) : List Byte × State := (out ++ r.1, r.2)

theorem npre_nil (r) : npre [] r = r := rfl
theorem npre_npre (a b r) : npre a (npre b r) = npre (a ++ b) r := by simp [npre]

theorem nrun_append (st : State) (a b : List Byte) :
    nrun st (a ++ b) = npre (nrun st a).1 (nrun (nrun st a).2 b) := by
  induction a generalizing st with
  | nil => simp [nrun, npre]
  | cons c cs ih => simp [nrun, ih, npre]

theorem nrun_none_cr (cs : List Byte) : nrun .none (CR :: cs) = nrun .cr cs := by
  simp [nrun, nstep, stepNone]
theorem nrun_none_lf (cs : List Byte) : nrun .none (LF :: cs) = nrun .none cs := by
  simp [nrun, nstep, stepNone]
theorem nrun_none_eq (cs : List Byte) : nrun .none (EQ :: cs) = nrun .eq cs := by
  simp [nrun, nstep, stepNone]
theorem nrun_none_plain (c : Byte) (cs : List Byte) (h1 : c ≠ EQ) (h2 : c ≠ CR) (h3 : c ≠ LF) :
    nrun .none (c :: cs) = npre [c - 42#8] (nrun .none cs) := by
  simp [nrun, nstep, stepNone, h1, h2, h3, npre]
theorem nrun_eq_cr (cs : List Byte) : nrun .eq (CR :: cs) = npre [CR - 42#8 - 64#8] (nrun .none (CR :: cs)) := by
  simp [nrun, nstep, stepNone, stepEq, npre]
theorem nrun_eq_ne (c : Byte) (cs : List Byte) (h : c ≠ CR) :
    nrun .eq (c :: cs) = npre [c - 42#8 - 64#8] (nrun .none cs) := by
  simp [nrun, nstep, stepEq, h, npre]
theorem nrun_cr_cons (c : Byte) (cs : List Byte) :
    nrun .cr (c :: cs) = if c = LF then nrun .crlf cs else nrun .none (c :: cs) := by
  by_cases h : c = LF
  · subst h; simp [nrun, nstep]
  · simp [nrun, nstep, h]
theorem nrun_crlf_cons (c : Byte) (cs : List Byte) :
    nrun .crlf (c :: cs) = if c = DOT then nrun .none cs else nrun .none (c :: cs) := by
  by_cases h : c = DOT
  · subst h; simp [nrun, nstep]
  · simp [nrun, nstep, h]
theorem nrun_nil (st : State) : nrun st [] = ([], st) := rfl

theorem last1_neq (l : List Byte) (out : List Byte) (hl : l.length ≤ 1) :
    last1 l out = npre out (nrun .none l) := by
  have h := last1_eq l out hl
  have h2 : ((run .none l).out, (run .none l).state) = nrun .none l := by
    rcases l with _ | ⟨c, _ | ⟨d, l⟩⟩
    · rfl
    · simp [run, nrun, step, nstep]
    · simp at hl
  simp only [Res.pre, Res.mk.injEq] at h
  rw [← h2, npre]
  exact Prod.ext h.2.1 h.2.2.1

theorem last2_neq (l : List Byte) (out : List Byte) (hl : l.length ≤ 2) :
    last2 true l out = npre out (nrun .none l) := by
  rcases l with _ | ⟨a, _ | ⟨b, _ | ⟨c, l⟩⟩⟩
  · exact last1_neq [] out (by simp)
  · exact last1_neq [a] out (by simp)
  · simp only [last2]
    have key := fun o => last1_neq [b] o (by simp)
    by_cases h2 : a = CR
    · subst h2
      rw [nrun_none_cr, nrun_cr_cons]
      by_cases h3 : b = LF
      · subst h3; simp [nrun_nil, npre]
      · simp [h3, key]
    · by_cases h3 : a = LF
      · subst h3; rw [nrun_none_lf]; simp [key]
      · by_cases h1 : a = EQ
        · subst h1
          rw [nrun_none_eq]
          by_cases h4 : b = CR
          · subst h4; rw [nrun_eq_cr, npre_npre, ← key]; simp
          · rw [nrun_eq_ne _ _ h4]; simp [h4, nrun_nil, npre]
        · rw [nrun_none_plain a _ h1 h2 h3, npre_npre, ← key]; simp [h1, h2, h3]
  · simp at hl

/-- Without a state pointer only the output matters. -/
theorem last2_false (l out : List Byte) : (last2 false l out).1 = (last2 true l out).1 := by
  rcases l with _ | ⟨a, _ | ⟨b, _ | ⟨c, l⟩⟩⟩ <;> simp [last2]
  by_cases h : a = CR <;> simp [h]
  by_cases h2 : b = LF <;> simp [h2, last1]

theorem loopRaw_eq (l out : List Byte) :
    last2 true (loopRaw l out).1 (loopRaw l out).2 = npre out (nrun .none l) := by
  fun_induction loopRaw l out
  all_goals try (simp_all [nrun_none_cr, nrun_none_lf, nrun_none_eq, nrun_cr_cons, nrun_crlf_cons, npre,
      nrun_none_plain, nrun_eq_ne, nrun_eq_cr]; done)
  case case7 l out h => exact last2_neq l out (short_of_no_match h)
  case case2 b c r out h2 ih =>
    rw [ih, nrun_none_cr, nrun_cr_cons]
    by_cases hb : b = LF
    · subst hb
      have : c ≠ DOT := fun hc => h2 ⟨rfl, hc⟩
      rw [nrun_none_lf, if_pos rfl, nrun_crlf_cons, if_neg this]
    · rw [if_neg hb]

/-- The two inputs on which the code forgets a byte it has written: `=` was the last byte before, and the buffer is
just CR or CR LF. -/
def lossy (st : Option State) (l : List Byte) : Prop := st = some .eq ∧ (l = [CR] ∨ l = [CR, LF])

instance (st l) : Decidable (lossy st l) := by unfold lossy; infer_instance

theorem noendRaw_null (l : List Byte) : noendRaw none l = some ((nrun .crlf l).1, none) := by
  rcases l with _ | ⟨c, cs⟩
  · simp [noendRaw, nrun]
  · simp only [noendRaw, preRaw, preCrlf, nrun_crlf_cons]
    by_cases h : c = DOT
    · subst h; simp [last2_false, loopRaw_eq, npre]
    · simp [h, last2_false, loopRaw_eq, npre]

theorem noendRaw_state (st : State) (l : List Byte) (h : ¬ lossy (some st) l)
    (hst : st = .crlf ∨ st = .eq ∨ st = .cr ∨ st = .none) :
    noendRaw (some st) l = some ((nrun st l).1, some (nrun st l).2) := by
  rcases l with _ | ⟨c, cs⟩
  · simp [noendRaw, nrun]
  have hcr : ∀ (c : Byte) (cs out : List Byte), (cs ≠ [] ∨ c ≠ LF ∨ out = []) →
      ∃ p, preCr (c :: cs) out = some p ∧
        (match p with
         | .ret o s => (o, s)
         | .go r o => last2 true (loopRaw r o).1 (loopRaw r o).2) = npre out (nrun .cr (c :: cs)) := by
    intro c cs out hh
    unfold preCr
    by_cases hc : c = LF
    · subst hc
      rcases cs with _ | ⟨d, ds⟩
      · simp at hh; subst hh
        simp [nrun_cr_cons, nrun_nil, npre]
      · by_cases hd : d = DOT
        · subst hd; simp [nrun_cr_cons, nrun_crlf_cons, loopRaw_eq]
        · simp [nrun_cr_cons, nrun_crlf_cons, loopRaw_eq, hd]
    · simp [nrun_cr_cons, hc, loopRaw_eq]
  rcases hst with rfl | rfl | rfl | rfl
  · simp only [noendRaw, preRaw, preCrlf, nrun_crlf_cons]
    by_cases h : c = DOT
    · subst h; simp [loopRaw_eq, npre]
    · simp [h, loopRaw_eq, npre]
  · by_cases hc : c = CR
    · subst hc
      rcases cs with _ | ⟨d, ds⟩
      · exact absurd ⟨rfl, Or.inl rfl⟩ h
      · have : ds ≠ [] ∨ d ≠ LF ∨ [CR - 42#8 - 64#8] = [] := by
          by_cases hd : d = LF
          · subst hd
            left; intro hds; subst hds; exact h ⟨rfl, Or.inr rfl⟩
          · exact Or.inr (Or.inl hd)
        obtain ⟨p, p1, p2⟩ := hcr d ds [CR - 42#8 - 64#8] this
        rw [nrun_eq_cr, nrun_none_cr, ← p2]
        simp only [noendRaw, preRaw]
        simp only [reduceCtorEq, if_false, if_true, p1]
        cases p <;> simp
    · simp only [noendRaw, preRaw]
      simp [hc, nrun_eq_ne, loopRaw_eq]
  · obtain ⟨p, p1, p2⟩ := hcr c cs [] (by simp)
    simp only [npre_nil] at p2
    rw [← p2]
    simp only [noendRaw, preRaw]
    simp only [reduceCtorEq, if_false, p1]
    cases p <;> simp
  · simp [noendRaw, preRaw, loopRaw_eq, npre_nil]

/-! ### Two layers -/

/-- Decoding when the previous byte may have been an unused `=`. -/
def yFrom (pend : Bool) (l : List Byte) : List Byte :=
  if pend then (match l with | [] => [] | d :: ds => (d - 106#8) :: Spec.yDecode ds) else Spec.yDecode l

theorem yDecode_cons (c : Byte) (cs : List Byte) :
    Spec.yDecode (c :: cs) = if c = CR ∨ c = LF then Spec.yDecode cs
      else if c = EQ then yFrom true cs else (c - 42#8) :: Spec.yDecode cs := by
  unfold yFrom
  simp only [if_true]
  conv => lhs; unfold Spec.yDecode
  rfl

theorem nrun_two_layer (st : State) (l : List Byte) (p q : Byte)
    (h0 : st = .crlf ∨ st = .eq ∨ st = .cr ∨ st = .none)
    (h1 : st = .crlf ↔ p = CR ∧ q = LF) (h2 : st = .cr ↔ q = CR) :
    (nrun st l).1 = yFrom (st = .eq) (Spec.unstuffAux p q l) := by
  have h106 : ∀ c : Byte, c - 42#8 - 64#8 = c - 106#8 := by decide +kernel
  induction l generalizing st p q with
  | nil => cases st <;> simp [nrun, Spec.unstuffAux, yFrom, Spec.yDecode]
  | cons c cs ih =>
    simp only [nrun, Spec.unstuffAux]
    by_cases hd : p = CR ∧ q = LF ∧ c = DOT
    · have hst : st = .crlf := h1.mpr ⟨hd.1, hd.2.1⟩
      subst hst
      obtain ⟨rfl, rfl, rfl⟩ := hd
      simp only [nstep, if_true, and_self, List.nil_append]
      rw [ih .none LF DOT (by simp) (by simp) (by simp)]
      simp
    · rw [if_neg hd]
      have key : (nstep st c).2 ++ (nrun (nstep st c).1 cs).1 = (nstep st c).2 ++
          yFrom ((nstep st c).1 = .eq) (Spec.unstuffAux q c cs) := by
        rw [ih (nstep st c).1 q c]
        · rcases h0 with rfl | rfl | rfl | rfl <;> simp only [nstep, stepNone, stepEq] <;> (repeat' split) <;> simp
        · rcases h0 with rfl | rfl | rfl | rfl <;> simp only [nstep, stepNone, stepEq] <;> (repeat' split) <;> simp_all
        · rcases h0 with rfl | rfl | rfl | rfl <;> simp only [nstep, stepNone, stepEq] <;> (repeat' split) <;> simp_all
      rw [key]
      have hn : (stepNone c).2 ++ yFrom ((stepNone c).1 = .eq) (Spec.unstuffAux q c cs) =
          Spec.yDecode (c :: Spec.unstuffAux q c cs) := by
        rw [yDecode_cons]
        unfold stepNone
        by_cases c1 : c = EQ
        · subst c1; simp
        · by_cases c2 : c = CR
          · subst c2; simp [yFrom]
          · by_cases c3 : c = LF
            · subst c3; simp [yFrom]
            · simp [c1, c2, c3, yFrom]
      rcases h0 with rfl | rfl | rfl | rfl
      · have : c ≠ DOT := fun hc => hd ⟨(h1.mp rfl).1, (h1.mp rfl).2, hc⟩
        simp only [nstep, this, if_false]
        rw [hn]; simp [yFrom]
      · simp only [nstep, stepEq, yFrom, decide_true, if_true]
        split <;> simp [h106]
      · simp only [nstep]
        by_cases c3 : c = LF
        · subst c3; simp [yFrom, yDecode_cons]
        · simp only [c3, if_false]; exact hn.trans (by simp [yFrom])
      · simp only [nstep]
        exact hn.trans (by simp [yFrom])

theorem nrun_crlf_spec (l : List Byte) : (nrun .crlf l).1 = Spec.decode true l := by
  rw [nrun_two_layer .crlf l CR LF (by simp) (by simp) (by simp)]
  simp [yFrom, Spec.decode, Spec.unstuff]

end Yenc.Dec
