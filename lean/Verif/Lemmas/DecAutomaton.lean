import Verif.Spec.YEnc
import Verif.Model.DecoderScalar
/-! The scalar decoders as byte-at-a-time automata. -/
namespace Yenc.Dec
open Yenc

/-- A byte that is at no special place. -/
def stepNone (c : Byte) : State × List Byte :=
  if c = EQ then (.eq, []) else if c = CR then (.cr, []) else if c = LF then (.none, []) else (.none, [c - 42#8])

/-- A byte after `=`. -/
def stepEq (c : Byte) : State × List Byte :=
  if c = CR then (.cr, [c - 42#8 - 64#8]) else (.none, [c - 42#8 - 64#8])

/-- One byte of `do_decode_end_scalar<true>`. -/
def step (st : State) (c : Byte) : State × List Byte × Ended :=
  let n (r : State × List Byte) : State × List Byte × Ended := (r.1, r.2, .none)
  match st with
  | .none => n (stepNone c)
  | .eq => n (stepEq c)
  | .cr => if c = LF then (.crlf, [], .none) else n (stepNone c)
  | .crlf => if c = DOT then (.crlfdt, [], .none) else if c = EQ then (.crlfeq, [], .none) else n (stepNone c)
  | .crlfdt => if c = CR then (.crlfdtcr, [], .none) else if c = EQ then (.crlfeq, [], .none) else n (stepNone c)
  | .crlfdtcr => if c = LF then (.crlf, [], .article) else n (stepNone c)
  | .crlfeq => if c = LY then (.none, [], .control) else n (stepEq c)

/-- Feed bytes to the automaton until it ends. -/
def run : State → List Byte → Res
  | st, [] => ⟨[], [], st, .none⟩
  | st, c :: cs =>
    if (step st c).2.2 = .none then
      let r := run (step st c).1 cs
      ⟨r.rest, (step st c).2.1 ++ r.out, r.state, r.ended⟩
    else ⟨cs, (step st c).2.1, (step st c).1, (step st c).2.2⟩

def Res.pre (out : List Byte) (r : Res) : Res := ⟨r.rest, out ++ r.out, r.state, r.ended⟩

theorem Res.pre_nil (r : Res) : r.pre [] = r := rfl
theorem Res.pre_pre (a b : List Byte) (r : Res) : (r.pre b).pre a = r.pre (a ++ b) := by
  simp [Res.pre]

theorem run_nil (st : State) : run st [] = ⟨[], [], st, .none⟩ := rfl

theorem run_none_cons (c : Byte) (cs : List Byte) :
    run .none (c :: cs) = (run (stepNone c).1 cs).pre (stepNone c).2 := by
  simp [run, step, Res.pre]

theorem run_eq_cons (c : Byte) (cs : List Byte) :
    run .eq (c :: cs) = (run (stepEq c).1 cs).pre (stepEq c).2 := by
  simp [run, step, Res.pre]

/-- After `=`, a CR is looked at again as the possible start of a line break. -/
theorem run_eq_cr (cs : List Byte) : run .eq (CR :: cs) = (run .none (CR :: cs)).pre [CR - 42#8 - 64#8] := by
  rw [run_eq_cons, run_none_cons]; simp [stepEq, stepNone, Res.pre]

theorem run_eq_ne (c : Byte) (cs : List Byte) (h : c ≠ CR) :
    run .eq (c :: cs) = (run .none cs).pre [c - 42#8 - 64#8] := by
  rw [run_eq_cons]; simp [stepEq, h]

theorem run_cr_cons (c : Byte) (cs : List Byte) :
    run .cr (c :: cs) = if c = LF then run .crlf cs else run .none (c :: cs) := by
  by_cases h : c = LF
  · subst h; simp [run, step]
  · simp [run, step, h]

theorem run_crlf_cons (c : Byte) (cs : List Byte) :
    run .crlf (c :: cs) = if c = DOT then run .crlfdt cs else if c = EQ then run .crlfeq cs else run .none (c :: cs) := by
  by_cases h : c = DOT
  · subst h; simp [run, step]
  · by_cases h2 : c = EQ
    · subst h2; simp [run, step]
    · simp [run, step, h, h2]

theorem run_crlfdt_cons (c : Byte) (cs : List Byte) :
    run .crlfdt (c :: cs) = if c = CR then run .crlfdtcr cs else if c = EQ then run .crlfeq cs else run .none (c :: cs) := by
  by_cases h : c = CR
  · subst h; simp [run, step]
  · by_cases h2 : c = EQ
    · subst h2; simp [run, step]
    · simp [run, step, h, h2]

theorem run_crlfdtcr_cons (c : Byte) (cs : List Byte) :
    run .crlfdtcr (c :: cs) = if c = LF then ⟨cs, [], .crlf, .article⟩ else run .none (c :: cs) := by
  by_cases h : c = LF
  · subst h; simp [run, step]
  · simp [run, step, h]

theorem run_crlfeq_cons (c : Byte) (cs : List Byte) :
    run .crlfeq (c :: cs) = if c = LY then ⟨cs, [], .none, .control⟩ else run .eq (c :: cs) := by
  by_cases h : c = LY
  · subst h; simp [run, step]
  · simp [run, step, h]

theorem run_none_cr (cs : List Byte) : run .none (CR :: cs) = run .cr cs := by
  rw [run_none_cons]; simp [stepNone, Res.pre]
theorem run_none_lf (cs : List Byte) : run .none (LF :: cs) = run .none cs := by
  rw [run_none_cons]; simp [stepNone, Res.pre]
theorem run_none_eq (cs : List Byte) : run .none (EQ :: cs) = run .eq cs := by
  rw [run_none_cons]; simp [stepNone, Res.pre]
theorem run_none_plain (c : Byte) (cs : List Byte) (h1 : c ≠ EQ) (h2 : c ≠ CR) (h3 : c ≠ LF) :
    run .none (c :: cs) = (run .none cs).pre [c - 42#8] := by
  rw [run_none_cons]; simp [stepNone, h1, h2, h3]

theorem last1_eq (l : List Byte) (out : List Byte) (hl : l.length ≤ 1) :
    (⟨[], (last1 l out).1, (last1 l out).2, .none⟩ : Res) = (run .none l).pre out := by
  rcases l with _ | ⟨c, _ | ⟨d, l⟩⟩
  · simp [last1, run, Res.pre]
  · rw [run_none_cons, run_nil]
    simp only [last1, stepNone, Res.pre]
    by_cases h1 : c = EQ
    · subst h1; simp
    · by_cases h2 : c = CR
      · subst h2; simp
      · by_cases h3 : c = LF
        · subst h3; simp
        · simp [h1, h2, h3]
  · simp at hl

theorem last2_eq (l : List Byte) (out : List Byte) (hl : l.length ≤ 2) :
    (⟨[], (last2 true l out).1, (last2 true l out).2, .none⟩ : Res) = (run .none l).pre out := by
  rcases l with _ | ⟨a, _ | ⟨b, _ | ⟨c, l⟩⟩⟩
  · exact last1_eq [] out (by simp)
  · exact last1_eq [a] out (by simp)
  · simp only [last2]
    have key := fun o => last1_eq [b] o (by simp)
    by_cases h2 : a = CR
    · subst h2
      rw [run_none_cr, run_cr_cons]
      by_cases h3 : b = LF
      · subst h3; simp [run_nil, Res.pre]
      · simp [h3, key]
    · by_cases h3 : a = LF
      · subst h3; rw [run_none_lf]; simp [key]
      · by_cases h1 : a = EQ
        · subst h1
          rw [run_none_eq]
          by_cases h4 : b = CR
          · subst h4; rw [run_eq_cr, Res.pre_pre, ← key]; simp
          · rw [run_eq_ne _ _ h4]; simp [h4, run_nil, Res.pre]
        · rw [run_none_plain a _ h1 h2 h3, Res.pre_pre, ← key]; simp [h1, h2, h3]
  · simp at hl

theorem short_of_no_match {l : List Byte} (h : ∀ a b c r, l = a :: b :: c :: r → False) : l.length ≤ 2 := by
  rcases l with _ | ⟨a, _ | ⟨b, _ | ⟨c, l⟩⟩⟩
  · simp
  · simp
  · simp
  · exact absurd rfl (h a b c l)

theorem tailEnd_eq (l out : List Byte) : tailEnd l out = (run .none l).pre out := by
  unfold tailEnd
  fun_induction loopEnd l out
  all_goals try simp only at *
  all_goals try (simp_all [run_none_cr, run_none_lf, run_none_eq, run_cr_cons, run_crlf_cons, run_crlfdt_cons,
      run_crlfdtcr_cons, run_crlfeq_cons, run_nil, Res.pre, run_none_plain, run_eq_ne, run_eq_cr]; done)
  case case20 l out h => exact last2_eq l out (short_of_no_match h)

theorem preEnd_eq (st : State) (l out : List Byte) (hne : l ≠ []) :
    ∃ s, preEnd st l out = some s ∧
      (match s with | .ret r => r | .go rest out => tailEnd rest out) = (run st l).pre out := by
  fun_induction preEnd st l out
  all_goals try (exact absurd rfl hne)
  all_goals first
    | (refine ⟨_, rfl, ?_⟩
       simp_all +zetaDelta [tailEnd_eq, run_none_cr, run_none_lf, run_none_eq, run_cr_cons, run_crlf_cons, run_crlfdt_cons,
        run_crlfdtcr_cons, run_crlfeq_cons, run_nil, Res.pre, run_none_plain, run_eq_ne, run_eq_cr]; done)
    | (rename_i ih
       obtain ⟨s, h1, h2⟩ := ih (by assumption)
       refine ⟨s, h1, ?_⟩
       rw [h2]
       simp_all +zetaDelta [run_none_cr, run_none_lf, run_none_eq, run_cr_cons, run_crlf_cons, run_crlfdt_cons,
        run_crlfdtcr_cons, run_crlfeq_cons, run_nil, Res.pre, run_none_plain, run_eq_ne, run_eq_cr]; done)
    | (rename_i ih
       obtain ⟨s, h1, h2⟩ := ih (by simp)
       refine ⟨s, h1, ?_⟩
       rw [h2]
       simp_all +zetaDelta [run_none_cr, run_none_lf, run_none_eq, run_cr_cons, run_crlf_cons, run_crlfdt_cons,
        run_crlfdtcr_cons, run_crlfeq_cons, run_nil, Res.pre, run_none_plain, run_eq_ne, run_eq_cr]; done)

/-- `do_decode_end_scalar` is the automaton. -/
theorem endRaw_eq (st : State) (l : List Byte) : endRaw st l = some (run st l) := by
  unfold endRaw
  by_cases h : l = []
  · subst h; simp [run_nil]
  · rw [if_neg h]
    obtain ⟨s, h1, h2⟩ := preEnd_eq st l [] h
    rw [h1, ← Res.pre_nil (run st l), ← h2]
    cases s <;> rfl

end Yenc.Dec
