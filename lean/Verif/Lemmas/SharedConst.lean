import Verif.Lemmas.SharedDec
/-! Over memory that does not change, the programs of Model/Shared.lean compute what the models over lists compute. -/
namespace Yenc.Shared
open Yenc

/-- The result of a program over a list. -/
def Prog.eval {α : Type} (src : List Byte) : Prog α → Option α
  | .ret a => some a
  | .rd i k => match src[i]? with
    | none => none
    | some b => (k b).eval src
  | .ub => none

theorem run_eval {α : Type} (src : List Byte) (mem : Nat → Nat → Byte) (h : ∀ t k, src[k]? = some (mem t k) ∨ src.length ≤ k) (p : Prog α) (t : Nat) :
    (p.run mem src.length t).map (·.1) = p.eval src := by
  induction p generalizing t with
  | ret a => rfl
  | ub => rfl
  | rd i k ih =>
    simp only [Prog.run, Prog.eval]
    by_cases hi : i < src.length
    · rw [if_pos hi]
      rcases h t i with h | h
      · rw [h]; exact ih _ _
      · omega
    · rw [if_neg hi, List.getElem?_eq_none (by omega)]; rfl

theorem eval_bind {α β : Type} (src : List Byte) (p : Prog α) (f : α → Prog β) : (p.bind f).eval src = (p.eval src).bind fun a => (f a).eval src := by
  induction p with
  | ret a => rfl
  | ub => rfl
  | rd i k ih =>
    simp only [Prog.bind, Prog.eval]
    cases src[i]? with
    | none => rfl
    | some b => exact ih b

theorem drop_facts {src : List Byte} {i : Nat} {a : Byte} {r : List Byte} (h : src.drop i = a :: r) : src[i]? = some a ∧ src.drop (i + 1) = r ∧ i < src.length := by
  have h1 : (src.drop i)[0]? = some a := by rw [h]; rfl
  rw [List.getElem?_drop] at h1
  refine ⟨h1, ?_, ?_⟩
  · rw [← List.drop_drop, h]; rfl
  · have := congrArg List.length h; simp at this; omega

theorem drop_nil {src : List Byte} {i : Nat} (h : src.drop i = []) : src.length ≤ i := by
  have := congrArg List.length h; simp at this; omega

theorem last1_eval (src : List Byte) (i : Nat) (out : List Byte) (hi : i ≤ src.length) :
    (last1 src.length i out).eval src = some (Dec.last1 (src.drop i) out) := by
  unfold last1 Dec.last1
  rcases h : src.drop i with _ | ⟨a, _ | ⟨b, r⟩⟩
  · rw [if_neg (by have := drop_nil h; omega)]; rfl
  · obtain ⟨h1, h2, h3⟩ := drop_facts h
    have h4 := drop_nil h2
    rw [if_pos (by omega)]
    simp only [Prog.eval, h1]
    repeat' split
    all_goals rfl
  · obtain ⟨h1, h2, h3⟩ := drop_facts h
    obtain ⟨h4, h5, h6⟩ := drop_facts h2
    rw [if_neg (by omega)]; rfl

theorem last2_eval (hs : Bool) (src : List Byte) (i : Nat) (out : List Byte) (hi : i ≤ src.length) :
    (last2 hs src.length i out).eval src = some (Dec.last2 hs (src.drop i) out) := by
  unfold last2 Dec.last2
  rcases h : src.drop i with _ | ⟨a, _ | ⟨b, _ | ⟨c, r⟩⟩⟩
  · rw [if_neg (by have := drop_nil h; omega), last1_eval _ _ _ hi, h]
  · obtain ⟨h1, h2, h3⟩ := drop_facts h
    have h4 := drop_nil h2
    rw [if_neg (by omega), last1_eval _ _ _ hi, h]
  · obtain ⟨h1, h2, h3⟩ := drop_facts h
    obtain ⟨h4, h5, h6⟩ := drop_facts h2
    have h7 := drop_nil h5
    have k1 : ∀ out, (last1 src.length (i + 1) out).eval src = some (Dec.last1 [b] out) := fun out => by
      rw [last1_eval _ _ _ (by omega), h2]
    have k2 : ∀ out, (last1 src.length (i + 2) out).eval src = some (out, .none) := fun out => by
      rw [last1_eval _ _ _ (by omega), show i + 2 = i + 1 + 1 by omega, h5]; rfl
    rw [if_pos (by omega)]
    simp only [Prog.eval, h1]
    by_cases c1 : a = CR
    · rw [if_pos c1, if_pos c1]
      cases hs with
      | false => simp [k1]
      | true =>
        simp only [if_true, Prog.eval, h4, true_and]
        by_cases c2 : b = LF
        · rw [if_pos c2, if_pos c2]; rfl
        · rw [if_neg c2, if_neg c2, k1]
    · rw [if_neg c1, if_neg c1]
      by_cases c2 : a = LF
      · rw [if_pos c2, if_pos c2, k1]
      · rw [if_neg c2, if_neg c2]
        by_cases c3 : a = EQ
        · rw [if_pos c3, if_pos c3]
          simp only [Prog.eval, h4]
          by_cases c4 : b ≠ CR
          · rw [if_pos c4, if_pos c4, k2]
          · rw [if_neg c4, if_neg c4, k1]
        · rw [if_neg c3, if_neg c3, k1]
  · obtain ⟨h1, h2, h3⟩ := drop_facts h
    obtain ⟨h4, h5, h6⟩ := drop_facts h2
    obtain ⟨h7, h8, h9⟩ := drop_facts h5
    rw [if_neg (by omega), last1_eval _ _ _ hi, h]

theorem loopRaw_eval (src : List Byte) (f i : Nat) (out : List Byte) (hf : src.length < f + i) (hi : i ≤ src.length) :
    ∃ j, (loopRaw src.length f i out).eval src = some (j, (Dec.loopRaw (src.drop i) out).2) ∧ src.drop j = (Dec.loopRaw (src.drop i) out).1 ∧ j ≤ src.length := by
  induction f generalizing i out with
  | zero => omega
  | succ f ih =>
    rw [loopRaw]
    rcases h : src.drop i with _ | ⟨a, _ | ⟨b, _ | ⟨c, r⟩⟩⟩
    · rw [if_neg (by have := drop_nil h; omega), Dec.loopRaw]
      · exact ⟨i, rfl, h, hi⟩
      · simp
    · obtain ⟨h1, h2, h3⟩ := drop_facts h
      have h4 := drop_nil h2
      rw [if_neg (by omega), Dec.loopRaw]
      · exact ⟨i, rfl, h, hi⟩
      · simp
    · obtain ⟨h1, h2, h3⟩ := drop_facts h
      obtain ⟨h4, h5, h6⟩ := drop_facts h2
      have h7 := drop_nil h5
      rw [if_neg (by omega), Dec.loopRaw]
      · exact ⟨i, rfl, h, hi⟩
      · simp
    · obtain ⟨h1, h2, h3⟩ := drop_facts h
      obtain ⟨h4, h5, h6⟩ := drop_facts h2
      obtain ⟨h7, h8, h9⟩ := drop_facts h5
      have k1 := fun out => ih (i + 1) out (by omega) (by omega)
      have k2 := fun out => ih (i + 2) out (by omega) (by omega)
      have k3 := fun out => ih (i + 3) out (by omega) (by omega)
      rw [h2] at k1
      rw [show i + 2 = i + 1 + 1 by omega, h5] at k2
      rw [show i + 3 = i + 1 + 1 + 1 by omega, h8] at k3
      rw [if_pos (by omega), Dec.loopRaw]
      simp only [Prog.eval, h1]
      by_cases c1 : a = CR
      · rw [if_pos c1, if_pos c1]
        simp only [Prog.eval, h4]
        by_cases c2 : b = LF
        · rw [if_pos c2]
          simp only [Prog.eval, show src[i + 2]? = some c from h7]
          by_cases c3 : c = DOT
          · rw [if_pos c3, if_pos ⟨c2, c3⟩]; exact k3 _
          · rw [if_neg c3, if_neg (fun x => c3 x.2)]; exact k1 _
        · rw [if_neg c2, if_neg (fun x => c2 x.1)]; exact k1 _
      · rw [if_neg c1, if_neg c1]
        by_cases c2 : a = LF
        · rw [if_pos c2, if_pos c2]; exact k1 _
        · rw [if_neg c2, if_neg c2]
          by_cases c3 : a = EQ
          · rw [if_pos c3, if_pos c3]
            simp only [Prog.eval, h4]
            by_cases c4 : b ≠ CR
            · rw [if_pos c4, if_pos c4]; exact k2 _
            · rw [if_neg c4, if_neg c4]; exact k1 _
          · rw [if_neg c3, if_neg c3]; exact k1 _

theorem decodeRaw_eval (src : List Byte) : (decodeRaw src.length).eval src = (Dec.noendRaw none src).map (·.1) := by
  unfold decodeRaw Dec.noendRaw
  rcases src with _ | ⟨c, cs⟩
  · rfl
  generalize hsrc : c :: cs = src
  have hne : src ≠ [] := by rw [← hsrc]; simp
  have hl : src.length = cs.length + 1 := by rw [← hsrc]; rfl
  have h0 : src[0]? = some c := by rw [← hsrc]; rfl
  rw [if_neg (by omega), if_neg hne]
  have hp : Dec.preRaw none src = some (.go (src.drop (if c = DOT then 1 else 0)) []) := by
    rw [← hsrc]; simp only [Dec.preRaw, Dec.preCrlf]; split <;> rfl
  rw [hp]
  simp only [Prog.eval, h0, eval_bind]
  obtain ⟨j, j1, j2, j3⟩ := loopRaw_eval src (src.length + 1) (if c = DOT then 1 else 0) [] (by omega) (by split <;> omega)
  rw [j1]
  simp only [Option.bind_some, Option.map_some, Option.isSome_none]
  rw [last2_eval _ _ _ _ j3, j2]
  rfl

/-- The outcome of a step, with positions and with lists. -/
def StepRel (src : List Byte) (x : Option Step) (y : Option Dec.Step) : Prop :=
  match x, y with
  | none, none => True
  | some (.ret r), some (.ret r') => r' = ⟨src.drop r.pos, r.out, r.state, r.ended⟩
  | some (.go i out), some (.go l out') => i ≤ src.length ∧ l = src.drop i ∧ out' = out
  | _, _ => False

theorem preEnd_eval (src : List Byte) (f : Nat) (st : Dec.State) (i : Nat) (out : List Byte) (hi : i < src.length)
    (hf : 2 * src.length < f + 2 * i + (if st = .crlfeq then 0 else 1)) :
    StepRel src ((preEnd src.length f st i out).eval src) (Dec.preEnd st (src.drop i) out) := by
  induction f generalizing st i out with
  | zero => split at hf <;> omega
  | succ f ih =>
    rcases h : src.drop i with _ | ⟨c, cs⟩
    · have := drop_nil h; omega
    obtain ⟨h1, h2, h3⟩ := drop_facts h
    have hcs : cs = [] ↔ i + 1 = src.length := by
      rw [← h2]; constructor
      · intro hh; have := drop_nil hh; omega
      · intro hh; rw [hh]; simp
    have hnil : src.drop src.length = [] := by simp
    have k1 : ∀ st' out', ¬ cs = [] → 2 * src.length < f + 2 * (i + 1) + (if st' = .crlfeq then 0 else 1) →
        StepRel src ((preEnd src.length f st' (i + 1) out').eval src) (Dec.preEnd st' cs out') := by
      intro st' out' hh hf'
      have := ih st' (i + 1) out' (by rw [hcs] at hh; omega) hf'
      rwa [h2] at this
    rw [preEnd.eq_def]
    simp only
    cases st <;> simp only [reduceCtorEq, if_false, if_true] at hf ⊢ <;> rw [Dec.preEnd] <;> simp only [Prog.eval, h1]
    case none => exact ⟨by omega, h.symm, rfl⟩
    case crlfeq =>
      by_cases c1 : c = LY
      · rw [if_pos c1, if_pos c1]; simp [Prog.eval, StepRel, h2]
      · rw [if_neg c1, if_neg c1]
        have := ih .eq i out hi (by simp; omega)
        rwa [h] at this
    case eq =>
      by_cases c1 : c ≠ CR
      · rw [if_pos c1, if_pos c1]; exact ⟨by omega, h2.symm, rfl⟩
      · rw [if_neg c1, if_neg c1]
        by_cases c2 : cs = []
        · rw [if_pos (hcs.mp c2), if_pos c2]; simp [Prog.eval, StepRel]
        · rw [if_neg (fun x => c2 (hcs.mpr x)), if_neg c2]; exact k1 _ _ c2 (by simp; omega)
    case cr =>
      by_cases c1 : c ≠ LF
      · rw [if_pos c1, if_pos c1]; exact ⟨by omega, h.symm, rfl⟩
      · rw [if_neg c1, if_neg c1]
        by_cases c2 : cs = []
        · rw [if_pos (hcs.mp c2), if_pos c2]; simp [Prog.eval, StepRel]
        · rw [if_neg (fun x => c2 (hcs.mpr x)), if_neg c2]; exact k1 _ _ c2 (by simp; omega)
    case crlf =>
      by_cases c1 : c = DOT
      · rw [if_pos c1, if_pos c1]
        by_cases c2 : cs = []
        · rw [if_pos (hcs.mp c2), if_pos c2]; simp [Prog.eval, StepRel]
        · rw [if_neg (fun x => c2 (hcs.mpr x)), if_neg c2]; exact k1 _ _ c2 (by simp; omega)
      · rw [if_neg c1, if_neg c1]
        simp only [Prog.eval, h1]
        by_cases c3 : c = EQ
        · rw [if_pos c3, if_pos c3]
          by_cases c2 : cs = []
          · rw [if_pos (hcs.mp c2), if_pos c2]; simp [Prog.eval, StepRel]
          · rw [if_neg (fun x => c2 (hcs.mpr x)), if_neg c2]; exact k1 _ _ c2 (by simp; omega)
        · rw [if_neg c3, if_neg c3]; exact ⟨by omega, h.symm, rfl⟩
    case crlfdt =>
      by_cases c1 : c = CR
      · rw [if_pos c1, if_pos c1]
        by_cases c2 : cs = []
        · rw [if_pos (hcs.mp c2), if_pos c2]; simp [Prog.eval, StepRel]
        · rw [if_neg (fun x => c2 (hcs.mpr x)), if_neg c2]; exact k1 _ _ c2 (by simp; omega)
      · rw [if_neg c1, if_neg c1]
        simp only [Prog.eval, h1]
        by_cases c3 : c = EQ
        · rw [if_pos c3, if_pos c3]
          by_cases c2 : cs = []
          · rw [if_pos (hcs.mp c2), if_pos c2]; simp [Prog.eval, StepRel]
          · rw [if_neg (fun x => c2 (hcs.mpr x)), if_neg c2]; exact k1 _ _ c2 (by simp; omega)
        · rw [if_neg c3, if_neg c3]; exact ⟨by omega, h.symm, rfl⟩
    case crlfdtcr =>
      by_cases c1 : c = LF
      · rw [if_pos c1, if_pos c1]; simp [Prog.eval, StepRel, h2]
      · rw [if_neg c1, if_neg c1]; exact ⟨by omega, h.symm, rfl⟩

theorem loopEnd_eval (src : List Byte) (f i : Nat) (out : List Byte) (hf : src.length < f + i) (hi : i ≤ src.length) :
    StepRel src ((loopEnd src.length f i out).eval src) (some (Dec.loopEnd (src.drop i) out)) := by
  induction f generalizing i out with
  | zero => omega
  | succ f ih =>
    have hnil : src.drop src.length = [] := by simp
    rw [loopEnd]
    rcases h : src.drop i with _ | ⟨a, _ | ⟨b, _ | ⟨c, r⟩⟩⟩
    · rw [if_neg (by have := drop_nil h; omega), Dec.loopEnd]
      · exact ⟨hi, h.symm, rfl⟩
      · simp
    · obtain ⟨h1, h2, h3⟩ := drop_facts h
      have h4 := drop_nil h2
      rw [if_neg (by omega), Dec.loopEnd]
      · exact ⟨hi, h.symm, rfl⟩
      · simp
    · obtain ⟨h1, h2, h3⟩ := drop_facts h
      obtain ⟨h4, h5, h6⟩ := drop_facts h2
      have h7 := drop_nil h5
      rw [if_neg (by omega), Dec.loopEnd]
      · exact ⟨hi, h.symm, rfl⟩
      · simp
    · obtain ⟨h1, h2, h3⟩ := drop_facts h
      obtain ⟨h4, h5, h6⟩ := drop_facts h2
      obtain ⟨h7, h8, h9⟩ := drop_facts h5
      replace h7 : src[i + 2]? = some c := h7
      replace h8 : src.drop (i + 3) = r := h8
      have k1 := fun out => ih (i + 1) out (by omega) (by omega)
      have k2 := fun out => ih (i + 2) out (by omega) (by omega)
      rw [h2] at k1
      rw [show i + 2 = i + 1 + 1 by omega, h5] at k2
      have kq : ∀ (j : Nat) (d : Byte) (r1 : List Byte), src.drop j = d :: r1 → i < j → StepRel src ((afterEq j out (loopEnd src.length f)).eval src)
          (some (if d = LY then .ret ⟨r1, out, .none, .control⟩ else if d = CR then Dec.loopEnd (d :: r1) (out ++ [d - 42#8 - 64#8])
            else Dec.loopEnd r1 (out ++ [d - 42#8 - 64#8]))) := by
        intro j d r1 hj hij
        obtain ⟨g1, g2, g3⟩ := drop_facts hj
        simp only [afterEq, Prog.eval, g1]
        by_cases c1 : d = LY
        · rw [if_pos c1, if_pos c1]; simp [Prog.eval, StepRel, g2]
        · rw [if_neg c1, if_neg c1]
          simp only [Prog.eval, g1]
          by_cases c2 : d = CR
          · rw [if_pos c2, if_pos c2, ← hj]; exact ih _ _ (by omega) (by omega)
          · rw [if_neg c2, if_neg c2, ← g2]; exact ih _ _ (by omega) (by omega)
      rw [if_pos (by omega), Dec.loopEnd.eq_def]
      simp only [Prog.eval, h1]
      by_cases c1 : a = CR
      · rw [if_pos c1, if_pos c1]
        simp only [Prog.eval, h4]
        by_cases c2 : b = LF
        · rw [if_pos c2, if_pos c2]
          simp only [Prog.eval, h7]
          by_cases c3 : c = DOT
          · rw [if_pos c3, if_pos c3]
            rcases r with _ | ⟨d, r1⟩
            · rw [if_pos (by have := drop_nil h8; omega)]; simp [Prog.eval, StepRel]
            · obtain ⟨m1, m2, m3⟩ := drop_facts h8
              replace m2 : src.drop (i + 4) = r1 := m2
              rw [if_neg (by omega)]
              simp only [Prog.eval, m1]
              by_cases c4 : d = CR
              · rw [if_pos c4, if_pos c4]
                rcases r1 with _ | ⟨e, r2⟩
                · rw [if_pos (by have := drop_nil m2; omega)]; simp [Prog.eval, StepRel]
                · obtain ⟨l1, l2, l3⟩ := drop_facts m2
                  rw [if_neg (by omega)]
                  simp only [Prog.eval, l1]
                  by_cases c5 : e = LF
                  · rw [if_pos c5, if_pos c5]; simp [Prog.eval, StepRel, ← l2]
                  · rw [if_neg c5, if_neg c5, ← m2]; exact ih _ _ (by omega) (by omega)
              · rw [if_neg c4, if_neg c4]
                simp only [Prog.eval, m1]
                by_cases c5 : d = EQ
                · rw [if_pos c5, if_pos c5]
                  rcases r1 with _ | ⟨e, r2⟩
                  · rw [if_pos (by have := drop_nil m2; omega)]; simp [Prog.eval, StepRel]
                  · obtain ⟨l1, l2, l3⟩ := drop_facts m2
                    rw [if_neg (by omega)]
                    exact kq _ _ _ m2 (by omega)
                · rw [if_neg c5, if_neg c5, ← h8]; exact ih _ _ (by omega) (by omega)
          · rw [if_neg c3, if_neg c3]
            simp only [Prog.eval, h7]
            by_cases c4 : c = EQ
            · rw [if_pos c4, if_pos c4]
              rcases r with _ | ⟨d, r1⟩
              · rw [if_pos (by have := drop_nil h8; omega)]; simp [Prog.eval, StepRel]
              · obtain ⟨m1, m2, m3⟩ := drop_facts h8
                rw [if_neg (by omega)]
                exact kq _ _ _ h8 (by omega)
            · rw [if_neg c4, if_neg c4]; exact k1 _
        · rw [if_neg c2, if_neg c2]; exact k1 _
      · rw [if_neg c1, if_neg c1]
        by_cases c2 : a = LF
        · rw [if_pos c2, if_pos c2]; exact k1 _
        · rw [if_neg c2, if_neg c2]
          by_cases c3 : a = EQ
          · rw [if_pos c3, if_pos c3]
            simp only [Prog.eval, h4]
            by_cases c4 : b ≠ CR
            · rw [if_pos c4, if_pos c4]; exact k2 _
            · rw [if_neg c4, if_neg c4]; exact k1 _
          · rw [if_neg c3, if_neg c3]; exact k1 _

theorem decodeEnd_eval (st : Dec.State) (src : List Byte) :
    ((decodeEnd st src.length).eval src).map (fun r => (⟨src.drop r.pos, r.out, r.state, r.ended⟩ : Dec.Res)) = Dec.endRaw st src := by
  unfold decodeEnd Dec.endRaw
  by_cases hne : src = []
  · subst hne; rfl
  have hl : src.length ≠ 0 := fun h => hne (List.length_eq_zero_iff.mp h)
  rw [if_neg hl, if_neg hne, eval_bind]
  have h1 := preEnd_eval src (src.length + src.length + 2) st 0 [] (by omega) (by split <;> omega)
  rw [List.drop_zero] at h1
  generalize (preEnd src.length (src.length + src.length + 2) st 0 []).eval src = x at h1
  generalize Dec.preEnd st src [] = y at h1
  rcases x with _ | ⟨r⟩ | ⟨i, out⟩ <;> rcases y with _ | ⟨r'⟩ | ⟨l, out'⟩ <;> simp only [StepRel] at h1
  · rfl
  · rw [h1]; rfl
  · obtain ⟨h2, rfl, rfl⟩ := h1
    simp only [Option.bind_some, eval_bind, Dec.tailEnd]
    have h3 := loopEnd_eval src (src.length + 1) i out' (by omega) h2
    generalize (loopEnd src.length (src.length + 1) i out').eval src = x at h3
    generalize Dec.loopEnd (src.drop i) out' = y at h3
    rcases x with _ | ⟨r⟩ | ⟨i, out⟩ <;> rcases y with ⟨r'⟩ | ⟨l, out'⟩ <;> simp only [StepRel] at h3
    · rw [h3]; rfl
    · obtain ⟨h4, rfl, rfl⟩ := h3
      simp only [Option.bind_some, eval_bind, last2_eval _ _ _ _ h4]
      simp [Prog.eval]

end Yenc.Shared
