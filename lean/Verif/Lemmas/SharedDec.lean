import Verif.Lemmas.Shared
import Verif.Lemmas.DecEnd
/-! The decoders over memory that changes. -/
namespace Yenc.Shared
open Yenc

/-! ### Plain decoding: each byte is read once -/

theorem loopPlain_post (n f i : Nat) (out : List Byte) (s : List (Nat × Byte)) (hf : n < f + i) (hi : i ≤ n) :
    (loopPlain n f i out).Post n (fun s' x => x.1 ≤ n ∧ n ≤ x.1 + 1 ∧ ∃ l, x.1 = i + l.length ∧ Seen s' i l ∧ ∀ r, x.2 ++ Spec.yDecode r = out ++ Spec.yDecode (l ++ r)) s := by
  have h106 : ∀ c : Byte, c - 64#8 - 42#8 = c - 106#8 := by decide +kernel
  induction f generalizing i out s with
  | zero => omega
  | succ f ih =>
    rw [loopPlain]
    by_cases h : i + 1 < n
    · rw [if_pos h]
      refine ⟨by omega, fun c => ?_⟩
      simp only
      by_cases h1 : c = LF ∨ c = CR
      · rw [if_pos h1]
        refine (ih (i + 1) out _ (by omega) (by omega)).mono ?_
        rintro s' x hs ⟨e1, e2, l, e3, e4, e5⟩
        refine ⟨e1, e2, c :: l, by simp; omega, Seen.cons (hs List.mem_cons_self) e4, fun r => ?_⟩
        rw [e5, List.cons_append, Dec.yDecode_cons c, if_pos h1.symm]
      · rw [if_neg h1]
        by_cases h2 : c = EQ
        · rw [if_pos h2]
          subst h2
          refine ⟨by omega, fun d => ?_⟩
          refine (ih (i + 2) _ _ (by omega) (by omega)).mono ?_
          rintro s' x hs ⟨e1, e2, l, e3, e4, e5⟩
          refine ⟨e1, e2, EQ :: d :: l, by simp; omega,
            Seen.cons (hs (List.mem_cons_of_mem _ List.mem_cons_self)) (Seen.cons (hs List.mem_cons_self) e4), fun r => ?_⟩
          rw [e5, List.cons_append, Dec.yDecode_cons EQ]
          simp [Dec.yFrom, h106]
        · rw [if_neg h2]
          refine (ih (i + 1) _ _ (by omega) (by omega)).mono ?_
          rintro s' x hs ⟨e1, e2, l, e3, e4, e5⟩
          refine ⟨e1, e2, c :: l, by simp; omega, Seen.cons (hs List.mem_cons_self) e4, fun r => ?_⟩
          have : ¬ (c = CR ∨ c = LF) := fun h => h1 h.symm
          rw [e5, List.cons_append, Dec.yDecode_cons c]
          simp [this, h2]
    · rw [if_neg h]
      exact ⟨hi, by simp only; omega, [], rfl, Seen.nil _ _, fun r => rfl⟩

theorem decodePlain_post (n : Nat) :
    (decodePlain n).Post n (fun s out => ∃ L, L.length = n ∧ Seen s 0 L ∧ out = Spec.yDecode L) [] := by
  unfold decodePlain
  by_cases h0 : n = 0
  · rw [if_pos h0]; exact ⟨[], by simp [h0], Seen.nil _ _, by simp [Spec.yDecode]⟩
  rw [if_neg h0]
  apply Prog.Post.bind
  refine (loopPlain_post n (n + 1) 0 [] [] (by omega) (by omega)).mono ?_
  rintro s ⟨i, out⟩ - ⟨e1, e2, l, e3, e4, e5⟩
  simp only at e1 e2 e3 e5 ⊢
  simp only [Nat.zero_add] at e3
  by_cases h : i + 1 = n
  · rw [if_pos h]
    refine ⟨by omega, fun c => ?_⟩
    have hL : Seen ((i, c) :: s) 0 (l ++ [c]) :=
      (e4.mono (List.subset_cons_self _ _)).append (Seen.cons (by rw [← e3]; simp) (Seen.nil _ _))
    have h6 := e5 [c]
    have hl : (l ++ [c]).length = n := by simp; omega
    simp only
    split
    · rename_i hc
      refine ⟨l ++ [c], hl, hL, ?_⟩
      simp only [List.nil_append] at h6
      rw [← h6]
      simp [Spec.yDecode, hc]
    · rename_i hc
      refine ⟨l ++ [c], hl, hL, ?_⟩
      simp only [List.nil_append] at h6
      rw [← h6]
      by_cases c1 : c = EQ
      · subst c1; simp [Spec.yDecode]
      · by_cases c2 : c = CR
        · subst c2; simp [Spec.yDecode]
        · by_cases c3 : c = LF
          · subst c3; simp [Spec.yDecode]
          · exact absurd ⟨c3, c2, c1⟩ hc
  · rw [if_neg h]
    refine ⟨l, by omega, e4, ?_⟩
    have := e5 []
    simpa [Spec.yDecode] using this

/-! ### Decoding with dot stripping: no access outside, at most one byte out for each byte in -/

theorem last1_post (n i : Nat) (out : List Byte) (s : List (Nat × Byte)) (hi : i ≤ n) (ho : out.length ≤ i) :
    (last1 n i out).Post n (fun _ x => x.1.length ≤ n) s := by
  unfold last1
  split
  · refine ⟨by omega, fun c => ?_⟩
    simp only
    repeat' split
    all_goals (simp only [Prog.Post, List.length_append, List.length_singleton]; omega)
  · simp only [Prog.Post]; omega

theorem last2_post (b : Bool) (n i : Nat) (out : List Byte) (s : List (Nat × Byte)) (hi : i ≤ n) (ho : out.length ≤ i) :
    (last2 b n i out).Post n (fun _ x => x.1.length ≤ n) s := by
  unfold last2
  split
  · refine ⟨by omega, fun c => ?_⟩
    simp only
    split
    · split
      · refine ⟨by omega, fun d => ?_⟩
        simp only
        split
        · simp only [Prog.Post]; omega
        · exact last1_post _ _ _ _ (by omega) (by omega)
      · exact last1_post _ _ _ _ (by omega) (by omega)
    · split
      · exact last1_post _ _ _ _ (by omega) (by omega)
      · split
        · refine ⟨by omega, fun d => ?_⟩
          simp only
          split <;> exact last1_post _ _ _ _ (by omega) (by simp; omega)
        · exact last1_post _ _ _ _ (by omega) (by simp; omega)
  · exact last1_post _ _ _ _ hi ho

theorem loopRaw_post (n f i : Nat) (out : List Byte) (s : List (Nat × Byte)) (hf : n < f + i) (hi : i ≤ n) (ho : out.length ≤ i) :
    (loopRaw n f i out).Post n (fun _ x => x.1 ≤ n ∧ x.2.length ≤ x.1) s := by
  induction f generalizing i out s with
  | zero => omega
  | succ f ih =>
    rw [loopRaw]
    by_cases h : i + 2 < n
    · rw [if_pos h]
      refine ⟨by omega, fun c => ?_⟩
      simp only
      split
      · refine ⟨by omega, fun d => ?_⟩
        simp only
        split
        · refine ⟨by omega, fun e => ?_⟩
          simp only
          split <;> exact ih _ _ _ (by omega) (by omega) (by omega)
        · exact ih _ _ _ (by omega) (by omega) (by omega)
      · split
        · exact ih _ _ _ (by omega) (by omega) (by omega)
        · split
          · refine ⟨by omega, fun d => ?_⟩
            simp only
            split <;> exact ih _ _ _ (by omega) (by omega) (by simp; omega)
          · exact ih _ _ _ (by omega) (by omega) (by simp; omega)
    · rw [if_neg h]; exact ⟨hi, ho⟩

theorem decodeRaw_post (n : Nat) : (decodeRaw n).Post n (fun _ out => out.length ≤ n) [] := by
  unfold decodeRaw
  split
  · simp [Prog.Post]
  · refine ⟨by omega, fun c => ?_⟩
    simp only
    apply Prog.Post.bind
    refine (loopRaw_post n (n + 1) _ [] _ (by omega) (by split <;> omega) (by simp)).mono ?_
    rintro s ⟨i, out⟩ - ⟨e1, e2⟩
    apply Prog.Post.bind
    exact (last2_post false n i out s e1 e2).mono fun s' x _ h => h

/-- What the end-detecting decoder may report: it stopped inside the input, wrote at most one byte for each byte it is past, and an end it reports was in the last byte it is past. -/
def Fine (n : Nat) (s : List (Nat × Byte)) (r : Res) : Prop :=
  r.pos ≤ n ∧ r.out.length ≤ r.pos ∧
    match r.ended with
    | .none => r.pos = n
    | .control => r.state = .none ∧ 1 ≤ r.pos ∧ (r.pos - 1, LY) ∈ s
    | .article => r.state = .crlf ∧ 1 ≤ r.pos ∧ (r.pos - 1, LF) ∈ s

/-- Both outcomes of a step. -/
def FineStep (n : Nat) (s : List (Nat × Byte)) (x : Step) : Prop :=
  match x with
  | .ret r => Fine n s r
  | .go i out => i ≤ n ∧ out.length ≤ i

theorem preEnd_post (n f : Nat) (st : Dec.State) (i : Nat) (out : List Byte) (s : List (Nat × Byte)) (hi : i < n) (ho : out.length ≤ i)
    (hf : 2 * n < f + 2 * i + (if st = .crlfeq then 0 else 1)) :
    (preEnd n f st i out).Post n (FineStep n) s := by
  induction f generalizing st i out s with
  | zero => split at hf <;> omega
  | succ f ih =>
    rw [preEnd.eq_def]
    simp only
    cases st <;> simp only [reduceCtorEq, if_false, if_true] at hf ⊢
    case none => exact ⟨by omega, by omega⟩
    case crlfeq =>
      refine ⟨hi, fun c => ?_⟩
      simp only
      split
      · rename_i h; exact ⟨by simp only; omega, by simp only; omega, rfl, by simp, by simp [h]⟩
      · exact ih .eq i out _ hi ho (by simp; omega)
    case eq =>
      refine ⟨hi, fun c => ?_⟩
      simp only
      split
      · exact ⟨by omega, by simp; omega⟩
      · split
        · exact ⟨by simp, by simp; omega, rfl⟩
        · exact ih .cr (i + 1) _ _ (by omega) (by simp; omega) (by simp; omega)
    case cr =>
      refine ⟨hi, fun c => ?_⟩
      simp only
      split
      · exact ⟨by omega, by omega⟩
      · split
        · exact ⟨by simp, by simp; omega, rfl⟩
        · exact ih .crlf (i + 1) _ _ (by omega) (by omega) (by simp; omega)
    case crlf =>
      refine ⟨hi, fun c => ?_⟩
      simp only
      split
      · split
        · exact ⟨by simp, by simp; omega, rfl⟩
        · exact ih .crlfdt (i + 1) _ _ (by omega) (by omega) (by simp; omega)
      · refine ⟨hi, fun c => ?_⟩
        simp only
        split
        · split
          · exact ⟨by simp, by simp; omega, rfl⟩
          · exact ih .crlfeq (i + 1) _ _ (by omega) (by omega) (by simp; omega)
        · exact ⟨by omega, by omega⟩
    case crlfdt =>
      refine ⟨hi, fun c => ?_⟩
      simp only
      split
      · split
        · exact ⟨by simp, by simp; omega, rfl⟩
        · exact ih .crlfdtcr (i + 1) _ _ (by omega) (by omega) (by simp; omega)
      · refine ⟨hi, fun c => ?_⟩
        simp only
        split
        · split
          · exact ⟨by simp, by simp; omega, rfl⟩
          · exact ih .crlfeq (i + 1) _ _ (by omega) (by omega) (by simp; omega)
        · exact ⟨by omega, by omega⟩
    case crlfdtcr =>
      refine ⟨hi, fun c => ?_⟩
      simp only
      split
      · rename_i h; exact ⟨by simp only; omega, by simp only; omega, rfl, by simp, by simp [h]⟩
      · exact ⟨by omega, by omega⟩

theorem afterEq_post (n i : Nat) (out : List Byte) (k : Nat → List Byte → Prog Step) (s : List (Nat × Byte)) (hi : i < n) (ho : out.length + 1 ≤ i)
    (hk : ∀ i' out' s', i ≤ i' → i' ≤ n → out'.length ≤ i' → (k i' out').Post n (FineStep n) s') : (afterEq i out k).Post n (FineStep n) s := by
  refine ⟨hi, fun d => ?_⟩
  simp only
  split
  · rename_i h; exact ⟨by simp only; omega, by simp only; omega, rfl, by simp, by simp [h]⟩
  · refine ⟨hi, fun d => ?_⟩
    simp only
    split
    · exact hk _ _ _ (by omega) (by omega) (by simp; omega)
    · exact hk _ _ _ (by omega) (by omega) (by simp; omega)

theorem loopEnd_post (n f i : Nat) (out : List Byte) (s : List (Nat × Byte)) (hf : n < f + i) (hi : i ≤ n) (ho : out.length ≤ i) :
    (loopEnd n f i out).Post n (FineStep n) s := by
  induction f generalizing i out s with
  | zero => omega
  | succ f ih =>
    rw [loopEnd]
    by_cases h : i + 2 < n
    · rw [if_pos h]
      refine ⟨by omega, fun c => ?_⟩
      simp only
      split
      · refine ⟨by omega, fun d => ?_⟩
        simp only
        split
        · refine ⟨by omega, fun e => ?_⟩
          simp only
          split
          · split
            · exact ⟨by simp, by simp; omega, rfl⟩
            · refine ⟨by omega, fun g => ?_⟩
              simp only
              split
              · split
                · exact ⟨by simp, by simp; omega, rfl⟩
                · refine ⟨by omega, fun g => ?_⟩
                  simp only
                  split
                  · rename_i hg; exact ⟨by simp only; omega, by simp only; omega, rfl, by simp, by simp [hg]⟩
                  · exact ih _ _ _ (by omega) (by omega) (by omega)
              · refine ⟨by omega, fun g => ?_⟩
                simp only
                split
                · split
                  · exact ⟨by simp, by simp; omega, rfl⟩
                  · exact afterEq_post _ _ _ _ _ (by omega) (by omega) fun i' out' s' h1 h2 h3 => ih _ _ _ (by omega) h2 h3
                · exact ih _ _ _ (by omega) (by omega) (by omega)
          · refine ⟨by omega, fun e => ?_⟩
            simp only
            split
            · split
              · exact ⟨by simp, by simp; omega, rfl⟩
              · exact afterEq_post _ _ _ _ _ (by omega) (by omega) fun i' out' s' h1 h2 h3 => ih _ _ _ (by omega) h2 h3
            · exact ih _ _ _ (by omega) (by omega) (by omega)
        · exact ih _ _ _ (by omega) (by omega) (by omega)
      · split
        · exact ih _ _ _ (by omega) (by omega) (by omega)
        · split
          · refine ⟨by omega, fun d => ?_⟩
            simp only
            split <;> exact ih _ _ _ (by omega) (by omega) (by simp; omega)
          · exact ih _ _ _ (by omega) (by omega) (by simp; omega)
    · rw [if_neg h]; exact ⟨hi, ho⟩

theorem decodeEnd_post (st : Dec.State) (n : Nat) : (decodeEnd st n).Post n (Fine n) [] := by
  unfold decodeEnd
  split
  · rename_i h; exact ⟨by simp, by simp, by simp [h]⟩
  · apply Prog.Post.bind
    refine (preEnd_post n (n + n + 2) st 0 [] [] (by omega) (by simp) (by split <;> omega)).mono ?_
    intro s x _ hx
    cases x with
    | ret r => exact hx
    | go i out =>
      simp only
      apply Prog.Post.bind
      refine (loopEnd_post n (n + 1) i out s (by have := hx.1; omega) hx.1 hx.2).mono ?_
      intro s x _ hx
      cases x with
      | ret r => exact hx
      | go i out =>
        simp only
        apply Prog.Post.bind
        exact (last2_post true n i out s hx.1 hx.2).mono fun s' x _ h => ⟨by simp, h, rfl⟩

end Yenc.Shared
