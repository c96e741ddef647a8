import Verif.Model.EncoderSimd
import Verif.Lemmas.EncScalar
import Verif.Lemmas.Mem
/-! The wrapper and the frame of the vectorised encoders are right for every kernel whose rounds are. -/
namespace Yenc.Enc.Simd
open Yenc

/-! ## Destination -/

theorem D.put_toW (d : D) (bs : List Byte) (n : Nat) (h : n ≤ bs.length) : (d.put bs n).toW = d.toW.put bs n := by
  unfold D.put D.store D.adv D.toW W.put
  simp only [Nat.add_zero, Mem.rdn_length]
  congr 1
  rw [Mem.rdn_append]
  congr 1
  · exact Mem.rdn_congr fun x _ h2 => Mem.wr_out _ _ _ _ (by omega)
  · rw [Nat.zero_add]
    have := Mem.rdn_wr_prefix d.m d.p (bs.take n) (bs.drop n)
    rw [List.take_append_drop, List.length_take, Nat.min_eq_left h] at this
    exact this

@[simp] theorem D.toW_out_length (d : D) : d.toW.out.length = d.p := by simp [D.toW]

/-! ## The wrapper -/

theorem tailMid_eq (w : W) (c : Byte) :
    tailMid w c = (⟨w.out ++ mid c, max w.hi (w.out.length + (mid c).length)⟩, ((mid c).length : Int)) := by
  have h1 := escapeLUT_eq_zero c
  unfold tailMid mid W.put
  by_cases h : Spec.critical (c + 42#8)
  · rw [if_pos (by rw [h1]; exact h), if_pos h]; simp
  · rw [if_neg (by rw [h1]; exact h), if_neg h, escapeLUT_ne_zero c h]; simp

/-- The scalar loop writes what the reference does. -/
theorem tail_spec (ls : Nat) (r : List Byte) (w : W) (col k : Nat) (h1 : 1 ≤ col) (hk : 1 ≤ k)
    (hw : w.hi ≤ (w.out ++ Spec.encode ls false col r).length + k) :
    (tail ls r w col).1.out = w.out ++ Spec.encode ls false col r ∧
      (tail ls r w col).1.hi ≤ (tail ls r w col).1.out.length + k ∧
      ((tail ls r w col).2 = (Spec.endCol ls false col r : Nat) ∨
        ((tail ls r w col).2 = (ls : Int) - 1 ∧ ls ≤ Spec.endCol ls false col r)) := by
  generalize hn : r.length = n
  induction n using Nat.strongRecOn generalizing r w col with
  | _ n ih =>
  rcases r with _ | ⟨c, cs⟩
  · simp only [tail, Spec.encode, Spec.endCol, List.append_nil] at hw ⊢
    exact ⟨trivial, hw, Or.inl trivial⟩
  simp only [List.length_cons] at hn
  by_cases hlt : (col : Int) < (ls : Int) - 1
  · have e1 : tail ls (c :: cs) w col = tail ls cs ⟨w.out ++ mid c, max w.hi (w.out.length + (mid c).length)⟩ ((col + (mid c).length : Nat) : Int) := by
      rw [tail.eq_def]; simp only [if_pos hlt]; rw [tailMid_eq]; simp
    have e2 := encode_cons_lt ls false col c cs (by omega)
    have e3 := endCol_cons_lt ls false col c cs (by omega)
    simp only [Bool.false_and, encChar_mid ls col c h1 (by omega)] at e2 e3
    have := mid_pos c
    rw [e2] at hw
    obtain ⟨i1, i2, i3⟩ := ih cs.length (by omega) cs ⟨w.out ++ mid c, max w.hi (w.out.length + (mid c).length)⟩ (col + (mid c).length) (by omega)
      (by simp only [List.length_append] at hw ⊢; omega) rfl
    rw [e1, e2, e3]
    exact ⟨by rw [i1]; simp, i2, i3⟩
  by_cases hl : (col : Int) < ls
  · have e2 := encode_cons_lt ls false col c cs (by omega)
    have e3 := endCol_cons_lt ls false col c cs (by omega)
    have e4 := lastChar_eq w c ls col h1 (by omega) false
    have e5 := encChar_length ls col false (c + 42#8)
    simp only [Bool.false_and] at e2 e3 e4
    generalize Spec.encChar ls col false (c + 42#8) = s at *
    rcases cs with _ | ⟨d, ds⟩
    · have e1 : tail ls [c] w col = (lastChar w c, (col : Int)) := by
        rw [tail.eq_def]; simp only [if_neg hlt, if_pos hl]
      rw [e1, e2, e3, e4]
      rw [e2] at hw
      simp only [Spec.encode, Spec.endCol, List.append_nil, List.length_append] at hw ⊢
      exact ⟨trivial, by omega, Or.inr ⟨by omega, by omega⟩⟩
    · have e1 : tail ls (c :: d :: ds) w col = tail ls ds (eolChar (lastChar w c) d).1 (eolChar (lastChar w c) d).2 := by
        rw [tail.eq_def]; simp only [if_neg hlt, if_pos hl]
      have f1 := encode_cons_ge ls false (col + s.length) d ds (by omega)
      have f2 := endCol_cons_ge ls false (col + s.length) d ds (by omega)
      have f3 := eolChar_eq (lastChar w c) d ls false
      have f4 := encChar_length ls 0 false (d + 42#8)
      simp only [Bool.false_and] at f1 f2 f3
      generalize Spec.encChar ls 0 false (d + 42#8) = t at *
      rw [e2, f1] at hw
      rw [e1, e2, e3, f1, f2, f3, e4]
      simp only [List.length_cons] at hn
      obtain ⟨i1, i2, i3⟩ := ih ds.length (by omega) ds
        ⟨w.out ++ s ++ CR :: LF :: t, max (max w.hi (w.out.length + s.length)) ((w.out ++ s).length + 4)⟩ t.length (by omega)
        (by simp only [List.length_append, List.length_cons] at hw ⊢; omega) rfl
      exact ⟨by rw [i1]; simp, i2, i3⟩
  · have e1 : tail ls (c :: cs) w col = tail ls cs (eolChar w c).1 (eolChar w c).2 := by
      rw [tail.eq_def]; simp only [if_neg hlt, if_neg hl]
    have f1 := encode_cons_ge ls false col c cs (by omega)
    have f2 := endCol_cons_ge ls false col c cs (by omega)
    have f3 := eolChar_eq w c ls false
    have f4 := encChar_length ls 0 false (c + 42#8)
    simp only [Bool.false_and] at f1 f2 f3
    generalize Spec.encChar ls 0 false (c + 42#8) = t at *
    rw [f1] at hw
    rw [e1, f1, f2, f3]
    obtain ⟨i1, i2, i3⟩ := ih cs.length (by omega) cs ⟨w.out ++ CR :: LF :: t, max w.hi (w.out.length + 4)⟩ t.length (by omega)
      (by simp only [List.length_append, List.length_cons] at hw ⊢; omega) rfl
    exact ⟨by rw [i1]; simp, i2, i3⟩

/-- The same including the first character of a line. -/
theorem rest_spec (ls : Nat) (hls : 1 ≤ ls) (r : List Byte) (w : W) (col k : Nat) (h1 : r = [] → 1 ≤ col) (hk : 1 ≤ k)
    (hw : w.hi ≤ (w.out ++ Spec.encode ls false col r).length + k) :
    (rest ls r w col).1.out = w.out ++ Spec.encode ls false col r ∧
      (rest ls r w col).1.hi ≤ (rest ls r w col).1.out.length + k ∧
      ((rest ls r w col).2 = (Spec.endCol ls false col r : Nat) ∨
        ((rest ls r w col).2 = (ls : Int) - 1 ∧ ls ≤ Spec.endCol ls false col r)) := by
  by_cases h0 : col = 0
  · subst h0
    rcases r with _ | ⟨c, cs⟩
    · exact absurd (h1 rfl) (by omega)
    have e1 : rest ls (c :: cs) w ((0 : Nat) : Int) = tail ls cs (firstChar w c).1 (firstChar w c).2 := by
      unfold rest; simp
    have f3 := firstChar_eq w c ls false
    have f4 := encChar_length ls 0 false (c + 42#8)
    have f1 := encode_cons_lt ls false 0 c cs (by omega)
    have f2 := endCol_cons_lt ls false 0 c cs (by omega)
    simp only [Bool.false_and, Nat.zero_add] at f1 f2 f3
    generalize Spec.encChar ls 0 false (c + 42#8) = t at *
    rw [f1] at hw
    rw [e1, f1, f2, f3]
    obtain ⟨i1, i2, i3⟩ := tail_spec ls cs ⟨w.out ++ t, max w.hi (w.out.length + t.length)⟩ t.length k (by omega) hk
      (by simp only [List.length_append] at hw ⊢; omega)
    exact ⟨by rw [i1]; simp, i2, i3⟩
  · have e1 : rest ls r w (col : Int) = tail ls r w col := by
      unfold rest; rw [if_neg (by omega)]
    rw [e1]
    exact tail_spec ls r w col k (by omega) hk hw

/-- The column stays within the line. -/
theorem tail_col_le (ls : Nat) (hls : 2 ≤ ls) (r : List Byte) (w : W) (col : Int) (h : col ≤ ls ∨ r ≠ []) : (tail ls r w col).2 ≤ ls := by
  have he : ∀ (w : W) (c : Byte), (eolChar w c).2 ≤ 2 := by
    intro w c
    have := encChar_length ls 0 false (c + 42#8)
    rw [eolChar_eq w c ls false]
    simp only
    omega
  have hm : ∀ (w : W) (c : Byte), (tailMid w c).2 ≤ 2 := by
    intro w c
    unfold tailMid
    split <;> simp
  fun_induction tail (ls : Int) r w col with
  | case1 => simpa using h
  | case2 c cs w col hc ih => exact ih (Or.inl (by have := hm w c; omega))
  | case3 c w col h1 h2 => simp only; omega
  | case4 c w col h1 h2 d ds ih => exact ih (Or.inl (by have := he (lastChar w c) d; omega))
  | case5 c cs w col h1 h2 ih => exact ih (Or.inl (by have := he w c; omega))

theorem rest_col_le (ls : Nat) (hls : 2 ≤ ls) (r : List Byte) (w : W) (col : Int) (h : r = [] → col ≤ ls) : (rest ls r w col).2 ≤ ls := by
  unfold rest
  split
  · rename_i h0
    cases r with
    | nil => simp only; omega
    | cons c cs =>
      simp only
      refine tail_col_le ls hls _ _ _ (Or.inl ?_)
      have := encChar_length ls 0 false (c + 42#8)
      rw [firstChar_eq w c ls false]
      simp only
      omega
  · refine tail_col_le ls hls _ _ _ ?_
    by_cases hr : r = []
    · exact Or.inl (h hr)
    · exact Or.inr hr

/-- What the wrapper needs from a kernel: what it has written, followed by what the reference writes for the rest of the input from the column reached, is what the reference
writes for the whole input. -/
def KernelFn.Ok (K : KernelFn) : Prop :=
  ∀ (ls col : Nat) (src : List Byte) (d : D), 12 ≤ ls → src ≠ [] → d.p = 0 → d.hi = 0 →
    ∃ (d' : D) (pos c' : Nat), K ls col src d = some (d', pos, (c' : Int)) ∧ pos ≤ src.length ∧
      d'.toW.out ++ Spec.encode ls false c' (src.drop pos) = Spec.encode ls false col src ∧
      Spec.endCol ls false c' (src.drop pos) = Spec.endCol ls false col src ∧
      d'.hi ≤ (Spec.encode ls false col src).length + 8 ∧ (src.drop pos = [] → 1 ≤ c' ∧ c' ≤ ls)

theorem encode_spec (K : KernelFn) (hK : K.Ok) (m0 : Mem) (ls : Nat) (hls : 1 ≤ ls) (hls2 : ls < 2 ^ 31) (col : Nat) (src : List Byte) (fin : Bool) (hne : src ≠ []) :
    ∃ w col', encode K m0 ls col src fin = some (w, col') ∧ w.out = Spec.encode ls fin col src ∧ w.hi ≤ w.out.length + 8 ∧
      ColRel ls col' (Spec.endCol ls fin col src) ∧ (fin = false → 2 ≤ ls → col' ≤ ls) := by
  unfold encode
  rw [if_neg hne]
  by_cases hsmall : (ls : Int) < 12
  · rw [if_pos hsmall]
    obtain ⟨w, c', h1, h2, h3, h4⟩ := encodeGeneric_spec ls hls (by omega) col src fin hne
    exact ⟨w, c', h1, h2, by omega, h4⟩
  rw [if_neg hsmall, if_neg (show ¬ (col : Int) < 0 by omega)]
  obtain ⟨d, pos, c', k1, k2, k3, k4, k5, k6⟩ := hK ls col src ⟨m0, 0, 0⟩ (by omega) hne rfl rfl
  rw [k1]
  simp only
  obtain ⟨m2, m3, m4⟩ := rest_spec ls hls (src.drop pos) d.toW c' 8 (fun h => (k6 h).1) (by omega) (by rw [k3]; exact k5)
  have m5 := fun h2 => rest_col_le ls h2 (src.drop pos) d.toW c' (fun h => by have := (k6 h).2; omega)
  rw [k3] at m2
  rw [k4] at m4
  generalize rest ls (src.drop pos) d.toW c' = r at *
  obtain ⟨w, c⟩ := r
  simp only at m2 m3 m4 m5 ⊢
  cases fin with
  | false =>
    refine ⟨w, c, by simp, m2, m3, ?_, fun _ => m5⟩
    rcases m4 with h | ⟨h, h'⟩
    · exact Or.inl h
    · exact Or.inr (by omega)
  | true =>
    simp only [if_true]
    obtain ⟨a, lc, k1, k2, k3⟩ := encode_fin ls hls col src hne
    unfold doEnd
    rw [m2, k1]
    have g1 : (a ++ [lc]).getLast? = some lc := by simp
    have g2 : (a ++ [lc]).dropLast = a := by simp
    rw [g1, g2]
    simp only
    by_cases hlc : lc = TAB ∨ lc = SP
    · rw [if_pos hlc, if_neg (by have := (k2 hlc).2.2; omega)]
      refine ⟨_, _, rfl, by rw [(k2 hlc).1], ?_, ?_, by simp⟩
      · rw [m2, k1] at m3; simp at m3 ⊢; omega
      · rw [(k2 hlc).2.1]
        rcases m4 with h | ⟨h, h'⟩
        · exact Or.inl (by rw [h]; push_cast; rfl)
        · exact Or.inr (by omega)
    · rw [if_neg hlc]
      refine ⟨_, _, rfl, by rw [(k3 hlc).1, m2, k1], m3, ?_, by simp⟩
      rw [(k3 hlc).2]
      rcases m4 with h | ⟨h, h'⟩
      · exact Or.inl h
      · exact Or.inr (by omega)

end Yenc.Enc.Simd
