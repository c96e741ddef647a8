import Verif.Lemmas.EncX86Sse
import Verif.Lemmas.EncEol
import Verif.Model.EncoderNeon
/-! The search and the masks of `do_encode_neon`. -/
namespace Yenc.Enc.Simd.Neon
open Yenc Vec
open Yenc.Dec.Simd (cnt cnt_add cnt_le cnt_congr)

theorem bsl_bm {m a b : Vec} {j : Nat} {p : Bool} (h : m j = bm p) : bsl m a b j = if p then a j else b j := by
  simp only [bsl, h, bm_not, bm_and_byte]
  cases p <;> simp

/-! ## The search -/

theorem find64_tab : ∀ x : Byte, (if (x + 42#8).toNat < 16 then
    ([255#8, 0#8, 0#8, 0#8, 0#8, 0#8, 0#8, 0#8, 0#8, 0#8, 255#8, 0#8, 0#8, 255#8, 0#8, 0#8] : List Byte).getD (x + 42#8).toNat 0#8 else bm (x = 61#8 - 42#8)) =
    bm (Spec.critical (x + 42#8)) ∧
    ((x + 42#8) ||| (bm (Spec.critical (x + 42#8)) &&& 64#8)) = x + if Spec.critical (x + 42#8) then 106#8 else 42#8 := by decide +kernel

theorem find32_tab : ∀ x : Byte, ((decide (x = -42#8) || decide (x = 61#8 - 42#8)) || (decide (x = 13#8 - 42#8) || decide (x = 10#8 - 42#8))) = Spec.critical (x + 42#8) := by
  decide +kernel

theorem sub_tab : ∀ (x : Byte) (p : Bool), (x - if p then (-64#8 - 42#8) else -42#8) = x + if p then 106#8 else 42#8 := by decide +kernel

/-- The lanes of a result of the search, `s` telling what is special. -/
structure FoundOk (s : Nat → Bool) (o : Vec) (f : Found) : Prop where
  cmp : ∀ j, j < 16 → f.cmp j = bm (s j)
  data : ∀ j, j < 16 → f.data j = o j + if s j then 106#8 else 42#8

theorem find_ok (a64 : Bool) (o : Vec) : FoundOk (fun j => Spec.critical (o j + 42#8)) o (find a64 o) := by
  cases a64 with
  | true =>
    have hc : ∀ j, (find true o).cmp j = bm (Spec.critical (o j + 42#8)) := fun j => (find64_tab (o j)).1
    refine ⟨fun j _ => hc j, fun j _ => ?_⟩
    have h : (find true o).data j = (o j + 42#8) ||| ((find true o).cmp j &&& 64#8) := rfl
    rw [h, hc]
    exact (find64_tab (o j)).2
  | false =>
    have hc : ∀ j, (find false o).cmp j = bm (Spec.critical (o j + 42#8)) := by
      intro j
      show ((bm _ ||| bm _) ||| (bm _ ||| bm _)) = _
      simp only [bm_or, set1]
      exact congrArg bm (find32_tab (o j))
    refine ⟨fun j _ => hc j, fun j _ => ?_⟩
    show o j - bsl (find false o).cmp (set1 (-64#8 - 42#8)) (set1 (-42#8)) j = _
    rw [bsl_bm (hc j)]
    exact sub_tab _ _

/-- Which characters are escaped at the end of a line: character 0 is the last of a line, character 1 the first of the next. -/
def eolSpecial (b : Nat → Byte) (j : Nat) : Bool :=
  if j = 0 then Spec.critical (b 0 + 42#8) || b 0 + 42#8 = TAB || b 0 + 42#8 = SP
  else if j = 1 then escFirst (b 1) else Spec.critical (b j + 42#8)

theorem eol64_0 : ∀ x : Byte, bm ((if (BitVec.ofInt 8 ((x.toInt + (42#8).toInt) / 2)).toNat < 32 then eolTable (BitVec.ofInt 8 ((x.toInt + (42#8).toInt) / 2)).toNat else 61#8 - 42#8) = x) =
    bm (Spec.critical (x + 42#8) || x + 42#8 = TAB || x + 42#8 = SP) := by decide +kernel
theorem eol64_1 : ∀ x : Byte, bm ((if (BitVec.ofInt 8 ((x.toInt + (48#8).toInt) / 2)).toNat < 32 then eolTable (BitVec.ofInt 8 ((x.toInt + (48#8).toInt) / 2)).toNat else 61#8 - 42#8) = x) =
    bm (escFirst x) := by decide +kernel
theorem eol64_2 : ∀ x : Byte, bm ((if (BitVec.ofInt 8 ((x.toInt + (66#8).toInt) / 2)).toNat < 32 then eolTable (BitVec.ofInt 8 ((x.toInt + (66#8).toInt) / 2)).toNat else 61#8 - 42#8) = x) =
    bm (Spec.critical (x + 42#8)) := by decide +kernel

theorem eolOffset_eq : ∀ j, j < 16 → eolOffset j = if j = 0 then 42#8 else if j = 1 then 48#8 else 66#8 := by decide

theorem findEol64_ok (o : Vec) : FoundOk (eolSpecial o) o (findEol true o) := by
  have hc : ∀ j, j < 16 → (findEol true o).cmp j = bm (eolSpecial o j) := by
    intro j hj
    show bm ((if (BitVec.ofInt 8 (((o j).toInt + (eolOffset j).toInt) / 2)).toNat < 32 then eolTable (BitVec.ofInt 8 (((o j).toInt + (eolOffset j).toInt) / 2)).toNat else 61#8 - 42#8) = o j) = _
    rw [eolOffset_eq j hj]
    unfold eolSpecial
    by_cases h0 : j = 0
    · subst h0
      simp only [if_true]
      exact eol64_0 (o 0)
    · by_cases h1 : j = 1
      · subst h1
        simp only [if_true, show ¬ (1 : Nat) = 0 by omega, if_false]
        exact eol64_1 (o 1)
      · simp only [h0, h1, if_false]
        exact eol64_2 (o j)
  refine ⟨hc, fun j hj => ?_⟩
  show o j + bsl (findEol true o).cmp (set1 (64#8 + 42#8)) (set1 42#8) j = _
  rw [bsl_bm (hc j hj)]
  rfl

/-- Eight comparisons, merged: of the four on a character at most one holds. -/
theorem eol32_sum : ∀ p0 p1 p2 p3 q0 q1 q2 q3 : Bool, ([p0, p1, p2, p3].count true ≤ 1) → ([q0, q1, q2, q3].count true ≤ 1) →
    (((bm q0 ++ bm p0 : BitVec 16) + (bm q1 ++ bm p1 : BitVec 16)) + ((bm q2 ++ bm p2 : BitVec 16) + (bm q3 ++ bm p3 : BitVec 16))) = bm (q0 || q1 || q2 || q3) ++ bm (p0 || p1 || p2 || p3) := by
  decide +kernel

theorem eol32_p : ∀ x : Byte, [decide (x = 32#8 + 214#8), decide (x = 9#8 + 214#8), decide (x = 13#8 + 214#8), decide (x = 61#8 - 42#8)].count true ≤ 1 ∧
    (Spec.critical (x + 42#8) || (decide (x = 32#8 + 214#8) || decide (x = 9#8 + 214#8) || decide (x = 13#8 + 214#8) || decide (x = 61#8 - 42#8))) =
      (Spec.critical (x + 42#8) || x + 42#8 = TAB || x + 42#8 = SP) := by decide +kernel
theorem eol32_q : ∀ x : Byte, [decide (x = 32#8 + 214#8), decide (x = 9#8 + 214#8), decide (x = 46#8 - 42#8), decide (x = 61#8 - 42#8)].count true ≤ 1 ∧
    (Spec.critical (x + 42#8) || (decide (x = 32#8 + 214#8) || decide (x = 9#8 + 214#8) || decide (x = 46#8 - 42#8) || decide (x = 61#8 - 42#8))) = escFirst x := by decide +kernel

theorem w16_of16 (f : Nat → BitVec 16) (k : Nat) : w16 (of16 f) k = f k := by
  simp only [w16, of16, show (2 * k + 1) % 2 = 1 by omega, show (2 * k) % 2 = 0 by omega, show (2 * k + 1) / 2 = k by omega, show 2 * k / 2 = k by omega]
  apply BitVec.eq_of_getLsbD_eq
  intro i hi
  rw [get16]
  simp only [if_true, if_false, show ¬ (1 : Nat) = 0 by omega, BitVec.getLsbD_extractLsb']
  by_cases h : i < 8
  · simp [h]
  · simp only [h, if_false, show i - 8 < 8 by omega, decide_true, Bool.true_and]
    congr 1; omega

theorem cmpNl_w (o : Vec) (L : Vec) (k : Nat) : w16 (cmpeq (dupw o) L) k = bm (o 1 = L (2 * k + 1)) ++ bm (o 0 = L (2 * k)) := by
  have h : ∀ j, dupw o j = if j % 2 = 0 then o 0 else o 1 := by
    intro j
    simp only [dupw, of16, w16, Nat.mul_zero, Nat.zero_add]
    split
    · exact lo_append _ _
    · exact hi_append _ _
  simp only [w16, cmpeq, h, show (2 * k + 1) % 2 = 1 by omega, show (2 * k) % 2 = 0 by omega, if_true, if_false, show ¬ (1 : Nat) = 0 by omega]

theorem findEol32_ok (o : Vec) : FoundOk (eolSpecial o) o (findEol false o) := by
  have hnl : ∀ j, paddw (paddw (cmpeq (dupw o) (make [32#8 + 214#8, 32#8 + 214#8, 9#8 + 214#8, 9#8 + 214#8, 13#8 + 214#8, 46#8 - 42#8, 61#8 - 42#8, 61#8 - 42#8])) (set1w 0#16)) (set1w 0#16) j =
      bm (if j = 0 then decide (o 0 = 32#8 + 214#8) || decide (o 0 = 9#8 + 214#8) || decide (o 0 = 13#8 + 214#8) || decide (o 0 = 61#8 - 42#8)
        else if j = 1 then decide (o 1 = 32#8 + 214#8) || decide (o 1 = 9#8 + 214#8) || decide (o 1 = 46#8 - 42#8) || decide (o 1 = 61#8 - 42#8) else false) := by
    intro j
    have hs := eol32_sum _ _ _ _ _ _ _ _ (eol32_p (o 0)).1 (eol32_q (o 1)).1
    have hw : ∀ k, w16 (paddw (cmpeq (dupw o) (make [32#8 + 214#8, 32#8 + 214#8, 9#8 + 214#8, 9#8 + 214#8, 13#8 + 214#8, 46#8 - 42#8, 61#8 - 42#8, 61#8 - 42#8])) (set1w 0#16)) k =
        if k = 0 then (bm (o 1 = 32#8 + 214#8) ++ bm (o 0 = 32#8 + 214#8) : BitVec 16) + (bm (o 1 = 9#8 + 214#8) ++ bm (o 0 = 9#8 + 214#8) : BitVec 16)
        else if k = 1 then (bm (o 1 = 46#8 - 42#8) ++ bm (o 0 = 13#8 + 214#8) : BitVec 16) + (bm (o 1 = 61#8 - 42#8) ++ bm (o 0 = 61#8 - 42#8) : BitVec 16) else 0#16 := by
      intro k
      rw [paddw, w16_of16]
      by_cases h0 : k = 0
      · subst h0; simp only [cmpNl_w]; rfl
      · by_cases h1 : k = 1
        · subst h1; simp only [cmpNl_w]; rfl
        · rw [if_neg (by omega), if_neg h0, if_neg h1]
          simp only [set1w, w16_of16]
          rfl
    have hw2 : ∀ k, (if k < 2 then w16 (paddw (cmpeq (dupw o) (make [32#8 + 214#8, 32#8 + 214#8, 9#8 + 214#8, 9#8 + 214#8, 13#8 + 214#8, 46#8 - 42#8, 61#8 - 42#8, 61#8 - 42#8])) (set1w 0#16)) (2 * k) +
        w16 (paddw (cmpeq (dupw o) (make [32#8 + 214#8, 32#8 + 214#8, 9#8 + 214#8, 9#8 + 214#8, 13#8 + 214#8, 46#8 - 42#8, 61#8 - 42#8, 61#8 - 42#8])) (set1w 0#16)) (2 * k + 1)
        else w16 (set1w 0#16) (2 * (k - 2)) + w16 (set1w 0#16) (2 * (k - 2) + 1)) =
        if k = 0 then bm (decide (o 1 = 32#8 + 214#8) || decide (o 1 = 9#8 + 214#8) || decide (o 1 = 46#8 - 42#8) || decide (o 1 = 61#8 - 42#8)) ++
          bm (decide (o 0 = 32#8 + 214#8) || decide (o 0 = 9#8 + 214#8) || decide (o 0 = 13#8 + 214#8) || decide (o 0 = 61#8 - 42#8)) else 0#16 := by
      intro k
      simp only [hw]
      by_cases h0 : k = 0
      · subst h0
        simp only [Nat.mul_zero, if_true, show (0 : Nat) < 2 by omega, Nat.zero_add, show ¬ (1 : Nat) = 0 by omega, if_false]
        exact hs
      · by_cases h1 : k = 1
        · subst h1; rfl
        · rw [if_neg (by omega), if_neg h0]
          simp only [set1w, w16_of16]; rfl
    rw [paddw]
    simp only [of16]
    rw [hw2]
    by_cases h0 : j = 0
    · subst h0
      simp only [Nat.zero_mod, if_true, Nat.zero_div]
      exact lo_append _ _
    · by_cases h1 : j = 1
      · subst h1
        simp only [show ¬ 1 % 2 = 0 by omega, if_false, show (1 : Nat) / 2 = 0 by omega, if_true, show ¬ (1 : Nat) = 0 by omega]
        exact hi_append _ _
      · rw [if_neg (show ¬ j / 2 = 0 by omega), if_neg h0, if_neg h1]
        split <;> rfl
  have hc : ∀ j, j < 16 → (findEol false o).cmp j = bm (eolSpecial o j) := by
    intro j hj
    have hlow : ∀ j, ((cmpeq o (set1 (-42#8)) j ||| cmpeq o (set1 (61#8 - 42#8)) j) ||| (cmpeq o (set1 (13#8 - 42#8)) j ||| cmpeq o (set1 (10#8 - 42#8)) j)) = bm (Spec.critical (o j + 42#8)) := by
      intro j
      simp only [cmpeq, bm_or, set1]
      exact congrArg bm (find32_tab (o j))
    show combine _ _ j = _
    unfold combine
    by_cases h8 : j < 8
    · rw [if_pos h8]
      show (_ ||| _) = _
      rw [hnl]
      show (((cmpeq o (set1 (-42#8)) j ||| cmpeq o (set1 (61#8 - 42#8)) j) ||| (cmpeq o (set1 (13#8 - 42#8)) j ||| cmpeq o (set1 (10#8 - 42#8)) j)) ||| _) = _
      rw [hlow, bm_or]
      unfold eolSpecial
      by_cases h0 : j = 0
      · subst h0
        simp only [if_true]
        rw [(eol32_p (o 0)).2]
      · by_cases h1 : j = 1
        · subst h1
          simp only [if_true, show ¬ (1 : Nat) = 0 by omega, if_false]
          rw [(eol32_q (o 1)).2]
        · simp only [h0, h1, if_false, Bool.or_false]
    · rw [if_neg h8]
      show ((cmpeq o (set1 (-42#8)) (8 + (j - 8)) ||| cmpeq o (set1 (61#8 - 42#8)) (8 + (j - 8))) ||| (cmpeq o (set1 (13#8 - 42#8)) (8 + (j - 8)) ||| cmpeq o (set1 (10#8 - 42#8)) (8 + (j - 8)))) = _
      rw [hlow, show 8 + (j - 8) = j by omega, eolSpecial, if_neg (by omega), if_neg (by omega)]
  refine ⟨hc, fun j hj => ?_⟩
  show o j - bsl (findEol false o).cmp (set1 (-64#8 - 42#8)) (set1 (-42#8)) j = _
  rw [bsl_bm (hc j hj)]
  exact sub_tab _ _

theorem findEol_ok (a64 : Bool) (o : Vec) : FoundOk (eolSpecial o) o (findEol a64 o) := by
  cases a64
  · exact findEol32_ok o
  · exact findEol64_ok o

end Yenc.Enc.Simd.Neon
