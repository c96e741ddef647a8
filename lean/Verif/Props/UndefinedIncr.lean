import Verif.Props.Undefined
/-!
Property C106 for `encodeIncr`: exactly which argument lists have no defined outcome.
-/
namespace Yenc.Props
open Yenc Spec

variable {eimpl : Enc.Impl}

namespace Undef

/-- Not a Buffer. -/
def NoBuffer (rest : List Arg) : Prop := ∀ d u, rest ≠ .buffer d :: u

/-- The line size, if there is one and it is a Number, is (as a 32-bit integer) 0, which stands for 128, or at least 128. -/
def WideLine (rest : List Arg) : Prop := ∀ n t, rest = .int n :: t → n % 2 ^ 32 = 0 ∨ 128 ≤ n % 2 ^ 32

/-- A line size that is used is then at least 128. -/
theorem lineArgs_wide (rest : List Arg) (h : WideLine rest) (a b : Nat) (e : Enc.lineArgs rest = .ret ((a : Int), (b : Int))) : 128 ≤ a := by
  cases rest with
  | nil => simp only [Enc.lineArgs, Outcome.ret.injEq, Prod.mk.injEq] at e; omega
  | cons x t =>
    cases x with
    | int n =>
      have hw := h n t rfl
      have hz : 0 ≤ toInt32 n → (if toInt32 n = 0 then (128 : Int) else toInt32 n) ≥ 128 := by
        intro h0
        have := toInt32_pos n h0
        split <;> omega
      simp only [Enc.lineArgs, argToInt, Outcome.bind] at e
      by_cases hl : (if toInt32 n = 0 then (128 : Int) else toInt32 n) < 0
      · rw [if_pos hl] at e; cases e
      · rw [if_neg hl] at e
        have h0 : 0 ≤ toInt32 n := by
          by_cases h1 : toInt32 n = 0
          · omega
          · rw [if_neg h1] at hl; omega
        have hz := hz h0
        generalize (if toInt32 n = 0 then (128 : Int) else toInt32 n) = z at *
        cases t with
        | nil => simp only [Outcome.ret.injEq, Prod.mk.injEq] at e; omega
        | cons y u =>
          cases y with
          | int k =>
            simp only at e
            split at e
            · cases e
            · simp only [Outcome.ret.injEq, Prod.mk.injEq] at e; omega
          | _ => cases e
    | _ => cases e

theorem maxSize_wide (l a : Nat) (h : 128 ≤ a) : yencMaxSize l a ≤ yencMaxSize l 128 := by
  have h1 : yencMaxSize l 128 = l * 2 + 66 + 2 * (l / 64) := by simp [yencMaxSize, Nat.shiftRight_eq_div_pow]
  rw [h1]
  by_cases ha : a = 128
  · subst ha; omega
  · simp only [yencMaxSize, if_neg ha]
    have : l * 2 / a ≤ l * 2 / 128 := Nat.div_le_div_left h (by decide)
    omega

end Undef
open Undef

/-- C106: `encodeIncr` without an output is undefined exactly if one of the line size and column is looked at though it is not an integer (even if there is no data); with an output, and line sizes
of at least 128, exactly if moreover the output is large enough. For an output and smaller line sizes see `encodeIncr_destination_overrun`. -/
theorem C106_incr (he : Enc.IsImpl eimpl) (s d : List Byte) (t : List Arg) (hfit : FitsLine t) :
    (NoBuffer t → (Enc.apiEncodeIncr eimpl (.buffer s :: t) = .ub ↔ BadLine t)) ∧
    (WideLine t → (Enc.apiEncodeIncr eimpl (.buffer s :: .buffer d :: t) = .ub ↔ s.length * 2 + 66 + 2 * (s.length / 64) ≤ d.length ∧ BadLine t)) := by
  constructor
  · intro hnb
    have hx : Enc.apiEncodeIncr eimpl (.buffer s :: t) = (Enc.lineArgs t).bind fun (ls, col) =>
        if s = [] then .ret ([], col) else Enc.runInto eimpl ls col s false (yencMaxSize s.length ls.toNat) := by
      cases t with
      | nil => rfl
      | cons x t =>
        cases x with
        | buffer z => exact absurd rfl (hnb z t)
        | _ => rfl
    rw [hx]
    rcases lineArgs_cases t with ⟨hb, h⟩ | ⟨hb, ⟨m, h⟩ | ⟨a, b, h, h1, h2, h3, h4⟩⟩
    · simp [h, Outcome.bind, hb]
    · simp [h, Outcome.bind, hb]
    · simp only [h, Outcome.bind]
      by_cases hne : s = []
      · simp [hne, hb]
      · rw [if_neg hne]
        have := h4 hfit
        obtain ⟨c, h5, -⟩ := Enc.runInto_eq he.correct a b s false h1 (by omega) h2 hne _ (Nat.le_refl _)
        simp only [Int.toNat_natCast, h5]
        simp [hb]
  · intro hw
    have h1 : yencMaxSize s.length 128 = s.length * 2 + 66 + 2 * (s.length / 64) := by simp [yencMaxSize, Nat.shiftRight_eq_div_pow]
    rw [← h1]
    simp only [Enc.apiEncodeIncr]
    by_cases hl : d.length < yencMaxSize s.length 128
    · rw [if_pos hl]
      constructor
      · intro h; cases h
      · intro h; omega
    · rw [if_neg hl]
      rcases lineArgs_cases t with ⟨hb, h⟩ | ⟨hb, ⟨m, h⟩ | ⟨a, b, h, h1, h2, h3, h4⟩⟩
      · simp only [h, Outcome.bind, hb, and_true, true_iff]; omega
      · simp [h, Outcome.bind, hb]
      · have ha := maxSize_wide s.length a (lineArgs_wide t hw a b h)
        simp only [h, Outcome.bind]
        by_cases hne : s = []
        · simp [hne, hb]
        · rw [if_neg hne]
          have := h4 hfit
          obtain ⟨c, h5, -⟩ := Enc.runInto_eq he.correct a b s false h1 (by omega) h2 hne d.length (by omega)
          simp [h5, hb]

-- `encodeIncr(empty, undefined)` is undefined though `encode(empty, undefined)` is not; `encodeIncr(data, output, '128')` is undefined only if the output is large enough
example : Enc.apiEncodeIncr Enc.encodeGeneric [.buffer [], .other] = .ub ∧ Enc.apiEncode Enc.encodeGeneric [.buffer [], .other] = .ret [] ∧
    Enc.apiEncodeIncr Enc.encodeGeneric [.buffer [1#8], .buffer (List.replicate 67 0#8), .other] ≠ .ub ∧
    Enc.apiEncodeIncr Enc.encodeGeneric [.buffer [1#8], .buffer (List.replicate 68 0#8), .other] = .ub := by
  have hf : FitsLine [.other] := by intro n t e; cases e
  have hw : WideLine [.other] := by intro n t e; cases e
  have hb : BadLine [.other] := ⟨_, _, rfl, .inl (by intro n h; cases h)⟩
  refine ⟨((C106_incr .generic [] [] _ hf).1 (by intro d u e; cases e)).2 hb, rfl, fun h => ?_, ((C106_incr .generic _ _ _ hf).2 hw).2 ⟨by decide, hb⟩⟩
  exact absurd (((C106_incr .generic _ _ _ hf).2 hw).1 h).1 (by decide)

end Yenc.Props
