import Verif.Model.JsSizes
import Verif.Props.Args
/-!
Property C98: `minSize` and `maxSize` with any values, and how they are related.
-/
namespace Yenc.Props
open Spec Yenc.Js

variable {sh : Number → Str}

/-- `undefined` or a Number, as an argument. -/
def optPrim : Option Number → Prim
  | none => .undef
  | some n => .num n

theorem or128_opt (o : Option Number) : (optPrim o).or128 = .num (lineSizeN o) := by
  cases o with
  | none => rfl
  | some n =>
    show (if n.falsy = true then Prim.num (.fin 128) else .num n) = .num (if n.falsy = true then .fin 128 else n)
    by_cases h : n.falsy = true <;> simp [h]

theorem escP_opt (o : Option Number) : escP (optPrim o) = .num (escFactor o) := by
  cases o with
  | none => rfl
  | some r =>
    have h : (decide (Prim.num r ≠ .num (.fin 0))) = Number.ne r (.fin 0) := by
      cases r <;> simp [Number.ne]
    show (if (r.falsy && decide (Prim.num r ≠ .num (.fin 0))) = true then Prim.num (.fin 2) else .num (.add r (.fin 1))) =
      .num (if (r.falsy && Number.ne r (.fin 0)) = true then .fin 2 else .add r (.fin 1))
    rw [h]
    by_cases h : (r.falsy && Number.ne r (.fin 0)) = true <;> simp [h]

/-- C98: for Numbers and `undefined` the two functions are those of C69. -/
theorem C98_numbers (length line ratio : Option Number) :
    minSizeP sh (optPrim length) (optPrim line) = .ret (.num (minSizeN length line)) ∧
    maxSizeP (optPrim length) (optPrim line) (optPrim ratio) = (maxSizeN length line ratio).bind fun n => .ret (.num n) := by
  cases length with
  | none => exact ⟨rfl, rfl⟩
  | some n =>
    have hf : (optPrim (some n)).falsy = n.falsy := rfl
    constructor
    · simp only [minSizeP, minSizeN, or128_opt, hf]
      by_cases h : n.falsy = true
      · rw [if_pos h, if_pos h]
      · rw [if_neg h, if_neg h]; rfl
    · simp only [maxSizeP, maxSizeN, or128_opt, escP_opt, hf]
      by_cases h : n.falsy = true
      · rw [if_pos h, if_pos h]; rfl
      · rw [if_neg h, if_neg h]
        show (if (Number.lt (escFactor ratio) (.fin 1) || Number.lt (.fin 2) (escFactor ratio)) = true then _ else _) = _
        by_cases h : (Number.lt (escFactor ratio) (.fin 1) || Number.lt (.fin 2) (escFactor ratio)) = true
        · rw [if_pos h, if_pos h]; rfl
        · rw [if_neg h, if_neg h]; rfl

/-- C98, the documentation says that `minSize(length, line_size)` is `maxSize(length, line_size, 0) - 2`.  False for every length: the difference is 66. -/
theorem C98_documented_false (len ls : ℕ) (hlen : len ≠ 0) (h : len ≤ 2 ^ 50) (hl1 : 1 ≤ ls) (hl : ls ≤ 2 ^ 53) :
    ∃ m M : ℕ, minSizeN (some (.fin len)) (some (.fin ls)) = .fin m ∧ maxSizeN (some (.fin len)) (some (.fin ls)) (some (.fin 0)) = .ret (.fin M) ∧
      M = m + 66 ∧ m ≠ M - 2 := by
  refine ⟨len + 2 * (len / ls), len + 2 * (len / ls) + 66, (C69_exact len ls hlen h hl1 hl _ (.inl rfl)).2.1, ?_, rfl, by omega⟩
  have hq : len / ls ≤ len := Nat.div_le_self _ _
  have e0 : escFactor (some (.fin 0)) = .fin 1 := by
    have h0 : (Number.fin 0).falsy = true := by simp [Number.falsy]
    have h1 : Number.ne (.fin 0) (.fin 0) = false := by simp [Number.ne]
    have := Number.add_nat (a := 0) (b := 1) (by norm_num)
    simp only [escFactor, h0, h1, Bool.and_false, Bool.false_eq_true, if_false]
    norm_num at this; exact this
  have hL : lineSizeN (some (.fin ls)) = .fin ls := by rw [lineSizeN_nat, if_neg (by omega)]
  have e1 : Number.mul (.fin (len : ℚ)) (.fin 1) = .fin ((len : ℕ) : ℚ) := by
    have := Number.mul_nat (a := len) (b := 1) (by omega)
    push_cast at this ⊢; rw [this, mul_one]
  simp only [maxSizeN, falsy_nat, hlen, decide_false, Bool.false_eq_true, if_false, hL, e0]
  rw [if_neg (by norm_num [Number.lt])]
  rw [e1, Number.floor_div (by omega) hl1 hl, mul_two_nat _ (by omega)]
  have e2 : Number.ceil (.fin ((len : ℕ) : ℚ)) = .fin ((len : ℕ) : ℚ) := by
    simp only [Number.ceil, Int.ceil_natCast, Int.cast_natCast]
  rw [e2, Number.add_nat (by omega), add_fin_nat _ 2 2 (by norm_num) (by omega), add_fin_nat _ 64 64 (by norm_num) (by omega)]

/-- C98: `maxSize` takes a length written in decimal for the Number, except that `'0'` is not empty. -/
theorem C98_max_string (n : ℕ) (hn : n ≠ 0) (h : n ≤ 2 ^ 53) (line ratio : Prim) :
    maxSizeP (.str (dec n)) line ratio = maxSizeP (.num (.fin n)) line ratio := by
  have h1 : (Prim.str (dec n)).falsy = false := by
    simp only [Prim.falsy, List.isEmpty_eq_false_iff]
    exact dec_ne_nil n
  have h2 : (Prim.num (.fin (n : ℚ))).falsy = false := by simp [Prim.falsy, falsy_nat, hn]
  have h3 : ∀ r, product (.str (dec n)) r = product (.num (.fin n)) r := by
    intro r
    cases r <;> simp [product, Prim.numeric, ofStr_dec h]
  simp only [maxSizeP, h1, h2, h3]

example := C98_max_string 1000000 (by decide) (by decide) (.num (.fin 128)) (.str (lit "2"))

/-- C98, false as coded for `minSize`: given the length as a string it returns the digits of the length followed by those of the number of bytes of line breaks. -/
theorem C98_min_string_false (hs : WritesIntegers sh) (n ls : ℕ) (h : n ≤ 2 ^ 50) (hl1 : 1 ≤ ls) (hl : ls ≤ 2 ^ 53) :
    minSizeP sh (.str (dec n)) (.num (.fin ls)) = .ret (.str (dec n ++ dec (2 * (n / ls)))) := by
  have h1 : (Prim.str (dec n)).falsy = false := by
    simp only [Prim.falsy, List.isEmpty_eq_false_iff]
    exact dec_ne_nil n
  have h2 : (Prim.num (.fin (ls : ℚ))).or128 = .num (.fin ls) := by
    have : (Prim.num (.fin (ls : ℚ))).falsy = false := by simp [Prim.falsy, falsy_nat]; omega
    simp [Prim.or128, this]
  have hq : n / ls ≤ n := Nat.div_le_self _ _
  simp only [minSizeP, h1, h2, Bool.false_eq_true, if_false, floorQuot, Prim.numeric, ofStr_dec (show n ≤ 2 ^ 53 by omega), Outcome.bind,
    Number.floor_div (show n < 2 ^ 53 by omega) hl1 hl, mul_two_nat _ (show 2 * (n / ls) ≤ 2 ^ 53 by omega), plusNumber]
  rw [hs _ (by omega)]

-- minSize('1000', 128) is '100014'
example : minSizeP showIntegers (.str (lit "1000")) (.num (.fin 128)) = .ret (.str (lit "100014")) := by
  have := C98_min_string_false showIntegers_writes 1000 128 (by norm_num) (by norm_num) (by norm_num)
  rw [show dec 1000 = lit "1000" by decide, show dec (2 * (1000 / 128)) = lit "14" by decide] at this
  norm_num at this
  simpa [lit] using this

/-- C98: a BigInt length, other than `0n`, never gives a size. -/
theorem C98_bigint (z : ℤ) (hz : z ≠ 0) (line ratio : Prim) : (∃ m, minSizeP sh (.big z) line = .throw m) ∧ ∃ m, maxSizeP (.big z) line ratio = .throw m := by
  have h1 : (Prim.big z).falsy = false := by simp [Prim.falsy, hz]
  constructor
  · simp only [minSizeP, h1, Bool.false_eq_true, if_false]
    cases line.or128 <;> exact ⟨_, rfl⟩
  · simp only [maxSizeP, h1, Bool.false_eq_true, if_false]
    split
    · exact ⟨_, rfl⟩
    · cases escP ratio <;> exact ⟨_, rfl⟩

end Yenc.Props
