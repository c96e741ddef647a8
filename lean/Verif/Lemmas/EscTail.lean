import Verif.Lemmas.EscRatio
/-! How often many bytes are escaped. -/
namespace Yenc.Ratio
open Yenc Spec

/-- Sum of `z ^ escapes` over all data of `n` bytes. -/
def gen (z : ℚ) (ls col n : Nat) : ℚ := ∑ d : Fin n → Fin 256, z ^ esc ls col (bytes d)

theorem gen_zero (z : ℚ) (ls col : Nat) : gen z ls col 0 = 1 := by
  simp [gen, bytes, esc, encode]

theorem gen_succ (z : ℚ) (ls col n : Nat) : gen z ls col (n + 1) =
    num ls (norm ls col) (n == 0) * (z * gen z ls (norm ls col + 2) n) + (256 - num ls (norm ls col) (n == 0)) * gen z ls (norm ls col + 1) n := by
  unfold gen
  rw [← (Fin.consEquiv fun _ => Fin 256).sum_comp, Fintype.sum_prod_type]
  have e : ∀ (c : Fin 256), (∑ d : Fin n → Fin 256, z ^ esc ls col (bytes ((Fin.consEquiv fun _ => Fin 256) (c, d)))) =
      if isEsc ls (norm ls col) (n == 0) c then z * ∑ d : Fin n → Fin 256, z ^ esc ls (norm ls col + 2) (bytes d)
        else ∑ d : Fin n → Fin 256, z ^ esc ls (norm ls col + 1) (bytes d) := by
    intro c
    have e1 : ∀ d : Fin n → Fin 256, esc ls col (bytes ((Fin.consEquiv fun _ => Fin 256) (c, d))) =
        if isEsc ls (norm ls col) (n == 0) c then 1 + esc ls (norm ls col + 2) (bytes d) else esc ls (norm ls col + 1) (bytes d) := by
      intro d
      have hb : bytes ((Fin.consEquiv fun _ => Fin 256) (c, d)) = BitVec.ofFin c :: bytes d := by
        unfold bytes; rw [List.ofFn_succ]; rfl
      have hl : (bytes d).isEmpty = (n == 0) := by
        unfold bytes
        cases n <;> simp
      rw [hb, esc_cons, hl]
    simp only [e1]
    split
    · simp only [pow_add, pow_one, Finset.mul_sum]
    · rfl
  simp only [e]
  rw [Finset.sum_ite]
  simp only [Finset.sum_const, nsmul_eq_mul]
  rw [isEsc_card]
  congr 2
  have := Finset.card_filter_add_card_filter_not (s := (Finset.univ : Finset (Fin 256))) (fun c => isEsc ls (norm ls col) (n == 0) c = true)
  rw [isEsc_card] at this
  simp only [Finset.card_univ, Fintype.card_fin] at this
  have h2 := congrArg (Nat.cast : ℕ → ℚ) this
  push_cast at h2
  linarith

theorem gen_nonneg {z : ℚ} (hz : 0 ≤ z) (ls col n : Nat) : 0 ≤ gen z ls col n := Finset.sum_nonneg fun _ _ => pow_nonneg hz _

/-- The potential. -/
def pot (a b G : ℚ) (c : Nat) : ℚ := if c = 0 then b else a * G ^ c

/-- Conditions on the parameters of the bound. -/
structure Params (ls : Nat) (z a b G L : ℚ) : Prop where
  z1 : 1 ≤ z
  a1 : 1 ≤ a
  b1 : 1 ≤ b
  g1 : 1 ≤ G
  mid : 4 * z * G ^ 2 + 252 * G ≤ L
  wrap : b ≤ a * G ^ ls
  last : (6 * z + 250) * b ≤ L * (a * G ^ (ls - 1))
  first : 7 * z * (a * G ^ 2) + 249 * (a * G) ≤ L * b
  endMid : 6 * z + 250 ≤ L * a
  endFirst : 7 * z + 249 ≤ L * b

theorem gen_le {ls : Nat} (h1 : 1 ≤ ls) {z a b G L : ℚ} (hp : Params ls z a b G L) (n col : Nat) : gen z ls col n ≤ L ^ n * pot a b G (norm ls col) := by
  obtain ⟨z1, a1, b1, g1, mid, wrap, last, first, endMid, endFirst⟩ := hp
  have L0 : 0 ≤ L := by nlinarith [pow_nonneg (by linarith : 0 ≤ G) 2]
  have gp : ∀ c : Nat, 1 ≤ G ^ c := fun c => one_le_pow₀ g1
  have p1 : ∀ c, 1 ≤ pot a b G c := by
    intro c; unfold pot; split
    · exact b1
    · nlinarith [gp c]
  have pn : ∀ c, 1 ≤ c → pot a b G (norm ls c) ≤ a * G ^ c := by
    intro c hc
    rcases Nat.lt_or_ge c ls with h | h
    · rw [norm_of_lt h, pot, if_neg (by omega)]
    · rw [norm_of_le h, pot, if_pos rfl]
      have : G ^ ls ≤ G ^ c := pow_le_pow_right₀ g1 h
      nlinarith
  induction n generalizing col with
  | zero =>
    rw [gen_zero, pow_zero, one_mul]; exact p1 _
  | succ n ih =>
    rw [gen_succ]
    have hc := norm_lt ls col h1
    generalize norm ls col = c at hc
    cases n with
    | zero =>
      simp only [gen_zero, mul_one, zero_add, pow_one]
      by_cases h0 : c = 0
      · have e : num ls c (0 == 0) = 7 := by rw [num, if_pos h0]
        have e2 : pot a b G c = b := by rw [pot, if_pos h0]
        rw [e, e2]; push_cast; linarith
      · have e : num ls c (0 == 0) = 6 := by rw [num, if_neg h0, if_pos (by simp)]
        have e2 : pot a b G c = a * G ^ c := by rw [pot, if_neg h0]
        rw [e, e2]; push_cast
        have := gp c
        have : L * a ≤ L * (a * G ^ c) := by
          apply mul_le_mul_of_nonneg_left _ L0
          nlinarith
        linarith
    | succ m =>
      have hb : (m + 1 == 0) = false := rfl
      rw [hb]
      have i1 := ih (c + 1)
      have i2 := ih (c + 2)
      have hL : 0 ≤ L ^ (m + 1) := pow_nonneg L0 _
      rw [pow_succ L (m + 1)]
      generalize L ^ (m + 1) = M at *
      have q1 := pn (c + 1) (by omega)
      have q2 := pn (c + 2) (by omega)
      have s : ∀ k : ℚ, 0 ≤ k → k ≤ 256 → k * (z * gen z ls (c + 2) (m + 1)) + (256 - k) * gen z ls (c + 1) (m + 1) ≤
          M * (k * z * pot a b G (norm ls (c + 2)) + (256 - k) * pot a b G (norm ls (c + 1))) := by
        intro k k0 k1
        have w1 := mul_le_mul_of_nonneg_left i2 (mul_nonneg k0 (by linarith : 0 ≤ z))
        have w2 := mul_le_mul_of_nonneg_left i1 (by linarith : 0 ≤ 256 - k)
        calc _ = k * z * gen z ls (c + 2) (m + 1) + (256 - k) * gen z ls (c + 1) (m + 1) := by ring
          _ ≤ _ := add_le_add w1 w2
          _ = _ := by ring
      have goal : ∀ k : ℚ, 0 ≤ k → k ≤ 256 → k * z * pot a b G (norm ls (c + 2)) + (256 - k) * pot a b G (norm ls (c + 1)) ≤ L * pot a b G c →
          k * (z * gen z ls (c + 2) (m + 1)) + (256 - k) * gen z ls (c + 1) (m + 1) ≤ M * L * pot a b G c := by
        intro k k0 k1 hk
        refine (s k k0 k1).trans ?_
        rw [mul_assoc M L]
        exact mul_le_mul_of_nonneg_left hk hL
      have hz : 0 ≤ z := by linarith
      by_cases h0 : c = 0
      · have e : num ls c false = 7 := by rw [num, if_pos h0]
        rw [e]
        refine goal _ (by norm_num) (by norm_num) ?_
        subst h0
        have e2 : pot a b G 0 = b := by rw [pot, if_pos rfl]
        rw [e2]
        push_cast
        have := mul_le_mul_of_nonneg_left q2 hz
        simp only [Nat.zero_add, pow_one] at *
        nlinarith
      · have e2 : pot a b G c = a * G ^ c := by rw [pot, if_neg h0]
        by_cases hl : c + 1 = ls
        · have e : num ls c false = 6 := by rw [num, if_neg h0, if_pos (.inl hl)]
          have z0 : pot a b G 0 = b := by rw [pot, if_pos rfl]
          rw [e]
          refine goal _ (by norm_num) (by norm_num) ?_
          rw [norm_of_le (show ls ≤ c + 1 by omega), norm_of_le (show ls ≤ c + 2 by omega), z0, e2]
          rw [show ls - 1 = c by omega] at last
          push_cast
          linarith
        · have e : num ls c false = 4 := by rw [num, if_neg h0, if_neg (by simp [hl])]
          rw [e]
          refine goal _ (by norm_num) (by norm_num) ?_
          rw [e2]
          have w0 : 0 ≤ a * G ^ c := by nlinarith [gp c]
          have w := mul_le_mul_of_nonneg_left mid w0
          have w2 := mul_le_mul_of_nonneg_left q2 hz
          rw [pow_add] at q1 q2 w2
          push_cast
          nlinarith

/-- Chernoff's bound: how many data have `t` or more escapes. -/
theorem tail_le {ls : Nat} (h1 : 1 ≤ ls) {z a b G L : ℚ} (hp : Params ls z a b G L) (n t : Nat) :
    ((Finset.univ.filter fun d : Fin n → Fin 256 => t ≤ esc ls 0 (bytes d)).card : ℚ) * z ^ t ≤ L ^ n * b := by
  have h := gen_le h1 hp n 0
  have e : pot a b G (norm ls 0) = b := by rw [norm_of_lt (by omega), pot, if_pos rfl]
  rw [e] at h
  refine le_trans ?_ h
  unfold gen
  rw [← nsmul_eq_mul, ← Finset.sum_const]
  refine le_trans (Finset.sum_le_sum fun d hd => ?_) (Finset.sum_le_univ_sum_of_nonneg fun d => pow_nonneg (by linarith [hp.z1]) _)
  exact pow_le_pow_right₀ hp.z1 (Finset.mem_filter.1 hd).2

end Yenc.Ratio
