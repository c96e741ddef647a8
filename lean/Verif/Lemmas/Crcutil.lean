import Verif.Lemmas.CrcX86
import Verif.Model.Crcutil
/-! crcutil computes CRC-32. Values are compared through `ev y`: the number read as a polynomial in the inverse of `x`. -/
namespace Yenc.Crc.Util
open Polynomial Vec Yenc.Spec

theorem evy_xor (a b : U64) : ev y (a ^^^ b).toNat = ev y a.toNat + ev y b.toNat := by rw [BitVec.toNat_xor, evx_xor]

theorem xor_lt {a b : U64} (ha : a.toNat < 2 ^ 32) (hb : b.toNat < 2 ^ 32) : (a ^^^ b).toNat < 2 ^ 32 := by
  rw [BitVec.toNat_xor]; exact Nat.xor_lt_two_pow ha hb

theorem add_self (a : R) : a + a = 0 := by have := two_eq_zero; linear_combination a * this

/-! ### Products -/

theorem ev_poly : ev y 0xEDB88320 = x := by
  have h := ev_add_pow y 1 0xEDB88320 1 (by decide)
  rw [show 2 ^ 1 * 0xEDB88320 + 1 = 0x1db710641 from rfl, ev_generator, ev_one] at h
  have h2 := two_eq_zero
  have h3 := xy
  linear_combination -x * h - ev y 0xEDB88320 * h3 - x * h2

theorem ev_step (b : U64) (hb : b.toNat < 2 ^ 32) (p : U64) (hp : p = 0xEDB88320#64) :
    ev y ((b >>> 1) ^^^ (if b &&& 1#64 = 0#64 then 0#64 else p)).toNat = x * ev y b.toNat ∧
    ((b >>> 1) ^^^ (if b &&& 1#64 = 0#64 then 0#64 else p)).toNat < 2 ^ 32 := by
  have hd := ev_div_mod y 1 b.toNat
  have h1 : (b >>> 1).toNat = b.toNat / 2 ^ 1 := by rw [BitVec.toNat_ushiftRight, Nat.shiftRight_eq_div_pow]
  have hx := xy
  have h2 : (b &&& 1#64 = 0#64) ↔ b.toNat % 2 ^ 1 = 0 := by
    rw [← BitVec.toNat_inj, BitVec.toNat_and, show (1#64).toNat = 1 from rfl, Nat.and_one_is_mod]; rfl
  constructor
  · rw [evy_xor, h1]
    by_cases h : b.toNat % 2 ^ 1 = 0
    · rw [if_pos (h2.2 h)]
      rw [h, ev_zero] at hd
      rw [show (0#64).toNat = 0 from rfl, ev_zero]
      linear_combination -x * hd + -ev y (b.toNat / 2 ^ 1) * hx
    · rw [if_neg (fun hc => h (h2.1 hc)), hp, show (0xEDB88320#64).toNat = 0xEDB88320 from rfl, ev_poly]
      have h3 : b.toNat % 2 ^ 1 = 1 := by omega
      rw [h3, ev_one] at hd
      linear_combination -x * hd + -ev y (b.toNat / 2 ^ 1) * hx 
  · refine xor_lt (by rw [h1]; omega) ?_
    split
    · decide
    · rw [hp]; decide

theorem xor_top (a : Nat) : (2 ^ 31 + a) % 2 ^ 32 = (2 ^ 31 + a) → (2 ^ 31 + a) ^^^ 2 ^ 31 = a := by
  intro h
  have ha : a < 2 ^ 31 := by omega
  apply ev_X_inj
  have h1 := ev_add_pow (X : (ZMod 2)[X]) 31 1 a ha
  have h2 := ev_shl (X : (ZMod 2)[X]) 31 1
  rw [Nat.mul_one] at h1 h2
  rw [ev_xor two_poly, h1, h2]
  have := two_poly
  linear_combination (X ^ 31 * ev X 1) * this

theorem and_top (n : Nat) : n &&& 2 ^ 31 ≠ 0 ↔ n / 2 ^ 31 % 2 = 1 := by
  have h : n.testBit 31 = decide (n / 2 ^ 31 % 2 = 1) := Nat.testBit_eq_decide_div_mod_eq
  constructor
  · intro h0
    by_contra hc
    rw [decide_eq_false hc] at h
    refine h0 (Nat.eq_of_testBit_eq fun i => ?_)
    rw [Nat.testBit_and, Nat.testBit_two_pow]
    by_cases hi : 31 = i
    · subst hi; rw [h]; simp
    · simp [hi]
  · intro h1 h0
    rw [decide_eq_true h1] at h
    have : (n &&& 2 ^ 31).testBit 31 = true := by rw [Nat.testBit_and, h, Nat.testBit_two_pow_self]; rfl
    rw [h0] at this
    simp at this

/-- What the code assumes about a field: here, that it is the one of CRC-32. -/
structure IsGf (g : Gf) : Prop where
  degree : g.degree = 32
  one : g.one = 0x80000000#64
  canonize : g.canonize = 0xffffffff#64
  poly : g.poly = 0xEDB88320#64

theorem mulLoop_spec {g : Gf} (hg : IsGf g) (n : Nat) : ∀ (k : Nat) (p a b : U64), 32 ≤ k + n → 2 ^ k ∣ a.toNat → a.toNat < 2 ^ 32 → b.toNat < 2 ^ 32 →
    p.toNat < 2 ^ 32 → ev y (mulLoop g n p a b).toNat = ev y p.toNat + x ^ 31 * ev y a.toNat * ev y b.toNat ∧ (mulLoop g n p a b).toNat < 2 ^ 32 := by
  induction n with
  | zero =>
    intro k p a b hk hd ha _ hp
    have h0 : a.toNat = 0 := by
      refine Nat.eq_zero_of_dvd_of_lt hd (lt_of_lt_of_le ha (Nat.pow_le_pow_right (by omega) (by omega)))
    rw [mulLoop, h0, ev_zero]
    exact ⟨by ring, hp⟩
  | succ n ih =>
    intro k p a b hk hd ha hb hp
    rw [mulLoop]
    by_cases h0 : a = 0#64
    · rw [if_neg (not_not.2 h0), h0, show (0#64).toNat = 0 from rfl, ev_zero]
      exact ⟨by ring, hp⟩
    rw [if_pos h0]
    obtain ⟨hs1, hs2⟩ := ev_step b hb g.poly hg.poly
    have ht : (a &&& g.one ≠ 0#64) ↔ 2 ^ 31 ≤ a.toNat := by
      rw [hg.one, ne_eq, ← BitVec.toNat_inj, BitVec.toNat_and, show (0x80000000#64).toNat = 2 ^ 31 from rfl, show (0#64).toNat = 0 from rfl, ← ne_eq, and_top]
      omega
    have hx := xy
    have h31 := xy_pow 31
    by_cases h : 2 ^ 31 ≤ a.toNat
    · simp only [if_pos (ht.2 h)]
      obtain ⟨a', ha'⟩ : ∃ a', a.toNat = 2 ^ 31 + a' := ⟨a.toNat - 2 ^ 31, by omega⟩
      have hx1 : (a ^^^ g.one).toNat = a' := by
        rw [BitVec.toNat_xor, hg.one, show (0x80000000#64).toNat = 2 ^ 31 from rfl, ha', xor_top a' (by omega)]
      have hx2 : ((a ^^^ g.one) <<< 1).toNat = 2 * a' := by
        rw [BitVec.toNat_shiftLeft, hx1, Nat.shiftLeft_eq]; omega
      have hk31 : k ≤ 31 ∨ 32 ≤ k := by omega
      have hd' : 2 ^ (k + 1) ∣ 2 * a' := by
        rw [pow_succ']
        refine Nat.mul_dvd_mul_left 2 ?_
        rcases hk31 with hk1 | hk1
        · refine (Nat.dvd_add_right (pow_dvd_pow 2 hk1)).1 (ha' ▸ hd)
        · have := Nat.eq_zero_of_dvd_of_lt hd (lt_of_lt_of_le ha (Nat.pow_le_pow_right (by omega) (by omega)))
          omega
      obtain ⟨r1, r2⟩ := ih (k + 1) (p ^^^ b) ((a ^^^ g.one) <<< 1) _ (by omega) (by rw [hx2]; exact hd') (by rw [hx2]; omega) hs2 (xor_lt hp hb)
      refine ⟨?_, r2⟩
      have e1 := ev_shl y 1 a'
      rw [show 2 ^ 1 * a' = 2 * a' from rfl, pow_one] at e1
      have e2 := ev_add_pow y 31 1 a' (by omega)
      rw [Nat.mul_one, ev_one, mul_one] at e2
      rw [r1, hs1, evy_xor, hx2, ha', e1, e2]
      linear_combination (x ^ 31 * ev y a' * ev y b.toNat) * hx - ev y b.toNat * h31
    · simp only [if_neg (fun hc => h (ht.1 hc))]
      have hx2 : (a <<< 1).toNat = 2 * a.toNat := by
        rw [BitVec.toNat_shiftLeft, Nat.shiftLeft_eq]; omega
      obtain ⟨r1, r2⟩ := ih (k + 1) p (a <<< 1) _ (by omega) (by rw [hx2, pow_succ']; exact Nat.mul_dvd_mul_left 2 hd) (by rw [hx2]; omega) hs2 hp
      refine ⟨?_, r2⟩
      have e1 := ev_shl y 1 a.toNat
      rw [show 2 ^ 1 * a.toNat = 2 * a.toNat from rfl, pow_one] at e1
      rw [r1, hs1, hx2, e1]
      linear_combination (x ^ 31 * ev y a.toNat * ev y b.toNat) * hx

/-- `Multiply` is the product. -/
theorem multiply_spec {g : Gf} (hg : IsGf g) (a b : U64) (ha : a.toNat < 2 ^ 32) (hb : b.toNat < 2 ^ 32) :
    ev y (g.multiply a b).toNat = x ^ 31 * ev y a.toNat * ev y b.toNat ∧ (g.multiply a b).toNat < 2 ^ 32 := by
  have key : ∀ a b : U64, a.toNat < 2 ^ 32 → b.toNat < 2 ^ 32 → ev y (if a = 0#64 then a else mulLoop g 64 0#64 a b).toNat = x ^ 31 * ev y a.toNat * ev y b.toNat ∧
      (if a = 0#64 then a else mulLoop g 64 0#64 a b).toNat < 2 ^ 32 := by
    intro a b ha hb
    by_cases h : a = 0#64
    · rw [if_pos h, h, show (0#64).toNat = 0 from rfl, ev_zero]
      exact ⟨by ring, by decide⟩
    · rw [if_neg h]
      obtain ⟨h1, h2⟩ := mulLoop_spec hg 64 0 0#64 a b (by omega) (by simp) ha hb (by decide)
      rw [show (0#64).toNat = 0 from rfl, ev_zero, zero_add] at h1
      exact ⟨h1, h2⟩
  unfold Gf.multiply
  by_cases h : (a ^^^ (a - 1#64)).ult (b ^^^ (b - 1#64)) = true
  · rw [if_pos h]
    obtain ⟨h1, h2⟩ := key b a hb ha
    exact ⟨h1.trans (by ring), h2⟩
  · rw [if_neg h]
    exact key a b ha hb

/-! ### Powers -/

theorem squares_spec {g : Gf} (hg : IsGf g) (n : Nat) : ∀ (k : U64) (a : R), k.toNat < 2 ^ 32 → ev y k.toNat = y ^ 31 * a → ∀ i, i < n →
    ∃ v : U64, (squares g n k)[i]? = some v ∧ v.toNat < 2 ^ 32 ∧ ev y v.toNat = y ^ 31 * a ^ 2 ^ i := by
  induction n with
  | zero => intro k a _ _ i hi; omega
  | succ n ih =>
    intro k a hk ha i hi
    rw [squares]
    cases i with
    | zero => exact ⟨k, rfl, hk, by rw [ha]; ring⟩
    | succ i =>
      obtain ⟨h1, h2⟩ := multiply_spec hg k k hk hk
      obtain ⟨v, h3, h4, h5⟩ := ih (g.multiply k k) (a ^ 2) h2 (by
        rw [h1, ha]
        have := xy_pow 31
        linear_combination (y ^ 31 * a ^ 2) * this) i (by omega)
      exact ⟨v, by rw [List.getElem?_cons_succ]; exact h3, h4, by rw [h5, ← pow_mul, ← pow_succ']⟩

/-- A field whose table of powers is right. -/
structure IsPow (g : Gf) : Prop extends IsGf g where
  pow : ∀ i, i < 64 → ∃ v : U64, g.xPow2n[i]? = some v ∧ v.toNat < 2 ^ 32 ∧ ev y v.toNat = y ^ 31 * x ^ 2 ^ i

theorem xpowFrom_spec {g : Gf} (hg : IsPow g) (n : Nat) : ∀ (i : Nat) (r : U64) (a : R), n < 2 ^ (64 - i) → r.toNat < 2 ^ 32 → ev y r.toNat = y ^ 31 * a →
    ∃ v : U64, g.xpowFrom i n r = some v ∧ v.toNat < 2 ^ 32 ∧ ev y v.toNat = y ^ 31 * (a * x ^ (n * 2 ^ i)) := by
  induction n using Nat.strongRecOn with
  | _ n ih =>
    intro i r a hn hr ha
    rw [Gf.xpowFrom.eq_def]
    by_cases h0 : n = 0
    · rw [dif_pos h0]
      exact ⟨r, rfl, hr, by rw [ha, h0]; simp⟩
    rw [dif_neg h0]
    have hi : i < 64 := by
      by_contra hc
      rw [Nat.sub_eq_zero_of_le (by omega)] at hn
      omega
    have hlt : n / 2 < 2 ^ (64 - (i + 1)) := by
      have : 2 ^ (64 - i) = 2 * 2 ^ (64 - (i + 1)) := by rw [← pow_succ']; congr 1; omega
      omega
    have hm : n * 2 ^ i = n % 2 * 2 ^ i + n / 2 * 2 ^ (i + 1) := by
      conv_lhs => rw [← Nat.mod_add_div n 2]
      rw [pow_succ]; ring
    by_cases h1 : n % 2 = 1
    · rw [if_pos h1]
      obtain ⟨v, h2, h3, h4⟩ := hg.pow i hi
      rw [h2, Option.bind_some]
      obtain ⟨h5, h6⟩ := multiply_spec hg.toIsGf r v hr h3
      obtain ⟨w, h7, h8, h9⟩ := ih (n / 2) (by omega) (i + 1) (g.multiply r v) (a * x ^ 2 ^ i) hlt h6 (by
        rw [h5, ha, h4]
        have := xy_pow 31
        linear_combination (y ^ 31 * a * x ^ 2 ^ i) * this)
      refine ⟨w, h7, h8, ?_⟩
      rw [h9, hm, h1, one_mul, pow_add]; ring
    · rw [if_neg h1]
      obtain ⟨w, h7, h8, h9⟩ := ih (n / 2) (by omega) (i + 1) r a hlt hr ha
      refine ⟨w, h7, h8, ?_⟩
      rw [h9, hm, show n % 2 = 0 by omega, zero_mul, zero_add]

theorem ev_one64 : ev y (0x80000000#64).toNat = y ^ 31 := by
  have := ev_shl y 31 1
  rw [Nat.mul_one, ev_one, mul_one] at this
  exact this

/-- `XpowN`. -/
theorem xpowN_spec {g : Gf} (hg : IsPow g) (n : Nat) (hn : n < 2 ^ 64) :
    ∃ v : U64, g.xpowN n = some v ∧ v.toNat < 2 ^ 32 ∧ ev y v.toNat = y ^ 31 * x ^ n := by
  rw [Gf.xpowN]
  obtain ⟨v, h1, h2, h3⟩ := xpowFrom_spec hg n 0 g.one 1 hn (by rw [hg.one]; decide) (by rw [hg.one, ev_one64, mul_one])
  exact ⟨v, h1, h2, by rw [h3]; simp⟩

theorem init_isPow : IsPow (Gf.init 0xEDB88320#64 32 true) where
  degree := rfl
  one := by decide
  canonize := by decide
  poly := rfl
  pow := by
    intro i hi
    have hg : IsGf ⟨32, 1#64 <<< 31, (1#64 <<< 31) ||| ((1#64 <<< 31) - 1#64), 0xEDB88320#64, []⟩ := ⟨rfl, by decide, by decide, rfl⟩
    refine squares_spec hg 64 _ x (by decide) ?_ i hi
    rw [show ((1#64 <<< 31) >>> 1 : U64).toNat = 2 ^ 30 * 1 from by decide, ev_shl, ev_one, mul_one]
    have := xy
    linear_combination -y ^ 30 * this

/-! ### Tables -/

/-- A row with the multiples of `c`, as far as `n` entries. -/
def RowOk (c : R) (n : Nat) (l : List U64) : Prop :=
  l.length = n ∧ ∀ i, i < n → ∃ v : U64, l[i]? = some v ∧ v.toNat < 2 ^ 32 ∧ ev y v.toNat = c * ev y i

theorem row_step {c : R} {n : Nat} {l : List U64} (h : RowOk c (2 ^ n) l) (v : U64) (hv : v.toNat < 2 ^ 32) (he : ev y v.toNat = c * y ^ n) :
    RowOk c (2 ^ (n + 1)) (l ++ v :: l.tail.map (v ^^^ ·)) := by
  obtain ⟨h1, h2⟩ := h
  have hp := Nat.two_pow_pos n
  refine ⟨by simp [h1, pow_succ]; omega, fun i hi => ?_⟩
  rw [pow_succ] at hi
  by_cases hl : i < 2 ^ n
  · obtain ⟨w, h3, h4⟩ := h2 i hl
    exact ⟨w, by rw [List.getElem?_append_left (by omega)]; exact h3, h4⟩
  · obtain ⟨m, rfl⟩ : ∃ m, i = 2 ^ n * 1 + m := ⟨i - 2 ^ n, by omega⟩
    rw [List.getElem?_append_right (by omega), ev_add_pow y n 1 m (by omega), ev_one, h1]
    cases m with
    | zero => exact ⟨v, by simp, hv, by rw [he, ev_zero]; ring⟩
    | succ m =>
      obtain ⟨w, h3, h4, h5⟩ := h2 (m + 1) (by omega)
      refine ⟨v ^^^ w, ?_, xor_lt hv h4, by rw [evy_xor, he, h5]; ring⟩
      rw [show 2 ^ n * 1 + (m + 1) - 2 ^ n = m + 1 by omega, List.getElem?_cons_succ, List.getElem?_map, List.getElem?_tail, h3]
      rfl

theorem mulUnnorm_spec {g : Gf} (hg : IsGf g) (n : Nat) (hn : n < 8) (k : U64) (hk : k.toNat < 2 ^ 32) (a : R) (ha : ev y k.toNat = y ^ 31 * a) :
    ∃ v : U64, g.mulUnnorm (BitVec.ofNat 64 (2 ^ n)) 8 k = some v ∧ v.toNat < 2 ^ 32 ∧ ev y v.toNat = y ^ 24 * a * y ^ n := by
  have hlt : 2 ^ n < 2 ^ 8 := Nat.pow_lt_pow_right (by omega) hn
  have hs : ((BitVec.ofNat 64 (2 ^ n)) <<< 24).toNat = 2 ^ 24 * (2 ^ n * 1) := by
    rw [BitVec.toNat_shiftLeft, BitVec.toNat_ofNat, Nat.shiftLeft_eq]; omega
  obtain ⟨h1, h2⟩ := multiply_spec hg (BitVec.ofNat 64 (2 ^ n) <<< 24) k (by rw [hs]; omega) hk
  rw [Gf.mulUnnorm, Gf.mulUnnormFrom.eq_def, dif_neg (by rw [hg.degree]; omega), hg.degree]
  refine ⟨_, rfl, ?_, ?_⟩
  · exact xor_lt (by decide) h2
  · rw [evy_xor, show (0#64).toNat = 0 from rfl, ev_zero, zero_add]
    refine h1.trans ?_
    rw [hs, ev_shl, ev_shl, ev_one, ha]
    have := xy_pow 31
    linear_combination (y ^ 24 * y ^ n * a) * this

theorem row_spec {g : Gf} (hg : IsGf g) (k : U64) (hk : k.toNat < 2 ^ 32) (a : R) (ha : ev y k.toNat = y ^ 31 * a) :
    ∃ l, row g k = some l ∧ RowOk (y ^ 24 * a) 256 l := by
  have h0 : RowOk (y ^ 24 * a) (2 ^ 0) [0#64] := by
    refine ⟨rfl, fun i hi => ?_⟩
    obtain rfl : i = 0 := by simpa using hi
    exact ⟨0#64, rfl, by decide, by rw [show (0#64).toNat = 0 from rfl, ev_zero, mul_zero]⟩
  have hb : ∀ n, n < 8 → ∃ v : U64, g.mulUnnorm (BitVec.ofNat 64 (2 ^ n)) 8 k = some v ∧ v.toNat < 2 ^ 32 ∧ ev y v.toNat = y ^ 24 * a * y ^ n :=
    fun n hn => mulUnnorm_spec hg n hn k hk a ha
  obtain ⟨v0, m0, l0, e0⟩ := hb 0 (by omega)
  obtain ⟨v1, m1, l1, e1⟩ := hb 1 (by omega)
  obtain ⟨v2, m2, l2, e2⟩ := hb 2 (by omega)
  obtain ⟨v3, m3, l3, e3⟩ := hb 3 (by omega)
  obtain ⟨v4, m4, l4, e4⟩ := hb 4 (by omega)
  obtain ⟨v5, m5, l5, e5⟩ := hb 5 (by omega)
  obtain ⟨v6, m6, l6, e6⟩ := hb 6 (by omega)
  obtain ⟨v7, m7, l7, e7⟩ := hb 7 (by omega)
  have r := row_step (row_step (row_step (row_step (row_step (row_step (row_step (row_step h0 v0 l0 e0) v1 l1 e1) v2 l2 e2) v3 l3 e3) v4 l4 e4) v5 l5 e5)
    v6 l6 e6) v7 l7 e7
  refine ⟨_, ?_, r⟩
  simp only [show (2 ^ 0 : Nat) = 1 from rfl, show (2 ^ 1 : Nat) = 2 from rfl, show (2 ^ 2 : Nat) = 4 from rfl, show (2 ^ 3 : Nat) = 8 from rfl,
    show (2 ^ 4 : Nat) = 16 from rfl, show (2 ^ 5 : Nat) = 32 from rfl, show (2 ^ 6 : Nat) = 64 from rfl, show (2 ^ 7 : Nat) = 128 from rfl] at m0 m1 m2 m3 m4 m5 m6 m7
  rw [row]
  simp only [List.foldlM_cons, List.foldlM_nil, m0, m1, m2, m3, m4, m5, m6, m7, Option.map_some, Option.bind_eq_bind, Option.bind_some]
  rfl

/-- A table for words: row `j` has the multiples of `c` divided by `x^(8 j)`. -/
def RowsOk (c : R) (t : List (List U64)) : Prop := ∀ j, j < 8 → ∃ r, t[j]? = some r ∧ RowOk (y ^ (8 * j) * c) 256 r

theorem mapM_spec {α β : Type} (f : α → Option β) (P : α → β → Prop) (l : List α) (h : ∀ a, a ∈ l → ∃ b, f a = some b ∧ P a b) :
    ∃ r, l.mapM f = some r ∧ ∀ j (hj : j < l.length), ∃ b, r[j]? = some b ∧ P l[j] b := by
  induction l with
  | nil => exact ⟨[], rfl, fun j hj => by simp at hj⟩
  | cons a l ih =>
    obtain ⟨b, h1, h2⟩ := h a (by simp)
    obtain ⟨r, h3, h4⟩ := ih fun a' ha => h a' (by simp [ha])
    refine ⟨b :: r, by rw [List.mapM_cons, h1, h3]; rfl, fun j hj => ?_⟩
    cases j with
    | zero => exact ⟨b, rfl, h2⟩
    | succ j => exact h4 j (by simpa using hj)

theorem rows_spec {g : Gf} (hg : IsPow g) (stride : Nat) (h1 : 1 ≤ stride) (h4 : stride ≤ 4) : ∃ t, rows g stride = some t ∧ RowsOk (x ^ (64 * stride)) t := by
  obtain ⟨t, e1, e2⟩ := mapM_spec (fun j => (g.xpowN ((8 * stride - 1 - j) * 8 + g.degree)).bind (row g))
    (fun j r => RowOk (y ^ (8 * j) * x ^ (64 * stride)) 256 r) (List.range 8) (by
      intro j hj
      have hj8 : j < 8 := List.mem_range.1 hj
      obtain ⟨v, h2, h3, h5⟩ := xpowN_spec hg ((8 * stride - 1 - j) * 8 + g.degree) (by rw [hg.degree]; omega)
      obtain ⟨l, h6, h7⟩ := row_spec hg.toIsGf v h3 _ h5
      refine ⟨l, by rw [h2, Option.bind_some]; exact h6, ?_⟩
      have : y ^ 24 * x ^ ((8 * stride - 1 - j) * 8 + g.degree) = y ^ (8 * j) * x ^ (64 * stride) := by
        rw [hg.degree, show (8 * stride - 1 - j) * 8 + 32 = (64 * stride - 8 * j) + 24 by omega, pow_add]
        have a1 := xy_pow 24
        have a2 := x_sub (64 * stride) (8 * j) (by omega)
        linear_combination x ^ (64 * stride - 8 * j) * a1 - a2
      rw [this] at h7
      exact h7)
  refine ⟨t, e1, fun j hj => ?_⟩
  obtain ⟨b, h2, h3⟩ := e2 j (by simpa using hj)
  exact ⟨b, h2, by simpa using h3⟩

theorem entry_spec {c : R} {t : List (List U64)} (h : RowsOk c t) (j i : Nat) (hj : j < 8) (hi : i < 256) :
    ∃ v : U64, entry t j i = some v ∧ v.toNat < 2 ^ 32 ∧ ev y v.toNat = y ^ (8 * j) * c * ev y i := by
  obtain ⟨r, h1, -, h2⟩ := h j hj
  obtain ⟨v, h3, h4⟩ := h2 i hi
  exact ⟨v, by rw [entry, h1]; exact h3, h4⟩

/-! ### Eight table entries -/

/-- A way to look a word up: reads inside the rows and multiplies by `c`. -/
def LookOk (f : List (List U64) → U64 → Option U64) : Prop :=
  ∀ c t, RowsOk c t → ∀ v : U64, ∃ r : U64, f t v = some r ∧ r.toNat < 2 ^ 32 ∧ ev y r.toNat = c * ev y v.toNat

/-- The bytes of a word looked up one after the other. -/
def lookAll (t : List (List U64)) (v : U64) : Option U64 := do
  let e0 ← entry t 0 (v.toNat % 256)
  let e1 ← entry t 1 (v.toNat / 2 ^ 8 % 256)
  let e2 ← entry t 2 (v.toNat / 2 ^ 16 % 256)
  let e3 ← entry t 3 (v.toNat / 2 ^ 24 % 256)
  let e4 ← entry t 4 (v.toNat / 2 ^ 32 % 256)
  let e5 ← entry t 5 (v.toNat / 2 ^ 40 % 256)
  let e6 ← entry t 6 (v.toNat / 2 ^ 48 % 256)
  let e7 ← entry t 7 (v.toNat / 2 ^ 56)
  some (e0 ^^^ e1 ^^^ e2 ^^^ e3 ^^^ e4 ^^^ e5 ^^^ e6 ^^^ e7)

theorem ev_bytes (t : R) (n : Nat) : ev t n = ev t (n % 256) + t ^ 8 * ev t (n / 2 ^ 8 % 256) + t ^ 16 * ev t (n / 2 ^ 16 % 256) +
    t ^ 24 * ev t (n / 2 ^ 24 % 256) + t ^ 32 * ev t (n / 2 ^ 32 % 256) + t ^ 40 * ev t (n / 2 ^ 40 % 256) + t ^ 48 * ev t (n / 2 ^ 48 % 256) +
    t ^ 56 * ev t (n / 2 ^ 56) := by
  have h : ∀ m, ev t m = ev t (m % 256) + t ^ 8 * ev t (m / 2 ^ 8) := fun m => ev_div_mod t 8 m
  have h0 := h n
  have h1 := h (n / 2 ^ 8)
  have h2 := h (n / 2 ^ 16)
  have h3 := h (n / 2 ^ 24)
  have h4 := h (n / 2 ^ 32)
  have h5 := h (n / 2 ^ 40)
  have h6 := h (n / 2 ^ 48)
  rw [Nat.div_div_eq_div_mul, ← pow_add] at h1 h2 h3 h4 h5 h6
  linear_combination h0 + t ^ 8 * h1 + t ^ 16 * h2 + t ^ 24 * h3 + t ^ 32 * h4 + t ^ 40 * h5 + t ^ 48 * h6

theorem lookAll_ok : LookOk lookAll := by
  intro c t h v
  have hv := v.isLt
  obtain ⟨e0, m0, l0, v0⟩ := entry_spec h 0 (v.toNat % 256) (by omega) (by omega)
  obtain ⟨e1, m1, l1, v1⟩ := entry_spec h 1 (v.toNat / 2 ^ 8 % 256) (by omega) (by omega)
  obtain ⟨e2, m2, l2, v2⟩ := entry_spec h 2 (v.toNat / 2 ^ 16 % 256) (by omega) (by omega)
  obtain ⟨e3, m3, l3, v3⟩ := entry_spec h 3 (v.toNat / 2 ^ 24 % 256) (by omega) (by omega)
  obtain ⟨e4, m4, l4, v4⟩ := entry_spec h 4 (v.toNat / 2 ^ 32 % 256) (by omega) (by omega)
  obtain ⟨e5, m5, l5, v5⟩ := entry_spec h 5 (v.toNat / 2 ^ 40 % 256) (by omega) (by omega)
  obtain ⟨e6, m6, l6, v6⟩ := entry_spec h 6 (v.toNat / 2 ^ 48 % 256) (by omega) (by omega)
  obtain ⟨e7, m7, l7, v7⟩ := entry_spec h 7 (v.toNat / 2 ^ 56) (by omega) (by omega)
  refine ⟨e0 ^^^ e1 ^^^ e2 ^^^ e3 ^^^ e4 ^^^ e5 ^^^ e6 ^^^ e7, ?_, ?_, ?_⟩
  · simp only [lookAll, m0, m1, m2, m3, m4, m5, m6, m7, Option.bind_eq_bind, Option.bind_some]
  · exact xor_lt (xor_lt (xor_lt (xor_lt (xor_lt (xor_lt (xor_lt l0 l1) l2) l3) l4) l5) l6) l7
  · simp only [evy_xor, v0, v1, v2, v3, v4, v5, v6, v7]
    rw [ev_bytes y v.toNat]
    ring

theorem toNat_shr {w : Nat} (v : BitVec w) (k : Nat) : (v >>> k).toNat = v.toNat / 2 ^ k := by rw [BitVec.toNat_ushiftRight, Nat.shiftRight_eq_div_pow]

theorem lookC_eq (t : List (List U64)) (v : U64) : lookC t v = lookAll t v := by
  have hv := v.isLt
  rw [lookC, lookAll]
  simp only [List.foldlM_cons, List.foldlM_nil, lookNext, Option.bind_eq_bind, BitVec.toNat_setWidth, toNat_shr, Nat.div_div_eq_div_mul, ← pow_add,
    Option.map_eq_bind, Option.bind_assoc, Option.bind_some, Function.comp, Option.pure_def]

theorem lookAmd64_eq (t : List (List U64)) (v : U64) : lookAmd64 t v = lookAll t v := by
  have hv := v.isLt
  rw [lookAmd64, lookAll]
  have h7 : v.toNat / 2 ^ 56 % 2 ^ 8 = v.toNat / 2 ^ 56 := Nat.mod_eq_of_lt (by omega)
  simp only [al, ah, BitVec.toNat_setWidth, toNat_shr, Nat.div_div_eq_div_mul, ← pow_add, Nat.reduceAdd, h7]

theorem lookMmx_eq (t : List (List U64)) (v : U64) : lookMmx t v = lookAll t v := by
  have hv := v.isLt
  rw [lookMmx, lookAll]
  have h0 : v.toNat % 2 ^ 32 % 2 ^ 8 = v.toNat % 256 := by omega
  have h1 : v.toNat % 2 ^ 32 / 2 ^ 8 % 2 ^ 8 = v.toNat / 2 ^ 8 % 256 := by omega
  have h2 : v.toNat % 2 ^ 32 / 2 ^ 16 % 2 ^ 8 = v.toNat / 2 ^ 16 % 256 := by omega
  have h3 : v.toNat % 2 ^ 32 / 2 ^ 24 = v.toNat / 2 ^ 24 % 256 := by omega
  have h4 : v.toNat / 2 ^ 32 % 2 ^ 32 % 2 ^ 8 = v.toNat / 2 ^ 32 % 256 := by omega
  have h5 : v.toNat / 2 ^ 32 % 2 ^ 32 / 2 ^ 8 % 2 ^ 8 = v.toNat / 2 ^ 40 % 256 := by omega
  have h6 : v.toNat / 2 ^ 32 % 2 ^ 32 / 2 ^ 16 % 2 ^ 8 = v.toNat / 2 ^ 48 % 256 := by omega
  have h7 : v.toNat / 2 ^ 32 % 2 ^ 32 / 2 ^ 24 = v.toNat / 2 ^ 56 := by omega
  simp only [al, BitVec.toNat_setWidth, toNat_shr, Nat.div_div_eq_div_mul, ← pow_add, Nat.reduceAdd, h0, h1, h2, h3, h4, h5, h6, h7]

theorem lookCl_eq (t : List (List U64)) (v : U64) : lookCl t v = lookAll t v := by
  have hv := v.isLt
  rw [lookCl, lookAll]
  have h0 : v.toNat % 2 ^ 32 % 2 ^ 8 = v.toNat % 256 := by omega
  have h1 : v.toNat % 2 ^ 32 / 2 ^ 8 % 2 ^ 8 = v.toNat / 2 ^ 8 % 256 := by omega
  have h2 : v.toNat % 2 ^ 32 / 2 ^ 16 % 2 ^ 8 = v.toNat / 2 ^ 16 % 256 := by omega
  have h3 : v.toNat % 2 ^ 32 / 2 ^ 24 = v.toNat / 2 ^ 24 % 256 := by omega
  have h4 : v.toNat / 2 ^ 32 % 2 ^ 32 % 2 ^ 8 = v.toNat / 2 ^ 32 % 256 := by omega
  have h5 : v.toNat / 2 ^ 32 % 2 ^ 32 / 2 ^ 8 % 2 ^ 8 = v.toNat / 2 ^ 40 % 256 := by omega
  have h6 : v.toNat / 2 ^ 32 % 2 ^ 32 / 2 ^ 16 % 2 ^ 8 = v.toNat / 2 ^ 48 % 256 := by omega
  have h7 : v.toNat / 2 ^ 32 % 2 ^ 32 / 2 ^ 24 = v.toNat / 2 ^ 56 := by omega
  simp only [al, ah, BitVec.toNat_setWidth, toNat_shr, Nat.div_div_eq_div_mul, ← pow_add, Nat.reduceAdd, h0, h1, h2, h3, h4, h5, h6, h7]

theorem LookOk.of_eq {f : List (List U64) → U64 → Option U64} (h : ∀ t v, f t v = lookAll t v) : LookOk f := by
  intro c t ht v
  rw [h]
  exact lookAll_ok c t ht v

theorem lookC_ok : LookOk lookC := .of_eq lookC_eq
theorem lookAmd64_ok : LookOk lookAmd64 := .of_eq lookAmd64_eq
theorem lookMmx_ok : LookOk lookMmx := .of_eq lookMmx_eq
theorem lookCl_ok : LookOk lookCl := .of_eq lookCl_eq

/-! ### The data -/

/-- The tables set up at start-up. -/
structure TablesOk (t : Tables) : Prop where
  word : RowsOk (x ^ 64) t.word
  inter : RowsOk (x ^ 256) t.inter
  canonize : t.base.canonize = 0xffffffff#64

theorem tables_spec : ∃ t, tables = some t ∧ TablesOk t := by
  obtain ⟨i, h1, h2⟩ := rows_spec init_isPow 4 (by omega) (by omega)
  obtain ⟨w, h3, h4⟩ := rows_spec init_isPow 1 (by omega) (by omega)
  refine ⟨⟨i, w, Gf.init 0xEDB88320#64 32 true⟩, ?_, h4, h2, init_isPow.canonize⟩
  rw [tables, Tables.init, h1, Option.bind_some, h3]
  rfl

/-- The CRC register after `off` bytes. -/
structure Inv (s : Src) (init : U32) (c : U64) (off : Nat) : Prop where
  bound : off ≤ s.data.length
  lt : c.toNat < 2 ^ 32
  val : y ^ 512 * ev y c.toNat = goal s init off

theorem load_spec (s : Src) (off : Nat) (h : off + 8 ≤ s.data.length) :
    ∃ b : U64, load s off = some b ∧ b.toNat = le (fun j => s.at (off + j)) 0 8 := by
  refine ⟨_, by rw [load, s.loadu_eq _ _ h]; rfl, ?_⟩
  rw [BitVec.toNat_ofNat, Nat.mod_eq_of_lt (le_lt _ 0 8)]

theorem goal_word (s : Src) (init : U32) (off : Nat) (h : off + 8 ≤ s.data.length) :
    y ^ 64 * goal s init (off + 8) = goal s init off + y ^ 512 * ev y (le (fun j => s.at (off + j)) 0 8) :=
  goal_step s init off 8 h _ 0 (fun j _ => by rw [Nat.zero_add])

theorem crcByte_spec {t : Tables} (ht : TablesOk t) {s : Src} {init : U32} {c : U64} {off : Nat} (h : Inv s init c off) (hl : off < s.data.length) :
    ∃ c', crcByte t c s.data[off] = some c' ∧ Inv s init c' (off + 1) := by
  have hc := h.lt
  obtain ⟨v, h1, h2, h3⟩ := entry_spec ht.word 7 (c.setWidth 8 ^^^ s.data[off]).toNat (by omega) (by have := (c.setWidth 8 ^^^ s.data[off]).isLt; omega)
  refine ⟨(c >>> 8) ^^^ v, by rw [crcByte, h1]; rfl, hl, xor_lt (by rw [toNat_shr]; omega) h2, ?_⟩
  have g := goal_step s init off 1 hl (fun j => s.at (off + j)) 0 (fun j _ => by rw [Nat.zero_add])
  rw [ev_le_succ, show le (fun j => s.at (off + j)) (0 + 1) 0 = 0 from rfl, ev_zero, mul_zero, add_zero] at g
  have hat : (s.at (off + 0)) = s.data[off] := by rw [Src.at, Nat.add_zero, List.getD_eq_getElem?_getD, List.getElem?_eq_getElem hl]; rfl
  simp only [hat] at g
  have hx : ev y (c.setWidth 8 ^^^ s.data[off]).toNat = ev y (c.toNat % 2 ^ 8) + ev y (s.data[off]).toNat := by
    rw [BitVec.toNat_xor, evx_xor, BitVec.toNat_setWidth]
  have hd := ev_div_mod y 8 c.toNat
  have hv := h.val
  rw [evy_xor, toNat_shr, h3, hx]
  have h8 := xy_pow 8
  have h56 : x ^ 64 * y ^ (8 * 7) = x ^ 8 := x_sub 64 56 (by omega)
  rw [mul_comm (y ^ (8 * 7)), h56]
  generalize s.data[off].toNat = b at *
  generalize ev y b = e at *
  generalize ev y (c.toNat % 2 ^ 8) = f at *
  generalize ev y (c.toNat / 2 ^ 8) = k at *
  generalize ev y c.toNat = m at *
  generalize goal s init (off + 1) = G at *
  generalize goal s init off = G0 at *
  rw [show 8 * 1 = 8 from rfl] at g
  linear_combination (-x ^ 8) * g + x ^ 8 * hv - x ^ 8 * y ^ 512 * hd + (G - y ^ 512 * k) * h8

theorem word_spec {f : List (List U64) → U64 → Option U64} (hf : LookOk f) {t : Tables} (ht : TablesOk t) {s : Src} {init : U32} {c : U64} {off : Nat}
    (h : Inv s init c off) (hl : off + 8 ≤ s.data.length) :
    ∃ b c', load s off = some b ∧ f t.word (b ^^^ c) = some c' ∧ Inv s init c' (off + 8) := by
  obtain ⟨b, h1, h2⟩ := load_spec s off hl
  obtain ⟨r, h3, h4, h5⟩ := hf _ _ ht.word (b ^^^ c)
  refine ⟨b, r, h1, h3, hl, h4, ?_⟩
  have g := goal_word s init off hl
  have hv := h.val
  rw [h5, evy_xor, h2]
  have h64 := xy_pow 64
  linear_combination (-x ^ 64) * g + x ^ 64 * hv + goal s init (off + 8) * h64

theorem align_spec {t : Tables} (ht : TablesOk t) (s : Src) (init : U32) (n : Nat) : ∀ (c : U64) (off : Nat), s.data.length - off = n → Inv s init c off →
    ∃ c' off', align t s c off = some (c', off') ∧ Inv s init c' off' := by
  induction n with
  | zero =>
    intro c off hn h
    rw [align.eq_def]
    split
    · rw [dif_neg (by omega)]; exact ⟨c, off, rfl, h⟩
    · exact ⟨c, off, rfl, h⟩
  | succ n ih =>
    intro c off hn h
    rw [align.eq_def]
    split
    · rw [dif_pos (by omega)]
      obtain ⟨c', h1, h2⟩ := crcByte_spec ht h (by omega)
      rw [h1]
      exact ih c' (off + 1) (by omega) h2
    · exact ⟨c, off, rfl, h⟩

theorem alignIfNeeded_spec {t : Tables} (ht : TablesOk t) {s : Src} {init : U32} {c : U64} (h : Inv s init c 0) :
    ∃ c' off', alignIfNeeded t s c = some (c', off') ∧ Inv s init c' off' := by
  rw [alignIfNeeded]
  split
  · exact align_spec ht s init _ c 0 rfl h
  · exact ⟨c, 0, rfl, h⟩

theorem bytes_spec {t : Tables} (ht : TablesOk t) (s : Src) (init : U32) (n : Nat) : ∀ (c : U64) (off : Nat), s.data.length - off = n → Inv s init c off →
    ∃ c', bytes t s c off = some c' ∧ Inv s init c' s.data.length := by
  induction n with
  | zero =>
    intro c off hn h
    have := h.bound
    rw [bytes.eq_def, dif_neg (by omega)]
    exact ⟨c, rfl, by rwa [show s.data.length = off by omega]⟩
  | succ n ih =>
    intro c off hn h
    rw [bytes.eq_def, dif_pos (by omega)]
    obtain ⟨c', h1, h2⟩ := crcByte_spec ht h (by omega)
    rw [h1]
    exact ih c' (off + 1) (by omega) h2

theorem words_spec {f : List (List U64) → U64 → Option U64} (hf : LookOk f) {t : Tables} (ht : TablesOk t) (s : Src) (init : U32) (stop : Int) (n : Nat) :
    ∀ (c : U64) (off : Nat), (stop - off).toNat = n → (∀ k : Nat, (off + 8 * k : Int) < stop → off + 8 * k + 8 ≤ s.data.length) → Inv s init c off →
    ∃ c' off', words f t s stop c off = some (c', off') ∧ Inv s init c' off' := by
  induction n using Nat.strongRecOn with
  | _ n ih =>
    intro c off hn hs h
    rw [words.eq_def]
    by_cases hl : (off : Int) < stop
    · rw [if_pos hl]
      obtain ⟨b, c', h1, h2, h3⟩ := word_spec hf ht h (by simpa using hs 0 (by simpa using hl))
      rw [h1, Option.bind_some, h2, Option.bind_some]
      refine ih _ (by omega) c' (off + 8) rfl (fun k hk => ?_) h3
      have := hs (k + 1) (by push_cast at hk ⊢; omega)
      omega
    · rw [if_neg hl]
      exact ⟨c, off, rfl, h⟩

/-! ### The interleaved loop -/

/-- The registers of the interleaved loop before the words at `off` are taken in. -/
structure Lanes (s : Src) (init : U32) (r : Regs) (off : Nat) : Prop where
  bound : off + 32 ≤ s.data.length
  val : y ^ 512 * (ev y r.c0.toNat + y ^ 64 * ev y r.c1.toNat + y ^ 128 * ev y r.c2.toNat + y ^ 192 * ev y r.c3.toNat) = goal s init off
  b0 : r.b0.toNat = le (fun j => s.at (off + j)) 0 8
  b1 : r.b1.toNat = le (fun j => s.at (off + 8 + j)) 0 8
  b2 : r.b2.toNat = le (fun j => s.at (off + 16 + j)) 0 8
  b3 : r.b3.toNat = le (fun j => s.at (off + 24 + j)) 0 8

theorem goal_32 (s : Src) (init : U32) (off : Nat) (h : off + 32 ≤ s.data.length) :
    y ^ 256 * goal s init (off + 32) = goal s init off + y ^ 512 * (ev y (le (fun j => s.at (off + j)) 0 8) + y ^ 64 * ev y (le (fun j => s.at (off + 8 + j)) 0 8) +
      y ^ 128 * ev y (le (fun j => s.at (off + 16 + j)) 0 8) + y ^ 192 * ev y (le (fun j => s.at (off + 24 + j)) 0 8)) := by
  have g0 := goal_word s init off (by omega)
  have g1 := goal_word s init (off + 8) (by omega)
  have g2 := goal_word s init (off + 16) (by omega)
  have g3 := goal_word s init (off + 24) (by omega)
  rw [show off + 8 + 8 = off + 16 from rfl] at g1
  rw [show off + 16 + 8 = off + 24 from rfl] at g2
  rw [show off + 24 + 8 = off + 32 from rfl] at g3
  linear_combination g0 + y ^ 64 * g1 + y ^ 128 * g2 + y ^ 192 * g3

theorem round_spec {st : Style} (hi : LookOk st.inter) {t : Tables} (ht : TablesOk t) {s : Src} {init : U32} {r : Regs} {off : Nat} (h : Lanes s init r off)
    (hl : off + 64 ≤ s.data.length) : ∃ r', round st t s (off + 32) r = some r' ∧ Lanes s init r' (off + 32) := by
  obtain ⟨c0, l0, -, v0⟩ := hi _ _ ht.inter (r.b0 ^^^ r.c0)
  obtain ⟨c1, l1, -, v1⟩ := hi _ _ ht.inter (r.b1 ^^^ r.c1)
  obtain ⟨c2, l2, -, v2⟩ := hi _ _ ht.inter (r.b2 ^^^ r.c2)
  obtain ⟨c3, l3, -, v3⟩ := hi _ _ ht.inter (r.b3 ^^^ r.c3)
  obtain ⟨b0, m0, w0⟩ := load_spec s (off + 32) (by omega)
  obtain ⟨b1, m1, w1⟩ := load_spec s (off + 32 + 8) (by omega)
  obtain ⟨b2, m2, w2⟩ := load_spec s (off + 32 + 16) (by omega)
  obtain ⟨b3, m3, w3⟩ := load_spec s (off + 32 + 24) (by omega)
  refine ⟨⟨c0, c1, c2, c3, b0, b1, b2, b3⟩, ?_, ⟨by omega, ?_, w0, w1, w2, w3⟩⟩
  · simp only [round, l0, l1, l2, l3, m0, m1, m2, m3, Option.bind_eq_bind, Option.bind_some]
  · have g := goal_32 s init off h.bound
    have hv := h.val
    rw [evy_xor] at v0 v1 v2 v3
    rw [h.b0] at v0
    rw [h.b1] at v1
    rw [h.b2] at v2
    rw [h.b3] at v3
    simp only
    rw [v0, v1, v2, v3]
    have h256 := xy_pow 256
    linear_combination (-x ^ 256) * g + x ^ 256 * hv + goal s init (off + 32) * h256

theorem mainLoop_spec {st : Style} (hi : LookOk st.inter) {t : Tables} (ht : TablesOk t) (s : Src) (init : U32) (stop : Int) (n : Nat) :
    ∀ (r : Regs) (off : Nat), (stop - off).toNat = n → (off : Int) < stop → (∀ k : Nat, (off + 32 * k : Int) < stop → off + 32 * k + 64 ≤ s.data.length) →
    Lanes s init r off → ∃ r' k, mainLoop st t s stop off r = some (r', off + 32 * k) ∧ Lanes s init r' (off + 32 * k) := by
  induction n using Nat.strongRecOn with
  | _ n ih =>
    intro r off hn hl hs h
    rw [mainLoop.eq_def]
    obtain ⟨r1, e1, i1⟩ := round_spec hi ht h (by simpa using hs 0 (by simpa using hl))
    rw [e1, Option.bind_some]
    by_cases hm : ((off + 32 : Nat) : Int) < stop
    · rw [if_pos hm]
      obtain ⟨r2, k, e2, i2⟩ := ih _ (by omega) r1 (off + 32) rfl hm (fun k hk => by
        have := hs (k + 1) (by push_cast at hk ⊢; omega)
        omega) i1
      exact ⟨r2, k + 1, by rw [e2]; congr 2; omega, by rw [Nat.mul_succ, Nat.add_comm (32 * k), ← Nat.add_assoc]; exact i2⟩
    · rw [if_neg hm]
      exact ⟨r1, 1, rfl, i1⟩

theorem merge_spec {st : Style} (hw : LookOk st.word) {t : Tables} (ht : TablesOk t) (c0 c b : U64) :
    ∃ r, merge st t c0 c b = some r ∧ r.toNat < 2 ^ 32 ∧ ev y r.toNat = x ^ 64 * (ev y b.toNat + ev y c.toNat + ev y c0.toNat) := by
  rw [merge]
  obtain ⟨r, h1, h2, h3⟩ := hw _ _ ht.word (if st.mergeData then (b ^^^ c) ^^^ c0 else b ^^^ (c0 ^^^ c))
  refine ⟨r, h1, h2, ?_⟩
  rw [h3]
  split <;> simp only [evy_xor] <;> ring

theorem interleaved_spec {st : Style} (hi : LookOk st.inter) (hw : LookOk st.word) {t : Tables} (ht : TablesOk t) {s : Src} {init : U32} {stop : Int} {c : U64}
    {off : Nat} (hs : ∀ k : Nat, (off + 32 * k : Int) < stop → off + 32 * k + 64 ≤ s.data.length) (h : Inv s init c off) :
    ∃ c' k, interleaved st t s stop c off = some (c', off + 32 * k) ∧ Inv s init c' (off + 32 * k) := by
  rw [interleaved]
  by_cases hl : (off : Int) < stop
  · rw [if_pos hl]
    have h64 := hs 0 (by simpa using hl)
    obtain ⟨b0, m0, w0⟩ := load_spec s off (by omega)
    obtain ⟨b1, m1, w1⟩ := load_spec s (off + 8) (by omega)
    obtain ⟨b2, m2, w2⟩ := load_spec s (off + 16) (by omega)
    obtain ⟨b3, m3, w3⟩ := load_spec s (off + 24) (by omega)
    have hi0 : Lanes s init ⟨c, 0#64, 0#64, 0#64, b0, b1, b2, b3⟩ off := by
      refine ⟨by omega, ?_, w0, w1, w2, w3⟩
      simp only [show (0#64).toNat = 0 from rfl, ev_zero, mul_zero, add_zero]
      exact h.val
    obtain ⟨r, k, e, i⟩ := mainLoop_spec hi ht s init stop _ _ off rfl hl hs hi0
    obtain ⟨d0, f0, -, v0⟩ := hw _ _ ht.word (r.b0 ^^^ r.c0)
    obtain ⟨d1, f1, -, v1⟩ := merge_spec hw ht d0 r.c1 r.b1
    obtain ⟨d2, f2, -, v2⟩ := merge_spec hw ht d1 r.c2 r.b2
    obtain ⟨d3, f3, l3, v3⟩ := merge_spec hw ht d2 r.c3 r.b3
    refine ⟨d3, k + 1, ?_, by have := i.bound; omega, l3, ?_⟩
    · simp only [m0, m1, m2, m3, e, f0, f1, f2, f3, Option.bind_eq_bind, Option.bind_some]
      rfl
    · rw [Nat.mul_succ, ← Nat.add_assoc]
      have g := goal_32 s init (off + 32 * k) i.bound
      have hv := i.val
      rw [evy_xor] at v0
      rw [i.b0] at v0
      rw [i.b1] at v1
      rw [i.b2] at v2
      rw [i.b3] at v3
      rw [v3, v2, v1, v0]
      have h1 := xy_pow 64
      have h2 := xy_pow 128
      have h3 := xy_pow 192
      have h4 := xy_pow 256
      have h5 : x ^ 256 * y ^ 64 = x ^ 192 := x_sub 256 64 (by omega)
      have h6 : x ^ 256 * y ^ 128 = x ^ 128 := x_sub 256 128 (by omega)
      have h7 : x ^ 256 * y ^ 192 = x ^ 64 := x_sub 256 192 (by omega)
      generalize ev y (le (fun j => s.at (off + 32 * k + j)) 0 8) = u0 at *
      generalize ev y (le (fun j => s.at (off + 32 * k + 8 + j)) 0 8) = u1 at *
      generalize ev y (le (fun j => s.at (off + 32 * k + 16 + j)) 0 8) = u2 at *
      generalize ev y (le (fun j => s.at (off + 32 * k + 24 + j)) 0 8) = u3 at *
      linear_combination (-x ^ 256) * g + x ^ 256 * hv + goal s init (off + 32 * k + 32) * h4 - y ^ 512 * (u1 + ev y r.c1.toNat) * h5 -
        y ^ 512 * (u2 + ev y r.c2.toNat) * h6 - y ^ 512 * (u3 + ev y r.c3.toNat) * h7
  · rw [if_neg hl]
    exact ⟨c, 0, rfl, h⟩

/-! ### Whole calls -/

theorem start_inv {t : Tables} (ht : TablesOk t) (s : Src) (init : U32) : Inv s init (init.setWidth 64 ^^^ t.base.canonize) 0 := by
  have e : init.setWidth 64 ^^^ t.base.canonize = (~~~init).setWidth 64 := by
    rw [ht.canonize]
    ext i hi
    simp only [BitVec.getElem_xor, BitVec.getElem_setWidth, BitVec.getLsbD_not]
    have : (0xffffffff#64)[i] = decide (i < 32) := by
      rw [← BitVec.getLsbD_eq_getElem, BitVec.getLsbD, show (0xffffffff#64).toNat = 2 ^ 32 - 1 from rfl, Nat.testBit_two_pow_sub_one]
    rw [this]
    by_cases h : i < 32
    · simp [h]
    · simp [h, BitVec.getLsbD_of_ge init i (by omega)]
  have hn : ((~~~init).setWidth 64).toNat = (~~~init).toNat := by
    rw [BitVec.toNat_setWidth, Nat.mod_eq_of_lt (by have := (~~~init).isLt; omega)]
  rw [e]
  refine ⟨Nat.zero_le _, by rw [hn]; exact (~~~init).isLt, ?_⟩
  rw [hn, ev_phi, goal, List.take_zero, show mu [] = 0 from rfl]
  ring

theorem end_crc {t : Tables} (ht : TablesOk t) {s : Src} {init : U32} {c : U64} (h : Inv s init c s.data.length) :
    IsCrc32 init s.data ((c ^^^ t.base.canonize).setWidth 32) := by
  apply goal_crc
  have e : ~~~((c ^^^ t.base.canonize).setWidth 32) = c.setWidth 32 := by
    rw [ht.canonize, BitVec.setWidth_xor, show (0xffffffff#64).setWidth 32 = BitVec.allOnes 32 by decide, BitVec.xor_allOnes, BitVec.not_not]
  rw [e, phi_ev, BitVec.toNat_setWidth, Nat.mod_eq_of_lt h.lt, ← h.val]
  have h4 : x ^ 543 * y ^ 512 = x ^ 31 := x_sub 543 512 (by omega)
  linear_combination -(ev y c.toNat) * h4

/-- A call that finishes with the right value. -/
def Ok (s : Src) (init : U32) (r : Option U64) : Prop := ∃ v : U64, r = some v ∧ IsCrc32 init s.data (v.setWidth 32)

theorem tail_ok {f : List (List U64) → U64 → Option U64} (hf : LookOk f) {t : Tables} (ht : TablesOk t) {s : Src} {init : U32} {c : U64} {off : Nat} {stop : Int}
    (hs : ∀ k : Nat, (off + 8 * k : Int) < stop → off + 8 * k + 8 ≤ s.data.length) (h : Inv s init c off) :
    Ok s init (do
      let (crc, src) ← words f t s stop c off
      let crc ← bytes t s crc src
      some (crc ^^^ t.base.canonize)) := by
  obtain ⟨c1, o1, e1, i1⟩ := words_spec hf ht s init stop _ c off rfl hs h
  obtain ⟨c2, e2, i2⟩ := bytes_spec ht s init _ c1 o1 rfl i1
  refine ⟨_, ?_, end_crc ht i2⟩
  simp only [e1, e2, Option.bind_eq_bind, Option.bind_some]

theorem long_ok {st : Style} (hi : LookOk st.inter) (hw : LookOk st.word) {t : Tables} (ht : TablesOk t) (s : Src) (init : U32) :
    Ok s init (long st t s (init.setWidth 64)) := by
  obtain ⟨c1, o1, e1, i1⟩ := alignIfNeeded_spec ht (start_inv ht s init)
  rw [long, e1]
  simp only [Option.bind_eq_bind, Option.bind_some]
  split
  · rename_i h
    have := i1.bound
    exact ⟨_, rfl, end_crc ht (by rwa [show s.data.length = o1 by omega])⟩
  · obtain ⟨c2, k, e2, i2⟩ := interleaved_spec hi hw ht (stop := (s.data.length : Int) - (2 * 32 - 1)) (fun k hk => by omega) i1
    rw [e2]
    simp only [Option.bind_some]
    exact tail_ok hw ht (fun k hk => by push_cast at hk; omega) i2

theorem longIntrinsic_ok {st : Style} (hi : LookOk st.inter) (hw : LookOk st.word) {t : Tables} (ht : TablesOk t) (s : Src) (init : U32) :
    Ok s init (longIntrinsic st t s (init.setWidth 64)) := by
  obtain ⟨c1, o1, e1, i1⟩ := alignIfNeeded_spec ht (start_inv ht s init)
  rw [longIntrinsic, e1]
  simp only [Option.bind_eq_bind, Option.bind_some]
  split
  · rename_i h
    have := i1.bound
    exact ⟨_, rfl, end_crc ht (by rwa [show s.data.length = o1 by omega])⟩
  · have hb : ∀ c2 o2, Inv s init c2 o2 → Ok s init (if s.data.length - o2 - (s.data.length - o2) % 8 > 0 then
        (words st.word t s ((o2 + (s.data.length - o2 - (s.data.length - o2) % 8) : Nat) : Int) c2 o2).bind fun p =>
          (bytes t s p.1 p.2).bind fun crc => some (crc ^^^ t.base.canonize)
        else (bytes t s c2 o2).bind fun crc => some (crc ^^^ t.base.canonize)) := by
      intro c2 o2 i2
      have := i2.bound
      split
      · exact tail_ok hw ht (fun k hk => by push_cast at hk; omega) i2
      · obtain ⟨c3, e3, i3⟩ := bytes_spec ht s init _ c2 o2 rfl i2
        rw [e3]
        exact ⟨_, rfl, end_crc ht i3⟩
    split
    · obtain ⟨c2, k, e2, i2⟩ := interleaved_spec hi hw ht (stop := ((o1 + (s.data.length - o1 - (s.data.length - o1) % 32) : Nat) : Int) - 4 * 8)
        (fun k hk => by omega) i1
      rw [e2]
      exact hb c2 _ i2
    · exact hb c1 o1 i1

theorem short_ok {t : Tables} (ht : TablesOk t) (s : Src) (init : U32) : Ok s init (short t s (init.setWidth 64)) := by
  obtain ⟨c, e, i⟩ := bytes_spec ht s init _ _ 0 rfl (start_inv ht s init)
  rw [short, e]
  exact ⟨_, rfl, end_crc ht i⟩

theorem nested_spec {t : Tables} (ht : TablesOk t) (s : Src) (init : U32) (k : Nat) : ∀ (n : Nat) (c : U64), Inv s init c (8 * n) →
    ∃ c' off', nested t s k (n + 1) c (8 * n) = some (c', off') ∧ Inv s init c' off' := by
  induction k with
  | zero => intro n c h; exact ⟨c, _, rfl, h⟩
  | succ k ih =>
    intro n c h
    rw [nested]
    split
    · obtain ⟨b, c', h1, h2, h3⟩ := word_spec lookC_ok ht h (by omega)
      rw [h1, Option.bind_some, h2, Option.bind_some]
      exact ih (n + 1) c' h3
    · exact ⟨c, _, rfl, h⟩

theorem shortAmd64_ok {t : Tables} (ht : TablesOk t) (s : Src) (init : U32) : Ok s init (shortAmd64 t s (init.setWidth 64)) := by
  obtain ⟨c1, o1, e1, i1⟩ := nested_spec ht s init 5 0 _ (start_inv ht s init)
  obtain ⟨c2, e2, i2⟩ := bytes_spec ht s init _ c1 o1 rfl i1
  refine ⟨_, ?_, end_crc ht i2⟩
  rw [shortAmd64]
  have e1' : nested t s 5 1 (init.setWidth 64 ^^^ t.base.canonize) 0 = some (c1, o1) := e1
  simp only [e1', e2, Option.bind_eq_bind, Option.bind_some]

theorem multiword_ok (target : Target) {t : Tables} (ht : TablesOk t) (s : Src) (init : U32) : Ok s init (multiword target t s (init.setWidth 64)) := by
  cases target with
  | template => exact long_ok (st := ⟨lookC, lookC, false⟩) lookC_ok lookC_ok ht s init
  | gccAmd64 =>
    simp only [multiword]
    split
    · exact shortAmd64_ok ht s init
    · exact long_ok (st := ⟨lookAmd64, lookAmd64, true⟩) lookAmd64_ok lookAmd64_ok ht s init
  | gccI386 =>
    simp only [multiword]
    split
    · exact short_ok ht s init
    · exact long_ok (st := ⟨lookMmx, lookMmx, true⟩) lookMmx_ok lookMmx_ok ht s init
  | clangI386 =>
    simp only [multiword]
    split
    · exact short_ok ht s init
    · exact longIntrinsic_ok (st := ⟨lookMmx, lookMmx, true⟩) lookMmx_ok lookMmx_ok ht s init
  | clI386 =>
    simp only [multiword]
    split
    · exact short_ok ht s init
    · exact long_ok (st := ⟨lookCl, lookMmx, true⟩) lookCl_ok lookMmx_ok ht s init

/-- crcutil's function computes CRC-32. -/
theorem incr_spec (target : Target) (s : Src) (init : U32) : ∃ r, incr target s init = some r ∧ IsCrc32 init s.data r := by
  obtain ⟨t, h1, h2⟩ := tables_spec
  obtain ⟨v, h3, h4⟩ := multiword_ok target h2 s init
  refine ⟨_, ?_, h4⟩
  simp only [incr, h1, h3, Option.bind_eq_bind, Option.bind_some]

/-- The check at start-up, gf_util.h:63-68. -/
theorem findLCD_start : (Gf.init 0xEDB88320#64 32 true).xpowN 32 = some 0xedb88320#64 ∧
    (Gf.init 0xEDB88320#64 32 true).findLCD 100 0xedb88320#64 = some (0x80000000#64, 0x5b358fd3#64) := by decide +kernel

end Yenc.Crc.Util
