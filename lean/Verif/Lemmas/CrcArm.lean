import Verif.Lemmas.CrcShift2
import Verif.Model.CrcArm
/-! The ARMv8 code computes CRC-32. -/
namespace Yenc.Crc
open Vec Yenc.Spec

theorem kx_32 : ev x 0x04c11db7 = x ^ 32 := ev_constx 0x04c11db7 32 (by decide) (by decide) (by decide +kernel)

/-! ### The CRC instructions -/

theorem poly32Mod2_gen (p : Nat) (hp : p < 2 ^ 32) (hv : ev x p = x ^ 32) (k d : Nat) :
    ev x ((if d.testBit (k + 32) then d ^^^ (p <<< k) else d) % 2 ^ (32 + k)) = ev x (d % 2 ^ (32 + (k + 1))) := by
  have e : ev x (d % 2 ^ (32 + (k + 1))) = ev x (d % 2 ^ (32 + k)) + x ^ (32 + k) * ev x (d.testBit (32 + k)).toNat := by
    rw [← Nat.add_assoc, Nat.mod_pow_succ, Nat.add_comm (d % _), ev_add_pow _ _ _ _ (Nat.mod_lt _ (Nat.two_pow_pos _)), Nat.testBit_eq_decide_div_mod_eq]
    rcases Nat.mod_two_eq_zero_or_one (d / 2 ^ (32 + k)) with h | h <;> simp [h]
  rw [e, Nat.add_comm k 32]
  cases h : d.testBit (32 + k)
  · simp
  · simp only [if_true, Bool.toNat_true, ev_one, mul_one]
    rw [Nat.xor_mod_two_pow, evx_xor, Nat.shiftLeft_eq, Nat.mod_eq_of_lt (a := p * 2 ^ k), Nat.mul_comm, ev_shl, hv, ← pow_add, Nat.add_comm k]
    rw [pow_add]
    exact Nat.mul_lt_mul_of_pos_right hp (Nat.two_pow_pos k)

theorem poly32Mod2_spec (k d : Nat) : ev x (Arm.poly32Mod2 k d) = ev x (d % 2 ^ (32 + k)) ∧ Arm.poly32Mod2 k d < 2 ^ 32 := by
  induction k generalizing d with
  | zero => exact ⟨rfl, Nat.mod_lt _ (Nat.two_pow_pos 32)⟩
  | succ k ih =>
    rw [Arm.poly32Mod2]
    exact ⟨(ih _).1.trans (poly32Mod2_gen _ (by decide) kx_32 k d), (ih _).2⟩

theorem phi_reverse (v : U32) : phi v.reverse = ev x v.toNat := by
  rw [phi_ev, ← ev_reverse _ 31 rfl, BitVec.reverse_reverse_eq]

theorem ev_reverse_phi (v : U32) : ev x v.reverse.toNat = phi v := by rw [ev_reverse _ 31 rfl, phi_ev]

theorem phi_crc32 (n m : Nat) (hm : m + 1 = n) (acc : U32) (val : BitVec n) :
    phi (Arm.crc32 n acc val) = x ^ n * phi acc + x ^ (32 + m) * ev y val.toNat := by
  obtain ⟨h1, h2⟩ := poly32Mod2_spec n ((acc.reverse.toNat <<< n) ^^^ (val.reverse.toNat <<< 32))
  rw [Arm.crc32, phi_reverse, BitVec.toNat_ofNat, Nat.mod_eq_of_lt h2, h1, Nat.mod_eq_of_lt, evx_xor, Nat.shiftLeft_eq, Nat.shiftLeft_eq,
    Nat.mul_comm, ev_shl, Nat.mul_comm val.reverse.toNat, ev_shl, ev_reverse_phi, ev_reverse val m hm, pow_add, mul_assoc]
  refine Nat.xor_lt_two_pow ?_ ?_
  · rw [Nat.shiftLeft_eq, pow_add]
    exact Nat.mul_lt_mul_of_pos_right acc.reverse.isLt (Nat.two_pow_pos n)
  · rw [Nat.shiftLeft_eq, Nat.add_comm, pow_add]
    exact Nat.mul_lt_mul_of_pos_right val.reverse.isLt (Nat.two_pow_pos 32)

/-! ### The data -/

/-- The CRC register after `st.2` bytes. -/
def Arm.Inv (s : Src) (init : U32) (st : U32 × Nat) : Prop := st.2 ≤ s.data.length ∧ phi st.1 = x ^ 543 * goal s init st.2

/-- `f` takes in `n` bytes. -/
def Arm.Step (s : Src) (init : U32) (f : U32 × Nat → Option (U32 × Nat)) (n : Nat) : Prop :=
  ∀ st, Arm.Inv s init st → st.2 + n ≤ s.data.length → ∃ c, f st = some (c, st.2 + n) ∧ Arm.Inv s init (c, st.2 + n)

theorem Arm.word_step (s : Src) (init : U32) (n : Nat) (hn : 1 ≤ n) : Arm.Step s init (Arm.word s n) n := by
  intro st ⟨_, h2⟩ hl
  rw [Arm.word, s.loadu_eq _ _ hl]
  refine ⟨_, rfl, hl, ?_⟩
  simp only
  rw [phi_crc32 (8 * n) (8 * n - 1) (by omega), BitVec.toNat_ofNat, Nat.mod_eq_of_lt (le_lt _ 0 n), h2]
  have g := goal_step s init st.2 n hl (fun j => s.at (st.2 + j)) 0 (fun j _ => by rw [Nat.zero_add])
  have h3 := xy_pow (8 * n)
  have h4 : x ^ 543 * y ^ 512 = x ^ 31 := x_sub 543 512 (by omega)
  rw [show 32 + (8 * n - 1) = 8 * n + 31 by omega, pow_add]
  generalize x ^ (8 * n) = p at *
  generalize y ^ (8 * n) = q at *
  generalize ev y (le (fun j => s.at (st.2 + j)) 0 n) = e at *
  linear_combination -(p * x ^ 543) * g + x ^ 543 * goal s init (st.2 + n) * h3 - p * e * h4

theorem Arm.words_step (s : Src) (init : U32) (n : Nat) (hn : 1 ≤ n) (k : Nat) : Arm.Step s init (Arm.words s n k) (k * n) := by
  induction k with
  | zero =>
    intro st h _
    exact ⟨st.1, by rw [Arm.words]; simp, by simpa using h⟩
  | succ k ih =>
    intro st h hl
    rw [Nat.succ_mul] at hl
    obtain ⟨c, e, i⟩ := Arm.word_step s init n hn st h (by omega)
    rw [Arm.words, e]
    obtain ⟨c', e', i'⟩ := ih _ i (by simp only; omega)
    rw [show (k + 1) * n = n + k * n by rw [Nat.succ_mul]; omega, ← Nat.add_assoc]
    exact ⟨c', e', i'⟩

theorem Arm.cond_step {s : Src} {init : U32} {f : U32 × Nat → Option (U32 × Nat)} {n : Nat} (h : Arm.Step s init f n) (b : Bool) :
    Arm.Step s init (Arm.cond b f) (if b then n else 0) := by
  intro st hi hl
  cases b
  · exact ⟨st.1, rfl, hi⟩
  · exact h st hi hl

theorem Arm.bind_step {s : Src} {init : U32} {f g : U32 × Nat → Option (U32 × Nat)} {n m : Nat} (hf : Arm.Step s init f n) (hg : Arm.Step s init g m) :
    Arm.Step s init (fun st => (f st).bind g) (n + m) := by
  intro st hi hl
  obtain ⟨c, e, i⟩ := hf st hi (by omega)
  obtain ⟨c', e', i'⟩ := hg _ i (by simp only; omega)
  simp only
  rw [e, ← Nat.add_assoc]
  exact ⟨c', e', i'⟩

theorem Arm.align_ok (W : Nat) (s : Src) (init : U32) (st : U32 × Nat) (h0 : st.2 = 0) (h : Arm.Inv s init st) :
    ∃ c o, Arm.align W s s.data.length st = some (c, o) ∧ Arm.Inv s init (c, o) := by
  rw [Arm.align]
  by_cases h16 : (s.data.length : Int) ≥ 16
  · rw [if_pos h16]
    obtain ⟨c1, e1, i1⟩ := Arm.cond_step (Arm.word_step s init 1 (by omega)) (decide ((s.addr + st.2) % 2 = 1)) st h (by split <;> omega)
    rw [e1]
    simp only [Option.bind_some]
    have b1 : (if decide ((s.addr + st.2) % 2 = 1) = true then 1 else 0) ≤ 1 := by split <;> omega
    generalize (if decide ((s.addr + st.2) % 2 = 1) = true then 1 else 0) = n1 at *
    obtain ⟨c2, e2, i2⟩ := Arm.cond_step (Arm.word_step s init 2 (by omega)) (decide ((s.addr + (st.2 + n1)) / 2 % 2 = 1)) _ i1 (by simp only; split <;> omega)
    rw [e2]
    simp only [Option.bind_some]
    have b2 : (if decide ((s.addr + (st.2 + n1)) / 2 % 2 = 1) = true then 2 else 0) ≤ 2 := by split <;> omega
    generalize (if decide ((s.addr + (st.2 + n1)) / 2 % 2 = 1) = true then 2 else 0) = n2 at *
    simp only at i2 ⊢
    obtain ⟨c3, e3, i3⟩ := Arm.cond_step (Arm.word_step s init 4 (by omega)) (decide (W = 8 ∧ (s.addr + (st.2 + n1 + n2)) / 4 % 2 = 1)) _ i2 (by simp only; split <;> omega)
    exact ⟨_, _, e3, i3⟩
  · rw [if_neg h16]
    exact ⟨st.1, st.2, rfl, h⟩

theorem Arm.loop_ok (W : Nat) (hW : 1 ≤ W) (s : Src) (init : U32) (k : Nat) : ∀ (st : U32 × Nat) (len : Int), len.toNat = k → 0 ≤ len → (st.2 : Int) + len = s.data.length →
    Arm.Inv s init st → ∃ st' len', Arm.loop W s st len = some (st', len') ∧ -(8 * W : Int) ≤ len' ∧ len' < 0 ∧ (st'.2 : Int) + (len' + 8 * W) = s.data.length ∧
      Arm.Inv s init st' := by
  induction k using Nat.strongRecOn with
  | _ k ih =>
    intro st len hk h0 hl hi
    rw [Arm.loop.eq_def]
    by_cases h : W > 0 ∧ len - 8 * W ≥ 0
    · rw [dif_pos h]
      obtain ⟨c, e, i⟩ := Arm.words_step s init W hW 8 st hi (by omega)
      rw [e]
      simp only
      exact ih (len - 8 * W).toNat (by omega) _ _ rfl (by omega) (by simp only; push_cast; omega) i
    · rw [dif_neg h]
      exact ⟨st, _, rfl, by omega, by omega, by omega, hi⟩

theorem Arm.bits3 (m : Nat) (hm : m < 64) (len : Int) (h : len + 64 = m) :
    (if bitOf len (3 + 2) then 4 * 2 ^ 3 else 0) + ((if bitOf len (3 + 1) then 2 * 2 ^ 3 else 0) + ((if bitOf len 3 then 1 * 2 ^ 3 else 0) +
      ((if decide (3 = 3 ∧ bitOf len 2 = true) then 4 else 0) + ((if bitOf len 1 then 2 else 0) + (if bitOf len 0 then 1 else 0))))) = m := by
  obtain rfl : len = m - 64 := by omega
  have : ∀ m : Fin 64, (if bitOf ((m.val : Int) - 64) (3 + 2) then 4 * 2 ^ 3 else 0) + ((if bitOf ((m.val : Int) - 64) (3 + 1) then 2 * 2 ^ 3 else 0) +
      ((if bitOf ((m.val : Int) - 64) 3 then 1 * 2 ^ 3 else 0) + ((if decide (3 = 3 ∧ bitOf ((m.val : Int) - 64) 2 = true) then 4 else 0) +
      ((if bitOf ((m.val : Int) - 64) 1 then 2 else 0) + (if bitOf ((m.val : Int) - 64) 0 then 1 else 0))))) = m.val := by decide +kernel
  exact this ⟨m, hm⟩

theorem Arm.bits2 (m : Nat) (hm : m < 32) (len : Int) (h : len + 32 = m) :
    (if bitOf len (2 + 2) then 4 * 2 ^ 2 else 0) + ((if bitOf len (2 + 1) then 2 * 2 ^ 2 else 0) + ((if bitOf len 2 then 1 * 2 ^ 2 else 0) +
      ((if decide (2 = 3 ∧ bitOf len 2 = true) then 4 else 0) + ((if bitOf len 1 then 2 else 0) + (if bitOf len 0 then 1 else 0))))) = m := by
  obtain rfl : len = m - 32 := by omega
  have : ∀ m : Fin 32, (if bitOf ((m.val : Int) - 32) (2 + 2) then 4 * 2 ^ 2 else 0) + ((if bitOf ((m.val : Int) - 32) (2 + 1) then 2 * 2 ^ 2 else 0) +
      ((if bitOf ((m.val : Int) - 32) 2 then 1 * 2 ^ 2 else 0) + ((if decide (2 = 3 ∧ bitOf ((m.val : Int) - 32) 2 = true) then 4 else 0) +
      ((if bitOf ((m.val : Int) - 32) 1 then 2 else 0) + (if bitOf ((m.val : Int) - 32) 0 then 1 else 0))))) = m.val := by decide +kernel
  exact this ⟨m, hm⟩

theorem Arm.tail_step (L : Nat) (s : Src) (init : U32) (len : Int) : Arm.Step s init (Arm.tail L s len)
    ((if bitOf len (L + 2) then 4 * 2 ^ L else 0) + ((if bitOf len (L + 1) then 2 * 2 ^ L else 0) + ((if bitOf len L then 1 * 2 ^ L else 0) +
      ((if decide (L = 3 ∧ bitOf len 2 = true) then 4 else 0) + ((if bitOf len 1 then 2 else 0) + (if bitOf len 0 then 1 else 0)))))) := by
  have hw : 1 ≤ 2 ^ L := Nat.one_le_two_pow
  unfold Arm.tail
  exact Arm.bind_step (Arm.cond_step (Arm.words_step s init _ hw 4) _) (Arm.bind_step (Arm.cond_step (Arm.words_step s init _ hw 2) _)
    (Arm.bind_step (Arm.cond_step (Arm.words_step s init _ hw 1) _) (Arm.bind_step (Arm.cond_step (Arm.word_step s init 4 (by omega)) _)
    (Arm.bind_step (Arm.cond_step (Arm.word_step s init 2 (by omega)) _) (Arm.cond_step (Arm.word_step s init 1 (by omega)) _)))))

theorem armCalc_spec (L : Nat) (hL : L = 2 ∨ L = 3) (s : Src) (init : U32) :
    ∃ r, Arm.armCalc L s (~~~init) s.data.length = some r ∧ IsCrc32 init s.data (~~~r) := by
  have i0 : Arm.Inv s init (~~~init, 0) := by
    refine ⟨Nat.zero_le _, ?_⟩
    simp only
    rw [goal, List.take_zero, show mu [] = 0 from rfl, show 8 * 0 = 0 from rfl, pow_zero]
    have h : x ^ 543 * (y ^ 511 * y ^ 32) = 1 := by rw [← pow_add, xy_pow]
    linear_combination -phi (~~~init) * h
  unfold Arm.armCalc
  obtain ⟨c, o, e, i⟩ := Arm.align_ok (2 ^ L) s init _ rfl i0
  rw [e]
  simp only [Option.bind_some]
  obtain ⟨st, len, e, l1, l2, l3, i⟩ := Arm.loop_ok (2 ^ L) Nat.one_le_two_pow s init _ (c, o) ((s.data.length : Int) - o) rfl (by have := i.1; simp only at this; omega) (by simp only; omega) i
  rw [e]
  simp only [Option.bind_some]
  obtain ⟨m, hm⟩ : ∃ m : Nat, len + 8 * (2 ^ L : Nat) = m := ⟨_, (Int.toNat_of_nonneg (by omega)).symm⟩
  have ht := Arm.tail_step L s init len
  have hs : (if bitOf len (L + 2) then 4 * 2 ^ L else 0) + ((if bitOf len (L + 1) then 2 * 2 ^ L else 0) + ((if bitOf len L then 1 * 2 ^ L else 0) +
      ((if decide (L = 3 ∧ bitOf len 2 = true) then 4 else 0) + ((if bitOf len 1 then 2 else 0) + (if bitOf len 0 then 1 else 0))))) = m := by
    rcases hL with rfl | rfl
    · exact Arm.bits2 m (by omega) len (by omega)
    · exact Arm.bits3 m (by omega) len (by omega)
  rw [hs] at ht
  obtain ⟨r, e, i⟩ := ht st i (by omega)
  rw [e]
  refine ⟨r, rfl, goal_crc s init _ ?_⟩
  rw [BitVec.not_not, i.2, show st.2 + m = s.data.length by omega]

/-! ### Multiplication and shift -/

/-- Reduction of 64 bits by the CRC instruction. -/
theorem phi_reduceW (z : BitVec 64) : phi (Arm.crc32 32 0#32 (z.setWidth 32) ^^^ (z >>> 32).setWidth 32) = x ^ 63 * ev y z.toNat := by
  rw [phi_xor, phi_crc32 32 31 rfl, phi_ev ((z >>> 32).setWidth 32), phi_zero, mul_zero, zero_add, BitVec.toNat_setWidth, BitVec.toNat_setWidth, BitVec.toNat_ushiftRight,
    Nat.shiftRight_eq_div_pow, Nat.mod_eq_of_lt (by have := z.isLt; omega : z.toNat / 2 ^ 32 < 2 ^ 32), ev_div_mod y 32 z.toNat, show 32 + 31 = 63 from rfl]
  have h : x ^ 63 * y ^ 32 = x ^ 31 := x_sub 63 32 (by omega)
  linear_combination -ev y (z.toNat / 2 ^ 32) * h

theorem sshiftRight63 (b : BitVec 64) : b.sshiftRight 63 = if b.msb then BitVec.allOnes 64 else 0#64 := by
  apply BitVec.eq_of_getLsbD_eq
  intro i hi
  rw [BitVec.getLsbD_sshiftRight]
  by_cases h0 : i = 0
  · subst h0
    rw [BitVec.msb_eq_getLsbD_last]
    cases b.getLsbD (64 - 1) <;> simp
  · have h1 : ¬ 63 + i < 64 := by omega
    cases h : b.msb
    · simp [h1]
    · rw [if_pos rfl, BitVec.getLsbD_allOnes, decide_eq_true hi]; simp [h1]; omega

theorem mulLoop_spec (k : Nat) (res a b : BitVec 64) (A B : Nat) (hk : k ≤ 32) (hB : B < 2 ^ k) (ha : a.toNat = 2 ^ k * A) (hb : b.toNat = 2 ^ (64 - k) * B) :
    ev y (Arm.mulLoop k res a b).toNat = ev y res.toNat + y * (ev y A * ev y B) := by
  induction k generalizing res a b B with
  | zero =>
    obtain rfl : B = 0 := by omega
    rw [Arm.mulLoop]; simp
  | succ k ih =>
    have hp : 2 ^ (64 - k) = 2 * 2 ^ (64 - (k + 1)) := by
      rw [show 64 - k = (64 - (k + 1)) + 1 by omega, pow_succ]; ring
    have hpk : 2 ^ (64 - (k + 1)) * 2 ^ k = 2 ^ 63 := by rw [← pow_add]; congr 1; omega
    have hdm := Nat.div_add_mod B (2 ^ k)
    have hml := Nat.mod_lt B (Nat.two_pow_pos k)
    have hq : B / 2 ^ k < 2 := by
      rw [Nat.div_lt_iff_lt_mul (Nat.two_pow_pos k)]; rw [pow_succ] at hB; omega
    have hmsb : b.msb = decide (B / 2 ^ k = 1) := by
      rw [BitVec.msb_eq_decide, hb]
      refine decide_eq_decide.2 ?_
      rw [show 64 - 1 = 63 from rfl, ← hpk]
      constructor
      · intro h
        have h1 : 2 ^ k ≤ B := Nat.le_of_mul_le_mul_left h (Nat.two_pow_pos _)
        have := Nat.div_pos h1 (Nat.two_pow_pos k)
        exact Nat.le_antisymm (Nat.lt_succ_iff.1 hq) this
      · intro h
        rw [h] at hdm
        exact Nat.mul_le_mul_left _ (by omega)
    rw [Arm.mulLoop, ih _ _ _ (B % 2 ^ k) (by omega) hml]
    · rw [BitVec.toNat_xor, evx_xor, ev_div_mod y k B, sshiftRight63, hmsb]
      rcases (Nat.le_one_iff_eq_zero_or_eq_one.1 (Nat.lt_succ_iff.1 hq)) with h | h
      · rw [h]; simp
      · rw [h]
        simp only [decide_true, if_true, BitVec.and_allOnes, ev_one, mul_one]
        rw [ha, ev_shl, pow_succ]; ring
    · rw [BitVec.toNat_ushiftRight, ha, Nat.shiftRight_eq_div_pow, pow_succ, pow_one, Nat.mul_comm (2 ^ k) 2, Nat.mul_assoc, Nat.mul_div_cancel_left _ (by omega)]
    · rw [BitVec.toNat_add, hb, hp]
      conv_lhs => rw [← hdm]
      have e : 2 ^ (64 - (k + 1)) * (2 ^ k * (B / 2 ^ k) + B % 2 ^ k) + 2 ^ (64 - (k + 1)) * (2 ^ k * (B / 2 ^ k) + B % 2 ^ k) =
          2 ^ 64 * (B / 2 ^ k) + 2 * 2 ^ (64 - (k + 1)) * (B % 2 ^ k) := by
        rw [show (2 : Nat) ^ 64 = 2 * (2 ^ (64 - (k + 1)) * 2 ^ k) by rw [hpk]; rfl]; ring
      rw [e, Nat.mul_add_mod, Nat.mod_eq_of_lt]
      calc 2 * 2 ^ (64 - (k + 1)) * (B % 2 ^ k) < 2 * 2 ^ (64 - (k + 1)) * 2 ^ k := Nat.mul_lt_mul_of_pos_left hml (by have := Nat.two_pow_pos (64 - (k + 1)); omega)
        _ = 2 ^ 64 := by rw [Nat.mul_assoc, hpk]; rfl

theorem toNat_shl32 (a : U32) : (a.setWidth 64 <<< 32).toNat = 2 ^ 32 * a.toNat := by
  have := a.isLt
  rw [BitVec.toNat_shiftLeft, BitVec.toNat_setWidth, Nat.shiftLeft_eq]; omega

theorem multiply_arm (a b : U32) : phi (Arm.multiply a b) = phi a * phi b := by
  unfold Arm.multiply
  simp only
  rw [phi_reduceW, mulLoop_spec 32 _ _ _ a.toNat b.toNat (by omega) b.isLt (toNat_shl32 a) (toNat_shl32 b), phi_ev a, phi_ev b]
  have h := xy
  rw [show (0#64).toNat = 0 from rfl, ev_zero]
  linear_combination x ^ 62 * ev y a.toNat * ev y b.toNat * h

theorem and31 (n : U32) : (n &&& 31#32).toNat = n.toNat % 32 := by
  rw [BitVec.toNat_and]; exact Nat.and_two_pow_sub_one_eq_mod n.toNat 5

theorem and_not31 (n : U32) : n.toNat = n.toNat % 32 + (n &&& ~~~31#32).toNat := by
  have := BitVec.toNat_and n (~~~31#32)
  have h2 : n.toNat &&& (~~~31#32).toNat = n.toNat / 2 ^ 5 * 2 ^ 5 := by
    apply Nat.eq_of_testBit_eq
    intro j
    rw [Nat.testBit_and, Nat.testBit_mul_two_pow, Nat.testBit_div_two_pow]
    by_cases hj : j < 32
    · have : ∀ j : Fin 32, (~~~31#32).toNat.testBit j.val = decide (5 ≤ j.val) := by decide +kernel
      rw [this ⟨j, hj⟩]
      by_cases h5 : 5 ≤ j
      · simp [h5]
      · simp [h5]
    · have : n.toNat.testBit j = false := Nat.testBit_lt_two_pow (lt_of_lt_of_le n.isLt (Nat.pow_le_pow_right (by omega) (by omega)))
      by_cases h5 : 5 ≤ j
      · simp [h5, this]
      · omega
  rw [this, h2]; omega

theorem arm_shiftLoop (f : Nat) (r n : U32) (hf : f ≤ 32) (hn : 2 ^ (32 - f) ∣ n.toNat) : phi (Arm.shiftLoop f r n) = phi r * x ^ n.toNat := by
  induction f generalizing r n with
  | zero =>
    rw [eq_zero_of_dvd n hn]
    simp [Arm.shiftLoop]
  | succ f ih =>
    rw [Arm.shiftLoop]
    by_cases h : n = 0#32
    · rw [if_pos h, h]; simp
    · rw [if_neg h]
      obtain ⟨k1, e1, d1⟩ := clearLow_spec n h
      have g1 := ctz_ge n h _ hn
      rw [ih _ _ (by omega) (dvd_trans (Nat.pow_dvd_pow 2 (by omega)) d1), multiply_arm, phi_crcPower _ k1, e1, pow_add]
      ring

theorem shift_arm (c n : U32) : phi (Arm.shift c n) = phi c * x ^ n.toNat := by
  unfold Arm.shift
  simp only
  have hk := and31 n
  rw [arm_shiftLoop 32 _ _ (by omega) (by simp), phi_reduceW, hk, BitVec.toNat_shiftLeft, BitVec.toNat_setWidth, Nat.shiftLeft_eq,
    Nat.mod_eq_of_lt (lt_trans c.isLt (by decide)), Nat.mod_eq_of_lt, Nat.mul_comm, ev_shl]
  · have hn := and_not31 n
    have h1 : x ^ 63 * y ^ (32 - n.toNat % 32) = x ^ 31 * x ^ (n.toNat % 32) := by
      rw [x_sub _ _ (by omega), ← pow_add]; congr 1; omega
    rw [phi_ev c]
    conv_rhs => rw [hn, pow_add]
    linear_combination ev y c.toNat * x ^ (n &&& ~~~31#32).toNat * h1
  · calc c.toNat * 2 ^ (32 - n.toNat % 32) ≤ c.toNat * 2 ^ 32 := Nat.mul_le_mul_left _ (Nat.pow_le_pow_right (by omega) (by omega))
      _ < 2 ^ 32 * 2 ^ 32 := Nat.mul_lt_mul_of_pos_right c.isLt (by decide)
      _ = 2 ^ 64 := by decide

/-! ### Polynomial multiplication -/

/-- The value of a 64-bit number. -/
noncomputable def xv (a : BitVec 64) : R := ev x a.toNat

theorem xv_pmull (a b : BitVec 64) : xv (Arm.pmull a b).1 + x ^ 64 * xv (Arm.pmull a b).2 = xv a * xv b := by
  have hl : clmulN a.toNat b.toNat 64 < 2 ^ 127 := clmulN_lt _ _ 64 63 a.isLt
  have hv : ev x (clmulN a.toNat b.toNat 64) = ev x a.toNat * ev x b.toNat := evx_clmulN _ _ _ _ b.isLt
  unfold xv Arm.pmull
  simp only
  generalize clmulN a.toNat b.toNat 64 = p at *
  rw [BitVec.toNat_ofNat, BitVec.toNat_ofNat, Nat.mod_eq_of_lt (by omega : p / 2 ^ 64 < 2 ^ 64), ← hv, ev_div_mod x 64 p]

theorem pmull_hi_lt (a b : BitVec 64) (k l : Nat) (hk : k + l ≤ 63) (h1 : a.toNat < 2 ^ (k + 1)) (h2 : b.toNat < 2 ^ l) (hl : l ≤ 64) : (Arm.pmull a b).2 = 0#64 := by
  apply BitVec.eq_of_toNat_eq
  have hlt : clmulN a.toNat b.toNat 64 < 2 ^ 64 := by
    rw [clmulN_mod _ _ l 64 h2 hl]
    exact lt_of_lt_of_le (clmulN_lt _ _ l k h1) (Nat.pow_le_pow_right (by omega) (by omega))
  rw [Arm.pmull, Nat.div_eq_of_lt hlt]

theorem toNat_power (i : Nat) : ((crcPowerRev.getD i 0#32).setWidth 64 : BitVec 64).toNat = (crcPowerRev.getD i 0#32).toNat := by
  rw [BitVec.toNat_setWidth, Nat.mod_eq_of_lt (lt_trans (BitVec.isLt _) (by decide))]

theorem xv_power (i : Nat) (h : i < 32) : xv ((crcPowerRev.getD i 0#32).setWidth 64) = x ^ 2 ^ i := by
  rw [xv, toNat_power, ev_crcPowerRev i h]

theorem xv_zero : xv 0#64 = 0 := by rw [xv]; exact ev_zero x

theorem xv_mulred (a : BitVec 64) (pos : Nat) (h : pos < 32) : xv (Arm.mulred a pos) = xv a * x ^ 2 ^ pos := by
  unfold Arm.mulred
  simp only
  have e1 := xv_pmull a ((crcPowerRev.getD pos 0#32).setWidth 64)
  have hl : (Arm.pmull a ((crcPowerRev.getD pos 0#32).setWidth 64)).2.toNat < 2 ^ 31 := by
    have h1 : clmulN a.toNat ((crcPowerRev.getD pos 0#32).setWidth 64 : BitVec 64).toNat 64 < 2 ^ 95 := by
      rw [clmulN_mod _ _ 32 64 (by rw [toNat_power]; exact BitVec.isLt _) (by omega)]
      exact clmulN_lt _ _ 32 63 a.isLt
    unfold Arm.pmull
    simp only
    rw [BitVec.toNat_ofNat]
    omega
  rw [xv_power _ h] at e1
  generalize Arm.pmull a ((crcPowerRev.getD pos 0#32).setWidth 64) = r at *
  have e2 := xv_pmull r.2 0x490d678d#64
  have hk : xv 0x490d678d#64 = x ^ 64 := kx_64
  rw [pmull_hi_lt r.2 0x490d678d#64 30 32 (by omega) hl (by decide) (by omega), xv_zero, hk, mul_zero, add_zero] at e2
  have ex : xv (r.1 ^^^ (Arm.pmull r.2 0x490d678d#64).1) = xv r.1 + xv (Arm.pmull r.2 0x490d678d#64).1 := by
    unfold xv; rw [BitVec.toNat_xor, evx_xor]
  rw [ex, e2, ← e1]
  ring

theorem xv_accumulate (res : BitVec 64) (n : U32) (hn : n ≠ 0#32) : xv (Arm.accumulate res n).1 * xv (Arm.accumulate res n).2 = xv res * x ^ n.toNat := by
  unfold Arm.accumulate
  simp only
  obtain ⟨k1, e1, d1⟩ := clearLow_spec n hn
  by_cases h : clearLow n = 0#32
  · rw [if_pos h]
    simp only
    rw [xv_power _ k1, e1, h]
    simp
  · rw [if_neg h]
    obtain ⟨k2, e2, d2⟩ := clearLow_spec _ h
    rw [shiftLoop2_spec Arm.mulred xv xv_mulred 32 _ _ _ (by omega) (by simp)]
    have e3 := xv_pmull ((crcPowerRev.getD (ctz n) 0#32).setWidth 64) ((crcPowerRev.getD (ctz (clearLow n)) 0#32).setWidth 64)
    rw [pmull_hi_lt _ _ 31 32 (by omega) (by rw [toNat_power]; exact BitVec.isLt _) (by rw [toNat_power]; exact BitVec.isLt _) (by omega), xv_zero, mul_zero, add_zero,
      xv_power _ k1, xv_power _ k2] at e3
    rw [e3, e1, e2, pow_add, pow_add]
    ring

/-! ### Bit reversal -/

theorem getLsbD_rev64 (v : BitVec 64) (i : Nat) (h : i < 64) : v.reverse.getLsbD i = v.getLsbD (63 - i) := by
  rw [BitVec.getLsbD_reverse, BitVec.getMsbD_eq_getLsbD, decide_eq_true (by omega), Bool.true_and]

theorem revLane_eq (v : BitVec 64) : Arm.revLane v = v.reverse := by
  apply BitVec.eq_of_getLsbD_eq
  intro i hi
  unfold Arm.revLane
  simp only
  rw [getLsbD_rev64 _ _ hi, getLsbD_ofBits]
  simp only [hi, decide_true, Bool.true_and]
  rw [getLsbD_ofBits]
  simp only [show 8 * (7 - i / 8) + i % 8 < 64 by omega, decide_true, Bool.true_and]
  congr 1; omega

theorem swapBits (v m n : BitVec 64) (k : Nat) (hm : ∀ i, i < 64 → m.getLsbD i = decide (k ≤ i % (2 * k))) (hn : ∀ i, i < 64 → n.getLsbD i = decide (i % (2 * k) < k))
    (hk : 2 * k ∣ 64) (i : Nat) (hi : i < 64) :
    (((v &&& m) >>> k) ||| ((v &&& n) <<< k)).getLsbD i = v.getLsbD (if i % (2 * k) < k then i + k else i - k) := by
  have hk0 : 0 < k := by
    rcases Nat.eq_zero_or_pos k with h | h
    · subst h; omega
    · exact h
  obtain ⟨q, hq⟩ := hk
  rw [BitVec.getLsbD_or, BitVec.getLsbD_ushiftRight, BitVec.getLsbD_shiftLeft, BitVec.getLsbD_and, BitVec.getLsbD_and]
  have hdm := Nat.div_add_mod i (2 * k)
  have hml := Nat.mod_lt i (by omega : 0 < 2 * k)
  by_cases hc : i % (2 * k) < k
  · rw [if_pos hc]
    have hik : i + k < 64 := by
      have h1 : i / (2 * k) < q := by
        rw [Nat.div_lt_iff_lt_mul (by omega), Nat.mul_comm]; omega
      have h2 : 2 * k * (i / (2 * k) + 1) ≤ 2 * k * q := Nat.mul_le_mul_left _ h1
      rw [Nat.mul_add, Nat.mul_one] at h2
      omega
    have e1 : (k + i) % (2 * k) = k + i % (2 * k) := by
      rw [Nat.add_mod, Nat.mod_eq_of_lt (by omega : k < 2 * k), Nat.mod_eq_of_lt (by omega)]
    have hm' := hm (k + i) (by omega)
    rw [hm', e1, decide_eq_true (by omega), Bool.and_true, Nat.add_comm k i]
    by_cases h2 : i < k
    · simp [h2]
    · have e2 : (i - k) % (2 * k) = i % (2 * k) + k := by
        have h3 : i - k = 2 * k * (i / (2 * k) - 1) + (i % (2 * k) + k) := by
          have h4 : 1 ≤ i / (2 * k) := by
            by_contra h5
            have : i / (2 * k) = 0 := Nat.lt_one_iff.1 (Nat.lt_of_not_le h5)
            rw [this] at hdm; omega
          have h5 : 2 * k * (i / (2 * k) - 1) = 2 * k * (i / (2 * k)) - 2 * k := by rw [Nat.mul_sub, Nat.mul_one]
          have h6 : 2 * k * 1 ≤ 2 * k * (i / (2 * k)) := Nat.mul_le_mul_left _ h4
          omega
        rw [h3, Nat.mul_add_mod, Nat.mod_eq_of_lt (by omega)]
      rw [hn _ (by omega), e2, decide_eq_false (by omega : ¬ i % (2 * k) + k < k), Bool.and_false, Bool.and_false, Bool.or_false]
  · rw [if_neg hc]
    have h1 : k ≤ i := le_trans (by omega : k ≤ i % (2 * k)) (Nat.mod_le _ _)
    have e2 : (i - k) % (2 * k) = i % (2 * k) - k := by
      have h3 : i - k = 2 * k * (i / (2 * k)) + (i % (2 * k) - k) := by omega
      rw [h3, Nat.mul_add_mod, Nat.mod_eq_of_lt (by omega)]
    rw [hn _ (by omega), e2]
    have h4 : (v.getLsbD (k + i) && m.getLsbD (k + i)) = false := by
      by_cases h5 : k + i < 64
      · have e1 : (k + i) % (2 * k) = i % (2 * k) - k := by
          have h6 : k + i = 2 * k * (i / (2 * k) + 1) + (i % (2 * k) - k) := by rw [Nat.mul_add, Nat.mul_one]; omega
          rw [h6, Nat.mul_add_mod, Nat.mod_eq_of_lt (by omega)]
        rw [hm _ h5, e1, decide_eq_false (by omega), Bool.and_false]
      · rw [BitVec.getLsbD_of_ge _ _ (by omega), Bool.false_and]
    rw [h4, decide_eq_true (by omega : i % (2 * k) - k < k), decide_eq_true hi, decide_eq_false (by omega : ¬ i < k)]
    simp

theorem masks64 : (∀ i : Fin 64, (0xaaaaaaaaaaaaaaaa#64).getLsbD i.val = decide (1 ≤ i.val % (2 * 1)) ∧ (0x5555555555555555#64).getLsbD i.val = decide (i.val % (2 * 1) < 1)) ∧
    (∀ i : Fin 64, (0xcccccccccccccccc#64).getLsbD i.val = decide (2 ≤ i.val % (2 * 2)) ∧ (0x3333333333333333#64).getLsbD i.val = decide (i.val % (2 * 2) < 2)) ∧
    (∀ i : Fin 64, (0xf0f0f0f0f0f0f0f0#64).getLsbD i.val = decide (4 ≤ i.val % (2 * 4)) ∧ (0x0f0f0f0f0f0f0f0f#64).getLsbD i.val = decide (i.val % (2 * 4) < 4)) := by
  decide +kernel

theorem rbit64_eq (msvc : Bool) (v : BitVec 64) : Arm.rbit64 msvc v = v.reverse := by
  unfold Arm.rbit64
  cases msvc
  · rfl
  rw [if_pos rfl]
  simp only
  apply BitVec.eq_of_getLsbD_eq
  intro i hi
  obtain ⟨m1, m2, m3⟩ := masks64
  rw [getLsbD_rev64 _ _ hi, swapBits _ _ _ 4 (fun i h => (m3 ⟨i, h⟩).1) (fun i h => (m3 ⟨i, h⟩).2) (by decide) i hi]
  have l3 : (if i % (2 * 4) < 4 then i + 4 else i - 4) < 64 := by split <;> omega
  rw [swapBits _ _ _ 2 (fun i h => (m2 ⟨i, h⟩).1) (fun i h => (m2 ⟨i, h⟩).2) (by decide) _ l3]
  have hx : ∀ i : Fin 64, (if (if (if i.val % (2 * 4) < 4 then i.val + 4 else i.val - 4) % (2 * 2) < 2 then (if i.val % (2 * 4) < 4 then i.val + 4 else i.val - 4) + 2
      else (if i.val % (2 * 4) < 4 then i.val + 4 else i.val - 4) - 2) % (2 * 1) < 1 then
        (if (if i.val % (2 * 4) < 4 then i.val + 4 else i.val - 4) % (2 * 2) < 2 then (if i.val % (2 * 4) < 4 then i.val + 4 else i.val - 4) + 2
          else (if i.val % (2 * 4) < 4 then i.val + 4 else i.val - 4) - 2) + 1
      else (if (if i.val % (2 * 4) < 4 then i.val + 4 else i.val - 4) % (2 * 2) < 2 then (if i.val % (2 * 4) < 4 then i.val + 4 else i.val - 4) + 2
          else (if i.val % (2 * 4) < 4 then i.val + 4 else i.val - 4) - 2) - 1) = 8 * (i.val / 8) + (7 - i.val % 8) := by decide +kernel
  have l2 : (if (if i % (2 * 4) < 4 then i + 4 else i - 4) % (2 * 2) < 2 then (if i % (2 * 4) < 4 then i + 4 else i - 4) + 2
      else (if i % (2 * 4) < 4 then i + 4 else i - 4) - 2) < 64 := by
    generalize (if i % (2 * 4) < 4 then i + 4 else i - 4) = j at *
    split <;> omega
  rw [swapBits _ _ _ 1 (fun i h => (m1 ⟨i, h⟩).1) (fun i h => (m1 ⟨i, h⟩).2) (by decide) _ l2, hx ⟨i, hi⟩, Arm.byteswap64, getLsbD_ofBits]
  simp only [show 8 * (i / 8) + (7 - i % 8) < 64 by omega, decide_true, Bool.true_and]
  congr 1; omega

theorem rbit32_eq (msvc : Bool) (v : U32) : Arm.rbit32 msvc v = v.reverse := by
  unfold Arm.rbit32
  cases msvc
  · rfl
  rw [if_pos rfl, rbit64_eq]
  apply BitVec.eq_of_getLsbD_eq
  intro i hi
  rw [BitVec.getLsbD_setWidth, BitVec.getLsbD_ushiftRight, getLsbD_rev64 _ _ (by omega), BitVec.getLsbD_setWidth, BitVec.getLsbD_reverse, BitVec.getMsbD_eq_getLsbD,
    decide_eq_true hi, decide_eq_true (by omega : 63 - (32 + i) < 64), Bool.true_and, Bool.true_and, Bool.true_and]
  congr 1; omega

/-! ### The functions with polynomial multiplication -/

theorem ev_split (t : R) (z : BitVec 64) : ev t z.toNat = ev t (z.extractLsb' 0 32).toNat + t ^ 32 * ev t (z.extractLsb' 32 32).toNat := by
  rw [BitVec.extractLsb'_toNat, BitVec.extractLsb'_toNat, Nat.shiftRight_zero, Nat.shiftRight_eq_div_pow, Nat.mod_eq_of_lt (by have := z.isLt; omega : z.toNat / 2 ^ 32 < 2 ^ 32)]
  exact ev_div_mod t 32 z.toNat

theorem setWidth_extract (z : BitVec 64) : z.setWidth 32 = z.extractLsb' 0 32 ∧ (z >>> 32).setWidth 32 = z.extractLsb' 32 32 := by
  constructor <;> apply BitVec.eq_of_toNat_eq <;> simp

theorem phi_reduceE (z : BitVec 64) : phi (Arm.crc32 32 0#32 (z.extractLsb' 0 32) ^^^ z.extractLsb' 32 32) = x ^ 63 * ev y z.toNat := by
  rw [← phi_reduceW, (setWidth_extract z).1, (setWidth_extract z).2]

theorem multiply_pmull (aarch64 : Bool) (a b : U32) : phi (Arm.multiplyPmull aarch64 a b) = phi a * phi b := by
  have hp : clmulN a.toNat b.toNat 64 < 2 ^ 63 := by
    rw [clmulN_mod _ _ 32 64 b.isLt (by omega)]
    exact clmulN_lt _ _ 32 31 a.isLt
  have hv : ev y (clmulN a.toNat b.toNat 64) = ev y a.toNat * ev y b.toNat := evx_clmulN _ _ _ _ (lt_trans b.isLt (by decide))
  have e1 : (Arm.pmull (a.setWidth 64) (b.setWidth 64)).1.toNat = clmulN a.toNat b.toNat 64 := by
    unfold Arm.pmull
    simp only
    rw [BitVec.toNat_ofNat, BitVec.toNat_setWidth, BitVec.toNat_setWidth, Nat.mod_eq_of_lt (lt_trans a.isLt (by decide)), Nat.mod_eq_of_lt (lt_trans b.isLt (by decide)),
      Nat.mod_eq_of_lt (lt_trans hp (by decide))]
  unfold Arm.multiplyPmull
  simp only
  generalize (Arm.pmull (a.setWidth 64) (b.setWidth 64)).1 = p at *
  rw [← e1] at hp hv
  have e2 : (p + p).toNat = 2 ^ 1 * p.toNat := by rw [BitVec.toNat_add]; omega
  have e3 : (p >>> 31).setWidth 32 = ((p + p) >>> 32).setWidth 32 := by
    apply BitVec.eq_of_toNat_eq
    rw [BitVec.toNat_setWidth, BitVec.toNat_setWidth, BitVec.toNat_ushiftRight, BitVec.toNat_ushiftRight, e2, Nat.shiftRight_eq_div_pow, Nat.shiftRight_eq_div_pow]
    omega
  have hg : x ^ 63 * ev y (p + p).toNat = phi a * phi b := by
    rw [e2, ev_shl, hv, phi_ev a, phi_ev b, pow_one]
    have h := xy
    linear_combination x ^ 62 * ev y a.toNat * ev y b.toNat * h
  cases aarch64
  · rw [if_neg (by decide), phi_reduceE, hg]
  · rw [if_pos rfl, e3, phi_reduceW, hg]

theorem shift_pmull (aarch64 msvc : Bool) (c n : U32) : phi (Arm.shiftPmull aarch64 msvc c n) = phi c * x ^ n.toNat := by
  unfold Arm.shiftPmull
  simp only
  have hn := and_not31 n
  have hr : xv ((Arm.rbit32 msvc c).setWidth 64 <<< (n &&& 31#32).toNat) = phi c * x ^ (n.toNat % 32) := by
    rw [rbit32_eq, and31, xv, BitVec.toNat_shiftLeft, BitVec.toNat_setWidth, Nat.mod_eq_of_lt (lt_trans c.reverse.isLt (by decide)), Nat.shiftLeft_eq, Nat.mod_eq_of_lt,
      Nat.mul_comm, ev_shl, ev_reverse_phi, mul_comm]
    calc c.reverse.toNat * 2 ^ (n.toNat % 32) ≤ c.reverse.toNat * 2 ^ 32 := Nat.mul_le_mul_left _ (Nat.pow_le_pow_right (by omega) (by omega))
      _ < 2 ^ 32 * 2 ^ 32 := Nat.mul_lt_mul_of_pos_right c.reverse.isLt (by decide)
      _ = 2 ^ 64 := by decide
  generalize (Arm.rbit32 msvc c).setWidth 64 <<< (n &&& 31#32).toNat = res at *
  by_cases hz : n &&& ~~~31#32 = 0#32
  · rw [if_neg (by simpa using hz)]
    rw [hz] at hn
    have hn' : n.toNat = n.toNat % 32 := by simpa using hn
    rw [hn', ← hr]
    cases aarch64
    · rw [if_neg (by decide), rbit32_eq, rbit32_eq, phi_xor, phi_crc32 32 31 rfl, phi_zero, mul_zero, zero_add, show 32 + 31 = 32 + 31 from rfl, pow_add, mul_assoc, ← phi_ev,
        phi_reverse, phi_reverse, xv, ev_split x res]
      ring
    · rw [if_pos rfl, rbit64_eq, phi_reduceW, xv, ← ev_reverse _ 63 rfl, BitVec.reverse_reverse_eq]
  · rw [if_pos hz]
    have ha := xv_accumulate res _ hz
    have hp := xv_pmull (Arm.accumulate res (n &&& ~~~31#32)).1 (Arm.accumulate res (n &&& ~~~31#32)).2
    rw [ha, hr] at hp
    generalize Arm.pmull (Arm.accumulate res (n &&& ~~~31#32)).1 (Arm.accumulate res (n &&& ~~~31#32)).2 = prod at *
    rw [revLane_eq, revLane_eq]
    have h1 : xv prod.1 = x ^ 63 * ev y prod.1.reverse.toNat := by rw [xv, ← ev_reverse _ 63 rfl, BitVec.reverse_reverse_eq]
    have h2 : xv prod.2 = x ^ 63 * ev y prod.2.reverse.toNat := by rw [xv, ← ev_reverse _ 63 rfl, BitVec.reverse_reverse_eq]
    have hg : x ^ 63 * ev y prod.1.reverse.toNat + x ^ 64 * (x ^ 63 * ev y prod.2.reverse.toNat) = phi c * x ^ n.toNat := by
      rw [← h1, ← h2, hp]
      conv_rhs => rw [hn, pow_add]
      ring
    rw [← hg]
    generalize prod.1.reverse = lo at *
    generalize prod.2.reverse = hi at *
    have h32 := xy_pow 32
    cases aarch64
    · rw [if_neg (by decide), phi_xor, phi_crc32 32 31 rfl, phi_ev (lo.extractLsb' 32 32), show 32 + 31 = 32 + 31 from rfl, pow_add, mul_assoc (x ^ 32) (x ^ 31), ← phi_ev,
        phi_crc32 32 31 rfl, pow_add, mul_assoc (x ^ 32) (x ^ 31), ← phi_ev, phi_crc32 32 31 rfl, phi_zero, ev_split y lo, ev_split y hi, phi_ev (lo.extractLsb' 0 32), phi_ev (hi.extractLsb' 32 32)]
      linear_combination -(x ^ 31 * ev y (lo.extractLsb' 32 32).toNat + x ^ 95 * ev y (hi.extractLsb' 32 32).toNat) * h32
    · rw [if_pos rfl, (setWidth_extract lo).1, (setWidth_extract lo).2, phi_xor, phi_crc32 32 31 rfl, phi_ev (lo.extractLsb' 32 32), pow_add, mul_assoc (x ^ 32) (x ^ 31), ← phi_ev,
        phi_crc32 64 63 rfl, phi_zero, ev_split y lo, phi_ev (lo.extractLsb' 0 32)]
      linear_combination -(x ^ 31 * ev y (lo.extractLsb' 32 32).toNat) * h32

end Yenc.Crc
