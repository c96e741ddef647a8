import Verif.Lemmas.CrcArm
import Verif.Model.CrcRiscv
/-! The RISC-V code computes CRC-32. -/
namespace Yenc.Crc
open Vec Yenc.Spec

/-! ### Multiplication of words -/

theorem ev_halves (w p : Nat) (hp : p < 2 ^ (2 * w)) : ev y (BitVec.ofNat w p).toNat + y ^ w * ev y (BitVec.ofNat w (p / 2 ^ w)).toNat = ev y p := by
  have h : p / 2 ^ w < 2 ^ w := by
    rw [Nat.div_lt_iff_lt_mul (Nat.two_pow_pos w), ← pow_add, ← Nat.two_mul]; exact hp
  rw [BitVec.toNat_ofNat, BitVec.toNat_ofNat, Nat.mod_eq_of_lt h]
  exact (ev_div_mod y w p).symm

theorem clmulN_lt2 (a b : Nat) (w : Nat) (hw : 0 < w) (ha : a < 2 ^ w) : clmulN a b w < 2 ^ (2 * w) := by
  have h := clmulN_lt a b w (w - 1) (by rwa [Nat.sub_add_cancel hw])
  exact lt_trans h (Nat.pow_lt_pow_right (by omega) (by omega))

theorem ev_clmul_pair (w : Nat) (hw : 0 < w) (a b : BitVec w) :
    ev y (Rv.clmul a b).toNat + y ^ w * ev y (Rv.clmulh a b).toNat = ev y a.toNat * ev y b.toNat := by
  rw [Rv.clmul, Rv.clmulh, ev_halves w _ (clmulN_lt2 _ _ w hw a.isLt), evx_clmulN _ _ _ _ b.isLt]

theorem ev_mul_pair (w k : Nat) (hw : w = 64 ∨ w = 32) (hk : k < 2 ^ 33) (a : BitVec w) :
    ev y (Rv.mulL a k).toNat + y ^ w * ev y (Rv.mulH a k).toNat = ev y a.toNat * ev y k := by
  unfold Rv.mulL Rv.mulH
  rcases hw with rfl | rfl
  · rw [if_pos rfl, ev_clmul_pair 64 (by omega), BitVec.toNat_ofNat, Nat.mod_eq_of_lt (lt_trans hk (by decide))]
  · rw [if_neg (by decide), BitVec.toNat_xor, evx_xor, mul_add, ← add_assoc, ev_clmul_pair 32 (by omega), BitVec.toNat_ofNat, ev_div_mod y 32 k]
    by_cases h : k > 0xffffffff
    · rw [if_pos h, show k / 2 ^ 32 = 1 by omega, ev_one]; ring
    · rw [if_neg h, show k / 2 ^ 32 = 0 by omega, show (0#32).toNat = 0 from rfl, ev_zero, mul_zero, add_zero, add_zero]

/-! ### Constants -/

theorem k_x256 : ev y 0xf1da05aa = x ^ 256 := by
  rw [ev_const 0xf1da05aa 288 (by decide) (by decide) (by decide) (by decide +kernel), mul_comm, x_sub 288 32 (by omega)]
theorem k_x192 : ev y 0x15a546366 = x ^ 192 := by
  rw [ev_const 0x15a546366 224 (by decide) (by decide) (by decide) (by decide +kernel), mul_comm, x_sub 224 32 (by omega)]
theorem k_x96 : ev y 0x140d44a2e = x ^ 96 := by
  rw [ev_const 0x140d44a2e 128 (by decide) (by decide) (by decide) (by decide +kernel), mul_comm, x_sub 128 32 (by omega)]
theorem k_y64 : ev y 0xb66b1fa6 = y ^ 64 := by
  rw [ev_const 0xb66b1fa6 (2 ^ 32 - 1 - 32) (by decide) (by decide) (by decide) (by decide +kernel)]
  have h : x ^ (2 ^ 32 - 1 - 32) * x ^ 32 = 1 := by
    rw [← pow_add, show 2 ^ 32 - 1 - 32 + 32 = 2 ^ 32 - 1 from by decide, x_pow_period]
  have h2 := xy_pow 32
  have h3 : x ^ (2 ^ 32 - 1 - 32) = y ^ 32 := by
    generalize x ^ (2 ^ 32 - 1 - 32) = z at *
    linear_combination y ^ 32 * h - z * h2
  rw [h3, ← pow_add]

theorem ev_mulLo (w : Nat) (hw : w = 64 ∨ w = 32) : ev y (Rv.mulLo w) = x ^ (4 * w) ∧ Rv.mulLo w < 2 ^ 33 := by
  rcases hw with rfl | rfl
  · exact ⟨k_x256, by decide⟩
  · exact ⟨k_x128, by decide⟩

theorem ev_mulHi (w : Nat) (hw : w = 64 ∨ w = 32) : ev y (Rv.mulHi w) = x ^ (3 * w) ∧ Rv.mulHi w < 2 ^ 33 := by
  rcases hw with rfl | rfl
  · exact ⟨k_x192, by decide⟩
  · exact ⟨k_x96, by decide⟩

/-! ### The accumulators -/

/-- The value of the accumulators. -/
noncomputable def Rv.Acc.val {w : Nat} (a : Rv.Acc w) : R :=
  ev y a.a0.toNat + y ^ w * ev y a.a1.toNat + y ^ (2 * w) * ev y a.a2.toNat + y ^ (3 * w) * ev y a.a3.toNat

/-- What the accumulators hold after `off` bytes. -/
noncomputable def Rv.goal (w : Nat) (s : Src) (init : U32) (off : Nat) : R := x ^ (512 - 4 * w) * Crc.goal s init off

theorem Rv.goal_step (w : Nat) (hw : w = 64 ∨ w = 32) (s : Src) (init : U32) (off n : Nat) (h : off + n ≤ s.data.length) :
    y ^ (8 * n) * Rv.goal w s init (off + n) = Rv.goal w s init off + y ^ (4 * w) * ev y (le (fun j => s.at (off + j)) 0 n) := by
  have g := Crc.goal_step s init off n h (fun j => s.at (off + j)) 0 (fun j _ => by rw [Nat.zero_add])
  have e : y ^ 512 * x ^ (512 - 4 * w) = y ^ (4 * w) := by
    rw [y_sub _ _ (by omega)]; congr 1; omega
  unfold Rv.goal
  linear_combination x ^ (512 - 4 * w) * g + ev y (le (fun j => s.at (off + j)) 0 n) * e

theorem Rv.start_val (w : Nat) (hw : w = 64 ∨ w = 32) (s : Src) (init : U32) : (Rv.start w (~~~init)).val = Rv.goal w s init 0 := by
  have hg : Rv.goal w s init 0 = y ^ (4 * w) * ev y (~~~init).toNat := by
    have e : y ^ 512 * x ^ (512 - 4 * w) = y ^ (4 * w) := by
      rw [y_sub _ _ (by omega)]; congr 1; omega
    have h : y ^ 511 * y ^ 32 = y ^ 31 * y ^ 512 := by rw [← pow_add, ← pow_add]
    rw [Rv.goal, Crc.goal, List.take_zero, show mu [] = 0 from rfl, show 8 * 0 = 0 from rfl, pow_zero, ev_phi]
    linear_combination x ^ (512 - 4 * w) * phi (~~~init) * h + y ^ 31 * phi (~~~init) * e
  rw [hg]
  unfold Rv.start Rv.Acc.val
  have hsw : ∀ w, 32 ≤ w → ((~~~init).setWidth w).toNat = (~~~init).toNat := by
    intro w hw
    rw [BitVec.toNat_setWidth, Nat.mod_eq_of_lt (lt_of_lt_of_le (~~~init).isLt (Nat.pow_le_pow_right (by omega) hw))]
  rcases hw with rfl | rfl
  · rw [if_pos rfl]
    simp only
    have e := ev_clmul_pair 64 (by omega) ((~~~init).setWidth 64) (BitVec.ofNat 64 0xb66b1fa6)
    rw [hsw 64 (by omega), show (BitVec.ofNat 64 0xb66b1fa6).toNat = 0xb66b1fa6 from rfl, k_y64] at e
    have hz : (Rv.clmulh ((~~~init).setWidth 64) (BitVec.ofNat 64 0xb66b1fa6)).toNat = 0 := by
      rw [Rv.clmulh, BitVec.toNat_ofNat, hsw 64 (by omega), show (BitVec.ofNat 64 0xb66b1fa6).toNat = 0xb66b1fa6 from rfl, clmulN_mod _ _ 32 64 (by decide) (by omega),
        Nat.div_eq_of_lt (lt_trans (clmulN_lt _ _ 32 31 (~~~init).isLt) (by decide)), Nat.zero_mod]
    rw [hz, ev_zero, mul_zero, add_zero] at e
    rw [e, show (0#64).toNat = 0 from rfl, ev_zero]
    have : y ^ (3 * 64) * y ^ 64 = y ^ (4 * 64) := by rw [← pow_add]
    linear_combination ev y (~~~init).toNat * this
  · rw [if_neg (by decide)]
    simp only
    have e := ev_clmul_pair 32 (by omega) ((~~~init).setWidth 32) (BitVec.ofNat 32 0xb66b1fa6)
    rw [hsw 32 (by omega), show (BitVec.ofNat 32 0xb66b1fa6).toNat = 0xb66b1fa6 from rfl, k_y64] at e
    rw [show (0#32).toNat = 0 from rfl, ev_zero]
    have h1 : y ^ (3 * 32) = y ^ (2 * 32) * y ^ 32 := by rw [← pow_add]
    have h2 : y ^ (4 * 32) = y ^ (2 * 32) * y ^ 64 := by rw [← pow_add]
    rw [h1, h2]
    linear_combination y ^ (2 * 32) * e

/-! ### Shifting words -/

theorem ev_shl_or_shr (w : Nat) (a b : BitVec w) (l r : Nat) (h : l + r = w) :
    ev y ((b <<< l) ||| (a >>> r)).toNat = ev y (a.toNat / 2 ^ r) + y ^ l * ev y (b.toNat % 2 ^ r) := by
  have h1 : (b <<< l).toNat = 2 ^ l * (b.toNat % 2 ^ r) := by
    have hp : 2 ^ w = 2 ^ l * 2 ^ r := by rw [← h, pow_add]
    rw [BitVec.toNat_shiftLeft, Nat.shiftLeft_eq, hp, Nat.mul_comm, Nat.mul_mod_mul_left]
  have h2 : a.toNat / 2 ^ r < 2 ^ l := by
    rw [Nat.div_lt_iff_lt_mul (Nat.two_pow_pos r), ← pow_add, h]; exact a.isLt
  rw [BitVec.toNat_or, h1, BitVec.toNat_ushiftRight, Nat.shiftRight_eq_div_pow, ← Nat.two_pow_add_eq_or_of_lt h2, ev_add_pow _ _ _ _ h2]

theorem ev_shl_word (w : Nat) (b : BitVec w) (l r : Nat) (h : l + r = w) : ev y (b <<< l).toNat = y ^ l * ev y (b.toNat % 2 ^ r) := by
  have hp : 2 ^ w = 2 ^ l * 2 ^ r := by rw [← h, pow_add]
  rw [BitVec.toNat_shiftLeft, Nat.shiftLeft_eq, hp, Nat.mul_comm, Nat.mul_mod_mul_left, ev_shl]

theorem Rv.readPartial_eq (w : Nat) (s : Src) (off n : Nat) (h : off + n ≤ s.data.length) (hn : 8 * n ≤ w) :
    ∃ d : BitVec w, Rv.readPartial w s off n = some d ∧ d.toNat = le (fun j => s.at (off + j)) 0 n := by
  refine ⟨_, by rw [Rv.readPartial, s.loadu_eq _ _ h]; rfl, ?_⟩
  rw [BitVec.toNat_ofNat, Nat.mod_eq_of_lt (lt_of_lt_of_le (le_lt _ 0 n) (Nat.pow_le_pow_right (by omega) hn))]

theorem Rv.readFull_eq (w : Nat) (_hw : w = 64 ∨ w = 32) (s : Src) (off : Nat) (h : off + w / 8 ≤ s.data.length) (ha : (s.addr + off) % (w / 8) = 0) :
    ∃ d : BitVec w, Rv.readFull w s off = some d ∧ d.toNat = le (fun j => s.at (off + j)) 0 (w / 8) := by
  refine ⟨_, by rw [Rv.readFull, if_pos ha, s.loadu_eq _ _ h]; rfl, ?_⟩
  rw [BitVec.toNat_ofNat, Nat.mod_eq_of_lt (lt_of_lt_of_le (le_lt _ 0 (w / 8)) (Nat.pow_le_pow_right (by omega) (by omega)))]

/-- State after `off` bytes, `len` left. -/
def Rv.Inv {w : Nat} (s : Src) (init : U32) (a : Rv.Acc w) (off : Nat) (len : Int) : Prop :=
  (off : Int) + len = s.data.length ∧ 0 ≤ len ∧ a.val = Rv.goal w s init off

theorem Rv.align_ok (w : Nat) (hw : w = 64 ∨ w = 32) (s : Src) (init : U32) :
    ∃ a off len, Rv.align s s.data.length (Rv.start w (~~~init)) = some (a, off, len) ∧ Rv.Inv s init a off len ∧
      ((s.addr + off) % (w / 8) = 0 ∨ len < (w / 8 : Nat)) := by
  have hs := Rv.start_val w hw s init
  have hz : (Rv.start w (~~~init)).a0 = 0#w ∧ (Rv.start w (~~~init)).a1 = 0#w ∧ (w = 64 → (Rv.start w (~~~init)).a2 = 0#w) := by
    unfold Rv.start
    rcases hw with rfl | rfl
    · rw [if_pos rfl]; exact ⟨rfl, rfl, fun _ => rfl⟩
    · rw [if_neg (by decide)]; exact ⟨rfl, rfl, fun h => absurd h (by decide)⟩
  generalize Rv.start w (~~~init) = a at *
  unfold Rv.align
  simp only
  have hWS : w / 8 * 8 = w := by omega
  have hal : s.addr % (w / 8) < w / 8 := Nat.mod_lt _ (by omega)
  have hpa : ∃ k, s.addr = (w / 8) * k + s.addr % (w / 8) := ⟨_, (Nat.div_add_mod _ _).symm⟩
  by_cases hc : s.addr % (w / 8) ≠ 0 ∧ (s.data.length : Int) ≥ ((w / 8 - s.addr % (w / 8) : Nat) : Int)
  · rw [if_pos hc]
    obtain ⟨d, e, hd⟩ := Rv.readPartial_eq w s 0 (w / 8 - s.addr % (w / 8)) (by omega) (by omega)
    rw [e]
    simp only [Option.map_some]
    have g := Rv.goal_step w hw s init 0 (w / 8 - s.addr % (w / 8)) (by omega)
    rw [Nat.zero_add, ← hs, ← hd] at g
    have hdl : d.toNat % 2 ^ ((w / 8 - s.addr % (w / 8)) * 8) = d.toNat := by
      rw [Nat.mod_eq_of_lt]; rw [hd, Nat.mul_comm]; exact le_lt _ 0 _
    have hlr : s.addr % (w / 8) * 8 + (w / 8 - s.addr % (w / 8)) * 8 = w := by omega
    have h8 : 8 * (w / 8 - s.addr % (w / 8)) = (w / 8 - s.addr % (w / 8)) * 8 := Nat.mul_comm _ _
    rw [h8] at g
    have hmod : (s.addr + (w / 8 - s.addr % (w / 8))) % (w / 8) = 0 := by
      obtain ⟨k, hk⟩ := hpa
      rw [show s.addr + (w / 8 - s.addr % (w / 8)) = (w / 8) * (k + 1) by rw [Nat.mul_add, Nat.mul_one]; omega]
      exact Nat.mul_mod_right _ _
    have e3 := ev_shl_or_shr w a.a3 d _ _ hlr
    rw [hdl] at e3
    have s3 := ev_div_mod y ((w / 8 - s.addr % (w / 8)) * 8) a.a3.toNat
    have s2 := ev_div_mod y ((w / 8 - s.addr % (w / 8)) * 8) a.a2.toNat
    have w3 := ev_shl_word w a.a3 _ _ hlr
    have w2 := ev_shl_word w a.a2 _ _ hlr
    have e2 := ev_shl_or_shr w a.a2 a.a3 _ _ hlr
    have hp : y ^ (s.addr % (w / 8) * 8) * y ^ ((w / 8 - s.addr % (w / 8)) * 8) = y ^ w := by rw [← pow_add, hlr]
    have p2 : y ^ (2 * w) = y ^ w * y ^ w := by rw [← pow_add, ← Nat.two_mul]
    have p3 : y ^ (3 * w) = y ^ w * y ^ w * y ^ w := by rw [← pow_add, ← pow_add]; congr 1; omega
    have p4 : y ^ (4 * w) = y ^ w * y ^ w * y ^ w * y ^ w := by rw [← pow_add, ← pow_add, ← pow_add]; congr 1; omega
    obtain ⟨z0, z1, z2⟩ := hz
    by_cases h64 : w = 64
    · rw [if_pos h64]
      refine ⟨_, _, _, rfl, ⟨by omega, by omega, ?_⟩, Or.inl hmod⟩
      apply y_cancel ((w / 8 - s.addr % (w / 8)) * 8)
      rw [g]
      unfold Rv.Acc.val
      simp only
      rw [z0, z1, z2 h64, e3, w3, s3, BitVec.toNat_ofNat, Nat.zero_mod, ev_zero, p2, p3, p4]
      rw [← hp]
      ring
    · rw [if_neg h64]
      refine ⟨_, _, _, rfl, ⟨by omega, by omega, ?_⟩, Or.inl hmod⟩
      apply y_cancel ((w / 8 - s.addr % (w / 8)) * 8)
      rw [g]
      unfold Rv.Acc.val
      simp only
      rw [z0, z1, e3, w2, e2, s3, s2, BitVec.toNat_ofNat, Nat.zero_mod, ev_zero, p2, p3, p4]
      rw [← hp]
      ring
  · rw [if_neg hc]
    refine ⟨a, 0, _, rfl, ⟨by omega, by omega, hs⟩, ?_⟩
    by_cases h0 : s.addr % (w / 8) = 0
    · exact Or.inl (by simpa using h0)
    · refine Or.inr ?_
      have : ¬ (s.data.length : Int) ≥ ((w / 8 - s.addr % (w / 8) : Nat) : Int) := fun h => hc ⟨h0, h⟩
      omega

theorem ev_foldPair (w : Nat) (hw : w = 64 ∨ w = 32) (a b : BitVec w) :
    ev y (Rv.foldPair a b).1.toNat + y ^ w * ev y (Rv.foldPair a b).2.toNat = x ^ (4 * w) * (ev y a.toNat + y ^ w * ev y b.toNat) := by
  unfold Rv.foldPair
  simp only
  obtain ⟨l1, l2⟩ := ev_mulLo w hw
  obtain ⟨h1, h2⟩ := ev_mulHi w hw
  have e1 := ev_mul_pair w _ hw l2 a
  have e2 := ev_mul_pair w _ hw h2 b
  rw [l1] at e1
  rw [h1] at e2
  have hx : x ^ (4 * w) * y ^ w = x ^ (3 * w) := by rw [x_sub _ _ (by omega)]; congr 1; omega
  rw [BitVec.toNat_xor, BitVec.toNat_xor, evx_xor, evx_xor]
  linear_combination e1 + e2 - ev y b.toNat * hx

theorem Rv.pows (w : Nat) : y ^ (2 * w) = y ^ w * y ^ w ∧ y ^ (3 * w) = y ^ w * y ^ w * y ^ w ∧ y ^ (4 * w) = y ^ w * y ^ w * y ^ w * y ^ w := by
  refine ⟨?_, ?_, ?_⟩
  · rw [← pow_add, ← Nat.two_mul]
  · rw [← pow_add, ← pow_add]; congr 1; omega
  · rw [← pow_add, ← pow_add, ← pow_add]; congr 1; omega

/-- One word. -/
theorem Rv.goal_word (w : Nat) (hw : w = 64 ∨ w = 32) (s : Src) (init : U32) (off : Nat) (h : off + w / 8 ≤ s.data.length) (d : BitVec w)
    (hd : d.toNat = le (fun j => s.at (off + j)) 0 (w / 8)) :
    y ^ w * Rv.goal w s init (off + w / 8) = Rv.goal w s init off + y ^ (4 * w) * ev y d.toNat := by
  have g := Rv.goal_step w hw s init off (w / 8) h
  rwa [show 8 * (w / 8) = w by omega, ← hd] at g

theorem Rv.loop_ok (w : Nat) (hw : w = 64 ∨ w = 32) (s : Src) (init : U32) (k : Nat) : ∀ (a : Rv.Acc w) (off : Nat) (len : Int), len.toNat = k →
    Rv.Inv s init a off len → ((s.addr + off) % (w / 8) = 0 ∨ len < (w / 8 : Nat)) →
    ∃ a' off' len', Rv.loop s a off len = some (a', off', len') ∧ len' < 0 ∧ Rv.Inv s init a' off' (len' + 4 * (w / 8 : Nat)) ∧
      ((s.addr + off') % (w / 8) = 0 ∨ len' + 4 * (w / 8 : Nat) < (w / 8 : Nat)) := by
  induction k using Nat.strongRecOn with
  | _ k ih =>
    intro a off len hk hi ha
    obtain ⟨i1, i2, i3⟩ := hi
    rw [Rv.loop.eq_def]
    simp only
    by_cases h : w / 8 > 0 ∧ len - 4 * (w / 8 : Nat) ≥ 0
    · rw [dif_pos h]
      have ha : (s.addr + off) % (w / 8) = 0 := by
        rcases ha with ha | ha
        · exact ha
        · omega
      have hal : ∀ i, (s.addr + (off + i * (w / 8))) % (w / 8) = 0 := by
        intro i; rw [← Nat.add_assoc, Nat.add_mul_mod_self_right, ha]
      obtain ⟨d0, e0, v0⟩ := Rv.readFull_eq w hw s off (by omega) ha
      obtain ⟨d1, e1, v1⟩ := Rv.readFull_eq w hw s (off + w / 8) (by omega) (by have := hal 1; rwa [Nat.one_mul] at this)
      obtain ⟨d2, e2, v2⟩ := Rv.readFull_eq w hw s (off + 2 * (w / 8)) (by omega) (hal 2)
      obtain ⟨d3, e3, v3⟩ := Rv.readFull_eq w hw s (off + 3 * (w / 8)) (by omega) (hal 3)
      rw [e0, e1, e2, e3]
      simp only
      apply ih (len - 4 * (w / 8 : Nat)).toNat (by omega) _ _ _ rfl _ (Or.inl (hal 4))
      refine ⟨by push_cast; omega, by omega, ?_⟩
      have g0 := Rv.goal_word w hw s init off (by omega) d0 v0
      have g1 := Rv.goal_word w hw s init (off + w / 8) (by omega) d1 v1
      have g2 := Rv.goal_word w hw s init (off + 2 * (w / 8)) (by omega) d2 v2
      have g3 := Rv.goal_word w hw s init (off + 3 * (w / 8)) (by omega) d3 v3
      rw [show off + w / 8 + w / 8 = off + 2 * (w / 8) by omega] at g1
      rw [show off + 2 * (w / 8) + w / 8 = off + 3 * (w / 8) by omega] at g2
      rw [show off + 3 * (w / 8) + w / 8 = off + 4 * (w / 8) by omega] at g3
      have f1 := ev_foldPair w hw a.a0 a.a1
      have f2 := ev_foldPair w hw a.a2 a.a3
      unfold Rv.Acc.val at i3 ⊢
      simp only
      simp only [BitVec.toNat_xor, evx_xor]
      have hx := xy_pow (4 * w)
      obtain ⟨p2, p3, p4⟩ := Rv.pows w
      apply y_cancel (4 * w)
      rw [p4] at g0 g1 g2 g3 hx ⊢
      rw [p2, p3] at i3 ⊢
      generalize y ^ w = q at *
      generalize x ^ (4 * w) = X at *
      linear_combination q * q * q * q * f1 + q * q * q * q * q * q * f2 + (ev y a.a0.toNat + q * ev y a.a1.toNat + q * q * ev y a.a2.toNat + q * q * q * ev y a.a3.toNat) * hx +
        i3 - g0 - q * g1 - q * q * g2 - q * q * q * g3
    · rw [dif_neg h]
      refine ⟨a, off, _, rfl, by omega, ⟨by omega, by omega, i3⟩, ?_⟩
      rcases ha with ha | ha
      · exact Or.inl ha
      · exact Or.inr (by omega)

theorem Rv.two_ok (w : Nat) (hw : w = 64 ∨ w = 32) (s : Src) (init : U32) (a : Rv.Acc w) (off : Nat) (len : Int) (h0 : len < 0)
    (hi : Rv.Inv s init a off (len + 4 * (w / 8 : Nat))) (ha : (s.addr + off) % (w / 8) = 0 ∨ len + 4 * (w / 8 : Nat) < (w / 8 : Nat)) :
    ∃ a' off' m, Rv.two s len a off = some (a', off') ∧ Rv.Inv s init a' off' m ∧ m < 2 * (w / 8 : Nat) ∧ ((s.addr + off') % (w / 8) = 0 ∨ m < (w / 8 : Nat)) ∧
      (len - m) % (2 * (w / 8 : Nat)) = 0 := by
  obtain ⟨i1, i2, i3⟩ := hi
  unfold Rv.two
  by_cases h : len / ((w / 8 : Nat) * 2) % 2 = 1
  · rw [if_pos h]
    have hm : len + 4 * (w / 8 : Nat) ≥ 2 * (w / 8 : Nat) := by
      rcases hw with rfl | rfl <;> norm_num at * <;> omega
    have ha : (s.addr + off) % (w / 8) = 0 := by
      rcases ha with ha | ha
      · exact ha
      · omega
    obtain ⟨d0, e0, v0⟩ := Rv.readFull_eq w hw s off (by omega) ha
    obtain ⟨d1, e1, v1⟩ := Rv.readFull_eq w hw s (off + w / 8) (by omega) (by rw [← Nat.add_assoc, Nat.add_mod_right, ha])
    rw [e0, e1]
    simp only
    refine ⟨_, _, len + 4 * (w / 8 : Nat) - 2 * (w / 8 : Nat), rfl, ⟨by push_cast; omega, by omega, ?_⟩, ?_, Or.inl ?_, ?_⟩
    · have g0 := Rv.goal_word w hw s init off (by omega) d0 v0
      have g1 := Rv.goal_word w hw s init (off + w / 8) (by omega) d1 v1
      rw [show off + w / 8 + w / 8 = off + 2 * (w / 8) by omega] at g1
      have f1 := ev_foldPair w hw a.a0 a.a1
      unfold Rv.Acc.val at i3 ⊢
      simp only
      simp only [BitVec.toNat_xor, evx_xor]
      have hx := xy_pow (4 * w)
      obtain ⟨p2, p3, p4⟩ := Rv.pows w
      apply y_cancel (2 * w)
      rw [p4] at g0 g1 hx
      rw [p2, p3] at i3
      rw [p2, p3]
      generalize y ^ w = q at *
      generalize x ^ (4 * w) = X at *
      linear_combination q * q * q * q * f1 + (ev y a.a0.toNat + q * ev y a.a1.toNat) * hx + i3 - g0 - q * g1
    · rcases hw with rfl | rfl <;> norm_num at * <;> omega
    · rw [← Nat.add_assoc, Nat.add_mul_mod_self_right, ha]
    · rw [show len - (len + 4 * (w / 8 : Nat) - 2 * (w / 8 : Nat)) = (2 * (w / 8 : Nat)) * (-1) by ring]
      exact Int.mul_emod_right _ _
  · rw [if_neg h]
    refine ⟨a, off, len + 4 * (w / 8 : Nat), rfl, ⟨i1, i2, i3⟩, ?_, ?_, ?_⟩
    · rcases hw with rfl | rfl <;> norm_num at * <;> omega
    · exact ha
    · rw [show len - (len + 4 * (w / 8 : Nat)) = (2 * (w / 8 : Nat)) * (-2) by ring]
      exact Int.mul_emod_right _ _

theorem Rv.one_ok (w : Nat) (hw : w = 64 ∨ w = 32) (s : Src) (init : U32) (a : Rv.Acc w) (off : Nat) (len m : Int)
    (hi : Rv.Inv s init a off m) (hm : m < 2 * (w / 8 : Nat)) (ha : (s.addr + off) % (w / 8) = 0 ∨ m < (w / 8 : Nat)) (hl : (len - m) % (2 * (w / 8 : Nat)) = 0) :
    ∃ a' off', Rv.one s len a off = some (a', off') ∧ Rv.Inv s init a' off' (len % (w / 8 : Nat)) := by
  obtain ⟨i1, i2, i3⟩ := hi
  unfold Rv.one
  by_cases h : len / ((w / 8 : Nat) : Int) % 2 = 1
  · rw [if_pos h]
    have hm : m - (w / 8 : Nat) = len % (w / 8 : Nat) ∧ m ≥ (w / 8 : Nat) := by
      rcases hw with rfl | rfl <;> norm_num at * <;> omega
    have ha : (s.addr + off) % (w / 8) = 0 := by
      rcases ha with ha | ha
      · exact ha
      · omega
    obtain ⟨d0, e0, v0⟩ := Rv.readFull_eq w hw s off (by omega) ha
    rw [e0]
    simp only [Option.map_some]
    refine ⟨_, _, rfl, ⟨by omega, by omega, ?_⟩⟩
    have g0 := Rv.goal_word w hw s init off (by omega) d0 v0
    obtain ⟨h1, h2⟩ := ev_mulHi w hw
    have f1 := ev_mul_pair w _ hw h2 a.a0
    rw [h1] at f1
    unfold Rv.Acc.val at i3 ⊢
    simp only
    simp only [BitVec.toNat_xor, evx_xor]
    have hx := xy_pow (3 * w)
    obtain ⟨p2, p3, p4⟩ := Rv.pows w
    apply y_cancel w
    rw [p4] at g0
    rw [p3] at hx
    rw [p2, p3] at i3 ⊢
    generalize y ^ w = q at *
    generalize x ^ (3 * w) = X at *
    linear_combination q * q * q * f1 + ev y a.a0.toNat * hx + i3 - g0
  · rw [if_neg h]
    have hm : m = len % (w / 8 : Nat) := by
      rcases hw with rfl | rfl <;> norm_num at * <;> omega
    exact ⟨a, off, rfl, hm ▸ ⟨i1, i2, i3⟩⟩

theorem Rv.rest_ok (w : Nat) (hw : w = 64 ∨ w = 32) (s : Src) (init : U32) (a : Rv.Acc w) (off : Nat) (len : Int) (hi : Rv.Inv s init a off (len % (w / 8 : Nat))) :
    ∃ a', Rv.rest s len a off = some a' ∧ a'.val = Rv.goal w s init s.data.length := by
  obtain ⟨i1, i2, i3⟩ := hi
  have hlt : len % (w / 8 : Nat) < (w / 8 : Nat) := Int.emod_lt_of_pos _ (by omega)
  unfold Rv.rest
  simp only
  obtain ⟨t, ht⟩ : ∃ t : Nat, len % ((w / 8 : Nat) : Int) = t := ⟨_, (Int.toNat_of_nonneg i2).symm⟩
  rw [ht] at i1 hlt ⊢
  rw [Int.toNat_natCast]
  by_cases h : t ≠ 0
  · rw [if_pos h]
    obtain ⟨d, e, hd⟩ := Rv.readPartial_eq w s off t (by omega) (by omega)
    rw [e]
    simp only [Option.map_some]
    refine ⟨_, rfl, ?_⟩
    have g := Rv.goal_step w hw s init off t (by omega)
    rw [← i3, ← hd, show off + t = s.data.length by omega, Nat.mul_comm] at g
    have hlr : (w / 8 - t) * 8 + t * 8 = w := by omega
    have hdl : d.toNat % 2 ^ (t * 8) = d.toNat := by
      rw [Nat.mod_eq_of_lt]; rw [hd, Nat.mul_comm]; exact le_lt _ 0 _
    apply y_cancel (t * 8)
    rw [g]
    obtain ⟨h1, h2⟩ := ev_mulHi w hw
    have f1 := ev_mul_pair w _ hw h2 (a.a0 <<< ((w / 8 - t) * 8))
    rw [h1, ev_shl_word w a.a0 _ _ hlr] at f1
    have hp : y ^ ((w / 8 - t) * 8) * y ^ (t * 8) = y ^ w := by rw [← pow_add, hlr]
    have e3 := ev_shl_or_shr w a.a3 d _ _ hlr
    rw [hdl] at e3
    unfold Rv.Acc.val
    simp only [BitVec.toNat_xor, evx_xor]
    rw [BitVec.or_comm, ev_shl_or_shr w a.a0 a.a1 _ _ hlr, BitVec.or_comm, ev_shl_or_shr w a.a1 a.a2 _ _ hlr, BitVec.or_comm, ev_shl_or_shr w a.a2 a.a3 _ _ hlr,
      BitVec.or_comm, e3, ev_div_mod y (t * 8) a.a0.toNat, ev_div_mod y (t * 8) a.a1.toNat, ev_div_mod y (t * 8) a.a2.toNat, ev_div_mod y (t * 8) a.a3.toNat]
    have hx := xy_pow (3 * w)
    obtain ⟨p2, p3, p4⟩ := Rv.pows w
    rw [p4]
    rw [p3] at hx
    rw [p2, p3]
    generalize y ^ w = q at *
    generalize x ^ (3 * w) = X at *
    generalize y ^ (t * 8) = r at *
    generalize y ^ ((w / 8 - t) * 8) = l at *
    generalize ev y (a.a0.toNat % 2 ^ (t * 8)) = A0 at *
    generalize ev y (a.a1.toNat % 2 ^ (t * 8)) = A1 at *
    generalize ev y (a.a2.toNat % 2 ^ (t * 8)) = A2 at *
    generalize ev y (a.a3.toNat % 2 ^ (t * 8)) = A3 at *
    linear_combination r * q * q * f1 + (A1 + q * A2 + q * q * A3 + q * q * q * ev y d.toNat + q * q * X * A0) * hp + A0 * hx
  · rw [if_neg h]
    refine ⟨a, rfl, ?_⟩
    rw [i3, show off = s.data.length by omega]

/-! ### Reduction -/

theorem Rv.barrett64 (v : BitVec 64) (l : Nat) (hl : l < 2 ^ 32) (hv : v.toNat = 2 ^ 32 * l) :
    (Rv.clmulh (Rv.clmul v (BitVec.ofNat 64 0xf7011641)) (BitVec.ofNat 64 0x1db710640)).toNat < 2 ^ 32 ∧
    y ^ 32 * ev y (Rv.clmulh (Rv.clmul v (BitVec.ofNat 64 0xf7011641)) (BitVec.ofNat 64 0x1db710640)).toNat = ev y l := by
  have h1 : (Rv.clmul v (BitVec.ofNat 64 0xf7011641)).toNat = 2 ^ 32 * (clmulN l 0xf7011641 64 % 2 ^ 32) := by
    rw [Rv.clmul, BitVec.toNat_ofNat, hv, show (BitVec.ofNat 64 0xf7011641).toNat = 0xf7011641 from rfl, clmulN_shl, show (2 : Nat) ^ 64 = 2 ^ 32 * 2 ^ 32 from rfl,
      Nat.mul_mod_mul_left]
  have h2 : (Rv.clmulh (Rv.clmul v (BitVec.ofNat 64 0xf7011641)) (BitVec.ofNat 64 0x1db710640)).toNat = clmulN (clmulN l 0xf7011641 64 % 2 ^ 32) 0x1db710640 64 / 2 ^ 32 := by
    rw [Rv.clmulh, h1, show (BitVec.ofNat 64 0x1db710640).toNat = 0x1db710640 from rfl, clmulN_shl, show (2 : Nat) ^ 64 = 2 ^ 32 * 2 ^ 32 from rfl,
      Nat.mul_div_mul_left _ _ (Nat.two_pow_pos 32), BitVec.toNat_ofNat, Nat.mod_eq_of_lt (lt_trans (barrett l hl).1 (by decide))]
  rw [h2]
  exact barrett l hl

theorem Rv.mulH32 (a : BitVec 32) (k : Nat) (hk : k < 2 ^ 32) : (Rv.mulH a (2 ^ 32 + k)).toNat = clmulN a.toNat (2 ^ 32 + k) 64 / 2 ^ 32 := by
  have hx : 2 ^ 32 + k = k ^^^ 2 ^ 32 * 1 := by
    apply ev_X_inj
    have := ev_add_pow (Polynomial.X : Polynomial (ZMod 2)) 32 1 k hk
    rw [Nat.mul_one] at this
    rw [this, ev_xor two_poly, ev_shl]
  have ha := a.isLt
  have hc := clmulN_lt2 a.toNat k 32 (by omega) ha
  unfold Rv.mulH
  rw [if_neg (by decide), if_pos (by omega), BitVec.toNat_xor, Rv.clmulh, BitVec.toNat_ofNat, BitVec.toNat_ofNat,
    show (2 ^ 32 + k) % 2 ^ 32 = k by omega, Nat.mod_eq_of_lt (by omega)]
  conv_rhs => rw [hx]
  rw [clmulN_xor_right _ _ _ _ (by omega) (by decide), clmulN_shl' _ _ _ _ (by decide), clmulN_one _ _ (by omega), clmulN_mod _ _ 32 64 hk (by omega),
    ← Nat.shiftRight_eq_div_pow, ← Nat.shiftRight_eq_div_pow, Nat.shiftRight_xor_distrib, Nat.shiftRight_eq_div_pow (2 ^ 32 * _), Nat.mul_div_cancel_left _ (Nat.two_pow_pos 32)]

theorem Rv.barrett32 (v : BitVec 32) : y ^ 32 * ev y (Rv.mulH (Rv.clmul v (BitVec.ofNat 32 0xf7011641)) 0x1db710640).toNat = ev y v.toNat := by
  have h1 : (Rv.clmul v (BitVec.ofNat 32 0xf7011641)).toNat = clmulN v.toNat 0xf7011641 64 % 2 ^ 32 := by
    rw [Rv.clmul, BitVec.toNat_ofNat, show (BitVec.ofNat 32 0xf7011641).toNat = 0xf7011641 from rfl, clmulN_mod _ _ 32 64 (by decide) (by omega)]
  have h2 := Rv.mulH32 (Rv.clmul v (BitVec.ofNat 32 0xf7011641)) 0xdb710640 (by decide)
  rw [show 2 ^ 32 + 0xdb710640 = 0x1db710640 from rfl, h1] at h2
  rw [h2]
  exact (barrett _ v.isLt).2

theorem ev_clmul_pair64 (a : BitVec 64) (k : Nat) (hk : k < 2 ^ 64) :
    ev y (Rv.clmul a (BitVec.ofNat 64 k)).toNat + y ^ 64 * ev y (Rv.clmulh a (BitVec.ofNat 64 k)).toNat = ev y a.toNat * ev y k := by
  rw [ev_clmul_pair 64 (by omega), BitVec.toNat_ofNat, Nat.mod_eq_of_lt hk]

theorem phi_setWidth64 (v : BitVec 64) (h : v.toNat < 2 ^ 32) : phi (v.setWidth 32) = x ^ 31 * ev y v.toNat := by
  rw [phi_ev, BitVec.toNat_setWidth, Nat.mod_eq_of_lt h]

theorem Rv.done64 (a : Rv.Acc 64) : phi (Rv.done a) = x ^ 287 * a.val := by
  unfold Rv.done
  rw [if_pos rfl]
  simp only
  rw [show ∀ b : BitVec 64, Rv.mulL b 0xf7011641 = Rv.clmul b (BitVec.ofNat 64 0xf7011641) from fun _ => rfl,
    show ∀ b : BitVec 64, Rv.mulH b 0x1db710640 = Rv.clmulh b (BitVec.ofNat 64 0x1db710640) from fun _ => rfl]
  have f0 := ev_clmul_pair64 a.a0 0x1751997d0 (by decide)
  have f1 := ev_clmul_pair64 a.a1 0xccaa009e (by decide)
  rw [k_x128] at f0
  rw [k_x64] at f1
  have e2 : ev y (a.a2 ^^^ (Rv.clmul a.a0 (BitVec.ofNat 64 0x1751997d0) ^^^ Rv.clmul a.a1 (BitVec.ofNat 64 0xccaa009e))).toNat +
      y ^ 64 * ev y (a.a3 ^^^ (Rv.clmulh a.a0 (BitVec.ofNat 64 0x1751997d0) ^^^ Rv.clmulh a.a1 (BitVec.ofNat 64 0xccaa009e))).toNat = x ^ 128 * a.val := by
    simp only [BitVec.toNat_xor, evx_xor]
    have h1 : x ^ 128 * y ^ 64 = x ^ 64 := x_sub _ _ (by omega)
    have h2 : x ^ 128 * y ^ (2 * 64) = 1 := xy_pow 128
    have h3 : x ^ 128 * y ^ (3 * 64) = y ^ 64 := by rw [mul_comm]; exact y_sub _ _ (by omega)
    unfold Rv.Acc.val
    linear_combination f0 + f1 - ev y a.a1.toNat * h1 - ev y a.a2.toNat * h2 - ev y a.a3.toNat * h3
  generalize a.a2 ^^^ (Rv.clmul a.a0 (BitVec.ofNat 64 0x1751997d0) ^^^ Rv.clmul a.a1 (BitVec.ofNat 64 0xccaa009e)) = a2 at *
  generalize a.a3 ^^^ (Rv.clmulh a.a0 (BitVec.ofNat 64 0x1751997d0) ^^^ Rv.clmulh a.a1 (BitVec.ofNat 64 0xccaa009e)) = a3 at *
  generalize a.val = V at *
  have f2 := ev_clmul_pair64 a2 0xccaa009e (by decide)
  rw [k_x64] at f2
  have b0 : (Rv.clmulh a2 (BitVec.ofNat 64 0xccaa009e)).toNat < 2 ^ 32 := by
    rw [Rv.clmulh, BitVec.toNat_ofNat, show (BitVec.ofNat 64 0xccaa009e).toNat = 0xccaa009e from rfl, clmulN_mod _ _ 32 64 (by decide) (by omega)]
    have := clmulN_lt a2.toNat 0xccaa009e 32 63 a2.isLt
    omega
  have e3 : ev y (a3 ^^^ Rv.clmul a2 (BitVec.ofNat 64 0xccaa009e)).toNat + y ^ 64 * ev y (Rv.clmulh a2 (BitVec.ofNat 64 0xccaa009e)).toNat = x ^ 192 * V := by
    simp only [BitVec.toNat_xor, evx_xor]
    have h1 := xy_pow 64
    linear_combination f2 + x ^ 64 * e2 - ev y a3.toNat * h1
  generalize Rv.clmulh a2 (BitVec.ofNat 64 0xccaa009e) = a0 at *
  generalize a3 ^^^ Rv.clmul a2 (BitVec.ofNat 64 0xccaa009e) = a3' at *
  have hlo : (a3' &&& BitVec.ofNat 64 0xffffffff).toNat = a3'.toNat % 2 ^ 32 := by
    rw [BitVec.toNat_and]; exact Nat.and_two_pow_sub_one_eq_mod _ 32
  have v1 : (Rv.clmul (a3' &&& BitVec.ofNat 64 0xffffffff) (BitVec.ofNat 64 0x163cd6124)).toNat = clmulN (a3'.toNat % 2 ^ 32) 0x163cd6124 64 := by
    rw [Rv.clmul, BitVec.toNat_ofNat, hlo, show (BitVec.ofNat 64 0x163cd6124).toNat = 0x163cd6124 from rfl, Nat.mod_eq_of_lt]
    rw [clmulN_mod _ _ 33 64 (by decide) (by omega)]
    exact clmulN_lt _ _ 33 31 (Nat.mod_lt _ (by decide))
  have e4 : ev y (Rv.clmul (a3' &&& BitVec.ofNat 64 0xffffffff) (BitVec.ofNat 64 0x163cd6124)).toNat = ev y (a3'.toNat % 2 ^ 32) * x ^ 32 := by
    rw [v1, evx_clmulN _ _ _ _ (by decide), k_x32]
  generalize Rv.clmul (a3' &&& BitVec.ofNat 64 0xffffffff) (BitVec.ofNat 64 0x163cd6124) = a1 at *
  have hsh : (a3' >>> 32).toNat = a3'.toNat / 2 ^ 32 := by rw [BitVec.toNat_ushiftRight, Nat.shiftRight_eq_div_pow]
  have hsh1 : (a1 >>> 32).toNat = a1.toNat / 2 ^ 32 := by rw [BitVec.toNat_ushiftRight, Nat.shiftRight_eq_div_pow]
  have ha1 := a1.isLt
  have ha3 := a3'.isLt
  have hH : a3'.toNat / 2 ^ 32 < 2 ^ 32 := by omega
  have hl : ((a1 ^^^ (a3' >>> 32)) <<< 32).toNat = 2 ^ 32 * (a1.toNat % 2 ^ 32 ^^^ a3'.toNat / 2 ^ 32) := by
    rw [BitVec.toNat_shiftLeft, Nat.shiftLeft_eq, Nat.mul_comm, show (2 : Nat) ^ 64 = 2 ^ 32 * 2 ^ 32 from rfl, Nat.mul_mod_mul_left, BitVec.toNat_xor, hsh, Nat.xor_mod_two_pow,
      Nat.mod_eq_of_lt hH]
  obtain ⟨c1, c2⟩ := Rv.barrett64 _ _ (Nat.xor_lt_two_pow (Nat.mod_lt _ (by decide)) hH) hl
  generalize Rv.clmulh (Rv.clmul ((a1 ^^^ (a3' >>> 32)) <<< 32) (BitVec.ofNat 64 0xf7011641)) (BitVec.ofNat 64 0x1db710640) = b at *
  have hr : (a0 ^^^ (a1 >>> 32) ^^^ b).toNat < 2 ^ 32 := by
    rw [BitVec.toNat_xor, BitVec.toNat_xor, hsh1]
    exact Nat.xor_lt_two_pow (Nat.xor_lt_two_pow b0 (by omega)) c1
  rw [phi_setWidth64 _ hr]
  simp only [BitVec.toNat_xor, evx_xor, hsh1] at c2 ⊢
  have s1 := ev_div_mod y 32 a1.toNat
  have s3 := ev_div_mod y 32 a3'.toNat
  have h32 := xy_pow 32
  have p : y ^ 64 = y ^ 32 * y ^ 32 := by rw [← pow_add]
  have q : x ^ 287 = x ^ 31 * x ^ 32 * x ^ 32 * x ^ 192 := by rw [← pow_add, ← pow_add, ← pow_add]
  rw [p, s3] at e3
  rw [s1] at e4
  rw [q]
  generalize x ^ 32 = X at *
  generalize y ^ 32 = Y at *
  linear_combination x ^ 31 * X * X * e3 + x ^ 31 * X * e4 + x ^ 31 * X * c2 - x ^ 31 * (ev y a0.toNat * (X * Y + 1) + ev y (a1.toNat / 2 ^ 32) + ev y b.toNat + X * ev y (a3'.toNat / 2 ^ 32)) * h32

theorem Rv.done32 (a : Rv.Acc 32) : phi (Rv.done a) = x ^ 159 * a.val := by
  unfold Rv.done
  rw [if_neg (by decide)]
  simp only
  rw [show ∀ b : BitVec 32, Rv.mulL b 0xf7011641 = Rv.clmul b (BitVec.ofNat 32 0xf7011641) from fun b => rfl]
  have f0 := ev_clmul_pair 32 (by omega) a.a0 (BitVec.ofNat 32 0xccaa009e)
  have f1 := ev_mul_pair 32 0x163cd6124 (Or.inr rfl) (by decide) a.a1
  rw [show (BitVec.ofNat 32 0xccaa009e).toNat = 0xccaa009e from rfl, k_x64] at f0
  rw [k_x32] at f1
  have e2 : ev y (a.a2 ^^^ (Rv.clmul a.a0 (BitVec.ofNat 32 0xccaa009e) ^^^ Rv.mulL a.a1 0x163cd6124)).toNat +
      y ^ 32 * ev y (a.a3 ^^^ (Rv.clmulh a.a0 (BitVec.ofNat 32 0xccaa009e) ^^^ Rv.mulH a.a1 0x163cd6124)).toNat = x ^ 64 * a.val := by
    simp only [BitVec.toNat_xor, evx_xor]
    have h1 : x ^ 64 * y ^ 32 = x ^ 32 := x_sub _ _ (by omega)
    have h2 : x ^ 64 * y ^ (2 * 32) = 1 := xy_pow 64
    have h3 : x ^ 64 * y ^ (3 * 32) = y ^ 32 := by rw [mul_comm]; exact y_sub _ _ (by omega)
    unfold Rv.Acc.val
    linear_combination f0 + f1 - ev y a.a1.toNat * h1 - ev y a.a2.toNat * h2 - ev y a.a3.toNat * h3
  generalize a.a2 ^^^ (Rv.clmul a.a0 (BitVec.ofNat 32 0xccaa009e) ^^^ Rv.mulL a.a1 0x163cd6124) = a2 at *
  generalize a.a3 ^^^ (Rv.clmulh a.a0 (BitVec.ofNat 32 0xccaa009e) ^^^ Rv.mulH a.a1 0x163cd6124) = a3 at *
  generalize a.val = V at *
  have f2 := ev_mul_pair 32 0x163cd6124 (Or.inr rfl) (by decide) a2
  rw [k_x32] at f2
  have c2 := Rv.barrett32 (a3 ^^^ Rv.mulL a2 0x163cd6124)
  rw [BitVec.setWidth_eq, phi_ev]
  simp only [BitVec.toNat_xor, evx_xor] at c2 ⊢
  have h32 := xy_pow 32
  have q : x ^ 159 = x ^ 31 * x ^ 32 * x ^ 32 * x ^ 64 := by rw [← pow_add, ← pow_add, ← pow_add]
  rw [q]
  generalize x ^ 32 = X at *
  generalize y ^ 32 = Y at *
  linear_combination x ^ 31 * X * f2 + x ^ 31 * X * X * e2 + x ^ 31 * X * c2 -
    x ^ 31 * (ev y (Rv.mulH a2 0x163cd6124).toNat + ev y (Rv.mulH (Rv.clmul (a3 ^^^ Rv.mulL a2 0x163cd6124) (BitVec.ofNat 32 0xf7011641)) 0x1db710640).toNat + X * ev y a3.toNat) * h32

theorem crcCalc_spec (w : Nat) (hw : w = 64 ∨ w = 32) (s : Src) (init : U32) : ∃ r, Rv.crcCalc w s (~~~init) s.data.length = some r ∧ IsCrc32 init s.data (~~~r) := by
  unfold Rv.crcCalc
  obtain ⟨a, off, len, e1, i1, n1⟩ := Rv.align_ok w hw s init
  obtain ⟨a, off, len, e2, h2, i2, n2⟩ := Rv.loop_ok w hw s init _ a off len rfl i1 n1
  obtain ⟨a, off, m, e3, i3, h3, n3, d3⟩ := Rv.two_ok w hw s init a off len h2 i2 n2
  obtain ⟨a, off, e4, i4⟩ := Rv.one_ok w hw s init a off len m i3 h3 n3 d3
  obtain ⟨a, e5, i5⟩ := Rv.rest_ok w hw s init a off len i4
  rw [e1, Option.bind_some]
  simp only
  rw [e2, Option.bind_some]
  simp only
  rw [e3, Option.bind_some]
  simp only
  rw [e4, Option.bind_some]
  simp only
  rw [e5]
  refine ⟨_, rfl, goal_crc s init _ ?_⟩
  rw [BitVec.not_not]
  unfold Rv.goal at i5
  rcases hw with rfl | rfl
  · rw [Rv.done64, i5, ← mul_assoc, ← pow_add]
  · rw [Rv.done32, i5, ← mul_assoc, ← pow_add]

/-! ### Multiplication and powers -/

theorem phi_reduce_rv (v : BitVec 64) (hv : v.toNat < 2 ^ 63) : phi (Rv.reduce v) = x ^ 62 * ev y v.toNat := by
  unfold Rv.reduce
  simp only
  have hl : (v <<< 33).toNat = 2 ^ 32 * ((2 ^ 1 * v.toNat) % 2 ^ 32) := by
    rw [BitVec.toNat_shiftLeft, Nat.shiftLeft_eq]; omega
  obtain ⟨c1, c2⟩ := Rv.barrett64 _ _ (Nat.mod_lt _ (by decide)) hl
  rw [show (0xf7011641#64) = BitVec.ofNat 64 0xf7011641 from rfl, show (0x1db710640#64) = BitVec.ofNat 64 0x1db710640 from rfl]
  generalize Rv.clmulh (Rv.clmul (v <<< 33) (BitVec.ofNat 64 0xf7011641)) (BitVec.ofNat 64 0x1db710640) = b at *
  have hs : (v >>> 31).toNat = (2 ^ 1 * v.toNat) / 2 ^ 32 := by
    rw [BitVec.toNat_ushiftRight, Nat.shiftRight_eq_div_pow]; omega
  have hr : (b ^^^ (v >>> 31)).toNat < 2 ^ 32 := by
    rw [BitVec.toNat_xor]; exact Nat.xor_lt_two_pow c1 (by omega)
  rw [phi_setWidth64 _ hr, BitVec.toNat_xor, evx_xor, hs]
  have s := ev_div_mod y 32 (2 ^ 1 * v.toNat)
  rw [ev_shl, pow_one] at s
  have h32 := xy_pow 32
  have h1 := xy
  have q : x ^ 62 = x ^ 30 * x ^ 32 := by rw [← pow_add]
  have q2 : x ^ 31 = x ^ 30 * x := by rw [← pow_succ]
  rw [q, q2]
  generalize x ^ 32 = X at *
  generalize y ^ 32 = Y at *
  linear_combination x ^ 30 * x * X * c2 - x ^ 30 * x * X * s - x ^ 30 * x * (ev y b.toNat + ev y (2 ^ 1 * v.toNat / 2 ^ 32)) * h32 + x ^ 30 * X * ev y v.toNat * h1

theorem multiply_rv (w : Nat) (hw : w = 64 ∨ w = 32) (a b : U32) : phi (Rv.multiply w a b) = phi a * phi b := by
  have hv : ev y (clmulN a.toNat b.toNat 32) = ev y a.toNat * ev y b.toNat := evx_clmulN _ _ _ _ b.isLt
  have hp : clmulN a.toNat b.toNat 32 < 2 ^ 63 := clmulN_lt _ _ 32 31 a.isLt
  have q : x ^ 62 = x ^ 31 * x ^ 31 := by rw [← pow_add]
  unfold Rv.multiply
  rcases hw with rfl | rfl
  · rw [if_pos rfl]
    have hm : (Rv.clmul (a.setWidth 64) (b.setWidth 64)).toNat = clmulN a.toNat b.toNat 32 := by
      rw [Rv.clmul, BitVec.toNat_ofNat, BitVec.toNat_setWidth, BitVec.toNat_setWidth, Nat.mod_eq_of_lt (lt_trans a.isLt (by decide)), Nat.mod_eq_of_lt (lt_trans b.isLt (by decide)),
        clmulN_mod _ _ 32 64 b.isLt (by omega), Nat.mod_eq_of_lt (lt_trans hp (by decide))]
    rw [phi_reduce_rv _ (by rw [hm]; exact hp), hm, hv, phi_ev a, phi_ev b, q]
    ring
  · rw [if_neg (by decide)]
    simp only
    have l0 : (Rv.clmul a b).toNat = clmulN a.toNat b.toNat 32 % 2 ^ 32 := by rw [Rv.clmul, BitVec.toNat_ofNat]
    have l1 : (Rv.clmulh a b).toNat = clmulN a.toNat b.toNat 32 / 2 ^ 32 := by
      rw [Rv.clmulh, BitVec.toNat_ofNat, Nat.mod_eq_of_lt (by omega)]
    have hlo : (Rv.clmul a b + Rv.clmul a b).toNat = (2 ^ 1 * clmulN a.toNat b.toNat 32) % 2 ^ 32 := by
      rw [BitVec.toNat_add, l0]; omega
    have hhi : ((Rv.clmulh a b + Rv.clmulh a b) ||| (Rv.clmul a b >>> 31)).toNat = (2 ^ 1 * clmulN a.toNat b.toNat 32) / 2 ^ 32 := by
      have h1 : (Rv.clmul a b >>> 31).toNat = clmulN a.toNat b.toNat 32 % 2 ^ 32 / 2 ^ 31 := by
        rw [BitVec.toNat_ushiftRight, Nat.shiftRight_eq_div_pow, l0]
      have h2 : (Rv.clmulh a b + Rv.clmulh a b).toNat = 2 ^ 1 * (clmulN a.toNat b.toNat 32 / 2 ^ 32) := by
        rw [BitVec.toNat_add, l1]; omega
      rw [BitVec.toNat_or, h1, h2, ← Nat.two_pow_add_eq_or_of_lt (by omega)]; omega
    have hb := Rv.barrett32 (Rv.clmul a b + Rv.clmul a b)
    have hm : ∀ t : BitVec 32, t ^^^ Rv.clmulh t 0xdb710640#32 = Rv.mulH t 0x1db710640 := by
      intro t
      unfold Rv.mulH
      rw [if_neg (by decide), if_pos (by decide), BitVec.xor_comm]
      rfl
    rw [hm, show 0xf7011641#32 = BitVec.ofNat 32 0xf7011641 from rfl, phi_ev, BitVec.toNat_xor, evx_xor, hhi]
    rw [hlo] at hb
    have s := ev_div_mod y 32 (2 ^ 1 * clmulN a.toNat b.toNat 32)
    rw [ev_shl, pow_one, hv] at s
    rw [phi_ev a, phi_ev b]
    generalize ev y (Rv.mulH (Rv.clmul (Rv.clmul a b + Rv.clmul a b) (BitVec.ofNat 32 0xf7011641)) 0x1db710640).toNat = B at *
    have h32 := xy_pow 32
    have h1 := xy
    have q2 : x ^ 31 * x = x ^ 32 := by rw [← pow_succ]
    generalize x ^ 32 = X at *
    generalize y ^ 32 = Y at *
    linear_combination x ^ 31 * X * hb - x ^ 31 * X * s - x ^ 31 * (B + ev y (2 ^ 1 * clmulN a.toNat b.toNat 32 / 2 ^ 32)) * h32 + x ^ 31 * x ^ 31 * ev y a.toNat * ev y b.toNat * h1 - x ^ 31 * y * ev y a.toNat * ev y b.toNat * q2

theorem powers_rv (w : Nat) (hw : w = 64 ∨ w = 32) (r n : U32) : phi (Rv.powers w r n) = phi r * x ^ n.toNat := by
  unfold Rv.powers
  by_cases h0 : n = 0#32
  · rw [if_pos h0, h0]; simp
  · rw [if_neg h0]
    simp only
    obtain ⟨h1, h2, _⟩ := clearLow_spec n h0
    have hm : ∀ (a : U32) (k : Nat), k < 32 → phi (Rv.multiply w a (crcPower.getD k 0#32)) = phi a * x ^ 2 ^ k := by
      intro a k hk
      rw [multiply_rv w hw, phi_crcPower k hk]
    have := shiftLoop2_spec (fun r pos => Rv.multiply w r (crcPower.getD pos 0#32)) phi hm 32 r (crcPower.getD (ctz n) 0#32) (clearLow n) (by omega) (by simp)
    rw [multiply_rv w hw, this, phi_crcPower _ h1]
    conv_rhs => rw [h2, pow_add]
    ring

theorem shift_rv (w : Nat) (hw : w = 64 ∨ w = 32) (c n : U32) : phi (Rv.shift w c n) = phi c * x ^ n.toNat := by
  unfold Rv.shift
  rcases hw with rfl | rfl
  · rw [if_pos rfl]
    simp only
    have hk : (31#32 ^^^ (n &&& 31#32)).toNat = 31 - n.toNat % 32 := by
      rw [BitVec.toNat_xor, and31]
      have : ∀ i : Fin 32, 31 ^^^ i.val = 31 - i.val := by decide
      exact this ⟨n.toNat % 32, Nat.mod_lt _ (by decide)⟩
    have hv : (c.setWidth 64 <<< (31 - n.toNat % 32)).toNat = 2 ^ (31 - n.toNat % 32) * c.toNat := by
      rw [BitVec.toNat_shiftLeft, BitVec.toNat_setWidth, Nat.mod_eq_of_lt (lt_trans c.isLt (by decide)), Nat.shiftLeft_eq, Nat.mul_comm, Nat.mod_eq_of_lt]
      calc 2 ^ (31 - n.toNat % 32) * c.toNat ≤ 2 ^ 31 * c.toNat := Nat.mul_le_mul_right _ (Nat.pow_le_pow_right (by omega) (by omega))
        _ < 2 ^ 31 * 2 ^ 32 := Nat.mul_lt_mul_of_pos_left c.isLt (by decide)
        _ < 2 ^ 64 := by decide
    have hlt : 2 ^ (31 - n.toNat % 32) * c.toNat < 2 ^ 63 := by
      calc 2 ^ (31 - n.toNat % 32) * c.toNat ≤ 2 ^ 31 * c.toNat := Nat.mul_le_mul_right _ (Nat.pow_le_pow_right (by omega) (by omega))
        _ < 2 ^ 31 * 2 ^ 32 := Nat.mul_lt_mul_of_pos_left c.isLt (by decide)
        _ = 2 ^ 63 := by decide
    rw [powers_rv 64 (Or.inl rfl), hk, phi_reduce_rv _ (by rw [hv]; exact hlt), hv, ev_shl]
    have hn := and_not31 n
    have h1 : x ^ 62 * y ^ (31 - n.toNat % 32) = x ^ 31 * x ^ (n.toNat % 32) := by
      rw [x_sub _ _ (by omega), ← pow_add]; congr 1; omega
    rw [phi_ev c]
    conv_rhs => rw [hn, pow_add]
    linear_combination ev y c.toNat * x ^ (n &&& ~~~31#32).toNat * h1
  · rw [if_neg (by decide)]
    exact powers_rv 32 (Or.inr rfl) c n

end Yenc.Crc
