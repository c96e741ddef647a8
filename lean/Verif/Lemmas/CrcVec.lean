import Verif.Lemmas.Clmul
import Verif.Lemmas.Vec
import Verif.Model.CrcX86
/-! Values of vector registers in the ring of CRC values. -/
namespace Yenc.Crc
open Vec

theorem le_congr {a b : Vec} {i i' n : Nat} (h : ∀ j, j < n → a (i + j) = b (i' + j)) : le a i n = le b i' n := by
  induction n generalizing i i' with
  | zero => rfl
  | succ n ih =>
    rw [le, le, show a i = b i' from h 0 (by omega), ih (i := i + 1) (i' := i' + 1)]
    intro j hj
    have := h (j + 1) (by omega)
    rw [show i + 1 + j = i + (j + 1) by omega, show i' + 1 + j = i' + (j + 1) by omega]
    exact this

theorem le_zero {a : Vec} {i n : Nat} (h : ∀ j, j < n → a (i + j) = 0#8) : le a i n = 0 := by
  induction n generalizing i with
  | zero => rfl
  | succ n ih =>
    rw [le, show a i = 0#8 from h 0 (by omega), ih]
    · simp
    · intro j hj
      rw [show i + 1 + j = i + (j + 1) by omega]
      exact h _ (by omega)

theorem le_lt (v : Vec) (i n : Nat) : le v i n < 2 ^ (8 * n) := by
  induction n generalizing i with
  | zero => simp [le]
  | succ n ih =>
    have h1 := ih (i + 1)
    have h2 := (v i).isLt
    rw [le, show 2 ^ (8 * (n + 1)) = 256 * 2 ^ (8 * n) by rw [show 8 * (n + 1) = 8 + 8 * n by omega, pow_add]; rfl]
    omega

theorem le_add (v : Vec) (i m n : Nat) : le v i (m + n) = 2 ^ (8 * m) * le v (i + m) n + le v i m := by
  induction m generalizing i with
  | zero => simp [le]
  | succ m ih =>
    rw [show m + 1 + n = (m + n) + 1 by omega, le, ih, le, show i + 1 + m = i + (m + 1) by omega, show 2 ^ (8 * (m + 1)) = 256 * 2 ^ (8 * m) by
      rw [show 8 * (m + 1) = 8 + 8 * m by omega, pow_add]; rfl]
    ring

theorem le_byteOf (p i n : Nat) : le (byteOf p) i n = p / 256 ^ i % 256 ^ n := by
  induction n generalizing i with
  | zero => simp [le, Nat.mod_one]
  | succ n ih =>
    rw [le, ih, byteOf, BitVec.toNat_ofNat, pow_succ 256 i, ← Nat.div_div_eq_div_mul, pow_succ' 256 n, Nat.mod_mul]

theorem ev_le_succ (t : R) (v : Vec) (i n : Nat) : ev t (le v i (n + 1)) = ev t (v i).toNat + t ^ 8 * ev t (le v (i + 1) n) := by
  have h : le v i (n + 1) = 2 ^ 8 * le v (i + 1) n + (v i).toNat := by rw [le]; omega
  rw [h, ev_add_pow t 8 _ _ (v i).isLt]

theorem ev_le_add (t : R) (v : Vec) (i m n : Nat) : ev t (le v i (m + n)) = ev t (le v i m) + t ^ (8 * m) * ev t (le v (i + m) n) := by
  rw [le_add, ev_add_pow t _ _ _ (le_lt v i m)]

theorem ev_le_xor (t : R) (a b : Vec) (i n : Nat) : ev t (le (xor a b) i n) = ev t (le a i n) + ev t (le b i n) := by
  induction n generalizing i with
  | zero => simp [le]
  | succ n ih =>
    rw [ev_le_succ, ev_le_succ, ev_le_succ, ih, Vec.xor, BitVec.toNat_xor, evx_xor]
    ring

theorem le_xor (a b : Vec) (i n : Nat) : le (xor a b) i n = le a i n ^^^ le b i n := by
  apply ev_X_inj
  rw [ev_xor two_poly]
  induction n generalizing i with
  | zero => simp [le]
  | succ n ih =>
    have h : ∀ v : Vec, le v i (n + 1) = 2 ^ 8 * le v (i + 1) n + (v i).toNat := by intro v; rw [le]; omega
    rw [h, h, h, ev_add_pow _ 8 _ _ (Vec.xor a b i).isLt, ev_add_pow _ 8 _ _ (a i).isLt, ev_add_pow _ 8 _ _ (b i).isLt, ih, Vec.xor, BitVec.toNat_xor, ev_xor two_poly]
    ring

/-- The product in the 128-bit half `h`. -/
theorem le_clmul (a b : Vec) (imm h : Nat) :
    le (clmul a b imm) (16 * h) 16 = clmulN (le a (16 * h + imm % 2 * 8) 8) (le b (16 * h + imm / 16 % 2 * 8) 8) 64 := by
  have e : le (clmul a b imm) (16 * h) 16 = le (byteOf (clmulN (le a (16 * h + imm % 2 * 8) 8) (le b (16 * h + imm / 16 % 2 * 8) 8) 64)) 0 16 := by
    apply le_congr
    intro j hj
    rw [clmul, show (16 * h + j) / 16 * 16 = 16 * h by omega, show (16 * h + j) % 16 = j by omega, Nat.zero_add]
  rw [e, le_byteOf, pow_zero, Nat.div_one, Nat.mod_eq_of_lt]
  have h1 := clmulN_lt (le a (16 * h + imm % 2 * 8) 8) (le b (16 * h + imm / 16 % 2 * 8) 8) 64 63 (le_lt _ _ _)
  exact lt_trans h1 (by decide)

theorem ev_clmul (t : R) (a b : Vec) (imm h : Nat) :
    ev t (le (clmul a b imm) (16 * h) 16) = ev t (le a (16 * h + imm % 2 * 8) 8) * ev t (le b (16 * h + imm / 16 % 2 * 8) 8) := by
  rw [le_clmul, evx_clmulN _ _ _ _ (le_lt _ _ _)]

/-- The low and the high quarter of a number. -/
theorem le_half (v : Vec) (i : Nat) : le v i 8 = le v i 16 % 2 ^ 64 ∧ le v (i + 8) 8 = le v i 16 / 2 ^ 64 := by
  have h := le_add v i 8 8
  have h1 := le_lt v i 8
  rw [show 8 + 8 = 16 from rfl, show 8 * 8 = 64 from rfl] at h
  rw [show 8 * 8 = 64 from rfl] at h1
  omega

/-! ### Ternary logic -/

theorem ternary_bit (a b c : Vec) (imm : BitVec 8) (j k : Nat) (hk : k < 8) : (ternary a b c imm j).getLsbD k =
    imm.getLsbD (4 * ((a j).getLsbD k).toNat + 2 * ((b j).getLsbD k).toNat + ((c j).getLsbD k).toNat) := by
  rw [ternary, getLsbD_ofBits]
  simp [hk]

theorem ternary_xor3 (a b c : Vec) : ternary a b c 0x96#8 = xor (xor a b) c := by
  funext j
  apply BitVec.eq_of_getLsbD_eq
  intro k hk
  rw [ternary_bit _ _ _ _ _ _ hk]
  simp only [Vec.xor, BitVec.getLsbD_xor]
  cases (a j).getLsbD k <;> cases (b j).getLsbD k <;> cases (c j).getLsbD k <;> rfl

theorem ternary_28 (a b c : Vec) : ternary a b c 0x28#8 = Vec.and (xor a b) c := by
  funext j
  apply BitVec.eq_of_getLsbD_eq
  intro k hk
  rw [ternary_bit _ _ _ _ _ _ hk]
  simp only [Vec.xor, Vec.and, BitVec.getLsbD_xor, BitVec.getLsbD_and]
  cases (a j).getLsbD k <;> cases (b j).getLsbD k <;> cases (c j).getLsbD k <;> rfl

theorem ternary_c3 (a b : Vec) : ternary a b b 0xc3#8 = xor (xor a b) (set1 0xff#8) := by
  funext j
  apply BitVec.eq_of_getLsbD_eq
  intro k hk
  rw [ternary_bit _ _ _ _ _ _ hk]
  have : (0xff#8).getLsbD k = true := by
    rcases k with _ | _ | _ | _ | _ | _ | _ | _ | k <;> first | rfl | omega
  simp only [Vec.xor, set1, BitVec.getLsbD_xor, this]
  cases (a j).getLsbD k <;> cases (b j).getLsbD k <;> rfl

theorem ternary_blend (a b : Vec) (m : Vec) (j : Nat) (p : Bool) (hm : m j = bm p) : ternary a b m 0xd8#8 j = if p then b j else a j := by
  apply BitVec.eq_of_getLsbD_eq
  intro k hk
  rw [ternary_bit _ _ _ _ _ _ hk, hm]
  have h1 : (0xff#8).getLsbD k = true := by
    rcases k with _ | _ | _ | _ | _ | _ | _ | _ | k <;> first | rfl | omega
  cases p
  · simp only [bm, Bool.false_eq_true, if_false, BitVec.getLsbD_zero]
    cases (a j).getLsbD k <;> cases (b j).getLsbD k <;> rfl
  · simp only [bm, if_true, h1]
    cases (a j).getLsbD k <;> cases (b j).getLsbD k <;> rfl

/-! ### The data -/

theorem mu_ev (l : List Byte) (v : Vec) (i : Nat) (h : ∀ j, j < l.length → v (i + j) = l.getD j 0#8) :
    mu l = x ^ (8 * l.length) * y * ev y (le v i l.length) := by
  induction l generalizing i with
  | nil => simp [mu, le]
  | cons b l ih =>
    have hb := h 0 (by simp)
    rw [Nat.add_zero, List.getD_cons_zero] at hb
    have hl := ih (i + 1) (by
      intro j hj
      have := h (j + 1) (by simpa using hj)
      rw [List.getD_cons_succ] at this
      rw [show i + 1 + j = i + (j + 1) by omega]
      exact this)
    rw [mu_cons, hl, List.length_cons, ev_le_succ, hb, beta_ev, show 8 * (l.length + 1) = 8 * l.length + 8 by omega, pow_add]
    have h1 := xy
    generalize ev y b.toNat = B
    generalize ev y (le v (i + 1) l.length) = L
    generalize x ^ (8 * l.length) = p
    have h8 : x ^ 8 * y = x ^ 7 := by
      have := x_sub 8 1 (by omega)
      rwa [pow_one] at this
    have h9 : x ^ 8 * y ^ 8 = 1 := xy_pow 8
    linear_combination (-p * B) * h8 - p * y * L * h9

/-- What the accumulators hold after `off` bytes. -/
noncomputable def goal (s : Src) (init : U32) (off : Nat) : R :=
  y ^ 511 * (phi (~~~init) * x ^ (8 * off) * y ^ 32 + mu (s.data.take off))

theorem goal_step (s : Src) (init : U32) (off n : Nat) (h : off + n ≤ s.data.length) (v : Vec) (i : Nat) (hv : ∀ j, j < n → v (i + j) = s.at (off + j)) :
    y ^ (8 * n) * goal s init (off + n) = goal s init off + y ^ 512 * ev y (le v i n) := by
  have hl : ((s.data.drop off).take n).length = n := by rw [List.length_take, List.length_drop]; omega
  have hm := mu_ev ((s.data.drop off).take n) v i (by
    rw [hl]
    intro j hj
    rw [hv j hj, Src.at, List.getD_eq_getElem?_getD, List.getD_eq_getElem?_getD, List.getElem?_take_of_lt hj, List.getElem?_drop]
    rw [List.getElem?_eq_getElem (by omega)]; rfl)
  rw [hl] at hm
  unfold goal
  rw [List.take_add, mu_append, hm, hl, show 8 * (off + n) = 8 * off + 8 * n by omega, pow_add]
  have h1 := xy_pow (8 * n)
  generalize ev y (le v i n) = L
  generalize x ^ (8 * n) = p at *
  generalize y ^ (8 * n) = q at *
  generalize x ^ (8 * off) = r at *
  linear_combination (y ^ 511 * (phi (~~~init) * r * y ^ 32 + mu (List.take off s.data)) + y ^ 512 * L) * h1

end Yenc.Crc
