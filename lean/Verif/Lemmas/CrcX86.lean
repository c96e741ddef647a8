import Verif.Lemmas.CrcVec
import Verif.Lemmas.CrcApi
/-! The PCLMULQDQ code computes CRC-32. -/
namespace Yenc.Crc
open Vec Yenc.Spec

/-! ### Instructions -/

theorem le_cvtsi32 (v : U32) (n : Nat) : le (cvtsi32 v) 0 (4 + n) = v.toNat := by
  rw [le_add, le_zero (i := 0 + 4)]
  · rw [Nat.mul_zero, Nat.zero_add, le_congr (b := byteOf v.toNat) (i' := 0), le_byteOf, pow_zero, Nat.div_one, Nat.mod_eq_of_lt]
    · exact v.isLt
    · intro j hj; simp only [cvtsi32, Nat.zero_add, if_pos hj]
  · intro j _
    simp only [cvtsi32]
    rw [if_neg (by omega : ¬ 0 + 4 + j < 4)]

theorem le_slliSi (v : Vec) (k n : Nat) : le (slliSi v k) 0 (k + n) = 2 ^ (8 * k) * le v 0 n := by
  rw [le_add, le_zero (i := 0) (n := k), Nat.add_zero, Nat.zero_add]
  · congr 1
    apply le_congr
    intro j _
    simp only [slliSi]
    rw [if_neg (by omega : ¬ k + j < k)]
    congr 1; omega
  · intro j hj
    simp only [slliSi]
    rw [if_pos (by omega : 0 + j < k)]

theorem le_srliSi (v : Vec) (k n : Nat) (h : n + k = 16) : le (srliSi v k) 0 16 = le v k n := by
  rw [show (16 : Nat) = n + k from h.symm, le_add, le_zero (i := 0 + n) (n := k), Nat.mul_zero, Nat.zero_add]
  · apply le_congr
    intro j hj
    simp only [srliSi]
    rw [if_pos (by omega : 0 + j + k < 16)]
    congr 1; omega
  · intro j hj
    simp only [srliSi]
    rw [if_neg (by omega : ¬ 0 + n + j + k < 16)]

theorem le_add64 (a b : Vec) (k : Nat) : le (add64 a b) (8 * k) 8 = (le a (8 * k) 8 + le b (8 * k) 8) % 2 ^ 64 := by
  rw [le_congr (b := byteOf (le a (8 * k) 8 + le b (8 * k) 8)) (i' := 0), le_byteOf, pow_zero, Nat.div_one]
  · rfl
  · intro j hj
    rw [add64, show (8 * k + j) / 8 * 8 = 8 * k by omega, show (8 * k + j) % 8 = j by omega, Nat.zero_add]

theorem le_mid (v : Vec) : le v 8 4 = le v 0 16 / 2 ^ 64 % 2 ^ 32 := by
  have h := (le_half v 0).2
  have h2 := le_add v 8 4 4
  have h1 := le_lt v 8 4
  rw [Nat.zero_add] at h
  rw [show 4 + 4 = 8 from rfl, show 8 * 4 = 32 from rfl] at h2
  rw [show 8 * 4 = 32 from rfl] at h1
  omega

theorem toNat_extract32 (v : Vec) (k : Nat) : (extract32 v k).toNat = le v (4 * k) 4 := by
  rw [extract32, BitVec.toNat_ofNat, Nat.mod_eq_of_lt (le_lt v (4 * k) 4)]

theorem xor3_eq (avx : Bool) (a b c : Vec) : X86.xor3 avx a b c = xor (xor a b) c := by
  rw [X86.xor3]
  cases avx
  · rfl
  · rw [if_pos rfl, ternary_xor3]

theorem ev_xor3 (avx : Bool) (a b c : Vec) (i n : Nat) :
    ev y (le (X86.xor3 avx a b c) i n) = ev y (le a i n) + ev y (le b i n) + ev y (le c i n) := by
  rw [xor3_eq, ev_le_xor, ev_le_xor]

/-! ### Constants -/

theorem k_x512 : ev y 0x154442bd4 = x ^ 512 := by
  rw [ev_const 0x154442bd4 544 (by decide) (by decide) (by decide) (by decide +kernel), mul_comm, x_sub 544 32 (by omega)]
theorem k_x448 : ev y 0x1c6e41596 = x ^ 448 := by
  rw [ev_const 0x1c6e41596 480 (by decide) (by decide) (by decide) (by decide +kernel), mul_comm, x_sub 480 32 (by omega)]
theorem k_x128 : ev y 0x1751997d0 = x ^ 128 := by
  rw [ev_const 0x1751997d0 160 (by decide) (by decide) (by decide) (by decide +kernel), mul_comm, x_sub 160 32 (by omega)]
theorem k_x64 : ev y 0xccaa009e = x ^ 64 := by
  rw [ev_const 0xccaa009e 96 (by decide) (by decide) (by decide) (by decide +kernel), mul_comm, x_sub 96 32 (by omega)]
theorem k_x32 : ev y 0x163cd6124 = x ^ 32 := by
  rw [ev_const 0x163cd6124 64 (by decide) (by decide) (by decide) (by decide +kernel), mul_comm, x_sub 64 32 (by omega)]
theorem k_y512 : ev y 0xdfded7ec = y ^ 512 := by
  rw [ev_const 0xdfded7ec (2 ^ 32 - 1 - 480) (by decide) (by decide) (by decide) (by decide +kernel)]
  have h : x ^ (2 ^ 32 - 1 - 480) * x ^ 480 = 1 := by
    rw [← pow_add, show 2 ^ 32 - 1 - 480 + 480 = 2 ^ 32 - 1 from by decide, x_pow_period]
  have h2 := xy_pow 480
  have h3 : x ^ (2 ^ 32 - 1 - 480) = y ^ 480 := by
    generalize x ^ (2 ^ 32 - 1 - 480) = z at *
    linear_combination y ^ 480 * h - z * h2
  rw [h3, ← pow_add]

/-- Folding a register over 512 bits. -/
theorem ev_foldMerge (avx : Bool) (src data : Vec) :
    ev y (le (X86.foldMerge avx src data) 0 16) = x ^ 512 * ev y (le src 0 16) + ev y (le data 0 16) := by
  have h1 := ev_clmul y src X86.fold4 0x01 0
  have h2 := ev_clmul y src X86.fold4 0x10 0
  rw [show 16 * 0 + 0x01 / 16 % 2 * 8 = 0 from rfl, show 16 * 0 + 0x01 % 2 * 8 = 8 from rfl, show le X86.fold4 0 8 = 0x1c6e41596 by decide +kernel, k_x448] at h1
  rw [show 16 * 0 + 0x10 / 16 % 2 * 8 = 8 from rfl, show 16 * 0 + 0x10 % 2 * 8 = 0 from rfl, show le X86.fold4 8 8 = 0x154442bd4 by decide +kernel, k_x512] at h2
  have h3 := ev_le_add y src 0 8 8
  have h4 : x ^ 512 * y ^ 64 = x ^ 448 := x_sub 512 64 (by omega)
  rw [show 8 + 8 = 16 from rfl, Nat.zero_add, show 8 * 8 = 64 from rfl] at h3
  rw [X86.foldMerge, ev_xor3, h1, h2, h3]
  linear_combination -ev y (le src 8 8) * h4

/-! ### Folding part of a block -/

/-- The value of the four accumulators. -/
noncomputable def X86.Regs.val (r : X86.Regs) : R :=
  ev y (le r.c0 0 16) + y ^ 128 * ev y (le r.c1 0 16) + y ^ 256 * ev y (le r.c2 0 16) + y ^ 384 * ev y (le r.c3 0 16)

theorem shf_table : ∀ len : Fin 16, ∀ j : Fin 16, 1 ≤ len.val →
    (of32 (X86.shfTable.drop (4 * (len.val - 1))) j.val).toNat = if 16 ≤ j.val + len.val then j.val + len.val - 16 else 128 + (j.val + len.val) := by
  decide +kernel

theorem toNat_xor80 : ∀ b : Byte, (b ^^^ 0x80#8).toNat = if b.toNat < 128 then b.toNat + 128 else b.toNat - 128 := by decide +kernel

theorem pshufb_sel (v m : Vec) (j n : Nat) (hj : j < 16) (h : (m j).toNat = n) : pshufb v m j = if 128 ≤ n then 0#8 else v (n % 16) := by
  simp only [pshufb]
  rw [show j / 16 * 16 = 0 by omega, Nat.zero_add, BitVec.msb_eq_decide, h]
  simp

theorem pshufb_shl (v : Vec) (len j : Nat) (h1 : 1 ≤ len) (h2 : len < 16) (hj : j < 16) :
    pshufb v (of32 (X86.shfTable.drop (4 * (len - 1)))) j = if 16 ≤ j + len then v (j + len - 16) else 0#8 := by
  rw [pshufb_sel _ _ _ _ hj (shf_table ⟨len, h2⟩ ⟨j, hj⟩ h1)]
  by_cases hc : 16 ≤ j + len
  · rw [if_pos hc, if_pos hc, if_neg (by omega), Nat.mod_eq_of_lt (by omega)]
  · rw [if_neg hc, if_neg hc, if_pos (by omega)]

theorem pshufb_shr (v : Vec) (len j : Nat) (h1 : 1 ≤ len) (h2 : len < 16) (hj : j < 16) :
    pshufb v (xor (of32 (X86.shfTable.drop (4 * (len - 1)))) (set1 0x80#8)) j = if j + len < 16 then v (j + len) else 0#8 := by
  have h := shf_table ⟨len, h2⟩ ⟨j, hj⟩ h1
  simp only at h
  have e : (xor (of32 (X86.shfTable.drop (4 * (len - 1)))) (set1 0x80#8) j).toNat = if 16 ≤ j + len then j + len + 112 else j + len := by
    rw [Vec.xor, set1, toNat_xor80]
    generalize (of32 (X86.shfTable.drop (4 * (len - 1))) j).toNat = n at h
    subst h
    by_cases hc : 16 ≤ j + len
    · rw [if_pos hc, if_pos hc, if_pos (by omega)]; omega
    · rw [if_neg hc, if_neg hc, if_neg (by omega)]; omega
  rw [pshufb_sel _ _ _ _ hj e]
  by_cases hc : 16 ≤ j + len
  · rw [if_pos hc, if_neg (by omega : ¬ j + len < 16), if_pos (by omega)]
  · rw [if_neg hc, if_pos (by omega : j + len < 16), if_neg (by omega), Nat.mod_eq_of_lt (by omega)]

/-- The bytes of `a` from `len` on, then the first `len` bytes of `b`. -/
theorem ev_shifted (a b c : Vec) (len : Nat) (h1 : 1 ≤ len) (h2 : len < 16)
    (hc : ∀ j, j < 16 → c j = if j + len < 16 then a (j + len) else b (j + len - 16)) :
    ev y (le c 0 16) = ev y (le a len (16 - len)) + y ^ (8 * (16 - len)) * ev y (le b 0 len) := by
  have e := ev_le_add y c 0 (16 - len) len
  rw [Nat.sub_add_cancel (by omega)] at e
  rw [e, le_congr (a := c) (b := a) (i := 0) (i' := len), le_congr (a := c) (b := b) (i := 0 + (16 - len)) (i' := 0)]
  · intro j hj
    rw [hc _ (by omega), if_neg (by omega)]
    congr 1; omega
  · intro j hj
    rw [hc _ (by omega), if_pos (by omega)]
    congr 1; omega

theorem partialFold_val (avx : Bool) (len : Nat) (r : X86.Regs) (part : Vec) (h1 : 1 ≤ len) (h2 : len < 16) :
    y ^ (8 * len) * (X86.partialFold avx len r part).val = r.val + y ^ 512 * ev y (le part 0 len) := by
  have hor : ∀ a b : Vec, ∀ j, j < 16 → Vec.or (pshufb a (xor (of32 (X86.shfTable.drop (4 * (len - 1)))) (set1 0x80#8)))
      (pshufb b (of32 (X86.shfTable.drop (4 * (len - 1))))) j = if j + len < 16 then a (j + len) else b (j + len - 16) := by
    intro a b j hj
    simp only [Vec.or]
    rw [pshufb_shl _ _ _ h1 h2 hj, pshufb_shr _ _ _ h1 h2 hj]
    by_cases hc : j + len < 16
    · rw [if_pos hc, if_pos hc, if_neg (by omega)]; simp
    · rw [if_neg hc, if_neg hc, if_pos (by omega)]; simp
  have e0 := ev_shifted r.c0 r.c1 _ len h1 h2 (hor r.c0 r.c1)
  have e1 := ev_shifted r.c1 r.c2 _ len h1 h2 (hor r.c1 r.c2)
  have e2 := ev_shifted r.c2 r.c3 _ len h1 h2 (hor r.c2 r.c3)
  have e3 := ev_shifted r.c3 part _ len h1 h2 (hor r.c3 part)
  have ea := ev_shifted zero r.c0 (pshufb r.c0 (of32 (X86.shfTable.drop (4 * (len - 1))))) len h1 h2 (by
    intro j hj
    rw [pshufb_shl _ _ _ h1 h2 hj]
    by_cases hc : j + len < 16
    · rw [if_pos hc, if_neg (by omega)]; rfl
    · rw [if_neg hc, if_pos (by omega)])
  rw [le_zero (a := zero) (fun _ _ => rfl), ev_zero, zero_add] at ea
  have s : ∀ v : Vec, ev y (le v 0 16) = ev y (le v 0 len) + y ^ (8 * len) * ev y (le v len (16 - len)) := by
    intro v
    have := ev_le_add y v 0 len (16 - len)
    rwa [Nat.add_sub_cancel' (by omega), Nat.zero_add] at this
  unfold X86.Regs.val X86.partialFold
  simp only
  rw [ev_foldMerge, e0, e1, e2, e3, ea, s r.c0, s r.c1, s r.c2, s r.c3]
  have hab : y ^ (8 * len) * y ^ (8 * (16 - len)) = y ^ 128 := by rw [← pow_add]; congr 1; omega
  have h256 : y ^ 256 = y ^ 128 * y ^ 128 := by rw [← pow_add]
  have h384 : y ^ 384 = y ^ 128 * y ^ 128 * y ^ 128 := by rw [← pow_add, ← pow_add]
  have h512 : y ^ 512 = y ^ 128 * y ^ 128 * y ^ 128 * y ^ 128 := by rw [← pow_add, ← pow_add, ← pow_add]
  have hx : x ^ 512 * y ^ 512 = 1 := xy_pow 512
  rw [h512] at hx
  rw [h256, h384, h512]
  generalize y ^ 128 = q at *
  generalize y ^ (8 * len) = a at *
  generalize y ^ (8 * (16 - len)) = b at *
  generalize x ^ 512 = X at *
  generalize ev y (le r.c0 0 len) = A0 at *
  generalize ev y (le r.c1 0 len) = A1 at *
  generalize ev y (le r.c2 0 len) = A2 at *
  generalize ev y (le r.c3 0 len) = A3 at *
  generalize ev y (le part 0 len) = P at *
  linear_combination (A1 + q * A2 + q * q * A3 + q * q * q * P + q * q * q * X * A0) * hab + A0 * hx

/-! ### Whole blocks -/

theorem y_cancel (n : Nat) {a b : R} (h : y ^ n * a = y ^ n * b) : a = b := by
  have h1 := xy_pow n
  linear_combination x ^ n * h + (b - a) * h1

theorem Src.load_eq (s : Src) (n off : Nat) (h1 : (s.addr + off) % n = 0) (h2 : off < s.data.length) : s.load n off = some (fun j => s.at (off + j)) := by
  rw [Src.load, if_pos ⟨h1, h2⟩]

theorem Src.loadu_eq (s : Src) (n off : Nat) (h : off + n ≤ s.data.length) : s.loadu n off = some (fun j => s.at (off + j)) := by
  rw [Src.loadu, if_pos h]

/-- The block of 16 bytes at `off`. -/
theorem goal_block (s : Src) (init : U32) (off : Nat) (h : off + 16 ≤ s.data.length) :
    y ^ 128 * goal s init (off + 16) = goal s init off + y ^ 512 * ev y (le (fun j => s.at (off + j)) 0 16) :=
  goal_step s init off 16 h _ 0 (fun j _ => by rw [Nat.zero_add])

theorem q_pows : y ^ 256 = y ^ 128 * y ^ 128 ∧ y ^ 384 = y ^ 128 * y ^ 128 * y ^ 128 ∧ y ^ 512 = y ^ 128 * y ^ 128 * y ^ 128 * y ^ 128 := by
  refine ⟨?_, ?_, ?_⟩ <;> simp only [← pow_add]

theorem loop64_ok (avx : Bool) (s : Src) (init : U32) (off len : Nat) (r : X86.Regs) (ha : (s.addr + off) % 16 = 0) (hl : off + len = s.data.length)
    (hr : r.val = goal s init off) :
    ∃ r' off' len', X86.loop64 avx s off len r = some (r', off', len') ∧ (s.addr + off') % 16 = 0 ∧ off' + len' = s.data.length ∧ len' < 64 ∧
      r'.val = goal s init off' := by
  induction len using Nat.strongRecOn generalizing off r with
  | _ len ih =>
    rw [X86.loop64.eq_def]
    by_cases h64 : len ≥ 64
    · rw [if_pos h64, s.load_eq 16 off ha (by omega), s.load_eq 16 (off + 16) (by omega) (by omega), s.load_eq 16 (off + 32) (by omega) (by omega),
        s.load_eq 16 (off + 48) (by omega) (by omega)]
      simp only
      apply ih (len - 64) (by omega) (off + 64) _ (by omega) (by omega)
      unfold X86.Regs.val
      simp only
      rw [ev_foldMerge, ev_foldMerge, ev_foldMerge, ev_foldMerge]
      have g0 := goal_block s init off (by omega)
      have g1 := goal_block s init (off + 16) (by omega)
      have g2 := goal_block s init (off + 32) (by omega)
      have g3 := goal_block s init (off + 48) (by omega)
      rw [show off + 16 + 16 = off + 32 from rfl] at g1
      rw [show off + 32 + 16 = off + 48 from rfl] at g2
      rw [show off + 48 + 16 = off + 64 from rfl] at g3
      have hx : x ^ 512 * y ^ 512 = 1 := xy_pow 512
      apply y_cancel 512
      unfold X86.Regs.val at hr
      obtain ⟨e1, e2, e3⟩ := q_pows
      rw [e3] at g0 g1 g2 g3 hx ⊢
      rw [e1, e2] at hr ⊢
      generalize y ^ 128 = q at *
      linear_combination (ev y (le r.c0 0 16) + q * ev y (le r.c1 0 16) + q * q * ev y (le r.c2 0 16) + q * q * q * ev y (le r.c3 0 16)) * hx + hr - g0 - q * g1 - q * q * g2 - q * q * q * g3
    · rw [if_neg h64]
      exact ⟨r, off, len, rfl, ha, hl, by omega, hr⟩

theorem blocks16_ok (avx : Bool) (s : Src) (init : U32) (off len : Nat) (r : X86.Regs) (ha : (s.addr + off) % 16 = 0) (hl : off + len = s.data.length)
    (h64 : len < 64) (hr : r.val = goal s init off) :
    ∃ r' off' len', X86.blocks16 avx s off len r = some (r', off', len') ∧ (s.addr + off') % 16 = 0 ∧ off' + len' = s.data.length ∧ len' < 16 ∧
      r'.val = goal s init off' := by
  have hx : x ^ 512 * y ^ 512 = 1 := xy_pow 512
  obtain ⟨e1, e2, e3⟩ := q_pows
  rw [X86.blocks16]
  by_cases h48 : len ≥ 48
  · rw [if_pos h48, s.load_eq 16 off ha (by omega), s.load_eq 16 (off + 16) (by omega) (by omega), s.load_eq 16 (off + 32) (by omega) (by omega)]
    refine ⟨_, _, _, rfl, by omega, by omega, by omega, ?_⟩
    unfold X86.Regs.val at hr ⊢
    simp only
    rw [ev_foldMerge, ev_foldMerge, ev_foldMerge]
    have g0 := goal_block s init off (by omega)
    have g1 := goal_block s init (off + 16) (by omega)
    have g2 := goal_block s init (off + 32) (by omega)
    rw [show off + 16 + 16 = off + 32 from rfl] at g1
    rw [show off + 32 + 16 = off + 48 from rfl] at g2
    apply y_cancel 384
    rw [e3] at g0 g1 g2 hx
    rw [e1, e2] at hr ⊢
    generalize y ^ 128 = q at *
    linear_combination (ev y (le r.c0 0 16) + q * ev y (le r.c1 0 16) + q * q * ev y (le r.c2 0 16)) * hx + hr - g0 - q * g1 - q * q * g2
  · rw [if_neg h48]
    by_cases h32 : len ≥ 32
    · rw [if_pos h32, s.load_eq 16 off ha (by omega), s.load_eq 16 (off + 16) (by omega) (by omega)]
      refine ⟨_, _, _, rfl, by omega, by omega, by omega, ?_⟩
      unfold X86.Regs.val at hr ⊢
      simp only
      rw [ev_foldMerge, ev_foldMerge]
      have g0 := goal_block s init off (by omega)
      have g1 := goal_block s init (off + 16) (by omega)
      rw [show off + 16 + 16 = off + 32 from rfl] at g1
      apply y_cancel 256
      rw [e3] at g0 g1 hx
      rw [e1, e2] at hr ⊢
      generalize y ^ 128 = q at *
      linear_combination (ev y (le r.c0 0 16) + q * ev y (le r.c1 0 16)) * hx + hr - g0 - q * g1
    · rw [if_neg h32]
      by_cases h16 : len ≥ 16
      · rw [if_pos h16, s.load_eq 16 off ha (by omega)]
        refine ⟨_, _, _, rfl, by omega, by omega, by omega, ?_⟩
        unfold X86.Regs.val at hr ⊢
        simp only
        rw [ev_foldMerge]
        have g0 := goal_block s init off (by omega)
        apply y_cancel 128
        rw [e3] at g0 hx
        rw [e1, e2] at hr ⊢
        generalize y ^ 128 = q at *
        linear_combination (ev y (le r.c0 0 16)) * hx + hr - g0
      · rw [if_neg h16]
        exact ⟨r, off, len, rfl, ha, hl, by omega, hr⟩

theorem partialFold_ok (avx : Bool) (s : Src) (init : U32) (off n : Nat) (r : X86.Regs) (part : Vec) (h1 : 1 ≤ n) (h2 : n < 16) (hl : off + n ≤ s.data.length)
    (hp : ∀ j, j < n → part j = s.at (off + j)) (hr : r.val = goal s init off) :
    (X86.partialFold avx n r part).val = goal s init (off + n) := by
  apply y_cancel (8 * n)
  rw [partialFold_val _ _ _ _ h1 h2, goal_step s init off n hl part 0 (fun j hj => by rw [Nat.zero_add]; exact hp j hj), hr]

/-! ### Barrett reduction -/

theorem barrett64 (z : Nat) : y ^ 32 * ev y (clmulN (clmulN (z % 2 ^ 32) 0xf7011641 64 % 2 ^ 32) 0x1db710640 64 / 2 ^ 32 ^^^ z / 2 ^ 32) = ev y z := by
  rw [evx_xor, mul_add, (barrett _ (Nat.mod_lt _ (Nat.two_pow_pos 32))).2]
  exact (ev_div_mod y 32 z).symm

theorem le_lo (v : Vec) : le v 0 8 = le v 0 16 % 2 ^ 64 := (le_half v 0).1

theorem k7_lo : le X86.k7 0 8 = 0xf7011641 := by decide +kernel
theorem k7_hi : le X86.k7 8 8 = 0x1db710640 := by decide +kernel

theorem le_clmul0 (a b : Vec) (imm : Nat) : le (clmul a b imm) 0 16 = clmulN (le a (imm % 2 * 8) 8) (le b (imm / 16 % 2 * 8) 8) 64 := by
  have := le_clmul a b imm 0
  rwa [Nat.mul_zero, Nat.zero_add, Nat.zero_add] at this

/-- The two multiplications of the Barrett reduction. -/
theorem le_reduce_gen (k v : Vec) (m p z : Nat) (h1 : le k 0 8 = m) (h2 : le k 8 8 = p) (hz : le v 0 16 = 2 ^ 32 * z) :
    le (clmul (clmul v k 0) k 0x10) 8 4 = clmulN (clmulN (z % 2 ^ 32) m 64 % 2 ^ 32) p 64 / 2 ^ 32 % 2 ^ 32 := by
  have e0 : le v 0 8 = 2 ^ 32 * (z % 2 ^ 32) := by rw [le_lo, hz]; omega
  have e1 : le (clmul v k 0) 0 16 = 2 ^ 32 * clmulN (z % 2 ^ 32) m 64 := by
    rw [le_clmul0, show 0 % 2 * 8 = 0 from rfl, h1, e0, clmulN_shl]
  have e2 : le (clmul v k 0) 0 8 = 2 ^ 32 * (clmulN (z % 2 ^ 32) m 64 % 2 ^ 32) := by rw [le_lo, e1]; omega
  have e3 : le (clmul (clmul v k 0) k 0x10) 0 16 = 2 ^ 32 * clmulN (clmulN (z % 2 ^ 32) m 64 % 2 ^ 32) p 64 := by
    rw [le_clmul0, show 0x10 % 2 * 8 = 0 from rfl, show 0x10 / 16 % 2 * 8 = 8 from rfl, h2, e2, clmulN_shl]
  rw [le_mid, e3]
  omega

theorem le_reduce (v : Vec) (z : Nat) (hz : le v 0 16 = 2 ^ 32 * z) :
    le (clmul (clmul v X86.k7 0) X86.k7 0x10) 8 4 = clmulN (clmulN (z % 2 ^ 32) 0xf7011641 64 % 2 ^ 32) 0x1db710640 64 / 2 ^ 32 := by
  rw [le_reduce_gen X86.k7 v _ _ z k7_lo k7_hi hz, Nat.mod_eq_of_lt (barrett _ (Nat.mod_lt _ (Nat.two_pow_pos 32))).1]

theorem le_mid_shl (v : Vec) (z : Nat) (h : z < 2 ^ 64) (hz : le v 0 16 = 2 ^ 32 * z) : le v 8 4 = z / 2 ^ 32 := by
  rw [le_mid, hz]; omega

theorem multiply_clmul (a b : U32) : phi (X86.multiply a b) = phi a * phi b := by
  have hp : clmulN a.toNat b.toNat 64 < 2 ^ 63 := by
    rw [clmulN_mod _ _ 32 64 b.isLt (by omega)]
    exact clmulN_lt _ _ 32 31 a.isLt
  have hv : ev y (clmulN a.toNat b.toNat 64) = ev y a.toNat * ev y b.toNat := evx_clmulN _ _ _ _ (lt_trans b.isLt (by decide))
  have e1 : le (clmul (cvtsi32 a) (cvtsi32 b) 0) 0 16 = clmulN a.toNat b.toNat 64 := by
    rw [le_clmul0, show 0 % 2 * 8 = 0 from rfl, le_cvtsi32 a 4, le_cvtsi32 b 4]
  unfold X86.multiply
  simp only
  generalize clmul (cvtsi32 a) (cvtsi32 b) 0 = prod at *
  generalize clmulN a.toNat b.toNat 64 = P at *
  have h8 := le_half prod 0
  rw [Nat.zero_add, e1] at h8
  have e2 : le (add64 prod prod) 0 8 = 2 * P := by
    have := le_add64 prod prod 0
    rw [Nat.mul_zero, h8.1] at this
    omega
  have e3 : le (add64 prod prod) 8 8 = 0 := by
    have := le_add64 prod prod 1
    rw [Nat.mul_one, h8.2] at this
    omega
  have e4 : le (add64 prod prod) 8 4 = 0 := by
    have := le_add (add64 prod prod) 8 4 4
    rw [show 4 + 4 = 8 from rfl, e3] at this
    omega
  have e5 : le (slliSi (add64 prod prod) 4) 0 16 = 2 ^ 32 * (2 * P) := by
    rw [le_slliSi _ 4 12, le_add _ 0 8 4, Nat.zero_add, e4, e2, Nat.mul_zero, Nat.zero_add]
  generalize slliSi (add64 prod prod) 4 = v at *
  have hr : (extract32 (X86.reduce v) 2).toNat = clmulN (clmulN (2 * P % 2 ^ 32) 0xf7011641 64 % 2 ^ 32) 0x1db710640 64 / 2 ^ 32 ^^^ 2 * P / 2 ^ 32 := by
    rw [toNat_extract32, X86.reduce, le_xor, le_reduce v _ e5, le_mid_shl v _ (by omega) e5]
  rw [phi_ev, hr, phi_ev, phi_ev]
  have hb := barrett64 (2 * P)
  have hs := ev_shl y 1 P
  rw [pow_one, pow_one, hv] at hs
  rw [hs] at hb
  generalize ev y (clmulN (clmulN (2 * P % 2 ^ 32) 0xf7011641 64 % 2 ^ 32) 0x1db710640 64 / 2 ^ 32 ^^^ 2 * P / 2 ^ 32) = u at *
  have h1 := xy_pow 32
  have h2 := xy
  linear_combination x ^ 63 * hb - x ^ 31 * u * h1 + x ^ 62 * ev y a.toNat * ev y b.toNat * h2

/-! ### From the accumulators to the CRC -/

theorem fold_k1 (avx : Bool) (a b : Vec) :
    ev y (le (X86.xor3 avx b (clmul a X86.k1 0x10) (clmul a X86.k1 0x01)) 0 16) = ev y (le b 0 16) + x ^ 128 * ev y (le a 0 16) := by
  have h1 := ev_clmul y a X86.k1 0x10 0
  have h2 := ev_clmul y a X86.k1 0x01 0
  rw [show 16 * 0 + 0x10 / 16 % 2 * 8 = 8 from rfl, show 16 * 0 + 0x10 % 2 * 8 = 0 from rfl, show le X86.k1 8 8 = 0x1751997d0 by decide +kernel, k_x128] at h1
  rw [show 16 * 0 + 0x01 / 16 % 2 * 8 = 0 from rfl, show 16 * 0 + 0x01 % 2 * 8 = 8 from rfl, show le X86.k1 0 8 = 0xccaa009e by decide +kernel, k_x64] at h2
  have h3 := ev_le_add y a 0 8 8
  have h4 : x ^ 128 * y ^ 64 = x ^ 64 := x_sub 128 64 (by omega)
  rw [show 8 + 8 = 16 from rfl, Nat.zero_add, show 8 * 8 = 64 from rfl] at h3
  rw [ev_xor3, h1, h2, h3]
  linear_combination -ev y (le a 8 8) * h4

theorem crcMask_lane : ∀ j : Fin 16, X86.crcMask j.val = if j.val < 4 then 0#8 else 0xff#8 := by decide +kernel

theorem le_crcMask (v : Vec) : le (Vec.and v X86.crcMask) 0 16 = 2 ^ 32 * (le v 0 16 / 2 ^ 32) := by
  have hl := le_lt v 0 4
  have e := le_add v 0 4 12
  rw [show 4 + 12 = 16 from rfl, show 8 * 4 = 32 from rfl] at e
  have e2 : le v 0 16 / 2 ^ 32 = le v (0 + 4) 12 := by
    rw [e, Nat.mul_add_div (by decide), Nat.div_eq_of_lt hl, Nat.add_zero]
  have e3 : le (Vec.and v X86.crcMask) (0 + 4) 12 = le v (0 + 4) 12 := by
    apply le_congr
    intro j hj
    rw [Vec.and, crcMask_lane ⟨0 + 4 + j, by omega⟩, if_neg (by simp), show (0xff#8) = BitVec.allOnes 8 from rfl, BitVec.and_allOnes]
  rw [e2, show (16 : Nat) = 4 + 12 from rfl, le_add, le_zero (i := 0) (n := 4), Nat.add_zero, e3]
  · intro j hj
    rw [Vec.and, crcMask_lane ⟨0 + j, by omega⟩, if_pos (by simpa using hj), BitVec.and_zero]

theorem le_ones (m : Vec) (h : ∀ j, 8 ≤ j → j < 12 → m j = 0xff#8) : le m 8 4 = 0xffffffff := by
  rw [le_congr (b := set1 0xff#8) (i' := 0) fun j hj => h _ (by omega) (by omega)]
  decide +kernel

theorem shl_xor (k a b : Nat) : 2 ^ k * (a ^^^ b) = 2 ^ k * a ^^^ 2 ^ k * b := by
  rw [Nat.mul_comm, Nat.mul_comm _ a, Nat.mul_comm _ b, ← Nat.shiftLeft_eq, ← Nat.shiftLeft_eq, ← Nat.shiftLeft_eq, Nat.shiftLeft_xor_distrib]

theorem shl_xor_div (k a b : Nat) : (2 ^ k * a ^^^ b) / 2 ^ k = a ^^^ b / 2 ^ k := by
  rw [← Nat.shiftRight_eq_div_pow, Nat.shiftRight_xor_distrib, Nat.shiftRight_eq_div_pow, Nat.shiftRight_eq_div_pow,
    Nat.mul_div_cancel_left _ (Nat.two_pow_pos k)]

theorem done_val (avx : Bool) (r : X86.Regs) : phi (~~~(X86.done avx r)) = x ^ 543 * r.val := by
  unfold X86.done
  simp only
  have h1 := fold_k1 avx r.c0 r.c1
  have h2 := fold_k1 avx (X86.xor3 avx r.c1 (clmul r.c0 X86.k1 0x10) (clmul r.c0 X86.k1 0x01)) r.c2
  generalize X86.xor3 avx r.c1 (clmul r.c0 X86.k1 0x10) (clmul r.c0 X86.k1 0x01) = d1 at *
  have h3 := fold_k1 avx (X86.xor3 avx r.c2 (clmul d1 X86.k1 0x10) (clmul d1 X86.k1 0x01)) r.c3
  generalize X86.xor3 avx r.c2 (clmul d1 X86.k1 0x10) (clmul d1 X86.k1 0x01) = d2 at *
  generalize X86.xor3 avx r.c3 (clmul d2 X86.k1 0x10) (clmul d2 X86.k1 0x01) = c at *
  have hc : ev y (le c 0 16) = x ^ 384 * r.val := by
    rw [h3, h2, h1, X86.Regs.val]
    have a1 : x ^ 384 * y ^ 128 = x ^ 256 := x_sub 384 128 (by omega)
    have a2 : x ^ 384 * y ^ 256 = x ^ 128 := x_sub 384 256 (by omega)
    have a3 := xy_pow 384
    have b1 : x ^ 256 = x ^ 128 * x ^ 128 := by rw [← pow_add]
    have b2 : x ^ 384 = x ^ 128 * x ^ 128 * x ^ 128 := by rw [← pow_add, ← pow_add]
    rw [b2] at a1 a2 a3 ⊢
    rw [b1] at a1
    linear_combination -(ev y (le r.c1 0 16) * a1 + ev y (le r.c2 0 16) * a2 + ev y (le r.c3 0 16) * a3)
  -- 128 bits to 96
  have hT : le (xor (clmul c X86.k5 0) (srliSi c 8)) 0 16 = clmulN (le c 0 8) 0xccaa009e 64 ^^^ le c 8 8 := by
    rw [le_xor, le_srliSi c 8 8 rfl, le_clmul0, show 0 % 2 * 8 = 0 from rfl, show le X86.k5 0 8 = 0xccaa009e by decide +kernel]
  generalize xor (clmul c X86.k5 0) (srliSi c 8) = t at *
  have hTv : ev y (le t 0 16) = x ^ 64 * ev y (le c 0 16) := by
    have e := ev_le_add y c 0 8 8
    rw [show 8 + 8 = 16 from rfl, Nat.zero_add, show 8 * 8 = 64 from rfl] at e
    rw [hT, evx_xor, evx_clmulN _ _ _ _ (by decide), k_x64, e]
    have := xy_pow 64
    linear_combination -ev y (le c 8 8) * this
  have hTl : le t 0 16 < 2 ^ 96 := by
    rw [hT]
    refine Nat.xor_lt_two_pow ?_ (lt_trans (le_lt c 8 8) (by decide))
    rw [clmulN_mod _ _ 32 64 (by decide) (by omega)]
    exact lt_trans (clmulN_lt _ _ 32 63 (le_lt c 0 8)) (by decide)
  -- 96 bits to 64
  have hs : le (slliSi t 4) 0 8 = 2 ^ 32 * (le t 0 16 % 2 ^ 32) := by
    rw [le_slliSi t 4 4, show 8 * 4 = 32 from rfl]
    have e := le_add t 0 4 12
    have := le_lt t 0 4
    rw [show 4 + 12 = 16 from rfl, show 8 * 4 = 32 from rfl] at e
    rw [show 8 * 4 = 32 from rfl] at this
    rw [e, Nat.mul_add_mod, Nat.mod_eq_of_lt this]
  have hP : le (clmul (slliSi t 4) X86.k5 0x10) 0 16 = 2 ^ 32 * clmulN (le t 0 16 % 2 ^ 32) 0x163cd6124 64 := by
    rw [le_clmul0, show 0x10 % 2 * 8 = 0 from rfl, show 0x10 / 16 % 2 * 8 = 8 from rfl, hs, clmulN_shl, show le X86.k5 8 8 = 0x163cd6124 by decide +kernel]
  generalize clmul (slliSi t 4) X86.k5 0x10 = p at *
  have hW : le (if avx = true then ternary p t X86.crcMask 0x28#8 else xor p (Vec.and t X86.crcMask)) 0 16 =
      2 ^ 32 * (clmulN (le t 0 16 % 2 ^ 32) 0x163cd6124 64 ^^^ le t 0 16 / 2 ^ 32) := by
    generalize clmulN (le t 0 16 % 2 ^ 32) 0x163cd6124 64 = P at *
    cases avx
    · rw [if_neg (by decide), le_xor, le_crcMask, hP, shl_xor]
    · rw [if_pos rfl, ternary_28, le_crcMask, le_xor, hP, shl_xor_div]
  have hZl : clmulN (le t 0 16 % 2 ^ 32) 0x163cd6124 64 ^^^ le t 0 16 / 2 ^ 32 < 2 ^ 64 := by
    refine Nat.xor_lt_two_pow ?_ (by omega)
    rw [clmulN_mod _ _ 33 64 (by decide) (by omega)]
    exact clmulN_lt _ _ 33 31 (Nat.mod_lt _ (by decide))
  have hZv : ev y (clmulN (le t 0 16 % 2 ^ 32) 0x163cd6124 64 ^^^ le t 0 16 / 2 ^ 32) = x ^ 32 * ev y (le t 0 16) := by
    rw [evx_xor, evx_clmulN _ _ _ _ (by decide), k_x32, ev_div_mod y 32 (le t 0 16)]
    have := xy_pow 32
    linear_combination -ev y (le t 0 16 / 2 ^ 32) * this
  generalize (if avx = true then ternary p t X86.crcMask 0x28#8 else xor p (Vec.and t X86.crcMask)) = w at *
  generalize clmulN (le t 0 16 % 2 ^ 32) 0x163cd6124 64 ^^^ le t 0 16 / 2 ^ 32 = z at *
  -- Barrett
  have hU := le_reduce w z hW
  have hH := le_mid_shl w z hZl hW
  have hb := barrett64 z
  have hUl := (barrett (z % 2 ^ 32) (Nat.mod_lt _ (Nat.two_pow_pos 32))).1
  generalize clmul (clmul w X86.k7 0) X86.k7 0x10 = u at *
  generalize clmulN (clmulN (z % 2 ^ 32) 0xf7011641 64 % 2 ^ 32) 0x1db710640 64 / 2 ^ 32 = U at *
  have hres : (~~~ extract32 (if avx = true then ternary u w w 0xC3#8 else xor u (xor w X86.crcMask)) 2).toNat = U ^^^ z / 2 ^ 32 := by
    have hm : le (if avx = true then ternary u w w 0xC3#8 else xor u (xor w X86.crcMask)) 8 4 = (U ^^^ z / 2 ^ 32) ^^^ 0xffffffff := by
      cases avx
      · rw [if_neg (by decide), le_xor, le_xor, hU, hH, le_ones X86.crcMask, Nat.xor_assoc]
        intro j h1 h2
        rw [crcMask_lane ⟨j, by omega⟩, if_neg (by simp; omega)]
      · rw [if_pos rfl, ternary_c3, le_xor, le_xor, hU, hH, le_ones (set1 0xff#8) fun _ _ _ => rfl]
    rw [extract32, show 4 * 2 = 8 from rfl, hm, show BitVec.ofNat 32 (U ^^^ z / 2 ^ 32 ^^^ 0xffffffff) = ~~~ BitVec.ofNat 32 (U ^^^ z / 2 ^ 32) by
      rw [← BitVec.xor_allOnes]
      apply BitVec.eq_of_toNat_eq
      rw [BitVec.toNat_xor, BitVec.toNat_ofNat, BitVec.toNat_ofNat, Nat.xor_mod_two_pow]; rfl, BitVec.not_not, BitVec.toNat_ofNat, Nat.mod_eq_of_lt]
    exact Nat.xor_lt_two_pow hUl (by omega)
  rw [phi_ev, hres]
  rw [hZv, hTv, hc] at hb
  have h32 := xy_pow 32
  have e543 : x ^ 543 = x ^ 31 * x ^ 32 * x ^ 32 * x ^ 64 * x ^ 384 := by simp only [← pow_add]
  rw [e543]
  generalize ev y (U ^^^ z / 2 ^ 32) = e at *
  linear_combination x ^ 31 * x ^ 32 * hb - x ^ 31 * e * h32

/-! ### The whole computation -/

theorem start_val (s : Src) (init : U32) : (X86.start init).val = goal s init 0 := by
  unfold X86.Regs.val X86.start goal
  simp only
  have e := ev_clmul y (cvtsi32 (~~~init)) (cvtsi32 0xdfded7ec#32) 0 0
  rw [Nat.mul_zero, show 0 + 0 % 2 * 8 = 0 from rfl, le_cvtsi32 _ 4, le_cvtsi32 _ 4,
    show (0xdfded7ec#32).toNat = 0xdfded7ec from rfl, k_y512, ev_phi] at e
  rw [e, le_zero (a := zero) (fun _ _ => rfl), ev_zero, List.take_zero, show mu [] = 0 from rfl, show 8 * 0 = 0 from rfl, pow_zero]
  have h : y ^ 511 * y ^ 32 = y ^ 31 * y ^ 512 := by rw [← pow_add, ← pow_add]
  linear_combination -phi (~~~init) * h

theorem goal_crc (s : Src) (init r : U32) (h : phi (~~~r) = x ^ 543 * goal s init s.data.length) : IsCrc32 init s.data r := by
  rw [isCrc32_iff, h, goal, List.take_length]
  have h1 : x ^ 543 * y ^ 511 = x ^ 32 := x_sub 543 511 (by omega)
  have h2 := xy_pow 32
  linear_combination (phi (~~~init) * x ^ (8 * s.data.length) * y ^ 32 + mu s.data) * h1 + phi (~~~init) * x ^ (8 * s.data.length) * h2

theorem isCrc32_nil (init : U32) : IsCrc32 init [] init := by
  rw [isCrc32_iff]
  simp [mu]

theorem crcFold_spec (avx : Bool) (s : Src) (init : U32) : ∃ r, X86.crcFold avx s init = some r ∧ IsCrc32 init s.data r := by
  unfold X86.crcFold
  simp only
  by_cases h16 : s.data.length < 16
  · rw [if_pos h16]
    by_cases h0 : s.data.length = 0
    · rw [if_pos h0]
      refine ⟨init, rfl, ?_⟩
      rw [List.length_eq_zero_iff] at h0
      rw [h0]; exact isCrc32_nil init
    · rw [if_neg h0]
      refine ⟨_, rfl, goal_crc s init _ ?_⟩
      rw [done_val, partialFold_ok avx s init 0 s.data.length _ _ (by omega) h16 (by omega) _ (start_val s init), Nat.zero_add]
      intro j hj
      rw [if_pos hj, Nat.zero_add]
  · rw [if_neg h16]
    obtain ⟨r1, e1, v1⟩ : ∃ r, X86.first avx s ((16 - s.addr % 16) % 16) (X86.start init) = some r ∧ r.val = goal s init ((16 - s.addr % 16) % 16) := by
      unfold X86.first
      by_cases hd : (16 - s.addr % 16) % 16 = 0
      · rw [if_pos hd, hd]
        exact ⟨_, rfl, start_val s init⟩
      · rw [if_neg hd, s.loadu_eq 16 0 (by omega)]
        refine ⟨_, rfl, ?_⟩
        have := partialFold_ok avx s init 0 ((16 - s.addr % 16) % 16) _ (fun j => s.at (0 + j)) (by omega) (by omega) (by omega) (fun j _ => rfl) (start_val s init)
        rwa [Nat.zero_add] at this
    rw [e1]
    simp only
    obtain ⟨r2, o2, l2, e2, a2, s2, t2, v2⟩ := loop64_ok avx s init _ (s.data.length - (16 - s.addr % 16) % 16) r1 (by omega) (by omega) v1
    rw [e2]
    simp only
    obtain ⟨r3, o3, l3, e3, a3, s3, t3, v3⟩ := blocks16_ok avx s init _ _ r2 a2 s2 t2 v2
    rw [e3]
    simp only
    by_cases h0 : l3 = 0
    · rw [if_pos h0]
      refine ⟨_, rfl, goal_crc s init _ ?_⟩
      rw [done_val, v3, show o3 = s.data.length by omega]
    · rw [if_neg h0, s.load_eq 16 o3 a3 (by omega)]
      refine ⟨_, rfl, goal_crc s init _ ?_⟩
      rw [done_val, partialFold_ok avx s init o3 l3 _ _ (by omega) t3 (by omega) (fun j _ => rfl) v3, s3]

end Yenc.Crc
