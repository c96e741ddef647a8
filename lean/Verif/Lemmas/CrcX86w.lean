import Verif.Lemmas.CrcX86
/-! The VPCLMULQDQ code computes CRC-32. -/
namespace Yenc.Crc
open Vec Yenc.Spec

theorem foldMerge256_eq (avx : Bool) (src data : Vec) :
    X86.foldMerge256 avx src data = xor (xor (clmul src X86.fold4 0x01) (clmul src X86.fold4 0x10)) data := by
  unfold X86.foldMerge256
  cases avx
  · rw [if_neg (by decide)]
    funext j
    simp only [Vec.xor]
    rw [BitVec.xor_assoc, BitVec.xor_comm]
  · rw [if_pos rfl, ternary_xor3]

theorem ev_half (v : Vec) : ev y (le v 0 32) = ev y (le v 0 16) + y ^ 128 * ev y (le v 16 16) := ev_le_add y v 0 16 16

/-- Folding a register over 512 bits. -/
theorem ev_foldMerge256 (avx : Bool) (src data : Vec) :
    ev y (le (X86.foldMerge256 avx src data) 0 32) = x ^ 512 * ev y (le src 0 32) + ev y (le data 0 32) := by
  rw [foldMerge256_eq]
  have hh : ∀ h, h < 2 → ev y (le (xor (xor (clmul src X86.fold4 0x01) (clmul src X86.fold4 0x10)) data) (16 * h) 16) =
      x ^ 512 * ev y (le src (16 * h) 16) + ev y (le data (16 * h) 16) := by
    intro h hlt
    have c : ∀ h : Fin 2, le X86.fold4 (16 * h.val) 8 = 0x1c6e41596 ∧ le X86.fold4 (16 * h.val + 8) 8 = 0x154442bd4 := by decide +kernel
    have h1 := ev_clmul y src X86.fold4 0x01 h
    have h2 := ev_clmul y src X86.fold4 0x10 h
    rw [show 16 * h + 0x01 / 16 % 2 * 8 = 16 * h from rfl, show 16 * h + 0x01 % 2 * 8 = 16 * h + 8 from rfl, (c ⟨h, hlt⟩).1, k_x448] at h1
    rw [show 16 * h + 0x10 / 16 % 2 * 8 = 16 * h + 8 from rfl, show 16 * h + 0x10 % 2 * 8 = 16 * h from rfl, (c ⟨h, hlt⟩).2, k_x512] at h2
    have h3 := ev_le_add y src (16 * h) 8 8
    have h4 : x ^ 512 * y ^ 64 = x ^ 448 := x_sub 512 64 (by omega)
    rw [show 8 + 8 = 16 from rfl, show 8 * 8 = 64 from rfl] at h3
    rw [ev_le_xor, ev_le_xor, h1, h2, h3]
    linear_combination -ev y (le src (16 * h + 8) 8) * h4
  have h0 := hh 0 (by omega)
  have h1 := hh 1 (by omega)
  rw [Nat.mul_zero] at h0
  rw [Nat.mul_one] at h1
  rw [ev_half, ev_half src, ev_half data, h0, h1]
  ring

/-- The value of the two accumulators. -/
noncomputable def X86.Regs2.val (r : X86.Regs2) : R := ev y (le r.c0 0 32) + y ^ 256 * ev y (le r.c1 0 32)

theorem shuf_toNat (k j : Nat) (hk : k < 16) : (broadcast128 (X86.rotTable k) j).toNat = k + j % 16 := by
  rw [broadcast128, X86.rotTable, BitVec.toNat_ofNat]
  omega

theorem rot_lane (v : Vec) (k j : Nat) (hk : k < 16) (hj : j < 32) :
    pshufb v (broadcast128 (X86.rotTable k)) j = if j < 16 then (if k + j < 16 then v (k + j) else v (k + j - 16)) else (if k + j < 32 then v (k + j) else v (k + j - 16)) := by
  simp only [pshufb]
  rw [BitVec.msb_eq_decide, shuf_toNat k j hk, if_neg (by simp; omega)]
  split
  · rename_i h
    split
    · congr 1; omega
    · congr 1; omega
  · rename_i h
    split
    · congr 1; omega
    · congr 1; omega

theorem mask_lane (k j : Nat) (hk : k < 16) :
    cmpgt (broadcast128 (X86.rotTable k)) (set1 15#8) j = bm (decide (15 < k + j % 16)) := by
  rw [cmpgt, set1]
  congr 1
  rw [BitVec.slt_eq_decide, BitVec.toInt_eq_toNat_of_msb, BitVec.toInt_eq_toNat_of_msb, shuf_toNat k j hk]
  · exact decide_eq_decide.2 (by simp; omega)
  · rw [BitVec.msb_eq_decide, shuf_toNat k j hk]; simp; omega
  · decide

theorem blendv256_lane (avx : Bool) (a b m : Vec) (j : Nat) (p : Bool) (h : m j = bm p) : X86.blendv256 avx a b m j = if p then b j else a j := by
  unfold X86.blendv256
  cases avx
  · rw [if_neg (by decide), blendv, h]
    cases p <;> rfl
  · rw [if_pos rfl, ternary_blend a b m j p h]

theorem perm21 (a b : Vec) (j : Nat) (hj : j < 32) : permute2x128 a b 0x21 j = if j < 16 then a (16 + j) else b (j - 16) := by
  simp only [permute2x128]
  by_cases h : j < 16
  · rw [if_pos h, if_pos h, show 0x21 % 16 = 1 from rfl, if_neg (by decide)]
    simp only
    congr 1; omega
  · rw [if_neg h, if_neg h, show 0x21 / 16 = 2 from rfl, if_neg (by decide)]
    simp only
    congr 1; omega

theorem perm08 (a : Vec) (j : Nat) (hj : j < 32) : permute2x128 a a 0x08 j = if j < 16 then 0#8 else a (j - 16) := by
  simp only [permute2x128]
  by_cases h : j < 16
  · rw [if_pos h, if_pos h, show 0x08 % 16 = 8 from rfl, if_pos (by decide)]
  · rw [if_neg h, if_neg h, show 0x08 / 16 = 0 from rfl, if_neg (by decide)]
    simp only
    congr 1; omega

/-- The bytes of `a` from `len` on, then the first `len` bytes of `b`. -/
theorem ev_shifted256 (a b c : Vec) (len : Nat) (h2 : len < 32)
    (hc : ∀ j, j < 32 → c j = if j + len < 32 then a (j + len) else b (j + len - 32)) :
    ev y (le c 0 32) = ev y (le a len (32 - len)) + y ^ (8 * (32 - len)) * ev y (le b 0 len) := by
  have e := ev_le_add y c 0 (32 - len) len
  rw [Nat.sub_add_cancel (by omega)] at e
  rw [e, le_congr (a := c) (b := a) (i := 0) (i' := len), le_congr (a := c) (b := b) (i := 0 + (32 - len)) (i' := 0)]
  · intro j hj
    rw [hc _ (by omega), if_neg (by omega)]
    congr 1; omega
  · intro j hj
    rw [hc _ (by omega), if_pos (by omega)]
    congr 1; omega

/-- What the three shuffles of the 256-bit code produce. -/
theorem partialFold256_eq (avx : Bool) (len : Nat) (r : X86.Regs2) (part : Vec) (h2 : len < 32) :
    ∃ out c0 c1, X86.partialFold256 avx len r part = ⟨c0, X86.foldMerge256 avx out c1⟩ ∧
      (∀ j, j < 32 → out j = if j + len < 32 then 0#8 else r.c0 (j + len - 32)) ∧
      (∀ j, j < 32 → c0 j = if j + len < 32 then r.c0 (j + len) else r.c1 (j + len - 32)) ∧
      (∀ j, j < 32 → c1 j = if j + len < 32 then r.c1 (j + len) else part (j + len - 32)) := by
  unfold X86.partialFold256
  simp only
  have hk : len % 16 < 16 := Nat.mod_lt _ (by decide)
  have hr := fun v j hj => rot_lane v (len % 16) j hk hj
  have hm := fun j (_ : j < 32) => mask_lane (len % 16) j hk
  generalize broadcast128 (X86.rotTable (len % 16)) = shuf at *
  generalize cmpgt shuf (set1 15#8) = mask at *
  have hr0 := hr r.c0
  have hr1 := hr r.c1
  have hrp := hr part
  clear hr
  generalize pshufb r.c0 shuf = q0 at *
  generalize pshufb r.c1 shuf = q1 at *
  generalize pshufb part shuf = qp at *
  by_cases h16 : len ≥ 16
  · rw [if_pos h16]
    refine ⟨_, _, _, rfl, ?_, ?_, ?_⟩
    · intro j hj
      rw [blendv256_lane _ _ _ _ _ _ (hm j hj), perm08 _ _ hj]
      by_cases hb : 15 < len % 16 + j % 16
      · rw [if_pos (by simpa using hb), hr0 j hj]
        repeat' split
        all_goals first | omega | (congr 1; omega)
      · rw [if_neg (by simpa using hb)]
        by_cases hj16 : j < 16
        · rw [if_pos hj16, if_pos (by omega)]
        · rw [if_neg hj16, hr0 _ (by omega), if_pos (by omega), if_pos (by omega), if_neg (by omega)]
          congr 1; omega
    · intro j hj
      rw [blendv256_lane _ _ _ _ _ _ (hm j hj), perm21 _ _ _ hj]
      by_cases hb : 15 < len % 16 + j % 16
      · rw [if_pos (by simpa using hb), hr1 j hj]
        repeat' split
        all_goals first | omega | (congr 1; omega)
      · rw [if_neg (by simpa using hb)]
        by_cases hj16 : j < 16
        · rw [if_pos hj16, hr0 _ (by omega), if_neg (by omega), if_pos (by omega), if_pos (by omega)]
          congr 1; omega
        · rw [if_neg hj16, hr1 _ (by omega), if_pos (by omega), if_pos (by omega), if_neg (by omega)]
          congr 1; omega
    · intro j hj
      rw [blendv256_lane _ _ _ _ _ _ (hm j hj), perm21 _ _ _ hj]
      by_cases hb : 15 < len % 16 + j % 16
      · rw [if_pos (by simpa using hb), hrp j hj]
        repeat' split
        all_goals first | omega | (congr 1; omega)
      · rw [if_neg (by simpa using hb)]
        by_cases hj16 : j < 16
        · rw [if_pos hj16, hr1 _ (by omega), if_neg (by omega), if_pos (by omega), if_pos (by omega)]
          congr 1; omega
        · rw [if_neg hj16, hrp _ (by omega), if_pos (by omega), if_pos (by omega), if_neg (by omega)]
          congr 1; omega
  · rw [if_neg h16]
    refine ⟨_, _, _, rfl, ?_, ?_, ?_⟩
    · intro j hj
      rw [Vec.and, hm j hj, BitVec.and_comm, bm_and_byte, perm08 _ _ hj]
      by_cases hb : 15 < len % 16 + j % 16
      · rw [if_pos (by simpa using hb)]
        by_cases hj16 : j < 16
        · rw [if_pos hj16, if_pos (by omega)]
        · rw [if_neg hj16, hr0 _ (by omega), if_pos (by omega), if_neg (by omega), if_neg (by omega)]
          congr 1; omega
      · rw [if_neg (by simpa using hb), if_pos (by omega)]
    · intro j hj
      rw [blendv256_lane _ _ _ _ _ _ (hm j hj), perm21 _ _ _ hj]
      by_cases hb : 15 < len % 16 + j % 16
      · rw [if_pos (by simpa using hb)]
        by_cases hj16 : j < 16
        · rw [if_pos hj16, hr0 _ (by omega), if_neg (by omega), if_neg (by omega), if_pos (by omega)]
          congr 1; omega
        · rw [if_neg hj16, hr1 _ (by omega), if_pos (by omega), if_neg (by omega), if_neg (by omega)]
          congr 1; omega
      · rw [if_neg (by simpa using hb), hr0 j hj]
        repeat' split
        all_goals first | omega | (congr 1; omega)
    · intro j hj
      rw [blendv256_lane _ _ _ _ _ _ (hm j hj), perm21 _ _ _ hj]
      by_cases hb : 15 < len % 16 + j % 16
      · rw [if_pos (by simpa using hb)]
        by_cases hj16 : j < 16
        · rw [if_pos hj16, hr1 _ (by omega), if_neg (by omega), if_neg (by omega), if_pos (by omega)]
          congr 1; omega
        · rw [if_neg hj16, hrp _ (by omega), if_pos (by omega), if_neg (by omega), if_neg (by omega)]
          congr 1; omega
      · rw [if_neg (by simpa using hb), hr1 j hj]
        repeat' split
        all_goals first | omega | (congr 1; omega)

theorem partialFold256_val (avx : Bool) (len : Nat) (r : X86.Regs2) (part : Vec) (h2 : len < 32) :
    y ^ (8 * len) * (X86.partialFold256 avx len r part).val = r.val + y ^ 512 * ev y (le part 0 len) := by
  obtain ⟨out, c0, c1, he, ho, h0, h1⟩ := partialFold256_eq avx len r part h2
  rw [he]
  have eo := ev_shifted256 zero r.c0 out len h2 ho
  have e0 := ev_shifted256 r.c0 r.c1 c0 len h2 h0
  have e1 := ev_shifted256 r.c1 part c1 len h2 h1
  rw [le_zero (a := zero) (fun _ _ => rfl), ev_zero, zero_add] at eo
  have s : ∀ v : Vec, ev y (le v 0 32) = ev y (le v 0 len) + y ^ (8 * len) * ev y (le v len (32 - len)) := by
    intro v
    have := ev_le_add y v 0 len (32 - len)
    rwa [Nat.add_sub_cancel' (by omega), Nat.zero_add] at this
  unfold X86.Regs2.val
  simp only
  rw [ev_foldMerge256, e0, e1, eo, s r.c0, s r.c1]
  have hab : y ^ (8 * len) * y ^ (8 * (32 - len)) = y ^ 256 := by rw [← pow_add]; congr 1; omega
  have h512 : y ^ 512 = y ^ 256 * y ^ 256 := by rw [← pow_add]
  have hx : x ^ 512 * y ^ 512 = 1 := xy_pow 512
  rw [h512] at hx ⊢
  generalize y ^ 256 = q at *
  generalize y ^ (8 * len) = a at *
  generalize y ^ (8 * (32 - len)) = b at *
  generalize x ^ 512 = X at *
  generalize ev y (le r.c0 0 len) = A0 at *
  generalize ev y (le r.c1 0 len) = A1 at *
  generalize ev y (le part 0 len) = P at *
  linear_combination (A1 + q * P + q * X * A0) * hab + A0 * hx

theorem partialFold256_ok (avx : Bool) (s : Src) (init : U32) (off n : Nat) (r : X86.Regs2) (part : Vec) (h2 : n < 32) (hl : off + n ≤ s.data.length)
    (hp : ∀ j, j < n → part j = s.at (off + j)) (hr : r.val = goal s init off) :
    (X86.partialFold256 avx n r part).val = goal s init (off + n) := by
  apply y_cancel (8 * n)
  rw [partialFold256_val _ _ _ _ h2, goal_step s init off n hl part 0 (fun j hj => by rw [Nat.zero_add]; exact hp j hj), hr]

/-- The block of 32 bytes at `off`. -/
theorem goal_block32 (s : Src) (init : U32) (off : Nat) (h : off + 32 ≤ s.data.length) :
    y ^ 256 * goal s init (off + 32) = goal s init off + y ^ 512 * ev y (le (fun j => s.at (off + j)) 0 32) :=
  goal_step s init off 32 h _ 0 (fun j _ => by rw [Nat.zero_add])

theorem loop64_256_ok (avx : Bool) (s : Src) (init : U32) (off len : Nat) (r : X86.Regs2) (ha : (s.addr + off) % 32 = 0) (hl : off + len = s.data.length)
    (hr : r.val = goal s init off) :
    ∃ r' off' len', X86.loop64_256 avx s off len r = some (r', off', len') ∧ (s.addr + off') % 32 = 0 ∧ off' + len' = s.data.length ∧ len' < 64 ∧
      r'.val = goal s init off' := by
  induction len using Nat.strongRecOn generalizing off r with
  | _ len ih =>
    rw [X86.loop64_256.eq_def]
    by_cases h64 : len ≥ 64
    · rw [if_pos h64, s.load_eq 32 off ha (by omega), s.load_eq 32 (off + 32) (by omega) (by omega)]
      simp only
      apply ih (len - 64) (by omega) (off + 64) _ (by omega) (by omega)
      unfold X86.Regs2.val
      simp only
      rw [ev_foldMerge256, ev_foldMerge256]
      have g0 := goal_block32 s init off (by omega)
      have g1 := goal_block32 s init (off + 32) (by omega)
      rw [show off + 32 + 32 = off + 64 from rfl] at g1
      have hx : x ^ 512 * y ^ 512 = 1 := xy_pow 512
      apply y_cancel 512
      unfold X86.Regs2.val at hr
      have e3 : y ^ 512 = y ^ 256 * y ^ 256 := by rw [← pow_add]
      rw [e3] at g0 g1 hx ⊢
      generalize y ^ 256 = q at *
      linear_combination (ev y (le r.c0 0 32) + q * ev y (le r.c1 0 32)) * hx + hr - g0 - q * g1
    · rw [if_neg h64]
      exact ⟨r, off, len, rfl, ha, hl, by omega, hr⟩

theorem block32_ok (avx : Bool) (s : Src) (init : U32) (off len : Nat) (r : X86.Regs2) (ha : (s.addr + off) % 32 = 0) (hl : off + len = s.data.length)
    (h64 : len < 64) (hr : r.val = goal s init off) :
    ∃ r' off' len', X86.block32 avx s off len r = some (r', off', len') ∧ (s.addr + off') % 32 = 0 ∧ off' + len' = s.data.length ∧ len' < 32 ∧
      r'.val = goal s init off' := by
  rw [X86.block32]
  by_cases h32 : len ≥ 32
  · rw [if_pos h32, s.load_eq 32 off ha (by omega)]
    refine ⟨_, _, _, rfl, by omega, by omega, by omega, ?_⟩
    unfold X86.Regs2.val at hr ⊢
    simp only
    rw [ev_foldMerge256]
    have g0 := goal_block32 s init off (by omega)
    have hx : x ^ 512 * y ^ 512 = 1 := xy_pow 512
    have e3 : y ^ 512 = y ^ 256 * y ^ 256 := by rw [← pow_add]
    apply y_cancel 256
    rw [e3] at g0 hx
    generalize y ^ 256 = q at *
    linear_combination (ev y (le r.c0 0 32)) * hx + hr - g0
  · rw [if_neg h32]
    exact ⟨r, off, len, rfl, ha, hl, by omega, hr⟩

theorem start256_val (s : Src) (init : U32) : (X86.start256 init).val = goal s init 0 := by
  rw [← start_val s init]
  unfold X86.Regs.val X86.Regs2.val X86.start256 X86.start
  simp only
  have hz : ∀ i n, le zero i n = 0 := fun i n => le_zero (a := zero) (fun _ _ => rfl)
  have h1 : ∀ v : Vec, le (zext128 v) 0 16 = le v 0 16 := fun v => le_congr fun j hj => by rw [zext128, if_pos (by omega)]
  have h2 : ∀ v : Vec, le (zext128 v) 16 16 = 0 := fun v => le_zero fun j hj => by rw [zext128, if_neg (by omega)]
  rw [ev_half (zext128 _), h1, h2, hz, hz, ev_zero]
  ring

theorem done256_val (avx : Bool) (r : X86.Regs2) : phi (~~~(X86.done256 avx r)) = x ^ 543 * r.val := by
  rw [X86.done256, done_val]
  unfold X86.Regs.val X86.Regs2.val
  simp only
  have h : ∀ v : Vec, le (extracti128 v) 0 16 = le v 16 16 := fun v => le_congr fun j hj => by rw [extracti128, Nat.zero_add]
  obtain ⟨e1, e2, e3⟩ := q_pows
  rw [ev_half r.c0, ev_half r.c1, h, h, e1, e2]
  ring

theorem crcFold256_spec (avx : Bool) (s : Src) (init : U32) : ∃ r, X86.crcFold256 avx s init = some r ∧ IsCrc32 init s.data r := by
  unfold X86.crcFold256
  simp only
  by_cases h16 : s.data.length < 32
  · rw [if_pos h16]
    by_cases h0 : s.data.length = 0
    · rw [if_pos h0]
      refine ⟨init, rfl, ?_⟩
      rw [List.length_eq_zero_iff] at h0
      rw [h0]; exact isCrc32_nil init
    · rw [if_neg h0]
      refine ⟨_, rfl, goal_crc s init _ ?_⟩
      rw [done256_val, partialFold256_ok avx s init 0 s.data.length _ _ h16 (by omega) _ (start256_val s init), Nat.zero_add]
      intro j hj
      rw [if_pos hj, Nat.zero_add]
  · rw [if_neg h16]
    obtain ⟨r1, e1, v1⟩ : ∃ r, X86.first256 avx s ((32 - s.addr % 32) % 32) (X86.start256 init) = some r ∧ r.val = goal s init ((32 - s.addr % 32) % 32) := by
      unfold X86.first256
      by_cases hd : (32 - s.addr % 32) % 32 = 0
      · rw [if_pos hd, hd]
        exact ⟨_, rfl, start256_val s init⟩
      · rw [if_neg hd, s.loadu_eq 32 0 (by omega)]
        refine ⟨_, rfl, ?_⟩
        have := partialFold256_ok avx s init 0 ((32 - s.addr % 32) % 32) _ (fun j => s.at (0 + j)) (by omega) (by omega) (fun j _ => rfl) (start256_val s init)
        rwa [Nat.zero_add] at this
    rw [e1]
    simp only
    obtain ⟨r2, o2, l2, e2, a2, s2, t2, v2⟩ := loop64_256_ok avx s init _ (s.data.length - (32 - s.addr % 32) % 32) r1 (by omega) (by omega) v1
    rw [e2]
    simp only
    obtain ⟨r3, o3, l3, e3, a3, s3, t3, v3⟩ := block32_ok avx s init _ _ r2 a2 s2 t2 v2
    rw [e3]
    simp only
    by_cases h0 : l3 = 0
    · rw [if_pos h0]
      refine ⟨_, rfl, goal_crc s init _ ?_⟩
      rw [done256_val, v3, show o3 = s.data.length by omega]
    · rw [if_neg h0, s.load_eq 32 o3 a3 (by omega)]
      refine ⟨_, rfl, goal_crc s init _ ?_⟩
      rw [done256_val, partialFold256_ok avx s init o3 l3 _ _ t3 (by omega) (fun j _ => rfl) v3, s3]

end Yenc.Crc
