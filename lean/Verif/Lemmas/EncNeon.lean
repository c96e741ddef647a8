import Verif.Lemmas.EncNeonMask
/-! The rounds and the end of a line of `do_encode_neon` are right. -/
namespace Yenc.Enc.Simd.Neon
open Yenc Vec
open Yenc.Dec.Simd (cnt cnt_add cnt_le cnt_congr)

/-! ## Counting -/

theorem lane32_toNat (v : Vec) : (lane 32 v).toNat = (v 0).toNat + 256 * (v 1).toNat + 65536 * (v 2).toNat + 16777216 * (v 3).toNat := by
  have e : lane 32 v = (v 3 ++ (v 2 ++ (v 1 ++ v 0 : BitVec 16) : BitVec 24) : BitVec 32) := by
    apply BitVec.eq_of_getLsbD_eq
    intro i hi
    rw [getLsbD_lane, BitVec.getLsbD_append, BitVec.getLsbD_append, BitVec.getLsbD_append]
    simp only [hi, decide_true, Bool.true_and]
    by_cases h1 : i < 8
    · simp [show i < 24 by omega, show i < 16 by omega, h1, show i / 8 = 0 by omega, show i % 8 = i by omega]
    · by_cases h2 : i < 16
      · simp [show i < 24 by omega, h2, h1, show i / 8 = 1 by omega, show i % 8 = i - 8 by omega]
      · by_cases h3 : i < 24
        · simp [h3, h2, show i / 8 = 2 by omega, show i % 8 = i - 16 by omega]
        · simp [h3, show i / 8 = 3 by omega, show i % 8 = i - 24 by omega]
  have a0 := (v 0).isLt
  have a1 := (v 1).isLt
  have a2 := (v 2).isLt
  have h1 : (v 1 ++ v 0 : BitVec 16).toNat = (v 1).toNat * 256 + (v 0).toNat := by
    rw [BitVec.toNat_append, ← Nat.shiftLeft_add_eq_or_of_lt a0, Nat.shiftLeft_eq]
  have h2 : (v 2 ++ (v 1 ++ v 0 : BitVec 16) : BitVec 24).toNat = (v 2).toNat * 65536 + (v 1 ++ v 0 : BitVec 16).toNat := by
    rw [BitVec.toNat_append, ← Nat.shiftLeft_add_eq_or_of_lt (v 1 ++ v 0 : BitVec 16).isLt, Nat.shiftLeft_eq]
  rw [e, BitVec.toNat_append, ← Nat.shiftLeft_add_eq_or_of_lt (v 2 ++ (v 1 ++ v 0 : BitVec 16) : BitVec 24).isLt, Nat.shiftLeft_eq, h2, h1]
  omega

theorem sumBytes_eq {x : BitVec 32} {a b c d : Nat} (hx : x.toNat = a + 256 * b + 65536 * c + 16777216 * d) (ha : a ≤ 16) (hb : b ≤ 16) (hc : c ≤ 16) (hd : d ≤ 16) :
    sumBytes x = a + b + c + d := by
  rw [sumBytes, BitVec.toNat_ushiftRight, BitVec.toNat_mul, hx, Nat.shiftRight_eq_div_pow]
  simp only [BitVec.toNat_ofNat, Nat.reducePow, Nat.reduceMod]
  rw [show (a + 256 * b + 65536 * c + 16777216 * d) * 16843009 = ((a + b + c + d) * 16777216 + (a + b + c) * 65536 + (a + b) * 256 + a) + 4294967296 * (b + 257 * c + 65793 * d) by omega,
    Nat.add_mul_mod_self_left, Nat.mod_eq_of_lt (by omega)]
  omega

theorem len_eq {x : BitVec 32} {a b c d : Nat} (hx : x.toNat = a + 256 * b + 65536 * c + 16777216 * d) (ha : a ≤ 16) (hb : b ≤ 16) (hc : c ≤ 16) (hd : d ≤ 16) :
    len x 0 = a ∧ len x 1 = b ∧ len x 2 = c ∧ len x 3 = d := by
  have h : ∀ k, len x k = x.toNat / 2 ^ (8 * k) % 256 := by
    intro k
    rw [len, BitVec.toNat_and, BitVec.toNat_ushiftRight, Nat.shiftRight_eq_div_pow]
    exact Nat.and_two_pow_sub_one_eq_mod _ 8
  rw [h, h, h, h, hx]
  simp only [Nat.mul_zero, Nat.mul_one, Nat.reduceMul, Nat.reducePow]
  omega

theorem cntv_eq (p : Vec) (q : Nat) (s : Nat → Bool) (h : ∀ i, i < 8 → (p q).getLsbD i = s i) : (cntv p q).toNat = cnt s 8 := by
  have := cnt_le s 8
  rw [cntv, popcnt_byte _ s h, BitVec.toNat_ofNat]
  omega

/-- The lengths of the four pieces; `lo` is 8, or 7 if the first character is handled separately. -/
theorem counts_ok {a64 : Bool} {t : Nat → Bool} {s : Sel} (hs : SelOk a64 t s) (lo : Nat) (hlo : lo ≤ 8) (k : BitVec 32) (hk : k.toNat = lo + 256 * 8 + 65536 * 8 + 16777216 * 8) :
    len (counts s.packed k) 0 = lo + cnt t 8 ∧ len (counts s.packed k) 1 = 8 + cnt (fun j => t (8 + j)) 8 ∧ len (counts s.packed k) 2 = 8 + cnt (fun j => t (16 + j)) 8 ∧
      len (counts s.packed k) 3 = 8 + cnt (fun j => t (24 + j)) 8 ∧ sumBytes (counts s.packed k) = lo + 24 + cnt t 32 := by
  have c1 := cnt_le t 8
  have c2 := cnt_le (fun j => t (8 + j)) 8
  have c3 := cnt_le (fun j => t (16 + j)) 8
  have c4 := cnt_le (fun j => t (24 + j)) 8
  have h : (counts s.packed k).toNat = (lo + cnt t 8) + 256 * (8 + cnt (fun j => t (8 + j)) 8) + 65536 * (8 + cnt (fun j => t (16 + j)) 8) +
      16777216 * (8 + cnt (fun j => t (24 + j)) 8) := by
    have e0 := cntv_eq s.packed 0 t (fun i hi => by rw [hs.packed 0 (by omega) i hi]; congr 1; omega)
    have e1 := cntv_eq s.packed 1 (fun j => t (8 + j)) (fun i hi => hs.packed 1 (by omega) i hi)
    have e2 := cntv_eq s.packed 2 (fun j => t (16 + j)) (fun i hi => hs.packed 2 (by omega) i hi)
    have e3 := cntv_eq s.packed 3 (fun j => t (24 + j)) (fun i hi => hs.packed 3 (by omega) i hi)
    rw [counts, BitVec.toNat_add, lane32_toNat, e0, e1, e2, e3, hk]
    omega
  obtain ⟨l0, l1, l2, l3⟩ := len_eq h (by omega) (by omega) (by omega) (by omega)
  have hsum := sumBytes_eq h (by omega) (by omega) (by omega) (by omega)
  obtain ⟨d1, d2, d3⟩ := cnt_32 t
  exact ⟨l0, l1, l2, l3, by omega⟩

theorem popcnt_neon (x : BitVec 32) : sumBytes (lane 32 (cntv (mov32 x))) = popcnt x := by
  have h : ∀ q, (mov32 x q) = (x >>> (8 * q)).setWidth 8 := fun _ => rfl
  have hb : ∀ q i, i < 8 → (mov32 x q).getLsbD i = x.getLsbD (8 * q + i) := by
    intro q i hi
    rw [h, BitVec.getLsbD_setWidth, BitVec.getLsbD_ushiftRight]
    simp [hi]
  have e0 := cntv_eq (mov32 x) 0 x.getLsbD (fun i hi => by rw [hb 0 i hi]; congr 1; omega)
  have e1 := cntv_eq (mov32 x) 1 (fun j => x.getLsbD (8 + j)) (fun i hi => hb 1 i hi)
  have e2 := cntv_eq (mov32 x) 2 (fun j => x.getLsbD (16 + j)) (fun i hi => hb 2 i hi)
  have e3 := cntv_eq (mov32 x) 3 (fun j => x.getLsbD (24 + j)) (fun i hi => hb 3 i hi)
  have c1 := cnt_le x.getLsbD 8
  have c2 := cnt_le (fun j => x.getLsbD (8 + j)) 8
  have c3 := cnt_le (fun j => x.getLsbD (16 + j)) 8
  have c4 := cnt_le (fun j => x.getLsbD (24 + j)) 8
  have hl := lane32_toNat (cntv (mov32 x))
  rw [e0, e1, e2, e3] at hl
  rw [sumBytes_eq hl (by omega) (by omega) (by omega) (by omega), Dec.Simd.popcnt_eq]
  obtain ⟨d1, d2, d3⟩ := cnt_32 x.getLsbD
  omega

/-! ## The pieces -/

theorem shuf_table : ∀ m : BitVec 8, (List.range (8 + popcnt m)).map (shuf m) = shufEntries m := by decide +kernel

theorem piece_lane (a64 second : Bool) (m : BitVec 8) (data : Vec) (x : Nat) (hx : x < 16) : piece a64 second m data x =
    if (shuf m x).toNat < (if a64 then 16 else 8) then
      (if a64 then (if second then ext data data 8 else data) (shuf m x).toNat else (if second then high data else data) (shuf m x).toNat) else shuf m x := by
  cases a64 with
  | true => simp only [piece, tbx, if_true]
  | false =>
    simp only [piece, combine, tbx, high, Bool.false_eq_true, if_false]
    by_cases h : x < 8
    · simp only [h, if_true]
    · simp only [h, if_false, show 8 + (x - 8) = x by omega]

theorem piece_ok (a64 second : Bool) (m : BitVec 8) (data : Vec) (s : Nat → Bool) (b : Nat → Byte) (hm : ∀ j, j < 8 → m.getLsbD j = s j)
    (hd : ∀ j, j < 8 → data ((if second then 8 else 0) + j) = b j + if s j then 106#8 else 42#8) : Piece (piece a64 second m data) s b 8 := by
  have hc := cnt_le s 8
  rw [Piece, ← popcnt_byte m s hm, toList_eq_map _ _ (shuf m) (fun y => if y.toNat < (if a64 then 16 else 8) then
      (if a64 then (if second then ext data data 8 else data) y.toNat else (if second then high data else data) y.toNat) else y) _ (shuf_table m)]
  · apply map_flatMap_pieces
    intro j hj
    have h1 : (BitVec.ofNat 8 j).toNat = j := by simp; omega
    have hE : EQ.toNat = 61 := rfl
    generalize hg : (fun y : Byte => if y.toNat < (if a64 then 16 else 8) then
        (if a64 then (if second then ext data data 8 else data) y.toNat else (if second then high data else data) y.toNat) else y) = g
    have hval : (fun y : Byte => if y.toNat < (if a64 then 16 else 8) then
        (if a64 then (if second then ext data data 8 else data) y.toNat else (if second then high data else data) y.toNat) else y) (BitVec.ofNat 8 j) = b j + if s j then 106#8 else 42#8 := by
      rw [← hd j hj]
      simp only [h1]
      cases a64 <;> cases second
      · simp [hj]
      · simp [hj, high]
      · simp [show j < 16 by omega]
      · simp only [if_true, show j < 16 by omega, ext, show j + 8 < 16 by omega]
        rw [Nat.add_comm]
    have hEq : (fun y : Byte => if y.toNat < (if a64 then 16 else 8) then
        (if a64 then (if second then ext data data 8 else data) y.toNat else (if second then high data else data) y.toNat) else y) EQ = EQ := by
      simp only [hE]
      rw [if_neg (by cases a64 <;> simp)]
    rw [hg] at hval hEq
    rw [hm j hj]
    unfold ech
    cases hs : s j
    · simp only [Bool.false_eq_true, if_false, List.map_cons, List.map_nil]
      rw [hval, hs]; rfl
    · simp only [if_true, List.map_cons, List.map_nil]
      rw [hval, hEq, hs]; rfl
  · intro x hx
    rw [popcnt_byte m s hm] at hx
    exact piece_lane a64 second m data x (by omega)

theorem expandLUT_bits (m : BitVec 8) (s : Nat → Bool) (hm : ∀ j, j < 8 → m.getLsbD j = s j) : Bits (expandLUT m) (eqBits s 8) := by
  intro i
  have hl := eqBits_length s 8
  have := cnt_le s 8
  have e : ((List.range 8).flatMap fun j => if m.getLsbD j then [true, false] else [false]) = eqBits s 8 := eqBits_congr hm
  rw [expandLUT, getLsbD_ofBits, e]
  by_cases hi : i < 16
  · simp [hi]
  · simp only [hi, decide_false, Bool.false_and]
    rw [List.getD_eq_getElem?_getD, List.getElem?_eq_none (by omega)]; rfl

/-! ## The slow path -/

/-- The lanes of the two vectors. -/
structure DataOk (t : Nat → Bool) (b : Nat → Byte) (dA dB : Vec) : Prop where
  a : ∀ j, j < 16 → dA j = b j + if t j then 106#8 else 42#8
  b : ∀ j, j < 16 → dB j = b (16 + j) + if t (16 + j) then 106#8 else 42#8

theorem pieces_ok {a64 : Bool} {t : Nat → Bool} {s : Sel} (hs : SelOk a64 t s) {b : Nat → Byte} {dA dB : Vec} (hd : DataOk t b dA dB) :
    Piece (piece a64 false s.m1 dA) t b 8 ∧ Piece (piece a64 true s.m2 dA) (fun j => t (8 + j)) (fun j => b (8 + j)) 8 ∧
    Piece (piece a64 false s.m3 dB) (fun j => t (16 + j)) (fun j => b (16 + j)) 8 ∧ Piece (piece a64 true s.m4 dB) (fun j => t (24 + j)) (fun j => b (24 + j)) 8 := by
  refine ⟨piece_ok _ _ _ _ _ _ hs.m1 fun j hj => ?_, piece_ok _ _ _ _ _ _ hs.m2 fun j hj => ?_, piece_ok _ _ _ _ _ _ hs.m3 fun j hj => ?_, piece_ok _ _ _ _ _ _ hs.m4 fun j hj => ?_⟩
  · simpa using hd.a j (by omega)
  · simpa using hd.a (8 + j) (by omega)
  · simpa using hd.b j (by omega)
  · simpa [← Nat.add_assoc] using hd.b (8 + j) (by omega)

theorem bit0 (x : BitVec 32) : ((x &&& 1#32).toNat : Int) = if x.getLsbD 0 then 1 else 0 := by
  rw [BitVec.toNat_and, BitVec.getLsbD, Nat.testBit_zero]
  have : (1#32).toNat = 1 := rfl
  rw [this, Nat.and_one_is_mod]
  by_cases h : x.toNat % 2 = 1
  · simp [h]
  · simp [show x.toNat % 2 = 0 by omega]

theorem slowRevert_ok {a64 : Bool} {t : Nat → Bool} {s : Sel} (hs : SelOk a64 t s) (c : BitVec 32) (l0 : len c 0 = 8 + cnt t 8)
    (_l1 : len c 1 = 8 + cnt (fun j => t (8 + j)) 8) (l2 : len c 2 = 8 + cnt (fun j => t (16 + j)) 8) (l3 : len c 3 = 8 + cnt (fun j => t (24 + j)) 8)
    (hsum : sumBytes c = 32 + cnt t 32) (T : Nat) (hT1 : 1 ≤ T) (hT2 : T ≤ 32 + cnt t 32) :
    slowRevert s c (((32 + cnt t 32 : Nat) : Int) - T) = goBack (eqBits t 32) T := by
  have eA : eqBits t 16 = eqBits t 8 ++ eqBits (fun j => t (8 + j)) 8 := eqBits_add t 8 8
  have eB : eqBits (fun j => t (16 + j)) 16 = eqBits (fun j => t (16 + j)) 8 ++ eqBits (fun j => t (24 + j)) 8 := by
    have := eqBits_add (fun j => t (16 + j)) 8 8
    simpa only [← Nat.add_assoc] using this
  have e32 : eqBits t 32 = eqBits t 16 ++ eqBits (fun j => t (16 + j)) 16 := eqBits_add t 16 16
  obtain ⟨d1, d2, d3⟩ := cnt_32 t
  have hc32 : cnt t 32 = cnt t 16 + cnt (fun j => t (16 + j)) 16 := cnt_add t 16 16
  have lA1 := eqBits_length t 8
  have lA := eqBits_length t 16
  have lB1 := eqBits_length (fun j => t (16 + j)) 8
  have lB := eqBits_length (fun j => t (16 + j)) 16
  have cB := eqBits_count (fun j => t (16 + j)) 16
  have cle1 := cnt_le t 16
  have cle2 := cnt_le (fun j => t (16 + j)) 16
  have len8 : ∀ s : Nat → Bool, (eqBits s 8).length ≤ 32 := by
    intro s
    rw [eqBits_length]
    have := cnt_le s 8
    omega
  have bA : Bits (((expandLUT s.m2).setWidth 32 <<< len c 0) ||| (expandLUT s.m1).setWidth 32) (eqBits t 16) := by
    rw [eA, l0, ← lA1]
    refine Bits.shl ((expandLUT_bits s.m1 _ hs.m1).setWidth (len8 _)) ((expandLUT_bits s.m2 _ hs.m2).setWidth (len8 _)) ?_
    rw [← List.length_append, ← eA]; omega
  have bB : Bits (((expandLUT s.m4).setWidth 32 <<< len c 2) ||| (expandLUT s.m3).setWidth 32) (eqBits (fun j => t (16 + j)) 16) := by
    rw [eB, l2, ← lB1]
    refine Bits.shl ((expandLUT_bits s.m3 _ hs.m3).setWidth (len8 _)) ((expandLUT_bits s.m4 _ hs.m4).setWidth (len8 _)) ?_
    rw [← List.length_append, ← eB]; omega
  rw [e32, goBack_append _ _ T hT1 (by omega)]
  have hsh : ((len c 2 : Int) + len c 3) - (((32 + cnt t 32 : Nat) : Int) - T) - 1 = (T : Int) - 1 - (eqBits t 16).length := by omega
  have hsh2 : (sumBytes c : Int) - (((32 + cnt t 32 : Nat) : Int) - T) - 1 = (T : Int) - 1 := by omega
  simp only [slowRevert, hsh, hsh2, bit0, popcnt_neon]
  have hlow : ((T : Int) - 1 - (eqBits t 16).length < 0) ↔ T - 1 < (eqBits t 16).length := by omega
  by_cases hl : T - 1 < (eqBits t 16).length
  · rw [if_pos hl]
    simp only [hlow, hl, if_true]
    have hs2 : ((T : Int) - 1).toNat = T - 1 := by omega
    rw [hs2, bA.zero, (bA.shr _).popcnt (by simp; omega)]
    simp only [Prod.mk.injEq]
    split <;> omega
  · rw [if_neg hl]
    simp only [hlow, hl, if_false]
    have hs2 : ((T : Int) - 1 - (eqBits t 16).length).toNat = T - 1 - (eqBits t 16).length := by omega
    rw [hs2, bB.zero, (bB.shr _).popcnt (by simp; omega)]
    simp only [Prod.mk.injEq]
    split <;> omega

theorem slow_ok (a64 : Bool) (b : Nat → Byte) (fA fB : Found) (s : Sel) (hs : SelOk a64 (special false b) s) (hd : DataOk (special false b) b fA.data fB.data) :
    (slow a64 fA fB s).toRound.Ok 32 false b ∧ (slow a64 fA fB s).colAdv = (slow a64 fA fB s).adv := by
  obtain ⟨l0, l1, l2, l3, hsum⟩ := counts_ok hs 8 (by omega) 0x08080808#32 rfl
  obtain ⟨d1, d2, d3⟩ := cnt_32 (special false b)
  have c1 := cnt_le (special false b) 8
  have c2 := cnt_le (fun j => special false b (8 + j)) 8
  have c3 := cnt_le (fun j => special false b (16 + j)) 8
  have c4 := cnt_le (fun j => special false b (24 + j)) 8
  obtain ⟨p1, p2, p3, p4⟩ := pieces_ok hs hd
  have hadv : (slow a64 fA fB s).adv = 32 + cnt (special false b) 32 := by
    simp only [slow, l0, l1, l2, l3]; omega
  refine ⟨Round.ok_of hadv ?_ ?_, ?_⟩
  · obtain ⟨j1, q1⟩ := p1.store
    obtain ⟨j2, q2⟩ := p2.store
    obtain ⟨j3, q3⟩ := p3.store
    obtain ⟨j4, q4⟩ := p4.store
    have w1 := (Writes.nil 64).snoc 0 rfl _ _ _ q1 (by rw [toList_length]; omega)
    have w2 := w1.snoc (len (counts s.packed 0x08080808#32) 0) (by rw [List.nil_append, expand_length, l0]) _ _ _ q2 (by rw [toList_length]; omega)
    have w3 := w2.snoc (len (counts s.packed 0x08080808#32) 0 + len (counts s.packed 0x08080808#32) 1)
      (by rw [List.nil_append, List.length_append, expand_length, expand_length, l0, l1]) _ _ _ q3 (by rw [toList_length]; omega)
    have w4 := w3.snoc (len (counts s.packed 0x08080808#32) 0 + len (counts s.packed 0x08080808#32) 1 + len (counts s.packed 0x08080808#32) 2)
      (by rw [List.nil_append, List.length_append, List.length_append, expand_length, expand_length, expand_length, l0, l1, l2]) _ _ _ q4 (by rw [toList_length]; omega)
    rw [expand_32]
    simp only [slow, stores, Nat.zero_add]
    exact w4
  · intro T t1 t2
    rw [hadv] at t2 ⊢
    exact slowRevert_ok hs _ l0 l1 l2 l3 (by omega) T t1 t2
  · rw [hadv]; simp only [slow, hsum]

/-! ## The fast path -/

theorem clz_tab : ∀ a64 : Bool, ∀ j, j < 16 → (clzA a64 j).toNat = clzOf a64 j ∧ (clzB a64 j).toNat = clzOf a64 (16 + j) := by decide +kernel

theorem vclz_tab : ∀ a64 : Bool, ∀ k, k ≤ 32 → (BitVec.ofNat 8 (clzOf a64 k) &&& ~~~ BitVec.ofNat 8 (if a64 then 64 else 32)).toNat = if k < 32 then clzOf a64 k else 0 := by decide +kernel

theorem clz_mono : ∀ a64 : Bool, ∀ j, j < 32 → ∀ k, k < 32 → (clzOf a64 j ≥ clzOf a64 k ↔ j ≤ k) ∧ (clzOf a64 j > clzOf a64 k ↔ j < k) := by decide +kernel

theorem clz_zero : ∀ a64 : Bool, ∀ j, j < 32 → (clzOf a64 j > 0 ↔ j < 31) := by decide +kernel

theorem blend_ok {a64 : Bool} {s : Sel} {k : Nat} (hk : k ≤ 32) (hc : s.clz = clzOf a64 k) (hs : s.size = if a64 then 64 else 32) (j : Nat) (hj : j < 16) :
    cge (clzA a64) (vClz s) j = bm (j ≤ k) ∧ cge (clzB a64) (vClz s) j = bm (16 + j ≤ k) ∧
    cgt (clzA a64) (vClz s) j = bm (j < k ∧ j < 31) ∧ cgt (clzB a64) (vClz s) j = bm (16 + j < k ∧ 16 + j < 31) := by
  obtain ⟨tA, tB⟩ := clz_tab a64 j hj
  have hv : (vClz s j).toNat = if k < 32 then clzOf a64 k else 0 := by
    simp only [vClz, set1, hc, hs]
    exact vclz_tab a64 k hk
  simp only [cge, cgt, tA, tB, hv]
  by_cases h : k < 32
  · simp only [h, if_true]
    have mA := clz_mono a64 j (by omega) k h
    have mB := clz_mono a64 (16 + j) (by omega) k h
    simp only [mA, mB]
    refine ⟨trivial, trivial, ?_, ?_⟩ <;> congr 1 <;> apply decide_eq_decide.2 <;> omega
  · simp only [h, if_false, clz_zero a64 j (by omega), clz_zero a64 (16 + j) (by omega)]
    refine ⟨?_, ?_, ?_, ?_⟩ <;> congr 1 <;> apply decide_eq_decide.2 <;> omega

theorem bitIndex_tab : ∀ a64 : Bool, ∀ k, k ≤ 32 → (if a64 then (clzOf a64 k : Int) - ((clzOf a64 k + 4) >>> 4 <<< 3 : Nat) else clzOf a64 k) + 1 = if k < 32 then (32 : Int) - k else 33 := by
  decide +kernel

theorem fast_ok (a64 : Bool) (b : Nat → Byte) (fA fB : Found) (s : Sel) (hs : SelOk a64 (special false b) s) (hmany : s.many = false)
    (hd : DataOk (special false b) b fA.data fB.data) (hcA : ∀ j, j < 16 → fA.cmp j = bm (special false b j)) (hcB : ∀ j, j < 16 → fB.cmp j = bm (special false b (16 + j))) :
    (fast a64 fA fB s).toRound.Ok 32 false b ∧ (fast a64 fA fB s).colAdv = (fast a64 fA fB s).adv := by
  obtain ⟨k, hk, hany, hclz⟩ := hs.one hmany
  have hcnt := hk.cnt
  have hadv : (fast a64 fA fB s).adv = 32 + cnt (special false b) 32 := by
    simp only [fast, hany, hcnt]
    by_cases h : k < 32 <;> simp [h]
  have hdata : ∀ (d : Vec) (o : Nat), (∀ j, j < 16 → d j = b (o + j) + if special false b (o + j) then 106#8 else 42#8) → o ≤ 16 →
      ∀ j, j < 16 → d j = b (o + j) + if o + j = k then 106#8 else 42#8 := by
    intro d o h ho j hj
    rw [h j hj, hk.2 _ (by omega)]
    simp only [decide_eq_true_eq]
  have hdA := hdata fA.data 0 (by simpa using hd.a) (by omega)
  have hdB := hdata fB.data 16 hd.b (by omega)
  simp only [Nat.zero_add] at hdA
  -- the lanes
  have hA : ∀ j, j < 16 → bsl (cge (clzA a64) (vClz s)) (bsl fA.cmp (set1 EQ) fA.data) (ext fA.data fA.data 15) j = oneOut b k j := by
    intro j hj
    rw [bsl_bm (blend_ok hk.1 hclz hs.size j hj).1]
    simp only [decide_eq_true_eq]
    by_cases h : j ≤ k
    · rw [if_pos h, bsl_bm (hcA j hj), hk.2 j (by omega)]
      by_cases e : j = k
      · rw [oneOut_eq e]; simp [e, set1]
      · rw [oneOut_lt (by omega), hdA j hj]; simp [e]
    · rw [if_neg h, oneOut_gt (by omega), ext, if_neg (by omega), show j + 15 - 16 = j - 1 by omega, hdA _ (by omega)]
      congr 1
      by_cases e : j = k + 1
      · rw [if_pos (by omega), if_pos e]
      · rw [if_neg (by omega), if_neg e]
  have hB : ∀ j, j < 16 → bsl (cge (clzB a64) (vClz s)) (bsl fB.cmp (set1 EQ) fB.data) (ext fA.data fB.data 15) j = oneOut b k (16 + j) := by
    intro j hj
    rw [bsl_bm (blend_ok hk.1 hclz hs.size j hj).2.1]
    simp only [decide_eq_true_eq]
    by_cases h : 16 + j ≤ k
    · rw [if_pos h, bsl_bm (hcB j hj), hk.2 _ (by omega)]
      by_cases e : 16 + j = k
      · rw [oneOut_eq e]; simp [e, set1]
      · rw [oneOut_lt (by omega), hdB j hj]; simp [e]
    · rw [if_neg h, oneOut_gt (by omega), ext]
      by_cases h0 : j = 0
      · subst h0
        rw [if_pos (by omega), hdA _ (by omega)]
        congr 1
        by_cases e : 16 + 0 = k + 1
        · rw [if_pos (by omega), if_pos e]
        · rw [if_neg (by omega), if_neg e]
      · rw [if_neg (by omega), hdB _ (by omega), show 16 + (j + 15 - 16) = 16 + j - 1 by omega]
        congr 1
        by_cases e : 16 + j = k + 1
        · rw [if_pos (by omega), if_pos e]
        · rw [if_neg (by omega), if_neg e]
  have hl : k < 32 → fB.data 15 = oneOut b k 32 := by
    intro h
    rw [oneOut_gt h, hdB 15 (by omega)]
    congr 1
    by_cases e : k = 31
    · rw [if_pos (by omega), if_pos (by omega)]
    · rw [if_neg (by omega), if_neg (by omega)]
  refine ⟨Round.ok_of hadv ?_ ?_, ?_⟩
  · have w1 := (Writes.nil 64).snoc 0 rfl (toList (oneOut b k) 16) [] (toList (bsl (cge (clzA a64) (vClz s)) (bsl fA.cmp (set1 EQ) fA.data) (ext fA.data fA.data 15)) 16)
      (by rw [List.append_nil]; exact toList_congr hA) (by rw [toList_length]; omega)
    have w2 := w1.snoc 16 (by simp [toList]) (toList (fun j => oneOut b k (16 + j)) 16) [] (toList (bsl (cge (clzB a64) (vClz s)) (bsl fB.cmp (set1 EQ) fB.data) (ext fA.data fB.data 15)) 16)
      (by rw [List.append_nil]; exact toList_congr hB) (by rw [toList_length]; omega)
    have w3 := w2.snoc 32 (by simp [toList]) [fB.data 15] [] [fB.data 15] rfl (by simp)
    have e2 : [] ++ toList (oneOut b k) 16 ++ toList (fun j => oneOut b k (16 + j)) 16 = toList (oneOut b k) 32 := (toList_add (oneOut b k) 16 16).symm
    rw [e2] at w3
    rw [hk.expand b]
    by_cases h : k < 32
    · rw [if_pos h, toList_add _ 32 1]
      rw [hl h] at w3
      have e1 : toList (fun j => oneOut b k (32 + j)) 1 = [oneOut b k 32] := rfl
      rw [e1, ← hl h]
      rw [← hl h] at w3
      exact w3
    · rw [if_neg h]
      have w4 := w3.take 32 (by simp [toList])
      rw [List.take_left' (toList_length _ _)] at w4
      exact w4
  · intro T t1 t2
    rw [hadv] at t2 ⊢
    rw [← Simd.fastRevert_ok _ k hk T t1 t2 _ (bitIndex_tab a64 k hk.1)]
    simp only [fast, fastRevert, X86.fastRevert, hclz]
  · simp only [fast, Nat.add_comm]

theorem round_ok (a64 : Bool) (b : Nat → Byte) : (round a64 b).toRound.Ok 32 false b ∧ (round a64 b).colAdv = (round a64 b).adv := by
  have hsp : ∀ j, special false b j = Spec.critical (b j + 42#8) := fun j => by simp [special]
  have hA := find_ok a64 (load b 0)
  have hB := find_ok a64 (load b 16)
  have cA : ∀ j, j < 16 → (find a64 (load b 0)).cmp j = bm (special false b j) := by
    intro j hj
    rw [hA.cmp j hj, hsp]; simp only [load, Nat.zero_add]
  have cB : ∀ j, j < 16 → (find a64 (load b 16)).cmp j = bm (special false b (16 + j)) := by
    intro j hj
    rw [hB.cmp j hj, hsp]; simp only [load]
  have hd : DataOk (special false b) b (find a64 (load b 0)).data (find a64 (load b 16)).data := by
    refine ⟨fun j hj => ?_, fun j hj => ?_⟩
    · rw [hA.data j hj, hsp]; simp only [load, Nat.zero_add]
    · rw [hB.data j hj, hsp]; rfl
  have hs := sel_ok a64 _ _ _ cA cB
  unfold round
  simp only
  cases h : (sel a64 (find a64 (load b 0)).cmp (find a64 (load b 16)).cmp).many with
  | true => simp only [if_true]; exact slow_ok a64 b _ _ _ hs hd
  | false => simp only [Bool.false_eq_true, if_false]; exact fast_ok a64 b _ _ _ hs h hd cA cB

/-! ## The end of a line -/

theorem firstChar_esc : ∀ x : Byte, bytes32 ((x.setWidth 32 <<< 8) ||| 0x0a0d003d#32) = [EQ, x] ++ [CR, LF] ++ [] := by decide +kernel
theorem firstChar_plain : ∀ x : Byte, bytes32 (x.setWidth 32 ||| 0x0a0d00#32) = [x] ++ [CR, LF] ++ [0#8] := by decide +kernel

/-- The end of a line is right if what follows the line break is. -/
theorem eol_of (b : Nat → Byte) (n : Nat) (e : Eol) (first : Bool) (hf : first = eolSpecial b 0) (x : Byte) (hx : x = b 0 + if first then 106#8 else 42#8)
    (st : List (Nat × List Byte)) (hst : e.stores = (0, bytes32 (if first then (x.setWidth 32 <<< 8) ||| 0x0a0d003d#32 else x.setWidth 32 ||| 0x0a0d00#32)) :: st)
    (hw : ∀ l out N, Writes l out N → out.length = (if first then 4 else 3) → e.adv + 8 ≤ N → Writes (l ++ st) (out ++ body b (n - 1)) N)
    (hadv : e.adv = (if first then 4 else 3) + (body b (n - 1)).length) (hcol : ∀ ls, e.col ls = ((body b (n - 1)).length : Int) - ls + 1) : e.Ok n b := by
  have hlast : lastChar (b 0) = if first then [EQ, x] else [x] := by
    have h106 : b 0 + 42#8 + 64#8 = b 0 + 106#8 := by rw [BitVec.add_assoc]; rfl
    have hsp : (eolSpecial b 0 = true) ↔ (Spec.critical (b 0 + 42#8) = true ∨ b 0 + 42#8 = TAB ∨ b 0 + 42#8 = SP) := by
      simp [eolSpecial, or_assoc]
    rw [lastChar, h106, hx, hf]
    by_cases h : eolSpecial b 0 = true
    · rw [if_pos (hsp.1 h), if_pos h, if_pos h]
    · rw [if_neg (fun h' => h (hsp.2 h')), if_neg h, if_neg h]
  have hll : (lastChar (b 0) ++ [CR, LF]).length = if first then 4 else 3 := by
    rw [hlast]; cases first <;> rfl
  have hadv' : e.adv = (lastChar (b 0) ++ [CR, LF] ++ body b (n - 1)).length := by rw [List.length_append, hll, hadv]
  have w : Writes e.stores (lastChar (b 0) ++ [CR, LF] ++ body b (n - 1)) (e.adv + 8) := by
    rw [hst]
    have w0 : Writes [(0, bytes32 (if first then (x.setWidth 32 <<< 8) ||| 0x0a0d003d#32 else x.setWidth 32 ||| 0x0a0d00#32))] (lastChar (b 0) ++ [CR, LF]) (e.adv + 8) := by
      have : ∃ junk, bytes32 (if first then (x.setWidth 32 <<< 8) ||| 0x0a0d003d#32 else x.setWidth 32 ||| 0x0a0d00#32) = (lastChar (b 0) ++ [CR, LF]) ++ junk := by
        rw [hlast]
        cases first
        · exact ⟨_, firstChar_plain x⟩
        · exact ⟨_, firstChar_esc x⟩
      obtain ⟨junk, hj⟩ := this
      exact (Writes.nil (e.adv + 8)).snoc 0 rfl _ junk _ hj (by simp [bytes32])
    exact hw _ _ _ w0 hll (Nat.le_refl _)
  refine ⟨hadv', hcol, fun d => ?_, fun d => ?_⟩
  · rw [hadv']; exact w.out d
  · have := w.hi d
    omega

/-- The first character, already handled, and those after it. -/
theorem body_drop (b b' : Nat → Byte) (t : Nat → Bool) (ht0 : t 0 = false) (ht : ∀ j, t (1 + j) = eolSpecial b (1 + j)) (hb : ∀ j, b' (1 + j) = b (1 + j)) (n : Nat) :
    expand t b' (1 + n) = [b' 0 + 42#8] ++ body b n := by
  rw [expand_add, expand_one, ech, ht0]
  simp only [Bool.false_eq_true, if_false, body]
  congr 1
  apply expand_congr
  · intro j _
    rw [ht]
    unfold eolSpecial special
    simp only [Bool.true_and]
    by_cases h : j = 0
    · subst h; simp
    · simp [h]
  · intro j _; exact hb j

theorem eol_ok (a64 : Bool) (b : Nat → Byte) : (eol a64 b).Ok 32 b := by
  have hA := findEol_ok a64 (load b 0)
  have hB := find_ok a64 (load b 16)
  have hl0 : load b 0 = b := by funext j; simp [load]
  rw [hl0] at hA
  have cA := hA.cmp
  have cB : ∀ j, j < 16 → (find a64 (load b 16)).cmp j = bm (eolSpecial b (16 + j)) := by
    intro j hj
    rw [hB.cmp j hj, eolSpecial, if_neg (by omega), if_neg (by omega)]; rfl
  obtain ⟨hf, hs⟩ := selEol_ok a64 _ _ _ cA cB
  unfold eol
  simp only [hl0]
  generalize hfA : findEol a64 b = fA at *
  generalize hfB : find a64 (load b 16) = fB at *
  generalize selEol a64 fA.cmp fB.cmp = fs at *
  obtain ⟨first, s⟩ := fs
  simp only at hf hs ⊢
  -- the characters, with what was added to the first one moved
  generalize ht : (fun j => decide (j ≠ 0) && eolSpecial b j) = t at *
  have ht0 : t 0 = false := by rw [← ht]; simp
  have ht1 : ∀ j, t (1 + j) = eolSpecial b (1 + j) := by intro j; rw [← ht]; simp
  have htp : ∀ j, j ≠ 0 → t j = eolSpecial b j := by intro j hj; rw [← ht]; simp [hj]
  obtain ⟨b', hb'⟩ : ∃ b' : Nat → Byte, b' = fun j => if j = 0 then fA.data 0 - 42#8 else b j := ⟨_, rfl⟩
  have hb1 : ∀ j, b' (1 + j) = b (1 + j) := by intro j; rw [hb']; simp
  have hd : DataOk t b' fA.data fB.data := by
    refine ⟨fun j hj => ?_, fun j hj => ?_⟩
    · by_cases h : j = 0
      · subst h
        rw [hb', ht0]
        simp only [if_true, Bool.false_eq_true, if_false]
        rw [BitVec.sub_add_cancel]
      · rw [hA.data j hj, hb', htp j h]; simp [h]
    · have e : eolSpecial b (16 + j) = Spec.critical (b (16 + j) + 42#8) := by rw [eolSpecial, if_neg (by omega), if_neg (by omega)]
      have e2 : b' (16 + j) = b (16 + j) := by rw [hb']; exact if_neg (by omega)
      rw [hB.data j hj, htp _ (by omega), e, e2]
      rfl
  have hx : fA.data 0 = b 0 + if first then 106#8 else 42#8 := by rw [hA.data 0 (by omega), hf]
  have hbody := body_drop b b' t ht0 ht1 hb1 31
  have hlen := congrArg List.length hbody
  rw [expand_length, List.length_append] at hlen
  simp only [List.length_singleton, Nat.reduceAdd] at hlen
  cases hm : s.many with
  | true =>
    simp only [if_true]
    obtain ⟨l0, l1, l2, l3, hsum⟩ := counts_ok hs 7 (by omega) 0x08080807#32 rfl
    obtain ⟨d1, d2, d3⟩ := cnt_32 t
    have c1 : cnt t 8 ≤ 7 := by
      have := cnt_add t 1 7
      have h2 := cnt_le (fun j => t (1 + j)) 7
      have h3 : cnt t 1 = 0 := by rw [cnt_congr (g := fun _ => false) (fun j hj => by rw [show j = 0 by omega]; exact ht0), Dec.Simd.cnt_false]
      simp only [Nat.reduceAdd] at this
      omega
    have c2 := cnt_le (fun j => t (8 + j)) 8
    have c3 := cnt_le (fun j => t (16 + j)) 8
    have c4 := cnt_le (fun j => t (24 + j)) 8
    obtain ⟨p1, p2, p3, p4⟩ := pieces_ok hs hd
    have hb7 := body_drop b b' t ht0 ht1 hb1 7
    have hl7 := congrArg List.length hb7
    rw [expand_length, List.length_append] at hl7
    simp only [List.length_singleton, Nat.reduceAdd] at hl7
    -- the first vector, without its first byte
    have q1 : ∃ junk, toList (ext (piece a64 false s.m1 fA.data) (piece a64 false s.m1 fA.data) 1) 16 = body b 7 ++ junk := by
      have e1 : toList (piece a64 false s.m1 fA.data) (1 + (7 + cnt t 8)) = [b' 0 + 42#8] ++ body b 7 := by
        rw [← hb7, show 1 + (7 + cnt t 8) = 8 + cnt t 8 by omega]; exact p1
      rw [toList_add] at e1
      have e2 := List.append_inj_right e1 (by simp [toList])
      have e3 : (16 : Nat) = (7 + cnt t 8) + (9 - cnt t 8) := by omega
      refine ⟨toList (fun j => ext (piece a64 false s.m1 fA.data) (piece a64 false s.m1 fA.data) 1 (7 + cnt t 8 + j)) (9 - cnt t 8), ?_⟩
      · rw [← e2]
        conv => lhs; rw [e3]
        rw [toList_add]
        congr 1
        apply toList_congr
        intro j hj
        rw [ext, if_pos (by omega), Nat.add_comm]
    have hsplit : body b 31 = body b 7 ++ expand (fun j => t (8 + j)) (fun j => b' (8 + j)) 8 ++ expand (fun j => t (16 + j)) (fun j => b' (16 + j)) 8 ++
        expand (fun j => t (24 + j)) (fun j => b' (24 + j)) 8 := by
      have e := expand_32 t b'
      have e7 : expand t b' 8 = [b' 0 + 42#8] ++ body b 7 := hb7
      have e31 : expand t b' 32 = [b' 0 + 42#8] ++ body b 31 := hbody
      rw [e7, e31] at e
      simpa using e
    have hbl : (body b 31).length = 31 + cnt t 32 := by omega
    refine eol_of b 32 _ first hf (fA.data 0) hx _ rfl ?_ ?_ ?_
    · intro l out N hw ho hN
      simp only at hN
      obtain ⟨j1, q1⟩ := q1
      obtain ⟨j2, q2⟩ := p2.store
      obtain ⟨j3, q3⟩ := p3.store
      obtain ⟨j4, q4⟩ := p4.store
      have w1 := hw.snoc (if first = true then 4 else 3) ho.symm _ _ _ q1 (by rw [toList_length]; omega)
      have w2 := w1.snoc ((if first = true then 4 else 3) + len (counts s.packed 0x08080807#32) 0) (by rw [List.length_append, ho]; omega) _ _ _ q2 (by rw [toList_length]; omega)
      have w3 := w2.snoc ((if first = true then 4 else 3) + len (counts s.packed 0x08080807#32) 0 + len (counts s.packed 0x08080807#32) 1)
        (by rw [List.length_append, List.length_append, expand_length, ho]; omega) _ _ _ q3 (by rw [toList_length]; omega)
      have w4 := w3.snoc ((if first = true then 4 else 3) + len (counts s.packed 0x08080807#32) 0 + len (counts s.packed 0x08080807#32) 1 + len (counts s.packed 0x08080807#32) 2)
        (by rw [List.length_append, List.length_append, List.length_append, expand_length, expand_length, ho]; omega) _ _ _ q4 (by rw [toList_length]; omega)
      rw [show 32 - 1 = 31 from rfl, hsplit]
      simp only [List.append_assoc] at w4 ⊢
      exact w4
    · simp only [show 32 - 1 = 31 from rfl, l0, l1, l2, l3]; omega
    · intro ls
      simp only [hsum, show 32 - 1 = 31 from rfl, hbl]; omega
  | false =>
    simp only [Bool.false_eq_true, if_false]
    obtain ⟨k, hk, hany, hclz⟩ := hs.one hm
    have hcnt := hk.cnt
    have hk0 : k ≠ 0 := by
      intro h
      have := hk.2 0 (by omega)
      rw [ht0, h] at this
      simp at this
    have hanyN : s.any.toNat = cnt t 32 := by rw [hany, hcnt]; by_cases h : k < 32 <;> simp [h]
    have hbl : (body b 31).length = 31 + s.any.toNat := by omega
    have hle : s.any.toNat ≤ 1 := by cases s.any <;> simp
    have hout : ∀ j, j < 31 + s.any.toNat → oneOut b' k (1 + j) =
        if j < k ∧ j < 31 then (if t (1 + j) then EQ else b' (1 + j) + 42#8) else b' j + if t j then 106#8 else 42#8 := by
      intro j hj
      by_cases h : j < k ∧ j < 31
      · rw [if_pos h, hk.2 _ (by omega)]
        by_cases e : 1 + j = k
        · rw [oneOut_eq e]; simp [e]
        · rw [oneOut_lt (by omega)]; simp [e]
      · rw [if_neg h]
        have hkj : k ≤ j := by
          have hk1 := hk.1
          rcases Nat.lt_or_ge k 32 with h32 | h32
          · omega
          · rw [hcnt, if_neg (by omega)] at hanyN; omega
        rw [oneOut_gt (by omega), hk.2 j (by omega), show 1 + j - 1 = j by omega]
        simp only [decide_eq_true_eq]
        congr 1
        by_cases e : j = k
        · rw [if_pos (by omega), if_pos e]
        · rw [if_neg (by omega), if_neg e]
    have hbe : body b 31 = toList (fun j => oneOut b' k (1 + j)) (31 + s.any.toNat) := by
      have e := hk.expand b'
      rw [show (if k < 32 then 1 else 0) = s.any.toNat from by rw [hanyN, hcnt]] at e
      have e31 : expand t b' 32 = [b' 0 + 42#8] ++ body b 31 := hbody
      rw [e31, show 32 + s.any.toNat = 1 + (31 + s.any.toNat) by omega, toList_add] at e
      exact List.append_inj_right e (by simp [toList])
    -- the lanes
    have shA : ∀ j, j < 16 → j ≠ 0 → bsl fA.cmp (set1 EQ) fA.data j = if t j then EQ else b' j + 42#8 := by
      intro j hj h0
      rw [bsl_bm (cA j hj), hd.a j hj, htp j h0]
      cases eolSpecial b j <;> simp [set1]
    have shB : ∀ j, j < 16 → bsl fB.cmp (set1 EQ) fB.data j = if t (16 + j) then EQ else b' (16 + j) + 42#8 := by
      intro j hj
      rw [bsl_bm (cB j hj), hd.b j hj, htp _ (by omega)]
      cases eolSpecial b (16 + j) <;> simp [set1]
    have oA : ∀ j, j < 16 → bsl (cgt (clzA a64) (vClz s)) (ext (bsl fA.cmp (set1 EQ) fA.data) (bsl fB.cmp (set1 EQ) fB.data) 1) fA.data j = oneOut b' k (1 + j) := by
      intro j hj
      rw [bsl_bm (blend_ok hk.1 hclz hs.size j hj).2.2.1, hout j (by omega)]
      simp only [decide_eq_true_eq]
      by_cases h : j < k ∧ j < 31
      · rw [if_pos h, if_pos h, ext]
        by_cases h15 : j + 1 < 16
        · rw [if_pos h15, shA _ h15 (by omega), Nat.add_comm j 1]
        · rw [if_neg h15, shB _ (by omega), show 16 + (j + 1 - 16) = 1 + j by omega]
      · rw [if_neg h, if_neg h, hd.a j hj]
    have oB : ∀ j, j < 15 + s.any.toNat → bsl (cgt (clzB a64) (vClz s)) (ext (bsl fB.cmp (set1 EQ) fB.data) (bsl fB.cmp (set1 EQ) fB.data) 1) fB.data j = oneOut b' k (1 + (16 + j)) := by
      intro j hj
      rw [bsl_bm (blend_ok hk.1 hclz hs.size j (by omega)).2.2.2, hout (16 + j) (by omega)]
      simp only [decide_eq_true_eq]
      by_cases h : 16 + j < k ∧ 16 + j < 31
      · rw [if_pos h, if_pos h, ext, if_pos (by omega), shB _ (by omega), show 16 + (j + 1) = 1 + (16 + j) by omega]
      · rw [if_neg h, if_neg h, hd.b j (by omega)]
    refine eol_of b 32 _ first hf (fA.data 0) hx _ rfl ?_ ?_ ?_
    · intro l out N hw ho hN
      simp only at hN
      have w1 := hw.snoc (if first = true then 4 else 3) ho.symm (toList (fun j => oneOut b' k (1 + j)) 16) []
        (toList (bsl (cgt (clzA a64) (vClz s)) (ext (bsl fA.cmp (set1 EQ) fA.data) (bsl fB.cmp (set1 EQ) fB.data) 1) fA.data) 16)
        (by rw [List.append_nil]; exact toList_congr oA) (by rw [toList_length]; omega)
      have w2 := w1.snoc ((if first = true then 4 else 3) + 16) (by rw [List.length_append, toList_length, ho]) (toList (fun j => oneOut b' k (1 + (16 + j))) (15 + s.any.toNat))
        (toList (fun j => (bsl (cgt (clzB a64) (vClz s)) (ext (bsl fB.cmp (set1 EQ) fB.data) (bsl fB.cmp (set1 EQ) fB.data) 1) fB.data) (15 + s.any.toNat + j)) (1 - s.any.toNat))
        (toList (bsl (cgt (clzB a64) (vClz s)) (ext (bsl fB.cmp (set1 EQ) fB.data) (bsl fB.cmp (set1 EQ) fB.data) 1) fB.data) 16)
        (by
          have e3 : (16 : Nat) = (15 + s.any.toNat) + (1 - s.any.toNat) := by omega
          conv => lhs; rw [e3]
          rw [toList_add]
          congr 1
          exact toList_congr oB) (by rw [toList_length]; omega)
      rw [show 32 - 1 = 31 from rfl, hbe, show 31 + s.any.toNat = 16 + (15 + s.any.toNat) by omega, toList_add]
      simp only [List.append_assoc, List.cons_append, List.nil_append] at w2 ⊢
      exact w2
    · simp only [show 32 - 1 = 31 from rfl, hbl]; omega
    · intro ls
      simp only [show 32 - 1 = 31 from rfl, hbl]; omega

/-- The kernel is right. -/
theorem neon_ok (a64 : Bool) : (neon a64).Ok :=
  ⟨by simp [neon], by simp [neon], fun _ b => (round_ok a64 b).1, fun _ b => (round_ok a64 b).2, fun b => eol_ok a64 b⟩

end Yenc.Enc.Simd.Neon
