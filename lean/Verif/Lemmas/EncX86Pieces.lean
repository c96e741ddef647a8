import Verif.Lemmas.EncX86Bits
/-! The vectors the slow paths store are the expansions of 8 or 16 characters, followed by something that is overwritten later. -/
namespace Yenc.Enc.Simd
open Yenc Vec
open Yenc.Dec.Simd (cnt cnt_add cnt_le cnt_congr)

/-- The first lanes of a vector are the expansion of `n` characters. -/
def Piece (v : Vec) (s : Nat → Bool) (b : Nat → Byte) (n : Nat) : Prop := toList v (n + cnt s n) = expand s b n

theorem Piece.store {v : Vec} {s : Nat → Bool} {b : Nat → Byte} {n : Nat} (h : Piece v s b n) : ∃ junk, toList v (2 * n) = expand s b n ++ junk := by
  have := cnt_le s n
  have e : 2 * n = (n + cnt s n) + (n - cnt s n) := by omega
  exact ⟨_, by rw [e, toList_add, h]⟩

theorem toList_eq_map {α : Type} (v : Vec) (n : Nat) (f : Nat → α) (g : α → Byte) (L : List α) (hL : (List.range n).map f = L) (h : ∀ x, x < n → v x = g (f x)) :
    toList v n = L.map g := by
  rw [← hL, List.map_map, toList]
  apply List.map_congr_left
  intro x hx
  exact h x (by simpa using hx)

theorem map_flatMap_pieces {α : Type} (n : Nat) (f : Nat → List α) (g : α → Byte) (F : Nat → List Byte) (h : ∀ j, j < n → (f j).map g = F j) :
    ((List.range n).flatMap f).map g = (List.range n).flatMap F := by
  rw [List.map_flatMap, List.flatMap, List.flatMap]
  congr 1
  apply List.map_congr_left
  intro j hj
  exact h j (by simpa using hj)

/-! ## Tables of eight characters -/

theorem shufMix_table : ∀ m : BitVec 8, (List.range (8 + popcnt m)).map (fun x => (X86.shuf m x, X86.mix m x)) =
    (List.range 8).flatMap fun j => if m.getLsbD j then [(0xf0#8 + BitVec.ofNat 8 j, EQ), (BitVec.ofNat 8 j, 106#8)] else [(BitVec.ofNat 8 j, 42#8)] := by
  decide +kernel

theorem shuf_idx : ∀ j, j < 8 → (0xf0#8 + BitVec.ofNat 8 j).msb = true ∧ (BitVec.ofNat 8 j).msb = false ∧ (BitVec.ofNat 8 j).toNat % 16 = j ∧
    ((0xf0#8 + BitVec.ofNat 8 j) ||| 8#8).msb = true ∧ (BitVec.ofNat 8 j ||| 8#8).msb = false ∧ (BitVec.ofNat 8 j ||| 8#8).toNat % 16 = 8 + j := by decide

theorem popcnt_byte (m : BitVec 8) (s : Nat → Bool) (h : ∀ j, j < 8 → m.getLsbD j = s j) : popcnt m = cnt s 8 := by
  rw [Dec.Simd.popcnt_eq]; exact cnt_congr h

theorem piece_shuf1 (m : BitVec 8) (s : Nat → Bool) (b : Nat → Byte) (data : Vec) (hm : ∀ j, j < 8 → m.getLsbD j = s j) (hd : ∀ j, j < 8 → data j = b j) :
    Piece (add (pshufb data (X86.shuf m)) (X86.mix m)) s b 8 := by
  have hc := cnt_le s 8
  rw [Piece, ← popcnt_byte m s hm, toList_eq_map _ _ (fun x => (X86.shuf m x, X86.mix m x)) (fun y => (if y.1.msb then 0#8 else data (y.1.toNat % 16)) + y.2) _ (shufMix_table m)]
  · apply map_flatMap_pieces
    intro j hj
    obtain ⟨h1, h2, h3, -⟩ := shuf_idx j hj
    simp only [ech, hm j hj]
    cases s j
    · simp only [Bool.false_eq_true, if_false, List.map_cons, List.map_nil, h2, h3, hd j hj]
    · simp only [if_true, List.map_cons, List.map_nil, h1, h2, h3, hd j hj, Bool.false_eq_true, if_false]
      rfl
  · intro x hx
    rw [popcnt_byte m s hm] at hx
    have : x / 16 * 16 = 0 := by omega
    simp only [add, pshufb, this, Nat.zero_add]

theorem piece_shuf2 (m : BitVec 8) (s : Nat → Bool) (b : Nat → Byte) (data : Vec) (hm : ∀ j, j < 8 → m.getLsbD j = s j) (hd : ∀ j, j < 8 → data (8 + j) = b j) :
    Piece (add (pshufb data (Vec.or (X86.shuf m) (set1 8#8))) (X86.mix m)) s b 8 := by
  have hc := cnt_le s 8
  rw [Piece, ← popcnt_byte m s hm, toList_eq_map _ _ (fun x => (X86.shuf m x, X86.mix m x)) (fun y => (if (y.1 ||| 8#8).msb then 0#8 else data ((y.1 ||| 8#8).toNat % 16)) + y.2) _
    (shufMix_table m)]
  · apply map_flatMap_pieces
    intro j hj
    obtain ⟨-, -, -, h1, h2, h3⟩ := shuf_idx j hj
    simp only [ech, hm j hj]
    cases s j
    · simp only [Bool.false_eq_true, if_false, List.map_cons, List.map_nil, h2, h3, hd j hj]
    · simp only [if_true, List.map_cons, List.map_nil, h1, h2, h3, hd j hj, Bool.false_eq_true, if_false]
      rfl
  · intro x hx
    rw [popcnt_byte m s hm] at hx
    have : x / 16 * 16 = 0 := by omega
    simp only [add, pshufb, this, Nat.zero_add, Vec.or, set1]

/-! ## Expanding with a mask register -/

theorem charBits_eq {w : Nat} (m : BitVec w) (s : Nat → Bool) (n : Nat) (h : ∀ j, j < n → m.getLsbD j = s j) : X86.charBits m n = (eqBits s n).map (!·) := by
  rw [X86.charBits, eqBits, List.map_flatMap, List.flatMap, List.flatMap]
  congr 1
  apply List.map_congr_left
  intro j hj
  rw [h j (by simpa using hj)]
  cases s j <;> rfl

theorem charBits_length {w : Nat} (m : BitVec w) (s : Nat → Bool) (n : Nat) (h : ∀ j, j < n → m.getLsbD j = s j) : (X86.charBits m n).length = n + cnt s n := by
  rw [charBits_eq m s n h, List.length_map, eqBits_length]

theorem expand_reg (s : Nat → Bool) (e : Nat → Bool) (data : Nat → Byte) (q : Byte) (n : Nat) (he : ∀ i, i < n + cnt s n → e i = !(eqBits s n).getD i false) :
    toList (fun x => if e x then data (cnt e x) else q) (n + cnt s n) = ((List.range n).flatMap fun j => if s j then [q, data j] else [data j]) ∧ cnt e (n + cnt s n) = n := by
  induction n with
  | zero => exact ⟨rfl, rfl⟩
  | succ n ih =>
    have hl := eqBits_length s n
    have hcs := cnt_succ s n
    rw [hcs] at he ⊢
    rw [eqBits_add, eqBits_one] at he
    simp only [Nat.add_zero] at he
    obtain ⟨h1, h2⟩ := ih (fun i hi => by rw [he i (by omega), getD_append_left _ _ _ _ (by omega)])
    cases hs : s n with
    | false =>
      simp only [hs, Bool.toNat_false, Bool.false_eq_true, if_false, Nat.add_zero] at he ⊢
      have e1 : n + 1 + cnt s n = (n + cnt s n) + 1 := by omega
      have hq := he (n + cnt s n) (by omega)
      rw [getD_append_right _ _ _ _ (by omega), hl, Nat.sub_self] at hq
      simp only [List.getD_cons_zero, Bool.not_false] at hq
      rw [e1, toList_add, h1, cnt_succ, h2, hq, List.range_succ, List.flatMap_append]
      refine ⟨?_, rfl⟩
      congr 1
      simp [toList, List.range_one, hq, h2, hs]
    | true =>
      simp only [hs, Bool.toNat_true, if_true] at he ⊢
      have e1 : n + 1 + (cnt s n + 1) = (n + cnt s n) + 1 + 1 := by omega
      have hq := he (n + cnt s n) (by omega)
      have hq2 := he (n + cnt s n + 1) (by omega)
      rw [getD_append_right _ _ _ _ (by omega), hl] at hq hq2
      rw [Nat.sub_self] at hq
      have : n + cnt s n + 1 - (n + cnt s n) = 1 := by omega
      rw [this] at hq2
      simp only [List.getD_cons_zero, List.getD_cons_succ, Bool.not_false, Bool.not_true] at hq hq2
      have h3 : cnt e (n + cnt s n + 1) = n := by rw [cnt_succ, h2, hq]; rfl
      rw [e1, toList_add, toList_add, h1, cnt_succ, h3, hq2, List.range_succ, List.flatMap_append]
      refine ⟨?_, rfl⟩
      rw [List.append_assoc]
      congr 1
      simp [toList, List.range_one, hq, hq2, h3, hs]

/-- The table entry has the expected bits. -/
theorem expandMask_bits (m : BitVec 8) (s : Nat → Bool) (h : ∀ j, j < 8 → m.getLsbD j = s j) : Bits (X86.expandMask m) ((eqBits s 8).map (!·)) := by
  intro i
  have hl := charBits_length m s 8 h
  have := cnt_le s 8
  rw [X86.expandMask, getLsbD_ofBits, charBits_eq m s 8 h]
  rw [charBits_eq m s 8 h] at hl
  by_cases hi : i < 16
  · simp [hi]
  · simp only [hi, decide_false, Bool.false_and]
    rw [List.getD_eq_getElem?_getD, List.getElem?_eq_none (by omega)]; rfl

theorem expand16_bits (m : BitVec 16) (s : Nat → Bool) (h : ∀ j, j < 16 → m.getLsbD j = s j) : Bits (X86.expand16 m) ((eqBits s 16).map (!·)) := by
  intro i
  have hl := charBits_length m s 16 h
  have := cnt_le s 16
  rw [X86.expand16, getLsbD_ofBits, charBits_eq m s 16 h]
  rw [charBits_eq m s 16 h] at hl
  by_cases hi : i < 32
  · simp [hi]
  · simp only [hi, decide_false, Bool.false_and]
    rw [List.getD_eq_getElem?_getD, List.getElem?_eq_none (by omega)]; rfl

theorem getD_map_not (L : List Bool) (i : Nat) (h : i < L.length) : (L.map (!·)).getD i false = !L.getD i false := by
  simp [List.getD_eq_getElem?_getD, h]

theorem piece_expand {w : Nat} (k : BitVec w) (s : Nat → Bool) (b : Nat → Byte) (data : Vec) (n : Nat) (hk : Bits k ((eqBits s n).map (!·)))
    (hd : ∀ j, j < n → data j = b j + if s j then 106#8 else 42#8) : Piece (maskExpand (set1 EQ) k data) s b n := by
  have h := (expand_reg s k.getLsbD data EQ n (fun i hi => by rw [hk i, getD_map_not _ _ (by rw [eqBits_length]; exact hi)])).1
  rw [Piece]
  refine h.trans ?_
  rw [expand, List.flatMap, List.flatMap]
  congr 1
  apply List.map_congr_left
  intro j hj
  rw [ech, hd j (by simpa using hj)]
  cases s j <;> rfl

/-! ## Expanding byte by byte (SSE2) -/

theorem mask_lt {mask : BitVec 32} {h : Nat} (hb : ∀ j, h ≤ j → mask.getLsbD j = false) : mask.toNat < 2 ^ h := by
  apply Nat.lt_pow_two_of_testBit
  intro i hi
  exact hb i hi

theorem top_log2 {mask : BitVec 32} {h : Nat} (hs : mask.getLsbD h = true) (hb : ∀ j, h + 1 ≤ j → mask.getLsbD j = false) : mask.toNat.log2 = h := by
  have h1 := mask_lt hb
  have h2 : 2 ^ h ≤ mask.toNat := Nat.ge_two_pow_of_testBit hs
  have h0 : mask.toNat ≠ 0 := by have := Nat.two_pow_pos h; omega
  exact (Nat.log2_eq_iff h0).2 ⟨h2, h1⟩

theorem entry_top (h : Nat) (h32 : h < 32) : X86.entryPos true (31 - h) = h ∧ X86.entryPos false (h + 1) = h := by
  simp only [X86.entryPos, if_true, Bool.false_eq_true, if_false]
  rw [if_neg (by omega), if_neg (by omega)]
  omega

theorem clear_top (h : Nat) (h32 : h < 32) (mask : BitVec 32) (hs : mask.getLsbD h = true) (hb : ∀ j, h + 1 ≤ j → mask.getLsbD j = false) (j : Nat) :
    (mask &&& (0x7fffffff#32 >>> (31 - h))).getLsbD j = (decide (j ≠ h) && mask.getLsbD j) ∧ (mask ^^^ (1#32 <<< h)).getLsbD j = (decide (j ≠ h) && mask.getLsbD j) := by
  constructor
  · rw [BitVec.getLsbD_and, BitVec.getLsbD_ushiftRight]
    have e : (0x7fffffff#32) = BitVec.ofNat 32 (2 ^ 31 - 1) := rfl
    rw [e, Dec.Simd.getLsbD_low]
    by_cases h1 : j = h
    · subst h1
      have : ¬ 31 - j + j < 31 := by omega
      simp [this]
    · by_cases h2 : j < h
      · have : 31 - h + j < 31 := by omega
        simp [h1, this, show 31 - h + j < 32 by omega]
      · rw [hb j (by omega)]; simp
  · rw [BitVec.getLsbD_xor, BitVec.getLsbD_shiftLeft, BitVec.getLsbD_one]
    by_cases h1 : j = h
    · subst h1; simp [hs, h32]
    · by_cases h2 : j < h
      · simp [h1, h2]
      · have : ¬ j - h = 0 := by omega
        simp [h1, this]

theorem expandBytes_spec (lz : Bool) (h : Nat) : ∀ (fuel : Nat) (mask : BitVec 32) (data : Vec), h ≤ fuel → h ≤ 32 → (∀ j, h ≤ j → mask.getLsbD j = false) → ∀ n, h ≤ n →
    toList (X86.expandBytes lz fuel mask data) (n + cnt mask.getLsbD n) = (List.range n).flatMap fun j => if mask.getLsbD j then [0#8, data j] else [data j] := by
  induction h with
  | zero =>
    intro fuel mask data _ _ hb n _
    have hz : mask = 0#32 := (eq_zero_iff _).2 fun j _ => hb j (by omega)
    have e : X86.expandBytes lz fuel mask data = data := by
      cases fuel with
      | zero => rfl
      | succ f => rw [X86.expandBytes, if_pos hz]
    rw [e]
    have : cnt mask.getLsbD n = 0 := by
      rw [cnt_congr (g := fun _ => false) (fun j _ => hb j (by omega)), Dec.Simd.cnt_false]
    rw [this, Nat.add_zero, toList]
    rw [List.flatMap, List.map_eq_flatMap, List.flatMap]
    congr 1
    apply List.map_congr_left
    intro j _
    rw [hb j (by omega)]; rfl
  | succ h ih =>
    intro fuel mask data hf h32 hb n hn
    cases hs : mask.getLsbD h with
    | false =>
      exact ih fuel mask data (by omega) (by omega) (fun j hj => by by_cases e : j = h; rw [e]; exact hs; exact hb j (by omega)) n (by omega)
    | true =>
      obtain ⟨f, rfl⟩ : ∃ f, fuel = f + 1 := ⟨fuel - 1, by omega⟩
      have hnz : mask ≠ 0#32 := fun e => by rw [e] at hs; simp at hs
      have hlog := top_log2 hs hb
      have hent := entry_top h (by omega)
      have hclr := clear_top h (by omega) mask hs hb
      have hlz : lzcnt32 mask = 31 - h := by rw [lzcnt32, if_neg hnz, hlog]
      have hbs : bsr32 mask = h := hlog
      -- the mask and the data after the round
      obtain ⟨mask', hm', data', hd', he⟩ : ∃ mask' : BitVec 32, (∀ j, mask'.getLsbD j = (decide (j ≠ h) && mask.getLsbD j)) ∧ ∃ data' : Vec,
          (∀ j, data' j = if j < h then data j else if j = h then 0#8 else data (j - 1)) ∧ X86.expandBytes lz (f + 1) mask data = X86.expandBytes lz f mask' data' := by
        have hvec : ∀ (M : Vec), (∀ j, M j = bm (h > j)) → ∀ j, Vec.or (Vec.and M data) (slliSi (andnot M data) 1) j = if j < h then data j else if j = h then 0#8 else data (j - 1) := by
          intro M hM j
          simp only [Vec.or, Vec.and, slliSi, andnot, hM, bm_and_byte, bm_not]
          by_cases h1 : j < h
          · simp only [gt_iff_lt, h1, decide_true, if_true]
            by_cases h2 : j < 1
            · simp [h2]
            · simp [h2, show j - 1 < h by omega]
          · by_cases h2 : j = h
            · subst h2
              by_cases h3 : j < 1
              · simp [h3]
              · simp [h3, show j - 1 < j by omega]
            · simp [h1, h2, show ¬ j < 1 by omega, show ¬ j - 1 < h by omega]
        cases lz with
        | true =>
          refine ⟨_, fun j => (hclr j).1, _, hvec (X86.expandMaskmix true (31 - h)) (fun j => by rw [X86.expandMaskmix, hent.1]), ?_⟩
          rw [X86.expandBytes, if_neg hnz]
          simp only [if_true, hlz]
        | false =>
          refine ⟨_, fun j => (hclr j).2, _, hvec (X86.expandMaskmix false (h + 1)) (fun j => by rw [X86.expandMaskmix, hent.2]), ?_⟩
          rw [X86.expandBytes, if_neg hnz]
          simp only [Bool.false_eq_true, if_false, hbs]
      have hi := ih f mask' data' (by omega) (by omega) (fun j hj => by
        rw [hm']
        by_cases e : j = h
        · simp [e]
        · rw [hb j (by omega)]; simp) (n + 1) (by omega)
      obtain ⟨q, rfl⟩ : ∃ q, n = h + (1 + q) := ⟨n - h - 1, by omega⟩
      -- the counts
      have hc1 : cnt mask.getLsbD (h + (1 + q)) = cnt mask.getLsbD h + 1 := by
        rw [cnt_add, cnt_add, cnt_congr (g := fun _ => false) (n := q), Dec.Simd.cnt_false]
        · simp only [cnt, List.range_one]; simp [hs]
        · intro j _; exact hb _ (by omega)
      have hc2 : cnt mask'.getLsbD (h + (1 + q) + 1) = cnt mask.getLsbD h := by
        rw [Nat.add_assoc h, cnt_add, cnt_congr (g := mask.getLsbD) (n := h), cnt_congr (g := fun _ => false) (n := 1 + q + 1), Dec.Simd.cnt_false, Nat.add_zero]
        · intro j _
          rw [hm']
          by_cases e : j = 0
          · subst e; simp
          · rw [hb _ (by omega)]; simp
        · intro j hj
          rw [hm']; simp [show ¬ j = h by omega]
      rw [he, hc1]
      rw [hc2] at hi
      have e1 : h + (1 + q) + (cnt mask.getLsbD h + 1) = h + (1 + q) + 1 + cnt mask.getLsbD h := by omega
      rw [e1, hi]
      have e2 : h + (1 + q) + 1 = h + (1 + (1 + q)) := by omega
      rw [e2]
      simp only [List.range_add, List.flatMap_append, List.flatMap_map]
      congr 1
      · rw [List.flatMap, List.flatMap]
        congr 1
        apply List.map_congr_left
        intro j hj
        have hj : j < h := by simpa using hj
        rw [hm', hd', if_pos hj]
        simp [show ¬ j = h by omega]
      · have a0 : mask'.getLsbD (h + 0) = false := by rw [hm']; simp
        have a1 : mask'.getLsbD (h + (1 + 0)) = false := by rw [hm', hb _ (by omega)]; simp
        have a2 : mask.getLsbD (h + 0) = true := hs
        have b0 : data' (h + 0) = 0#8 := by rw [hd']; simp
        have b1 : data' (h + (1 + 0)) = data h := by rw [hd', if_neg (by omega), if_neg (by omega)]; rfl
        simp only [List.range_one, List.flatMap_singleton, a0, a1, a2, b0, b1, Bool.false_eq_true, if_false, if_true]
        simp only [List.singleton_append, List.cons_append, List.nil_append, Nat.add_zero, List.cons.injEq, true_and]
        rw [List.flatMap, List.flatMap]
        congr 1
        apply List.map_congr_left
        intro j _
        have b2 : data' (h + (1 + (1 + j))) = data (h + (1 + j)) := by
          rw [hd', if_neg (by omega), if_neg (by omega)]
          congr 1; omega
        rw [hm', hb (h + (1 + (1 + j))) (by omega), hb (h + (1 + j)) (by omega), b2]
        simp only [Bool.and_false, Bool.false_eq_true, if_false]

theorem piece_sse2 (lz : Bool) (m : BitVec 8) (s : Nat → Bool) (b : Nat → Byte) (data : Vec) (hm : ∀ j, j < 8 → m.getLsbD j = s j) (hd : ∀ j, j < 8 → data j = b j) :
    Piece (X86.sse2Piece lz m data) s b 8 := by
  have hc := cnt_le s 8
  have hp := popcnt_byte m s hm
  have hmw : ∀ j, (m.setWidth 32).getLsbD j = (decide (j < 8) && m.getLsbD j) := by
    intro j
    rw [BitVec.getLsbD_setWidth]
    by_cases h : j < 8
    · simp [h, show j < 32 by omega]
    · rw [BitVec.getLsbD_of_ge m j (by omega)]; simp
  have hx := expandBytes_spec lz 8 32 (m.setWidth 32) data (by omega) (by omega) (fun j hj => by rw [hmw]; simp; omega) 8 (Nat.le_refl _)
  have hc8 : cnt (m.setWidth 32).getLsbD 8 = cnt s 8 := cnt_congr fun j hj => by rw [hmw, hm j hj]; simp [hj]
  rw [hc8] at hx
  have hmix : (List.range (8 + cnt s 8)).map (X86.mix m) = (List.range 8).flatMap fun j => if m.getLsbD j then [EQ, 106#8] else [42#8] := by
    have := congrArg (List.map Prod.snd) (shufMix_table m)
    rw [List.map_map, hp] at this
    refine Eq.trans this ?_
    rw [List.map_flatMap, List.flatMap, List.flatMap]
    congr 1
    apply List.map_congr_left
    intro j _
    cases m.getLsbD j <;> rfl
  rw [Piece]
  have hz : toList (X86.sse2Piece lz m data) (8 + cnt s 8) = List.zipWith (· + ·) (toList (X86.expandBytes lz 32 (m.setWidth 32) data) (8 + cnt s 8)) ((List.range (8 + cnt s 8)).map (X86.mix m)) := by
    rw [toList, toList, List.zipWith_map, List.zipWith_self]
    rfl
  rw [hz, hx, hmix]
  -- both lists are built from the same pieces
  have key : ∀ (n : Nat) (f g F : Nat → List Byte), (∀ j, j < n → (f j).length = (g j).length ∧ List.zipWith (· + ·) (f j) (g j) = F j) →
      List.zipWith (· + ·) ((List.range n).flatMap f) ((List.range n).flatMap g) = (List.range n).flatMap F ∧ ((List.range n).flatMap f).length = ((List.range n).flatMap g).length := by
    intro n f g F
    induction n with
    | zero => intro _; exact ⟨rfl, rfl⟩
    | succ n ih =>
      intro h
      obtain ⟨i1, i2⟩ := ih (fun j hj => h j (by omega))
      obtain ⟨j1, j2⟩ := h n (by omega)
      simp only [List.range_succ, List.flatMap_append, List.flatMap_singleton]
      rw [List.zipWith_append i2, i1, j2]
      exact ⟨rfl, by simp only [List.length_append, i2, j1]⟩
  refine (key 8 _ _ _ ?_).1
  intro j hj
  rw [hmw, hm j hj]
  simp only [hj, decide_true, Bool.true_and, ech, hd j hj]
  cases s j
  · exact ⟨rfl, rfl⟩
  · exact ⟨rfl, by simp⟩

end Yenc.Enc.Simd
