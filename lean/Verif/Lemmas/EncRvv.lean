import Verif.Lemmas.EncEol
import Verif.Lemmas.EncX86Sse
import Verif.Model.EncoderRvv
/-! The rounds and the end of a line of `do_encode_rvv` are right. -/
namespace Yenc.Enc.Simd.Rvv
open Yenc Vec Yenc.Rvv
open Yenc.Dec.Simd (cnt cnt_add cnt_le cnt_congr)

theorem cpop_eq (m : Mask) (n : Nat) : cpop m n = cnt m n := by rw [cpop, cnt, List.countP_eq_length_filter]

/-! ## Searching -/

theorem cmp_byte : ∀ x : Byte, ((x == -42#8 || x - -42#8 == 61#8) || (x == 13#8 - 42#8 || x == 10#8 - 42#8)) = Spec.critical (x + 42#8) := by decide +kernel

theorem cmp_eq (b : Nat → Byte) : cmp b = special false b := by
  funext j
  rw [show special false b j = Spec.critical (b j + 42#8) by simp [special], ← cmp_byte]
  simp only [cmp, mor, mseq, tmpData, load, Vec.sub, set1, Nat.zero_add]

theorem data_byte : ∀ x : Byte, (if Spec.critical (x + 42#8) then (x - -42#8) ||| 64#8 else x - -42#8) = x + if Spec.critical (x + 42#8) then 106#8 else 42#8 := by decide +kernel

theorem data_eq (b : Nat → Byte) (j : Nat) : data b j = b j + if special false b j then 106#8 else 42#8 := by
  rw [data, orMasked, cmp_eq, show special false b j = Spec.critical (b j + 42#8) by simp [special], ← data_byte]
  simp only [tmpData, load, Vec.sub, set1, Nat.zero_add]

/-! ## Several special characters -/

theorem nibble : ∀ x : Byte, ∀ q, q < 2 → (((x.setWidth 16 * (16#8).setWidth 16) >>> (8 * q)).setWidth 8 >>> ((((4#16 >>> (8 * q)).setWidth 8 : Byte).toNat) % 8)).toNat < 16 ∧
    ∀ i, i < 8 → (maskExpand (((x.setWidth 16 * (16#8).setWidth 16) >>> (8 * q)).setWidth 8 >>> ((((4#16 >>> (8 * q)).setWidth 8 : Byte).toNat) % 8)).toNat).getLsbD i =
      (decide (i % 2 = 1) || x.getLsbD (4 * q + i / 2)) := by decide +kernel

theorem cmpmask_eq (vl : Nat) (hvl : 32 ≤ vl) (c : Mask) (k : Nat) : cmpmask vl c k = (decide (k % 2 = 1) || c (k / 2)) := by
  obtain ⟨h1, h2⟩ := nibble (maskBytes c (k / 8 / 2)) (k / 8 % 2) (by omega)
  have e0 : cmpmask vl c k = (maskExpand (srl (bytesOf16 (wmulu (maskBytes c) 16#8)) altShift (k / 8)).toNat).getLsbD (k % 8) := by
    rw [cmpmask, bytesMask, rgather]
    have h1' : (srl (bytesOf16 (wmulu (maskBytes c) 16#8)) altShift (k / 8)).toNat < 16 := h1
    rw [if_pos (by omega)]
  refine (e0.trans (h2 (k % 8) (by omega))).trans ?_
  rw [maskBytes, getLsbD_ofBits]
  have e1 : k % 8 % 2 = k % 2 := by omega
  have e2 : 4 * (k / 8 % 2) + k % 8 / 2 < 8 := by omega
  have e3 : 8 * (k / 8 / 2) + (4 * (k / 8 % 2) + k % 8 / 2) = k / 2 := by omega
  simp only [e1, e2, e3, decide_true, Bool.true_and]

/-- How many bits there are below an even position. -/
theorem cnt_pairs {m c : Mask} (h : ∀ k, m k = (decide (k % 2 = 1) || c (k / 2))) (n : Nat) : cnt m (2 * n) = n + cnt c n := by
  induction n with
  | zero => rfl
  | succ n ih =>
    rw [show 2 * (n + 1) = 2 * n + 1 + 1 by omega, cnt_succ, cnt_succ, ih, cnt_succ, h, h]
    have e1 : (2 * n) % 2 = 0 := by omega
    have e2 : (2 * n + 1) % 2 = 1 := by omega
    have e3 : 2 * n / 2 = n := by omega
    simp only [e1, e2, e3]
    cases c n <;> simp <;> omega

theorem data2_eq (d : Vec) (j : Nat) : data2 d (2 * j) = EQ ∧ data2 d (2 * j + 1) = d j := by
  have h : ∀ x : Byte, (((x.setWidth 16 <<< 8) ||| 61#16) >>> (8 * 0)).setWidth 8 = EQ ∧ (((x.setWidth 16 <<< 8) ||| 61#16) >>> (8 * 1)).setWidth 8 = x := by decide +kernel
  simp only [data2, bytesOf16, show 2 * j / 2 = j by omega, show 2 * j % 2 = 0 by omega, show (2 * j + 1) / 2 = j by omega, show (2 * j + 1) % 2 = 1 by omega]
  exact h (d j)

theorem compress_pairs {m c : Mask} (h : ∀ k, m k = (decide (k % 2 = 1) || c (k / 2))) (b : Nat → Byte) (d : Vec) (hd : ∀ j, d j = b j + if c j then 106#8 else 42#8) (n : Nat) :
    ((List.range (2 * n)).filterMap fun k => if m k then some (data2 d k) else none) = expand c b n := by
  induction n with
  | zero => rfl
  | succ n ih =>
    rw [show 2 * (n + 1) = 2 * n + 1 + 1 by omega, List.range_succ, List.range_succ, List.filterMap_append, List.filterMap_append, ih, expand_add, List.append_assoc, expand_one]
    congr 1
    obtain ⟨e1, e2⟩ := data2_eq d n
    have m1 : m (2 * n) = c n := by
      rw [h, show (2 * n) % 2 = 0 by omega, show 2 * n / 2 = n by omega]; simp
    have m2 : m (2 * n + 1) = true := by
      rw [h, show (2 * n + 1) % 2 = 1 by omega]; simp
    simp only [List.filterMap_cons, List.filterMap_nil, m1, m2, e1, e2, if_true, hd, ech, Nat.add_zero]
    cases c n <;> simp

theorem toList_getD (l : List Byte) (junk : Vec) (n : Nat) (h : l.length ≤ n) : toList (fun j => l.getD j (junk j)) n = l ++ toList (fun j => junk (l.length + j)) (n - l.length) := by
  obtain ⟨k, rfl⟩ : ∃ k, n = l.length + k := ⟨n - l.length, by omega⟩
  rw [toList_add, Nat.add_sub_cancel_left]
  congr 1
  · apply List.ext_getElem
    · simp [toList]
    · intro i h1 h2
      simp [toList, List.getD_eq_getElem?_getD, h2]
  · apply toList_congr
    intro j _
    rw [List.getD_eq_getElem?_getD, List.getElem?_eq_none (by omega)]; rfl

/-- Where to cut, from the number of bits at or after the cut. -/
theorem revert_pairs {m c : Mask} (h : ∀ k, m k = (decide (k % 2 = 1) || c (k / 2))) (n T : Nat) (h1 : 1 ≤ T) (h2 : T ≤ n + cnt c n) :
    (-(((n + cnt c n : Nat) : Int) - T + (cnt (fun k => decide (T ≤ cnt m k)) (2 * n) % 2 : Nat)), -(((cnt (fun k => decide (T ≤ cnt m k)) (2 * n) + 1) / 2 : Nat) : Int)) = goBack (eqBits c n) T := by
  induction n with
  | zero => simp [cnt] at h2; omega
  | succ n ih =>
    have hm := cnt_pairs h n
    have hm1 : cnt m (2 * n + 1) = n + cnt c n + (c n).toNat := by
      rw [cnt_succ, hm, h, show (2 * n) % 2 = 0 by omega, show 2 * n / 2 = n by omega]; simp
    have hc := cnt_succ c n
    have hlA := eqBits_length c n
    have hlB : (eqBits (fun j => c (n + j)) 1).length = 1 + (c n).toNat := by
      rw [eqBits_one, Nat.add_zero]; cases c n <;> rfl
    have hcB : (eqBits (fun j => c (n + j)) 1).count true = (c n).toNat := by
      rw [eqBits_one, Nat.add_zero]; cases c n <;> rfl
    have hP : cnt (fun k => decide (T ≤ cnt m k)) (2 * (n + 1)) = cnt (fun k => decide (T ≤ cnt m k)) (2 * n) + (decide (T ≤ n + cnt c n)).toNat + (decide (T ≤ n + cnt c n + (c n).toNat)).toNat := by
      rw [show 2 * (n + 1) = 2 * n + 1 + 1 by omega, cnt_succ, cnt_succ, hm, hm1]
    rw [eqBits_add, goBack_append _ _ T h1 (by omega), hP]
    by_cases hT : T ≤ n + cnt c n
    · have ih' := ih hT
      simp only [goBack] at ih'
      rw [if_pos (by omega)]
      have d1 : decide (T ≤ n + cnt c n) = true := by simpa using hT
      have d2 : decide (T ≤ n + cnt c n + (c n).toNat) = true := by simp; omega
      rw [d1, d2, hcB, hlB]
      simp only [Prod.mk.injEq, Bool.toNat_true] at ih' ⊢
      generalize cnt (fun k => decide (T ≤ cnt m k)) (2 * n) = P at *
      generalize (if (eqBits c n).getD (T - 1) false = true then (1 : Int) else 0) = e at *
      omega
    · have hz : cnt (fun k => decide (T ≤ cnt m k)) (2 * n) = 0 := by
        rw [cnt_congr (g := fun _ => false), Dec.Simd.cnt_false]
        intro k hk
        have : cnt m k ≤ cnt m (2 * n) := by
          obtain ⟨x, hx⟩ : ∃ x, 2 * n = k + x := ⟨2 * n - k, by omega⟩
          rw [hx, cnt_add]; omega
        simp; omega
      have d1 : decide (T ≤ n + cnt c n) = false := by simpa using hT
      rw [if_neg (by omega), hz, d1, hlB]
      rw [hc] at h2 ⊢
      cases hcn : c n
      · rw [hcn] at h2
        simp only [Bool.toNat_false, Nat.add_zero] at h2 ⊢
        have hT' : T - 1 - (eqBits c n).length = 0 := by omega
        have d2 : decide (T ≤ n + cnt c n) = false := by simpa using hT
        rw [show eqBits (fun j => c (n + j)) 1 = [false] by rw [eqBits_one, Nat.add_zero, hcn]; rfl, hT', d2]
        simp
        omega
      · rw [hcn] at h2
        simp only [Bool.toNat_true] at h2 ⊢
        rw [show eqBits (fun j => c (n + j)) 1 = [true, false] by rw [eqBits_one, Nat.add_zero, hcn]; rfl]
        rcases (by omega : T = n + cnt c n + 1 ∨ T = n + cnt c n + 2) with hT | hT
        · have hT' : T - 1 - (eqBits c n).length = 0 := by omega
          have d2 : decide (T ≤ n + cnt c n + 1) = true := by simp; omega
          rw [hT', d2]
          simp
          omega
        · have hT' : T - 1 - (eqBits c n).length = 1 := by omega
          have d2 : decide (T ≤ n + cnt c n + 1) = false := by simp; omega
          rw [hT', d2]
          simp
          omega

theorem slow_ok (vl : Nat) (hvl : 32 ≤ vl) (hvl2 : vl ≤ 16384) (junk : Vec) (b : Nat → Byte) :
    (slow vl junk b (cpop (cmp b) vl)).toRound.Ok vl false b ∧ (slow vl junk b (cpop (cmp b) vl)).colAdv = (slow vl junk b (cpop (cmp b) vl)).adv := by
  have hm := cmpmask_eq vl hvl (special false b)
  have hle := cnt_le (special false b) vl
  rw [cpop_eq, cmp_eq]
  refine ⟨Round.ok_of rfl ?_ ?_, rfl⟩
  · simp only [slow, cmp_eq]
    have e : toList (Rvv.compress (cmpmask vl (special false b)) (data2 (data b)) junk (vl * 2)) (vl * 2) =
        expand (special false b) b vl ++ toList (fun j => junk ((expand (special false b) b vl).length + j)) (vl * 2 - (expand (special false b) b vl).length) := by
      have h1 := compress_pairs hm b (data b) (data_eq b) vl
      rw [← toList_getD _ junk _ (by rw [expand_length]; omega)]
      unfold Rvv.compress
      rw [Nat.mul_comm vl 2, h1]
    rw [Nat.mul_comm 2 vl]
    exact (Writes.nil (vl * 2)).snoc 0 rfl _ _ _ e (by rw [toList_length]; omega)
  · intro T t1 t2
    have hadv : (slow vl junk b (cnt (special false b) vl)).adv = vl + cnt (special false b) vl := rfl
    rw [hadv] at t2 ⊢
    rw [← revert_pairs hm vl T t1 t2]
    have hidx : idxRevert vl (cmpmask vl (special false b)) (cnt (special false b) vl) (((vl + cnt (special false b) vl : Nat) : Int) - T) =
        cnt (fun k => decide (T ≤ cnt (cmpmask vl (special false b)) k)) (2 * vl) := by
      rw [idxRevert, cpop_eq, Nat.mul_comm vl 2]
      apply cnt_congr
      intro k hk
      have e : (vl : Int) + cnt (special false b) vl - (((vl + cnt (special false b) vl : Nat) : Int) - T) = (T : Nat) := by omega
      rw [msgeu, e, BitVec.ofInt_natCast, iota, List.countP_eq_length_filter]
      have := cnt_le (cmpmask vl (special false b)) k
      apply decide_eq_decide.2
      rw [BitVec.le_def, BitVec.toNat_ofNat, BitVec.toNat_ofNat, Nat.mod_eq_of_lt (by omega)]
      change T ≤ cnt (cmpmask vl (special false b)) k % 2 ^ 16 ↔ _
      rw [Nat.mod_eq_of_lt (by omega)]
    simp only [slow, cmp_eq, hidx]

/-! ## At most one special character -/

theorem msbf_one {s : Mask} {n k : Nat} (h : One s n k) (j : Nat) (hj : j < n) : msbf s j = decide (j < k) := by
  by_cases hjk : j < k
  · have : (List.range (j + 1)).any s = false := by
      rw [List.any_eq_false]
      intro i hi
      rw [List.mem_range] at hi
      rw [h.2 i (by omega)]; simp; omega
    simp [msbf, this, hjk]
  · have : (List.range (j + 1)).any s = true := by
      rw [List.any_eq_true]
      exact ⟨k, by simp; omega, by rw [h.2 k (by omega)]; simp⟩
    simp [msbf, this, hjk]

theorem cnt_lt (n k : Nat) (h : k ≤ n) : cnt (fun j => decide (j < k)) n = k := by
  obtain ⟨x, rfl⟩ : ∃ x, n = k + x := ⟨n - k, by omega⟩
  have a : ∀ m, m ≤ k → cnt (fun j => decide (j < k)) m = m := by
    intro m hm
    induction m with
    | zero => rfl
    | succ m ih => rw [cnt_succ, ih (by omega)]; simp; omega
  rw [cnt_add, a k (by omega), cnt_congr (g := fun _ => false) (by intro j _; simp), Dec.Simd.cnt_false]; rfl

/-- Storing elements `[lo, hi)` one by one. -/
theorem Writes.elems {l : List (Nat × List Byte)} {out : List Byte} {N : Nat} (hw : Writes l out N) (m : Mask) (o : Nat) (a : Vec) (lo : Nat) (n : Nat)
    (hm : ∀ j, j < lo + n → m j = decide (lo ≤ j)) (ho : o + lo = out.length) (hN : o + lo + n ≤ N) :
    Writes (l ++ storeMasked m o a (lo + n)) (out ++ toList (fun j => a (lo + j)) n) N := by
  induction n with
  | zero =>
    have : storeMasked m o a (lo + 0) = [] := by
      rw [storeMasked, List.filterMap_eq_nil_iff]
      intro j hj
      rw [List.mem_range] at hj
      rw [hm j hj]; simp; omega
    rw [this]
    simpa [toList] using hw
  | succ n ih =>
    have ih' := ih (fun j hj => hm j (by omega)) (by omega)
    have e : storeMasked m o a (lo + (n + 1)) = storeMasked m o a (lo + n) ++ [(o + (lo + n), [a (lo + n)])] := by
      simp only [storeMasked]
      rw [← Nat.add_assoc, List.range_succ, List.filterMap_append, List.filterMap_cons, hm (lo + n) (by omega)]
      simp
    rw [e, toList_add, ← List.append_assoc, ← List.append_assoc]
    exact ih'.snoc _ (by rw [List.length_append, toList_length]; omega) _ [] _ (by simp [toList]) (by simp; omega)

/-- Storing the elements before `n`. -/
theorem Writes.firsts {l : List (Nat × List Byte)} {out : List Byte} {N : Nat} (hw : Writes l out N) (m : Mask) (o : Nat) (a : Vec) (n r : Nat)
    (hm : ∀ j, j < n + r → m j = decide (j < n)) (ho : o = out.length) (hN : o + n ≤ N) :
    Writes (l ++ storeMasked m o a (n + r)) (out ++ toList a n) N := by
  have e : storeMasked m o a (n + r) = storeMasked (fun _ => true) o a n := by
    simp only [storeMasked]
    rw [List.range_add, List.filterMap_append]
    have e2 : ((List.range r).map (n + ·)).filterMap (fun j => if m j = true then some (o + j, [a j]) else none) = [] := by
      rw [List.filterMap_eq_nil_iff]
      intro j hj
      simp only [List.mem_map, List.mem_range] at hj
      obtain ⟨x, hx, rfl⟩ := hj
      rw [hm _ (by omega)]; simp
    rw [e2, List.append_nil]
    have key : ∀ l : List Nat, (∀ j, j ∈ l → j < n) → (l.filterMap fun j => if m j = true then some (o + j, [a j]) else none) =
        l.filterMap fun j => if (fun _ => true) j = true then some (o + j, [a j]) else none := by
      intro l hl
      induction l with
      | nil => rfl
      | cons x l ih =>
        have hx := hl x (by simp)
        rw [List.filterMap_cons, List.filterMap_cons, ih fun j hj => hl j (by simp [hj]), hm x (by omega)]
        simp [hx]
    exact key _ fun j hj => List.mem_range.1 hj
  rw [e]
  have := Writes.elems hw (fun _ => true) o a 0 n (fun j _ => by simp) ho (by omega)
  simpa using this

theorem fast_ok (vl : Nat) (hvl : 32 ≤ vl) (b : Nat → Byte) (hc : cpop (cmp b) vl ≤ 1) :
    (fast vl b (cpop (cmp b) vl)).toRound.Ok vl false b ∧ (fast vl b (cpop (cmp b) vl)).colAdv = (fast vl b (cpop (cmp b) vl)).adv := by
  rw [cpop_eq, cmp_eq] at hc ⊢
  obtain ⟨k, hk⟩ := one_of_cnt _ _ hc
  have hkn := hk.1
  have hcnt := hk.cnt
  have hidx : cpop (msbf (special false b)) vl = k := by
    rw [cpop_eq, cnt_congr (g := fun j => decide (j < k)) (fun j hj => msbf_one hk j hj), cnt_lt vl k hkn]
  have hd : ∀ j, j < vl → data b j = b j + if j = k then 106#8 else 42#8 := by
    intro j hj
    rw [data_eq, hk.2 j hj]; simp only [decide_eq_true_eq]
  have hadv : (fast vl b (cnt (special false b) vl)).adv = vl + cnt (special false b) vl := rfl
  refine ⟨Round.ok_of rfl ?_ ?_, rfl⟩
  · simp only [fast, cmp_eq, hidx]
    obtain ⟨r, hr⟩ : ∃ r, vl = k + r := ⟨vl - k, by omega⟩
    have w1 := Writes.firsts (Writes.nil (2 * vl)) (msbf (special false b)) 0 (data b) k r (fun j hj => msbf_one hk j (by omega)) rfl (by omega)
    have w2 := w1.snoc k (by simp [toList]) [61#8] [] [61#8] rfl (by simp; omega)
    have w3 := Writes.elems w2 (mnot (msbf (special false b))) 1 (data b) k r (fun j hj => by
      rw [mnot, msbf_one hk j (by omega)]
      by_cases h : j < k
      · simp [h]
      · simp [h]; omega) (by simp [toList]; omega) (by omega)
    rw [← hr] at w3
    simp only [List.nil_append] at w3
    rw [hk.expand b]
    have eA : toList (data b) k = toList (oneOut b k) k := toList_congr fun j hj => by rw [oneOut_lt hj, hd j (by omega)]; simp [show ¬ j = k by omega]
    by_cases h : k < vl
    · rw [if_pos h]
      have e : toList (oneOut b k) (vl + 1) = toList (data b) k ++ [61#8] ++ toList (fun j => data b (k + j)) r := by
        rw [show vl + 1 = k + 1 + r by omega, toList_add, toList_add, eA]
        congr 1
        · congr 1
          show [oneOut b k (k + 0)] = _
          rw [oneOut_eq (by omega)]
        · apply toList_congr
          intro j hj
          rw [oneOut_gt (by omega), hd _ (by omega), show k + 1 + j - 1 = k + j by omega]
          congr 1
          by_cases e : j = 0
          · subst e; simp
          · rw [if_neg (by omega), if_neg (by omega)]
      rw [e]
      exact w3
    · have hr0 : r = 0 := by omega
      have hkv : k = vl := by omega
      rw [if_neg h, Nat.add_zero]
      have w4 := w3.take vl (by simp [toList]; omega)
      have e : List.take vl (toList (data b) k ++ [61#8] ++ toList (fun j => data b (k + j)) r) = toList (oneOut b k) vl := by
        rw [List.append_assoc, List.take_left' (by rw [toList_length]; omega), eA, hkv]
      rw [e] at w4
      exact w4
  · intro T t1 t2
    rw [hadv] at t2 ⊢
    obtain ⟨a1, a2⟩ := hk.at (T - 1)
    have hl := eqBits_length (special false b) vl
    simp only [fast, cmp_eq, hidx, goBack, a1, a2, hl, fastRevert, decide_eq_true_eq]
    rw [hcnt] at t2 ⊢
    by_cases h : k < vl
    · simp only [h, if_true, and_true] at t2 ⊢
      rw [if_pos (by omega)]
      by_cases h1 : T - 1 = k
      · simp only [h1, if_true]
        rw [if_pos (by omega)]
        simp only [Prod.mk.injEq]
        split <;> omega
      · rw [if_neg (by omega)]
        simp only [h1, if_false, Prod.mk.injEq]
        split <;> split <;> omega
    · simp only [h, if_false, and_false] at t2 ⊢
      simp

theorem round_ok (vl : Nat) (hvl : 32 ≤ vl) (hvl2 : vl ≤ 16384) (junk : Vec) (b : Nat → Byte) :
    (round vl junk b).toRound.Ok vl false b ∧ (round vl junk b).colAdv = (round vl junk b).adv := by
  unfold round
  simp only
  split
  · exact slow_ok vl hvl hvl2 junk b
  · exact fast_ok vl hvl b (by omega)

/-! ## The end of a line -/

theorem last_byte : ∀ x : Byte, (if escapedLUT x ≠ 0#16 ∧ x ≠ 46#8 - 42#8 then (bytes16 (escapedLUT x), 2) else ([x + 42#8], 1)) = (Simd.lastChar x, (Simd.lastChar x).length) := by
  unfold Simd.lastChar
  decide +kernel

theorem first_byte : ∀ x : Byte, decide (escapedLUT x ≠ 0#16) = escFirst x ∧ (escapedLUT x ≠ 0#16 →
      bytes32 ((13#32 ||| (10#32 <<< 8)) ||| ((escapedLUT x).setWidth 32 <<< 16)) = [CR, LF] ++ [EQ, x + 106#8] ++ []) ∧
    bytes32 (13#32 ||| (10#32 <<< 8) ||| (BitVec.ofNat 32 (x.toNat + 42) <<< 16) ||| (0#32 <<< 24)) =
      [CR, LF] ++ [x + 42#8] ++ [((13#32 ||| (10#32 <<< 8) ||| (BitVec.ofNat 32 (x.toNat + 42) <<< 16) ||| (0#32 <<< 24)) >>> 24).setWidth 8] := by
  decide +kernel

theorem eol_ok (b : Nat → Byte) : (eol b).Ok 2 b := by
  have hbody : body b (2 - 1) = if escFirst (b 1) then [EQ, b 1 + 106#8] else [b 1 + 42#8] := by
    simp only [body, Nat.reduceSub]
    rw [expand_one, ech]
    have : special true (fun j => b (1 + j)) 0 = escFirst (b 1) := by simp [special]
    rw [this]
  obtain ⟨f1, f2, f3⟩ := first_byte (b 1)
  have hb0 := last_byte (b 0)
  unfold eol
  rw [hb0]
  simp only
  by_cases h : escapedLUT (b 1) ≠ 0#16
  · rw [if_pos h]
    have he : escFirst (b 1) = true := by rw [← f1]; simpa using h
    rw [he, if_pos rfl] at hbody
    have w1 := (Writes.nil ((Simd.lastChar (b 0)).length + 4)).snoc 0 rfl (Simd.lastChar (b 0)) [] (Simd.lastChar (b 0)) (by simp) (by omega)
    have w2 := w1.snoc (Simd.lastChar (b 0)).length (by simp) ([CR, LF] ++ [EQ, b 1 + 106#8]) [] _ (f2 h) (by simp [bytes32])
    refine ⟨?_, fun ls => ?_, fun d => ?_, fun d => ?_⟩
    · rw [hbody]; simp
    · rw [hbody]; simp; omega
    · have := w2.out d
      rw [hbody]
      simpa [List.length_append] using this
    · have := w2.hi d
      simp only [List.nil_append, List.cons_append] at this
      refine Nat.le_trans this ?_
      simp only
      omega
  · rw [if_neg h]
    have he : escFirst (b 1) = false := by rw [← f1]; simpa using h
    rw [he, if_neg (by simp)] at hbody
    have w1 := (Writes.nil ((Simd.lastChar (b 0)).length + 4)).snoc 0 rfl (Simd.lastChar (b 0)) [] (Simd.lastChar (b 0)) (by simp) (by omega)
    have w2 := w1.snoc (Simd.lastChar (b 0)).length (by simp) ([CR, LF] ++ [b 1 + 42#8]) _ _ f3 (by simp [bytes32])
    refine ⟨?_, fun ls => ?_, fun d => ?_, fun d => ?_⟩
    · rw [hbody]; simp
    · rw [hbody]; simp; omega
    · have := w2.out d
      rw [hbody]
      simpa [List.length_append] using this
    · have := w2.hi d
      simp only [List.nil_append, List.cons_append] at this
      refine Nat.le_trans this ?_
      simp only
      omega

theorem Vl2.bounds {vl : Nat} (h : Vl2 vl) : 32 ≤ vl ∧ vl ≤ 16384 := by
  obtain ⟨n, h1, h2, rfl⟩ := h
  have : ∀ n, n ≤ 16 → 7 ≤ n → 32 ≤ 2 ^ n / 8 * 2 ∧ 2 ^ n / 8 * 2 ≤ 16384 := by decide
  exact this n h2 h1

/-- The kernel is right. -/
theorem rvv_ok (vl : Nat) (h : Vl2 vl) (junk : Nat → Vec) : (rvv vl junk).Ok := by
  obtain ⟨h1, h2⟩ := h.bounds
  exact ⟨by simp only [rvv]; omega, by simp only [rvv]; omega, fun pos b => (round_ok vl h1 h2 (junk pos) b).1, fun pos b => (round_ok vl h1 h2 (junk pos) b).2, fun b => eol_ok b⟩

end Yenc.Enc.Simd.Rvv
