import Verif.Lemmas.CrcLog
import Verif.Lemmas.CrcArm
/-!
Five terms `x^a + x^b + x^c + x^d + x^e` with exponents less than 300 apart do not cancel.

The sums of two powers are sorted into 16 classes by their lowest four bits, and in each class those sums and the sums of two powers and 1 are divided, bit by bit, until on one side
none are left.
-/
namespace Yenc.Crc.Five
open Polynomial Yenc.Spec

set_option maxRecDepth 100000

/-- The powers `x^1` to `x^299`. -/
def powers : List Nat := [
  2, 4, 8, 16, 32, 64, 128, 256, 512, 1024, 2048, 4096, 8192, 16384,
  32768, 65536, 131072, 262144, 524288, 1048576, 2097152, 4194304, 8388608, 16777216, 33554432, 67108864, 134217728, 268435456,
  536870912, 1073741824, 2147483648, 79764919, 159529838, 319059676, 638119352, 1276238704, 2552477408, 881225847, 1762451694, 3524903388, 2700254735, 1159995817,
  2319991634, 273783571, 547567142, 1095134284, 2190268568, 30977159, 61954318, 123908636, 247817272, 495634544, 991269088, 1982538176, 3965076352, 3698170551,
  3155831001, 2096450565, 4192901130, 4145294755, 3941156593, 3507720277, 2800106781, 1225615245, 2451230490, 552895363, 1105790726, 2211581452, 56951215, 113902430,
  227804860, 455609720, 911219440, 1822438880, 3644877760, 3057764919, 1749191129, 3498382258, 2781559507, 1331128337, 2662256674, 966573555, 1933147110, 3866294220,
  3357864495, 2492004841, 768667237, 1537334474, 3074668948, 1783000735, 3566001470, 2916657099, 1601196577, 3202393154, 2030064947, 4060129894, 3770698107, 3309408065,
  2386690869, 407182301, 814364602, 1628729204, 3257458408, 2156961895, 98590073, 197180146, 394360292, 788720584, 1577441168, 3154882336, 2094416887, 4188833774,
  4153938539, 3958454625, 3542314869, 2726806365, 1104059149, 2208118298, 66810243, 133620486, 267240972, 534481944, 1068963888, 2137927776, 4275855552, 4185513015,
  4130514393, 3903084037, 3582570941, 2949807821, 1533403181, 3066806362, 1767283971, 3534567942, 2711316923, 1207422657, 2414845314, 454960819, 909921638, 1819843276,
  3639686552, 3039000199, 1854402745, 3708805490, 3202277203, 2038211345, 4076422690, 3778253299, 3332783697, 2307744021, 400285597, 800571194, 1601142388, 3202284776,
  2038228071, 4076456142, 3778186283, 3332638177, 2307462773, 399716701, 799433402, 1598866804, 3197733608, 2045904999, 4091809998, 3809033259, 3268634081, 2171065973,
  101626205, 203252410, 406504820, 813009640, 1626019280, 3252038560, 2272086775, 169576537, 339153074, 678306148, 1356612296, 2713224592, 1202722455, 2405444910,
  436291563, 872583126, 1745166252, 3490332504, 2765447943, 1298914233, 2597828466, 829322067, 1658644134, 3317288268, 2410841903, 463737833, 927475666, 1854951332,
  3709902664, 3196068647, 2042715129, 4085430258, 3821302355, 3276405009, 2186473365, 6603421, 13206842, 26413684, 52827368, 105654736, 211309472, 422618944,
  845237888, 1690475776, 3380951552, 2546690487, 727174873, 1454349746, 2908699492, 1585408895, 3170817790, 2101129291, 4202258582, 4029930651, 3836126337, 3448526005,
  2681844957, 997356557, 1994713114, 3989426228, 3746741727, 3127141897, 1879691685, 3759383370, 3303430947, 2366483441, 517622357, 1035244714, 2070489428, 4140978856,
  3915757799, 3591007353, 2832581957, 1433048893, 2866097786, 1365983555, 2731967110, 1097603259, 2195206518, 24215387, 48430774, 96861548, 193723096, 387446192,
  774892384, 1549784768, 3099569536, 1975404215, 3950808430, 3526887275, 2695959393, 1168325493, 2336650986, 307097699, 614195398, 1228390796, 2456781592, 538844039,
  1077688078, 2155376156, 70369679, 140739358, 281478716, 562957432, 1125914864, 2251829728, 145849975, 291699950, 583399900, 1166799800, 2333599600, 317641559,
  635283118, 1270566236, 2541132472, 707537095, 1415074190, 2830148380, 1436572559, 2873145118, 1379955595, 2759911190, 1304482715, 2608965430, 868373467, 1736746934,
  3473493868, 2597553007, 828775273, 1657550546, 3315101092]

/-- The entries are the powers from `x^i` on. -/
noncomputable def right (l : List Nat) : Nat → Bool :=
  List.rec (fun _ => true) (fun v _ ih i => Bool.rec false (Bool.rec false (ih (Nat.succ i)) (Nat.ble v 4294967295)) (Nat.beq (Log.pw i) v)) l

/-- The members whose lowest bits are `k`. -/
noncomputable def keep (k : Nat) (l : List Nat) : List Nat → List Nat :=
  List.rec (fun acc => acc) (fun v _ ih acc => Bool.rec (ih acc) (ih (v :: acc)) (Nat.beq (Nat.land v 15) k)) l

/-- The sums of `a` and a member of `l`. -/
noncomputable def row (a : Nat) (l : List Nat) : List Nat → List Nat :=
  List.rec (fun acc => acc) (fun b _ ih acc => Log.force (Nat.xor a b) fun z => ih (z :: acc)) l

/-- The sums of a member of `l` and a member of `m`. -/
noncomputable def sums (l m : List Nat) : List Nat → List Nat :=
  List.rec (fun acc => acc) (fun a _ ih acc => ih (row a m acc)) l

/-- The sums, with lowest bits `k`, of two members of `l` and `c`. -/
noncomputable def class' (c k : Nat) (l ks : List Nat) : List Nat → List Nat :=
  List.rec (fun acc => acc) (fun i _ ih acc => ih (sums (keep i l []) (row c (keep (Nat.xor (Nat.xor i k) (Nat.land c 15)) l []) []) acc)) ks

/-- Divide by a bit. -/
noncomputable def split (m : Nat) (l : List Nat) : List Nat → List Nat → (List Nat → List Nat → Bool) → Bool :=
  List.rec (fun a b k => k a b) (fun v _ ih a b k => Bool.rec (ih (v :: a) b k) (ih a (v :: b) k) (Nat.beq (Nat.land v m) 0)) l

/-- There is no common member, which shows from the bits `ms`. -/
noncomputable def disjoint (ms : List Nat) : List Nat → List Nat → Bool :=
  List.rec (fun l m => List.rec true (fun _ _ _ => List.rec true (fun _ _ _ => false) m) l)
    (fun b _ ih l m => List.rec true (fun _ _ _ => List.rec true (fun _ _ _ =>
      split b l [] [] fun l1 l0 => split b m [] [] fun m1 m0 => Bool.rec false (ih l0 m0) (ih l1 m1)) m) l) ms

/-- The bits. -/
def masks : List Nat := [16, 32, 64, 128, 256, 512, 1024, 2048, 4096, 8192, 16384, 32768, 65536, 131072, 262144, 524288, 1048576, 2097152, 4194304, 8388608, 16777216, 33554432, 67108864, 134217728, 268435456, 536870912, 1073741824, 2147483648]

/-- The classes. -/
def keys : List Nat := [0, 1, 2, 3, 4, 5, 6, 7, 8, 9, 10, 11, 12, 13, 14, 15]

/-- No sum of two powers is the sum of two powers and 1, in the class `k`. -/
noncomputable def check (k : Nat) : Bool := disjoint masks (class' 0 k powers keys []) (class' 1 k powers keys [])

theorem powers_right : right powers 1 = true := by decide +kernel
theorem powers_length : powers.length = 299 := by decide +kernel
theorem check_0 : check 0 = true := by decide +kernel
theorem check_1 : check 1 = true := by decide +kernel
theorem check_2 : check 2 = true := by decide +kernel
theorem check_3 : check 3 = true := by decide +kernel
theorem check_4 : check 4 = true := by decide +kernel
theorem check_5 : check 5 = true := by decide +kernel
theorem check_6 : check 6 = true := by decide +kernel
theorem check_7 : check 7 = true := by decide +kernel
theorem check_8 : check 8 = true := by decide +kernel
theorem check_9 : check 9 = true := by decide +kernel
theorem check_10 : check 10 = true := by decide +kernel
theorem check_11 : check 11 = true := by decide +kernel
theorem check_12 : check 12 = true := by decide +kernel
theorem check_13 : check 13 = true := by decide +kernel
theorem check_14 : check 14 = true := by decide +kernel
theorem check_15 : check 15 = true := by decide +kernel

attribute [irreducible] powers

theorem right_spec (l : List Nat) (i : Nat) (h : right l i = true) : ∀ j < l.length, Log.pw (i + j) ∈ l ∧ Log.pw (i + j) < 2 ^ 32 := by
  induction l generalizing i with
  | nil => intro j hj; simp at hj
  | cons v l ih =>
    have hs : right (v :: l) i = Bool.rec false (Bool.rec false (right l (i + 1)) (Nat.ble v 4294967295)) (Nat.beq (Log.pw i) v) := rfl
    rw [hs] at h
    cases hb : Nat.beq (Log.pw i) v with
    | false => rw [hb] at h; exact absurd h (by simp)
    | true =>
      rw [hb] at h
      cases hv : Nat.ble v 4294967295 with
      | false => rw [hv] at h; exact absurd h (by simp)
      | true =>
        rw [hv] at h
        have e := Nat.eq_of_beq_eq_true hb
        have hv := Nat.le_of_ble_eq_true hv
        intro j hj
        rcases j with _ | j
        · rw [Nat.add_zero, e]; exact ⟨List.mem_cons_self .., by omega⟩
        · obtain ⟨h1, h2⟩ := ih (i + 1) h j (by simpa using hj)
          rw [show i + (j + 1) = i + 1 + j by omega]
          exact ⟨List.mem_cons_of_mem _ h1, h2⟩

theorem keep_spec (k : Nat) (l acc : List Nat) (v : Nat) (h : v ∈ acc ∨ v ∈ l ∧ v &&& 15 = k) : v ∈ keep k l acc := by
  induction l generalizing acc with
  | nil => rcases h with h | ⟨h, _⟩ <;> [exact h; simp at h]
  | cons w l ih =>
    have hs : keep k (w :: l) acc = Bool.rec (keep k l acc) (keep k l (w :: acc)) (Nat.beq (w &&& 15) k) := rfl
    rw [hs]
    cases hb : Nat.beq (w &&& 15) k with
    | false =>
      refine ih acc (h.imp id fun ⟨h1, h2⟩ => ⟨?_, h2⟩)
      rcases List.mem_cons.1 h1 with rfl | h1
      · rw [h2, Nat.beq_refl] at hb; cases hb
      · exact h1
    | true =>
      refine ih (w :: acc) ?_
      rcases h with h | ⟨h1, h2⟩
      · exact .inl (List.mem_cons_of_mem _ h)
      · rcases List.mem_cons.1 h1 with rfl | h1
        · exact .inl (List.mem_cons_self ..)
        · exact .inr ⟨h1, h2⟩

theorem row_spec (a : Nat) (l acc : List Nat) (v : Nat) (h : v ∈ acc ∨ ∃ b ∈ l, v = a ^^^ b) : v ∈ row a l acc := by
  induction l generalizing acc with
  | nil => rcases h with h | ⟨b, h, _⟩ <;> [exact h; simp at h]
  | cons w l ih =>
    have hs : row a (w :: l) acc = row a l ((a ^^^ w) :: acc) := by
      show Log.force (a ^^^ w) (fun z => row a l (z :: acc)) = _
      rw [Log.force_eq]
    rw [hs]
    refine ih _ ?_
    rcases h with h | ⟨b, hb, rfl⟩
    · exact .inl (List.mem_cons_of_mem _ h)
    · rcases List.mem_cons.1 hb with rfl | hb
      · exact .inl (List.mem_cons_self ..)
      · exact .inr ⟨b, hb, rfl⟩

theorem sums_spec (l m acc : List Nat) (v : Nat) (h : v ∈ acc ∨ ∃ a ∈ l, ∃ b ∈ m, v = a ^^^ b) : v ∈ sums l m acc := by
  induction l generalizing acc with
  | nil => rcases h with h | ⟨b, h, _⟩ <;> [exact h; simp at h]
  | cons w l ih =>
    show v ∈ sums l m (row w m acc)
    refine ih _ ?_
    rcases h with h | ⟨a, ha, h⟩
    · exact .inl (row_spec _ _ _ _ (.inl h))
    · rcases List.mem_cons.1 ha with rfl | ha
      · exact .inl (row_spec _ _ _ _ (.inr h))
      · exact .inr ⟨a, ha, h⟩

theorem class_spec (c k : Nat) (l ks acc : List Nat) (v : Nat)
    (h : v ∈ acc ∨ ∃ a ∈ l, ∃ b ∈ l, v = a ^^^ (c ^^^ b) ∧ (a &&& 15) ∈ ks ∧ b &&& 15 = (a &&& 15) ^^^ k ^^^ (c &&& 15)) : v ∈ class' c k l ks acc := by
  induction ks generalizing acc with
  | nil => rcases h with h | ⟨a, _, b, _, _, h, _⟩ <;> [exact h; simp at h]
  | cons i ks ih =>
    show v ∈ class' c k l ks (sums (keep i l []) (row c (keep (i ^^^ k ^^^ (c &&& 15)) l []) []) acc)
    refine ih _ ?_
    rcases h with h | ⟨a, ha, b, hb, e, hk, hx⟩
    · exact .inl (sums_spec _ _ _ _ (.inl h))
    · rcases List.mem_cons.1 hk with hk | hk
      · refine .inl (sums_spec _ _ _ _ (.inr ⟨a, keep_spec _ _ _ _ (.inr ⟨ha, hk⟩), c ^^^ b, ?_, e⟩))
        exact row_spec _ _ _ _ (.inr ⟨b, keep_spec _ _ _ _ (.inr ⟨hb, by rw [hx, hk]⟩), rfl⟩)
      · exact .inr ⟨a, ha, b, hb, e, hk, hx⟩

theorem split_spec (m : Nat) (l a b : List Nat) (k : List Nat → List Nat → Bool) (h : split m l a b k = true) :
    ∃ a' b', k a' b' = true ∧ ∀ v, (v ∈ a ∨ v ∈ l ∧ v &&& m ≠ 0 → v ∈ a') ∧ (v ∈ b ∨ v ∈ l ∧ v &&& m = 0 → v ∈ b') := by
  induction l generalizing a b with
  | nil => exact ⟨a, b, h, fun v => ⟨by simp, by simp⟩⟩
  | cons w l ih =>
    have hs : split m (w :: l) a b k = Bool.rec (split m l (w :: a) b k) (split m l a (w :: b) k) (Nat.beq (w &&& m) 0) := rfl
    rw [hs] at h
    cases hb : Nat.beq (w &&& m) 0 with
    | false =>
      rw [hb] at h
      have hw : w &&& m ≠ 0 := fun e => by rw [e] at hb; cases hb
      obtain ⟨a', b', h1, h2⟩ := ih _ _ h
      refine ⟨a', b', h1, fun v => ⟨fun hv => (h2 v).1 ?_, fun hv => (h2 v).2 ?_⟩⟩
      · rcases hv with hv | ⟨hv, e⟩
        · exact .inl (List.mem_cons_of_mem _ hv)
        · rcases List.mem_cons.1 hv with rfl | hv
          · exact .inl (List.mem_cons_self ..)
          · exact .inr ⟨hv, e⟩
      · rcases hv with hv | ⟨hv, e⟩
        · exact .inl hv
        · rcases List.mem_cons.1 hv with rfl | hv
          · exact absurd e hw
          · exact .inr ⟨hv, e⟩
    | true =>
      rw [hb] at h
      have hw : w &&& m = 0 := Nat.eq_of_beq_eq_true hb
      obtain ⟨a', b', h1, h2⟩ := ih _ _ h
      refine ⟨a', b', h1, fun v => ⟨fun hv => (h2 v).1 ?_, fun hv => (h2 v).2 ?_⟩⟩
      · rcases hv with hv | ⟨hv, e⟩
        · exact .inl hv
        · rcases List.mem_cons.1 hv with rfl | hv
          · exact absurd hw e
          · exact .inr ⟨hv, e⟩
      · rcases hv with hv | ⟨hv, e⟩
        · exact .inl (List.mem_cons_of_mem _ hv)
        · rcases List.mem_cons.1 hv with rfl | hv
          · exact .inl (List.mem_cons_self ..)
          · exact .inr ⟨hv, e⟩

theorem disjoint_spec (ms l m : List Nat) (h : disjoint ms l m = true) (v : Nat) (hl : v ∈ l) : v ∉ m := by
  intro hm
  induction ms generalizing l m with
  | nil =>
    cases l with
    | nil => simp at hl
    | cons a l =>
      cases m with
      | nil => simp at hm
      | cons b m => exact absurd h (by intro h; cases h)
  | cons c ms ih =>
    cases l with
    | nil => simp at hl
    | cons a l =>
      cases m with
      | nil => simp at hm
      | cons b m =>
        have hs : disjoint (c :: ms) (a :: l) (b :: m) =
          split c (a :: l) [] [] fun l1 l0 => split c (b :: m) [] [] fun m1 m0 => Bool.rec false (disjoint ms l0 m0) (disjoint ms l1 m1) := rfl
        rw [hs] at h
        obtain ⟨l1, l0, h, hl'⟩ := split_spec _ _ _ _ _ h
        obtain ⟨m1, m0, h, hm'⟩ := split_spec _ _ _ _ _ h
        cases hd : disjoint ms l1 m1 with
        | false => rw [hd] at h; exact absurd h (by simp)
        | true =>
          rw [hd] at h
          by_cases hv : v &&& c = 0
          · exact ih l0 m0 h ((hl' v).2 (.inr ⟨hl, hv⟩)) ((hm' v).2 (.inr ⟨hm, hv⟩))
          · exact ih l1 m1 hd ((hl' v).1 (.inr ⟨hl, hv⟩)) ((hm' v).1 (.inr ⟨hm, hv⟩))

theorem check_all (k : Nat) (h : k < 16) : check k = true := by
  have : k = 0 ∨ k = 1 ∨ k = 2 ∨ k = 3 ∨ k = 4 ∨ k = 5 ∨ k = 6 ∨ k = 7 ∨ k = 8 ∨ k = 9 ∨ k = 10 ∨ k = 11 ∨ k = 12 ∨ k = 13 ∨ k = 14 ∨ k = 15 := by omega
  rcases this with rfl | rfl | rfl | rfl | rfl | rfl | rfl | rfl | rfl | rfl | rfl | rfl | rfl | rfl | rfl | rfl
  exacts [check_0, check_1, check_2, check_3, check_4, check_5, check_6, check_7, check_8, check_9, check_10, check_11, check_12, check_13, check_14, check_15]

theorem mem_keys (k : Nat) (h : k < 16) : k ∈ keys := by
  have : ∀ k < 16, k ∈ keys := by decide
  exact this k h

theorem low_lt (a : Nat) : a &&& 15 < 16 := Nat.lt_of_le_of_lt Nat.and_le_right (by norm_num)

/-- Numbers below `2^32` are different polynomials. -/
theorem ev_inj {a b : Nat} (ha : a < 2 ^ 32) (hb : b < 2 ^ 32) (h : ev x a = ev x b) : a = b := by
  have key : ∀ n < 2 ^ 32, ev x n = phi (BitVec.ofNat 32 n).reverse := by
    intro n hn
    rw [← ev_reverse_phi, BitVec.reverse_reverse_eq, BitVec.toNat_ofNat, Nat.mod_eq_of_lt hn]
  rw [key a ha, key b hb] at h
  have h := congrArg BitVec.reverse (phi_injective h)
  rw [BitVec.reverse_reverse_eq, BitVec.reverse_reverse_eq] at h
  have h := congrArg BitVec.toNat h
  rwa [BitVec.toNat_ofNat, BitVec.toNat_ofNat, Nat.mod_eq_of_lt ha, Nat.mod_eq_of_lt hb] at h

/-- Five powers of `x` less than 300 apart do not cancel. -/
theorem pentanomial (a b c d : Nat) (a0 : 0 < a) (a1 : a ≤ 299) (b0 : 0 < b) (b1 : b ≤ 299) (c0 : 0 < c) (c1 : c ≤ 299) (d0 : 0 < d) (d1 : d ≤ 299) :
    1 + x ^ a + x ^ b + x ^ c + x ^ d ≠ 0 := by
  intro h
  have hp : ∀ i, 0 < i → i ≤ 299 → Log.pw i ∈ powers ∧ Log.pw i < 2 ^ 32 := by
    intro i h0 h1
    have := right_spec powers 1 powers_right (i - 1) (by rw [powers_length]; omega)
    rwa [show 1 + (i - 1) = i by omega] at this
  obtain ⟨ha, la⟩ := hp a a0 a1
  obtain ⟨hb, lb⟩ := hp b b0 b1
  obtain ⟨hc, lc⟩ := hp c c0 c1
  obtain ⟨hd, ld⟩ := hp d d0 d1
  have e : Log.pw a ^^^ (0 ^^^ Log.pw b) = Log.pw c ^^^ (1 ^^^ Log.pw d) := by
    apply ev_inj
    · exact Nat.xor_lt_two_pow la (Nat.xor_lt_two_pow (by norm_num) lb)
    · exact Nat.xor_lt_two_pow lc (Nat.xor_lt_two_pow (by norm_num) ld)
    · rw [evx_xor, evx_xor, evx_xor, evx_xor, ev_zero, ev_one, Log.ev_pw a (by omega), Log.ev_pw b (by omega), Log.ev_pw c (by omega), Log.ev_pw d (by omega)]
      linear_combination h - (x ^ c + 1 + x ^ d) * two_eq_zero
  have hk : (Log.pw a ^^^ (0 ^^^ Log.pw b)) &&& 15 < 16 := low_lt _
  refine disjoint_spec _ _ _ (check_all _ hk) (Log.pw a ^^^ (0 ^^^ Log.pw b)) (class_spec _ _ _ _ _ _ (.inr ⟨_, ha, _, hb, rfl, mem_keys _ (low_lt _), ?_⟩))
    (class_spec _ _ _ _ _ _ (.inr ⟨_, hc, _, hd, e, mem_keys _ (low_lt _), ?_⟩))
  · apply Nat.eq_of_testBit_eq
    intro i
    simp only [Nat.testBit_xor, Nat.testBit_and, Nat.zero_testBit]
    cases (Log.pw a).testBit i <;> cases (Log.pw b).testBit i <;> cases (15 : Nat).testBit i <;> rfl
  · rw [e]
    apply Nat.eq_of_testBit_eq
    intro i
    simp only [Nat.testBit_xor, Nat.testBit_and]
    cases (Log.pw c).testBit i <;> cases (Log.pw d).testBit i <;> cases (15 : Nat).testBit i <;> cases (1 : Nat).testBit i <;> rfl

/-- At the distance 300 there are five that cancel. -/
theorem pentanomial_sharp : 1 + x ^ 89 + x ^ 117 + x ^ 155 + x ^ 300 = 0 := by
  rw [x_pow_eq_phi 89 (by norm_num), x_pow_eq_phi 117 (by norm_num), x_pow_eq_phi 155 (by norm_num), x_pow_eq_phi 300 (by norm_num), ← phi_one, ← phi_xor, ← phi_xor, ← phi_xor, ← phi_xor, ← phi_zero]
  congr 1

end Yenc.Crc.Five
