import Verif.Lemmas.CrcLog
/-!
Two bytes less than 145212 bytes apart do not cancel, whatever their values.

The table has the discrete logarithms of the 255 bytes; `x^(8k) a = b` would mean that two of them differ by `8k`.
-/
namespace Yenc.Crc.Two
open Polynomial Yenc.Spec

/-- For each polynomial from 1 to 255 the power of `x` it is. -/
def logs : List Nat := [
  0, 1, 376820508, 2, 753641016, 376820509, 1523343495, 3, 1900164003, 753641017, 1688530303, 376820510, 1492908460, 1523343496, 1130461524, 4,
  1507282032, 1900164004, 3317045572, 753641018, 3046686990, 1688530304, 1869728968, 376820511, 3666143521, 1492908461, 2276984511, 1523343497,
  2065350811, 1130461525, 868840962, 5, 1245661470, 1507282033, 3016251955, 1900164005, 1150455598, 3317045573, 2442171319, 753641019, 4098525846,
  3046686991, 4042964029, 1688530305, 2653805019, 1869728969, 2901393707, 376820512, 3211873798, 3666143522, 1884102540, 1492908462, 3693866080,
  2276984512, 2849180826, 1523343498, 2246549476, 2065350812, 232593658, 1130461526, 558406392, 868840963, 3423507498, 6, 3800328006, 1245661471,
  3734723944, 1507282034, 3377060606, 3016251956, 935226900, 1900164006, 4255669999, 1150455599, 2623369984, 3317045574, 609414166, 2442171320,
  894519721, 753641020, 2985816920, 4098525847, 3588694306, 3046686992, 2260923048, 4042964030, 502715690, 1688530306, 3226001334, 2653805020,
  627821039, 1869728970, 2392184457, 2901393708, 4070686588, 376820513, 3123467904, 3211873799, 1622481978, 3666143523, 3393072463, 1884102541,
  1188437351, 1492908463, 2818991827, 3693866081, 275063190, 2276984513, 2143895449, 2849180827, 1527276106, 1523343499, 3278214215, 2246549477,
  493182150, 2065350813, 3263237204, 232593659, 3030625527, 1130461527, 545421772, 558406393, 180379059, 868840964, 124817242, 3423507499, 3181438763,
  7, 3558259271, 3800328007, 570527433, 1245661472, 77557026, 3734723945, 501637750, 1507282035, 952619925, 3377060607, 922242280, 3016251957,
  557199567, 935226901, 3940534387, 1900164007, 3216462901, 4255670000, 3655034723, 1150455600, 870002658, 2623369985, 440249998, 3317045575,
  3407446035, 609414167, 2361749422, 2442171321, 1839593143, 894519722, 3640057712, 753641021, 1755937153, 2985816921, 3500288412, 4098525848,
  1999302486, 3588694307, 3457229929, 3046686993, 1565257859, 2260923049, 3028205217, 4042964031, 710608580, 502715691, 3769892971, 1688530307,
  1904096614, 3226001335, 2081749887, 2653805021, 864084686, 627821040, 2520715957, 1869728971, 3273471237, 2392184458, 3195812335, 2901393709,
  651883698, 4070686589, 3756671986, 376820514, 1986743246, 3123467905, 4177148514, 3211873800, 4111544452, 1622481979, 514986737, 3666143524,
  1312047408, 3393072464, 128318864, 1884102542, 129769907, 1188437352, 3753881114, 1492908464, 1271340229, 2818991828, 405236446, 3693866082,
  1006366338, 275063191, 986234674, 2276984514, 2557371265, 2143895450, 337523212, 2849180828, 3000190492, 1527276107, 1326902046, 1523343500,
  152539801, 3278214216, 1059706529, 2246549478, 3844547029, 493182151, 2769004965, 2065350814, 244628155, 3263237205, 3602821842, 232593660,
  1004641547, 3030625528, 2595164200, 1130461528, 1682520261, 545421773, 3362637428, 558406394, 3965514814, 180379060, 916127142, 868840965, 879536198,
  124817243, 2673799093, 3423507500, 3766588192, 3181438764, 2637743556]

/-- The entries from polynomial `i` on are right. -/
noncomputable def right (l : List Nat) : Nat → Bool :=
  List.rec (fun _ => true) (fun v _ ih i => Bool.rec false (Bool.rec false (ih (Nat.succ i)) (Nat.ble v 4294967294)) (Nat.beq (Log.pw v) i)) l

/-- The logarithms `a`, `b` do not differ, modulo `n`, by `8k` for a `k > 0` with `8k < c`. -/
noncomputable def apart (n c a b : Nat) : Bool :=
  Log.force (Nat.mod (Nat.sub (Nat.add a n) b) n) fun d => Bool.rec (Bool.rec true (Nat.beq d 0) (Nat.beq (Nat.mod d 8) 0)) true (Nat.ble c d)

set_option maxRecDepth 100000

theorem logs_right : right logs 1 = true := by decide +kernel

theorem logs_apart : Log.every (fun a => Log.every (fun b => apart 4294967295 1161696 a b) logs) logs = true := by decide +kernel

theorem logs_length : logs.length = 255 := by decide +kernel

attribute [irreducible] logs

theorem right_spec (l : List Nat) (i : Nat) (h : right l i = true) : ∀ j < l.length, ∃ v ∈ l, v < 2 ^ 32 - 1 ∧ Log.pw v = i + j := by
  induction l generalizing i with
  | nil => intro j hj; simp at hj
  | cons v l ih =>
    have hs : right (v :: l) i = Bool.rec false (Bool.rec false (right l (i + 1)) (Nat.ble v 4294967294)) (Nat.beq (Log.pw v) i) := rfl
    rw [hs] at h
    cases hb : Nat.beq (Log.pw v) i with
    | false => rw [hb] at h; exact absurd h (by simp)
    | true =>
      rw [hb] at h
      cases hv : Nat.ble v 4294967294 with
      | false => rw [hv] at h; exact absurd h (by simp)
      | true =>
        rw [hv] at h
        intro j hj
        rcases j with _ | j
        · exact ⟨v, List.mem_cons_self .., by have := Nat.le_of_ble_eq_true hv; omega, Nat.eq_of_beq_eq_true hb⟩
        · obtain ⟨w, hw, h1, h2⟩ := ih (i + 1) h j (by simpa using hj)
          exact ⟨w, List.mem_cons_of_mem _ hw, h1, by rw [h2]; omega⟩

theorem choose_spec (p q r : Bool) (h : (Bool.rec (Bool.rec true r q) true p : Bool) = true) : p = true ∨ q = false ∨ r = true := by
  revert p q r; decide

theorem apart_spec (n c a b : Nat) (h : apart n c a b = true) (k : Nat) (h0 : 0 < k) (hk : 8 * k < c) : (a + n - b) % n ≠ 8 * k := by
  intro e
  unfold apart at h
  rw [Log.force_eq] at h
  change (Bool.rec (Bool.rec true (Nat.beq ((a + n - b) % n) 0) (Nat.beq (((a + n - b) % n) % 8) 0)) true (Nat.ble c ((a + n - b) % n)) : Bool) = true at h
  rw [e] at h
  rcases choose_spec _ _ _ h with h | h | h
  · have := Nat.le_of_ble_eq_true h; omega
  · have := Nat.ne_of_beq_eq_false h; omega
  · have := Nat.eq_of_beq_eq_true h; omega

theorem beta_rev (b : Byte) : beta b = ev x b.reverse.toNat := by rw [beta_ev, ev_reverse b 7 rfl]

theorem exists_log (b : Byte) (hb : b ≠ 0#8) : ∃ v ∈ logs, v < 2 ^ 32 - 1 ∧ beta b = x ^ v := by
  have h0 : b.reverse.toNat ≠ 0 := by
    intro h
    have hr : ∀ n < 256, (BitVec.ofNat 8 n).reverse.toNat = 0 → n = 0 := by decide +kernel
    have := hr b.toNat b.isLt (by rw [BitVec.ofNat_toNat, BitVec.setWidth_eq]; exact h)
    exact hb (BitVec.eq_of_toNat_eq (by simpa using this))
  have hl := b.reverse.isLt
  obtain ⟨v, hv, h1, h2⟩ := right_spec logs 1 logs_right (b.reverse.toNat - 1) (by rw [logs_length]; omega)
  refine ⟨v, hv, h1, ?_⟩
  rw [beta_rev, ← Log.ev_pw v (by omega), h2]
  congr 1
  omega

theorem beta_ne_zero (b : Byte) (hb : b ≠ 0#8) : beta b ≠ 0 := by
  intro h
  obtain ⟨n, _, _, hn⟩ := exists_log b hb
  exact x_pow_ne_zero n (hn.symm.trans h)

/-- The sum of two bytes at a distance of `k` bytes is not zero unless both are. -/
theorem two_bytes (a b : Byte) (k : Nat) (h0 : 0 < k) (hk : k < 145212) (h : beta a * x ^ (8 * k) + beta b = 0) : a = 0#8 ∧ b = 0#8 := by
  by_cases ha : a = 0#8
  · subst ha
    refine ⟨rfl, ?_⟩
    by_contra hb
    exact beta_ne_zero b hb (by simpa [beta_zero] using h)
  by_cases hb : b = 0#8
  · subst hb
    have h1 : beta a * x ^ (8 * k) = 0 * x ^ (8 * k) := by simpa [beta_zero] using h
    exact absurd (((isUnit_x.pow (8 * k)).mul_left_inj).1 h1) (beta_ne_zero a ha)
  obtain ⟨n, hn, hns, en⟩ := exists_log a ha
  obtain ⟨m, hm, hms, em⟩ := exists_log b hb
  have h1 : x ^ m = x ^ (n + 8 * k) := by
    rw [pow_add, ← en, ← em]
    linear_combination h - beta a * x ^ (8 * k) * two_eq_zero
  rw [Log.x_pow_mod (n + 8 * k)] at h1
  have h2 := x_pow_inj hms (Nat.mod_lt _ (by norm_num)) h1
  have h3 := Log.every_spec _ _ (Log.every_spec _ _ logs_apart m hm) n hn
  refine absurd ?_ (apart_spec 4294967295 1161696 m n h3 k h0 (by omega))
  rw [show 2 ^ 32 - 1 = 4294967295 from rfl] at h2
  omega

/-- At the distance 145212 there are two that cancel. -/
theorem two_bytes_sharp : beta 0xF8#8 * x ^ (8 * 145212) + beta 0xA9#8 = 0 := by
  apply x_pow_cancel (n := 24)
  have h := phi_shift ((0xF8#8 : Byte).setWidth 32) (BitVec.ofNat 32 (8 * 145212))
  have h2 : shift ((0xF8#8 : Byte).setWidth 32) (BitVec.ofNat 32 (8 * 145212)) = (0xA9#8 : Byte).setWidth 32 := by decide +kernel
  rw [h2, phi_zext, phi_zext] at h
  have h3 : (BitVec.ofNat 32 (8 * 145212)).toNat = 8 * 145212 := by decide
  rw [h3] at h
  rw [zero_mul]
  linear_combination h + x ^ 24 * beta 0xF8#8 * x ^ (8 * 145212) * two_eq_zero

end Yenc.Crc.Two
