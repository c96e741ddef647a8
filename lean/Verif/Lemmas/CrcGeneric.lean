import Verif.Lemmas.CrcAlg
/-! The portable CRC computes the specified value. -/
namespace Yenc.Crc
open Polynomial Yenc.Spec

theorem phi_word (a b c d : Byte) : phi (word a b c d) = mu [a, b, c, d] := by
  have hz : ∀ (v : Byte) (k : Nat), 8 ≤ k → v.getLsbD k = false := fun v k hk => BitVec.getLsbD_of_ge v k hk
  have h0 : (word a b c d).setWidth 8 = a := by
    unfold word; apply BitVec.eq_of_getLsbD_eq; intro i hi
    simp [hi, show i < 32 by omega, show i < 16 by omega, show i < 24 by omega]
  have h1 : (word a b c d >>> 8).setWidth 8 = b := by
    unfold word; apply BitVec.eq_of_getLsbD_eq; intro i hi
    simp [hi, show i < 24 by omega, hz a (8 + i) (by omega), show 8 + i < 16 by omega, show 8 + i < 24 by omega, show 8 + i < 32 by omega]
  have h2 : (word a b c d >>> 16).setWidth 8 = c := by
    unfold word; apply BitVec.eq_of_getLsbD_eq; intro i hi
    simp [hi, hz a (16 + i) (by omega), hz b (16 + i - 8) (by omega), show 16 + i < 24 by omega, show 16 + i < 32 by omega]
  have h3 : (word a b c d >>> 24).setWidth 8 = d := by
    unfold word; apply BitVec.eq_of_getLsbD_eq; intro i hi
    simp [hi, hz a (24 + i) (by omega), hz b (24 + i - 8) (by omega), hz c (24 + i - 16) (by omega), show 24 + i < 32 by omega]
  rw [phi_split, h0, h1, h2, h3]
  simp [mu_cons]; ring

theorem phi_step4 (v : U32) (a b c d : Byte) : phi (step4 v a b c d) = x ^ 32 * (phi v + mu [a, b, c, d]) := by
  unfold step4; simp only [phi_step]; simp [mu_cons]; ring

/-- The value held by the four chains. -/
noncomputable def Acc.val (a : Acc) : R := phi a.c0 * x ^ 96 + phi a.c1 * x ^ 64 + phi a.c2 * x ^ 32 + phi a.c3

theorem chains_spec (n : Nat) (a : Acc) (l : List Byte) (h : 16 * n ≤ l.length) :
    ∃ a' p l', chains n a l = some (a', l') ∧ l = p ++ l' ∧ p.length = 16 * n ∧
      a'.val = a.val * x ^ (128 * n) + x ^ 128 * mu p := by
  induction n generalizing a l with
  | zero => exact ⟨a, [], l, rfl, rfl, rfl, by simp⟩
  | succ n ih =>
    obtain ⟨p0, p1, p2, p3, p4, p5, p6, p7, p8, p9, pa, pb, pc, pd, pe, pf, l2, rfl⟩ :
        ∃ p0 p1 p2 p3 p4 p5 p6 p7 p8 p9 pa pb pc pd pe pf l2,
          l = p0 :: p1 :: p2 :: p3 :: p4 :: p5 :: p6 :: p7 :: p8 :: p9 :: pa :: pb :: pc :: pd :: pe :: pf :: l2 := by
      rcases l with _ | ⟨p0, _ | ⟨p1, _ | ⟨p2, _ | ⟨p3, _ | ⟨p4, _ | ⟨p5, _ | ⟨p6, _ | ⟨p7, _ | ⟨p8, _ | ⟨p9, _ | ⟨pa, _ | ⟨pb,
        _ | ⟨pc, _ | ⟨pd, _ | ⟨pe, _ | ⟨pf, l2⟩⟩⟩⟩⟩⟩⟩⟩⟩⟩⟩⟩⟩⟩⟩⟩ <;> first | (exfalso; simp only [List.length_cons, List.length_nil] at h; omega) | exact ⟨_, _, _, _, _, _, _, _, _, _, _, _, _, _, _, _, _, rfl⟩
    rw [chains]
    obtain ⟨a', p, l', h1, h2, h3, h4⟩ := ih ⟨proc4 a.c0 (word p0 p1 p2 p3), proc4 a.c1 (word p4 p5 p6 p7),
      proc4 a.c2 (word p8 p9 pa pb), proc4 a.c3 (word pc pd pe pf)⟩ l2 (by simp at h; omega)
    refine ⟨a', [p0, p1, p2, p3, p4, p5, p6, p7, p8, p9, pa, pb, pc, pd, pe, pf] ++ p, l', h1, by simp [h2], by simp [h3]; omega, ?_⟩
    rw [h4]
    simp only [Acc.val, phi_proc4, phi_word, mu_append, h3]
    simp [mu_cons]
    rw [show 128 * (n + 1) = 128 * n + 128 by ring, show 8 * (16 * n) = 128 * n by ring]
    ring

theorem and_16 (n : Nat) (h1 : 12 ≤ n) (h2 : n < 28) : (n &&& 16 ≠ 0) ↔ 16 ≤ n := by
  have : n = 12 ∨ n = 13 ∨ n = 14 ∨ n = 15 ∨ n = 16 ∨ n = 17 ∨ n = 18 ∨ n = 19 ∨ n = 20 ∨ n = 21 ∨ n = 22 ∨ n = 23 ∨ n = 24 ∨ n = 25 ∨
    n = 26 ∨ n = 27 := by omega
  rcases this with h | h | h | h | h | h | h | h | h | h | h | h | h | h | h | h <;> subst h <;> decide

theorem aggregate_spec (a : Acc) (l : List Byte) (h1 : 12 ≤ l.length) (h2 : l.length < 28) :
    ∃ v p l', aggregate a l = some (v, l') ∧ l = p ++ l' ∧ 12 ≤ p.length ∧
      phi v = a.val * x ^ (8 * (p.length - 12)) + x ^ 32 * mu p := by
  unfold aggregate
  by_cases h : 16 ≤ l.length
  · rw [if_pos ((and_16 _ h1 h2).2 h)]
    obtain ⟨p0, p1, p2, p3, p4, p5, p6, p7, p8, p9, pa, pb, pc, pd, pe, pf, l2, rfl⟩ :
        ∃ p0 p1 p2 p3 p4 p5 p6 p7 p8 p9 pa pb pc pd pe pf l2,
          l = p0 :: p1 :: p2 :: p3 :: p4 :: p5 :: p6 :: p7 :: p8 :: p9 :: pa :: pb :: pc :: pd :: pe :: pf :: l2 := by
      rcases l with _ | ⟨p0, _ | ⟨p1, _ | ⟨p2, _ | ⟨p3, _ | ⟨p4, _ | ⟨p5, _ | ⟨p6, _ | ⟨p7, _ | ⟨p8, _ | ⟨p9, _ | ⟨pa, _ | ⟨pb,
        _ | ⟨pc, _ | ⟨pd, _ | ⟨pe, _ | ⟨pf, l2⟩⟩⟩⟩⟩⟩⟩⟩⟩⟩⟩⟩⟩⟩⟩⟩ <;> first | (exfalso; simp only [List.length_cons, List.length_nil] at h; omega) | exact ⟨_, _, _, _, _, _, _, _, _, _, _, _, _, _, _, _, _, rfl⟩
    refine ⟨_, [p0, p1, p2, p3, p4, p5, p6, p7, p8, p9, pa, pb, pc, pd, pe, pf], l2, rfl, rfl, by simp, ?_⟩
    simp only [phi_xor, phi_step4, phi_proc4, phi_word, Acc.val]
    simp [mu_cons]; ring
  · rw [if_neg (fun hc => h ((and_16 _ h1 h2).1 hc))]
    obtain ⟨p0, p1, p2, p3, p4, p5, p6, p7, p8, p9, pa, pb, l2, rfl⟩ :
        ∃ p0 p1 p2 p3 p4 p5 p6 p7 p8 p9 pa pb l2,
          l = p0 :: p1 :: p2 :: p3 :: p4 :: p5 :: p6 :: p7 :: p8 :: p9 :: pa :: pb :: l2 := by
      rcases l with _ | ⟨p0, _ | ⟨p1, _ | ⟨p2, _ | ⟨p3, _ | ⟨p4, _ | ⟨p5, _ | ⟨p6, _ | ⟨p7, _ | ⟨p8, _ | ⟨p9, _ | ⟨pa, _ | ⟨pb,
        l2⟩⟩⟩⟩⟩⟩⟩⟩⟩⟩⟩⟩ <;> first | (exfalso; simp only [List.length_cons, List.length_nil] at h1; omega) | exact ⟨_, _, _, _, _, _, _, _, _, _, _, _, _, rfl⟩
    refine ⟨_, [p0, p1, p2, p3, p4, p5, p6, p7, p8, p9, pa, pb], l2, rfl, rfl, by simp, ?_⟩
    simp only [phi_xor, phi_step4, Acc.val]
    simp [mu_cons]; ring

theorem align1_spec (addr : Nat) (c : U32) (l : List Byte) :
    ∃ a p l', align1 addr c l = (a, p.foldl step c, l') ∧ l = p ++ l' := by
  unfold align1
  rcases l with _ | ⟨b, l⟩
  · exact ⟨addr, [], [], rfl, rfl⟩
  · dsimp only
    split
    · exact ⟨_, [b], l, rfl, rfl⟩
    · exact ⟨_, [], b :: l, rfl, rfl⟩

theorem align2_spec (addr : Nat) (c : U32) (l : List Byte) :
    ∃ p l', align2 addr c l = (p.foldl step c, l') ∧ l = p ++ l' := by
  unfold align2
  rcases l with _ | ⟨b, _ | ⟨b2, l⟩⟩
  · exact ⟨[], [], rfl, rfl⟩
  · exact ⟨[], [b], rfl, rfl⟩
  · dsimp only
    split
    · exact ⟨[b, b2], l, rfl, rfl⟩
    · exact ⟨[], b :: b2 :: l, rfl, rfl⟩

/-- Aligning consumes a prefix, one byte at a time. -/
theorem align_spec (addr : Nat) (c : U32) (l : List Byte) :
    ∃ p l', align addr c l = (p.foldl step c, l') ∧ l = p ++ l' := by
  unfold align
  obtain ⟨a, p, l1, h1, rfl⟩ := align1_spec addr c l
  rw [h1]
  obtain ⟨q, l2, h2, rfl⟩ := align2_spec a (p.foldl step c) l1
  exact ⟨p ++ q, l2, by simp [h2], by simp⟩

/-- The portable CRC stays inside its input and computes the CRC-32 of the specification, at every address. -/
theorem generic_spec (addr : Nat) (data : List Byte) (init : U32) :
    ∃ r, generic addr data init = some r ∧ IsCrc32 init data r := by
  obtain ⟨p, l, hal, rfl⟩ := align_spec addr (~~~init) data
  unfold generic
  rw [hal]
  simp only
  by_cases hlen : l.length ≥ 8 * 4 - 4
  · rw [if_pos hlen]
    have hn : 16 * ((l.length - (4 - 1) * 4) / 4 / 4) ≤ l.length := by omega
    obtain ⟨a, q, l2, h1, rfl, h3, h4⟩ := chains_spec _ ⟨List.foldl step (~~~init) p, 0, 0, 0⟩ l hn
    rw [h1]
    generalize hnn : (((q ++ l2).length - (4 - 1) * 4) / 4 / 4) = n at *
    simp only [List.length_append] at h3 hlen hnn
    obtain ⟨v, q2, l3, h5, rfl, h7, h8⟩ := aggregate_spec a l2 (by omega) (by omega)
    simp only [h5]
    refine ⟨_, rfl, ?_⟩
    obtain ⟨k, hk⟩ : ∃ k, q2.length = k + 12 := ⟨q2.length - 12, by omega⟩
    have hz : phi 0 = 0 := phi_zero
    rw [isCrc32_iff, BitVec.not_not, tail, phi_foldl_step, h8, h4, hk]
    simp only [Acc.val, hz, zero_mul, add_zero, phi_foldl_step, mu_append, List.length_append, h3, hk, Nat.add_sub_cancel]
    ring
  · rw [if_neg hlen]
    refine ⟨_, rfl, ?_⟩
    rw [isCrc32_iff, BitVec.not_not, tail, phi_foldl_step, phi_foldl_step, mu_append, List.length_append]
    ring

/-- The CRC of the specification is unique. -/
theorem isCrc32_unique {init : U32} {data : List Byte} {r s : U32} (h : IsCrc32 init data r) (h' : IsCrc32 init data s) : r = s := by
  have : toPoly (~~~r) = toPoly (~~~s) := h.trans h'.symm
  have := toPoly_injective this
  exact BitVec.not_inj.1 this

end Yenc.Crc
