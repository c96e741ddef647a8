import Verif.Lemmas.EncSpec
/-! Size of the reference encoding, and its behaviour under the NNTP decoders. -/
namespace Yenc.Enc
open Yenc

/-- Size of the encoding: `n` character bytes and `k` line breaks. -/
theorem encode_size (ls : Nat) (hls : 1 ≤ ls) (fin : Bool) (col : Nat) (src : List Byte) :
    ∃ n k, (Spec.encode ls fin col src).length = n + 2 * k ∧
      src.length ≤ n ∧ n ≤ 2 * src.length ∧
      (k = 0 ∨ ls * k + 1 ≤ col + n) ∧
      src.length ≤ (ls - col) + ls * k := by
  induction src generalizing col with
  | nil => exact ⟨0, 0, by simp [Spec.encode], by simp, by simp, by simp, by simp⟩
  | cons c cs ih =>
    by_cases h : ls ≤ col
    · rw [encode_cons_ge _ _ _ _ _ h]
      have hw := encChar_length ls 0 (fin && cs.isEmpty) (c + 42#8)
      generalize Spec.encChar ls 0 (fin && cs.isEmpty) (c + 42#8) = s at *
      obtain ⟨n, k, h1, h2, h3, h4, h5⟩ := ih s.length
      refine ⟨s.length + n, k + 1, ?_, ?_, ?_, Or.inr ?_, ?_⟩
      · simp [h1]; omega
      · simp; omega
      · simp; omega
      · rw [Nat.mul_add]
        rcases h4 with rfl | h4
        · simp; omega
        · omega
      · rw [Nat.mul_add]; simp; omega
    · rw [encode_cons_lt _ _ _ _ _ (by omega)]
      have hw := encChar_length ls col (fin && cs.isEmpty) (c + 42#8)
      generalize Spec.encChar ls col (fin && cs.isEmpty) (c + 42#8) = s at *
      obtain ⟨n, k, h1, h2, h3, h4, h5⟩ := ih (col + s.length)
      refine ⟨s.length + n, k, ?_, ?_, ?_, ?_, ?_⟩
      · simp [h1]; omega
      · simp; omega
      · simp; omega
      · omega
      · simp; omega

/-- Upper bound used for the destination size. -/
theorem encode_length_le (ls : Nat) (hls : 1 ≤ ls) (fin : Bool) (col : Nat) (hcol : col < ls) (src : List Byte) :
    (Spec.encode ls fin col src).length ≤ 2 * src.length + 2 * ((2 * src.length) / ls) + 2 := by
  obtain ⟨n, k, h1, h2, h3, h4, h5⟩ := encode_size ls hls fin col src
  have : k ≤ (2 * src.length) / ls + 1 := by
    rcases h4 with rfl | h4
    · exact Nat.zero_le _
    · rcases k with _ | k
      · exact Nat.zero_le _
      · have : k ≤ (2 * src.length) / ls := by
          rw [Nat.le_div_iff_mul_le (by omega), Nat.mul_comm]
          rw [Nat.mul_add] at h4; omega
        omega
  omega

theorem encode_length_le_col0 (ls : Nat) (hls : 1 ≤ ls) (fin : Bool) (src : List Byte) :
    (Spec.encode ls fin 0 src).length ≤ 2 * src.length + 2 * ((2 * src.length) / ls) := by
  obtain ⟨n, k, h1, h2, h3, h4, h5⟩ := encode_size ls hls fin 0 src
  have : k ≤ (2 * src.length) / ls := by
    rcases h4 with rfl | h4
    · exact Nat.zero_le _
    · rw [Nat.le_div_iff_mul_le (by omega), Nat.mul_comm]; omega
  omega

/-- True lower bound. -/
theorem encode_length_ge (ls : Nat) (hls : 1 ≤ ls) (fin : Bool) (src : List Byte) (hne : src ≠ []) :
    src.length + 2 * ((src.length - 1) / ls) ≤ (Spec.encode ls fin 0 src).length := by
  obtain ⟨n, k, h1, h2, h3, h4, h5⟩ := encode_size ls hls fin 0 src
  have hpos : 1 ≤ src.length := List.length_pos_iff.mpr hne
  have : (src.length - 1) / ls ≤ k := by
    have : (src.length - 1) / ls < k + 1 := by
      rw [Nat.div_lt_iff_lt_mul (by omega), Nat.mul_comm, Nat.mul_add]; omega
    omega
  omega

/-! ### NNTP -/

open Dec in
/-- The decoder with end detection reads encoder output to the end, and gets the data. -/
theorem run_encode (ls : Nat) (hls : 1 ≤ ls) (fin : Bool) (col : Nat) (src : List Byte) (st : State)
    (hst : (col = 0 ∧ st = .crlf) ∨ (1 ≤ col ∧ st = .none)) :
    run st (Spec.encode ls fin col src) = ⟨[], src, if src = [] then st else .none, .none⟩ := by
  have h1 : ∀ c : Byte, c + 42#8 + 64#8 - 42#8 - 64#8 = c := by decide +kernel
  have h2 : ∀ c : Byte, c + 42#8 - 42#8 = c := by decide +kernel
  have ch0 : ∀ (last : Bool) (c : Byte) (t : List Byte),
      run .crlf (Spec.encChar ls 0 last (c + 42#8) ++ t) = (run .none t).pre [c] := by
    intro last c t
    rcases encChar_cases ls 0 last (c + 42#8) with ⟨hm, h⟩ | ⟨hm, h⟩
    · rw [h]
      have hx : c + 42#8 + 64#8 ≠ LY ∧ c + 42#8 + 64#8 ≠ CR := by
        have := escape_domain hm
        generalize c + 42#8 = e at *
        rcases this with rfl | rfl | rfl | rfl | rfl | rfl | rfl <;> decide
      simp only [List.cons_append, List.nil_append]
      rw [run_crlf_cons]
      simp only [EQ_ne_DOT, if_false, if_true]
      rw [run_crlfeq_cons, if_neg hx.1, run_eq_ne _ _ hx.2, h1]
    · rw [h]
      obtain ⟨_, a, b, d⟩ := not_critical_of_not_mustEscape hm
      have hdot : c + 42#8 ≠ DOT := by
        intro hd; simp [Spec.mustEscape, hd] at hm
      simp only [List.cons_append, List.nil_append]
      rw [run_crlf_cons, if_neg hdot, if_neg d, run_none_plain _ _ d a b, h2]
  have chn : ∀ (col : Nat) (last : Bool) (c : Byte) (t : List Byte),
      run .none (Spec.encChar ls col last (c + 42#8) ++ t) = (run .none t).pre [c] := by
    intro col last c t
    rcases encChar_cases ls col last (c + 42#8) with ⟨hm, h⟩ | ⟨hm, h⟩
    · rw [h]
      have hx : c + 42#8 + 64#8 ≠ CR := by
        have := escape_domain hm
        generalize c + 42#8 = e at *
        rcases this with rfl | rfl | rfl | rfl | rfl | rfl | rfl <;> decide
      simp only [List.cons_append, List.nil_append]
      rw [run_none_eq, run_eq_ne _ _ hx, h1]
    · rw [h]
      obtain ⟨_, a, b, d⟩ := not_critical_of_not_mustEscape hm
      simp only [List.cons_append, List.nil_append]
      rw [run_none_plain _ _ d a b, h2]
  induction src generalizing col st with
  | nil => simp [Spec.encode, run]
  | cons c cs ih =>
    have hpre : ∀ n, 1 ≤ n → (run .none (Spec.encode ls fin n cs)).pre [c] = ⟨[], c :: cs, .none, .none⟩ := by
      intro n hn
      rw [ih n .none (Or.inr ⟨hn, rfl⟩)]
      simp [Res.pre]
    simp only [reduceCtorEq, if_false]
    by_cases h : ls ≤ col
    · rw [encode_cons_ge _ _ _ _ _ h]
      have hst' : st = .none := by
        rcases hst with hst | hst
        · omega
        · exact hst.2
      subst hst'
      rw [run_none_cr, run_cr_cons, if_pos rfl, ch0]
      exact hpre _ (encChar_length _ _ _ _).1
    · rw [encode_cons_lt _ _ _ _ _ (by omega)]
      have := (encChar_length ls col (fin && cs.isEmpty) (c + 42#8)).1
      rcases hst with ⟨rfl, rfl⟩ | ⟨hc, rfl⟩
      · rw [ch0]; exact hpre _ (by omega)
      · rw [chn]; exact hpre _ (by omega)

open Dec in
theorem decode_true_encode (ls : Nat) (hls : 1 ≤ ls) (fin : Bool) (src : List Byte) :
    Spec.decode true (Spec.encode ls fin 0 src) = src := by
  have h := run_encode ls hls fin 0 src .crlf (Or.inl ⟨rfl, rfl⟩)
  have h2 := run_forget .crlf (Spec.encode ls fin 0 src) (by rw [h])
  rw [← nrun_crlf_spec]
  have : State.forget .crlf = .crlf := rfl
  rw [this] at h2
  rw [h2, h]

/-- Away from a line feed the byte before it does not matter. -/
theorem unstuffAux_ctx (p p' q : Byte) (s : List Byte) (h : q ≠ LF) :
    Spec.unstuffAux p q s = Spec.unstuffAux p' q s := by
  cases s <;> simp [Spec.unstuffAux, h]

theorem unstuff_stuffAux (p q : Byte) (s : List Byte) :
    Spec.unstuffAux p q (Spec.stuffAux p q s) = s := by
  induction s generalizing p q with
  | nil => simp [Spec.stuffAux, Spec.unstuffAux]
  | cons c cs ih =>
    unfold Spec.stuffAux
    by_cases h : p = CR ∧ q = LF ∧ c = DOT
    · obtain ⟨rfl, rfl, rfl⟩ := h
      simp only [and_self, if_true, Spec.unstuffAux, LF_ne_CR, false_and, if_false]
      rw [unstuffAux_ctx DOT LF DOT _ (by simp), ih]
    · rw [if_neg h, Spec.unstuffAux, if_neg h, ih]

end Yenc.Enc
