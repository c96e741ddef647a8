import Verif.Model.JsText
import Mathlib.Data.List.Chain
/-! Strings: UTF-8 round trip, searching, trimming, decimal numbers. -/
namespace Yenc.Js
open Yenc

/-! ### UTF-8 -/

/-- Code units with paired surrogates only. -/
def wellFormed : Str → Bool
  | [] => true
  | [u] => u < 65536 && !isHigh u && !isLow u
  | u :: v :: r =>
    if isHigh u && isLow v then wellFormed r else u < 65536 && !isHigh u && !isLow u && wellFormed (v :: r)

theorem utf8Decode_ascii (a : Byte) (l : List Byte) (h : a.toNat < 128) : utf8Decode (a :: l) = a.toNat :: utf8Decode l := by
  rw [utf8Decode.eq_def]; simp [h]

theorem utf8Decode_nil : utf8Decode [] = [] := by rw [utf8Decode]

theorem isHigh_iff {u : Nat} : isHigh u = true ↔ 0xD800 ≤ u ∧ u ≤ 0xDBFF := by simp [isHigh]
theorem isLow_iff {u : Nat} : isLow u = true ↔ 0xDC00 ≤ u ∧ u ≤ 0xDFFF := by simp [isLow]

theorem utf8Decode_bmp (c : Nat) (l : List Byte) (h : c < 65536) (h1 : isHigh c = false) (h2 : isLow c = false) :
    utf8Decode (utf8Char c ++ l) = c :: utf8Decode l := by
  have h1' : ¬ (0xD800 ≤ c ∧ c ≤ 0xDBFF) := by rw [← isHigh_iff]; simp [h1]
  have h2' : ¬ (0xDC00 ≤ c ∧ c ≤ 0xDFFF) := by rw [← isLow_iff]; simp [h2]
  unfold utf8Char
  by_cases a1 : c < 0x80
  · rw [if_pos a1, List.singleton_append, utf8Decode_ascii]
    · simp; omega
    · simp; omega
  rw [if_neg a1]
  by_cases a2 : c < 0x800
  · rw [if_pos a2, List.cons_append, List.cons_append, List.nil_append, utf8Decode.eq_def]
    have e1 : (BitVec.ofNat 8 (0xC0 + c / 64)).toNat = 0xC0 + c / 64 := by simp; omega
    have e2 : (BitVec.ofNat 8 (0x80 + c % 64)).toNat = 0x80 + c % 64 := by simp; omega
    simp only [e1, e2, isCont]
    rw [if_neg (by omega), if_pos (by omega), if_pos (by simp; omega)]
    rw [show (0xC0 + c / 64 - 0xC0) * 64 + (0x80 + c % 64 - 0x80) = c by omega]
  rw [if_neg a2, if_pos (by omega : c < 0x10000)]
  rw [List.cons_append, List.cons_append, List.cons_append, List.nil_append, utf8Decode.eq_def]
  have e1 : (BitVec.ofNat 8 (0xE0 + c / 4096)).toNat = 0xE0 + c / 4096 := by simp; omega
  have e2 : (BitVec.ofNat 8 (0x80 + c / 64 % 64)).toNat = 0x80 + c / 64 % 64 := by simp; omega
  have e3 : (BitVec.ofNat 8 (0x80 + c % 64)).toNat = 0x80 + c % 64 := by simp; omega
  simp only [e1, e2, e3, isCont]
  rw [if_neg (by omega), if_neg (by omega), if_pos (by omega), if_pos (by constructor <;> split <;> omega), if_pos (by simp; omega)]
  rw [show (0xE0 + c / 4096 - 0xE0) * 4096 + (0x80 + c / 64 % 64 - 0x80) * 64 + (0x80 + c % 64 - 0x80) = c by omega]

theorem utf8Decode_astral (c : Nat) (l : List Byte) (h : 65536 ≤ c) (h1 : c < 0x110000) :
    utf8Decode (utf8Char c ++ l) = utf16 c ++ utf8Decode l := by
  unfold utf8Char
  rw [if_neg (by omega), if_neg (by omega), if_neg (by omega)]
  rw [List.cons_append, List.cons_append, List.cons_append, List.cons_append, List.nil_append, utf8Decode.eq_def]
  have e1 : (BitVec.ofNat 8 (0xF0 + c / 262144)).toNat = 0xF0 + c / 262144 := by simp; omega
  have e2 : (BitVec.ofNat 8 (0x80 + c / 4096 % 64)).toNat = 0x80 + c / 4096 % 64 := by simp; omega
  have e3 : (BitVec.ofNat 8 (0x80 + c / 64 % 64)).toNat = 0x80 + c / 64 % 64 := by simp; omega
  have e4 : (BitVec.ofNat 8 (0x80 + c % 64)).toNat = 0x80 + c % 64 := by simp; omega
  simp only [e1, e2, e3, e4, isCont]
  rw [if_neg (by omega), if_neg (by omega), if_neg (by omega), if_pos (by omega), if_pos (by constructor <;> split <;> omega),
    if_pos (by simp; omega), if_pos (by simp; omega)]
  rw [show (0xF0 + c / 262144 - 0xF0) * 262144 + (0x80 + c / 4096 % 64 - 0x80) * 4096 + (0x80 + c / 64 % 64 - 0x80) * 64 +
    (0x80 + c % 64 - 0x80) = c by omega]

/-- UTF-8 encoding of well-formed text can be decoded. -/
theorem utf8Decode_encode (s : Str) (l : List Byte) (h : wellFormed s = true) : utf8Decode (utf8Encode s ++ l) = s ++ utf8Decode l := by
  fun_induction wellFormed s with
  | case1 => rfl
  | case2 u =>
    simp at h
    simp [utf8Encode, h.1.2, h.2, utf8Decode_bmp u l h.1.1]
  | case3 u v r hc ih =>
    simp only [utf8Encode, if_pos hc, List.append_assoc]
    simp only [Bool.and_eq_true, isHigh_iff, isLow_iff] at hc
    rw [utf8Decode_astral _ _ (by omega) (by omega), ih h]
    simp only [utf16]
    rw [if_neg (by omega)]
    simp; omega
  | case4 u v r hc ih =>
    simp at h
    simp only [utf8Encode, if_neg hc, List.append_assoc]
    simp [h.1.1.2, h.1.2, utf8Decode_bmp u _ h.1.1.1, ih h.2]

theorem utf8Decode_asciis (s : Str) (l : List Byte) (h : ∀ c ∈ s, c < 128) : utf8Decode (ascii s ++ l) = s ++ utf8Decode l := by
  induction s with
  | nil => rfl
  | cons c s ih =>
    have h0 := h c (by simp)
    simp only [ascii, List.map_cons, List.cons_append] at ih ⊢
    rw [utf8Decode_ascii _ _ (by simp; omega), ih (fun x hx => h x (by simp [hx]))]
    simp; omega

/-! ### Searching -/

theorem find_eq {pat l : List Byte} {n : Nat} (hn : n < l.length) (h0 : pat <+: l.drop n) (h : ∀ i < n, ¬ pat <+: l.drop i) :
    find pat l = some n := by
  induction l generalizing n with
  | nil => simp at hn
  | cons c l ih =>
    unfold find
    rcases n with _ | n
    · simp at h0; simp [h0]
    · have := h 0 (by omega)
      simp at this
      rw [if_neg (by simpa using this), ih (n := n) (by simpa using hn) (by simpa using h0) (fun i hi => by simpa using h (i + 1) (by omega))]

theorem find_none {pat l : List Byte} (h : ∀ i < l.length, ¬ pat <+: l.drop i) : find pat l = none := by
  induction l with
  | nil => rfl
  | cons c l ih =>
    unfold find
    have h0 := h 0 (by simp)
    rw [if_neg (by simpa using h0), ih (fun i hi => by simpa using h (i + 1) (by simpa using hi))]

theorem findRev_none {pat l : List Byte} (h : ∀ i < l.length, ¬ pat <+: l.drop i) : findRev pat l = none := by
  induction l with
  | nil => rfl
  | cons c l ih =>
    unfold findRev
    have h0 := h 0 (by simp)
    rw [ih (fun i hi => by simpa using h (i + 1) (by simpa using hi))]
    simpa using h0

theorem findRev_eq {pat l : List Byte} {n : Nat} (hn : n < l.length) (h0 : pat <+: l.drop n) (h : ∀ i, n < i → i < l.length → ¬ pat <+: l.drop i) :
    findRev pat l = some n := by
  induction l generalizing n with
  | nil => simp at hn
  | cons c l ih =>
    unfold findRev
    rcases n with _ | n
    · have : findRev pat l = none := findRev_none (fun i hi => by simpa using h (i + 1) (by omega) (by simpa using hi))
      rw [this]; simp at h0; simp [h0]
    · rw [ih (n := n) (by simpa using hn) (by simpa using h0) (fun i hi hl => by simpa using h (i + 1) (by omega) (by simpa using hl))]

theorem find_some {pat l : List Byte} {n : Nat} (h : find pat l = some n) : n < l.length ∧ pat <+: l.drop n := by
  induction l generalizing n with
  | nil => simp [find] at h
  | cons c l ih =>
    unfold find at h
    split at h
    · rename_i hp
      injection h with h; subst h; simpa using hp
    · split at h
      · rename_i i hi
        injection h with h; subst h
        have := ih hi
        simpa using this
      · simp at h

theorem find_first {pat l : List Byte} {n : Nat} (h : find pat l = some n) : ∀ i < n, ¬ pat <+: l.drop i := by
  induction l generalizing n with
  | nil => simp [find] at h
  | cons c l ih =>
    unfold find at h
    split at h
    · injection h with h; subst h; simp
    · rename_i hp
      split at h
      · rename_i j hj
        injection h with h; subst h
        intro i hi
        cases i with
        | zero => simpa using hp
        | succ i => simpa using ih hj i (by omega)
      · simp at h

theorem findRev_some {pat l : List Byte} {n : Nat} (h : findRev pat l = some n) : n < l.length ∧ pat <+: l.drop n := by
  induction l generalizing n with
  | nil => simp [findRev] at h
  | cons c l ih =>
    unfold findRev at h
    split at h
    · rename_i i hi
      injection h with h; subst h
      have := ih hi
      simpa using this
    · split at h
      · rename_i hp
        injection h with h; subst h; simpa using hp
      · simp at h

theorem findRev_last {pat l : List Byte} (hne : pat ≠ []) {n : Nat} (h : findRev pat l = some n) : ∀ i > n, ¬ pat <+: l.drop i := by
  induction l generalizing n with
  | nil => simp [findRev] at h
  | cons c l ih =>
    unfold findRev at h
    split at h
    · rename_i j hj
      injection h with h; subst h
      intro i hi
      cases i with
      | zero => omega
      | succ i => simpa using ih hj i (by omega)
    · rename_i hn
      intro i hi
      cases i with
      | zero => omega
      | succ i =>
        intro hp
        rw [List.drop_succ_cons] at hp
        clear ih h hi
        induction l generalizing i with
        | nil => simp only [List.drop_nil, List.prefix_nil] at hp; exact hne hp
        | cons x l ih =>
          unfold findRev at hn
          split at hn
          · simp at hn
          · rename_i hn'
            split at hn
            · simp at hn
            · rename_i hx
              cases i with
              | zero => exact hx (by simpa using hp)
              | succ i => exact ih hn' i (by simpa using hp)

theorem findFrom_some {pat l : List Byte} {s n : Nat} (h : findFrom pat l s = some n) : s ≤ n ∧ n < l.length ∧ pat <+: l.drop n := by
  unfold findFrom at h
  split at h
  · rename_i i hi
    injection h with h; subst h
    obtain ⟨h1, h2⟩ := find_some hi
    rw [List.drop_drop] at h2
    simp at h1
    exact ⟨by omega, by omega, h2⟩
  · simp at h

/-! ### trim -/

theorem trim_eq (s : Str) (h1 : ∀ c, s.head? = some c → isSpace c = false) (h2 : ∀ c, s.getLast? = some c → isSpace c = false) : trim s = s := by
  unfold trim
  have e1 : s.dropWhile isSpace = s := by
    cases s with
    | nil => rfl
    | cons c s => simp [List.dropWhile_cons, h1 c rfl]
  rw [e1]
  have e2 : s.reverse.dropWhile isSpace = s.reverse := by
    cases hr : s.reverse with
    | nil => rfl
    | cons c r =>
      have : s.getLast? = some c := by rw [← List.head?_reverse, hr]; rfl
      simp [List.dropWhile_cons, h2 c this]
  rw [e2, List.reverse_reverse]

/-! ### Decimal text -/

theorem dec_digits (n : Nat) : ∀ c ∈ dec n, 48 ≤ c ∧ c ≤ 57 := by
  intro c hc
  simp only [dec, List.mem_map] at hc
  obtain ⟨d, hd, rfl⟩ := hc
  have h := Nat.isDigit_of_mem_toDigits (by decide) (by decide) hd
  simp only [Char.isDigit, Bool.and_eq_true, decide_eq_true_eq] at h
  have h1 := h.1
  have h2 := h.2
  rw [ge_iff_le, UInt32.le_iff_toNat_le] at h1
  rw [UInt32.le_iff_toNat_le] at h2
  exact ⟨h1, h2⟩

theorem dec_ne_nil (n : Nat) : dec n ≠ [] := by
  simp [dec]

/-- The value of decimal text. -/
def decVal (s : Str) : Nat := s.foldl (fun a c => 10 * a + (c - 48)) 0

theorem decVal_dec (n : Nat) : decVal (dec n) = n := by
  induction n using Nat.strongRecOn with
  | ind n ih =>
    unfold dec
    by_cases h : n < 10
    · rw [Nat.toDigits_of_lt_base h]
      simp [decVal, Nat.toNat_digitChar_of_lt_ten h]
    · rw [Nat.toDigits_of_base_le (by decide) (by omega)]
      have := ih (n / 10) (by omega)
      simp only [decVal, dec, List.map_append, List.map_cons, List.map_nil, List.foldl_append, List.foldl_cons, List.foldl_nil] at this ⊢
      rw [this, Nat.toNat_digitChar_of_lt_ten (by omega)]
      omega

theorem dec_inj {n m : Nat} (h : dec n = dec m) : n = m := by rw [← decVal_dec n, h, decVal_dec]

theorem dec_ne_zero {n : Nat} (h : n ≠ 0) : dec n ≠ [48] := by
  intro h0
  have := congrArg decVal h0
  rw [decVal_dec] at this
  exact h this

theorem isNumber_dec (n : Nat) : isNumber (dec n) = true := by
  have h := dec_digits n
  have h' := dec_ne_nil n
  simp [isNumber, h']
  intro c hc; exact h c hc

theorem dec_lt_128 (n : Nat) : ∀ c ∈ dec n, c < 128 := fun c hc => by have := dec_digits n c hc; omega

theorem dec_no_space (n : Nat) : 32 ∉ dec n := fun h => by have := dec_digits n 32 h; omega

theorem hexDigit_range (n : Nat) (h : n < 16) : (97 ≤ hexDigit n ∧ hexDigit n ≤ 102) ∨ (48 ≤ hexDigit n ∧ hexDigit n ≤ 57) := by
  unfold hexDigit; split <;> omega

theorem hex_range (b : List Byte) : ∀ c ∈ hex b, (97 ≤ c ∧ c ≤ 102) ∨ (48 ≤ c ∧ c ≤ 57) := by
  intro c hc
  simp only [hex, List.mem_flatMap, List.mem_cons, List.not_mem_nil, or_false] at hc
  obtain ⟨x, _, h | h⟩ := hc
  · have := x.isLt; exact h ▸ hexDigit_range _ (by omega)
  · exact h ▸ hexDigit_range _ (by omega)

theorem hex_length (b : List Byte) : (hex b).length = 2 * b.length := by
  induction b with
  | nil => rfl
  | cons a b ih =>
    have : hex (a :: b) = hexDigit (a.toNat / 16) :: hexDigit (a.toNat % 16) :: hex b := by simp [hex]
    rw [this]; simp [ih]; omega

theorem isHex8_hex (b : List Byte) (h : b.length = 4) : isHex8 (hex b) = true := by
  simp only [isHex8, hex_length, h, Bool.and_eq_true, List.all_eq_true, decide_eq_true_eq, Bool.or_eq_true]
  exact ⟨by decide, fun c hc => by rcases hex_range b c hc with h | h <;> omega⟩

theorem lower_hex (b : List Byte) : lower (hex b) = hex b := by
  unfold lower
  conv_rhs => rw [← List.map_id (hex b)]
  apply List.map_congr_left
  intro c hc
  have := hex_range b c hc
  simp; omega

theorem hex_no_space (b : List Byte) : 32 ∉ hex b := fun h => by have := hex_range b 32 h; omega

theorem hex_lt_128 (b : List Byte) : ∀ c ∈ hex b, c < 128 := fun c hc => by have := hex_range b c hc; omega

/-! ### Line breaks -/

theorem chain_of_not_infix {α : Type} (x y : α) (l : List α) (h : ¬ [x, y] <:+: l) : l.IsChain (fun a b => ¬ (a = x ∧ b = y)) := by
  induction l with
  | nil => exact .nil
  | cons a l ih =>
    have ih' := ih (fun hh => h (hh.trans (List.suffix_cons a l).isInfix))
    cases l with
    | nil => exact .singleton a
    | cons b r =>
      refine .cons_cons ?_ ih'
      rintro ⟨rfl, rfl⟩
      exact h ⟨[], r, by simp⟩

theorem not_infix_of_chain {α : Type} (x y : α) (l : List α) (h : l.IsChain (fun a b => ¬ (a = x ∧ b = y))) : ¬ [x, y] <:+: l := by
  intro hi
  have := h.infix hi
  simp at this

theorem chain_append_high (l t : List Byte) (hl : ∀ b ∈ l, 128 ≤ b.toNat) (ht : t.IsChain (fun a b => ¬ (a = CR ∧ b = LF))) :
    (l ++ t).IsChain (fun a b => ¬ (a = CR ∧ b = LF)) := by
  induction l with
  | nil => exact ht
  | cons a l ih =>
    have ih' := ih (fun b hb => hl b (by simp [hb]))
    have ha := hl a (by simp)
    simp only [List.cons_append]
    cases h : l ++ t with
    | nil => exact .singleton a
    | cons b r =>
      rw [h] at ih'
      refine .cons_cons ?_ ih'
      rintro ⟨rfl, _⟩
      revert ha; decide

theorem utf8Char_high (c : Nat) (h : 128 ≤ c) (h2 : c < 0x110000) : ∀ b ∈ utf8Char c, 128 ≤ b.toNat := by
  intro b hb
  unfold utf8Char at hb
  rw [if_neg (by omega)] at hb
  split at hb
  · simp only [List.mem_cons, List.not_mem_nil, or_false] at hb
    rcases hb with rfl | rfl <;> simp <;> omega
  split at hb
  · simp only [List.mem_cons, List.not_mem_nil, or_false] at hb
    rcases hb with rfl | rfl | rfl <;> simp <;> omega
  · simp only [List.mem_cons, List.not_mem_nil, or_false] at hb
    rcases hb with rfl | rfl | rfl | rfl <;> simp <;> omega

theorem utf8Char_ne_nil (c : Nat) : utf8Char c ≠ [] := by
  unfold utf8Char; repeat' split
  all_goals simp

theorem utf8Char_append_chain (u c : Nat) (s : Str) (t : List Byte) (hu : u < 65536) (hc : c = if isHigh u || isLow u then 0xFFFD else u)
    (hs : u = 13 → s.head? ≠ some 10)
    (ht : t.IsChain (fun a b => ¬ (a = CR ∧ b = LF))) (hh : t.head? = some LF → s.head? = some 10) :
    (utf8Char c ++ t).IsChain (fun a b => ¬ (a = CR ∧ b = LF)) ∧ ((utf8Char c ++ t).head? = some LF → u = 10) := by
  by_cases h : c < 128
  · have hcu : c = u := by split at hc <;> omega
    subst hcu
    simp only [utf8Char, if_pos h, List.singleton_append, List.head?_cons]
    constructor
    · cases t with
      | nil => exact .singleton _
      | cons b r =>
        refine .cons_cons ?_ ht
        rintro ⟨h1, rfl⟩
        have : c = 13 := by
          have := congrArg BitVec.toNat h1
          simp at this; omega
        exact hs this (hh rfl)
    · intro h1
      injection h1 with h1
      have := congrArg BitVec.toNat h1
      simp at this; omega
  · have hlt : c < 0x110000 := by split at hc <;> omega
    have hb := utf8Char_high c (by omega) hlt
    refine ⟨chain_append_high _ _ hb ht, ?_⟩
    intro h1
    cases hx : utf8Char c with
    | nil => exact absurd hx (utf8Char_ne_nil c)
    | cons b r =>
      rw [hx] at h1 hb
      simp at h1; subst h1
      exact absurd (hb LF (by simp)) (by decide)

theorem utf8Encode_chain (s : Str) (hu : ∀ u ∈ s, u < 65536) (h : s.IsChain (fun a b => ¬ (a = 13 ∧ b = 10))) :
    (utf8Encode s).IsChain (fun a b => ¬ (a = CR ∧ b = LF)) ∧ ((utf8Encode s).head? = some LF → s.head? = some 10) := by
  fun_induction utf8Encode s with
  | case1 => exact ⟨.nil, by simp⟩
  | case2 u =>
    have := utf8Char_append_chain u _ [] [] (hu u (by simp)) rfl (by simp) .nil (by simp)
    simp only [List.append_nil] at this
    exact ⟨this.1, fun hh => by simp [this.2 hh]⟩
  | case3 u v r hc ih =>
    have hr : r.IsChain (fun a b => ¬ (a = 13 ∧ b = 10)) := h.tail.tail
    have ih' := ih (fun x hx => hu x (by simp [hx])) hr
    simp only [Bool.and_eq_true, isHigh_iff, isLow_iff] at hc
    have hb := utf8Char_high (0x10000 + (u - 0xD800) * 1024 + (v - 0xDC00)) (by omega) (by omega)
    refine ⟨chain_append_high _ _ hb ih'.1, ?_⟩
    intro h1
    cases hx : utf8Char (0x10000 + (u - 0xD800) * 1024 + (v - 0xDC00)) with
    | nil => exact absurd hx (utf8Char_ne_nil _)
    | cons b r =>
      rw [hx] at h1 hb
      simp at h1; subst h1
      exact absurd (hb LF (by simp)) (by decide)
  | case4 u v r hc ih =>
    have ih' := ih (fun x hx => hu x (by simp [hx])) h.tail
    have h0 : ¬ (u = 13 ∧ v = 10) := by
      simp at h; simpa using h.1
    have := utf8Char_append_chain u _ (v :: r) (utf8Encode (v :: r)) (hu u (by simp)) rfl
      (by intro h1 h2; simp at h2; exact h0 ⟨h1, h2⟩) ih'.1 ih'.2
    exact ⟨this.1, fun hh => by simp [this.2 hh]⟩

theorem utf8Encode_no_crlf (s : Str) (hu : ∀ u ∈ s, u < 65536) (h : ¬ [13, 10] <:+: s) : ¬ [CR, LF] <:+: utf8Encode s :=
  not_infix_of_chain _ _ _ (utf8Encode_chain s hu (chain_of_not_infix _ _ _ h)).1

theorem removeBad_eq (s : Str) (h : ¬ [13, 10] <:+: s) : removeBad s = s := by
  fun_induction removeBad s with
  | case1 r ih => exact absurd ⟨[], 0 :: r, by simp⟩ h
  | case2 c r _ ih => rw [ih (fun hh => h (hh.trans (List.suffix_cons c r).isInfix))]
  | case3 => rfl

theorem fileName_eq (s : Str) (h : ¬ [13, 10] <:+: s) (hl : s.length ≤ 256) : fileName s = utf8Encode s := by
  rw [fileName, removeBad_eq s h, List.take_of_length_le hl]

theorem fileName_no_crlf (s : Str) (hu : ∀ u ∈ s, u < 65536) (h : ¬ [13, 10] <:+: s) : ¬ [CR, LF] <:+: fileName s := by
  rw [fileName, removeBad_eq s h]
  exact utf8Encode_no_crlf _ (fun u hu' => hu u (List.mem_of_mem_take hu')) (fun hh => h (hh.trans (List.take_prefix _ _).isInfix))

theorem wellFormed_lt (s : Str) (h : wellFormed s = true) : ∀ u ∈ s, u < 65536 := by
  fun_induction wellFormed s with
  | case1 => simp
  | case2 u => simp at h; simp [h.1.1]
  | case3 u v r hc ih =>
    simp only [Bool.and_eq_true, isHigh_iff, isLow_iff] at hc
    intro x hx
    simp at hx
    rcases hx with rfl | rfl | hx
    · omega
    · omega
    · exact ih h x hx
  | case4 u v r hc ih =>
    simp at h
    intro x hx
    rw [List.mem_cons] at hx
    rcases hx with rfl | hx
    · exact h.1.1.1
    · exact ih h.2 x hx

/-- The first line break of a text that starts with a line. -/
theorem find_crlf (l r : List Byte) (h : ¬ [CR, LF] <:+: l) : find [CR, LF] (l ++ CR :: LF :: r) = some l.length := by
  refine find_eq (by simp) (by simp) ?_
  intro i hi hp
  by_cases h2 : i + 2 ≤ l.length
  · apply h
    have : [CR, LF] <+: l.drop i := by
      rw [List.drop_append_of_le_length (by omega)] at hp
      rw [List.prefix_iff_eq_take] at hp ⊢
      rw [List.take_append_of_le_length (by simp; omega)] at hp
      exact hp
    exact this.isInfix.trans (List.drop_suffix i l).isInfix
  · have h3 : i + 1 = l.length := by omega
    obtain ⟨t, ht⟩ := hp
    have := congrArg (fun x => x[1]?) ht
    simp [List.getElem?_drop, ← h3] at this

end Yenc.Js
