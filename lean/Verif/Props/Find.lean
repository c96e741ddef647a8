import Verif.Model.JsFind
import Verif.Lemmas.JsHeader
/-! C71: searching where Buffers have no methods for it. -/
namespace Yenc.Props
open Yenc Js

theorem matchAt_iff (buf s : List Byte) (i : Nat) : matchAt buf i s = true ↔ s <+: buf.drop i := by
  induction s generalizing i with
  | nil => simp [matchAt]
  | cons c s ih =>
    have e : elemAt buf (i : Int) = buf[i]? := by simp [elemAt]
    have e2 : ((i : Int) + 1) = ((i + 1 : Nat) : Int) := by push_cast; rfl
    simp only [matchAt, e, e2]
    by_cases h : buf[i]? = some c
    · obtain ⟨h1, h2⟩ := List.getElem?_eq_some_iff.1 h
      rw [if_neg (by simpa using h), ih, List.drop_eq_getElem_cons h1, h2, List.cons_prefix_cons]
      simp
    · rw [if_pos h]
      simp only [Bool.false_eq_true, false_iff]
      rintro ⟨t, ht⟩
      apply h
      have := congrArg (·[0]?) ht
      simpa using this.symm

/-- What a search for the first place gives. -/
def First (buf search : List Byte) (start : Nat) (r : Int) : Prop :=
  (∃ i : Nat, r = i ∧ start ≤ i ∧ search <+: buf.drop i ∧ ∀ j, start ≤ j → j < i → ¬ search <+: buf.drop j) ∨ (r = -1 ∧ ∀ j, start ≤ j → ¬ search <+: buf.drop j)

/-- What a search for the last place gives. -/
def Last (buf search : List Byte) (r : Int) : Prop :=
  (∃ i : Nat, r = i ∧ search <+: buf.drop i ∧ ∀ j, i < j → ¬ search <+: buf.drop j) ∨ (r = -1 ∧ ∀ j, ¬ search <+: buf.drop j)

theorem prefix_bound {buf s : List Byte} {j : Nat} (hs : s ≠ []) (h : s <+: buf.drop j) : j + s.length ≤ buf.length := by
  have := h.length_le
  have h2 : 0 < s.length := List.length_pos_iff.2 hs
  simp at this; omega

theorem findLoop_spec (buf s : List Byte) (hs : s ≠ []) (n i : Nat) (hn : buf.length < i + n + s.length) : First buf s i (findLoop buf s n i) := by
  induction n generalizing i with
  | zero =>
    refine Or.inr ⟨rfl, fun j hj h => ?_⟩
    have := prefix_bound hs h; omega
  | succ n ih =>
    simp only [findLoop]
    by_cases h : matchAt buf i s = true
    · rw [if_pos h]
      exact Or.inl ⟨i, rfl, Nat.le_refl _, (matchAt_iff buf s i).1 h, fun j h1 h2 => by omega⟩
    · rw [if_neg h]
      have h' : ¬ s <+: buf.drop i := fun hp => h ((matchAt_iff buf s i).2 hp)
      have e2 : ((i : Int) + 1) = ((i + 1 : Nat) : Int) := by push_cast; rfl
      rw [e2]
      rcases ih (i + 1) (by omega) with ⟨k, h1, h2, h3, h4⟩ | ⟨h1, h2⟩
      · refine Or.inl ⟨k, h1, by omega, h3, fun j hj hk => ?_⟩
        rcases Nat.lt_or_ge i j with hl | hl
        · exact h4 j hl hk
        · obtain rfl : j = i := by omega
          exact h'
      · refine Or.inr ⟨h1, fun j hj => ?_⟩
        rcases Nat.lt_or_ge i j with hl | hl
        · exact h2 j hl
        · obtain rfl : j = i := by omega
          exact h'

/-- C71: the search for a non-empty text from a position gives the first place at or after it, or -1 if there is none. -/
theorem C71_find (buf search : List Byte) (hs : search ≠ []) (start : Nat) (h : start < 2 ^ 31) : First buf search start (findOld buf search start) := by
  have hl : 0 < search.length := List.length_pos_iff.2 hs
  have e : toInt32 start = start := by
    unfold toInt32
    rw [BitVec.toInt_ofInt]
    exact Int.bmod_eq_of_le (by omega) (by omega)
  unfold findOld
  rw [if_neg (by omega)]
  simp only [e]
  by_cases h1 : (search.length : Int) > buf.length - start
  · rw [if_pos h1]
    refine Or.inr ⟨rfl, fun j hj hp => ?_⟩
    have := prefix_bound hs hp; omega
  · rw [if_neg h1]
    exact findLoop_spec buf search hs _ start (by omega)

example := C71_find [65#8, 13#8, 10#8, 66#8, 13#8, 10#8] [13#8, 10#8] (by decide) 2 (by decide)

theorem findRevLoop_spec (buf s : List Byte) (n : Nat) (hn : ∀ j, n < j → ¬ s <+: buf.drop j) : Last buf s (findRevLoop buf s n) := by
  induction n with
  | zero =>
    simp only [findRevLoop]
    have e := matchAt_iff buf s 0
    by_cases h : matchAt buf 0 s = true
    · rw [if_pos h]; exact Or.inl ⟨0, rfl, e.1 h, hn⟩
    · rw [if_neg h]
      refine Or.inr ⟨rfl, fun j => ?_⟩
      rcases j with _ | j
      · exact fun hp => h (e.2 hp)
      · exact hn _ (by omega)
  | succ n ih =>
    simp only [findRevLoop]
    have e := matchAt_iff buf s (n + 1)
    by_cases h : matchAt buf ((n + 1 : Nat) : Int) s = true
    · rw [if_pos h]; exact Or.inl ⟨n + 1, rfl, e.1 h, hn⟩
    · rw [if_neg h]
      refine ih fun j hj => ?_
      rcases Nat.lt_or_ge (n + 1) j with hl | hl
      · exact hn j hl
      · obtain rfl : j = n + 1 := by omega
        exact fun hp => h (e.2 hp)

/-- C71: the search from the end gives the last place of a non-empty text, or -1 if there is none. -/
theorem C71_find_last (buf search : List Byte) (hs : search ≠ []) : Last buf search (findRevOld buf search) := by
  have hl : 0 < search.length := List.length_pos_iff.2 hs
  unfold findRevOld
  rw [if_neg (by omega)]
  by_cases h : search.length > buf.length
  · rw [if_pos h]
    refine Or.inr ⟨rfl, fun j hp => ?_⟩
    have := prefix_bound hs hp; omega
  · rw [if_neg h]
    refine findRevLoop_spec buf search _ fun j hj hp => ?_
    have := prefix_bound hs hp; omega

example := C71_find_last [65#8, 13#8, 10#8, 66#8, 13#8, 10#8] [13#8, 10#8] (by decide)

/-- The result as a JavaScript number. -/
def place (o : Option Nat) : Int := match o with | some i => i | none => -1

theorem find_isSome {pat l : List Byte} (hp : pat ≠ []) (h : find pat l = none) (i : Nat) : ¬ pat <+: l.drop i := by
  induction l generalizing i with
  | nil => simpa using hp
  | cons c l ih =>
    simp only [find] at h
    by_cases h1 : pat.isPrefixOf (c :: l) = true
    · rw [if_pos h1] at h; simp at h
    · rw [if_neg h1] at h
      rcases i with _ | i
      · intro hc; exact h1 (List.isPrefixOf_iff_prefix.2 hc)
      · cases h2 : find pat l with
        | none => exact ih h2 i
        | some k => rw [h2] at h; simp at h

theorem findFrom_first (buf search : List Byte) (hs : search ≠ []) (start : Nat) : First buf search start (place (findFrom search buf start)) := by
  unfold findFrom
  cases h : find search (buf.drop start) with
  | none =>
    refine Or.inr ⟨rfl, fun j hj hp => find_isSome hs h (j - start) ?_⟩
    rw [List.drop_drop, show start + (j - start) = j by omega]; exact hp
  | some i =>
    refine Or.inl ⟨start + i, rfl, by omega, ?_, fun j h1 h2 hp => find_first h (j - start) (by omega) ?_⟩
    · have := (find_some h).2
      rwa [List.drop_drop] at this
    · rw [List.drop_drop, show start + (j - start) = j by omega]; exact hp

theorem First.unique {buf search : List Byte} {start : Nat} {a b : Int} (ha : First buf search start a) (hb : First buf search start b) : a = b := by
  rcases ha with ⟨i, rfl, h1, h2, h3⟩ | ⟨rfl, h1⟩ <;> rcases hb with ⟨j, rfl, k1, k2, k3⟩ | ⟨rfl, k1⟩
  · rcases Nat.lt_trichotomy i j with h | h | h
    · exact absurd h2 (k3 i h1 h)
    · rw [h]
    · exact absurd k2 (h3 j k1 h)
  · exact absurd h2 (k1 i h1)
  · exact absurd k2 (h1 j k1)
  · rfl

/-- C71: these are the same answers as those of `indexOf` and `lastIndexOf` that the model of `from_post` uses, so C45, C46, C60-C65 also hold without these methods. -/
theorem C71_same (buf search : List Byte) (hs : search ≠ []) :
    (∀ start : Nat, start < 2 ^ 31 → findOld buf search start = place (findFrom search buf start)) ∧ findRevOld buf search = place (findRev search buf) := by
  constructor
  · intro start h
    exact (C71_find buf search hs start h).unique (findFrom_first buf search hs start)
  · rcases C71_find_last buf search hs with ⟨i, h1, h2, h3⟩ | ⟨h1, h2⟩
    · have := prefix_bound hs h2
      have h4 : 0 < search.length := List.length_pos_iff.2 hs
      rw [h1, findRev_eq (by omega) h2 fun j hj _ => h3 j hj]; rfl
    · rw [h1, findRev_none fun j _ => h2 j]; rfl

example : findOld [1#8, 2#8, 3#8, 2#8, 3#8] [2#8, 3#8] 2 = 3 ∧ findOld [1#8, 2#8, 3#8] [2#8, 3#8] 2 = -1 ∧ findRevOld [1#8, 2#8, 3#8, 2#8, 3#8] [2#8, 3#8] = 3 := by decide

/-- C71 does not hold for positions from `2^31` on (`start|0`): the search begins elsewhere.  (Buffers were shorter in the versions of Node.js in question.) -/
theorem C71_large_false : ∃ buf search : List Byte, ∃ start : Nat, search ≠ [] ∧ ¬ First buf search start (findOld buf search start) := by
  refine ⟨[7#8], [7#8], 2 ^ 32, by simp, ?_⟩
  have : findOld [7#8] [7#8] ((2 ^ 32 : Nat) : Int) = 0 := by decide
  rw [this]
  rintro (⟨i, h1, h2, -⟩ | ⟨h1, -⟩)
  · omega
  · omega

end Yenc.Props
