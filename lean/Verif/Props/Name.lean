import Verif.Props.Post
/-!
C47 exactly: which file names stay on one line of the header.
-/
namespace Yenc.Props
open Yenc Js Spec

variable {lib : Lib}

theorem utf8Encode_append (a : Str) (c : Nat) (r : Str) (h : isLow c = false) : utf8Encode (a ++ c :: r) = utf8Encode a ++ utf8Encode (c :: r) := by
  fun_induction utf8Encode a with
  | case1 => rfl
  | case2 u =>
    rw [List.cons_append, List.nil_append, utf8Encode, h, Bool.and_false]
    rfl
  | case3 u v r' hc ih => rw [List.cons_append, List.cons_append, utf8Encode, if_pos hc, ih, List.append_assoc]
  | case4 u v r' hc ih => rw [List.cons_append, List.cons_append, utf8Encode, if_neg hc, ← List.cons_append, ih, List.append_assoc]

theorem utf8Encode_crlf_iff (s : Str) (hu : ∀ u ∈ s, u < 65536) : [CR, LF] <:+: utf8Encode s ↔ [13, 10] <:+: s := by
  constructor
  · intro h
    refine Classical.byContradiction fun h' => utf8Encode_no_crlf s hu h' h
  · rintro ⟨a, b, rfl⟩
    rw [List.append_assoc]
    simp only [List.cons_append, List.nil_append]
    rw [utf8Encode_append a 13 _ (by decide)]
    have h1 : utf8Encode (13 :: 10 :: b) = CR :: utf8Encode (10 :: b) := by
      rw [utf8Encode, if_neg (by decide)]; rfl
    have h2 : utf8Encode (10 :: b) = LF :: utf8Encode b := by
      cases b with
      | nil => decide
      | cons x b => rw [utf8Encode, if_neg (by simp [isHigh])]; rfl
    rw [h1, h2]
    exact ⟨utf8Encode a, utf8Encode b, by simp⟩

/-- The sequence the library removes from file names. -/
def badSeq : Str := [13, 10, 0]

theorem removeBad_step (c : Nat) (r : Str) (h : ¬ badSeq <+: c :: r) : removeBad (c :: r) = c :: removeBad r := by
  rw [removeBad.eq_def]
  split
  · rename_i r' heq
    rw [heq] at h
    exact absurd ⟨r', rfl⟩ h
  · rename_i heq
    injection heq with h1 h2
    rw [h1, h2]
  · rename_i heq
    cases heq

/-- Removing from pieces joined by the sequence gives the pieces, if none contains it. -/
theorem removeBad_join (p : Str) (ps : List Str) (h : ∀ q ∈ p :: ps, ¬ badSeq <:+: q) :
    removeBad (List.intercalate badSeq (p :: ps)) = (p :: ps).flatten := by
  induction ps generalizing p with
  | nil =>
    simp only [List.intercalate_singleton, List.flatten_cons, List.flatten_nil, List.append_nil]
    replace h := h p (by simp)
    induction p with
    | nil => rfl
    | cons c p ih =>
      rw [removeBad_step c p (fun hh => h hh.isInfix), ih (fun hh => h (hh.trans (List.suffix_cons c p).isInfix))]
  | cons q ps ih =>
    have e : List.intercalate badSeq (p :: q :: ps) = p ++ (badSeq ++ List.intercalate badSeq (q :: ps)) := by
      rw [List.intercalate_cons_cons, List.append_assoc]
    rw [e, List.flatten_cons, ← ih q (fun x hx => h x (by simp [hx]))]
    replace h := h p (by simp)
    generalize List.intercalate badSeq (q :: ps) = t
    clear e ih
    induction p with
    | nil => rfl
    | cons c p ih =>
      rw [List.cons_append, removeBad_step, ih (fun hh => h (hh.trans (List.suffix_cons c p).isInfix)), List.cons_append]
      rintro ⟨t', ht'⟩
      rcases p with _ | ⟨x, _ | ⟨y, p⟩⟩
      · simp [badSeq] at ht'
      · simp [badSeq] at ht'
      · simp only [badSeq, List.cons_append, List.nil_append, List.cons.injEq] at ht'
        obtain ⟨rfl, rfl, rfl, _⟩ := ht'
        exact h ⟨[], p, rfl⟩

/-- Every name is a join of such pieces. -/
theorem pieces_exist (s : Str) : ∃ p ps, s = List.intercalate badSeq (p :: ps) ∧ ∀ q ∈ p :: ps, ¬ badSeq <:+: q := by
  fun_induction removeBad s with
  | case1 r ih =>
    obtain ⟨p, ps, h1, h2⟩ := ih
    refine ⟨[], p :: ps, by rw [List.intercalate_cons_cons, ← h1]; rfl, ?_⟩
    intro q hq
    rcases List.mem_cons.mp hq with rfl | hq
    · simp [badSeq]
    · exact h2 q hq
  | case2 c r hne ih =>
    obtain ⟨p, ps, h1, h2⟩ := ih
    refine ⟨c :: p, ps, ?_, ?_⟩
    · cases ps with
      | nil => simp only [List.intercalate_singleton] at h1 ⊢; rw [h1]
      | cons x ps => rw [List.intercalate_cons_cons] at h1 ⊢; rw [h1]; simp
    · intro q hq
      rcases List.mem_cons.mp hq with rfl | hq
      · intro hh
        rcases List.infix_cons_iff.mp hh with hh | hh
        · obtain ⟨t, ht⟩ := hh
          simp only [badSeq, List.cons_append, List.nil_append, List.cons.injEq] at ht
          obtain ⟨rfl, rfl⟩ := ht
          refine hne (t ++ (match ps with | [] => [] | x :: ps => badSeq ++ List.intercalate badSeq (x :: ps))) rfl ?_
          cases ps with
          | nil => simp only [List.intercalate_singleton] at h1; simp [h1]
          | cons x ps => rw [List.intercalate_cons_cons] at h1; simp [h1]
        · exact h2 p (by simp) hh
      · exact h2 q (by simp [hq])
  | case3 => exact ⟨[], [], rfl, by simp [badSeq]⟩

/-- C47, exactly, for single posts: the name in the header is that of the name without the sequences CR LF NUL, cut after 256 units; it contains a line break if and only if
this does. -/
theorem C47_exact (h : lib.IsLib) (p : Str) (ps : List Str) (hp : ∀ q ∈ p :: ps, ¬ badSeq <:+: q) (hu : ∀ q ∈ p :: ps, ∀ u ∈ q, u < 65536)
    (ls : Nat) (h1 : 1 ≤ ls) (h2 : ls + 6 < 2 ^ 31) (d : List Byte) :
    ∃ nm body crc, ((multiPost (List.intercalate badSeq (p :: ps)) d.length 1 ls).encode lib d).2 = .ret (singlePost ls d.length nm body crc) ∧
      ([CR, LF] <:+: nm ↔ [13, 10] <:+: (p :: ps).flatten.take 256) := by
  refine ⟨_, _, _, single_eq h _ ls 1 h1 h2 d (by omega), ?_⟩
  rw [fileName, removeBad_join p ps hp, utf8Encode_crlf_iff]
  intro u hu'
  obtain ⟨q, hq, hq'⟩ := List.mem_flatten.mp (List.mem_of_mem_take hu')
  exact hu q hq u hq'

example := C47_exact genericLib_isLib (lit "a") [lit "b"] (by decide) (by decide) 128 (by decide) (by decide) [65#8]

/-- C47, exactly, for every part of a multi-part post. -/
theorem C47_exact_parts (h : lib.IsLib) (p : Str) (ps : List Str) (hp : ∀ q ∈ p :: ps, ¬ badSeq <:+: q) (hu : ∀ q ∈ p :: ps, ∀ u ∈ q, u < 65536)
    (ls : Nat) (h1 : 1 ≤ ls) (h2 : ls + 6 < 2 ^ 31) (ds : List (List Byte)) (hn : 1 < ds.length) (hs : ds.flatten.length < 2 ^ 53) :
    ∃ (posts : List (List Byte)) (nm : List Byte), (feedParts lib (List.intercalate badSeq (p :: ps)) ls ds).2 = posts.map .ret ∧
      (∀ i (hi : i < ds.length), ∃ body pcrc crc,
        posts[i]? = some (partPost (i + 1) ds.length ls ds.flatten.length nm (ds.take i).flatten.length ds[i].length body pcrc crc)) ∧
      ([CR, LF] <:+: nm ↔ [13, 10] <:+: (p :: ps).flatten.take 256) := by
  obtain ⟨_, b⟩ := run_all h (show ds.flatten.length < 2 ^ 63 by omega) h1 h2 ds
    (EncInv.init (name := List.intercalate badSeq (p :: ps)) (size := ds.flatten.length) hn h1) (by simp) (by simp) (by simp)
  refine ⟨_, fileName (List.intercalate badSeq (p :: ps)), b, fun i hi => ?_, ?_⟩
  · rw [List.getElem?_eq_getElem (by rw [partsOf_length]; exact hi), partsOf_getElem _ _ _ _ _ _ _ _ hi]
    simp only [partOf, List.nil_append, Nat.zero_add]
    exact ⟨_, _, _, rfl⟩
  · rw [fileName, removeBad_join p ps hp, utf8Encode_crlf_iff]
    intro u hu'
    obtain ⟨q, hq, hq'⟩ := List.mem_flatten.mp (List.mem_of_mem_take hu')
    exact hu q hq u hq'

-- every name has such pieces (`pieces_exist`); here one that stays on one line because the sequence is removed, and one where removing it makes a line break
example : List.intercalate badSeq [lit "a", lit "b"] = lit "a" ++ [13, 10, 0] ++ lit "b" ∧ ¬ [13, 10] <:+: [lit "a", lit "b"].flatten.take 256 ∧
    (∀ q ∈ [lit "a", lit "b"], ¬ badSeq <:+: q) := by decide
example : List.intercalate badSeq [[13], [10]] = [13, 13, 10, 0, 10] ∧ [13, 10] <:+: ([[13], [10]] : List Str).flatten.take 256 ∧
    (∀ q ∈ ([[13], [10]] : List Str), ¬ badSeq <:+: q) := by decide

end Yenc.Props
