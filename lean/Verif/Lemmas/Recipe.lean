import Verif.Lemmas.EncLines
import Verif.Lemmas.JsFromPost
import Verif.Lemmas.JsArgs
import Verif.Props.Incremental
/-!
Encoded data put together from pieces, for property C99.
-/
namespace Yenc.Enc
open Yenc Spec

/-- The number of bytes after the last line feed. -/
def column (out : List Byte) : Nat := (out.reverse.takeWhile (· ≠ LF)).length

theorem joinLines_snoc (L : List (List Byte)) (l : List Byte) (hL : L ≠ []) : joinLines (L ++ [l]) = joinLines L ++ CR :: LF :: l := by
  induction L with
  | nil => exact absurd rfl hL
  | cons a L ih =>
    cases L with
    | nil => simp [joinLines]
    | cons b L => simp only [List.cons_append, joinLines] at ih ⊢; rw [ih (by simp)]; simp

theorem column_line (t l : List Byte) (h : LF ∉ l) : column (t ++ LF :: l) = l.length := by
  unfold column
  rw [List.reverse_append, List.reverse_cons, List.append_assoc, List.takeWhile_append_of_pos]
  · simp
  · intro b hb
    have : b ∈ l := by simpa using hb
    simp only [decide_eq_true_eq]
    rintro rfl; exact h this

theorem column_first (l : List Byte) (h : LF ∉ l) : column l = l.length := by
  unfold column
  have := List.takeWhile_append_of_pos (p := fun b : Byte => decide (b ≠ LF)) (l₁ := l.reverse) (l₂ := []) (by
    intro b hb
    have : b ∈ l := by simpa using hb
    simp only [decide_eq_true_eq]
    rintro rfl; exact h this)
  rw [List.append_nil] at this
  rw [this]; simp

theorem column_join (L : List (List Byte)) (l : List Byte) (h : LF ∉ l) : column (joinLines (L ++ [l])) = l.length := by
  by_cases hL : L = []
  · subst hL; exact column_first l h
  · rw [joinLines_snoc L l hL, show joinLines L ++ CR :: LF :: l = (joinLines L ++ [CR]) ++ LF :: l by simp]
    exact column_line _ _ h

theorem joinLines_extend (L : List (List Byte)) (l : List Byte) (M : List (List Byte)) (hM : M ≠ []) :
    joinLines (L ++ prependLine l M) = joinLines (L ++ [l]) ++ joinLines M := by
  induction L with
  | nil => simp only [List.nil_append]; rw [joinLines_prepend l M hM]; rfl
  | cons a L ih =>
    have e : ∀ K : List (List Byte), K ≠ [] → joinLines (a :: K) = a ++ CR :: LF :: joinLines K := by
      intro K hK
      cases K with
      | nil => exact absurd rfl hK
      | cons b K => rfl
    simp only [List.cons_append]
    rw [e _ (by simp [prependLine_ne_nil]), e _ (by simp), ih]
    simp

theorem lineLengths_extend (ls : Nat) (L : List (List Byte)) (x : List Byte) (M : List (List Byte)) (hM : M ≠ []) (n : Nat)
    (h1 : LineLengths ls n (L ++ [x])) (h2 : L ≠ [] → LineLengths ls 0 M) (h3 : L = [] → LineLengths ls n M) : LineLengths ls n (L ++ M) := by
  induction L generalizing n with
  | nil => exact h3 rfl
  | cons a L ih =>
    obtain ⟨m, ms, rfl⟩ := List.exists_cons_of_ne_nil hM
    cases L with
    | nil =>
      simp only [List.cons_append, List.nil_append, LineLengths] at h1 ⊢
      exact ⟨h1.1, h2 (by simp)⟩
    | cons b L =>
      simp only [List.cons_append, LineLengths] at h1 ⊢
      exact ⟨h1.1, ih 0 h1.2 (fun _ => h2 (by simp)) (by simp)⟩

/-- A line break before a full line is what the encoder does by itself. -/
theorem encode_full (ls : Nat) (hls : 1 ≤ ls) (fin : Bool) (col : Nat) (h : ls ≤ col) (p : List Byte) (hp : p ≠ []) :
    Spec.encode ls fin col p = CR :: LF :: Spec.encode ls fin 0 p := by
  cases p with
  | nil => exact absurd rfl hp
  | cons c cs => rw [encode_cons_ge _ _ _ _ _ h, encode_cons_lt _ _ _ _ _ (show 0 < ls by omega), Nat.zero_add]

/-- What holds of the encoded text `out` of the data `d` in lines of `ls` characters. -/
structure Body (ls : Nat) (out d : List Byte) : Prop where
  lines : ∃ L l, out = joinLines (L ++ [l]) ∧ (d = [] → L = [] ∧ l = []) ∧ (d ≠ [] → l ≠ []) ∧
    (∀ x ∈ L ++ [l], (∀ b ∈ x, b ≠ NUL ∧ b ≠ CR ∧ b ≠ LF) ∧ paired x = true ∧ GoodStart x ∧ GoodEnd x) ∧ LineLengths ls 0 (L ++ [l])
  plain : ∀ t, yDecode (out ++ t) = d ++ yDecode t
  run : Dec.run .crlf out = ⟨[], d, if d = [] then .crlf else .none, .none⟩

theorem Body.empty (ls : Nat) : Body ls [] [] where
  lines := ⟨[], [], rfl, fun _ => ⟨rfl, rfl⟩, fun h => absurd rfl h, by simp [paired, GoodStart, GoodEnd], by simp [LineLengths]⟩
  plain := fun _ => rfl
  run := rfl

theorem lineLengths_last (ls n : Nat) (L : List (List Byte)) (l : List Byte) (h : LineLengths ls n (L ++ [l])) : l.length ≤ ls + 1 ∧ (l.length = ls + 1 → EndsEscape l) := by
  induction L generalizing n with
  | nil =>
    simp only [List.nil_append, LineLengths] at h
    rcases h with h | h
    · exact ⟨by omega, fun _ => by omega⟩
    · exact ⟨by omega, fun _ => h.2⟩
  | cons a L ih =>
    cases L with
    | nil => simp only [List.cons_append, List.nil_append, LineLengths] at h ih; exact ih 0 h.2
    | cons b L => simp only [List.cons_append, LineLengths] at h ih; exact ih 0 h.2

theorem mem_prependLine (l : List Byte) (m : List Byte) (ms : List (List Byte)) (x : List Byte) : x ∈ prependLine l (m :: ms) ↔ x = l ++ m ∨ x ∈ ms := by
  simp [prependLine]

/-- Adding a piece. -/
theorem Body.add {ls : Nat} (hls : 1 ≤ ls) {out d : List Byte} (h : Body ls out d) (p : List Byte) : Body ls (out ++ Spec.encode ls true (column out) p) (d ++ p) := by
  by_cases hp : p = []
  · subst hp; simpa [Spec.encode] using h
  obtain ⟨⟨L, l, rfl, h1, h2, h3, h4⟩, h6, h5⟩ := h
  have hl := h3 l (by simp)
  have hcol : column (joinLines (L ++ [l])) = l.length := column_join L l (fun hm => (hl.1 _ hm).2.2 rfl)
  rw [hcol]
  have hlast := lineLengths_last ls 0 L l h4
  have hM := encLines_ne_nil ls true l.length p
  constructor
  · have g1 := encLines_last_ne_nil ls hls true l.length p hp
    have g2 := encLines_safe ls true l.length p
    have g3 := encLines_paired ls true l.length p
    have g4 := encLines_tail_start ls true l.length p
    have g5 : l.length = 0 → GoodStart ((encLines ls true l.length p).headD []) := by
      intro h0
      rw [h0]
      intro b hb
      have := encLines_head_start ls hls true p
      cases hE : encLines ls true 0 p with
      | nil => rw [hE] at hb; simp at hb
      | cons m ms => rw [hE] at hb this; exact this m (by simp) b (by simpa using hb)
    have g6 := GoodEnds_true _ (encLines_ends ls hls true l.length p)
    have g7 := encLines_lineLengths_aux ls hls true p 0 l hl.2.1 (by
      rw [Nat.zero_add]
      by_cases he : l.length ≤ ls
      · exact .inl he
      · exact .inr ⟨by omega, hlast.2 (by omega)⟩)
    rw [Nat.zero_add] at g7
    have ej := joinLines_encLines ls true l.length p
    generalize hE : encLines ls true l.length p = E at *
    obtain ⟨m, ms, rfl⟩ := List.exists_cons_of_ne_nil hM
    rw [← ej, ← joinLines_extend L l _ hM]
    have hgood : ∀ x ∈ L ++ prependLine l (m :: ms), (∀ b ∈ x, b ≠ NUL ∧ b ≠ CR ∧ b ≠ LF) ∧ paired x = true ∧ GoodStart x ∧ GoodEnd x := by
      intro x hx
      rw [List.mem_append, mem_prependLine] at hx
      rcases hx with hx | rfl | hx
      · exact h3 x (by simp [hx])
      · refine ⟨?_, paired_append _ _ hl.2.1 (g3 m (by simp)), ?_, ?_⟩
        · intro b hb
          rw [List.mem_append] at hb
          rcases hb with hb | hb
          · exact hl.1 b hb
          · exact g2 m (by simp) b hb
        · by_cases h0 : l = []
          · subst h0; exact g5 rfl
          · intro b hb
            obtain ⟨y, ys, rfl⟩ := List.exists_cons_of_ne_nil h0
            exact hl.2.2.1 b (by simpa using hb)
        · by_cases hm : m = []
          · subst hm; rw [List.append_nil]; exact hl.2.2.2
          · exact GoodEnd_append _ _ hm (g6 m (by simp))
      · exact ⟨g2 x (by simp [hx]), g3 x (by simp [hx]), (g4 x (by simpa using hx)).2, g6 x (by simp [hx])⟩
    have hlen := lineLengths_extend ls L l (prependLine l (m :: ms)) (prependLine_ne_nil _ _) 0 h4 (fun _ => g7) (fun _ => g7)
    have hlast' : ∃ K k, L ++ prependLine l (m :: ms) = K ++ [k] ∧ k ≠ [] := by
      rcases List.eq_nil_or_concat ms with rfl | ⟨ms', k, rfl⟩
      · refine ⟨L, l ++ m, rfl, ?_⟩
        have := g1 m (by simp)
        simp [this]
      · refine ⟨L ++ (l ++ m) :: ms', k, by simp [prependLine], g1 k ?_⟩
        rw [show m :: ms'.concat k = (m :: ms') ++ [k] by simp, List.getLast?_append]
        simp
    obtain ⟨K, k, e, hk⟩ := hlast'
    rw [e] at hgood hlen ⊢
    exact ⟨K, k, rfl, fun hh => absurd hh (by simp [hp]), fun _ => hk, hgood, hlen⟩
  · intro t
    rw [List.append_assoc, h6, Props.yDecode_encode_append, List.append_assoc]
  · have hst : Dec.run .crlf (joinLines (L ++ [l]) ++ Spec.encode ls true l.length p) =
        (Dec.run (if d = [] then .crlf else .none) (Spec.encode ls true l.length p)).pre d := by
      rw [Dec.run_append _ _ _ (by rw [h5]), h5]
    rw [hst, run_encode ls hls true l.length p]
    · simp [Dec.Res.pre, hp]
    · by_cases hd : d = []
      · left; exact ⟨by rw [(h1 hd).2]; rfl, by rw [if_pos hd]⟩
      · right; exact ⟨List.length_pos_iff.mpr (h2 hd), by rw [if_neg hd]⟩

/-- Such a text does not end in a line break. -/
theorem Body.no_tail {ls : Nat} {out d : List Byte} (h : Body ls out d) : ¬ Dec.EscapedBreakTail out := by
  obtain ⟨⟨L, l, rfl, h1, h2, h3, h4⟩, -, -⟩ := h
  rintro ⟨t, ht⟩
  by_cases hd : d = []
  · obtain ⟨rfl, rfl⟩ := h1 hd
    simp [joinLines] at ht
  · have hne := h2 hd
    have hlast : (joinLines (L ++ [l])).getLast? = some (l.getLast hne) := by
      by_cases hL : L = []
      · subst hL; exact List.getLast?_eq_some_getLast hne
      · rw [joinLines_snoc L l hL, List.getLast?_append, List.getLast?_cons, List.getLast?_cons, List.getLast?_eq_some_getLast hne]
        simp
    rw [← ht] at hlast
    simp at hlast
    exact ((h3 l (by simp)).1 _ (List.getLast_mem hne)).2.2 hlast.symm

open Dec in
/-- The decoders give the data back. -/
theorem Body.decode {ls : Nat} {out d : List Byte} (h : Body ls out d) {impl : Dec.Impl} (hd : Dec.IsImpl impl) (isRaw : Bool) :
    Dec.apiDecode impl [.buffer out, .bool isRaw] = .ret d := by
  cases isRaw with
  | true =>
    rw [Dec.apiDecode_eq hd.correct true _ (fun _ => hd.correct.raw _ h.no_tail)]
    have h2 := run_forget .crlf out (by rw [h.run])
    rw [← nrun_crlf_spec]
    have : State.forget .crlf = .crlf := rfl
    rw [this] at h2
    rw [h2, h.run]
  | false =>
    rw [Dec.apiDecode_eq hd.correct false _ (by simp)]
    have := h.plain []
    simpa [Spec.decode, yDecode] using this

/-- It does not begin like a header line. -/
theorem Body.noKeyword {ls : Nat} {out d : List Byte} (h : Body ls out d) : Js.NoKeyword out := by
  rintro ⟨t, ht⟩
  have := congrArg Dec.Res.ended h.run
  rw [← ht] at this
  revert this
  simp only [List.cons_append, List.nil_append]
  rw [Dec.run_crlf_cons, if_neg (by decide), if_pos rfl, Dec.run_crlfeq_cons, if_pos rfl]
  simp

end Yenc.Enc
