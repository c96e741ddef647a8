import Verif.Lemmas.Api
/-!
Property C14: incremental encoding (native `encodeIncr`), and the column it returns.
-/
namespace Yenc.Props
open Yenc Spec

variable {eimpl : Enc.Impl}

/-- The reference encoder continues from the column it has reached. -/
theorem encode_append (ls : Nat) (fin : Bool) (col : Nat) (a b : List Byte) (hb : b ≠ []) :
    Spec.encode ls fin col (a ++ b) = Spec.encode ls false col a ++ Spec.encode ls fin (Spec.endCol ls false col a) b := by
  induction a generalizing col with
  | nil => simp [Spec.encode, Spec.endCol]
  | cons c cs ih =>
    have h1 : (fin && (cs ++ b).isEmpty) = false := by cases fin <;> simp [hb]
    by_cases h : ls ≤ col
    · simp only [List.cons_append, Spec.encode, Spec.endCol, h, if_true, h1, Bool.false_and, ih, List.append_assoc]
    · simp only [List.cons_append, Spec.encode, Spec.endCol, h, if_false, h1, Bool.false_and, ih, List.append_assoc]

theorem apiEncodeIncr_eq (he : Enc.IsImpl eimpl) (d : List Byte) (hne : d ≠ []) (ls col : Nat) (h1 : 1 ≤ ls) (h2 : ls + 6 < 2 ^ 31) (h3 : col < ls) :
    ∃ col', Enc.apiEncodeIncr eimpl [.buffer d, .int ls, .int col] = .ret (Spec.encode ls false col d, col') ∧
      Enc.ColRel ls col' (Spec.endCol ls false col d) ∧ (2 ≤ ls → col' ≤ ls) := by
  obtain ⟨col', h4, h5, h6⟩ := Enc.runInto_eq he.correct ls col d false h1 h2 h3 hne _ (Nat.le_refl _)
  refine ⟨col', ?_, h5, h6 rfl⟩
  simp only [Enc.apiEncodeIncr, hne, if_false, Enc.lineArgs_eq ls col h1 (by omega) h3, Outcome.bind, Int.toNat_natCast, h4]

/-- The caller's loop: encode each piece, passing the returned column on.  Result: the concatenated output and the
columns returned. -/
def encodePieces (impl : Enc.Impl) (ls : Int) : List (List Byte) → Int → Outcome (List Byte × List Int)
  | [], _ => .ret ([], [])
  | p :: ps, col =>
    (Enc.apiEncodeIncr impl [.buffer p, .int ls, .int col]).bind fun r =>
    (encodePieces impl ls ps r.2).bind fun r2 => .ret (r.1 ++ r2.1, r.2 :: r2.2)

/-- C14 is false as coded: the column returned after a piece that exactly fills a line is one too small, so the next piece puts one more
character on that line. -/
theorem C14_incremental_false :
    ¬ ∀ (ps : List (List Byte)) (ls : Nat), 1 ≤ ls → ls + 6 < 2 ^ 31 → (∀ p ∈ ps, p ≠ []) →
      ∃ out cols cols', encodePieces Enc.encodeGeneric ls ps 0 = .ret (out, cols) ∧
        encodePieces Enc.encodeGeneric ls [ps.flatten] 0 = .ret (out, cols') := by
  intro h
  obtain ⟨out, cols, cols', h1, h2⟩ := h [[65#8, 65#8], [65#8]] 2 (by decide) (by decide) (by decide)
  have e0 : Enc.encodeGeneric 2 0 [65#8, 65#8] false = some (⟨[107#8, 107#8], 2⟩, 1) := by
    unfold Enc.encodeGeneric Enc.body
    simp only [if_true]
    rw [Enc.outer_eq]
    unfold Enc.line
    rw [Enc.unroll8]
    decide
  have e1 : Enc.encodeGeneric 2 1 [65#8] false = some (⟨[107#8], 1⟩, 1) := by
    unfold Enc.encodeGeneric Enc.body
    simp only [show ¬ (1 : Int) = 0 by decide, if_false]
    rw [Enc.outer_eq]
    unfold Enc.line
    rw [Enc.unroll8]
    decide
  have t0 : toInt32 0 = 0 := by decide
  have t1 : toInt32 1 = 1 := by decide
  have t2 : toInt32 ((2 : Nat) : Int) = 2 := by decide
  simp only [encodePieces, Enc.apiEncodeIncr, Enc.lineArgs, argToInt, Outcome.bind, t0, t1, t2] at h1
  simp [Enc.runInto, e0, e1, yencMaxSize, t1] at h1
  obtain ⟨col', h3, _⟩ := apiEncodeIncr_eq .generic [65#8, 65#8, 65#8] (by decide) 2 0 (by decide) (by decide) (by decide)
  have h4 : ([[65#8, 65#8], [65#8]] : List (List Byte)).flatten = [65#8, 65#8, 65#8] := rfl
  rw [h4] at h2
  simp only [encodePieces, Outcome.bind] at h2
  rw [show (0 : Int) = ((0 : Nat) : Int) from rfl, h3] at h2
  simp at h2
  have h5 := h2.1
  rw [← h1.1] at h5
  revert h5
  decide

/-- Pieces whose returned columns, except the last, are below `ls - 1`. -/
def ColsOk (ls : Int) : List Int → Prop
  | [] => True
  | [_] => True
  | c :: cs => c < ls - 1 ∧ ColsOk ls cs

/-- C14, for the splits that work: if every column returned before the last piece is below `line_size - 1`, the pieces concatenate
to the encoding of the whole.  Partial: the full claim (all splits) is false, see `C14_incremental_false`. -/
theorem C14_incremental_partial (he : Enc.IsImpl eimpl) (ls : Nat) (h1 : 1 ≤ ls) (h2 : ls + 6 < 2 ^ 31) (p : List Byte) (ps : List (List Byte))
    (col : Nat) (h3 : col < ls) (hp : p ≠ []) (hps : ∀ q ∈ ps, q ≠ []) (out : List Byte) (cols : List Int)
    (h : encodePieces eimpl ls (p :: ps) col = .ret (out, cols)) (hc : ColsOk ls cols) :
    ∃ col', Enc.apiEncodeIncr eimpl [.buffer (p ++ ps.flatten), .int ls, .int col] = .ret (out, col') := by
  induction ps generalizing p col out cols with
  | nil =>
    obtain ⟨c', h4, h5, _⟩ := apiEncodeIncr_eq he p hp ls col h1 h2 h3
    simp only [encodePieces, h4, Outcome.bind, Outcome.ret.injEq, Prod.mk.injEq] at h
    refine ⟨c', ?_⟩
    rw [List.flatten_nil, List.append_nil, h4, ← h.1, List.append_nil]
  | cons q qs ih =>
    obtain ⟨c', h4, h5, _⟩ := apiEncodeIncr_eq he p hp ls col h1 h2 h3
    rw [encodePieces, h4] at h
    simp only [Outcome.bind] at h
    split at h
    · rename_i r hr
      simp only [Outcome.ret.injEq, Prod.mk.injEq] at h
      obtain ⟨rfl, rfl⟩ := h
      obtain ⟨out2, cols2⟩ := r
      simp only at hc ⊢
      have hne2 : cols2 ≠ [] := by
        intro h0
        subst h0
        rw [encodePieces] at hr
        revert hr
        generalize Enc.apiEncodeIncr eimpl _ = x
        cases x <;> simp [Outcome.bind]
        split <;> simp
      obtain ⟨hc1, hc2⟩ : c' < (ls : Int) - 1 ∧ ColsOk ls cols2 := by
        rcases cols2 with _ | ⟨c2, cols2⟩
        · exact absurd rfl hne2
        · exact hc
      have hcol : c' = (Spec.endCol ls false col p : Nat) := by
        rcases h5 with h5 | h5
        · exact h5
        · omega
      rw [hcol] at hr
      obtain ⟨c2, h6⟩ := ih q (Spec.endCol ls false col p) (by omega) (hps q (by simp)) (fun x hx => hps x (by simp [hx])) out2 cols2 hr hc2
      have hne : q ++ qs.flatten ≠ [] := by simp [hps q (by simp)]
      obtain ⟨c3, h7, _⟩ := apiEncodeIncr_eq he (q ++ qs.flatten) hne ls (Spec.endCol ls false col p) h1 h2 (by omega)
      obtain ⟨c4, h8, _⟩ := apiEncodeIncr_eq he (p ++ (q ++ qs.flatten)) (by simp [hp]) ls col h1 h2 h3
      refine ⟨c4, ?_⟩
      rw [List.flatten_cons, h8, encode_append ls false col p _ hne]
      rw [h7] at h6
      injection h6 with h6
      rw [Prod.mk.injEq] at h6
      rw [h6.1]
    · simp at h
    · simp at h

/-- The hypotheses can be met: two pieces, with an escape in each. -/
example : ∃ out cols, encodePieces Enc.encodeGeneric 128 [[214#8, 65#8], [19#8, 65#8]] 0 = .ret (out, cols) ∧ ColsOk 128 cols := by
  obtain ⟨c1, h1, r1, _⟩ := apiEncodeIncr_eq .generic [214#8, 65#8] (by decide) 128 0 (by decide) (by decide) (by decide)
  have e1 : c1 = ((3 : Nat) : Int) := by
    rcases r1 with r1 | r1
    · rw [r1]; decide
    · exact absurd r1.2.2 (by decide)
  subst e1
  obtain ⟨c2, h2, _⟩ := apiEncodeIncr_eq .generic [19#8, 65#8] (by decide) 128 3 (by decide) (by decide) (by decide)
  refine ⟨encode 128 false 0 [214#8, 65#8] ++ (encode 128 false 3 [19#8, 65#8] ++ []), [((3 : Nat) : Int), c2], ?_, by simp [ColsOk]⟩
  simp only [encodePieces]
  rw [show (0 : Int) = ((0 : Nat) : Int) from rfl, show (128 : Int) = ((128 : Nat) : Int) from rfl, h1]
  simp only [Outcome.bind]
  rw [h2]

theorem yDecode_encode_append (ls : Nat) (fin : Bool) (col : Nat) (l t : List Byte) :
    Spec.yDecode (Spec.encode ls fin col l ++ t) = l ++ Spec.yDecode t := by
  induction l generalizing col with
  | nil => simp [Spec.encode]
  | cons c cs ih =>
    by_cases h : ls ≤ col
    · rw [Enc.encode_cons_ge _ _ _ _ _ h]
      simp only [List.cons_append]
      rw [Dec.yDecode_cons, if_pos (Or.inl rfl), Dec.yDecode_cons, if_pos (Or.inr rfl), List.append_assoc, Enc.yDecode_encChar, ih]
    · rw [Enc.encode_cons_lt _ _ _ _ _ (by omega), List.append_assoc, Enc.yDecode_encChar, ih, List.cons_append]

theorem endCol_append (ls col : Nat) (a b : List Byte) : Spec.endCol ls false col (a ++ b) = Spec.endCol ls false (Spec.endCol ls false col a) b := by
  induction a generalizing col with
  | nil => rfl
  | cons c cs ih => simp only [List.cons_append, Spec.endCol, Bool.false_and, ih]; split <;> rfl

/-- A call with any column that is accepted: `line_size` stands for 0. -/
theorem apiEncodeIncr_at (he : Enc.IsImpl eimpl) (d : List Byte) (ls : Nat) (h1 : 2 ≤ ls) (h2 : ls + 6 < 2 ^ 31) (c : Int) (h3 : 0 ≤ c) (h4 : c ≤ ls) :
    ∃ col', Enc.apiEncodeIncr eimpl [.buffer d, .int ls, .int c] = .ret (Spec.encode ls false (if c = ls then 0 else c.toNat) d, col') ∧ 0 ≤ col' ∧ col' ≤ ls := by
  have hargs : Enc.lineArgs [.int ls, .int c] = .ret ((ls : Int), ((if c = ls then 0 else c.toNat : Nat) : Int)) := by
    unfold Enc.lineArgs
    simp only [argToInt, Outcome.bind, toInt32_of_lt ls (by omega), toInt32_of_range c (by omega) (by omega)]
    rw [if_neg (show ¬ (ls : Int) = 0 by omega), if_neg (by omega), if_neg (by omega)]
    by_cases h : c = ls
    · rw [if_pos h, if_pos h]; rfl
    · rw [if_neg h, if_neg h, Int.toNat_of_nonneg h3]
  have hlt : (if c = ls then 0 else c.toNat) < ls := by split <;> omega
  generalize (if c = ls then 0 else c.toNat) = k at *
  by_cases hne : d = []
  · subst hne
    refine ⟨(k : Int), ?_, by omega, by omega⟩
    simp [Enc.apiEncodeIncr, hargs, Outcome.bind, Spec.encode]
  · obtain ⟨col', h5, h6, h7⟩ := Enc.runInto_eq he.correct ls k d false (by omega) h2 hlt hne _ (Nat.le_refl _)
    refine ⟨col', ?_, ?_, h7 rfl h1⟩
    · simp only [Enc.apiEncodeIncr, hne, if_false, hargs, Outcome.bind, Int.toNat_natCast, h5]
    · rcases h6 with h6 | h6 <;> omega

/-- C14: whatever the pieces, even where a line comes out too long, encoding them one by one does not fail, and decoding the result gives the data. -/
theorem C14_decodes (he : Enc.IsImpl eimpl) {dimpl : Dec.Impl} (hd : Dec.IsImpl dimpl) (ls : Nat) (h1 : 2 ≤ ls) (h2 : ls + 6 < 2 ^ 31) (ps : List (List Byte)) (col : Int)
    (h3 : 0 ≤ col) (h4 : col ≤ ls) :
    ∃ out cols, encodePieces eimpl ls ps col = .ret (out, cols) ∧ Dec.apiDecode dimpl [.buffer out, .bool false] = .ret ps.flatten := by
  have key : ∃ out cols, encodePieces eimpl ls ps col = .ret (out, cols) ∧ Spec.yDecode out = ps.flatten := by
    induction ps generalizing col with
    | nil => exact ⟨[], [], rfl, rfl⟩
    | cons p ps ih =>
      obtain ⟨c', e1, e2, e3⟩ := apiEncodeIncr_at he p ls h1 h2 col h3 h4
      obtain ⟨out, cols, e4, e5⟩ := ih c' e2 e3
      refine ⟨_, _, by rw [encodePieces, e1, Outcome.bind]; simp only [e4, Outcome.bind]; rfl, ?_⟩
      rw [yDecode_encode_append, e5, List.flatten_cons]
  obtain ⟨out, cols, e1, e2⟩ := key
  refine ⟨out, cols, e1, ?_⟩
  rw [Dec.apiDecode_eq hd.correct false _ (by simp)]
  simp [Spec.decode, e2]

example : ∃ ls : Nat, 2 ≤ ls ∧ ls + 6 < 2 ^ 31 ∧ (0 : Int) ≤ 1 ∧ (1 : Int) ≤ ls := ⟨2, by decide⟩

/-- ... which does not hold for line size 1: the column returned after an escape is refused by the next call. -/
theorem C14_line_size_one_false : ∃ m, encodePieces Enc.encodeGeneric 1 [[214#8], [65#8]] 0 = .throw m := by
  refine ⟨"Column offset cannot exceed the line size and cannot be negative", ?_⟩
  have e0 : Enc.encodeGeneric 1 0 [214#8] false = some (⟨[61#8, 64#8], 2⟩, 2) := by
    unfold Enc.encodeGeneric Enc.body
    simp only [if_true]
    rw [Enc.outer_eq]
    decide
  have t0 : toInt32 0 = 0 := by decide
  have t1 : toInt32 1 = 1 := by decide
  have t2 : toInt32 2 = 2 := by decide
  simp only [encodePieces, Enc.apiEncodeIncr, Enc.lineArgs, argToInt, Outcome.bind, t0, t1]
  simp [Enc.runInto, e0, yencMaxSize, t2]

/-- A line that is not yet full is continued without a line break. -/
theorem encode_head_ne (ls : Nat) (fin : Bool) (k : Nat) (h : k < ls) (q : List Byte) (t : List Byte) : Spec.encode ls fin k q ≠ CR :: t := by
  cases q with
  | nil => simp [Spec.encode]
  | cons c cs =>
    rw [Enc.encode_cons_lt _ _ _ _ _ h]
    have h1 := Enc.encChar_safe ls k (fin && cs.isEmpty) (c + 42#8)
    have h2 := Enc.encChar_length ls k (fin && cs.isEmpty) (c + 42#8)
    generalize Spec.encChar ls k (fin && cs.isEmpty) (c + 42#8) = s at *
    cases s with
    | nil => simp at h2
    | cons x xs =>
      intro h3
      simp only [List.cons_append, List.cons.injEq] at h3
      exact (h1 x (by simp)).2.1 h3.1

/-- C14, exactly: pieces (none of them empty) give the encoding of the whole if and only if none of them, except the last, ends where the line is full. -/
theorem C14_exact (he : Enc.IsImpl eimpl) (ls : Nat) (h1 : 2 ≤ ls) (h2 : ls + 6 < 2 ^ 31) (p : List Byte) (ps : List (List Byte)) (col : Nat) (h3 : col < ls)
    (hp : p ≠ []) (hps : ∀ q ∈ ps, q ≠ []) :
    ∃ out cols whole c, encodePieces eimpl ls (p :: ps) col = .ret (out, cols) ∧
      Enc.apiEncodeIncr eimpl [.buffer (p ++ ps.flatten), .int ls, .int col] = .ret (whole, c) ∧
      (out = whole ↔ ∀ a b, p :: ps = a ++ b → a ≠ [] → b ≠ [] → Spec.endCol ls false col a.flatten < ls) := by
  obtain ⟨c, e1, -⟩ := apiEncodeIncr_eq he (p ++ ps.flatten) (by simp [hp]) ls col (by omega) h2 h3
  suffices h : ∃ out cols, encodePieces eimpl ls (p :: ps) col = .ret (out, cols) ∧
      (out = Spec.encode ls false col (p ++ ps.flatten) ↔ ∀ a b, p :: ps = a ++ b → a ≠ [] → b ≠ [] → Spec.endCol ls false col a.flatten < ls) by
    obtain ⟨out, cols, g1, g2⟩ := h
    exact ⟨out, cols, _, c, g1, e1, g2⟩
  clear e1
  induction ps generalizing p col with
  | nil =>
    obtain ⟨c1, g1, _⟩ := apiEncodeIncr_eq he p hp ls col (by omega) h2 h3
    refine ⟨_, _, by rw [encodePieces, g1, Outcome.bind]; simp only [encodePieces, Outcome.bind]; rfl, ?_⟩
    simp only [List.append_nil, List.flatten_nil, true_iff]
    intro a b hab ha hb
    rcases a with _ | ⟨x, a⟩
    · exact absurd rfl ha
    · simp only [List.cons_append, List.cons.injEq] at hab
      have := hab.2.symm
      rw [List.append_eq_nil_iff] at this
      exact absurd this.2 hb
  | cons q qs ih =>
    obtain ⟨c1, g1, g2, g3⟩ := apiEncodeIncr_eq he p hp ls col (by omega) h2 h3
    replace g3 := g3 h1
    have hq := hps q (by simp)
    have hne : q ++ qs.flatten ≠ [] := by simp [hq]
    have hwhole := encode_append ls false col p (q ++ qs.flatten) hne
    by_cases hfull : Spec.endCol ls false col p < ls
    · have hc1 : c1 = (Spec.endCol ls false col p : Nat) := by
        rcases g2 with g2 | g2
        · exact g2
        · omega
      obtain ⟨out, cols, k1, k2⟩ := ih q (Spec.endCol ls false col p) hfull hq (fun x hx => hps x (by simp [hx]))
      refine ⟨Spec.encode ls false col p ++ out, c1 :: cols, ?_, ?_⟩
      · rw [encodePieces, g1, Outcome.bind]
        simp only [hc1, k1, Outcome.bind]
      · rw [List.flatten_cons, hwhole, List.append_cancel_left_eq, k2]
        constructor
        · intro h a b hab ha hb
          rcases a with _ | ⟨x, a⟩
          · exact absurd rfl ha
          simp only [List.cons_append, List.cons.injEq] at hab
          obtain ⟨rfl, hab⟩ := hab
          by_cases ha' : a = []
          · subst ha'; simpa using hfull
          · rw [List.flatten_cons, endCol_append]
            exact h a b hab ha' hb
        · intro h a b hab ha hb
          have := h (p :: a) b (by rw [hab, List.cons_append]) (by simp) hb
          rwa [List.flatten_cons, endCol_append] at this
    · have hk : ∃ k : Nat, k < ls ∧ (if c1 = ls then 0 else c1.toNat) = k ∧ 0 ≤ c1 := by
        rcases g2 with g2 | g2
        · refine ⟨0, by omega, by rw [if_pos (by omega)], by omega⟩
        · by_cases h : c1 = ls
          · exact ⟨0, by omega, by rw [if_pos h], by omega⟩
          · exact ⟨c1.toNat, by omega, by rw [if_neg h], by omega⟩
      obtain ⟨k, hk1, hk2, hk3⟩ := hk
      obtain ⟨c2, e1, e2, e3⟩ := apiEncodeIncr_at he q ls h1 h2 c1 hk3 g3
      obtain ⟨out2, cols2, e4, _⟩ := C14_decodes he .generic ls h1 h2 qs c2 e2 e3
      rw [hk2] at e1
      refine ⟨Spec.encode ls false col p ++ (Spec.encode ls false k q ++ out2), c1 :: c2 :: cols2, ?_, ?_⟩
      · rw [encodePieces, g1, Outcome.bind]
        simp only [encodePieces, e1, e4, Outcome.bind]
      · constructor
        · intro h
          exfalso
          rw [List.flatten_cons, hwhole, List.append_cancel_left_eq] at h
          obtain ⟨x, xs, rfl⟩ := List.exists_cons_of_ne_nil hq
          rw [List.cons_append, Enc.encode_cons_ge ls false (Spec.endCol ls false col p) x _ (by omega)] at h
          cases hs : Spec.encode ls false k (x :: xs) with
          | nil =>
            have := Enc.encChar_length ls k (false && xs.isEmpty) (x + 42#8)
            rw [Enc.encode_cons_lt _ _ _ _ _ hk1] at hs
            have := congrArg List.length hs
            simp only [List.length_append, List.length_nil] at this
            omega
          | cons y ys =>
            rw [hs, List.cons_append] at h
            injection h with h4 h5
            rw [h4] at hs
            exact encode_head_ne ls false k hk1 _ _ hs
        · intro h
          have := h [p] (q :: qs) (by simp) (by simp) (by simp)
          exact absurd (by simpa using this) hfull

-- a split where it holds and one where it does not
example : Spec.endCol 2 false 0 ([[65#8]] : List (List Byte)).flatten < 2 ∧ ¬ Spec.endCol 2 false 0 ([[65#8, 65#8]] : List (List Byte)).flatten < 2 := by decide

/-- `encodeIncr` checks a given destination only for line size 128: with a shorter line size it accepts a destination that it then overruns. -/
theorem encodeIncr_destination_overrun :
    ∃ (d dest : List Byte), Enc.apiEncodeIncr Enc.encodeGeneric [.buffer d, .buffer dest, .int 1] = .ub := by
  refine ⟨List.replicate 100 214#8, List.replicate 268 0#8, ?_⟩
  have hlen : (List.replicate 268 (0#8 : Byte)).length = 268 := List.length_replicate
  have hlen' : (List.replicate 100 (214#8 : Byte)).length = 100 := List.length_replicate
  have hne : List.replicate 100 (214#8 : Byte) ≠ [] := by rw [Ne, ← List.length_eq_zero_iff, hlen']; omega
  obtain ⟨w, col', h1, h2, h3, h4⟩ := Enc.encodeGeneric_spec 1 (by decide) (by decide) 0 (List.replicate 100 214#8) false hne
  have h5 : w.out.length = 398 := by rw [h2]; decide +kernel
  have h6 : Enc.lineArgs [.int 1] = .ret ((1 : Int), 0) := by decide
  have h7 : ¬ 268 < yencMaxSize 100 128 := by decide
  simp only [Enc.apiEncodeIncr, h6, Outcome.bind, hlen, hlen', h7, hne, if_false]
  unfold Enc.runInto
  rw [show Enc.encodeGeneric 1 0 (List.replicate 100 214#8) false = _ from h1]
  simp only
  rw [if_neg]
  rw [h5]
  omega

end Yenc.Props
