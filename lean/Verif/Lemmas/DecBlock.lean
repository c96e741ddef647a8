import Verif.Model.DecoderSimd
import Verif.Lemmas.DecMem
import Verif.Lemmas.DecEnd
/-!
What decoding a stretch of bytes amounts to, position by position, and that this is what the automata do.

The bytes are `B 4, B 5, ...`; `B 0, ..., B 3` stand for those before.
-/
namespace Yenc.Dec.Simd
open Yenc Yenc.Dec

/-- Is byte `j` escaped? -/
def escP (B : Nat → Byte) (e : Bool) : Nat → Bool
  | 0 => e
  | j + 1 => decide (B (j + 4) = EQ) && !escP B e j

/-- Is byte `j` a dot at the start of a line? -/
def killed (raw : Bool) (B : Nat → Byte) (j : Nat) : Bool :=
  raw && decide (B (j + 2) = CR) && decide (B (j + 3) = LF) && decide (B (j + 4) = DOT)

/-- Does byte `j` leave nothing in the output? -/
def removed (raw : Bool) (B : Nat → Byte) (e : Bool) (j : Nat) : Bool :=
  !escP B e j && (decide (B (j + 4) = EQ) || decide (B (j + 4) = CR) || decide (B (j + 4) = LF) || killed raw B j)

/-- What byte `j` decodes to. -/
def val (B : Nat → Byte) (e : Bool) (j : Nat) : Byte :=
  if escP B e j then B (j + 4) - 106#8 else B (j + 4) - 42#8

/-- The output of the first `n` bytes. -/
def blockOut (raw : Bool) (B : Nat → Byte) (e : Bool) : Nat → List Byte
  | 0 => []
  | n + 1 => blockOut raw B e n ++ if removed raw B e n then [] else [val B e n]

/-- The stretch from byte `k` on. -/
def shift (k : Nat) (B : Nat → Byte) : Nat → Byte := fun j => B (k + j)

/-- What the code calls `nextMask`. -/
def pendOf (md : Mode) (B : Nat → Byte) : Nat := setNextMask md.isRaw (fun k => B (k + 2))

/-- An end mark starts at `j`. -/
def TermAt (B : Nat → Byte) (j : Nat) : Prop :=
  B j = CR ∧ B (j + 1) = LF ∧
    ((B (j + 2) = DOT ∧ B (j + 3) = CR ∧ B (j + 4) = LF) ∨ (B (j + 2) = DOT ∧ B (j + 3) = EQ ∧ B (j + 4) = LY) ∨
      (B (j + 2) = EQ ∧ B (j + 3) = LY))

theorem shift_shift (a b : Nat) (B : Nat → Byte) : shift b (shift a B) = shift (a + b) B := by
  funext j; simp only [shift]; congr 1; omega

theorem shift_zero (B : Nat → Byte) : shift 0 B = B := by
  funext j; simp [shift]

theorem escP_shift (B : Nat → Byte) (e : Bool) (a j : Nat) : escP (shift a B) (escP B e a) j = escP B e (a + j) := by
  induction j with
  | zero => rfl
  | succ j ih =>
    show _ = escP B e ((a + j) + 1)
    simp only [escP, ih, shift, ← Nat.add_assoc]

theorem killed_shift (raw : Bool) (B : Nat → Byte) (a j : Nat) : killed raw (shift a B) j = killed raw B (a + j) := by
  simp only [killed, shift, ← Nat.add_assoc]

theorem removed_shift (raw : Bool) (B : Nat → Byte) (e : Bool) (a j : Nat) :
    removed raw (shift a B) (escP B e a) j = removed raw B e (a + j) := by
  simp only [removed, escP_shift, killed_shift, shift, ← Nat.add_assoc]

theorem val_shift (B : Nat → Byte) (e : Bool) (a j : Nat) : val (shift a B) (escP B e a) j = val B e (a + j) := by
  simp only [val, escP_shift, shift, ← Nat.add_assoc]

theorem blockOut_add (raw : Bool) (B : Nat → Byte) (e : Bool) (a n : Nat) :
    blockOut raw B e (a + n) = blockOut raw B e a ++ blockOut raw (shift a B) (escP B e a) n := by
  induction n with
  | zero => simp [blockOut]
  | succ n ih => rw [← Nat.add_assoc, blockOut, ih, blockOut, removed_shift, val_shift, List.append_assoc]

theorem blockOut_length (raw : Bool) (B : Nat → Byte) (e : Bool) (n : Nat) : (blockOut raw B e n).length ≤ n := by
  induction n with
  | zero => simp [blockOut]
  | succ n ih => rw [blockOut]; split <;> simp <;> omega

theorem escP_congr {B B' : Nat → Byte} (e : Bool) (n : Nat) (h : ∀ j, j < n + 4 → B j = B' j) : escP B e n = escP B' e n := by
  induction n with
  | zero => rfl
  | succ n ih => simp only [escP]; rw [ih (fun j hj => h j (by omega)), h _ (by omega)]

theorem blockOut_congr {B B' : Nat → Byte} (raw e : Bool) (n : Nat) (h : ∀ j, j < n + 4 → B j = B' j) :
    blockOut raw B e n = blockOut raw B' e n := by
  induction n with
  | zero => rfl
  | succ n ih =>
    simp only [blockOut]
    rw [ih (fun j hj => h j (by omega))]
    have he := escP_congr e n (fun j hj => h j (by omega))
    have hr : removed raw B e n = removed raw B' e n := by
      simp only [removed, killed, he, h (n + 4) (by omega), h (n + 3) (by omega), h (n + 2) (by omega)]
    have hv : val B e n = val B' e n := by simp only [val, he, h (n + 4) (by omega)]
    rw [hr, hv]

theorem pendOf_congr {B B' : Nat → Byte} (md : Mode) (h : ∀ j, j < 6 → B j = B' j) : pendOf md B = pendOf md B' := by
  simp only [pendOf, setNextMask, h 2 (by omega), h 3 (by omega), h 4 (by omega), h 5 (by omega)]

theorem TermAt_congr {B B' : Nat → Byte} (j : Nat) (h : ∀ k, k < j + 5 → B k = B' k) : TermAt B j ↔ TermAt B' j := by
  simp only [TermAt, h j (by omega), h (j + 1) (by omega), h (j + 2) (by omega), h (j + 3) (by omega), h (j + 4) (by omega)]

theorem escP_prev (B : Nat → Byte) (e : Bool) (he : e = true → B 3 = EQ) (n : Nat) (h : escP B e n = true) : B (n + 3) = EQ := by
  cases n with
  | zero => exact he h
  | succ n =>
    simp only [escP, Bool.and_eq_true, decide_eq_true_eq] at h
    exact h.1

theorem rdn_snoc (m : Mem) (a n : Nat) : m.rdn a (n + 1) = m.rdn a n ++ [m (a + n)] := by
  rw [Mem.rdn_append]; rfl

theorem rdn_shift (B : Nat → Byte) (k a n : Nat) : Mem.rdn (shift k B) a n = Mem.rdn B (k + a) n := by
  induction n generalizing a with
  | zero => rfl
  | succ n ih => simp only [Mem.rdn, ih]; rfl

/-! ### The plain decoder -/

theorem yFrom_block (B : Nat → Byte) (e : Bool) (n : Nat) (rest : List Byte) :
    yFrom e (Mem.rdn B 4 n ++ rest) = blockOut false B e n ++ yFrom (escP B e n) rest := by
  induction n generalizing rest with
  | zero => simp [Mem.rdn, blockOut, escP]
  | succ n ih =>
    rw [rdn_snoc, List.append_assoc, List.singleton_append, ih, blockOut, List.append_assoc]
    congr 1
    simp only [removed, escP, killed, val, Bool.false_and, Bool.or_false, Nat.add_comm 4 n]
    generalize B (n + 4) = c
    cases escP B e n
    · simp only [yFrom, if_neg (show ¬ false = true by simp), yDecode_cons]
      by_cases h1 : c = EQ
      · subst h1; simp [yFrom]
      · by_cases h2 : c = CR
        · subst h2; simp
        · by_cases h3 : c = LF
          · subst h3; simp
          · simp [h1, h2, h3]
    · simp [yFrom]

theorem noendPlain_state (st : State) (l : List Byte) (hl : l ≠ []) :
    ∃ st', (noendPlain (some st) l).2 = some st' ∧ (st' = .eq ∨ st' = .none) ∧
      ∀ rest, yFrom (st = .eq) (l ++ rest) = (noendPlain (some st) l).1 ++ yFrom (st' = .eq) rest := by
  have h106 : ∀ c : Byte, c - 42#8 - 64#8 = c - 106#8 := by decide +kernel
  have h106' : ∀ c : Byte, c - 64#8 - 42#8 = c - 106#8 := by decide +kernel
  rcases l with _ | ⟨c, cs⟩
  · simp at hl
  have key : ∀ l out, ∃ r1 r2, loopPlain l out = (r1, r2) ∧ r1.length ≤ 1 ∧
      ∀ rest, out ++ Spec.yDecode (l ++ rest) = r2 ++ Spec.yDecode (r1 ++ rest) := by
    intro l out
    fun_induction loopPlain l out
    case case1 a b r out h ih =>
      obtain ⟨r1, r2, h1, h2, h3⟩ := ih
      refine ⟨r1, r2, h1, h2, fun rest => ?_⟩
      rw [← h3, List.cons_append, yDecode_cons a, if_pos h.symm]
    case case2 b r out h ih =>
      obtain ⟨r1, r2, h1, h2, h3⟩ := ih
      refine ⟨r1, r2, h1, h2, fun rest => ?_⟩
      rw [← h3, List.cons_append, yDecode_cons EQ]
      simp [yFrom, h106']
    case case3 a b r out h1 h2 ih =>
      obtain ⟨r1, r2, g1, g2, g3⟩ := ih
      refine ⟨r1, r2, g1, g2, fun rest => ?_⟩
      rw [← g3, List.cons_append, yDecode_cons a]
      have : ¬ (a = CR ∨ a = LF) := fun h => h1 h.symm
      simp [this, h2]
    case case4 l out h =>
      refine ⟨l, out, rfl, ?_, fun rest => rfl⟩
      rcases l with _ | ⟨a, _ | ⟨b, l⟩⟩
      · simp
      · simp
      · exact absurd rfl (h a b l)
  simp only [noendPlain, Option.map_some]
  generalize hs : (if some st = some State.eq then (cs, [c - 42#8 - 64#8]) else (c :: cs, [])) = s
  obtain ⟨r1, r2, h1, h2, h3⟩ := key s.1 s.2
  have hs2 : ∀ rest, s.2 ++ Spec.yDecode (s.1 ++ rest) = yFrom (st = .eq) (c :: cs ++ rest) := by
    intro rest
    rw [← hs]; by_cases h : st = .eq <;> simp [h, yFrom, h106]
  rw [h1]
  simp only [← hs2, h3]
  rcases r1 with _ | ⟨a, _ | ⟨b, r1⟩⟩
  · exact ⟨.none, rfl, .inr rfl, fun rest => by simp [yFrom]⟩
  · simp only [List.singleton_append, yDecode_cons]
    by_cases c1 : a = EQ
    · subst c1; exact ⟨.eq, by simp, .inl rfl, fun rest => by simp⟩
    · refine ⟨.none, by split <;> simp [c1], .inr rfl, fun rest => ?_⟩
      by_cases c2 : a = CR
      · subst c2; simp [yFrom]
      · by_cases c3 : a = LF
        · subst c3; simp [yFrom]
        · simp [c1, c2, c3, yFrom]
  · simp at h2

/-! ### Without end detection -/

/-- What the state says about the bytes before. -/
def Hist (st : State) (B : Nat → Byte) : Prop :=
  (st = .crlf ∨ st = .eq ∨ st = .cr ∨ st = .none) ∧ (st = .crlf ↔ B 2 = CR ∧ B 3 = LF) ∧ (st = .cr ↔ B 3 = CR) ∧
    (st = .eq → B 3 = EQ)

theorem Hist_step (st : State) (B : Nat → Byte) (h : Hist st B) :
    Hist (nstep st (B 4)).1 (shift 1 B) ∧
    (decide ((nstep st (B 4)).1 = .eq)) = (decide (B 4 = EQ) && !decide (st = .eq)) ∧
    (nstep st (B 4)).2 = if removed true B (st = .eq) 0 then [] else [val B (st = .eq) 0] := by
  have h106 : ∀ c : Byte, c - 42#8 - 64#8 = c - 106#8 := by decide +kernel
  obtain ⟨h0, h1, h2, h3⟩ := h
  simp only [Hist, shift, removed, killed, val, escP, Bool.true_and]
  generalize B 2 = p at *
  generalize B 3 = q at *
  generalize B 4 = c at *
  by_cases c1 : c = EQ
  · subst c1
    rcases h0 with rfl | rfl | rfl | rfl <;> simp [nstep, stepNone, stepEq, h106] at h1 h2 h3 ⊢ <;> grind
  by_cases c2 : c = CR
  · subst c2
    rcases h0 with rfl | rfl | rfl | rfl <;> simp [nstep, stepNone, stepEq, h106] at h1 h2 h3 ⊢ <;> grind
  by_cases c3 : c = LF
  · subst c3
    rcases h0 with rfl | rfl | rfl | rfl <;> simp [nstep, stepNone, stepEq, h106] at h1 h2 h3 ⊢ <;> grind
  by_cases c4 : c = DOT
  · subst c4
    rcases h0 with rfl | rfl | rfl | rfl <;> simp [nstep, stepNone, stepEq, h106] at h1 h2 h3 ⊢ <;> grind
  rcases h0 with rfl | rfl | rfl | rfl <;> simp [nstep, stepNone, stepEq, h106, c1, c2, c3, c4] at h1 h2 h3 ⊢

theorem nrun_block (st : State) (B : Nat → Byte) (h : Hist st B) (n : Nat) :
    ∃ s, nrun st (Mem.rdn B 4 n) = (blockOut true B (st = .eq) n, s) ∧ Hist s (shift n B) ∧
      escP B (st = .eq) n = decide (s = .eq) := by
  induction n with
  | zero => exact ⟨st, rfl, by rwa [shift_zero], rfl⟩
  | succ n ih =>
    obtain ⟨s, h1, h2, h3⟩ := ih
    obtain ⟨g1, g2, g3⟩ := Hist_step s (shift n B) h2
    rw [shift_shift] at g1
    refine ⟨_, ?_, g1, ?_⟩
    · rw [rdn_snoc, nrun_append, h1]
      simp only [npre, nrun, blockOut, List.append_nil]
      rw [show B (4 + n) = shift n B 4 by simp only [shift]; congr 1; omega, g3, ← h3, removed_shift, val_shift, Nat.add_zero]
    · simp only [escP]
      rw [g2, h3]
      rfl

/-! ### With end detection -/

/-- Four bytes after which the decoder is in a given state. -/
def past : State → Nat → Byte
  | .crlf, 2 => CR
  | .crlf, 3 => LF
  | .eq, 3 => EQ
  | .cr, 3 => CR
  | .crlfdt, 1 => CR
  | .crlfdt, 2 => LF
  | .crlfdt, 3 => DOT
  | .crlfdtcr, 0 => CR
  | .crlfdtcr, 1 => LF
  | .crlfdtcr, 2 => DOT
  | .crlfdtcr, 3 => CR
  | .crlfeq, 1 => CR
  | .crlfeq, 2 => LF
  | .crlfeq, 3 => EQ
  | _, _ => 0#8

/-- The bytes from `src` on, with a past. -/
def stream (st : State) (m : Mem) (src : Nat) : Nat → Byte := fun j => if j < 4 then past st j else m (src + (j - 4))

/-- What the state says about the bytes before. -/
def HistE (st : State) (B : Nat → Byte) : Prop :=
  Inv st [B 3, B 2, B 1, B 0] ∧ (st = .eq ∨ st = .crlfeq → B 3 = EQ)

theorem HistE_stream (st : State) (m : Mem) (src : Nat) : HistE st (stream st m src) := by
  unfold HistE Inv
  cases st <;> simp [stream, past]

theorem Hist_stream (st : State) (m : Mem) (src : Nat) (h : st = .crlf ∨ st = .eq ∨ st = .cr ∨ st = .none) :
    Hist st (stream st m src) := by
  unfold Hist
  rcases h with rfl | rfl | rfl | rfl <;> simp [stream, past]

theorem rdn_stream (st : State) (m : Mem) (src a n : Nat) : Mem.rdn (stream st m src) (4 + a) n = m.rdn (src + a) n := by
  induction n generalizing a with
  | zero => rfl
  | succ n ih =>
    have h : 4 + a + 1 = 4 + (a + 1) := by omega
    simp only [Mem.rdn, h, ih, Nat.add_assoc]
    congr 1
    simp only [stream, if_neg (show ¬ 4 + a < 4 by omega)]
    congr 1; omega

theorem HistE_step (st : State) (B : Nat → Byte) (h : HistE st B) (h0 : ¬ TermAt B 0) (h1 : ¬ TermAt B 1) :
    (step st (B 4)).2.2 = .none ∧ HistE (step st (B 4)).1 (shift 1 B) := by
  obtain ⟨i1, i2, i3⟩ := Inv_step st _ (B 4) h.1
  have hn : (step st (B 4)).2.2 = .none := by
    unfold TermAt at h0 h1
    simp only [revArticle, revControl, List.getElem?_cons_zero, List.getElem?_cons_succ, Option.some.injEq] at i1 i2
    rcases hc : (step st (B 4)).2.2 with _ | _ | _
    · rfl
    · have := i2.mp hc
      exfalso; simp only [Nat.zero_add, Nat.reduceAdd] at h0 h1; grind
    · have := i1.mp hc
      exfalso; simp only [Nat.zero_add, Nat.reduceAdd] at h0 h1; grind
  refine ⟨hn, ?_, ?_⟩
  · have := i3 hn
    unfold Inv at this ⊢
    simpa [shift] using this
  · show _ → B 4 = EQ
    intro hh
    by_contra hne
    revert hh
    cases st <;> simp only [step, stepNone, stepEq] <;> (repeat' split) <;> simp_all

theorem run_block (st : State) (B : Nat → Byte) (h : HistE st B) (n : Nat) (ht : ∀ j, j ≤ n → ¬ TermAt B j) :
    (run st (Mem.rdn B 4 n)).ended = .none ∧ HistE (run st (Mem.rdn B 4 n)).state (shift n B) := by
  induction n with
  | zero => exact ⟨rfl, by rw [shift_zero]; exact h⟩
  | succ n ih =>
    obtain ⟨h1, h2⟩ := ih (fun j hj => ht j (by omega))
    have hs : ∀ j, TermAt (shift n B) j ↔ TermAt B (n + j) := by
      intro j; simp only [TermAt, shift, Nat.add_assoc]
    obtain ⟨g1, g2⟩ := HistE_step _ _ h2 (by rw [hs]; exact ht n (by omega)) (by rw [hs]; exact ht (n + 1) (by omega))
    have hB : B (4 + n) = shift n B 4 := by simp only [shift]; congr 1; omega
    rw [rdn_snoc, run_append _ _ _ h1, hB]
    simp only [run, g1, if_true, Res.pre]
    exact ⟨trivial, by rw [shift_shift] at g2; exact g2⟩

theorem Hist_forget (st : State) (B : Nat → Byte) (h : HistE st B) : Hist st.forget B := by
  obtain ⟨h1, h2⟩ := h
  unfold Inv at h1
  unfold Hist
  simp only [List.getElem?_cons_zero, List.getElem?_cons_succ, Option.some.injEq] at h1
  cases st <;> simp [State.forget] at h1 h2 ⊢ <;> grind

/-- The output of the bytes before an end mark. -/
theorem run_blockOut (st : State) (B : Nat → Byte) (h : HistE st B) (n : Nat) (ht : ∀ j, j ≤ n → ¬ TermAt B j) :
    ∃ s, HistE s (shift n B) ∧ escP B (st = .eq ∨ st = .crlfeq) n = decide (s = .eq ∨ s = .crlfeq) ∧
      ∀ rest, run st (Mem.rdn B 4 n ++ rest) = (run s rest).pre (blockOut true B (st = .eq ∨ st = .crlfeq) n) := by
  obtain ⟨h1, h2⟩ := run_block st B h n ht
  have hf := run_forget st _ h1
  obtain ⟨s, g1, g2, g3⟩ := nrun_block st.forget B (Hist_forget st B h) n
  have he : ∀ t : State, decide (t.forget = .eq) = decide (t = .eq ∨ t = .crlfeq) := by intro t; cases t <;> rfl
  rw [he] at g1 g3
  rw [g1] at hf
  obtain ⟨hf1, hf2⟩ := Prod.mk.inj hf
  refine ⟨_, h2, ?_, fun rest => ?_⟩
  · rw [g3, hf2, he]
  · rw [run_append _ _ _ h1, ← hf1]

theorem pendOf_raw (md : Mode) (h : md.isRaw = true) (B : Nat → Byte) : pendOf md B =
    if B 2 = CR ∧ B 3 = LF ∧ B 4 = DOT then 1 else if B 3 = CR ∧ B 4 = LF ∧ B 5 = DOT then 2 else 0 := by
  unfold pendOf setNextMask
  rw [if_pos h]

/-- Short of an end mark, only the state the vector code reconstructs matters. -/
theorem run_stateAfter (st : State) (B : Nat → Byte) (h : HistE st B) (ht : ∀ j, j < 4 → ¬ TermAt B j) (r : List Byte) :
    run (stateAfter (st = .eq ∨ st = .crlfeq) (pendOf .endRaw B)) (B 4 :: B 5 :: B 6 :: r) = run st (B 4 :: B 5 :: B 6 :: r) := by
  have t0 := ht 0 (by omega)
  have t1 := ht 1 (by omega)
  have t2 := ht 2 (by omega)
  have t3 := ht 3 (by omega)
  clear ht
  obtain ⟨h1, h2⟩ := h
  simp only [TermAt, Nat.zero_add, Nat.reduceAdd] at t0 t1 t2 t3
  simp only [Inv, List.getElem?_cons_zero, List.getElem?_cons_succ, Option.some.injEq] at h1
  rw [pendOf_raw _ rfl]
  generalize B 0 = b0 at *
  generalize B 1 = b1 at *
  generalize B 2 = b2 at *
  generalize B 3 = b3 at *
  generalize B 4 = b4 at *
  generalize B 5 = b5 at *
  generalize B 6 = b6 at *
  generalize B 7 = b7 at *
  cases st with
  | none =>
    have : ¬ (b2 = CR ∧ b3 = LF ∧ b4 = DOT) := by grind
    have h3 : ¬ (b3 = CR ∧ b4 = LF ∧ b5 = DOT) := by grind
    simp [this, h3, stateAfter]
  | eq => simp [stateAfter]
  | crlf =>
    have h3 : b2 = CR ∧ b3 = LF := by grind
    obtain ⟨rfl, rfl⟩ := h3
    by_cases h4 : b4 = DOT
    · simp [h4, stateAfter]
    · simp only [stateAfter, h4, and_false, if_false, reduceCtorEq, or_self, decide_false, Bool.false_eq_true]
      rw [if_neg (show ¬ (LF = CR ∧ b4 = LF ∧ b5 = DOT) by simp)]
      rw [run_crlf_cons, if_neg h4]
      by_cases h5 : b4 = EQ
      · subst h5
        rw [if_pos rfl, run_crlfeq_cons, if_neg (show ¬ b5 = LY by grind)]
        exact run_none_eq _
      · rw [if_neg h5]; rfl
  | cr =>
    have h3 : b3 = CR := by grind
    subst h3
    have h4 : ¬ (b2 = CR ∧ CR = LF ∧ b4 = DOT) := by simp
    simp only [stateAfter, h4, if_false, reduceCtorEq, or_self, decide_false, Bool.false_eq_true, true_and]
    by_cases h5 : b4 = LF
    · subst h5
      by_cases h6 : b5 = DOT
      · simp [h6]
      · simp only [h6, and_false, if_false]
        rw [run_cr_cons, if_pos rfl, run_crlf_cons, if_neg h6]
        by_cases h7 : b5 = EQ
        · subst h7
          rw [if_pos rfl, run_crlfeq_cons, if_neg (show ¬ b6 = LY by grind)]
          exact (run_none_lf _).trans (run_none_eq _)
        · rw [if_neg h7]; exact run_none_lf _
    · simp only [h5, false_and, if_false]
      rw [run_cr_cons, if_neg h5]; rfl
  | crlfdt =>
    have h3 : b3 = DOT ∧ b2 = LF ∧ b1 = CR := by grind
    obtain ⟨rfl, rfl, rfl⟩ := h3
    simp only [stateAfter, show ¬ (LF = CR ∧ DOT = LF ∧ b4 = DOT) by simp, show ¬ (DOT = CR ∧ b4 = LF ∧ b5 = DOT) by simp, if_false,
      reduceCtorEq, or_self, decide_false, Bool.false_eq_true]
    rw [run_crlfdt_cons]
    by_cases h5 : b4 = CR
    · subst h5
      rw [if_pos rfl, run_crlfdtcr_cons, if_neg (by grind)]
      refine (run_none_cr _).trans ?_
      rw [run_cr_cons, if_neg (by grind)]
    · rw [if_neg h5]
      by_cases h7 : b4 = EQ
      · subst h7
        rw [if_pos rfl, run_crlfeq_cons, if_neg (by grind)]
        exact run_none_eq _
      · rw [if_neg h7]
  | crlfdtcr =>
    have h3 : b3 = CR ∧ b2 = DOT ∧ b1 = LF ∧ b0 = CR := by grind
    obtain ⟨rfl, rfl, rfl, rfl⟩ := h3
    have h4 : b4 ≠ LF := by grind
    simp only [stateAfter, show ¬ (DOT = CR ∧ CR = LF ∧ b4 = DOT) by simp, h4, false_and, and_false, if_false,
      reduceCtorEq, or_self, decide_false, Bool.false_eq_true]
    rw [run_crlfdtcr_cons, if_neg h4]
  | crlfeq =>
    simp only [stateAfter, reduceCtorEq, or_true, decide_true, if_true]
    rw [run_crlfeq_cons, if_neg (by grind)]

theorem straddle_endRaw (st : State) (m : Mem) (src : Nat) (r : List Byte) :
    match straddle .endRaw st (fun j => m (src + j)) with
    | .ended n st' e => n ≤ 4 ∧ run st (m src :: m (src + 1) :: m (src + 2) :: m (src + 3) :: r) =
        ⟨(m src :: m (src + 1) :: m (src + 2) :: m (src + 3) :: r).drop n, [], st', e⟩
    | .go nm => nm = pendOf .endRaw (stream st m src) ∧ ∀ j, j < 4 → ¬ TermAt (stream st m src) j := by
  have hall : ∀ P : Nat → Prop, (∀ j, j < 4 → P j) ↔ P 0 ∧ P 1 ∧ P 2 ∧ P 3 := by
    intro P
    constructor
    · intro h; exact ⟨h 0 (by omega), h 1 (by omega), h 2 (by omega), h 3 (by omega)⟩
    · rintro ⟨h0, h1, h2, h3⟩ j hj
      have : j = 0 ∨ j = 1 ∨ j = 2 ∨ j = 3 := by omega
      rcases this with rfl | rfl | rfl | rfl <;> assumption
  rw [hall, pendOf_raw _ rfl]
  unfold TermAt
  have hs : ∀ j, stream st m src (4 + j) = m (src + j) := by
    intro j; simp only [stream, if_neg (show ¬ 4 + j < 4 by omega), Nat.add_sub_cancel_left]
  have hp : ∀ j, j < 4 → stream st m src j = past st j := by
    intro j hj; simp only [stream, if_pos hj]
  simp only [Nat.zero_add, Nat.reduceAdd]
  rw [hp 0 (by omega), hp 1 (by omega), hp 2 (by omega), hp 3 (by omega), hs 0, hs 1, hs 2, hs 3]
  clear hs hp hall
  unfold straddle
  simp only [Mode.isRaw, Mode.searchEnd, true_and, Nat.add_zero]
  generalize m src = b4
  generalize m (src + 1) = b5
  generalize m (src + 2) = b6
  generalize m (src + 3) = b7
  cases st with
  | none => simp [past]
  | eq => simp [past]
  | crlf =>
    simp only [past]
    by_cases h4 : b4 = DOT
    · subst h4
      by_cases h5 : b5 = CR ∧ b6 = LF
      · simp [h5, run_crlf_cons, run_crlfdt_cons, run_crlfdtcr_cons]
      · by_cases h6 : b5 = EQ ∧ b6 = LY
        · simp [h6, run_crlf_cons, run_crlfdt_cons, run_crlfeq_cons]
        · simp [h5, h6]
    · by_cases h5 : b4 = EQ ∧ b5 = LY
      · simp [h5, run_crlf_cons, run_crlfeq_cons]
      · simp [h4, h5]
  | cr =>
    simp only [past]
    by_cases h4 : b4 = LF ∧ b5 = DOT
    · obtain ⟨rfl, rfl⟩ := h4
      by_cases h5 : b6 = CR ∧ b7 = LF
      · simp [h5, run_cr_cons, run_crlf_cons, run_crlfdt_cons, run_crlfdtcr_cons]
      · by_cases h6 : b6 = EQ ∧ b7 = LY
        · simp [h6, run_cr_cons, run_crlf_cons, run_crlfdt_cons, run_crlfeq_cons]
        · simp [h5, h6]
    · by_cases h5 : b4 = LF ∧ b5 = EQ ∧ b6 = LY
      · simp [h5, run_cr_cons, run_crlf_cons, run_crlfeq_cons]
      · simp only [h4, h5]; simp; grind
  | crlfdt =>
    simp only [past]
    by_cases h5 : b4 = CR ∧ b5 = LF
    · simp [h5, run_crlfdt_cons, run_crlfdtcr_cons]
    · by_cases h6 : b4 = EQ ∧ b5 = LY
      · simp [h6, run_crlfdt_cons, run_crlfeq_cons]
      · simp [h5, h6]
  | crlfdtcr =>
    simp only [past]
    by_cases h5 : b4 = LF
    · simp [h5, run_crlfdtcr_cons]
    · simp [h5]
  | crlfeq =>
    simp only [past]
    by_cases h5 : b4 = LY
    · simp [h5, run_crlfeq_cons]
    · simp [h5]

theorem straddle_go (md : Mode) (hmd : md.searchEnd = false) (st : State) (hst : st = .crlf ∨ st = .eq ∨ st = .cr ∨ st = .none)
    (m : Mem) (src : Nat) : straddle md st (fun j => m (src + j)) = .go (pendOf md (stream st m src)) := by
  have hs : ∀ j, stream st m src (4 + j) = m (src + j) := by
    intro j; simp only [stream, if_neg (show ¬ 4 + j < 4 by omega), Nat.add_sub_cancel_left]
  have hp : ∀ j, j < 4 → stream st m src j = past st j := by
    intro j hj; simp only [stream, if_pos hj]
  cases hr : md.isRaw
  · have : pendOf md (stream st m src) = 0 := by simp [pendOf, setNextMask, hr]
    rw [this]
    unfold straddle
    rcases hst with rfl | rfl | rfl | rfl <;> simp [hmd, hr]
  · rw [pendOf_raw _ hr, hp 2 (by omega), hp 3 (by omega), hs 0, hs 1]
    unfold straddle
    rcases hst with rfl | rfl | rfl | rfl <;> simp [hmd, hr, past]
    all_goals split <;> simp

end Yenc.Dec.Simd
