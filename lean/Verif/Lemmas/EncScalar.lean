import Verif.Lemmas.EncTables
/-! The scalar encoder refines the reference encoder. -/
namespace Yenc.Enc
open Yenc

theorem encode_cons_lt (ls : Nat) (fin : Bool) (col : Nat) (c : Byte) (cs : List Byte) (h : col < ls) :
    Spec.encode ls fin col (c :: cs) =
      Spec.encChar ls col (fin && cs.isEmpty) (c + 42#8) ++
        Spec.encode ls fin (col + (Spec.encChar ls col (fin && cs.isEmpty) (c + 42#8)).length) cs := by
  rw [Spec.encode]; simp [show ¬ ls ≤ col by omega]

theorem encode_cons_ge (ls : Nat) (fin : Bool) (col : Nat) (c : Byte) (cs : List Byte) (h : ls ≤ col) :
    Spec.encode ls fin col (c :: cs) =
      CR :: LF :: (Spec.encChar ls 0 (fin && cs.isEmpty) (c + 42#8) ++
        Spec.encode ls fin ((Spec.encChar ls 0 (fin && cs.isEmpty) (c + 42#8)).length) cs) := by
  rw [Spec.encode]; simp [h]

theorem endCol_cons_lt (ls : Nat) (fin : Bool) (col : Nat) (c : Byte) (cs : List Byte) (h : col < ls) :
    Spec.endCol ls fin col (c :: cs) =
      Spec.endCol ls fin (col + (Spec.encChar ls col (fin && cs.isEmpty) (c + 42#8)).length) cs := by
  simp only [Spec.endCol, if_neg (show ¬ ls ≤ col by omega)]

theorem endCol_cons_ge (ls : Nat) (fin : Bool) (col : Nat) (c : Byte) (cs : List Byte) (h : ls ≤ col) :
    Spec.endCol ls fin col (c :: cs) =
      Spec.endCol ls fin ((Spec.encChar ls 0 (fin && cs.isEmpty) (c + 42#8)).length) cs := by
  simp only [Spec.endCol, if_pos h]

/-- Total width of characters encoded as mid-line characters. -/
def midLen (l : List Byte) : Nat := (l.map (fun c => (mid c).length)).sum

theorem midLen_cons (c : Byte) (l : List Byte) : midLen (c :: l) = (mid c).length + midLen l := by
  simp [midLen]

theorem midLen_le_encode (ls : Nat) (fin : Bool) (col : Nat) (l r : List Byte) :
    midLen l ≤ (Spec.encode ls fin col (l ++ r)).length := by
  induction l generalizing col with
  | nil => simp [midLen]
  | cons c cs ih =>
    rw [midLen_cons, List.cons_append]
    by_cases h : col < ls
    · rw [encode_cons_lt _ _ _ _ _ h, List.length_append]
      have := mid_le_encChar ls col (fin && (cs ++ r).isEmpty) c
      have := ih (col + (Spec.encChar ls col (fin && (cs ++ r).isEmpty) (c + 42#8)).length)
      omega
    · rw [encode_cons_ge _ _ _ _ _ (by omega)]
      simp only [List.length_cons, List.length_append]
      have := mid_le_encChar ls 0 (fin && (cs ++ r).isEmpty) c
      have := ih ((Spec.encChar ls 0 (fin && (cs ++ r).isEmpty) (c + 42#8)).length)
      omega

theorem foldl_doThing_out (l : List Byte) (w : W) :
    (l.foldl doThing w).out = w.out ++ (l.map mid).flatten := by
  induction l generalizing w with
  | nil => simp
  | cons c cs ih => simp [ih, doThing_eq]

theorem flatten_mid_length (l : List Byte) : ((l.map mid).flatten).length = midLen l := by
  induction l with
  | nil => simp [midLen]
  | cons c cs ih => rw [midLen_cons, List.map_cons, List.flatten_cons, List.length_append, ih]

theorem midLen_le (l : List Byte) : midLen l ≤ 2 * l.length := by
  induction l with
  | nil => simp [midLen]
  | cons c cs ih =>
    rw [midLen_cons, List.length_cons]
    have : (mid c).length ≤ 2 := by rw [mid_length]; split <;> omega
    omega

theorem foldl_doThing_hi (l : List Byte) (w : W) :
    (l.foldl doThing w).hi ≤ max w.hi (w.out.length + midLen l) := by
  induction l generalizing w with
  | nil => simp; omega
  | cons c cs ih =>
    rw [List.foldl_cons]
    refine Nat.le_trans (ih _) ?_
    rw [doThing_eq, midLen_cons]; simp; omega

/-- Mid-line characters that stay before the last column are what the reference writes. -/
theorem encode_mid_run (ls : Nat) (col : Nat) (l r : List Byte) (h1 : 1 ≤ col)
    (h2 : l = [] ∨ col + midLen l < ls) :
    Spec.encode ls false col (l ++ r) =
      (l.map mid).flatten ++ Spec.encode ls false (col + midLen l) r ∧
    Spec.endCol ls false col (l ++ r) = Spec.endCol ls false (col + midLen l) r := by
  induction l generalizing col with
  | nil => simp [midLen]
  | cons c cs ih =>
    rw [midLen_cons] at h2
    have hc := mid_pos c
    simp at h2
    have hlt : col + 1 < ls := by
      rcases cs with _ | ⟨d, ds⟩
      · simp [midLen] at h2; omega
      · rw [midLen_cons] at h2; have := mid_pos d; omega
    obtain ⟨i1, i2⟩ := ih (col + (mid c).length) (by omega) (by omega)
    rw [List.cons_append, encode_cons_lt _ _ _ _ _ (by omega), endCol_cons_lt _ _ _ _ _ (by omega)]
    simp only [Bool.false_and]
    rw [encChar_mid ls col c h1 hlt, i1, i2, midLen_cons]
    simp [Nat.add_assoc]

/-- Postcondition shared by the loops: the destination reached, once the remaining input is encoded,
is the one promised at the start. -/
theorem revert_unroll8 (ls : Nat) (hls : ls + 6 < 2 ^ 31) (rest : List Byte) (w : W) (col : Nat) (sp)
    (h1 : 1 ≤ col) (hsp : sp = none ∨ (col : Int) < ls - 1) :
    ∃ (u : Unrolled) (col' : Nat), unroll8 ls rest w col sp = some u ∧ (revert ls u).2.2 = col' ∧ 1 ≤ col' ∧
      (revert ls u).2.1.out ++ Spec.encode ls false col' (revert ls u).1 = w.out ++ Spec.encode ls false col rest ∧
      Spec.endCol ls false col' (revert ls u).1 = Spec.endCol ls false col rest ∧
      (rest ≠ [] → (revert ls u).1 ≠ []) ∧
      (revert ls u).2.1.hi ≤ max w.hi ((w.out ++ Spec.encode ls false col rest).length) := by
  generalize hci : (col : Int) = coli
  rw [hci] at hsp
  fun_induction unroll8 (ls : Int) rest w coli sp generalizing col with
  | case2 rest w coli sp hcond w' coli' hbig =>
    subst hci
    have hlen : w'.out.length = w.out.length + midLen (rest.take 8) := by
      rw [show w'.out = w.out ++ ((rest.take 8).map mid).flatten from foldl_doThing_out _ _, List.length_append, flatten_mid_length]
    have := midLen_le (rest.take 8)
    rw [List.length_take] at this
    exfalso
    apply hbig
    show (col : Int) + ((w'.out.length : Int) - w.out.length) < 2 ^ 31
    rw [hlen]
    push_cast
    omega
  | case1 rest w coli sp hcond w' coli' hsmall ih =>
    subst hci
    have hsplit : rest = rest.take 8 ++ rest.drop 8 := (List.take_append_drop 8 rest).symm
    have hout : w'.out = w.out ++ ((rest.take 8).map mid).flatten := foldl_doThing_out _ _
    have hlen : w'.out.length = w.out.length + midLen (rest.take 8) := by
      rw [hout, List.length_append, flatten_mid_length]
    have hhi : w'.hi ≤ max w.hi (w.out.length + midLen (rest.take 8)) := foldl_doThing_hi _ _
    have hcol' : coli' = ((col + midLen (rest.take 8) : Nat) : Int) := by
      show (col : Int) + ((w'.out.length : Int) - w.out.length) = _
      rw [hlen]; push_cast; omega
    have hle := midLen_le_encode ls false col (rest.take 8) (rest.drop 8)
    rw [← hsplit] at hle
    rw [hcol'] at ih ⊢
    by_cases hov : ((col + midLen (rest.take 8) : Nat) : Int) < (ls : Int) - 1
    · obtain ⟨u, c', e0, e1, e2, e3, e6, e4, e5⟩ := ih (col + midLen (rest.take 8)) (by omega) (Or.inr hov) rfl
      obtain ⟨hrun, hrunc⟩ := encode_mid_run ls col (rest.take 8) (rest.drop 8) h1 (Or.inr (by omega))
      rw [← hsplit] at hrun hrunc
      have htot : w'.out ++ Spec.encode ls false (col + midLen (rest.take 8)) (rest.drop 8) =
          w.out ++ Spec.encode ls false col rest := by
        rw [hout, hrun, List.append_assoc]
      refine ⟨u, c', e0, e1, e2, ?_, by rw [e6, hrunc], ?_, ?_⟩
      · rw [e3, htot]
      · intro _; apply e4
        have : (rest.drop 8).length = rest.length - 8 := by simp
        intro h; rw [h] at this; simp at this; omega
      · rw [htot] at e5
        refine Nat.le_trans e5 ?_
        have : (w.out ++ Spec.encode ls false col rest).length = w.out.length + (Spec.encode ls false col rest).length := by simp
        omega
    · -- overflow: the loop stops and the round is reverted
      have hstop : unroll8 (ls : Int) (rest.drop 8) w' ((col + midLen (rest.take 8) : Nat) : Int) (some (w.out, rest))
          = some ⟨rest.drop 8, w', ((col + midLen (rest.take 8) : Nat) : Int), some (w.out, rest)⟩ := by
        rw [unroll8]; rw [dif_neg]; omega
      rw [hstop]
      refine ⟨_, col, rfl, ?_⟩
      simp only [revert]
      rw [if_pos (by omega)]
      refine ⟨by simp only; omega, h1, rfl, rfl, fun h => h, ?_⟩
      simp only
      refine Nat.le_trans hhi ?_
      have : (w.out ++ Spec.encode ls false col rest).length = w.out.length + (Spec.encode ls false col rest).length := by simp
      omega
  | case3 rest w coli sp hcond =>
    subst hci
    have hr : revert (ls : Int) ⟨rest, w, (col : Int), sp⟩ = (rest, w, (col : Int)) := by
      unfold revert
      rcases hsp with rfl | hsp
      · rfl
      · split
        · rfl
        · rw [if_neg]; simp only; omega
    refine ⟨_, col, rfl, ?_⟩
    rw [hr]
    exact ⟨rfl, h1, rfl, rfl, fun h => h, by simp only; omega⟩

theorem innerLoop_spec (ls : Nat) (rest : List Byte) (w : W) (col : Nat) (h1 : 1 ≤ col) (hne : rest ≠ []) :
    ∃ i, innerLoop ls rest w col = some i ∧
      match i with
      | .ended w' col' => w'.out = w.out ++ Spec.encode ls false col rest ∧ w'.hi ≤ max w.hi (w'.out.length)
          ∧ col' = (Spec.endCol ls false col rest : Nat) ∧ col' ≤ ls
      | .cont rest' w' col' => rest' ≠ [] ∧ ∃ n : Nat, col' = n ∧ 1 ≤ n ∧ ls ≤ n + 1 ∧
          w'.out ++ Spec.encode ls false n rest' = w.out ++ Spec.encode ls false col rest ∧
          Spec.endCol ls false n rest' = Spec.endCol ls false col rest ∧
          w'.hi ≤ max w.hi w'.out.length ∧ w.out.length ≤ w'.out.length := by
  induction rest generalizing w col with
  | nil => exact absurd rfl hne
  | cons c cs ih =>
    rw [innerLoop]
    by_cases hlt : (col : Int) < (ls : Int) - 1
    · rw [if_pos hlt]
      have hcc : (col : Int) + (if escapeLUT c ≠ 0#8 then 1 else 2) = ((col + (mid c).length : Nat) : Int) := by
        rw [mid_length]; push_cast; split <;> simp
      rw [hcc]
      have henc : Spec.encode ls false col (c :: cs) = mid c ++ Spec.encode ls false (col + (mid c).length) cs := by
        rw [encode_cons_lt _ _ _ _ _ (by omega)]
        simp only [Bool.false_and]
        rw [encChar_mid ls col c h1 (by omega)]
      have hendc : Spec.endCol ls false col (c :: cs) = Spec.endCol ls false (col + (mid c).length) cs := by
        rw [endCol_cons_lt _ _ _ _ _ (by omega)]
        simp only [Bool.false_and]
        rw [encChar_mid ls col c h1 (by omega)]
      by_cases hcs : cs = []
      · subst hcs
        simp only [if_true]
        refine ⟨_, rfl, ?_⟩
        simp only
        rw [henc, hendc]
        have hml : (mid c).length ≤ 2 := by rw [mid_length]; split <;> omega
        refine ⟨by simp [doThing_eq, Spec.encode], by simp [doThing_eq], by simp [Spec.endCol], by omega⟩
      · simp only [hcs, if_false]
        obtain ⟨i, hi1, hi2⟩ := ih (doThing w c) (col + (mid c).length) (by omega) hcs
        refine ⟨i, hi1, ?_⟩
        cases i with
        | ended w' col' =>
          simp only at hi2 ⊢
          rw [doThing_eq] at hi2
          refine ⟨by rw [hi2.1, henc]; simp, ?_, by rw [hendc]; exact hi2.2.2.1, hi2.2.2.2⟩
          have := hi2.2.1
          have h5 : w.out.length + (mid c).length ≤ w'.out.length := by
            rw [hi2.1]; simp only [List.length_append]; omega
          simp only at this; omega
        | cont rest' w' col' =>
          simp only at hi2 ⊢
          rw [doThing_eq] at hi2
          obtain ⟨hr, n, hn1, hn2, hn3, hn4, hn7, hn5, hn6⟩ := hi2
          simp only [List.length_append] at hn5 hn6
          refine ⟨hr, n, hn1, hn2, hn3, ?_, by rw [hn7, hendc], by omega, by omega⟩
          rw [hn4, henc]; simp
    · rw [if_neg hlt]
      refine ⟨_, rfl, ?_⟩
      simp only
      refine ⟨by simp, col, rfl, h1, by omega, rfl, rfl, by omega, Nat.le_refl _⟩

/-- Unfolding of `outer` without the bookkeeping used for its termination. -/
theorem outer_eq (ls : Int) (rest : List Byte) (w : W) (col : Int) :
    outer ls rest w col =
      if rest = [] then some (w, col) else
        match line ls rest w col with
        | none => none
        | some (.stop w' col') => some (w', col')
        | some (.next rest' w' col') => outer ls rest' w' col' := by
  conv => lhs; rw [outer]
  split
  · rfl
  · split <;> (rename_i h; rw [h])

/-- Result of the outer loop: the reference text, and the reference column, except that a character written in the
last column of a line does not advance the column the code reports. -/
theorem outer_spec (ls : Nat) (hls : ls + 6 < 2 ^ 31) (rest : List Byte) (w : W) (col : Nat) (h1 : 1 ≤ col)
    (hw : w.hi ≤ (w.out ++ Spec.encode ls false col rest).length + 1) :
    ∃ w' col', outer ls rest w col = some (w', col') ∧
      w'.out = w.out ++ Spec.encode ls false col rest ∧ w'.hi ≤ w'.out.length + 1 ∧
      (col' = (Spec.endCol ls false col rest : Nat) ∨ (col' = (ls : Int) - 1 ∧ ls ≤ Spec.endCol ls false col rest)) ∧
      (col ≤ max ls 2 ∨ rest ≠ [] → col' ≤ (max ls 2 : Nat)) := by
  generalize hn : rest.length = n
  induction n using Nat.strongRecOn generalizing rest w col with
  | _ n ih =>
  rw [outer_eq]
  by_cases hne : rest = []
  · subst hne; simp only [if_true]
    exact ⟨w, col, rfl, by simp [Spec.encode], by simpa [Spec.encode] using hw, Or.inl (by simp [Spec.endCol]), by simp⟩
  rw [if_neg hne, line]
  obtain ⟨u, c1, r0, r1, r2, r3, r7, r4, r5⟩ := revert_unroll8 ls hls rest w col none h1 (Or.inl rfl)
  have r6 := revert_length ls rest w col u r0
  rw [r0]
  simp only
  generalize revert (ls : Int) u = r at *
  obtain ⟨i, i1, i2⟩ := innerLoop_spec ls r.1 r.2.1 c1 r2 (r4 hne)
  rw [r1, i1]
  rw [← r3] at hw r5 ⊢
  rw [← r7]
  cases i with
  | ended w' col' =>
    simp only at i2 ⊢
    obtain ⟨j1, j2, j3, j4⟩ := i2
    refine ⟨w', col', rfl, j1, ?_, Or.inl j3, fun _ => by omega⟩
    rw [← j1] at r5 hw; omega
  | cont rest' w' col' =>
    simp only at i2 ⊢
    have hlen := innerLoop_length _ _ _ _ _ _ _ i1
    obtain ⟨j1, m, rfl, j2, j3, j4, j5, j6, j7⟩ := i2
    rw [← j4] at r5 hw ⊢
    rw [← j5]
    have hw' : w'.hi ≤ (w'.out ++ Spec.encode ls false m rest').length + 1 := by
      simp only [List.length_append] at *; omega
    rcases rest' with _ | ⟨c, cs⟩
    · exact absurd rfl j1
    by_cases hlt : (m : Int) < ls
    · rw [if_pos hlt]
      have e1 := encode_cons_lt ls false m c cs (by omega)
      have e2 := endCol_cons_lt ls false m c cs (by omega)
      have e3 := lastChar_eq w' c ls m j2 (by omega) false
      simp only [Bool.false_and] at e1 e2 e3
      have e4 := encChar_length ls m false (c + 42#8)
      generalize Spec.encChar ls m false (c + 42#8) = s at *
      rw [e1, e2]
      rw [e1] at hw'
      rcases cs with _ | ⟨d, ds⟩
      · simp only
        refine ⟨_, _, rfl, by rw [e3]; simp [Spec.encode], ?_, Or.inr ⟨by omega, by simp [Spec.endCol]; omega⟩, fun _ => by omega⟩
        rw [e3]
        simp [Spec.encode] at hw' ⊢; omega
      · simp only
        have f1 := encode_cons_ge ls false (m + s.length) d ds (by omega)
        have f2 := endCol_cons_ge ls false (m + s.length) d ds (by omega)
        have f3 := eolChar_eq (lastChar w' c) d ls false
        simp only [Bool.false_and] at f1 f2 f3
        have f4 := encChar_length ls 0 false (d + 42#8)
        generalize Spec.encChar ls 0 false (d + 42#8) = t at *
        rw [f1, f2, f3]
        rw [f1] at hw'
        simp only
        obtain ⟨w2, c2, k1, k2, k3, k4, k5⟩ := ih ds.length (by simp at hlen; omega) ds
          ⟨(lastChar w' c).out ++ CR :: LF :: t, max (lastChar w' c).hi ((lastChar w' c).out.length + 4)⟩ t.length (by omega)
          (by rw [e3]; simp at hw' ⊢; omega) rfl
        refine ⟨w2, c2, k1, ?_, k3, k4, fun _ => k5 (Or.inl (by omega))⟩
        rw [k2, e3]; simp
    · rw [if_neg hlt]
      simp only
      have f1 := encode_cons_ge ls false m c cs (by omega)
      have f2 := endCol_cons_ge ls false m c cs (by omega)
      have f3 := eolChar_eq w' c ls false
      simp only [Bool.false_and] at f1 f2 f3
      have f4 := encChar_length ls 0 false (c + 42#8)
      generalize Spec.encChar ls 0 false (c + 42#8) = t at *
      rw [f1, f2, f3]
      rw [f1] at hw'
      simp only
      obtain ⟨w2, c2, k1, k2, k3, k4, k5⟩ := ih cs.length (by simp at hlen; omega) cs
        ⟨w'.out ++ CR :: LF :: t, max w'.hi (w'.out.length + 4)⟩ t.length (by omega)
        (by simp at hw' ⊢; omega) rfl
      refine ⟨w2, c2, k1, ?_, k3, k4, fun _ => k5 (Or.inl (by omega))⟩
      rw [k2]; simp

/-- `fin = true` differs from `fin = false` only in a final tab or space, which gets escaped. -/
theorem encode_fin (ls : Nat) (hls : 1 ≤ ls) (col : Nat) (src : List Byte) (hne : src ≠ []) :
    ∃ a lc, Spec.encode ls false col src = a ++ [lc] ∧
      ((lc = TAB ∨ lc = SP) → Spec.encode ls true col src = a ++ [EQ, lc + 64#8] ∧
          Spec.endCol ls true col src = Spec.endCol ls false col src + 1 ∧ Spec.endCol ls false col src < ls) ∧
      (¬ (lc = TAB ∨ lc = SP) → Spec.encode ls true col src = a ++ [lc] ∧
          Spec.endCol ls true col src = Spec.endCol ls false col src) := by
  induction src generalizing col with
  | nil => exact absurd rfl hne
  | cons c cs ih =>
    rcases cs with _ | ⟨d, ds⟩
    · have key : ∀ col, ∃ a lc, Spec.encChar ls col false (c + 42#8) = a ++ [lc] ∧
          ((lc = TAB ∨ lc = SP) → Spec.encChar ls col true (c + 42#8) = a ++ [EQ, lc + 64#8] ∧ a = [] ∧ col ≠ 0 ∧ col + 1 ≠ ls) ∧
          (¬ (lc = TAB ∨ lc = SP) → Spec.encChar ls col true (c + 42#8) = a ++ [lc]) := by
        intro col
        generalize c + 42#8 = e
        unfold Spec.encChar
        by_cases h : Spec.mustEscape ls col false e
        · have ht : Spec.mustEscape ls col true e := by
            simp only [Spec.mustEscape] at h ⊢
            revert h
            cases Spec.critical e <;> cases decide (e = DOT) <;> cases decide (e = TAB) <;> cases decide (e = SP) <;> simp
          have h2 : ∀ e : Byte, Spec.critical e = true ∨ e = DOT ∨ e = TAB ∨ e = SP → ¬ (e + 64#8 = TAB ∨ e + 64#8 = SP) := by
            decide +kernel
          have h3 : Spec.critical e = true ∨ e = DOT ∨ e = TAB ∨ e = SP := by
            simp only [Spec.mustEscape] at h
            simp at h
            rcases h with (h | h) | h
            · exact Or.inl h
            · exact Or.inr (Or.inl h.1)
            · exact Or.inr (Or.inr h.1)
          refine ⟨[EQ], e + 64#8, by simp [h], fun hh => absurd hh (h2 e h3), fun _ => by simp [ht]⟩
        · refine ⟨[], e, by simp [h], ?_, ?_⟩
          · intro hh
            have : Spec.mustEscape ls col true e := by
              rcases hh with rfl | rfl <;> simp [Spec.mustEscape]
            refine ⟨by simp [this], rfl, ?_, ?_⟩ <;>
              (intro h0; apply h; rcases hh with rfl | rfl <;> simp [Spec.mustEscape, h0])
          · intro hh
            have : ¬ Spec.mustEscape ls col true e := by
              simp only [not_or] at hh
              simp only [Spec.mustEscape] at h ⊢
              simp [hh] at h ⊢
              exact h
            simp [this]
      by_cases h : col < ls
      · obtain ⟨a, lc, k1, k2, k3⟩ := key col
        rw [encode_cons_lt _ _ _ _ _ h, encode_cons_lt _ _ _ _ _ h, endCol_cons_lt _ _ _ _ _ h, endCol_cons_lt _ _ _ _ _ h]
        simp only [Spec.encode, Spec.endCol, List.append_nil, List.isEmpty_nil, Bool.and_true]
        refine ⟨a, lc, k1, fun hh => ?_, fun hh => ?_⟩
        · obtain ⟨j1, rfl, j3, j4⟩ := k2 hh
          rw [j1, k1]; simp; omega
        · rw [k3 hh, k1]; simp
      · obtain ⟨a, lc, k1, k2, k3⟩ := key 0
        have h' : ls ≤ col := by omega
        rw [encode_cons_ge _ _ _ _ _ h', encode_cons_ge _ _ _ _ _ h', endCol_cons_ge _ _ _ _ _ h',
          endCol_cons_ge _ _ _ _ _ h']
        simp only [Spec.encode, Spec.endCol, List.append_nil, List.isEmpty_nil, Bool.and_true]
        refine ⟨CR :: LF :: a, lc, by rw [k1]; simp, fun hh => ?_, fun hh => ?_⟩
        · exact absurd rfl (k2 hh).2.2.1
        · rw [k3 hh, k1]; simp
    · by_cases h : col < ls
      · rw [encode_cons_lt _ _ _ _ _ h, encode_cons_lt _ _ _ _ _ h, endCol_cons_lt _ _ _ _ _ h, endCol_cons_lt _ _ _ _ _ h]
        simp only [List.isEmpty_cons, Bool.and_false]
        obtain ⟨a, lc, k1, k2, k3⟩ := ih (col + (Spec.encChar ls col false (c + 42#8)).length) (by simp)
        refine ⟨Spec.encChar ls col false (c + 42#8) ++ a, lc, by rw [k1]; simp, fun hh => ?_, fun hh => ?_⟩
        · rw [(k2 hh).1, (k2 hh).2.1]; simpa using (k2 hh).2.2
        · rw [(k3 hh).1, (k3 hh).2]; simp
      · have h' : ls ≤ col := by omega
        rw [encode_cons_ge _ _ _ _ _ h', encode_cons_ge _ _ _ _ _ h', endCol_cons_ge _ _ _ _ _ h',
          endCol_cons_ge _ _ _ _ _ h']
        simp only [List.isEmpty_cons, Bool.and_false]
        obtain ⟨a, lc, k1, k2, k3⟩ := ih ((Spec.encChar ls 0 false (c + 42#8)).length) (by simp)
        refine ⟨CR :: LF :: Spec.encChar ls 0 false (c + 42#8) ++ a, lc, by rw [k1]; simp, fun hh => ?_, fun hh => ?_⟩
        · rw [(k2 hh).1, (k2 hh).2.1]; simpa using (k2 hh).2.2
        · rw [(k3 hh).1, (k3 hh).2]; simp

/-- How the column reported by the code relates to the reference column: equal, or (only when the last character was
written in the last column) stuck at `ls-1`, plus one if that character was then escaped as the final one. -/
def ColRel (ls : Nat) (code : Int) (ref : Nat) : Prop :=
  code = ref ∨ ((ls : Int) - 1 ≤ code ∧ code ≤ ls ∧ ls ≤ ref)

/-- The scalar encoder computes the reference encoding, never reads outside its input and never writes more than
one byte past the encoded text. -/
theorem encodeGeneric_spec (ls : Nat) (hls : 1 ≤ ls) (hls2 : ls + 6 < 2 ^ 31) (col : Nat) (src : List Byte) (fin : Bool) (hne : src ≠ []) :
    ∃ w col', encodeGeneric ls col src fin = some (w, col') ∧
      w.out = Spec.encode ls fin col src ∧ w.hi ≤ w.out.length + 1 ∧
      ColRel ls col' (Spec.endCol ls fin col src) ∧ (fin = false → 2 ≤ ls → col' ≤ ls) := by
  have main : ∃ w col', body ls col src = some (w, col') ∧ w.out = Spec.encode ls false col src ∧
      w.hi ≤ w.out.length + 1 ∧
      (col' = (Spec.endCol ls false col src : Nat) ∨ (col' = (ls : Int) - 1 ∧ ls ≤ Spec.endCol ls false col src)) ∧
      col' ≤ (max ls 2 : Nat) := by
    by_cases h0 : col = 0
    · subst h0
      rcases src with _ | ⟨c, cs⟩
      · exact absurd rfl hne
      have f3 := firstChar_eq ⟨[], 0⟩ c ls false
      have f4 := encChar_length ls 0 false (c + 42#8)
      have f1 := encode_cons_lt ls false 0 c cs (by omega)
      have f2 := endCol_cons_lt ls false 0 c cs (by omega)
      simp only [Bool.false_and] at f1 f2 f3
      generalize Spec.encChar ls 0 false (c + 42#8) = t at *
      obtain ⟨w2, c2, k1, k2, k3, k4, k5⟩ := outer_spec ls hls2 cs ⟨[] ++ t, max 0 (([] : List Byte).length + t.length)⟩ t.length (by omega)
        (by simp; omega)
      refine ⟨w2, c2, ?_, ?_, k3, ?_, k5 (Or.inl (by omega))⟩
      · unfold body; simp only [Int.natCast_zero, if_true]; rw [f3]; exact k1
      · rw [f1, k2]; simp
      · rw [f2]; simpa using k4
    · unfold body; simp only; rw [if_neg (by omega)]
      obtain ⟨w2, c2, k1, k2, k3, k4, k5⟩ := outer_spec ls hls2 src ⟨[], 0⟩ col (by omega) (by simp)
      exact ⟨w2, c2, k1, by simpa using k2, k3, k4, k5 (Or.inr hne)⟩
  obtain ⟨w, c, m1, m2, m3, m4, m5⟩ := main
  have hun : encodeGeneric ls col src fin = if fin then doEnd w c else some (w, c) := by
    unfold encodeGeneric; rw [m1]
  rw [hun]
  cases fin with
  | false =>
    refine ⟨w, c, by simp, m2, m3, ?_, fun _ _ => by omega⟩
    rcases m4 with h | ⟨h, h'⟩
    · exact Or.inl h
    · exact Or.inr (by omega)
  | true =>
    simp only [if_true]
    obtain ⟨a, lc, k1, k2, k3⟩ := encode_fin ls hls col src hne
    unfold doEnd
    rw [m2, k1]
    have g1 : (a ++ [lc]).getLast? = some lc := by simp
    have g2 : (a ++ [lc]).dropLast = a := by simp
    rw [g1, g2]
    simp only
    by_cases hlc : lc = TAB ∨ lc = SP
    · rw [if_pos hlc, if_neg (by have := (k2 hlc).2.2; omega)]
      refine ⟨_, _, rfl, by rw [(k2 hlc).1], ?_, ?_, by simp⟩
      · rw [m2, k1] at m3; simp at m3 ⊢; omega
      · rw [(k2 hlc).2.1]
        rcases m4 with h | ⟨h, h'⟩
        · exact Or.inl (by rw [h]; push_cast; rfl)
        · exact Or.inr (by omega)
    · rw [if_neg hlc]
      refine ⟨_, _, rfl, by rw [(k3 hlc).1, m2, k1], m3, ?_, by simp⟩
      rw [(k3 hlc).2]
      rcases m4 with h | ⟨h, h'⟩
      · exact Or.inl h
      · exact Or.inr (by omega)

end Yenc.Enc
