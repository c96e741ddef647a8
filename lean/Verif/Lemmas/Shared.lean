import Verif.Model.Shared
import Verif.Lemmas.EncScalar
/-! Programs over memory that changes: what holds for every answer of every read. -/
namespace Yenc.Shared
open Yenc

/-- The program reads only below `n`, does nothing undefined, and `Q` holds of the reads made and the result. -/
def Prog.Post {α : Type} (n : Nat) (Q : List (Nat × Byte) → α → Prop) : List (Nat × Byte) → Prog α → Prop
  | s, .ret a => Q s a
  | s, .rd i k => i < n ∧ ∀ b, (k b).Post n Q ((i, b) :: s)
  | _, .ub => False

/-- Every read in the list was made before time `t`. -/
def Reads (mem : Nat → Nat → Byte) (t : Nat) (s : List (Nat × Byte)) : Prop := ∀ i b, (i, b) ∈ s → ∃ τ, τ < t ∧ b = mem τ i

theorem Prog.Post.sound {α : Type} {n : Nat} {Q : List (Nat × Byte) → α → Prop} {p : Prog α} {s : List (Nat × Byte)}
    (h : p.Post n Q s) (mem : Nat → Nat → Byte) (t : Nat) (hs : Reads mem t s) :
    ∃ a t' s', p.run mem n t = some (a, t') ∧ Q s' a ∧ Reads mem t' s' := by
  induction p generalizing s t with
  | ret a => exact ⟨a, t, s, rfl, h, hs⟩
  | ub => exact h.elim
  | rd i k ih =>
    simp only [Prog.Post] at h
    simp only [Prog.run, if_pos h.1]
    refine ih _ (h.2 (mem t i)) (t + 1) ?_
    intro j b hj
    rcases List.mem_cons.mp hj with hj | hj
    · cases hj; exact ⟨t, by omega, rfl⟩
    · obtain ⟨τ, h1, h2⟩ := hs j b hj; exact ⟨τ, by omega, h2⟩

theorem Prog.Post.bind {α β : Type} {n : Nat} {Q : List (Nat × Byte) → β → Prop} {p : Prog α} {f : α → Prog β} {s : List (Nat × Byte)}
    (h : p.Post n (fun s a => (f a).Post n Q s) s) : (p.bind f).Post n Q s := by
  induction p generalizing s with
  | ret a => exact h
  | ub => exact h
  | rd i k ih => exact ⟨h.1, fun b => ih b (h.2 b)⟩

theorem Prog.Post.mono {α : Type} {n : Nat} {Q Q' : List (Nat × Byte) → α → Prop} {p : Prog α} {s : List (Nat × Byte)}
    (h : p.Post n Q s) (hq : ∀ s' a, s ⊆ s' → Q s' a → Q' s' a) : p.Post n Q' s := by
  induction p generalizing s with
  | ret a => exact hq _ _ (List.Subset.refl _) h
  | ub => exact h
  | rd i k ih => exact ⟨h.1, fun b => ih b (h.2 b) fun s' a hs => hq s' a (fun x hx => hs (List.mem_cons_of_mem _ hx))⟩

/-- The bytes `l` were read from position `i` on. -/
def Seen (s : List (Nat × Byte)) (i : Nat) (l : List Byte) : Prop := ∀ k b, l[k]? = some b → (i + k, b) ∈ s

theorem Seen.nil (s : List (Nat × Byte)) (i : Nat) : Seen s i [] := by intro k b h; simp at h

theorem Seen.mono {s s' : List (Nat × Byte)} {i : Nat} {l : List Byte} (h : Seen s i l) (hs : s ⊆ s') : Seen s' i l :=
  fun k b hk => hs (h k b hk)

theorem Seen.cons {s : List (Nat × Byte)} {i : Nat} {c : Byte} {l : List Byte} (h : (i, c) ∈ s) (hl : Seen s (i + 1) l) : Seen s i (c :: l) := by
  intro k b hk
  rcases k with _ | k
  · simp at hk; subst hk; simpa using h
  · simp at hk
    have := hl k b hk
    rw [show i + (k + 1) = i + 1 + k by omega]; exact this

theorem Seen.append {s : List (Nat × Byte)} {i : Nat} {l l' : List Byte} (h : Seen s i l) (hl : Seen s (i + l.length) l') : Seen s i (l ++ l') := by
  intro k b hk
  by_cases hlt : k < l.length
  · rw [List.getElem?_append_left hlt] at hk; exact h k b hk
  · rw [List.getElem?_append_right (by omega)] at hk
    have := hl _ b hk
    rw [show i + l.length + (k - l.length) = i + k by omega] at this; exact this

theorem rds_post {α : Type} {n : Nat} {Q : List (Nat × Byte) → α → Prop} (m i : Nat) (k : List Byte → Prog α) (s : List (Nat × Byte))
    (hn : i + m ≤ n) (h : ∀ bs s', bs.length = m → s ⊆ s' → Seen s' i bs → (k bs).Post n Q s') : (rds i m k).Post n Q s := by
  induction m generalizing i k s with
  | zero => exact h [] s rfl (List.Subset.refl _) (Seen.nil _ _)
  | succ m ih =>
    refine ⟨by omega, fun b => ih (i + 1) _ _ (by omega) ?_⟩
    intro bs s' hl hs hseen
    refine h (b :: bs) s' (by simp [hl]) (fun x hx => hs (List.mem_cons_of_mem _ hx)) (Seen.cons (hs List.mem_cons_self) hseen)

/-! ### Encoder -/

/-- How far the encoder got: it consumed some bytes read from `i` on, and what is left to encode is the same. -/
def Adv (ls : Nat) (s' : List (Nat × Byte)) (i : Nat) (w : Enc.W) (col : Nat) (i' : Nat) (w' : Enc.W) (col' : Nat) : Prop :=
  ∃ l, i' = i + l.length ∧ Seen s' i l ∧
    ∀ r, w'.out ++ Spec.encode ls false col' r = w.out ++ Spec.encode ls false col (l ++ r) ∧
      Spec.endCol ls false col' r = Spec.endCol ls false col (l ++ r)

theorem Adv.refl (ls : Nat) (s : List (Nat × Byte)) (i : Nat) (w w' : Enc.W) (col : Nat) (h : w'.out = w.out) : Adv ls s i w col i w' col :=
  ⟨[], rfl, Seen.nil _ _, fun r => by simp [h]⟩

theorem Adv.trans {ls : Nat} {s s' : List (Nat × Byte)} {i : Nat} {w : Enc.W} {col : Nat} {i1 : Nat} {w1 : Enc.W} {col1 : Nat} {i2 : Nat} {w2 : Enc.W} {col2 : Nat}
    (h : Adv ls s i w col i1 w1 col1) (hs : s ⊆ s') (h' : Adv ls s' i1 w1 col1 i2 w2 col2) : Adv ls s' i w col i2 w2 col2 := by
  obtain ⟨l, rfl, h2, h3⟩ := h
  obtain ⟨l', rfl, h5, h6⟩ := h'
  refine ⟨l ++ l', by simp; omega, (h2.mono hs).append h5, fun r => ?_⟩
  rw [(h6 r).1, (h6 r).2, (h3 (l' ++ r)).1, (h3 (l' ++ r)).2, List.append_assoc]
  exact ⟨rfl, rfl⟩

theorem Adv.len {ls : Nat} {s : List (Nat × Byte)} {i : Nat} {w : Enc.W} {col : Nat} {i1 : Nat} {w1 : Enc.W} {col1 : Nat}
    (h : Adv ls s i w col i1 w1 col1) : w.out.length ≤ w1.out.length := by
  obtain ⟨l, _, _, h3⟩ := h
  have := congrArg List.length (h3 []).1
  simp [Spec.encode] at this; omega

theorem unroll8_post (ls : Nat) (hls : ls + 6 < 2 ^ 31) (n f i : Nat) (w : Enc.W) (col : Nat) (sp) (s : List (Nat × Byte))
    (hf : n < f + i) (h1 : 1 ≤ col) (hi : i < n) (hsp : sp = none ∨ (col : Int) < ls - 1) (hw : w.hi ≤ w.out.length + 16) :
    (unroll8 ls n f i w col sp).Post n (fun s' u => ∃ (i' : Nat) (w' : Enc.W) (col' : Nat), revert ls u = (i', w', (col' : Int)) ∧ i' < n ∧ i ≤ i' ∧ 1 ≤ col' ∧
      Adv ls s' i w col i' w' col' ∧ w'.hi ≤ w'.out.length + 16) s := by
  induction f generalizing i w col sp s with
  | zero => omega
  | succ f ih =>
    rw [unroll8]
    by_cases hcond : i + 9 < n ∧ (ls : Int) - col - 1 > 8
    · rw [if_pos hcond]
      refine rds_post 8 i _ s (by omega) ?_
      intro bs s' hbs hss hseen
      simp only
      have hout : (bs.foldl Enc.doThing w).out = w.out ++ (bs.map Enc.mid).flatten := Enc.foldl_doThing_out _ _
      have hlen : (bs.foldl Enc.doThing w).out.length = w.out.length + Enc.midLen bs := by
        rw [hout, List.length_append, Enc.flatten_mid_length]
      have hhi : (bs.foldl Enc.doThing w).hi ≤ max w.hi (w.out.length + Enc.midLen bs) := Enc.foldl_doThing_hi _ _
      have hml := Enc.midLen_le bs
      rw [hbs] at hml
      have hcol' : (col : Int) + (((bs.foldl Enc.doThing w).out.length : Int) - w.out.length) = ((col + Enc.midLen bs : Nat) : Int) := by
        rw [hlen]; push_cast; omega
      rw [hcol', if_pos (by omega)]
      generalize bs.foldl Enc.doThing w = w' at *
      by_cases hov : ((col + Enc.midLen bs : Nat) : Int) < (ls : Int) - 1
      · refine (ih (i + 8) w' (col + Enc.midLen bs) (some (w.out, i)) s' (by omega) (by omega) (by omega) (Or.inr hov) (by omega)).mono ?_
        rintro s2 u hs2 ⟨i', w2, c2, e1, e2, e3, e4, e5, e6⟩
        refine ⟨i', w2, c2, e1, e2, by omega, e4, Adv.trans (s := s') (i1 := i + 8) (w1 := w') (col1 := col + Enc.midLen bs) ?_ hs2 e5, e6⟩
        refine ⟨bs, by omega, hseen, fun r => ?_⟩
        obtain ⟨k1, k2⟩ := Enc.encode_mid_run ls col bs r h1 (Or.inr (by omega))
        rw [k1, k2, hout]; simp
      · -- the round is reverted
        rcases f with _ | f
        · omega
        rw [unroll8, if_neg (by omega)]
        refine ⟨i, ⟨w.out, w'.hi⟩, col, ?_, hi, Nat.le_refl _, h1, Adv.refl _ _ _ _ _ _ rfl, ?_⟩
        · simp only [revert]
          rw [if_pos (by omega), hlen]
          simp only [Prod.mk.injEq, true_and]
          push_cast; omega
        · simp only; omega
    · rw [if_neg hcond]
      refine ⟨i, w, col, ?_, hi, Nat.le_refl _, h1, Adv.refl _ _ _ _ _ _ rfl, hw⟩
      unfold revert
      rcases hsp with rfl | hsp
      · rfl
      · split
        · rfl
        · rw [if_neg (by simp only; omega)]

theorem innerLoop_post (ls : Nat) (n f i : Nat) (w : Enc.W) (col : Nat) (s : List (Nat × Byte))
    (hf : n < f + i) (h1 : 1 ≤ col) (hi : i < n) (hw : w.hi ≤ w.out.length + 16) :
    (innerLoop ls n f i w col).Post n (fun s' x =>
      match x with
      | .ended w' col' => ∃ c : Nat, col' = c ∧ c ≤ ls ∧ Adv ls s' i w col n w' c ∧ w'.hi ≤ w'.out.length + 16
      | .cont i' w' col' => i' < n ∧ i ≤ i' ∧ ∃ c : Nat, col' = c ∧ 1 ≤ c ∧ ls ≤ c + 1 ∧ Adv ls s' i w col i' w' c ∧ w'.hi ≤ w'.out.length + 16) s := by
  induction f generalizing i w col s with
  | zero => omega
  | succ f ih =>
    rw [innerLoop]
    by_cases hlt : (col : Int) < (ls : Int) - 1
    · rw [if_pos hlt]
      refine ⟨hi, fun c => ?_⟩
      have hcc : (col : Int) + (if Enc.escapeLUT c ≠ 0#8 then 1 else 2) = ((col + (Enc.mid c).length : Nat) : Int) := by
        rw [Enc.mid_length]; push_cast; split <;> simp
      simp only [hcc]
      have hml := Enc.mid_le c
      have hadv : Adv ls ((i, c) :: s) i w col (i + 1) (Enc.doThing w c) (col + (Enc.mid c).length) := by
        refine ⟨[c], rfl, Seen.cons List.mem_cons_self (Seen.nil _ _), fun r => ?_⟩
        rw [Enc.doThing_eq, List.singleton_append, Enc.encode_cons_lt _ _ _ _ _ (by omega), Enc.endCol_cons_lt _ _ _ _ _ (by omega)]
        simp only [Bool.false_and]
        rw [Enc.encChar_mid ls col c h1 (by omega)]
        simp
      have hw' : (Enc.doThing w c).hi ≤ (Enc.doThing w c).out.length + 16 := by
        rw [Enc.doThing_eq]; simp; omega
      by_cases hend : n ≤ i + 1
      · rw [if_pos hend]
        refine ⟨_, rfl, by omega, ?_, hw'⟩
        rw [show n = i + 1 by omega]; exact hadv
      · rw [if_neg hend]
        refine (ih (i + 1) _ _ _ (by omega) (by omega) (by omega) hw').mono ?_
        intro s' x hs
        cases x with
        | ended w' col' =>
          rintro ⟨c', e1, e2, e3, e4⟩
          exact ⟨c', e1, e2, hadv.trans hs e3, e4⟩
        | cont i' w' col' =>
          rintro ⟨e0, e00, c', e1, e2, e3, e4, e5⟩
          exact ⟨e0, by omega, c', e1, e2, e3, hadv.trans hs e4, e5⟩
    · rw [if_neg hlt]
      exact ⟨hi, Nat.le_refl _, col, rfl, h1, by omega, Adv.refl _ _ _ _ _ _ rfl, hw⟩

/-- A character after a line break. -/
theorem eol_adv (ls : Nat) (s : List (Nat × Byte)) (i : Nat) (w : Enc.W) (col : Nat) (d : Byte) (h : ls ≤ col) (hs : (i, d) ∈ s) (hw : w.hi ≤ w.out.length + 16) :
    ∃ c : Nat, (Enc.eolChar w d).2 = c ∧ 1 ≤ c ∧ c ≤ 2 ∧ Adv ls s i w col (i + 1) (Enc.eolChar w d).1 c ∧
      (Enc.eolChar w d).1.hi ≤ (Enc.eolChar w d).1.out.length + 16 := by
  have f3 := Enc.eolChar_eq w d ls false
  have f4 := Enc.encChar_length ls 0 false (d + 42#8)
  rw [f3]
  refine ⟨_, rfl, f4.1, f4.2, ⟨[d], rfl, Seen.cons hs (Seen.nil _ _), fun r => ?_⟩, by simp; omega⟩
  rw [List.singleton_append, Enc.encode_cons_ge _ _ _ _ _ h, Enc.endCol_cons_ge _ _ _ _ _ h]
  simp

/-- What the outer loop leaves behind. -/
def Done (ls n : Nat) (s' : List (Nat × Byte)) (i : Nat) (w : Enc.W) (col : Nat) (x : Enc.W × Int) : Prop :=
  ∃ l, n = i + l.length ∧ Seen s' i l ∧ x.1.out = w.out ++ Spec.encode ls false col l ∧ x.1.hi ≤ x.1.out.length + 16 ∧
    (x.2 = (Spec.endCol ls false col l : Nat) ∨ (x.2 = (ls : Int) - 1 ∧ ls ≤ Spec.endCol ls false col l)) ∧
    (col ≤ max ls 2 ∨ l ≠ [] → x.2 ≤ (max ls 2 : Nat))

theorem Done.of_adv {ls n : Nat} {s s' : List (Nat × Byte)} {i : Nat} {w : Enc.W} {col : Nat} {i1 : Nat} {w1 : Enc.W} {col1 : Nat} {x : Enc.W × Int}
    (h : Adv ls s i w col i1 w1 col1) (hs : s ⊆ s') (h' : Done ls n s' i1 w1 col1 x) (hc : col1 ≤ max ls 2 ∨ i1 < n) : Done ls n s' i w col x := by
  obtain ⟨l, rfl, h2, h3⟩ := h
  obtain ⟨l', h4, h5, h6, h7, h8, h9⟩ := h'
  refine ⟨l ++ l', by simp; omega, (h2.mono hs).append h5, ?_, h7, ?_, ?_⟩
  · rw [h6, (h3 l').1]
  · rw [← (h3 l').2]; exact h8
  · intro _
    apply h9
    rcases hc with hc | hc
    · exact Or.inl hc
    · right; intro h; rw [h] at h4; simp at h4; omega

/-- The loop is over: all was consumed. -/
theorem Done.of_end {ls n : Nat} {s : List (Nat × Byte)} {i : Nat} {w : Enc.W} {col : Nat} {w1 : Enc.W} {c : Nat}
    (h : Adv ls s i w col n w1 c) (hw : w1.hi ≤ w1.out.length + 16) (hc : c ≤ max ls 2 ∨ (i = n ∧ c = col)) : Done ls n s i w col (w1, (c : Int)) := by
  obtain ⟨l, h1, h2, h3⟩ := h
  have h4 := h3 []
  simp only [List.append_nil, Spec.encode, Spec.endCol] at h4
  refine ⟨l, h1, h2, h4.1, hw, Or.inl (by rw [← h4.2]), fun hh => ?_⟩
  rcases hc with hc | ⟨rfl, rfl⟩
  · simp only; omega
  · have : l = [] := List.length_eq_zero_iff.mp (by omega)
    simp [this] at hh; simp only; omega

theorem outer_post (ls : Nat) (hls : ls + 6 < 2 ^ 31) (n f i : Nat) (w : Enc.W) (col : Nat) (s : List (Nat × Byte))
    (hf : n < f + i) (h1 : 1 ≤ col) (hi : i ≤ n) (hw : w.hi ≤ w.out.length + 16) :
    (outer ls n f i w col).Post n (fun s' x => Done ls n s' i w col x) s := by
  induction f generalizing i w col s with
  | zero => omega
  | succ f ih =>
    rw [outer]
    by_cases hend : n ≤ i
    · rw [if_pos hend]
      obtain rfl : i = n := by omega
      exact Done.of_end (Adv.refl _ _ _ _ _ _ rfl) hw (Or.inr ⟨rfl, rfl⟩)
    rw [if_neg hend]
    apply Prog.Post.bind
    refine (unroll8_post ls hls n (n + 1) i w col none s (by omega) h1 (by omega) (Or.inl rfl) hw).mono ?_
    rintro s1 u hs1 ⟨i1, w1, c1, e1, e2, e3, e4, e5, e6⟩
    simp only [e1]
    apply Prog.Post.bind
    refine (innerLoop_post ls n (n + 1) i1 w1 c1 s1 (by omega) e4 e2 e6).mono ?_
    intro s2 x hs2
    cases x with
    | ended w2 col2 =>
      rintro ⟨c2, rfl, g2, g3, g4⟩
      exact Done.of_end (e5.trans hs2 g3) g4 (Or.inl (by omega))
    | cont i2 w2 col2 =>
      rintro ⟨g0, g00, c2, rfl, g2, g3, g4, g5⟩
      simp only
      have hA := e5.trans hs2 g4
      -- the line break
      have heol : ∀ (i3 : Nat) (w3 : Enc.W) (c3 : Nat) (s3 : List (Nat × Byte)), i3 < n → i ≤ i3 → ls ≤ c3 → w3.hi ≤ w3.out.length + 16 → Adv ls s3 i w col i3 w3 c3 →
          (eol i3 w3 (outer ls n f)).Post n (fun s' x => Done ls n s' i w col x) s3 := by
        intro i3 w3 c3 s3 k1 k2 k3 k4 k5
        refine ⟨k1, fun d => ?_⟩
        obtain ⟨c4, m1, m2, m3, m4, m5⟩ := eol_adv ls ((i3, d) :: s3) i3 w3 c3 d k3 List.mem_cons_self k4
        simp only [m1]
        refine (ih (i3 + 1) _ c4 _ (by omega) m2 (by omega) m5).mono ?_
        intro s4 x hs4 hx
        exact Done.of_adv (k5.trans (List.subset_cons_self _ _) m4) hs4 hx (Or.inl (by omega))
      by_cases hlt : (c2 : Int) < ls
      · rw [if_pos hlt]
        refine ⟨g0, fun c => ?_⟩
        have e3 := Enc.lastChar_eq w2 c ls c2 g2 (by omega) false
        have e4' := Enc.encChar_length ls c2 false (c + 42#8)
        have hA' : Adv ls ((i2, c) :: s2) i2 w2 c2 (i2 + 1) (Enc.lastChar w2 c) (c2 + (Spec.encChar ls c2 false (c + 42#8)).length) := by
          refine ⟨[c], rfl, Seen.cons List.mem_cons_self (Seen.nil _ _), fun r => ?_⟩
          rw [e3, List.singleton_append, Enc.encode_cons_lt _ _ _ _ _ (by omega), Enc.endCol_cons_lt _ _ _ _ _ (by omega)]
          simp
        have hw3 : (Enc.lastChar w2 c).hi ≤ (Enc.lastChar w2 c).out.length + 16 := by rw [e3]; simp; omega
        have hB := hA.trans (List.subset_cons_self _ _) hA'
        simp only
        by_cases hl : n ≤ i2 + 1
        · rw [if_pos hl]
          obtain ⟨l, l1, l2, l3⟩ := hB
          have l4 := l3 []
          simp only [List.append_nil, Spec.encode, Spec.endCol] at l4
          refine ⟨l, by omega, l2, l4.1, hw3, Or.inr ⟨by simp only; omega, by rw [← l4.2]; omega⟩, fun _ => by simp only; omega⟩
        · rw [if_neg hl]
          exact heol (i2 + 1) _ _ _ (by omega) (by omega) (by omega) hw3 hB
      · rw [if_neg hlt, if_neg (by omega)]
        exact heol i2 _ _ _ g0 (by omega) (by omega) g5 hA

/-- The encoder, with the bytes it used: each one was read from its place. -/
theorem encode_post (ls : Nat) (hls : 1 ≤ ls) (hls2 : ls + 6 < 2 ^ 31) (col n : Nat) (fin : Bool) (hn : n ≠ 0) :
    (encode ls col n fin).Post n (fun s x => ∃ L, L.length = n ∧ Seen s 0 L ∧ x.1.out = Spec.encode ls fin col L ∧
      x.1.hi ≤ x.1.out.length + 16 ∧ Enc.ColRel ls x.2 (Spec.endCol ls fin col L) ∧ (fin = false → 2 ≤ ls → x.2 ≤ (ls : Int))) [] := by
  have main : ((if (col : Int) = 0 then .rd 0 fun c => outer ls n (n + 1) 1 (Enc.firstChar ⟨[], 0⟩ c).1 (Enc.firstChar ⟨[], 0⟩ c).2
      else outer ls n (n + 1) 0 ⟨[], 0⟩ col) : Prog (Enc.W × Int)).Post n (fun s x => Done ls n s 0 ⟨[], 0⟩ col x) [] := by
    by_cases h0 : col = 0
    · subst h0
      simp only [Int.natCast_zero, if_true]
      refine ⟨by omega, fun c => ?_⟩
      have f3 := Enc.firstChar_eq ⟨[], 0⟩ c ls false
      have f4 := Enc.encChar_length ls 0 false (c + 42#8)
      show (outer ls n (n + 1) 1 (Enc.firstChar ⟨[], 0⟩ c).1 (Enc.firstChar ⟨[], 0⟩ c).2).Post n _ [(0, c)]
      rw [f3]
      refine (outer_post ls hls2 n (n + 1) 1 _ (Spec.encChar ls 0 false (c + 42#8)).length _ (by omega) (by omega) (by omega) (by simp)).mono ?_
      intro s x hs hx
      refine Done.of_adv (s := [(0, c)]) ?_ hs hx (Or.inl (by omega))
      refine ⟨[c], rfl, Seen.cons List.mem_cons_self (Seen.nil _ _), fun r => ?_⟩
      rw [List.singleton_append, Enc.encode_cons_lt _ _ _ _ _ (by omega), Enc.endCol_cons_lt _ _ _ _ _ (by omega)]
      simp
    · rw [if_neg (by omega)]
      exact outer_post ls hls2 n (n + 1) 0 ⟨[], 0⟩ col [] (by omega) (by omega) (by omega) (by simp)
  unfold encode
  apply Prog.Post.bind
  refine main.mono ?_
  rintro s ⟨w, c⟩ - ⟨L, m0, m1, m2, m3, m4, m5⟩
  have hne : L ≠ [] := by intro h; rw [h] at m0; simp at m0; omega
  replace m5 := m5 (Or.inr hne)
  simp only [List.nil_append] at m2 m3 m4 m5 ⊢
  cases fin with
  | false =>
    refine ⟨L, by omega, m1, m2, m3, ?_, fun _ _ => by simp only; omega⟩
    rcases m4 with h | ⟨h, h'⟩
    · exact Or.inl h
    · exact Or.inr (by simp only; omega)
  | true =>
    simp only [if_true]
    obtain ⟨a, lc, k1, k2, k3⟩ := Enc.encode_fin ls hls col L hne
    unfold Enc.doEnd
    rw [m2, k1]
    have g1 : (a ++ [lc]).getLast? = some lc := by simp
    have g2 : (a ++ [lc]).dropLast = a := by simp
    rw [g1, g2]
    simp only
    by_cases hlc : lc = TAB ∨ lc = SP
    · rw [if_pos hlc, if_neg (by have := (k2 hlc).2.2; omega)]
      refine ⟨L, by omega, m1, by rw [(k2 hlc).1], ?_, ?_, by simp⟩
      · rw [m2, k1] at m3; simp at m3 ⊢; omega
      · rw [(k2 hlc).2.1]
        rcases m4 with h | ⟨h, h'⟩
        · exact Or.inl (by simp only [h]; push_cast; rfl)
        · exact Or.inr (by simp only; omega)
    · rw [if_neg hlc]
      refine ⟨L, by omega, m1, by rw [(k3 hlc).1, m2, k1], m3, ?_, by simp⟩
      rw [(k3 hlc).2]
      rcases m4 with h | ⟨h, h'⟩
      · exact Or.inl h
      · exact Or.inr (by simp only; omega)

end Yenc.Shared
