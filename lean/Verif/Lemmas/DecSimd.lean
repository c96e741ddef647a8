import Verif.Lemmas.DecBlock
/-! The frame around the vector kernels decodes correctly if each round of the kernel does. -/
namespace Yenc.Mem

/-- A second store after the useful part of the first. -/
theorem wr_wr_drop (m : Mem) (p : Nat) (a t s : List Byte) :
    (m.wr p (a ++ t)).wr (p + a.length) s = m.wr p (a ++ (s ++ t.drop s.length)) := by
  rw [wr_append, wr_append]
  generalize m.wr p a = m'
  funext x
  simp only [wr_apply, List.length_append, List.length_drop]
  by_cases h1 : p + a.length ≤ x ∧ x < p + a.length + s.length
  · rw [dif_pos h1, dif_pos (by omega), List.getElem_append_left]
  · rw [dif_neg h1]
    by_cases h2 : p + a.length ≤ x ∧ x < p + a.length + t.length
    · rw [dif_pos h2, dif_pos (by omega), List.getElem_append_right (by omega)]
      simp only [List.getElem_drop]
      congr 1; omega
    · rw [dif_neg h2, dif_neg (by omega)]

end Yenc.Mem

namespace Yenc.Dec.Simd
open Yenc Yenc.Dec

/-- How far past a round's bytes it may look. -/
def look : Mode → Nat
  | .plain => 0
  | .raw => 2
  | .endRaw => 4

/-- What has to hold of a kernel. -/
structure Kernel.Ok {σ : Type} (K : Kernel σ) (lax : Bool) (md : Mode) (R : σ → Bool → Nat → Prop) : Prop where
  width : 4 ≤ K.width
  dvd : lax = true → 16 ∣ K.width
  init : ∀ (B : Nat → Byte) (e : Bool), (e = true → B 3 = EQ) → R (K.init e (pendOf md B)) e (pendOf md B)
  esc : ∀ s e pd, R s e pd → K.esc s = e
  reach : ∀ s b, (K.iter s b).reach ≤ K.width + if lax = true ∧ md.isRaw = true then 16 else look md
  iter : ∀ (s : σ) (e : Bool) (B : Nat → Byte), R s e (pendOf md B) → (e = true → B 3 = EQ) →
    match (K.iter s fun j => B (4 + j)).round with
    | .brk nm => md = .endRaw ∧ nm = pendOf md B
    | .next stores adv s' =>
      (∀ st ∈ stores, st.1 + st.2.length ≤ K.width) ∧
      (∃ t, (blockOut md.isRaw B e K.width ++ t).length ≤ K.width ∧
        ∀ m p, applyStores m p stores = m.wr p (blockOut md.isRaw B e K.width ++ t)) ∧
      adv = (blockOut md.isRaw B e K.width).length ∧
      R s' (escP B e K.width) (pendOf md (shift K.width B)) ∧
      (md = .endRaw → ∀ j, j < K.width → ¬ TermAt B (j + 4))

theorem loop_spec {σ : Type} {K : Kernel σ} {lax : Bool} {md : Mode} {R : σ → Bool → Nat → Prop} (hK : K.Ok lax md R)
    (B : Nat → Byte) (e : Bool) (he : e = true → B 3 = EQ) (m0 : Mem) (src dest len total : Nat)
    (hsafe : M.Safe dest src (src + len)) (hB : ∀ j, j < len → m0 (src + j) = B (4 + j))
    (htot : total * K.width + look md ≤ len) (hal : lax = true → src % 16 = 0) :
    ∀ (rounds done : Nat) (out t : List Byte) (s : σ), rounds + done = total →
      out = blockOut md.isRaw B e (done * K.width) → (out ++ t).length ≤ done * K.width →
      R s (escP B e (done * K.width)) (pendOf md (shift (done * K.width) B)) →
      (md = .endRaw → ∀ j, j < done * K.width → ¬ TermAt B (j + 4)) →
      ∃ n t', loop K (readLimit lax (src + len)) (dest + len) (pendOf md (shift (total * K.width) B)) rounds
          (m0.wr dest (out ++ t)) (src + done * K.width) (dest + out.length) s =
        some ⟨m0.wr dest (blockOut md.isRaw B e (n * K.width) ++ t'), src + n * K.width,
          dest + (blockOut md.isRaw B e (n * K.width)).length, escP B e (n * K.width), pendOf md (shift (n * K.width) B)⟩ ∧
        (blockOut md.isRaw B e (n * K.width) ++ t').length ≤ n * K.width ∧ n ≤ total ∧ (md ≠ .endRaw → n = total) ∧
        (md = .endRaw → ∀ j, j < n * K.width → ¬ TermAt B (j + 4)) := by
  intro rounds
  have hsafe' : dest ≤ src ∨ src + len ≤ dest := hsafe
  have hw := hK.width
  induction rounds with
  | zero =>
    intro done out t s hd ho hl hR hT
    have hd : done = total := by omega
    subst hd
    refine ⟨done, t, ?_, by rw [← ho]; exact hl, Nat.le_refl _, fun _ => rfl, hT⟩
    simp only [loop, hK.esc _ _ _ hR, ← ho]
  | succ rounds ih =>
    intro done out t s hd ho hl hR hT
    have hmul : (done + 1) * K.width = done * K.width + K.width := Nat.succ_mul _ _
    have hle : (done + 1) * K.width ≤ total * K.width := Nat.mul_le_mul_right _ (by omega)
    -- what the round sees
    obtain ⟨m, hm⟩ : ∃ m, m = m0.wr dest (out ++ t) := ⟨_, rfl⟩
    rw [← hm]
    let B' : Nat → Byte := fun j => if j < 4 then shift (done * K.width) B j else m (src + done * K.width + (j - 4))
    have hB' : ∀ j, j < K.width + look md + 4 → B' j = shift (done * K.width) B j := by
      intro j hj
      simp only [B']
      by_cases h4 : j < 4
      · rw [if_pos h4]
      · rw [if_neg h4]
        rw [hm, Mem.wr_out _ _ _ _ (by simp only [List.length_append] at hl ⊢; omega)]
        have := hB (done * K.width + (j - 4)) (by omega)
        rw [← Nat.add_assoc] at this
        rw [this]
        simp only [shift]
        congr 1; omega
    have hb : (fun j => m (src + done * K.width + j)) = fun j => B' (4 + j) := by
      funext j
      simp only [B', if_neg (show ¬ 4 + j < 4 by omega), Nat.add_sub_cancel_left]
    have hp0 : pendOf md B' = pendOf md (shift (done * K.width) B) := pendOf_congr md (fun j hj => hB' j (by omega))
    have hp1 : pendOf md (shift K.width B') = pendOf md (shift ((done + 1) * K.width) B) := by
      rw [hmul, ← shift_shift]
      cases hmd : md.isRaw
      · simp [pendOf, setNextMask, hmd]
      · have : 2 ≤ look md := by revert hmd; cases md <;> simp [look, Mode.isRaw]
        exact pendOf_congr md (fun j hj => hB' (K.width + j) (by omega))
    have he' : escP B e (done * K.width) = true → B' 3 = EQ := by
      intro h
      rw [hB' 3 (by omega)]
      exact escP_prev B e he _ h
    have ho' : blockOut md.isRaw B' (escP B e (done * K.width)) K.width =
        blockOut md.isRaw (shift (done * K.width) B) (escP B e (done * K.width)) K.width :=
      blockOut_congr _ _ _ (fun j hj => hB' j (by omega))
    have hes : escP B' (escP B e (done * K.width)) K.width = escP B e ((done + 1) * K.width) := by
      rw [escP_congr _ _ (fun j hj => hB' j (by omega)), escP_shift, hmul]
    have hreach := hK.reach s (fun j => m (src + done * K.width + j))
    have hiter := hK.iter s (escP B e (done * K.width)) B' (by rw [hp0]; exact hR) he'
    rw [ho', hes, hp1, hp0] at hiter
    have hlim : src + done * K.width + (K.width + if lax = true ∧ md.isRaw = true then 16 else look md) ≤ readLimit lax (src + len) := by
      unfold readLimit
      cases lax
      · simp only [Bool.false_eq_true, false_and, if_false]; omega
      · simp only [if_true, true_and]
        obtain ⟨c, hc⟩ := hK.dvd rfl
        have hal := hal rfl
        have : (done + 1) * K.width = 16 * ((done + 1) * c) := by rw [hc, Nat.mul_left_comm]
        generalize (done + 1) * c = y at *
        split
        · rename_i hr
          have : 2 ≤ look md := by revert hr; cases md <;> simp [look, Mode.isRaw]
          omega
        · omega
    rw [loop]
    rw [if_pos (Nat.le_trans (Nat.add_le_add_left hreach _) hlim)]
    rw [← hb] at hiter
    cases hround : (K.iter s fun j => m (src + done * K.width + j)).round with
    | brk nm =>
      rw [hround] at hiter
      simp only at hiter ⊢
      refine ⟨done, t, ?_, by rw [← ho]; exact hl, by omega, fun h => absurd hiter.1 h, hT⟩
      rw [hK.esc _ _ _ hR, hiter.2, ← ho, hm]
    | next stores adv s' =>
      rw [hround] at hiter
      simp only at hiter ⊢
      obtain ⟨g1, ⟨t', g2, g3⟩, g4, g5, g6⟩ := hiter
      have hout : out ++ blockOut md.isRaw (shift (done * K.width) B) (escP B e (done * K.width)) K.width =
          blockOut md.isRaw B e ((done + 1) * K.width) := by
        rw [hmul, blockOut_add, ho]
      have hol : out.length ≤ done * K.width := by rw [ho]; exact blockOut_length _ _ _ _
      have hst : stores.all (fun st => decide (dest + out.length + st.1 + st.2.length ≤ dest + len)) = true := by
        rw [List.all_eq_true]
        intro st hst
        have := g1 st hst
        rw [decide_eq_true_eq]
        omega
      rw [if_pos hst, g3]
      generalize hw2 : blockOut md.isRaw (shift (done * K.width) B) (escP B e (done * K.width)) K.width = o2 at *
      have hwr : m.wr (dest + out.length) (o2 ++ t') = m0.wr dest ((out ++ o2) ++ (t' ++ t.drop (o2 ++ t').length)) := by
        rw [hm, Mem.wr_wr_drop]; simp only [List.append_assoc]
      rw [hwr, g4, Nat.add_assoc src, ← hmul, Nat.add_assoc dest, ← List.length_append]
      refine ih (done + 1) (out ++ o2) _ s' (by omega) hout ?_ g5 ?_
      · simp only [List.length_append, List.length_drop] at hl g2 ⊢
        omega
      · intro h j hj
        by_cases hj2 : j < done * K.width
        · exact hT h j hj2
        · have hlook : look md = 4 := by rw [h]; rfl
          have := g6 h (j - done * K.width) (by omega)
          rw [TermAt_congr _ (fun k hk => hB' k (by omega))] at this
          have h2 : TermAt (shift (done * K.width) B) (j - done * K.width + 4) ↔ TermAt B (j + 4) := by
            have e1 : done * K.width + (j - done * K.width + 4) = j + 4 := by omega
            simp only [TermAt, shift, ← Nat.add_assoc] at e1 ⊢
            rw [e1]
          rwa [h2] at this

/-- The number of bytes given to the kernel. -/
def dLen (md : Mode) (w len : Nat) : Nat := (len - lenBuffer md w + (w - 1)) / w * w

theorem dLen_le (md : Mode) (w len : Nat) (hw : 4 ≤ w) (hl : len > lenBuffer md w) :
    dLen md w len + look md ≤ len ∧ w ≤ dLen md w len := by
  have h0 : lenBuffer md w = w - 1 + look md := by cases md <;> rfl
  have h1 : (len - lenBuffer md w + (w - 1)) / w * w ≤ len - lenBuffer md w + (w - 1) := Nat.div_mul_le_self _ _
  have h2 : 1 ≤ (len - lenBuffer md w + (w - 1)) / w := (Nat.one_le_div_iff (by omega)).2 (by omega)
  have h3 := Nat.mul_le_mul_right w h2
  unfold dLen
  omega

theorem aligned_go {σ : Type} {K : Kernel σ} {lax : Bool} {md : Mode} {R : σ → Bool → Nat → Prop} (hK : K.Ok lax md R)
    (m : Mem) (src dest len : Nat) (st : State) (hsafe : M.Safe dest src (src + len)) (hal : lax = true → src % 16 = 0)
    (hlen : len > lenBuffer md K.width)
    (hgo : straddle md st (fun j => m (src + j)) = .go (pendOf md (stream st m src))) :
    ∃ k t, k + look md ≤ len ∧ (md ≠ .endRaw → k = dLen md K.width len) ∧
      aligned K lax md m src dest len st =
        finish md (m.wr dest (blockOut md.isRaw (stream st m src) (st = .eq ∨ st = .crlfeq) k ++ t)) (src + k)
          (dest + (blockOut md.isRaw (stream st m src) (st = .eq ∨ st = .crlfeq) k).length) (len - k)
          (stateAfter (escP (stream st m src) (st = .eq ∨ st = .crlfeq) k) (pendOf md (shift k (stream st m src)))) ∧
      (blockOut md.isRaw (stream st m src) (st = .eq ∨ st = .crlfeq) k ++ t).length ≤ k ∧
      (md = .endRaw → ∀ j, j < k → ¬ TermAt (stream st m src) (j + 4)) := by
  have hw := hK.width
  obtain ⟨hd1, hd2⟩ := dLen_le md K.width len hw hlen
  unfold aligned
  rw [if_pos hlen, hgo]
  simp only
  have hdm : (len - lenBuffer md K.width + (K.width - 1)) / K.width * K.width = dLen md K.width len := rfl
  rw [hdm]
  have hdiv : dLen md K.width len / K.width * K.width = dLen md K.width len := by
    unfold dLen; rw [Nat.mul_div_cancel _ (by omega)]
  have hB : ∀ j, stream st m src (4 + j) = m (src + j) := by
    intro j; simp only [stream, if_neg (show ¬ 4 + j < 4 by omega), Nat.add_sub_cancel_left]
  have he : decide (st = .eq ∨ st = .crlfeq) = true → stream st m src 3 = EQ := by
    cases st <;> simp [stream, past]
  have hlim : ¬ (md.isRaw = true ∧ readLimit lax (src + len) < src + dLen md K.width len + 2) := by
    rintro ⟨h1, h2⟩
    have h3 : src + len ≤ readLimit lax (src + len) := by unfold readLimit; split <;> omega
    have : 2 ≤ look md := by revert h1; cases md <;> simp [look, Mode.isRaw]
    omega
  have hnm : setNextMask md.isRaw (fun k => m (src + dLen md K.width len - 2 + k)) =
      pendOf md (shift (dLen md K.width len / K.width * K.width) (stream st m src)) := by
    rw [hdiv]
    unfold pendOf
    congr 1
    funext k
    rw [show src + dLen md K.width len - 2 + k = src + (dLen md K.width len - 2 + k) by omega, ← hB]
    simp only [shift]
    congr 1; omega
  have hs : stream st m src = shift (0 * K.width) (stream st m src) := by rw [Nat.zero_mul, shift_zero]
  obtain ⟨n, t, h1, h2, h3, h4, h5⟩ := loop_spec hK (stream st m src) (st = .eq ∨ st = .crlfeq) he m src dest len
    (dLen md K.width len / K.width) hsafe (fun j _ => (hB j).symm) (by rw [hdiv]; exact hd1) hal
    (dLen md K.width len / K.width) 0 [] [] (K.init (st = .eq ∨ st = .crlfeq) (pendOf md (stream st m src))) (by omega)
    (by simp [blockOut]) (by simp) (by
      have := hK.init (stream st m src) _ he
      rw [← hs]
      rw [show escP (stream st m src) (decide (st = .eq ∨ st = .crlfeq)) (0 * K.width) = decide (st = .eq ∨ st = .crlfeq) by
        rw [Nat.zero_mul]; rfl]
      exact this) (by intro _ j hj; omega)
  unfold kernel
  rw [if_neg hlim, hnm]
  simp only [Nat.zero_mul, Nat.add_zero, List.length_nil, List.append_nil, Mem.wr] at h1
  rw [h1]
  have hn : n * K.width ≤ dLen md K.width len := by
    rw [← hdiv]; exact Nat.mul_le_mul_right _ h3
  refine ⟨n * K.width, t, by omega, fun h => by rw [h4 h, hdiv], ?_, h2, h5⟩
  simp only
  congr 1; omega

/-! ### Finishing with scalar code -/

theorem rdn_after (m : Mem) (src dest len k : Nat) (o : List Byte) (hsafe : M.Safe dest src (src + len)) (h1 : o.length ≤ k) :
    (m.wr dest o).rdn (src + k) (len - k) = m.rdn (src + k) (len - k) := by
  have hsafe' : dest ≤ src ∨ src + len ≤ dest := hsafe
  exact Mem.rdn_congr (fun x _ _ => Mem.wr_out _ _ _ _ (by omega))

theorem nrun_stateAfter (st : State) (B : Nat → Byte) (h : Hist st B) (r : List Byte) :
    (nrun (stateAfter (st = .eq) (pendOf .raw B)) (B 4 :: B 5 :: r)).1 = (nrun st (B 4 :: B 5 :: r)).1 := by
  obtain ⟨h0, h1, h2, h3⟩ := h
  rw [pendOf_raw _ rfl]
  generalize B 2 = b2 at *
  generalize B 3 = b3 at *
  generalize B 4 = b4 at *
  generalize B 5 = b5 at *
  rcases h0 with rfl | rfl | rfl | rfl
  · obtain ⟨rfl, rfl⟩ := h1.mp rfl
    by_cases h4 : b4 = DOT
    · simp [h4, stateAfter]
    · have : stateAfter (decide (State.crlf = State.eq)) (if CR = CR ∧ LF = LF ∧ b4 = DOT then 1
          else if LF = CR ∧ b4 = LF ∧ b5 = DOT then 2 else 0) = .none := by simp [h4, stateAfter]
      rw [this, nrun_crlf_cons, if_neg h4]
  · simp [stateAfter]
  · have h3 := h2.mp rfl
    subst h3
    by_cases h4 : b4 = LF ∧ b5 = DOT
    · simp [h4, stateAfter]
    · have : stateAfter (decide (State.cr = State.eq)) (if b2 = CR ∧ CR = LF ∧ b4 = DOT then 1
          else if CR = CR ∧ b4 = LF ∧ b5 = DOT then 2 else 0) = .none := by simp [h4, stateAfter]
      rw [this, nrun_cr_cons]
      by_cases h5 : b4 = LF
      · subst h5
        rw [if_pos rfl, nrun_none_lf, nrun_crlf_cons, if_neg (by simpa using h4)]
      · rw [if_neg h5]
  · have : stateAfter (decide (State.none = State.eq)) (if b2 = CR ∧ b3 = LF ∧ b4 = DOT then 1
          else if b3 = CR ∧ b4 = LF ∧ b5 = DOT then 2 else 0) = .none := by
      simp only [reduceCtorEq, decide_false, false_iff] at h1 h2 ⊢
      rw [if_neg (fun h => h1 ⟨h.1, h.2.1⟩), if_neg (fun h => h2 h.1)]; rfl
    rw [this]

theorem rdn_cons2 (m : Mem) (a n : Nat) (h : 2 ≤ n) : m.rdn a n = m a :: m (a + 1) :: m.rdn (a + 2) (n - 2) := by
  obtain ⟨k, rfl⟩ : ∃ k, n = k + 2 := ⟨n - 2, by omega⟩
  rfl

theorem rdn_cons3 (m : Mem) (a n : Nat) (h : 3 ≤ n) : m.rdn a n = m a :: m (a + 1) :: m (a + 2) :: m.rdn (a + 3) (n - 3) := by
  obtain ⟨k, rfl⟩ : ∃ k, n = k + 3 := ⟨n - 3, by omega⟩
  rfl

theorem rdn_cons4 (m : Mem) (a n : Nat) (h : 4 ≤ n) :
    m.rdn a n = m a :: m (a + 1) :: m (a + 2) :: m (a + 3) :: m.rdn (a + 4) (n - 4) := by
  obtain ⟨k, rfl⟩ : ∃ k, n = k + 4 := ⟨n - 4, by omega⟩
  rfl

/-- The memory after the scalar code has finished. -/
theorem wr_finish (m : Mem) (dest : Nat) (a t o : List Byte) (k len : Nat) (h1 : (a ++ t).length ≤ k) (h2 : k + o.length ≤ len)
    (out rest : List Byte) (ho : o = out ++ rest) :
    ∃ t', (m.wr dest (a ++ t)).wr (dest + a.length) o = m.wr dest ((a ++ out) ++ t') ∧ ((a ++ out) ++ t').length ≤ len := by
  subst ho
  refine ⟨rest ++ t.drop (out ++ rest).length, ?_, ?_⟩
  · rw [Mem.wr_wr_drop]; simp only [List.append_assoc]
  · simp only [List.length_append, List.length_drop] at h1 h2 ⊢; omega

theorem stateAfter_mem (e : Bool) (nm : Nat) :
    stateAfter e nm = .crlf ∨ stateAfter e nm = .eq ∨ stateAfter e nm = .cr ∨ stateAfter e nm = .none := by
  unfold stateAfter; repeat' split
  all_goals simp

theorem stateAfter_eq_eq (e : Bool) (nm : Nat) : stateAfter e nm = .eq ↔ e = true := by
  unfold stateAfter; repeat' split
  all_goals simp_all

/-! #### Plain -/

theorem finish_plain (m : Mem) (src dest len : Nat) (st : State) (hsafe : M.Safe dest src (src + len)) :
    ∃ out st', finish .plain m src dest len st = some ⟨m.wr dest out, src + len, dest + out.length, st', .none⟩ ∧
      out = yFrom (st = .eq) (m.rdn src len) ∧ out.length ≤ len := by
  unfold finish
  by_cases h0 : len = 0
  · subst h0
    exact ⟨[], st, by simp [Mem.wr], by simp [Mem.rdn, yFrom, Spec.yDecode], by simp⟩
  · rw [if_pos h0]
    obtain ⟨out, st', h1, h2, h3⟩ := M.noendPlain_sim m src dest len (some st) hsafe
    refine ⟨out, st'.getD .crlf, by simp only [scalar, h2], ?_, h3⟩
    have := congrArg Prod.fst h1
    simp only [noendPlain_spec, Mem.rd, Nat.add_sub_cancel_left, Option.some.injEq] at this
    exact this.symm

theorem aligned_plain {σ : Type} {K : Kernel σ} {lax : Bool} {R : σ → Bool → Nat → Prop} (hK : K.Ok lax .plain R)
    (m : Mem) (src dest len : Nat) (st : State) (hst : st = .crlf ∨ st = .eq ∨ st = .cr ∨ st = .none)
    (hsafe : M.Safe dest src (src + len)) (hal : lax = true → src % 16 = 0) :
    ∃ t st', aligned K lax .plain m src dest len st =
        some ⟨m.wr dest (yFrom (st = .eq) (m.rdn src len) ++ t), src + len,
          dest + (yFrom (st = .eq) (m.rdn src len)).length, st', .none⟩ ∧
      (yFrom (st = .eq) (m.rdn src len) ++ t).length ≤ len := by
  by_cases hlen : len > lenBuffer .plain K.width
  · obtain ⟨k, t, h1, h2, h3, h4, -⟩ := aligned_go hK m src dest len st hsafe hal hlen (straddle_go .plain rfl st hst m src)
    rw [h3]
    have hst' : decide (st = .eq ∨ st = .crlfeq) = decide (st = .eq) := by
      rcases hst with rfl | rfl | rfl | rfl <;> rfl
    simp only [hst', look, Mode.isRaw] at h1 h4 ⊢
    have hB := blockOut_length false (stream st m src) (st = .eq) k
    have hB2 := yFrom_block (stream st m src) (st = .eq) k (m.rdn (src + k) (len - k))
    rw [show (4 : Nat) = 4 + 0 from rfl, rdn_stream, Nat.add_zero, ← Mem.rdn_append, show k + (len - k) = len by omega] at hB2
    generalize blockOut false (stream st m src) (decide (st = .eq)) k = a at *
    have hsafe' : dest ≤ src ∨ src + len ≤ dest := hsafe
    obtain ⟨out, st', g1, g2, g3⟩ := finish_plain (m.wr dest (a ++ t)) (src + k) (dest + a.length) (len - k)
      (stateAfter (escP (stream st m src) (st = .eq) k) (pendOf .plain (shift k (stream st m src)))) (by unfold M.Safe; omega)
    rw [g1]
    rw [rdn_after m src dest len k _ hsafe h4] at g2
    have he : decide (stateAfter (escP (stream st m src) (st = .eq) k) (pendOf .plain (shift k (stream st m src))) = .eq) =
        escP (stream st m src) (st = .eq) k := by
      rw [Bool.eq_iff_iff, decide_eq_true_eq]; exact stateAfter_eq_eq _ _
    rw [he] at g2
    obtain ⟨t', i1, i2⟩ := wr_finish m dest a t out k len h4 (by omega) out [] (by simp)
    rw [hB2, ← g2]
    refine ⟨t', st', ?_, i2⟩
    rw [i1, List.length_append, show src + k + (len - k) = src + len by omega, Nat.add_assoc]
  · unfold aligned
    rw [if_neg hlen]
    obtain ⟨out, st', g1, g2, g3⟩ := finish_plain m src dest len st hsafe
    rw [← g2]
    exact ⟨[], st', by simpa using g1, by simpa using g3⟩

theorem decode_plain {σ : Type} {K : Kernel σ} {lax : Bool} {R : σ → Bool → Nat → Prop} (hK : K.Ok lax .plain R)
    (m : Mem) (src dest len : Nat) (hsafe : M.Safe dest src (src + len)) :
    ∃ t r, decode K lax .plain m src dest len none = some r ∧
      r.m = m.wr dest (Spec.decode false (m.rdn src len) ++ t) ∧ r.dest = dest + (Spec.decode false (m.rdn src len)).length ∧
      (Spec.decode false (m.rdn src len) ++ t).length ≤ len := by
  have hw := hK.width
  have hsafe' : dest ≤ src ∨ src + len ≤ dest := hsafe
  have hsp : ∀ l, Spec.decode false l = yFrom false l := by intro l; simp [Spec.decode, yFrom]
  rw [hsp]
  have hpos : ∀ x, lax = true → x % K.width = 0 → x % 16 = 0 := by
    intro x h1 h2
    obtain ⟨c, hc⟩ := hK.dvd h1
    have : 16 ∣ x := Nat.dvd_trans (hK.dvd h1) (Nat.dvd_of_mod_eq_zero h2)
    omega
  unfold decode
  by_cases h1 : len ≤ K.width * 2
  · rw [if_pos h1]
    obtain ⟨out, st', g1, g2, g3⟩ := M.noendPlain_sim m src dest len none hsafe
    have := congrArg Prod.fst g1
    simp only [noendPlain_spec, Mem.rd, Nat.add_sub_cancel_left, reduceCtorEq, decide_false] at this
    rw [this]
    exact ⟨[], _, rfl, by simp [g2], by simp [g2], by simpa using g3⟩
  · rw [if_neg h1]
    by_cases h2 : src % K.width ≠ 0
    · rw [if_pos h2]
      simp only [Option.getD_none]
      have hmod := Nat.mod_lt src (show K.width > 0 by omega)
      generalize ha : K.width - src % K.width = amount
      have h3 : (src + amount) % K.width = 0 := by
        have := Nat.div_add_mod src K.width
        have h4 : src + amount = K.width * (src / K.width + 1) := by rw [Nat.mul_add]; omega
        rw [h4, Nat.mul_mod_right]
      obtain ⟨out, st', g1, g2, g3⟩ := M.noendPlain_sim m src dest amount (some .crlf) (by unfold M.Safe; omega)
      simp only [Mem.rd, Nat.add_sub_cancel_left] at g1
      obtain ⟨st2, k1, k2, k3⟩ := noendPlain_state .crlf (m.rdn src amount) (by
        intro h; have := congrArg List.length h; simp at this; omega)
      rw [g1] at k1 k3
      simp only at k1
      subst k1
      simp only [scalar, g2, Option.getD_some]
      rw [if_neg (by simp)]
      obtain ⟨t, st3, i1, i2⟩ := aligned_plain hK (m.wr dest out) (src + amount) (dest + out.length) (len - amount) st2 (by
        rcases k2 with rfl | rfl <;> simp) (by unfold M.Safe; omega) (fun h => hpos _ h h3)
      rw [i1]
      rw [rdn_after m src dest len amount _ hsafe g3] at i2 ⊢
      have k4 := k3 (m.rdn (src + amount) (len - amount))
      rw [← Mem.rdn_append, show amount + (len - amount) = len by omega] at k4
      simp only [reduceCtorEq, decide_false] at k4
      rw [k4]
      generalize yFrom (decide (st2 = .eq)) (m.rdn (src + amount) (len - amount)) = o2 at *
      obtain ⟨t', j1, j2⟩ := wr_finish m dest out [] (o2 ++ t) amount len (by simpa using g3) (by
        simp only [List.length_append] at i2 ⊢; omega) o2 t rfl
      rw [List.append_nil] at j1
      exact ⟨t', _, rfl, by simp only [j1], by simp only [List.length_append]; omega, j2⟩
    · rw [if_neg h2]
      obtain ⟨t, st3, i1, i2⟩ := aligned_plain hK m src dest len .crlf (by simp) hsafe (fun h => hpos _ h (by omega))
      simp only [reduceCtorEq, decide_false] at i1 i2
      exact ⟨t, _, i1, rfl, rfl, i2⟩

/-! #### Dot unstuffing -/

theorem finish_raw (m : Mem) (src dest len : Nat) (st : State) (hst : st = .crlf ∨ st = .eq ∨ st = .cr ∨ st = .none)
    (hl : 2 ≤ len) (hsafe : M.Safe dest src (src + len)) :
    ∃ out st' o, finish .raw m src dest len st = some ⟨m.wr dest o, src + len, dest + out.length, st', .none⟩ ∧
      out = (if st = .eq ∧ m.rdn src len = [CR, LF] then [] else (nrun st (m.rdn src len)).1) ∧ out <+: o ∧ o.length ≤ len := by
  unfold finish
  rw [if_pos (by omega)]
  obtain ⟨out, st', o, h1, h2, h3, h4⟩ := M.noendRaw_sim m src dest len (some st) hsafe
  refine ⟨out, st'.getD .crlf, o, by simp only [scalar, h2, Option.map_some], ?_, h3, h4⟩
  simp only [Mem.rd, Nat.add_sub_cancel_left] at h1
  split
  · rename_i h
    rw [h.1, h.2] at h1
    have h5 : noendRaw (some .eq) [CR, LF] = some ([], some .crlf) := by
      simp [noendRaw, preRaw, preCr]
    rw [h5] at h1
    simp only [Option.some.injEq, Prod.mk.injEq] at h1
    exact h1.1.symm
  · rename_i h
    rw [noendRaw_state st _ (by
      rintro ⟨g1, g2⟩
      rcases g2 with g2 | g2
      · have := congrArg List.length g2
        simp at this; omega
      · exact h ⟨Option.some.inj g1, g2⟩) hst] at h1
    simp only [Option.some.injEq, Prod.mk.injEq] at h1
    exact h1.1.symm

theorem nrun_last_eq (st : State) (a : List Byte) (ha : a ≠ []) (h : (nrun st a).2 = .eq) : ∃ a', a = a' ++ [EQ] := by
  obtain ⟨a', c, rfl⟩ : ∃ q' c, a = q' ++ [c] := ⟨_, _, (List.dropLast_concat_getLast ha).symm⟩
  refine ⟨a', ?_⟩
  rw [nrun_append] at h
  simp only [npre, nrun] at h
  have : ∀ s : State, (nstep s c).1 = .eq → c = EQ := by
    intro s hs
    by_contra hne
    revert hs
    cases s <;> simp only [nstep, stepNone, stepEq] <;> (repeat' split) <;> simp_all
  rw [this _ h]

/-- What dot stripping decoding gives when the last part, from `k` on, is decoded separately from state `=` and is just CR LF. -/
def rawOut (k : Nat) (st : State) (l : List Byte) : List Byte :=
  if (nrun st (l.take k)).2 = .eq ∧ l.drop k = [CR, LF] then (nrun st (l.take k)).1 else (nrun st l).1

theorem aligned_raw {σ : Type} {K : Kernel σ} {lax : Bool} {R : σ → Bool → Nat → Prop} (hK : K.Ok lax .raw R)
    (src : Nat) (l : List Byte) (st : State) (hst : st = .crlf ∨ st = .eq ∨ st = .cr ∨ st = .none)
    (hal : lax = true → src % 16 = 0) (hlen : l.length > lenBuffer .raw K.width) :
    ∀ m dest, m.rdn src l.length = l → M.Safe dest src (src + l.length) →
        ∃ t st', aligned K lax .raw m src dest l.length st =
          some ⟨m.wr dest (rawOut (dLen .raw K.width l.length) st l ++ t), src + l.length, dest + (rawOut (dLen .raw K.width l.length) st l).length, st', .none⟩ ∧
          (rawOut (dLen .raw K.width l.length) st l ++ t).length ≤ l.length := by
  have hw := hK.width
  obtain ⟨hd1, hd2⟩ := dLen_le .raw K.width l.length hw hlen
  simp only [look] at hd1
  generalize hk : dLen .raw K.width l.length = k at *
  have happ := nrun_append st (l.take k) (l.drop k)
  rw [List.take_append_drop] at happ
  unfold rawOut
  intro m dest hm hsafe
  obtain ⟨k', t, h1, h2, h3, h4, -⟩ := aligned_go hK m src dest l.length st hsafe hal hlen (straddle_go .raw rfl st hst m src)
  have h2 := h2 (by simp)
  rw [hk] at h2
  subst h2
  rw [h3]
  have hst' : decide (st = .eq ∨ st = .crlfeq) = decide (st = .eq) := by
    rcases hst with rfl | rfl | rfl | rfl <;> rfl
  simp only [hst', Mode.isRaw] at h4 ⊢
  have hB := blockOut_length true (stream st m src) (st = .eq) k'
  obtain ⟨s, g1, g2, g3⟩ := nrun_block st (stream st m src) (Hist_stream st m src hst) k'
  have htake : m.rdn src k' = l.take k' := by
    rw [← hm, show l.length = k' + (l.length - k') by omega, Mem.rdn_append, List.take_left' (by simp)]
  have hdrop : m.rdn (src + k') (l.length - k') = l.drop k' := by
    conv_rhs => rw [← hm]
    rw [show l.length = k' + (l.length - k') by omega, Mem.rdn_append, List.drop_left' (by simp)]
    congr 1; omega
  rw [show (4 : Nat) = 4 + 0 from rfl, rdn_stream, Nat.add_zero, htake] at g1
  rw [g3]
  generalize blockOut true (stream st m src) (decide (st = .eq)) k' = a at *
  have hsafe' : dest ≤ src ∨ src + l.length ≤ dest := hsafe
  obtain ⟨out, st2, o, f1, f2, ⟨o', f3⟩, f4⟩ := finish_raw (m.wr dest (a ++ t)) (src + k') (dest + a.length) (l.length - k')
    (stateAfter (s = .eq) (pendOf .raw (shift k' (stream st m src)))) (stateAfter_mem _ _) (by omega) (by unfold M.Safe; omega)
  rw [f1]
  rw [rdn_after m src dest l.length k' _ hsafe h4, hdrop] at f2
  obtain ⟨t', i1, i2⟩ := wr_finish m dest a t o k' l.length h4 (by omega) out o' f3.symm
  have hout : (if (nrun st (l.take k')).2 = .eq ∧ l.drop k' = [CR, LF] then (nrun st (l.take k')).1 else (nrun st l).1) = a ++ out := by
    rw [happ, g1, f2]
    simp only [stateAfter_eq_eq, decide_eq_true_eq]
    split
    · simp
    · simp only [npre]
      congr 1
      have := nrun_stateAfter s _ g2 ((l.drop k').drop 2)
      have hc : shift k' (stream st m src) 4 :: shift k' (stream st m src) 5 :: (l.drop k').drop 2 = l.drop k' := by
        have e4 : shift k' (stream st m src) 4 = m (src + k') := by
          simp only [shift, stream, if_neg (show ¬ k' + 4 < 4 by omega), Nat.add_sub_cancel]
        have e5 : shift k' (stream st m src) 5 = m (src + k' + 1) := by
          simp only [shift, stream, if_neg (show ¬ k' + 5 < 4 by omega)]
          congr 1
        rw [e4, e5, ← hdrop, rdn_cons2 m _ _ (by omega)]; rfl
      rw [hc] at this
      exact this.symm
  rw [hout]
  refine ⟨t', st2, ?_, i2⟩
  rw [i1, List.length_append, show src + k' + (l.length - k') = src + l.length by omega, Nat.add_assoc]

/-- When a vectorised decoder that strips dots loses the last byte: there is more than two rounds of input, it ends in an escaped CR and LF,
and these two bytes are alone in the last part. -/
def lost (w src : Nat) (l : List Byte) : Prop :=
  w * 2 < l.length ∧ (src + l.length) % w = 2 ∧ (nrun .crlf (l.take (l.length - 2))).2 = .eq ∧ l.drop (l.length - 2) = [CR, LF]

instance (w src : Nat) (l : List Byte) : Decidable (lost w src l) := by unfold lost; infer_instance

theorem dLen_two (w len : Nat) (hw : 4 ≤ w) (hl : w + 1 < len) (h : len % w = 2) : dLen .raw w len = len - 2 := by
  have h1 : lenBuffer .raw w = w + 1 := by simp only [lenBuffer]; omega
  have h2 := Nat.div_add_mod len w
  rw [h] at h2
  rw [dLen, h1, show len - (w + 1) + (w - 1) = w * (len / w) by omega, Nat.mul_div_cancel_left _ (by omega), Nat.mul_comm]
  omega

theorem dLen_mod (md : Mode) (w len : Nat) : dLen md w len % w = 0 := Nat.mul_mod_left _ _

theorem rawOut_lost (w src amount : Nat) (l : List Byte) (hw : 4 ≤ w) (ha : (src + amount) % w = 0) (hl : w * 2 < l.length) (hl2 : amount + w + 1 < l.length) :
    (nrun .crlf (l.take amount)).1 ++ rawOut (dLen .raw w (l.length - amount)) (nrun .crlf (l.take amount)).2 (l.drop amount) =
      if lost w src l then (nrun .crlf (l.take (l.length - 2))).1 else (nrun .crlf l).1 := by
  have hm := dLen_mod .raw w (l.length - amount)
  have h2 := dLen_two w (l.length - amount) hw (by omega)
  generalize dLen .raw w (l.length - amount) = k at *
  have happ := nrun_append .crlf (l.take amount) ((l.drop amount).take k)
  have happ2 := nrun_append .crlf (l.take amount) (l.drop amount)
  rw [List.take_append_drop] at happ2
  have ht : l.take amount ++ (l.drop amount).take k = l.take (amount + k) := by rw [List.take_add]
  rw [ht] at happ
  have hadd : (src + l.length) % w = (l.length - amount) % w := by
    rw [show src + l.length = (l.length - amount) + (src + amount) by omega, Nat.add_mod, ha, Nat.add_zero, Nat.mod_mod]
  unfold rawOut
  rw [List.drop_drop]
  by_cases hc : (nrun (nrun .crlf (l.take amount)).2 ((l.drop amount).take k)).2 = .eq ∧ l.drop (amount + k) = [CR, LF]
  · have hN : l.length = amount + k + 2 := by
      have := congrArg List.length hc.2
      simp at this; omega
    have e : l.length - 2 = amount + k := by omega
    have hlost : lost w src l := by
      refine ⟨hl, ?_, ?_, ?_⟩
      · rw [hadd, show l.length - amount = k + 2 by omega, Nat.add_mod, hm, Nat.zero_add, Nat.mod_mod, Nat.mod_eq_of_lt (by omega)]
      · rw [e, happ]; exact hc.1
      · rw [e]; exact hc.2
    rw [if_pos hc, if_pos hlost, e, happ]; rfl
  · rw [if_neg hc, if_neg, happ2]
    · rfl
    · rintro ⟨_, h3, h4, h5⟩
      rw [hadd] at h3
      have e : l.length - 2 = amount + k := by rw [h2 h3]; omega
      rw [e] at h4 h5
      rw [happ] at h4
      exact hc ⟨h4, h5⟩

theorem lost_tail {w src : Nat} {l : List Byte} (h : lost w src l) : [EQ, CR, LF] <:+ l ∧ (nrun .crlf (l.take (l.length - 2))).1 = (nrun .crlf l).1.dropLast := by
  obtain ⟨h1, h2, h3, h4⟩ := h
  have hlen := congrArg List.length h4
  simp at hlen
  have happ := nrun_append .crlf (l.take (l.length - 2)) (l.drop (l.length - 2))
  rw [List.take_append_drop] at happ
  have hne : l.take (l.length - 2) ≠ [] := by
    intro h
    rw [h] at h3
    simp [nrun] at h3
  obtain ⟨a', ha'⟩ := nrun_last_eq .crlf _ hne h3
  refine ⟨⟨a', ?_⟩, ?_⟩
  · conv_rhs => rw [← List.take_append_drop (l.length - 2) l, ha', h4]
    simp
  · rw [happ, h3, h4]
    simp [npre, nrun_eq_cr, nrun_none_cr, nrun_cr_cons, nrun_nil]

theorem decode_raw_exact {σ : Type} {K : Kernel σ} {lax : Bool} {R : σ → Bool → Nat → Prop} (hK : K.Ok lax .raw R)
    (src : Nat) (l : List Byte) :
    ∃ out, (out = if lost K.width src l then (nrun .crlf (l.take (l.length - 2))).1 else (nrun .crlf l).1) ∧
      ∀ m dest, m.rdn src l.length = l → M.Safe dest src (src + l.length) →
        ∃ t r, decode K lax .raw m src dest l.length none = some r ∧ r.m = m.wr dest (out ++ t) ∧ r.dest = dest + out.length ∧
          (out ++ t).length ≤ l.length := by
  have hw := hK.width
  have hpos : ∀ x, lax = true → x % K.width = 0 → x % 16 = 0 := by
    intro x h1 h2
    have : 16 ∣ x := Nat.dvd_trans (hK.dvd h1) (Nat.dvd_of_mod_eq_zero h2)
    omega
  unfold decode
  by_cases h1 : l.length ≤ K.width * 2
  · refine ⟨_, rfl, ?_⟩
    intro m dest hm hsafe
    rw [if_neg (show ¬ lost K.width src l from fun h => by have := h.1; omega)]
    rw [if_pos h1]
    obtain ⟨out, st', o, g1, g2, ⟨t, g3⟩, g4⟩ := M.noendRaw_sim m src dest l.length none hsafe
    simp only [Mem.rd, Nat.add_sub_cancel_left, hm, noendRaw_null, Option.some.injEq, Prod.mk.injEq] at g1
    rw [g1.1]
    subst g3
    exact ⟨t, ⟨_, _, _, _, _⟩, by simp only [scalar, g2, Option.map_some]; rfl, rfl, rfl, g4⟩
  · have hlb : lenBuffer .raw K.width = K.width + 1 := by simp only [lenBuffer]; omega
    by_cases h2 : src % K.width ≠ 0
    · have hmod := Nat.mod_lt src (show K.width > 0 by omega)
      generalize ha : K.width - src % K.width = amount
      have h3 : (src + amount) % K.width = 0 := by
        have := Nat.div_add_mod src K.width
        have h4 : src + amount = K.width * (src / K.width + 1) := by rw [Nat.mul_add]; omega
        rw [h4, Nat.mul_mod_right]
      have happ := nrun_append .crlf (l.take amount) (l.drop amount)
      rw [List.take_append_drop] at happ
      have hm4 : ∀ (s : State) (a : List Byte), (s = .crlf ∨ s = .eq ∨ s = .cr ∨ s = .none) →
          ((nrun s a).2 = .crlf ∨ (nrun s a).2 = .eq ∨ (nrun s a).2 = .cr ∨ (nrun s a).2 = .none) := by
        intro s a
        induction a generalizing s with
        | nil => exact id
        | cons c cs ih =>
          intro hs
          rw [nrun]
          refine ih _ ?_
          cases s <;> simp only [nstep, stepNone, stepEq] <;> (repeat' split) <;> simp
      have j2 := aligned_raw hK (src + amount) (l.drop amount) (nrun .crlf (l.take amount)).2
        (hm4 _ _ (by simp)) (fun h => hpos _ h h3) (by rw [hlb]; simp; omega)
      have j1 := rawOut_lost K.width src amount l hw h3 (by omega) (by omega)
      have hld : (l.drop amount).length = l.length - amount := by simp
      rw [← hld] at j1
      generalize rawOut (dLen .raw K.width (l.drop amount).length) (nrun .crlf (l.take amount)).2 (l.drop amount) = out at *
      refine ⟨(nrun .crlf (l.take amount)).1 ++ out, j1, ?_⟩
      · intro m dest hm hsafe
        have hsafe' : dest ≤ src ∨ src + l.length ≤ dest := hsafe
        have htake : m.rdn src amount = l.take amount := by
          rw [← hm, show l.length = amount + (l.length - amount) by omega, Mem.rdn_append, List.take_left' (by simp)]
        have hdrop : m.rdn (src + amount) (l.length - amount) = l.drop amount := by
          conv_rhs => rw [← hm]
          rw [show l.length = amount + (l.length - amount) by omega, Mem.rdn_append, List.drop_left' (by simp)]
          congr 1; omega
        rw [if_neg h1, if_pos h2]
        obtain ⟨o1, st', o, g1, g2, ⟨t, g3⟩, g4⟩ := M.noendRaw_sim m src dest amount (some .crlf) (by unfold M.Safe; omega)
        simp only [Mem.rd, Nat.add_sub_cancel_left, htake] at g1
        rw [noendRaw_state .crlf _ (by rintro ⟨h, _⟩; simp at h) (by simp)] at g1
        simp only [Option.some.injEq, Prod.mk.injEq] at g1
        simp only [Option.getD_none, scalar, g2, Option.map_some]
        rw [if_neg (by simp), ← g1.2, Option.getD_some]
        subst g3
        have hlen2 : (l.drop amount).length = l.length - amount := by simp
        have hol : o1.length ≤ amount := by simp only [List.length_append] at g4; omega
        obtain ⟨t2, st2, i1, i2⟩ := j2 (m.wr dest (o1 ++ t)) (dest + o1.length)
          (by rw [hlen2, rdn_after m src dest l.length amount _ hsafe g4, hdrop]) (by unfold M.Safe; rw [hlen2]; omega)
        rw [hlen2] at i1 i2
        rw [i1]
        obtain ⟨t', k1, k2⟩ := wr_finish m dest o1 t (out ++ t2) amount l.length g4 (by omega) out t2 rfl
        refine ⟨t', _, rfl, ?_, ?_, ?_⟩
        · simp only [g1.1, k1]
        · simp only [g1.1, List.length_append]; omega
        · rw [g1.1]; exact k2
    · have j2 := aligned_raw hK src l .crlf (by simp) (fun h => hpos _ h (by omega)) (by omega)
      have j1 := rawOut_lost K.width src 0 l hw (by rw [Nat.add_zero]; omega) (by omega) (by omega)
      simp only [List.take_zero, List.drop_zero, nrun_nil, List.nil_append, Nat.sub_zero] at j1
      generalize rawOut (dLen .raw K.width l.length) .crlf l = out at *
      refine ⟨out, j1, ?_⟩
      · intro m dest hm hsafe
        rw [if_neg h1, if_neg h2]
        obtain ⟨t, st', i1, i2⟩ := j2 m dest hm hsafe
        exact ⟨t, _, i1, rfl, rfl, i2⟩

theorem decode_raw {σ : Type} {K : Kernel σ} {lax : Bool} {R : σ → Bool → Nat → Prop} (hK : K.Ok lax .raw R)
    (src : Nat) (l : List Byte) :
    ∃ out, (out = Spec.decode true l ∨ ([EQ, CR, LF] <:+ l ∧ out = (Spec.decode true l).dropLast)) ∧
      ∀ m dest, m.rdn src l.length = l → M.Safe dest src (src + l.length) →
        ∃ t r, decode K lax .raw m src dest l.length none = some r ∧ r.m = m.wr dest (out ++ t) ∧ r.dest = dest + out.length ∧
          (out ++ t).length ≤ l.length := by
  obtain ⟨out, h1, h2⟩ := decode_raw_exact hK src l
  refine ⟨out, ?_, h2⟩
  rw [h1, ← nrun_crlf_spec]
  split
  · rename_i h
    exact .inr (lost_tail h)
  · exact .inl rfl

/-! #### End detection -/

/-- The result is that of the automaton. -/
def EndOk (m : Mem) (src dest len : Nat) (st : State) (r : Option M.Res) : Prop :=
  ∃ t, r = some ⟨m.wr dest ((run st (m.rdn src len)).out ++ t), src + (len - (run st (m.rdn src len)).rest.length),
      dest + (run st (m.rdn src len)).out.length, (run st (m.rdn src len)).state, (run st (m.rdn src len)).ended⟩ ∧
    ((run st (m.rdn src len)).out ++ t).length ≤ len

theorem run_rest_length (st : State) (l : List Byte) : (run st l).rest.length ≤ l.length := by
  obtain ⟨q, hq⟩ := run_consumed st l
  conv_rhs => rw [hq]
  simp

theorem EndOk_scalar (m : Mem) (src dest len : Nat) (st : State) (hsafe : M.Safe dest src (src + len)) :
    EndOk m src dest len st (M.endRaw m src dest len st) := by
  obtain ⟨r, h1, h2, h3, h4, h5⟩ := M.endRaw_sim m src dest len st hsafe
  simp only [Mem.rd, Nat.add_sub_cancel_left] at h1 h2 h5
  have h6 : r = src + (len - (run st (m.rdn src len)).rest.length) := by rw [h2]; simp; omega
  refine ⟨[], ?_, by simp; omega⟩
  rw [← h6, List.append_nil]
  exact h1

theorem EndOk_finish (m : Mem) (src dest len : Nat) (st : State) (hsafe : M.Safe dest src (src + len)) :
    EndOk m src dest len st (finish .endRaw m src dest len st) := by
  unfold finish
  by_cases h : len ≠ 0
  · rw [if_pos h]; exact EndOk_scalar m src dest len st hsafe
  · rw [if_neg h]
    have h : len = 0 := by omega
    subst h
    exact ⟨[], by simp [Mem.rdn, run, Mem.wr], by simp [Mem.rdn, run]⟩

theorem EndOk_pre (m : Mem) (src dest len k : Nat) (st st2 : State) (a t : List Byte) (r : Option M.Res)
    (hsafe : M.Safe dest src (src + len)) (hk : k ≤ len) (hl : (a ++ t).length ≤ k)
    (hrun : run st (m.rdn src len) = (run st2 (m.rdn (src + k) (len - k))).pre a)
    (h : EndOk (m.wr dest (a ++ t)) (src + k) (dest + a.length) (len - k) st2 r) : EndOk m src dest len st r := by
  obtain ⟨t2, h1, h2⟩ := h
  rw [rdn_after m src dest len k _ hsafe hl] at h1 h2
  have h3 := run_rest_length st2 (m.rdn (src + k) (len - k))
  rw [Mem.rdn_length] at h3
  unfold EndOk
  rw [hrun]
  simp only [Res.pre]
  generalize run st2 (m.rdn (src + k) (len - k)) = q at *
  obtain ⟨t', i1, i2⟩ := wr_finish m dest a t (q.out ++ t2) k len hl (by omega) q.out t2 rfl
  refine ⟨t', ?_, i2⟩
  rw [h1, i1, List.length_append, Nat.add_assoc dest, show src + k + (len - k - q.rest.length) = src + (len - q.rest.length) by omega]

theorem EndOk_aligned {σ : Type} {K : Kernel σ} {lax : Bool} {R : σ → Bool → Nat → Prop} (hK : K.Ok lax .endRaw R)
    (m : Mem) (src dest len : Nat) (st : State) (hsafe : M.Safe dest src (src + len)) (hal : lax = true → src % 16 = 0) :
    EndOk m src dest len st (aligned K lax .endRaw m src dest len st) := by
  have hw := hK.width
  by_cases hlen : len > lenBuffer .endRaw K.width
  · have hlb : lenBuffer .endRaw K.width = K.width - 1 + 4 := rfl
    have hs := straddle_endRaw st m src (m.rdn (src + 4) (len - 4))
    rw [← rdn_cons4 m src len (by omega)] at hs
    cases hst : straddle .endRaw st (fun j => m (src + j)) with
    | ended n st' e =>
      rw [hst] at hs
      simp only at hs
      unfold aligned
      rw [if_pos hlen, hst]
      unfold EndOk
      rw [hs.2]
      refine ⟨[], ?_, by simp⟩
      simp only [List.append_nil, Mem.wr, List.length_drop, Mem.rdn_length, List.length_nil, Nat.add_zero]
      rw [show len - (len - n) = n by omega]
    | go nm =>
      rw [hst] at hs
      simp only at hs
      obtain ⟨hs1, hs2⟩ := hs
      rw [hs1] at hst
      obtain ⟨k, t, h1, -, h3, h4, h5⟩ := aligned_go hK m src dest len st hsafe hal hlen hst
      rw [h3]
      simp only [look, Mode.isRaw] at h1 h4 ⊢
      have hB := blockOut_length true (stream st m src) (st = .eq ∨ st = .crlfeq) k
      have hT : ∀ j, j < k + 4 → ¬ TermAt (stream st m src) j := by
        intro j hj
        by_cases hj4 : j < 4
        · exact hs2 j hj4
        · have := h5 rfl (j - 4) (by omega)
          rwa [show j - 4 + 4 = j by omega] at this
      obtain ⟨s, g1, g2, g3⟩ := run_blockOut st (stream st m src) (HistE_stream st m src) k (fun j hj => hT j (by omega))
      rw [show (4 : Nat) = 4 + 0 from rfl, rdn_stream, Nat.add_zero] at g3
      rw [g2]
      have hsh : ∀ j, TermAt (shift k (stream st m src)) j ↔ TermAt (stream st m src) (k + j) := by
        intro j; simp only [TermAt, shift, Nat.add_assoc]
      have hsa := run_stateAfter s _ g1 (fun j hj => by rw [hsh]; exact hT _ (by omega)) (m.rdn (src + k + 3) (len - k - 3))
      have e4 : ∀ j, shift k (stream st m src) (4 + j) = m (src + k + j) := by
        intro j
        simp only [shift, stream, if_neg (show ¬ k + (4 + j) < 4 by omega)]
        congr 1; omega
      rw [show (4 : Nat) = 4 + 0 from rfl, show (5 : Nat) = 4 + 1 from rfl, show (6 : Nat) = 4 + 2 from rfl, e4, e4, e4, Nat.add_zero,
        ← rdn_cons3 m _ _ (by omega)] at hsa
      have hsafe' : dest ≤ src ∨ src + len ≤ dest := hsafe
      refine EndOk_pre m src dest len k st _ _ t _ hsafe (by omega) h4 ?_ (EndOk_finish _ _ _ _ _ (by unfold M.Safe; omega))
      rw [hsa, ← g3, ← Mem.rdn_append, show k + (len - k) = len by omega]
  · unfold aligned
    rw [if_neg hlen]
    exact EndOk_finish m src dest len st hsafe

theorem EndOk_decode {σ : Type} {K : Kernel σ} {lax : Bool} {R : σ → Bool → Nat → Prop} (hK : K.Ok lax .endRaw R)
    (m : Mem) (src dest len : Nat) (st : State) (hsafe : M.Safe dest src (src + len)) :
    EndOk m src dest len st (decode K lax .endRaw m src dest len (some st)) := by
  have hw := hK.width
  have hpos : ∀ x, lax = true → x % K.width = 0 → x % 16 = 0 := by
    intro x h1 h2
    have : 16 ∣ x := Nat.dvd_trans (hK.dvd h1) (Nat.dvd_of_mod_eq_zero h2)
    omega
  unfold decode
  by_cases h1 : len ≤ K.width * 2
  · rw [if_pos h1]
    exact EndOk_scalar m src dest len st hsafe
  · rw [if_neg h1]
    by_cases h2 : src % K.width ≠ 0
    · rw [if_pos h2]
      simp only [Option.getD_some]
      have hmod := Nat.mod_lt src (show K.width > 0 by omega)
      generalize ha : K.width - src % K.width = amount
      have h3 : (src + amount) % K.width = 0 := by
        have := Nat.div_add_mod src K.width
        have h4 : src + amount = K.width * (src / K.width + 1) := by rw [Nat.mul_add]; omega
        rw [h4, Nat.mul_mod_right]
      have hsafe' : dest ≤ src ∨ src + len ≤ dest := hsafe
      obtain ⟨t, g1, g2⟩ := EndOk_scalar m src dest amount st (by unfold M.Safe; omega)
      simp only [scalar, Option.getD_some]
      rw [g1]
      have hrr := run_rest_length st (m.rdn src amount)
      rw [Mem.rdn_length] at hrr
      simp only
      by_cases he : (run st (m.rdn src amount)).ended = .none
      · rw [if_neg (not_not.2 he)]
        have hr := run_rest_of_not_ended _ _ he
        rw [hr, List.length_nil, Nat.sub_zero]
        have hol := g2
        rw [List.length_append] at hol
        refine EndOk_pre m src dest len amount st (run st (m.rdn src amount)).state _ t _ hsafe (by omega) g2 ?_
          (EndOk_aligned hK _ _ _ _ _ (by unfold M.Safe; omega) (fun h => hpos _ h h3))
        rw [← run_append _ _ _ he, ← Mem.rdn_append, show amount + (len - amount) = len by omega]
      · rw [if_pos he]
        have h4 := run_append_ended st (m.rdn src amount) (m.rdn (src + amount) (len - amount)) he
        rw [← Mem.rdn_append, show amount + (len - amount) = len by omega] at h4
        unfold EndOk
        rw [h4]
        simp only [List.length_append, Mem.rdn_length] at g2 ⊢
        refine ⟨t, ?_, by omega⟩
        rw [show len - ((run st (m.rdn src amount)).rest.length + (len - amount)) =
          amount - (run st (m.rdn src amount)).rest.length by omega]
    · rw [if_neg h2]
      exact EndOk_aligned hK m src dest len st hsafe (fun h => hpos _ h (by omega))

end Yenc.Dec.Simd
