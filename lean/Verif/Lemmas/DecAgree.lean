import Verif.Lemmas.DecSimd
import Verif.Lemmas.DecRound
/-! A kernel that does what another one does in rounds where no `=` is followed by something special, decodes such input in the same way. -/
namespace Yenc.Dec.Simd
open Yenc Yenc.Dec
open X86 (special)

/-- Nothing special follows an `=` in the next `n` bytes. `e` says whether the byte before them is an `=` that escapes. -/
def Calm (n : Nat) (B : Nat → Byte) (e : Bool) : Prop :=
  ∀ q, q < n → (if q = 0 then e = true else B (q + 3) = EQ) → special (B (q + 4)) = false

theorem Calm.shift {n : Nat} {B : Nat → Byte} {e : Bool} (h : Calm n B e) (he : e = true → B 3 = EQ) (d w : Nat) (hd : d + w ≤ n) :
    Calm w (Simd.shift d B) (escP B e d) := by
  intro q hq hp
  have := h (d + q) (by omega) ?_
  · simpa only [Simd.shift, Nat.add_assoc] using this
  · by_cases h0 : q = 0
    · subst h0
      rw [if_pos rfl] at hp
      by_cases hd0 : d = 0
      · subst hd0; simpa [escP] using hp
      · rw [if_neg (by omega)]; exact escP_prev B e he d hp
    · rw [if_neg h0] at hp
      rw [if_neg (by omega)]
      simpa only [Simd.shift, Nat.add_assoc] using hp

theorem Calm.congr {n : Nat} {B B' : Nat → Byte} {e : Bool} (h : Calm n B e) (hB : ∀ j, j < n + 4 → B' j = B j) : Calm n B' e := by
  intro q hq hp
  rw [hB _ (by omega)]
  apply h q hq
  by_cases h0 : q = 0
  · rw [if_pos h0] at hp ⊢; exact hp
  · rw [if_neg h0] at hp ⊢; rw [← hB _ (by omega)]; exact hp

theorem Calm.mono {n k : Nat} {B : Nat → Byte} {e : Bool} (h : Calm n B e) (hk : k ≤ n) : Calm k B e := fun q hq => h q (by omega)

/-- `K` does what `K'` does in calm rounds. -/
structure Kernel.Agree {σ : Type} (K K' : Kernel σ) (md : Mode) (R : σ → Bool → Nat → Prop) : Prop where
  width : K.width = K'.width
  init : K.init = K'.init
  esc : K.esc = K'.esc
  iter : ∀ (s : σ) (e : Bool) (B : Nat → Byte), R s e (pendOf md B) → (e = true → B 3 = EQ) → Calm K'.width B e →
    K.iter s (fun j => B (4 + j)) = K'.iter s fun j => B (4 + j)

theorem loop_agree {σ : Type} {K K' : Kernel σ} {lax : Bool} {md : Mode} {R : σ → Bool → Nat → Prop} (hK : K'.Ok lax md R) (hA : K.Agree K' md R)
    (B : Nat → Byte) (e : Bool) (he : e = true → B 3 = EQ) (m0 : Mem) (src dest len total : Nat)
    (hsafe : M.Safe dest src (src + len)) (hB : ∀ j, j < len → m0 (src + j) = B (4 + j))
    (htot : total * K'.width + look md ≤ len) (hcalm : Calm len B e) (lim dlim nm : Nat) :
    ∀ (rounds done : Nat) (out t : List Byte) (s : σ), rounds + done = total →
      (out ++ t).length ≤ done * K'.width → R s (escP B e (done * K'.width)) (pendOf md (shift (done * K'.width) B)) →
      loop K lim dlim nm rounds (m0.wr dest (out ++ t)) (src + done * K'.width) (dest + out.length) s =
        loop K' lim dlim nm rounds (m0.wr dest (out ++ t)) (src + done * K'.width) (dest + out.length) s := by
  intro rounds
  have hsafe' : dest ≤ src ∨ src + len ≤ dest := hsafe
  have hw := hK.width
  induction rounds with
  | zero =>
    intro done out t s hd hl hR
    simp only [loop, hA.esc]
  | succ rounds ih =>
    intro done out t s hd hl hR
    have hmul : (done + 1) * K'.width = done * K'.width + K'.width := Nat.succ_mul _ _
    have hle : (done + 1) * K'.width ≤ total * K'.width := Nat.mul_le_mul_right _ (by omega)
    obtain ⟨m, hm⟩ : ∃ m, m = m0.wr dest (out ++ t) := ⟨_, rfl⟩
    rw [← hm]
    let B' : Nat → Byte := fun j => if j < 4 then shift (done * K'.width) B j else m (src + done * K'.width + (j - 4))
    have hB' : ∀ j, j < K'.width + look md + 4 → B' j = shift (done * K'.width) B j := by
      intro j hj
      simp only [B']
      by_cases h4 : j < 4
      · rw [if_pos h4]
      · rw [if_neg h4]
        rw [hm, Mem.wr_out _ _ _ _ (by simp only [List.length_append] at hl ⊢; omega)]
        have := hB (done * K'.width + (j - 4)) (by omega)
        rw [← Nat.add_assoc] at this
        rw [this]
        simp only [shift]
        congr 1; omega
    have hb : (fun j => m (src + done * K'.width + j)) = fun j => B' (4 + j) := by
      funext j
      simp only [B', if_neg (show ¬ 4 + j < 4 by omega), Nat.add_sub_cancel_left]
    have hp0 : pendOf md B' = pendOf md (shift (done * K'.width) B) := pendOf_congr md (fun j hj => hB' j (by omega))
    have hp1 : pendOf md (shift K'.width B') = pendOf md (shift ((done + 1) * K'.width) B) := by
      rw [hmul, ← shift_shift]
      cases hmd : md.isRaw
      · simp [pendOf, setNextMask, hmd]
      · have : 2 ≤ look md := by revert hmd; cases md <;> simp [look, Mode.isRaw]
        exact pendOf_congr md (fun j hj => hB' (K'.width + j) (by omega))
    have he' : escP B e (done * K'.width) = true → B' 3 = EQ := by
      intro h
      rw [hB' 3 (by omega)]
      exact escP_prev B e he _ h
    have hes : escP B' (escP B e (done * K'.width)) K'.width = escP B e ((done + 1) * K'.width) := by
      rw [escP_congr _ _ (fun j hj => hB' j (by omega)), escP_shift, hmul]
    have hR' : R s (escP B e (done * K'.width)) (pendOf md B') := by rw [hp0]; exact hR
    have hit : K.iter s (fun j => m (src + done * K'.width + j)) = K'.iter s fun j => m (src + done * K'.width + j) := by
      rw [hb]
      exact hA.iter s _ B' hR' he' ((hcalm.shift he (done * K'.width) K'.width (by omega)).congr fun j hj => hB' j (by omega))
    have hiter := hK.iter s _ B' hR' he'
    rw [← hb, hes, hp1] at hiter
    rw [loop, loop, hit, hA.width, hA.esc]
    split
    · cases hround : (K'.iter s fun j => m (src + done * K'.width + j)).round with
      | brk nm => rfl
      | next stores adv s' =>
        rw [hround] at hiter
        simp only at hiter ⊢
        obtain ⟨g1, ⟨t', g2, g3⟩, g4, g5, g6⟩ := hiter
        split
        · rw [g3, g4]
          generalize blockOut md.isRaw B' (escP B e (done * K'.width)) K'.width = o2 at *
          have hwr : m.wr (dest + out.length) (o2 ++ t') = m0.wr dest ((out ++ o2) ++ (t' ++ t.drop (o2 ++ t').length)) := by
            rw [hm, Mem.wr_wr_drop]; simp only [List.append_assoc]
          rw [hwr, Nat.add_assoc src, ← hmul, Nat.add_assoc dest, ← List.length_append]
          refine ih (done + 1) (out ++ o2) _ s' (by omega) ?_ g5
          simp only [List.length_append, List.length_drop] at hl g2 ⊢
          omega
        · rfl
    · rfl

theorem kernel_agree {σ : Type} {K K' : Kernel σ} {lax : Bool} {md : Mode} {R : σ → Bool → Nat → Prop} (hK : K'.Ok lax md R) (hA : K.Agree K' md R)
    (m : Mem) (src dest len : Nat) (st : State) (hsafe : M.Safe dest src (src + len)) (hlen : len > lenBuffer md K'.width)
    (hcalm : Calm len (stream st m src) (st = .eq ∨ st = .crlfeq)) (lim dlim : Nat) :
    kernel K md lim dlim m src (dLen md K'.width len) dest (st = .eq ∨ st = .crlfeq) (pendOf md (stream st m src)) =
      kernel K' md lim dlim m src (dLen md K'.width len) dest (st = .eq ∨ st = .crlfeq) (pendOf md (stream st m src)) := by
  have hw := hK.width
  obtain ⟨hd1, hd2⟩ := dLen_le md K'.width len hw hlen
  have hdiv : dLen md K'.width len / K'.width * K'.width = dLen md K'.width len := by
    unfold dLen; rw [Nat.mul_div_cancel _ (by omega)]
  have hB : ∀ j, stream st m src (4 + j) = m (src + j) := by
    intro j; simp only [stream, if_neg (show ¬ 4 + j < 4 by omega), Nat.add_sub_cancel_left]
  have he : decide (st = .eq ∨ st = .crlfeq) = true → stream st m src 3 = EQ := by
    cases st <;> simp [stream, past]
  unfold kernel
  split
  · rfl
  · rw [hA.width, hA.init]
    have := loop_agree hK hA (stream st m src) (st = .eq ∨ st = .crlfeq) he m src dest len (dLen md K'.width len / K'.width) hsafe (fun j _ => (hB j).symm)
      (by rw [hdiv]; exact hd1) hcalm lim dlim (setNextMask md.isRaw fun k => m (src + dLen md K'.width len - 2 + k)) (dLen md K'.width len / K'.width) 0 [] []
      (K'.init (st = .eq ∨ st = .crlfeq) (pendOf md (stream st m src))) (by omega) (by simp) (by
        rw [Nat.zero_mul, shift_zero]
        exact hK.init (stream st m src) _ he)
    simpa only [Nat.zero_mul, Nat.add_zero, List.length_nil, List.append_nil, Mem.wr] using this

theorem aligned_agree {σ : Type} {K K' : Kernel σ} {lax : Bool} {md : Mode} {R : σ → Bool → Nat → Prop} (hK : K'.Ok lax md R) (hA : K.Agree K' md R)
    (m : Mem) (src dest len : Nat) (st : State) (hsafe : M.Safe dest src (src + len)) (hst : md = .endRaw ∨ st = .crlf ∨ st = .eq ∨ st = .cr ∨ st = .none)
    (hcalm : Calm len (stream st m src) (st = .eq ∨ st = .crlfeq)) : aligned K lax md m src dest len st = aligned K' lax md m src dest len st := by
  unfold aligned
  rw [hA.width]
  split
  · rename_i hlen
    cases hs : straddle md st (fun j => m (src + j)) with
    | ended n st' e => rfl
    | go nm =>
      have hnm : nm = pendOf md (stream st m src) := by
        by_cases hmd : md = .endRaw
        · subst hmd
          have := straddle_endRaw st m src []
          rw [hs] at this
          exact this.1
        · have := straddle_go md (by cases md <;> simp_all [Mode.searchEnd]) st (hst.resolve_left hmd) m src
          rw [hs] at this
          exact (Straddle.go.injEq _ _ ▸ this)
      subst hnm
      simp only
      have := kernel_agree hK hA m src dest len st hsafe hlen hcalm (readLimit lax (src + len)) (dest + len)
      unfold dLen at this
      rw [this]
  · rfl

/-! ### The scalar code before -/

theorem loopPlain_suffix (l out : List Byte) : (loopPlain l out).1 <:+ l := by
  fun_induction loopPlain l out with
  | case1 a b r out h ih => exact ih.trans (List.suffix_cons _ _)
  | case2 b r out h1 ih => exact ih.trans ((List.suffix_cons _ _).trans (List.suffix_cons _ _))
  | case3 a b r out h1 h2 ih => exact ih.trans (List.suffix_cons _ _)
  | case4 l out h => exact List.suffix_refl _

theorem noendPlain_last (st : State) (l : List Byte) (h : (noendPlain (some st) l).2 = some .eq) (hl : l ≠ []) : ∃ l', l = l' ++ [EQ] := by
  rcases l with _ | ⟨c, cs⟩
  · exact absurd rfl hl
  simp only [noendPlain] at h
  generalize hs : (if some st = some .eq then (cs, [c - 42#8 - 64#8]) else (c :: cs, [])) = s at h
  have h1 := loopPlain_suffix s.1 s.2
  have h2 : s.1 <:+ c :: cs := by
    rw [← hs]; split
    · exact List.suffix_cons _ _
    · exact List.suffix_refl _
  have h3 := h1.trans h2
  generalize loopPlain s.1 s.2 = r at *
  split at h
  · rename_i a ha
    split at h
    · simp at h
    · simp only [Option.map_some, Option.some.injEq] at h
      split at h
      · rename_i hc
        rw [ha, hc] at h3
        obtain ⟨l', hl'⟩ := h3
        exact ⟨l', hl'.symm⟩
      · simp at h
  · simp at h

theorem run_last (st : State) (l : List Byte) (hl : l ≠ []) (he : (run st l).ended = .none) (h : (run st l).state = .eq ∨ (run st l).state = .crlfeq) :
    ∃ l', l = l' ++ [EQ] := by
  obtain ⟨l', c, rfl⟩ : ∃ q' c, l = q' ++ [c] := ⟨_, _, (List.dropLast_concat_getLast hl).symm⟩
  refine ⟨l', ?_⟩
  have he' : (run st l').ended = .none := by
    by_contra h'
    rw [run_append_ended _ _ _ h'] at he
    exact h' he
  rw [run_append _ _ _ he'] at h
  have : ∀ s : State, ((run s [c]).state = .eq ∨ (run s [c]).state = .crlfeq) → c = EQ := by
    intro s hs
    by_contra hne
    revert hs
    simp only [run]
    cases s <;> simp only [step, stepNone, stepEq] <;> (repeat' split) <;> simp_all
  rw [this _ h]

theorem rdn_last (m : Mem) (src n : Nat) (l' : List Byte) (x : Byte) (hn : 0 < n) (h : m.rdn src n = l' ++ [x]) : m (src + n - 1) = x := by
  obtain ⟨k, rfl⟩ : ∃ k, n = k + 1 := ⟨n - 1, by omega⟩
  rw [Mem.rdn_append] at h
  have := (List.append_inj' h (by simp [Mem.rdn])).2
  simpa [Mem.rdn] using this

/-- What is known after some bytes have been decoded by the scalar code. -/
theorem scalar_after (md : Mode) (m : Mem) (src dest n : Nat) (st : State) (hst : md = .endRaw ∨ st = .crlf) (hn : 0 < n) (hsafe : M.Safe dest src (src + n)) (r : M.Res)
    (h : scalar md m src dest n (some st) = some r) (hr : r.ended = .none) :
    r.src = src + n ∧ dest ≤ r.dest ∧ r.dest ≤ dest + n ∧ (∃ o, r.m = m.wr dest o ∧ o.length ≤ n) ∧ (md = .endRaw ∨ r.state = .crlf ∨ r.state = .eq ∨ r.state = .cr ∨ r.state = .none) ∧
      (r.state = .eq ∨ r.state = .crlfeq → m (src + n - 1) = EQ) := by
  have hne : m.rdn src n ≠ [] := fun h => by have := congrArg List.length h; simp at this; omega
  cases md with
  | plain =>
    obtain ⟨out, st', g1, g2, g3⟩ := M.noendPlain_sim m src dest n (some st) hsafe
    simp only [Mem.rd, Nat.add_sub_cancel_left] at g1
    obtain ⟨st2, k1, k2, -⟩ := noendPlain_state st (m.rdn src n) hne
    simp only [scalar, g2, Option.some.injEq] at h
    rw [g1] at k1
    simp only at k1
    subst k1 h
    refine ⟨rfl, by simp, by simpa using g3, ⟨out, rfl, g3⟩, .inr ?_, ?_⟩
    · rcases k2 with rfl | rfl <;> simp
    · intro h
      simp only [Option.getD_some] at h
      rcases k2 with rfl | rfl
      · obtain ⟨l', hl'⟩ := noendPlain_last st _ (by rw [g1]) hne
        exact rdn_last m src n l' EQ hn hl'
      · simp at h
  | raw =>
    have hst := hst.resolve_left (by simp)
    subst hst
    obtain ⟨out, st', o, g1, g2, ⟨t, g3⟩, g4⟩ := M.noendRaw_sim m src dest n (some .crlf) hsafe
    simp only [Mem.rd, Nat.add_sub_cancel_left] at g1
    rw [noendRaw_state .crlf _ (by rintro ⟨h, _⟩; simp at h) (by simp)] at g1
    simp only [Option.some.injEq, Prod.mk.injEq] at g1
    simp only [scalar, g2, Option.map_some, Option.some.injEq] at h
    subst h
    have hm4 : ∀ (s : State) (a : List Byte), (s = .crlf ∨ s = .eq ∨ s = .cr ∨ s = .none) →
        ((nrun s a).2 = .crlf ∨ (nrun s a).2 = .eq ∨ (nrun s a).2 = .cr ∨ (nrun s a).2 = .none) := by
      intro s a
      induction a generalizing s with
      | nil => exact id
      | cons c cs ih =>
        intro hs
        rw [nrun]
        refine ih _ ?_
        cases s <;> simp only [nstep, stepNone, stepEq] <;> (repeat' split) <;> simp
    have h4 := hm4 .crlf (m.rdn src n) (by simp)
    rw [← g1.2]
    simp only [Option.getD_some]
    refine ⟨trivial, by simp, ?_, ⟨o, rfl, g4⟩, .inr h4, ?_⟩
    · rw [← g3, List.length_append] at g4; omega
    · intro h
      have h : (nrun .crlf (m.rdn src n)).2 = .eq := h.resolve_right (by rintro h'; rw [h'] at h4; simp at h4)
      obtain ⟨l', hl'⟩ := nrun_last_eq .crlf _ hne h
      exact rdn_last m src n l' EQ hn hl'
  | endRaw =>
    obtain ⟨t, g1, g2⟩ := EndOk_scalar m src dest n st hsafe
    simp only [scalar, Option.getD_some] at h
    rw [g1] at h
    simp only [Option.some.injEq] at h
    subst h
    simp only at hr ⊢
    rw [run_rest_of_not_ended _ _ hr]
    refine ⟨by simp, by omega, ?_, ⟨_, rfl, g2⟩, .inl trivial, ?_⟩
    · rw [List.length_append] at g2; omega
    · intro h
      obtain ⟨l', hl'⟩ := run_last st _ hne hr h
      exact rdn_last m src n l' EQ hn hl'

theorem decode_agree {σ : Type} {K K' : Kernel σ} {lax : Bool} {md : Mode} {R : σ → Bool → Nat → Prop} (hK : K'.Ok lax md R) (hA : K.Agree K' md R)
    (m : Mem) (src dest len : Nat) (st : Option State) (hsafe : M.Safe dest src (src + len)) (hst : md = .endRaw ∨ st = none)
    (hcalm : Calm len (stream (st.getD .crlf) m src) (st = some .eq ∨ st = some .crlfeq)) : decode K lax md m src dest len st = decode K' lax md m src dest len st := by
  have hw := hK.width
  have hsafe' : dest ≤ src ∨ src + len ≤ dest := hsafe
  have hst' : md = .endRaw ∨ st.getD .crlf = .crlf := hst.imp id (by rintro rfl; rfl)
  have hdec : decide (st = some .eq ∨ st = some .crlfeq) = decide (st.getD .crlf = .eq ∨ st.getD .crlf = .crlfeq) := by
    cases st <;> simp
  rw [hdec] at hcalm
  unfold decode
  rw [hA.width]
  split
  · rfl
  rename_i hlen
  split
  · rename_i hal
    simp only
    have hmod := Nat.mod_lt src (show K'.width > 0 by omega)
    generalize ha : K'.width - src % K'.width = amount
    have ha0 : 0 < amount := by omega
    have hal : amount ≤ len := by omega
    cases hsc : scalar md m src dest amount (some (st.getD .crlf)) with
    | none => rfl
    | some r =>
      simp only
      split
      · rfl
      · rename_i hr
        obtain ⟨h1, h2, h3, ⟨o, h4, h5⟩, h6, h7⟩ := scalar_after md m src dest amount _ hst' ha0 (by unfold M.Safe; omega) r hsc (Decidable.not_not.1 hr)
        refine aligned_agree hK hA r.m r.src r.dest (len - amount) r.state ?_ h6 ?_
        · rw [h1]; unfold M.Safe; omega
        · intro q hq hp
          have hmem : ∀ j, j < len - amount → r.m (r.src + j) = m (src + amount + j) := by
            intro j hj
            rw [h1, h4, Mem.wr_out _ _ _ _ (by omega)]
          have hs4 : ∀ s (m : Mem) src j, stream s m src (j + 4) = m (src + j) := by
            intro s m src j; simp only [stream, if_neg (show ¬ j + 4 < 4 by omega), Nat.add_sub_cancel]
          have := hcalm (amount + q) (by omega) ?_
          · rw [hs4] at this
            rw [hs4, hmem q hq, Nat.add_assoc]; exact this
          · rw [if_neg (by omega)]
            rw [show amount + q + 3 = (amount + q - 1) + 4 by omega, hs4]
            by_cases h0 : q = 0
            · subst h0
              rw [if_pos rfl, decide_eq_true_eq] at hp
              rw [Nat.add_zero, ← Nat.add_sub_assoc (by omega)]
              exact h7 hp
            · rw [if_neg h0, show q + 3 = (q - 1) + 4 by omega, hs4, hmem _ (by omega)] at hp
              rw [← hp]; congr 1; omega
  · exact aligned_agree hK hA m src dest len _ hsafe (hst'.imp id .inl) hcalm

end Yenc.Dec.Simd
