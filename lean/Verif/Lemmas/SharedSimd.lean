import Verif.Model.SharedDec
import Verif.Lemmas.SharedDec
import Verif.Lemmas.DecX86Round
import Verif.Lemmas.DecNeonRound
import Verif.Lemmas.DecFits
/-! The vectorised decoders over memory that changes. -/
namespace Yenc.Shared
open Yenc

theorem Prog.Post.le {α : Type} {n n' : Nat} (hn : n ≤ n') {Q : List (Nat × Byte) → α → Prop} {p : Prog α} {s : List (Nat × Byte)}
    (h : p.Post n Q s) : p.Post n' Q s := by
  induction p generalizing s with
  | ret a => exact h
  | ub => exact h
  | rd i k ih => exact ⟨Nat.lt_of_lt_of_le h.1 hn, fun b => ih b (h.2 b)⟩

namespace Simd
open Yenc.Dec Yenc.Dec.Simd

/-! ### Rounds -/

/-- A round that stays within bounds. -/
structure Within (w L : Nat) (r : Iter Bool) : Prop where
  reach : r.reach ≤ w + L
  stores : ∀ stores adv e, r.round = .next stores adv e → (∀ st ∈ stores, st.1 + st.2.length ≤ w) ∧ adv ≤ w

theorem keep_le (rm : Nat → Bool) (d : Nat → Byte) (n : Nat) : (keep rm d n).length ≤ n := by rw [keep_length]; omega

theorem X86.torn_within (c : X86.Cfg) (md : Mode) (r : Iter Bool) (h : X86.Torn c md r) : Within (2 * c.n) (look md) r := by
  cases h with
  | brk reach nm h hr hn => exact ⟨by cases md <;> simp_all [look, Mode.searchEnd], by simp⟩
  | plain dA dB esc =>
    refine ⟨by simp, ?_⟩
    rintro _ _ _ ⟨⟩
    refine ⟨?_, Nat.le_refl _⟩
    intro st hst
    simp only [List.mem_cons, List.not_mem_nil, or_false] at hst
    rcases hst with rfl | rfl <;> simp [Vec.toList] <;> omega
  | pack reach hr mask dA dB esc =>
    refine ⟨by cases md <;> simp_all [look, Mode.searchEnd, Mode.isRaw], ?_⟩
    rintro _ _ _ ⟨⟩
    obtain ⟨h1, _, h3⟩ := X86.compact_puts c mask dA dB
    exact ⟨h1, by rw [h3]; exact keep_le _ _ _⟩

theorem Neon.torn_within (a64 : Bool) (md : Mode) (r : Iter Bool) (h : Neon.Torn a64 md r) :
    Within (Neon.wid a64) (if md = .endRaw then 16 else look md) r := by
  cases h with
  | brk reach nm h hr hn => exact ⟨by cases md <;> simp_all [look, Mode.searchEnd], by simp⟩
  | plain d esc =>
    refine ⟨by simp, ?_⟩
    rintro _ _ _ ⟨⟩
    refine ⟨?_, Nat.le_refl _⟩
    intro st hst
    simp only [List.mem_map, List.mem_range] at hst
    obtain ⟨h, h1, rfl⟩ := hst
    simp [Vec.toList, Neon.wid]; omega
  | pack reach hr mask pk d esc =>
    refine ⟨by cases md <;> simp_all [look, Mode.searchEnd, Mode.isRaw], ?_⟩
    rintro _ _ _ ⟨⟩
    have hpk : Neon.PackOk a64 pk (Vec.lane (Neon.wid a64) pk).getLsbD := by
      have h : Neon.PackOk a64 pk (fun q => (pk (q / 8)).getLsbD (q % 8)) := by
        intro q hq i hi
        simp only
        rw [show (8 * q + i) / 8 = q by omega, show (8 * q + i) % 8 = i by omega]
      intro q hq i hi
      rw [h.get _ (by unfold Neon.wid; omega)]
      exact h q hq i hi
    obtain ⟨h1, _, h3⟩ := Neon.compact_puts a64 (Vec.lane (Neon.wid a64) pk) pk hpk d
    have h4 : (Neon.compact a64 mask pk d).2 = (Neon.compact a64 (Vec.lane (Neon.wid a64) pk) pk d).2 := by
      unfold Neon.compact; split <;> rfl
    have h5 : (Neon.compact a64 mask pk d).1.map (fun st => (st.1, st.2.length)) = (Neon.compact a64 (Vec.lane (Neon.wid a64) pk) pk d).1.map (fun st => (st.1, st.2.length)) := by
      unfold Neon.compact; split <;> simp [Vec.toList]
    refine ⟨fun st hst => ?_, by rw [h4, h3]; exact keep_le _ _ _⟩
    have h6 : (st.1, st.2.length) ∈ (Neon.compact a64 mask pk d).1.map (fun st => (st.1, st.2.length)) := List.mem_map.mpr ⟨st, hst, rfl⟩
    rw [h5, List.mem_map] at h6
    obtain ⟨st', h7, h8⟩ := h6
    have := h1 st' h7
    simp only [Prod.mk.injEq] at h8
    rw [← h8.1, ← h8.2]; exact this

theorem Rvv.torn_within (vl : Nat) (md : Mode) (r : Iter Bool) (h : Rvv.Torn vl md r) : Within vl (look md) r := by
  cases h with
  | brk reach nm h hr hn => exact ⟨by cases md <;> simp_all [look, Mode.searchEnd], by simp⟩
  | plain c d esc =>
    refine ⟨by simp, ?_⟩
    rintro _ _ _ ⟨⟩
    exact ⟨by simp [Vec.toList], Dec.Simd.Rvv.cpop_le _ _⟩
  | pack reach hr c d tail esc =>
    refine ⟨by cases md <;> simp_all [look, Mode.searchEnd, Mode.isRaw], ?_⟩
    rintro _ _ _ ⟨⟩
    exact ⟨by simp [Vec.toList], Dec.Simd.Rvv.cpop_le _ _⟩

/-- How far past its bytes a round may look, when `lax` says that it may for `decodeChunk`. -/
def ahead (lax : Bool) (md : Mode) : Nat := if lax = true ∧ md = .endRaw then 16 else look md

theorem IsTorn.within {w : Nat} {lax : Bool} {T : Mode → Iter Bool → Prop} (h : IsTorn w lax T) :
    4 ≤ w ∧ (lax = true → 16 ∣ w) ∧ ∀ md r, T md r → Within w (ahead lax md) r := by
  cases h with
  | x86 c hv => exact ⟨by have := X86.n_cases c; omega, by simp, fun md r h => by simpa [ahead] using X86.torn_within c md r h⟩
  | neon a64 =>
    refine ⟨by rcases Neon.nreg_cases a64 with h | h <;> omega, fun _ => ⟨Neon.nreg a64, rfl⟩, fun md r h => ?_⟩
    have := Neon.torn_within a64 md r h
    simpa [ahead] using this
  | rvv _ hv => exact ⟨by omega, by simp, fun md r h => by simpa [ahead] using Rvv.torn_within _ md r h⟩

theorem loop_within {w L : Nat} {rs : Nat → Iter Bool} (hr : ∀ t, Within w L (rs t)) (lim dlim nm : Nat) (rounds : Nat) :
    ∀ (t : Nat) (m : Mem) (i p : Nat) (e : Bool), p ≤ i → i + rounds * w + L ≤ lim → i + rounds * w ≤ dlim →
      ∃ r, loop w rs lim dlim nm rounds t m i p e = some r ∧ r.p ≤ r.i ∧ i ≤ r.i ∧ r.i ≤ i + rounds * w := by
  induction rounds with
  | zero => intro t m i p e h1 _ _; exact ⟨_, rfl, h1, Nat.le_refl _, by simp⟩
  | succ rounds ih =>
    intro t m i p e h1 h2 h3
    have hmul : (rounds + 1) * w = rounds * w + w := Nat.succ_mul _ _
    rw [loop]
    have hreach := (hr t).reach
    rw [if_pos (by omega)]
    cases hrd : (rs t).round with
    | brk nm' => exact ⟨_, rfl, h1, Nat.le_refl _, by simp⟩
    | next stores adv e' =>
      obtain ⟨g1, g2⟩ := (hr t).stores _ _ _ hrd
      simp only
      rw [if_pos (by
        rw [List.all_eq_true]
        intro st hst
        have := g1 st hst
        rw [decide_eq_true_eq]
        omega)]
      obtain ⟨r, k1, k2, k3, k4⟩ := ih (t + 1) (applyStores m p stores) (i + w) (p + adv) e' (by omega) (by omega) (by omega)
      exact ⟨r, k1, k2, by omega, by omega⟩

/-! ### The scalar parts -/

theorem noendPlain_post (st : Option State) (i e : Nat) (out : List Byte) (s : List (Nat × Byte)) (hi : i ≤ e) (ho : out.length ≤ i) :
    (noendPlain st i e out).Post e (Fine e) s := by
  have hl : ∀ f i out s, e < f + i → i ≤ e → out.length ≤ i → (loopPlain e f i out).Post e (fun _ x => x.1 ≤ e ∧ x.2.length ≤ x.1) s := by
    intro f
    induction f with
    | zero => intro i out s h1 h2; omega
    | succ f ih =>
      intro i out s h1 h2 h3
      rw [loopPlain]
      split
      · refine ⟨by omega, fun c => ?_⟩
        simp only
        split
        · exact ih _ _ _ (by omega) (by omega) (by omega)
        · split
          · exact ⟨by omega, fun d => ih _ _ _ (by omega) (by omega) (by simp; omega)⟩
          · exact ih _ _ _ (by omega) (by omega) (by simp; omega)
      · exact ⟨h2, h3⟩
  unfold noendPlain
  split
  · rename_i h; exact ⟨by simp, by simp only; omega, rfl⟩
  · rename_i h
    apply Prog.Post.bind
    refine Prog.Post.mono (Q := fun _ x => x.1 ≤ e ∧ x.2.length ≤ x.1) ?_ ?_
    · split
      · exact ⟨by omega, fun c => hl _ _ _ _ (by omega) (by omega) (by simp; omega)⟩
      · exact hl _ _ _ _ (by omega) (by omega) ho
    · rintro s ⟨j, out⟩ - ⟨h1, h2⟩
      simp only at h1 h2 ⊢
      split
      · refine ⟨by omega, fun c => ?_⟩
        simp only
        split
        · exact ⟨by simp, by simp; omega, rfl⟩
        · exact ⟨by simp, by simp only; omega, rfl⟩
      · exact ⟨by simp, by simp only; omega, rfl⟩

theorem preCrlf_post (i e : Nat) (out : List Byte) (s : List (Nat × Byte)) (hi : i < e) (ho : out.length ≤ i) :
    (preCrlf i out).Post e (FineStep e) s := ⟨hi, fun c => ⟨by split <;> omega, by split <;> omega⟩⟩

theorem preCr_post (i e : Nat) (out0 out : List Byte) (s : List (Nat × Byte)) (hi : i < e) (ho : out.length ≤ i) (ho0 : out0.length ≤ i) :
    (preCr i e out0 out).Post e (FineStep e) s := by
  refine ⟨hi, fun c => ?_⟩
  simp only
  split
  · exact ⟨by omega, by omega⟩
  · split
    · exact ⟨by simp, by simp only; omega, rfl⟩
    · exact preCrlf_post _ _ _ _ (by omega) (by omega)

theorem noendRaw_post (st : Option State) (dlim i e : Nat) (out : List Byte) (s : List (Nat × Byte)) (hi : i ≤ e) (he : e ≤ dlim) (ho : out.length ≤ i) :
    (noendRaw st dlim i e out).Post e (Fine e) s := by
  unfold noendRaw
  split
  · rename_i h; exact ⟨by simp, by simp only; omega, rfl⟩
  · rename_i h
    apply Prog.Post.bind
    refine Prog.Post.mono (Q := FineStep e) ?_ ?_
    · unfold preRaw
      split
      · refine ⟨by omega, fun c => ?_⟩
        simp only
        rw [if_neg (by omega)]
        split
        · split
          · exact ⟨by simp, by simp only; omega, rfl⟩
          · exact preCr_post _ _ _ _ _ (by omega) (by simp; omega) (by omega)
        · exact ⟨by omega, by simp; omega⟩
      · exact preCr_post _ _ _ _ _ (by omega) (by omega) (by omega)
      · exact preCrlf_post _ _ _ _ (by omega) (by omega)
      · exact ⟨by omega, by omega⟩
      · exact preCrlf_post _ _ _ _ (by omega) (by omega)
    · intro s x _ hx
      cases x with
      | ret r => exact hx
      | go i out =>
        simp only
        apply Prog.Post.bind
        refine (loopRaw_post e (e + 1) i out s (by have := hx.1; omega) hx.1 hx.2).mono ?_
        rintro s ⟨i, out⟩ - ⟨e1, e2⟩
        simp only
        apply Prog.Post.bind
        exact (last2_post _ e i out s e1 e2).mono fun s' x _ h => ⟨by simp, h, rfl⟩

theorem endRaw_post (st : State) (i e : Nat) (out : List Byte) (s : List (Nat × Byte)) (hi : i ≤ e) (ho : out.length ≤ i) :
    (endRaw st i e out).Post e (Fine e) s := by
  unfold endRaw
  split
  · exact ⟨by simp, by simp only; omega, rfl⟩
  · apply Prog.Post.bind
    refine (preEnd_post e (e + e + 2) st i out s (by omega) ho (by split <;> omega)).mono ?_
    intro s x _ hx
    cases x with
    | ret r => exact hx
    | go i out =>
      simp only
      apply Prog.Post.bind
      refine (loopEnd_post e (e + 1) i out s (by have := hx.1; omega) hx.1 hx.2).mono ?_
      intro s x _ hx
      cases x with
      | ret r => exact hx
      | go i out =>
        simp only
        apply Prog.Post.bind
        exact (last2_post true e i out s hx.1 hx.2).mono fun s' x _ h => ⟨by simp, h, rfl⟩

theorem scalar_post (md : Mode) (st : Option State) (dlim i e : Nat) (out : List Byte) (s : List (Nat × Byte)) (hi : i ≤ e) (he : e ≤ dlim) (ho : out.length ≤ i) :
    (scalar md st dlim i e out).Post e (Fine e) s := by
  cases md with
  | plain => exact noendPlain_post _ _ _ _ _ hi ho
  | raw => exact noendRaw_post _ _ _ _ _ _ hi he ho
  | endRaw => exact endRaw_post _ _ _ _ _ hi ho

/-! ### The frame -/

theorem finish_post (md : Mode) (n i : Nat) (out : List Byte) (st : State) (s : List (Nat × Byte)) (hi : i ≤ n) (ho : out.length ≤ i) :
    (finish md n i n out st).Post n (Fine n) s := by
  unfold finish
  split
  · exact scalar_post _ _ _ _ _ _ _ hi (Nat.le_refl _) ho
  · exact ⟨hi, ho, by simp only; omega⟩

/-- What the `switch` may report. -/
def FineStraddle (n : Nat) (s : List (Nat × Byte)) : Straddle → Prop
  | .ended r => Fine n s r
  | .go _ => True

theorem rds2_post {α : Type} {n : Nat} {Q : List (Nat × Byte) → α → Prop} (i : Nat) (k : List Byte → Prog α) (s : List (Nat × Byte))
    (hn : i + 2 ≤ n) (h : ∀ a b s', s ⊆ s' → (i, a) ∈ s' → (i + 1, b) ∈ s' → (k [a, b]).Post n Q s') : (rds i 2 k).Post n Q s := by
  refine ⟨by omega, fun a => ⟨by omega, fun b => ?_⟩⟩
  exact h a b _ (fun x hx => List.mem_cons_of_mem _ (List.mem_cons_of_mem _ hx)) (List.mem_cons_of_mem _ List.mem_cons_self) List.mem_cons_self

theorem straddle_post (md : Mode) (st : State) (n i : Nat) (out : List Byte) (s : List (Nat × Byte)) (hi : i + 4 ≤ n) (ho : out.length ≤ i) :
    (straddle md st i out).Post n (FineStraddle n) s := by
  have hboth : ∀ o nm s, o ≤ 2 → (if md.searchEnd = true then
      rds (i + o) 2 fun bs => if bs = [CR, LF] then (.ret (.ended ⟨i + (o + 2), out, .crlf, .article⟩) : Prog Straddle) else
        rds (i + o) 2 fun bs => if bs = [EQ, LY] then .ret (.ended ⟨i + (o + 2), out, .none, .control⟩) else .ret (.go nm)
    else .ret (.go nm)).Post n (FineStraddle n) s := by
    intro o nm s hoo
    split
    · refine rds2_post _ _ _ (by omega) fun a b s' _ ha hb => ?_
      split
      · rename_i h
        simp only [List.cons.injEq, and_true] at h
        obtain ⟨rfl, rfl⟩ := h
        exact ⟨by simp only; omega, by simp only; omega, rfl, by simp only; omega, by simpa [← Nat.add_assoc] using hb⟩
      · refine rds2_post _ _ _ (by omega) fun a b s' _ ha hb => ?_
        split
        · rename_i h
          simp only [List.cons.injEq, and_true] at h
          obtain ⟨rfl, rfl⟩ := h
          exact ⟨by simp only; omega, by simp only; omega, rfl, by simp only; omega, by simpa [← Nat.add_assoc] using hb⟩
        · trivial
    · trivial
  unfold straddle
  cases st with
  | crlf =>
    have heqy : ∀ s, (if md.searchEnd = true then rds i 2 fun bs => if bs = [EQ, LY] then (.ret (.ended ⟨i + 2, out, .none, .control⟩) : Prog Straddle) else .ret (.go 0)
        else .ret (.go 0)).Post n (FineStraddle n) s := by
      intro s
      split
      · refine rds2_post _ _ _ (by omega) fun a b s' _ ha hb => ?_
        split
        · rename_i h
          simp only [List.cons.injEq, and_true] at h
          obtain ⟨rfl, rfl⟩ := h
          exact ⟨by simp only; omega, by simp only; omega, rfl, by simp only; omega, by simpa using hb⟩
        · trivial
      · trivial
    simp only
    split
    · refine ⟨by omega, fun c => ?_⟩
      simp only
      split
      · exact hboth 1 1 _ (by omega)
      · exact heqy _
    · exact heqy _
  | cr =>
    have heqy : ∀ s, (if md.searchEnd = true then rds i 4 fun bs => if bs.take 3 = [LF, EQ, LY] then (.ret (.ended ⟨i + 3, out, .none, .control⟩) : Prog Straddle) else .ret (.go 0)
        else .ret (.go 0)).Post n (FineStraddle n) s := by
      intro s
      split
      · refine ⟨by omega, fun a => ⟨by omega, fun b => ⟨by omega, fun c => ⟨by omega, fun d => ?_⟩⟩⟩⟩
        simp only [rds]
        split
        · rename_i h
          simp only [List.take_succ_cons, List.take_zero, List.cons.injEq, and_true] at h
          obtain ⟨rfl, rfl, rfl⟩ := h
          exact ⟨by simp only; omega, by simp only; omega, rfl, by simp only; omega, by simp⟩
        · trivial
      · trivial
    simp only
    split
    · refine rds2_post _ _ _ (by omega) fun a b s' _ ha hb => ?_
      split
      · exact hboth 2 2 _ (by omega)
      · exact heqy _
    · exact heqy _
  | crlfdt =>
    simp only
    split
    · have := hboth 0 0 s (by omega); exact this
    · trivial
  | crlfdtcr =>
    simp only
    split
    · refine ⟨by omega, fun c => ?_⟩
      simp only
      split
      · rename_i h; exact ⟨by simp only; omega, by simp only; omega, rfl, by simp, by simp [h]⟩
      · trivial
    · trivial
  | crlfeq =>
    simp only
    split
    · refine ⟨by omega, fun c => ?_⟩
      simp only
      split
      · rename_i h; exact ⟨by simp only; omega, by simp only; omega, rfl, by simp, by simp [h]⟩
      · trivial
    · trivial
  | eq => trivial
  | none => trivial

theorem nextMask_post (md : Mode) (n i : Nat) (s : List (Nat × Byte)) (h2 : 2 ≤ i) (hi : i + look md ≤ n) : (nextMask md i).Post n (fun _ _ => True) s := by
  unfold nextMask
  simp only
  by_cases h : md.isRaw = true
  · have hl : 2 ≤ look md := by cases md <;> simp_all [look, Mode.isRaw]
    rw [if_pos h]
    have htwo : ∀ s, (Prog.rd (i - 1) fun b => if b = CR then .rd i fun c => if c = LF then .rd (i + 1) fun d => (.ret (if d = DOT then 2 else 0) : Prog Nat) else .ret 0 else .ret 0).Post n
        (fun _ _ => True) s := by
      intro s
      refine ⟨by omega, fun b => ?_⟩
      simp only
      split
      · refine ⟨by omega, fun c => ?_⟩
        simp only
        split
        · exact ⟨by omega, fun d => trivial⟩
        · trivial
      · trivial
    refine ⟨by omega, fun a => ?_⟩
    simp only
    split
    · refine ⟨by omega, fun b => ?_⟩
      simp only
      split
      · refine ⟨by omega, fun c => ?_⟩
        simp only
        split
        · trivial
        · exact htwo _
      · exact htwo _
    · exact htwo _
  · rw [if_neg h]; trivial

theorem aligned_post {w : Nat} {lax : Bool} {rs : Nat → Iter Bool} {md : Mode} (hw : 4 ≤ w) (hl : lax = true → 16 ∣ w) (hr : ∀ t, Within w (ahead lax md) (rs t))
    (addr n i : Nat) (out : List Byte) (st : State) (s : List (Nat × Byte)) (hi : i ≤ n) (ho : out.length ≤ i) (ha : (addr + i) % w = 0) :
    (aligned w lax rs md addr n i out st).Post n (Fine n) s := by
  unfold aligned
  split
  · rename_i hlen
    obtain ⟨hd1, hd2⟩ := dLen_le md w (n - i) hw hlen
    have hdiv : dLen md w (n - i) / w * w = dLen md w (n - i) := by
      unfold dLen; rw [Nat.mul_div_cancel _ (by omega)]
    apply Prog.Post.bind
    refine (straddle_post md st n i out s ?_ ho).mono ?_
    · omega
    · intro s x _ hx
      cases x with
      | ended r => exact hx
      | go nm0 =>
        simp only
        have hdm : (n - i - lenBuffer md w + (w - 1)) / w * w = dLen md w (n - i) := rfl
        rw [hdm]
        apply Prog.Post.bind
        refine (nextMask_post md n _ s (by omega) (by omega)).mono ?_
        intro s nm _ _
        have hlim : i + dLen md w (n - i) / w * w + ahead lax md ≤ readLimit lax addr n := by
          rw [hdiv]
          unfold ahead readLimit Dec.Simd.readLimit
          by_cases hlax : lax = true
          · rw [if_pos hlax]
            by_cases hmd : md = .endRaw
            · rw [if_pos ⟨hlax, hmd⟩]
              have h16 := hl hlax
              have e1 : 16 ∣ addr + i := Nat.dvd_trans h16 (Nat.dvd_of_mod_eq_zero ha)
              have e2 : 16 ∣ dLen md w (n - i) := Nat.dvd_trans h16 ⟨_, by rw [Nat.mul_comm]; exact hdiv.symm⟩
              subst hmd
              simp only [look] at hd1
              omega
            · rw [if_neg (by simp [hmd])]; omega
          · rw [if_neg hlax, if_neg (by simp [hlax])]; omega
        obtain ⟨r, g1, g2, g3, g4⟩ := loop_within hr (readLimit lax addr n) n nm (dLen md w (n - i) / w) 0 (Mem.wr (fun _ => 0#8) 0 out) i out.length (st = .eq ∨ st = .crlfeq) ho hlim
          (by rw [hdiv]; omega)
        rw [g1]
        simp only
        rw [hdiv] at g4
        exact finish_post md n r.i _ _ s (by omega) (by simpa using g2)
  · exact finish_post md n i out st s hi ho

theorem decode_post {w : Nat} {lax : Bool} {rs : Nat → Iter Bool} {md : Mode} (hw : 4 ≤ w) (hl : lax = true → 16 ∣ w) (hr : ∀ t, Within w (ahead lax md) (rs t))
    (addr n : Nat) (st : Option State) : (decode w lax rs md addr n st).Post n (Fine n) [] := by
  unfold decode
  split
  · exact scalar_post _ _ _ _ _ _ _ (by omega) (Nat.le_refl _) (by simp)
  · rename_i hn
    have hmod := Nat.mod_lt addr (show w > 0 by omega)
    split
    · apply Prog.Post.bind
      refine ((scalar_post md (some (st.getD .crlf)) n 0 (w - addr % w) [] [] (by omega) (by omega) (by simp)).le (by omega)).mono ?_
      intro s r _ hf
      obtain ⟨h1, h2, h3⟩ := hf
      by_cases he : r.ended = .none
      · rw [he] at h3
        simp only [he, ne_eq, not_true_eq_false, if_false]
        refine aligned_post hw hl hr _ _ _ _ _ _ (by omega) h2 ?_
        simp only at h3
        rw [h3]
        have := Nat.div_add_mod addr w
        rw [show addr + (w - addr % w) = w * (addr / w + 1) by rw [Nat.mul_add, Nat.mul_one]; omega]
        simp
      · rw [if_pos he]
        refine ⟨by omega, h2, ?_⟩
        revert h3
        cases hr : r.ended with
        | none => exact absurd hr he
        | control => exact id
        | article => exact id
    · rename_i ha
      refine aligned_post hw hl hr _ _ _ _ _ _ (by omega) (by simp) ?_
      simpa using ha

end Simd
end Yenc.Shared
