import Verif.Lemmas.DecAgree
import Verif.Lemmas.DecRvv
/-! A kernel whose rounds load and store within bounds never leaves the buffers, whatever it computes. -/
namespace Yenc.Dec.Simd
open Yenc Yenc.Dec

/-- Loads and stores of a round are within bounds. -/
structure Kernel.Fits {σ : Type} (K : Kernel σ) (md : Mode) : Prop where
  width : 4 ≤ K.width
  reach : ∀ s b, (K.iter s b).reach ≤ K.width + look md
  stores : ∀ s b stores adv s', (K.iter s b).round = .next stores adv s' → (∀ st ∈ stores, st.1 + st.2.length ≤ K.width) ∧ adv ≤ K.width

theorem loop_fits {σ : Type} {K : Kernel σ} {md : Mode} (hK : K.Fits md) (src dest len nm : Nat) (rounds : Nat) :
    ∀ (done : Nat) (m : Mem) (p : Nat) (s : σ), (rounds + done) * K.width + look md ≤ len → dest ≤ p → p ≤ dest + done * K.width →
      ∃ r k, loop K (src + len) (dest + len) nm rounds m (src + done * K.width) p s = some r ∧ r.i = src + k ∧ k ≤ (rounds + done) * K.width ∧ dest ≤ r.p ∧ r.p ≤ dest + k := by
  induction rounds with
  | zero =>
    intro done m p s _ h1 h2
    exact ⟨_, done * K.width, rfl, rfl, by simp, h1, h2⟩
  | succ rounds ih =>
    intro done m p s hl h1 h2
    have hmul : (done + 1) * K.width = done * K.width + K.width := Nat.succ_mul _ _
    have hmul2 : (rounds + 1 + done) * K.width = rounds * K.width + (done * K.width + K.width) := by rw [← hmul, ← Nat.add_mul]; congr 1; omega
    rw [loop]
    rw [if_pos (by have := hK.reach s (fun j => m (src + done * K.width + j)); omega)]
    cases hr : (K.iter s fun j => m (src + done * K.width + j)).round with
    | brk nm' => exact ⟨_, done * K.width, rfl, rfl, by omega, h1, h2⟩
    | next stores adv s' =>
      obtain ⟨g1, g2⟩ := hK.stores _ _ _ _ _ hr
      simp only
      rw [if_pos (by
        rw [List.all_eq_true]
        intro st hst
        have := g1 st hst
        rw [decide_eq_true_eq]
        omega)]
      have := ih (done + 1) (applyStores m p stores) (p + adv) s' (by rw [show rounds + (done + 1) = rounds + 1 + done by omega]; exact hl) (by omega) (by omega)
      rwa [show rounds + (done + 1) = rounds + 1 + done by omega, hmul, ← Nat.add_assoc] at this

theorem scalar_some (md : Mode) (m : Mem) (src dest n : Nat) (st : Option State) (hsafe : M.Safe dest src (src + n)) :
    ∃ r, scalar md m src dest n st = some r ∧ dest ≤ r.dest ∧ r.dest ≤ dest + n := by
  cases md with
  | plain =>
    obtain ⟨out, st', g1, g2, g3⟩ := M.noendPlain_sim m src dest n st hsafe
    exact ⟨⟨m.wr dest out, src + n, dest + out.length, st'.getD .crlf, .none⟩, by simp only [scalar, g2], by simp, by simpa using g3⟩
  | raw =>
    obtain ⟨out, st', o, g1, g2, ⟨t, g3⟩, g4⟩ := M.noendRaw_sim m src dest n st hsafe
    refine ⟨⟨m.wr dest o, src + n, dest + out.length, st'.getD .crlf, .none⟩, by simp only [scalar, g2, Option.map_some], by simp, ?_⟩
    rw [← g3, List.length_append] at g4
    simp only; omega
  | endRaw =>
    obtain ⟨t, g1, g2⟩ := EndOk_scalar m src dest n (st.getD .crlf) hsafe
    refine ⟨_, by simp only [scalar]; exact g1, by simp, ?_⟩
    rw [List.length_append] at g2
    simp only; omega

theorem finish_some (md : Mode) (m : Mem) (src dest n : Nat) (st : State) (hsafe : M.Safe dest src (src + n)) :
    ∃ r, finish md m src dest n st = some r ∧ dest ≤ r.dest ∧ r.dest ≤ dest + n := by
  unfold finish
  split
  · exact scalar_some md m src dest n (some st) hsafe
  · exact ⟨_, rfl, by simp, by simp⟩

theorem aligned_fits {σ : Type} {K : Kernel σ} {md : Mode} (hK : K.Fits md) (m : Mem) (src dest len : Nat) (st : State) (hsafe : M.Safe dest src (src + len)) :
    ∃ r, aligned K false md m src dest len st = some r ∧ dest ≤ r.dest ∧ r.dest ≤ dest + len := by
  have hsafe' : dest ≤ src ∨ src + len ≤ dest := hsafe
  have hw := hK.width
  unfold aligned
  split
  · rename_i hlen
    obtain ⟨hd1, hd2⟩ := dLen_le md K.width len hw hlen
    have hdiv : dLen md K.width len / K.width * K.width = dLen md K.width len := by
      unfold dLen; rw [Nat.mul_div_cancel _ (by omega)]
    cases straddle md st (fun j => m (src + j)) with
    | ended n st' e => exact ⟨_, rfl, by simp, by simp⟩
    | go nm =>
      simp only
      have hdm : (len - lenBuffer md K.width + (K.width - 1)) / K.width * K.width = dLen md K.width len := rfl
      rw [hdm]
      unfold kernel
      rw [show readLimit false (src + len) = src + len from rfl]
      rw [if_neg (by
        rintro ⟨h1, h2⟩
        have : 2 ≤ look md := by revert h1; cases md <;> simp [look, Mode.isRaw]
        omega)]
      obtain ⟨r, k, h1, h2, h3, h4, h5⟩ := loop_fits hK src dest len (setNextMask md.isRaw fun k => m (src + dLen md K.width len - 2 + k)) (dLen md K.width len / K.width) 0 m dest
        (K.init (st = .eq ∨ st = .crlfeq) nm) (by rw [Nat.add_zero, hdiv]; exact hd1) (Nat.le_refl _) (by omega)
      rw [Nat.zero_mul, Nat.add_zero] at h1
      rw [Nat.add_zero, hdiv] at h3
      rw [h1]
      simp only
      obtain ⟨r', g1, g2, g3⟩ := finish_some md r.m r.i r.p (src + len - r.i) (stateAfter r.esc r.nextMask) (by unfold M.Safe; omega)
      exact ⟨r', g1, by omega, by omega⟩
  · exact finish_some md m src dest len st hsafe

/-- Where the scalar code stops. -/
theorem scalar_src (md : Mode) (m : Mem) (src dest n : Nat) (st : Option State) (r : M.Res) (hsafe : M.Safe dest src (src + n)) (h : scalar md m src dest n st = some r) (hr : r.ended = .none) :
    r.src = src + n := by
  cases md with
  | plain => simp only [scalar, Option.some.injEq] at h; rw [← h]
  | raw =>
    simp only [scalar, Option.map_eq_some_iff] at h
    obtain ⟨a, _, rfl⟩ := h; rfl
  | endRaw =>
    obtain ⟨t, g1, g2⟩ := EndOk_scalar m src dest n (st.getD .crlf) hsafe
    simp only [scalar] at h
    rw [g1, Option.some.injEq] at h
    subst h
    simp only at hr ⊢
    rw [run_rest_of_not_ended _ _ hr]; simp

theorem decode_fits {σ : Type} {K : Kernel σ} {md : Mode} (hK : K.Fits md) (m : Mem) (src dest len : Nat) (st : Option State) (hsafe : M.Safe dest src (src + len)) :
    ∃ r, decode K false md m src dest len st = some r ∧ dest ≤ r.dest ∧ r.dest ≤ dest + len := by
  have hsafe' : dest ≤ src ∨ src + len ≤ dest := hsafe
  have hw := hK.width
  unfold decode
  split
  · exact scalar_some md m src dest len st hsafe
  · split
    · simp only
      have hmod := Nat.mod_lt src (show K.width > 0 by omega)
      generalize ha : K.width - src % K.width = amount
      have hs1 : M.Safe dest src (src + amount) := by unfold M.Safe; omega
      obtain ⟨r, h1, h2, h3⟩ := scalar_some md m src dest amount (some (st.getD .crlf)) hs1
      rw [h1]
      simp only
      split
      · exact ⟨r, rfl, h2, by omega⟩
      · rename_i hr
        have h4 := scalar_src md m src dest amount _ r hs1 h1 (Decidable.not_not.1 hr)
        obtain ⟨r', g1, g2, g3⟩ := aligned_fits hK r.m r.src r.dest (len - amount) r.state (by rw [h4]; unfold M.Safe; omega)
        exact ⟨r', g1, by omega, by omega⟩
    · exact aligned_fits hK m src dest len _ hsafe

namespace Rvv
open Vec Yenc.Rvv

theorem cpop_le (m : Mask) (vl : Nat) : cpop m vl ≤ vl := by
  have := List.countP_le_length (p := m) (l := List.range vl)
  rwa [List.length_range] at this

theorem unescape_stores (vl : Nat) (J : Junk) (b : Nat → Byte) (s : Regs) (c eq : Mask) (lf : Vec) (stores : List (Nat × List Byte)) (adv : Nat) (s' : Regs)
    (h : unescape vl J b s c eq lf = .next stores adv s') : (∀ st ∈ stores, st.1 + st.2.length ≤ vl) ∧ adv ≤ vl := by
  unfold unescape at h
  simp only at h
  split at h <;>
  · cases h
    exact ⟨by simp [toList], cpop_le _ _⟩

theorem kernel_fits (vl : Nat) (hv : 4 ≤ vl) (junk : Regs → (Nat → Byte) → Junk) (md : Mode) : (kernel vl junk md).Fits md where
  width := hv
  reach s b := reach_ok vl junk md s b
  stores s b stores adv s' h := by
    simp only [kernel, iter] at h
    split at h
    · split at h
      · split at h
        · cases h
        · exact unescape_stores _ _ _ _ _ _ _ _ _ _ h
      · exact unescape_stores _ _ _ _ _ _ _ _ _ _ h
    · cases h
      exact ⟨by simp [toList, kernel], cpop_le _ _⟩

end Rvv
end Yenc.Dec.Simd
