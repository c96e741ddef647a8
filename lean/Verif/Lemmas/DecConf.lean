import Verif.Lemmas.DecRvvWide
import Verif.Lemmas.DecFits
import Verif.Lemmas.Api
import Verif.Lemmas.EncSpec
/-! Streams in which an escape character is never followed by `=`, CR or LF: the RISC-V decoder with vectors of any length. -/
namespace Yenc.Dec
open Yenc Simd Simd.X86

/-- Recursive form of the condition. -/
def conf : List Byte → Prop
  | [] => True
  | a :: t => (a = EQ → ∀ b ∈ t.head?, special b = false) ∧ conf t

theorem conf_iff (l : List Byte) : conf l ↔ ∀ a x t, l = a ++ EQ :: x :: t → x ≠ EQ ∧ x ≠ CR ∧ x ≠ LF := by
  induction l with
  | nil => simp [conf]
  | cons c l ih =>
    rw [conf, ih]
    constructor
    · rintro ⟨h1, h2⟩ a x t h
      cases a with
      | nil =>
        simp only [List.nil_append, List.cons.injEq] at h
        have := h1 h.1 x (by rw [h.2]; rfl)
        simpa [special, and_assoc] using this
      | cons d a =>
        simp only [List.cons_append, List.cons.injEq] at h
        exact h2 a x t h.2
    · intro h
      refine ⟨?_, fun a x t h' => h (c :: a) x t (by rw [h']; rfl)⟩
      rintro rfl b hb
      cases l with
      | nil => simp at hb
      | cons d l =>
        simp only [List.head?_cons, Option.mem_def, Option.some.injEq] at hb
        subst hb
        simpa [special, and_assoc] using h [] d l rfl

theorem conf_cons {a : Byte} (h : a ≠ EQ) (t : List Byte) : conf (a :: t) ↔ conf t := by
  simp [conf, h]

theorem conf_right {l r : List Byte} (h : conf (l ++ r)) : conf r := by
  induction l with
  | nil => exact h
  | cons c l ih => exact ih h.2

theorem conf_left {l r : List Byte} (h : conf (l ++ r)) : conf l := by
  rw [conf_iff] at h ⊢
  intro a x t hl
  exact h a x (t ++ r) (by rw [hl]; simp)

/-- The state string in front of the input matters only if it ends in `=`. -/
theorem conf_str (st : State) (l : List Byte) : conf (st.str ++ l) ↔ conf (if st = .eq ∨ st = .crlfeq then EQ :: l else l) := by
  cases st <;>
    simp [State.str, State.toNat, Js.decodePrev, conf, show (CR : Byte) ≠ EQ by decide, show (LF : Byte) ≠ EQ by decide, show (DOT : Byte) ≠ EQ by decide]

theorem conf_state (st : State) (l r : List Byte) (h : conf (st.str ++ (l ++ r))) (he : (run st l).ended = .none) : conf ((run st l).state.str ++ r) := by
  rw [conf_str]
  split
  · rename_i hs
    by_cases hl : l = []
    · subst hl
      have : (run st []).state = st := rfl
      rw [this] at hs
      rw [conf_str, if_pos hs] at h
      exact h
    · obtain ⟨l', rfl⟩ := run_last st l hl he hs
      have h2 : st.str ++ (l' ++ [EQ] ++ r) = (st.str ++ l') ++ EQ :: r := by simp
      rw [h2] at h
      exact conf_right h
  · rw [← List.append_assoc] at h
    exact conf_right h

theorem calm_of_conf (st : State) (m : Mem) (src len : Nat) (h : conf (st.str ++ m.rdn src len)) :
    Calm len (stream st m src) (decide (st = .eq ∨ st = .crlfeq)) := by
  rw [conf_str] at h
  intro q hq hp
  have hget : ∀ k, stream st m src (k + 4) = m (src + k) := fun k => by rw [stream, if_neg (by omega), Nat.add_sub_cancel]
  rw [hget]
  by_cases h0 : q = 0
  · subst h0
    rw [if_pos rfl, decide_eq_true_eq] at hp
    rw [if_pos hp] at h
    refine h.1 rfl _ ?_
    obtain ⟨n, rfl⟩ := Nat.exists_eq_succ_of_ne_zero (Nat.ne_of_gt hq)
    rw [Nat.succ_eq_add_one, Nat.add_comm n 1, Mem.rdn_append]
    rfl
  · rw [if_neg h0] at hp
    obtain ⟨q, rfl⟩ := Nat.exists_eq_succ_of_ne_zero h0
    rw [Nat.succ_eq_add_one, show q + 1 + 3 = q + 4 by omega, hget] at hp
    have h1 : conf (m.rdn src len) := by
      split at h
      · exact h.2
      · exact h
    rw [show len = q + (len - q) by omega, Mem.rdn_append, rdn_cons2 m (src + q) (len - q) (by omega)] at h1
    exact (conf_right h1).1 hp _ rfl

theorem conf_encChar (ls col : Nat) (last : Bool) (e : Byte) (t : List Byte) (h : conf t) : conf (Spec.encChar ls col last e ++ t) := by
  have h1 := Enc.encChar_safe ls col last e
  rcases Enc.encChar_cases ls col last e with ⟨hm, h2⟩ | ⟨hm, h2⟩
  · rw [h2] at h1 ⊢
    have h3 := h1 (e + 64#8) (by simp)
    have h4 : e + 64#8 ≠ EQ := by
      have := Enc.escape_domain hm
      rcases this with rfl | rfl | rfl | rfl | rfl | rfl | rfl <;> decide
    have h5 : special (e + 64#8) = false := by simp [special, h3, h4]
    refine ⟨fun _ b hb => ?_, (conf_cons h4 _).2 h⟩
    have hb : some (e + 64#8) = some b := hb
    injection hb with hb
    rwa [← hb]
  · rw [h2]
    exact (conf_cons (Enc.not_critical_of_not_mustEscape hm).2.2.2 _).2 h

theorem conf_encode (ls : Nat) (fin : Bool) (col : Nat) (d : List Byte) : conf (Spec.encode ls fin col d) := by
  induction d generalizing col with
  | nil => trivial
  | cons c cs ih =>
    rw [Spec.encode]
    simp only
    split
    · refine (conf_cons (by decide) _).2 ((conf_cons (by decide) _).2 ?_)
      exact conf_encChar _ _ _ _ _ (ih _)
    · exact conf_encChar _ _ _ _ _ (ih _)

namespace Simd.Rvv

variable {vl : Nat} (hv8 : vl % 8 = 0) (hv0 : 8 ≤ vl) (junk : Regs → (Nat → Byte) → Junk)
include hv8 hv0

/-- The kernels with the junk mended are correct. -/
theorem mended : M.Correct (impl (kernel vl (mend junk)) false) :=
  impl_correct fun md => by rw [Bool.and_false]; exact mend_ok vl hv8 hv0 junk md

theorem decode_mend (md : Mode) (m : Mem) (src dest len : Nat) (st : Option State) (hst : md = .endRaw ∨ st = none) (hsafe : M.Safe dest src (src + len))
    (h : conf ((st.getD .crlf).str ++ m.rdn src len)) :
    decode (kernel vl junk md) false md m src dest len st = decode (kernel vl (mend junk) md) false md m src dest len st := by
  refine decode_agree (mend_ok vl hv8 hv0 junk md) (agree vl hv8 junk md) m src dest len st hsafe hst ?_
  have := calm_of_conf _ m src len h
  cases st with
  | none => exact this
  | some st => simpa using this

theorem plain_mend (m : Mem) (src dest len : Nat) (hsafe : M.Safe dest src (src + len)) (h : conf (m.rdn src len)) :
    (impl (kernel vl junk) false).plain m src dest len = (impl (kernel vl (mend junk)) false).plain m src dest len := by
  simp only [impl]
  rw [decode_mend hv8 hv0 junk .plain m src dest len none (.inr rfl) hsafe ((conf_str .crlf _).2 h)]

theorem raw_mend (m : Mem) (src dest len : Nat) (hsafe : M.Safe dest src (src + len)) (h : conf (m.rdn src len)) :
    (impl (kernel vl junk) false).raw m src dest len = (impl (kernel vl (mend junk)) false).raw m src dest len := by
  simp only [impl]
  rw [decode_mend hv8 hv0 junk .raw m src dest len none (.inr rfl) hsafe ((conf_str .crlf _).2 h)]

theorem endRaw_mend (m : Mem) (src dest len : Nat) (st : State) (hsafe : M.Safe dest src (src + len)) (h : conf (st.str ++ m.rdn src len)) :
    (impl (kernel vl junk) false).endRaw m src dest len st = (impl (kernel vl (mend junk)) false).endRaw m src dest len st := by
  simp only [impl]
  rw [decode_mend hv8 hv0 junk .endRaw m src dest len (some st) (.inl rfl) hsafe h]

end Simd.Rvv
end Yenc.Dec
