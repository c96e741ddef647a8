import Verif.Lemmas.DecX86Round
/-! What all kernels have in common about a round. -/
namespace Yenc.Dec.Simd
open Yenc Vec X86

section
variable {W : Nat} {raw : Bool} {B b : Nat → Byte} (hb : ∀ k, b k = B (k + 4)) {e : Bool} {mask maskEq sh : BitVec W}
  (hm : ∀ q, q < W → mask.getLsbD q = (special (b q) || killed raw B q)) (hq : ∀ q, q < W → maskEq.getLsbD q = decide (b q = EQ))
  (hsh : ∀ q, q < W → sh.getLsbD q = if q = 0 then e else maskEq.getLsbD (q - 1))

include hb hm in
theorem removed_mask (q : Nat) (h : q < W) : removed raw B e q = (!escP B e q && mask.getLsbD q) := by
  rw [hm q h, removed, special, hb]

include hb hq hsh in
/-- `fix_eqMask` finds the `=` that escape something. -/
theorem fix_case (hW : W ≤ 64) (i : Nat) (hi : i < W) : (fixEqMask maskEq sh).getLsbD i = escP B e (i + 1) := by
  rw [fixEqMask_getLsbD hW _ _ e (fun h => by rw [hsh 0 h, if_pos rfl]) (fun i h => by rw [hsh _ h, if_neg (by omega), Nat.add_sub_cancel]) i hi]
  exact escAt_escP B e _ W (fun q h => by rw [hq q h, hb]) i hi

include hb hm hq hsh in
/-- Nothing special is escaped. -/
theorem nofix_case (hz : mask &&& sh = 0#W) :
    (∀ q, q < W → escP B e (q + 1) = decide (b q = EQ)) ∧ ∀ q, q < W → removed raw B e q = mask.getLsbD q := by
  have hz := (eq_zero_iff _).1 hz
  have hno : ∀ q, q < W → (mask.getLsbD q && (if q = 0 then e else maskEq.getLsbD (q - 1))) = false := by
    intro q h
    have := hz q h
    rwa [BitVec.getLsbD_and, hsh q h] at this
  have hE : ∀ q, q < W → escP B e (q + 1) = decide (b q = EQ) := by
    intro q h
    induction q with
    | zero =>
      have := hno 0 h
      rw [if_pos rfl, hm 0 h, special] at this
      rw [escP, escP, ← hb]
      cases hd : decide (b 0 = EQ)
      · rfl
      · rw [hd] at this; simpa using this
    | succ q ih =>
      have := hno (q + 1) h
      rw [if_neg (by omega), hm _ h, special, Nat.add_sub_cancel, hq q (by omega)] at this
      rw [escP, ih (by omega), ← hb]
      cases hd : decide (b (q + 1) = EQ)
      · rfl
      · rw [hd] at this; simpa using this
  refine ⟨hE, ?_⟩
  intro q h
  rw [removed_mask hb hm q h]
  have : (mask.getLsbD q && escP B e q) = false := by
    cases q with
    | zero => exact hno 0 h
    | succ q =>
      have := hno (q + 1) h
      rwa [if_neg (by omega), Nat.add_sub_cancel, hq q (by omega), ← hE q (by omega)] at this
  cases h1 : mask.getLsbD q <;> cases h2 : escP B e q <;> simp_all

end

section
variable {W : Nat} (hW : 2 ≤ W) (md : Mode) {B b : Nat → Byte} (hb : ∀ k, b k = B (k + 4))

include hW hb in
/-- A round without CR in which no dot is pending. -/
theorem quiet (hcr : ∀ q, q < W → b q ≠ CR) (hp : pendOf md B = 0) :
    (∀ q, q < W → killed md.isRaw B q = false) ∧ pendOf md (shift W B) = 0 ∧ (∀ j, j < W → ¬ endAt b j) := by
  have hnl : ∀ q, q < W → nlDot b q = false := fun q h => by simp [nlDot, hcr q h]
  refine ⟨?_, ?_, fun j hj h => hcr j hj h.1⟩
  · intro q h
    by_cases hr : md.isRaw = true
    · rw [hr, killed_raw md hr B b hb, hp, hnl _ (by omega)]; simp [pend]
    · rw [Bool.not_eq_true _ |>.mp hr]; simp [killed]
  · by_cases hr : md.isRaw = true
    · exact next_zero md hr B b hb _ hW hnl
    · exact pendOf_plain md (Bool.not_eq_true _ |>.mp hr) _

theorem pend_zero (x : Nat) (h0 : pend x 0 = false) (h1 : pend x 1 = false) (hx : x = 0 ∨ x = 1 ∨ x = 2) : x = 0 := by
  simp only [pend, decide_eq_false_iff_not] at h0 h1
  rcases hx with rfl | rfl | rfl <;> simp at h0 h1 ⊢

include hW hb in
/-- Nothing special in the round. -/
theorem none_special (e : Bool) (h : ∀ q, q < W → (special (b q) || pend (pendOf md B) q) = false) :
    pendOf md B = 0 ∧ pendOf md (shift W B) = 0 ∧ (∀ j, j < W → ¬ endAt b j) ∧ (∀ q, q < W → removed md.isRaw B e q = false) ∧
      (∀ q, q < W → escP B e (q + 1) = false) := by
  have hz' : ∀ q, q < W → special (b q) = false ∧ pend (pendOf md B) q = false := fun q hq => by
    simpa [Bool.or_eq_false_iff] using h q hq
  have hsp : ∀ q, q < W → b q ≠ EQ ∧ b q ≠ CR ∧ b q ≠ LF := by
    intro q h
    have := (hz' q h).1
    simpa [special, and_assoc] using this
  have hp := pend_zero _ (hz' 0 (by omega)).2 (hz' 1 (by omega)).2 (pendOf_le md B)
  obtain ⟨k1, k2, k3⟩ := quiet hW md hb (fun q h => (hsp q h).2.1) hp
  refine ⟨hp, k2, k3, ?_, ?_⟩
  · intro q h
    rw [removed, k1 q h, ← hb]
    simp [(hsp q h).1, (hsp q h).2.1, (hsp q h).2.2]
  · intro q h
    rw [escP, ← hb]
    simp [(hsp q h).1]

include hW hb in
/-- Nothing but `=` in the round. -/
theorem only_eq (h : ∀ q, q < W → (special (b q) || pend (pendOf md B) q) = decide (b q = EQ)) :
    pendOf md B = 0 ∧ pendOf md (shift W B) = 0 ∧ (∀ j, j < W → ¬ endAt b j) ∧ (∀ q, q < W → killed md.isRaw B q = false) := by
  have hsp : ∀ q, q < W → b q ≠ CR ∧ pend (pendOf md B) q = false := by
    intro q hq
    have h1 := h q hq
    refine ⟨?_, ?_⟩
    · intro h2
      rw [h2] at h1
      simp [special] at h1
    · by_cases hpd : pend (pendOf md B) q = true
      · have h2 := pend_dot md B b hb q hpd
        rw [h2, hpd] at h1
        simp at h1
      · exact Bool.not_eq_true _ |>.mp hpd
  have hp := pend_zero _ (hsp 0 (by omega)).2 (hsp 1 (by omega)).2 (pendOf_le md B)
  obtain ⟨k1, k2, k3⟩ := quiet hW md hb (fun q h => (hsp q h).1) hp
  exact ⟨hp, k2, k3, k1⟩

theorem no_nlDot (hno : ∀ q, q < W → ¬ (b q = CR ∧ b (q + 2) = DOT)) (q : Nat) (h : q < W) : nlDot b q = false := by
  have := hno q h
  simp only [nlDot, Bool.and_eq_false_iff, decide_eq_false_iff_not]
  by_cases h1 : b q = CR
  · right; exact fun h2 => this ⟨h1, h2⟩
  · exact .inl (.inl h1)

/-- What is to be shown of a round. -/
def RoundOk {σ : Type} (R : σ → Bool → Nat → Prop) (W : Nat) (md : Mode) (B : Nat → Byte) (e : Bool) : Round σ → Prop
  | .brk nm => md = .endRaw ∧ nm = pendOf md B
  | .next stores adv s' => Puts (removed md.isRaw B e) (val B e) W stores adv ∧ R s' (escP B e W) (pendOf md (shift W B)) ∧
      (md = .endRaw → ∀ j, j < W → ¬ TermAt B (j + 4))

theorem RoundOk.iter {σ : Type} {R : σ → Bool → Nat → Prop} {W : Nat} {md : Mode} {B : Nat → Byte} {e : Bool} {r : Round σ} : RoundOk R W md B e r →
    match r with
    | .brk nm => md = .endRaw ∧ nm = pendOf md B
    | .next stores adv s' =>
      (∀ st ∈ stores, st.1 + st.2.length ≤ W) ∧
      (∃ t, (blockOut md.isRaw B e W ++ t).length ≤ W ∧ ∀ m p, applyStores m p stores = m.wr p (blockOut md.isRaw B e W ++ t)) ∧
      adv = (blockOut md.isRaw B e W).length ∧
      R s' (escP B e W) (pendOf md (shift W B)) ∧
      (md = .endRaw → ∀ j, j < W → ¬ TermAt B (j + 4)) := by
  cases r with
  | brk nm => exact id
  | next stores adv s' =>
    rintro ⟨⟨h1, h2, h3⟩, h4, h5⟩
    rw [blockOut_keep]
    exact ⟨h1, h2, h3, h4, h5⟩

end

/-- Four stores of `n` lanes each. -/
theorem Puts.fourN {rm : Nat → Bool} {d : Nat → Byte} {n : Nat} {S1 S2 S3 S4 : List Byte} {c1 c2 c3 c4 : Nat} (h1 : Half rm d n S1)
    (h2 : Half (fun j => rm (n + j)) (fun j => d (n + j)) n S2)
    (h3 : Half (fun j => rm (n + n + j)) (fun j => d (n + n + j)) n S3)
    (h4 : Half (fun j => rm (n + n + n + j)) (fun j => d (n + n + n + j)) n S4)
    (ha : c1 = n - cnt rm n) (hb : c2 = n - cnt (fun j => rm (n + j)) n)
    (hc : c3 = n - cnt (fun j => rm (n + n + j)) n) (hd : c4 = n - cnt (fun j => rm (n + n + n + j)) n) :
    Puts rm d (n + n + n + n) [(0, S1), (c1, S2), (c1 + c2, S3), (c1 + c2 + c3, S4)] (c1 + c2 + c3 + c4) := by
  have e : ∀ k, 0 + k = k := Nat.zero_add
  have p1 := (Puts.nil rm d).snoc (b := n) (S := S1) (by simpa only [e] using h1)
  have p2 := p1.snoc (b := n) (S := S2) (by simpa only [e] using h2)
  have p3 := p2.snoc (b := n) (S := S3) (by simpa only [e] using h3)
  have p4 := p3.snoc (b := n) (S := S4) (by simpa only [e] using h4)
  simp only [e, List.nil_append, List.cons_append, keep_length] at p4
  rw [← ha, ← hb, ← hc, ← hd] at p4
  exact p4

end Yenc.Dec.Simd
