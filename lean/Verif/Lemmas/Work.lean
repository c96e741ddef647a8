import Verif.Lemmas.Shared
import Verif.Model.SharedDec
/-! The number of reads that programs make, whatever the reads give. -/
namespace Yenc.Shared
open Yenc

/-- If the program, started at time `t`, ends at time `t'` with `a`, then `Q a t'`. -/
def Prog.Cost {α : Type} (Q : α → Nat → Prop) : Prog α → Nat → Prop
  | .ret a, t => Q a t
  | .rd _ k, t => ∀ b, (k b).Cost Q (t + 1)
  | .ub, _ => True

theorem Prog.Cost.sound {α : Type} {Q : α → Nat → Prop} {p : Prog α} {t : Nat} (h : p.Cost Q t) {mem : Nat → Nat → Byte} {n : Nat} {a : α} {t' : Nat}
    (hr : p.run mem n t = some (a, t')) : Q a t' := by
  induction p generalizing t with
  | ret x => simp only [Prog.run, Option.some.injEq, Prod.mk.injEq] at hr; obtain ⟨rfl, rfl⟩ := hr; exact h
  | ub => simp [Prog.run] at hr
  | rd i k ih =>
    simp only [Prog.run] at hr
    split at hr
    · exact ih _ (h _) hr
    · cases hr

theorem Prog.Cost.bind {α β : Type} {Q : β → Nat → Prop} {p : Prog α} {f : α → Prog β} {t : Nat} (h : p.Cost (fun a t => (f a).Cost Q t) t) : (p.bind f).Cost Q t := by
  induction p generalizing t with
  | ret a => exact h
  | ub => trivial
  | rd i k ih => exact fun b => ih b (h b)

theorem Prog.Cost.mono {α : Type} {Q Q' : α → Nat → Prop} {p : Prog α} {t : Nat} (h : p.Cost Q t) (hq : ∀ a t', t ≤ t' → Q a t' → Q' a t') : p.Cost Q' t := by
  induction p generalizing t with
  | ret a => exact hq _ _ (Nat.le_refl _) h
  | ub => trivial
  | rd i k ih => exact fun b => ih b (h b) fun a t' ht => hq a t' (by omega)

theorem cost_rds {α : Type} {Q : α → Nat → Prop} (m : Nat) {i t : Nat} {k : List Byte → Prog α} (h : ∀ bs, bs.length = m → (k bs).Cost Q (t + m)) : (rds i m k).Cost Q t := by
  induction m generalizing i t k with
  | zero => exact h [] rfl
  | succ m ih =>
    intro b
    refine ih fun bs hb => ?_
    rw [show t + 1 + m = t + (m + 1) by omega]
    exact h (b :: bs) (by simp [hb])

/-! ### Encoder -/

theorem unroll8_cost (ls : Int) (n f : Nat) (i : Nat) (w : Enc.W) (col : Int) (sp : Option (List Byte × Nat)) (t : Nat) :
    (unroll8 ls n f i w col sp).Cost (fun u t' => i ≤ u.i ∧ t' = t + (u.i - i) ∧
      (u.i = i ∧ u.w = w ∧ u.col = col ∧ u.sp = sp ∨
        ∃ o k, u.sp = some (o, k) ∧ i ≤ k ∧ u.i = k + 8 ∧ k + 9 < n ∧ u.col - ((u.w.out.length : Int) - o.length) < ls - 9)) t := by
  induction f generalizing i w col sp t with
  | zero => trivial
  | succ f ih =>
    unfold unroll8
    split
    · rename_i h
      refine cost_rds 8 fun bs hb => ?_
      dsimp only
      split
      · refine (ih ..).mono fun u t' _ ⟨h1, h2, h3⟩ => ⟨by clear h3; omega, by clear h3; omega, .inr ?_⟩
        rcases h3 with ⟨e1, e2, e3, e4⟩ | ⟨o, k, e1, e2, e3, e4⟩
        · refine ⟨w.out, i, e4, Nat.le_refl _, e1, h.1, ?_⟩
          rw [e2, e3]; omega
        · exact ⟨o, k, e1, by omega, e3, e4⟩
      · trivial
    · exact ⟨Nat.le_refl _, by dsimp only; omega, .inl ⟨rfl, rfl, rfl, rfl⟩⟩

theorem innerLoop_cost (ls : Int) (n f : Nat) (i : Nat) (hi : i < n) (w : Enc.W) (col : Int) (t : Nat) :
    (innerLoop ls n f i w col).Cost (fun x t' =>
      match x with
      | .ended _ _ => t' = t + (n - i)
      | .cont i' _ col' => i ≤ i' ∧ i' < n ∧ t' = t + (i' - i) ∧ ls - 1 ≤ col' ∧ col' ≤ col + 2 * (i' - i : Nat)) t := by
  induction f generalizing i w col t with
  | zero => trivial
  | succ f ih =>
    unfold innerLoop
    split
    · intro c
      dsimp only
      split
      · show _ = _; omega
      · have h2 : (if Enc.escapeLUT c ≠ 0#8 then (1 : Int) else 2) ≤ 2 := by split <;> omega
        generalize (if Enc.escapeLUT c ≠ 0#8 then (1 : Int) else 2) = e at h2
        refine (ih (i + 1) (by omega) ..).mono fun x t' _ h => ?_
        cases x with
        | ended => simp only at h ⊢; omega
        | cont i' w' col' => simp only at h ⊢; omega
    · exact ⟨Nat.le_refl _, hi, by simp, by omega, by simp⟩

theorem outer_cost (ls : Int) (n f : Nat) (i : Nat) (hi : i ≤ n) (w : Enc.W) (col : Int) (t : Nat) :
    (outer ls n f i w col).Cost (fun _ t' => t' ≤ t + 3 * (n - i)) t := by
  induction f generalizing i w col t with
  | zero => trivial
  | succ f ih =>
    unfold outer
    split
    · show t ≤ _; omega
    · rename_i hin
      refine Prog.Cost.bind ((unroll8_cost ..).mono fun u t1 _ ⟨a1, a2, a3⟩ => ?_)
      -- where the inner loop begins, and what has been read in vain
      have key : i ≤ (revert ls u).1 ∧ (revert ls u).1 < n ∧
          (t1 = t + ((revert ls u).1 - i) ∨ t1 = t + ((revert ls u).1 - i) + 8 ∧ (revert ls u).1 + 9 < n ∧ (revert ls u).2.2 < ls - 9) := by
        unfold revert
        rcases a3 with ⟨e1, e2, e3, e4⟩ | ⟨o, k, e1, e2, e3, e4, e5⟩
        · rw [e4]; dsimp only; exact ⟨by omega, by omega, .inl (by omega)⟩
        · rw [e1]
          dsimp only
          split
          · exact ⟨e2, by omega, .inr ⟨by dsimp only; omega, e4, e5⟩⟩
          · exact ⟨a1, by dsimp only; omega, .inl a2⟩
      clear a1 a2 a3
      generalize revert ls u = r at key ⊢
      obtain ⟨j, w1, col1⟩ := r
      dsimp only at key ⊢
      obtain ⟨k1, k2, k3⟩ := key
      refine Prog.Cost.bind ((innerLoop_cost ls n (n + 1) j k2 w1 col1 t1).mono fun x t2 _ h => ?_)
      cases x with
      | ended => simp only at h; show t2 ≤ _; omega
      | cont i' w' col' =>
        dsimp only at h ⊢
        obtain ⟨b1, b2, b3, b4, b5⟩ := h
        split
        · intro c
          split
          · show t2 + 1 ≤ _; omega
          · intro d
            refine (ih (i' + 1 + 1) (by omega) ..).mono fun _ t' _ h => ?_
            omega
        · split
          · omega
          · intro d
            refine (ih (i' + 1) (by omega) ..).mono fun _ t' _ h => ?_
            omega

theorem encode_cost (ls col : Int) (n : Nat) (hn : n ≠ 0) (fin : Bool) (t : Nat) : (encode ls col n fin).Cost (fun _ t' => t' ≤ t + 3 * n) t := by
  unfold encode
  have fine : ∀ p : Prog (Enc.W × Int), p.Cost (fun _ t' => t' ≤ t + 3 * n) t →
      (p.bind fun (w, col) => if fin then (match Enc.doEnd w col with | none => Prog.ub | some r => .ret r) else .ret (w, col)).Cost (fun _ t' => t' ≤ t + 3 * n) t := by
    intro p h
    refine Prog.Cost.bind (h.mono fun x t' _ h => ?_)
    dsimp only
    split
    · cases Enc.doEnd x.1 x.2 with
      | none => trivial
      | some r => exact h
    · exact h
  refine fine _ ?_
  by_cases hc : col = 0
  · rw [if_pos hc]
    intro c
    exact (outer_cost ls n (n + 1) 1 (by omega) ..).mono fun x t' _ h => by omega
  · rw [if_neg hc]
    exact (outer_cost ls n (n + 1) 0 (by omega) ..).mono fun x t' _ h => by omega

/-! ### Decoders -/

theorem loopPlain_cost (n f i : Nat) (hi : i ≤ n) (out : List Byte) (t : Nat) : (loopPlain n f i out).Cost (fun r t' => i ≤ r.1 ∧ r.1 ≤ n ∧ n ≤ r.1 + 1 ∧ t' = t + (r.1 - i)) t := by
  induction f generalizing i out t with
  | zero => trivial
  | succ f ih =>
    unfold loopPlain
    split
    · intro c; dsimp only
      split
      · exact (ih (i + 1) (by omega) ..).mono fun r t' _ h => by omega
      · split
        · intro d
          exact (ih (i + 2) (by omega) ..).mono fun r t' _ h => by omega
        · exact (ih (i + 1) (by omega) ..).mono fun r t' _ h => by omega
    · exact ⟨Nat.le_refl _, hi, by dsimp only; omega, by simp⟩

/-- The plain decoder reads every byte once. -/
theorem decodePlain_cost (n t : Nat) : (decodePlain n).Cost (fun _ t' => t' = t + n) t := by
  unfold decodePlain
  split
  · show t = _; omega
  · refine Prog.Cost.bind ((loopPlain_cost n (n + 1) 0 (by omega) [] t).mono fun r t1 _ h => ?_)
    obtain ⟨j, out⟩ := r
    dsimp only at h ⊢
    split
    · intro c; dsimp only
      split <;> (show _ = _; omega)
    · show _ = _; omega

theorem last1_cost (n i : Nat) (out : List Byte) (t : Nat) : (last1 n i out).Cost (fun _ t' => t' ≤ t + 1) t := by
  unfold last1
  split
  · intro c; dsimp only; (repeat' split) <;> exact Nat.le_refl _
  · exact Nat.le_succ t

theorem last2_cost (hs : Bool) (n i : Nat) (out : List Byte) (t : Nat) : (last2 hs n i out).Cost (fun _ t' => t' ≤ t + 3) t := by
  have m : ∀ (i : Nat) (out : List Byte) (u : Nat), u ≤ t + 2 → (last1 n i out).Cost (fun _ t' => t' ≤ t + 3) u :=
    fun i out u hu => (last1_cost n i out u).mono fun _ t' _ h => by omega
  unfold last2
  split
  · intro c; dsimp only
    split
    · split
      · intro d; dsimp only
        split
        · show t + 1 + 1 ≤ t + 3; omega
        · exact m _ _ _ (by omega)
      · exact m _ _ _ (by omega)
    · split
      · exact m _ _ _ (by omega)
      · split
        · intro d; dsimp only
          split <;> exact m _ _ _ (by omega)
        · exact m _ _ _ (by omega)
  · exact m _ _ _ (by omega)

theorem loopRaw_cost (n f i : Nat) (hi : i ≤ n) (out : List Byte) (t : Nat) : (loopRaw n f i out).Cost (fun r t' => i ≤ r.1 ∧ r.1 ≤ n ∧ t' ≤ t + 3 * (r.1 - i)) t := by
  induction f generalizing i out t with
  | zero => trivial
  | succ f ih =>
    have m : ∀ (j : Nat) (out : List Byte) (u : Nat), i < j → j ≤ n → u ≤ t + 3 * (j - i) → (loopRaw n f j out).Cost (fun r t' => i ≤ r.1 ∧ r.1 ≤ n ∧ t' ≤ t + 3 * (r.1 - i)) u :=
      fun j out u hj hn hu => (ih j hn out u).mono fun _ t' _ h => by omega
    unfold loopRaw
    split
    · intro c; dsimp only
      split
      · intro d; dsimp only
        split
        · intro e; dsimp only
          split <;> exact m _ _ _ (by omega) (by omega) (by omega)
        · exact m _ _ _ (by omega) (by omega) (by omega)
      · split
        · exact m _ _ _ (by omega) (by omega) (by omega)
        · split
          · intro d; dsimp only
            split <;> exact m _ _ _ (by omega) (by omega) (by omega)
          · exact m _ _ _ (by omega) (by omega) (by omega)
    · exact ⟨Nat.le_refl _, hi, by dsimp only; omega⟩

theorem decodeRaw_cost (n t : Nat) : (decodeRaw n).Cost (fun _ t' => t' ≤ t + 3 * n + 4) t := by
  unfold decodeRaw
  split
  · show t ≤ _; omega
  · intro c; dsimp only
    refine Prog.Cost.bind ((loopRaw_cost n (n + 1) _ (by split <;> omega) [] (t + 1)).mono fun r t1 _ h => ?_)
    refine Prog.Cost.bind ((last2_cost ..).mono fun _ t2 _ h2 => ?_)
    show t2 ≤ _
    omega

/-- Where a program of the decoders stands. -/
def Step.pos : Step → Nat
  | .ret r => r.pos
  | .go i _ => i

/-- Positions in range; a result that is not an end of data is at the end. -/
def Step.Ok (i e : Nat) (s : Step) : Prop := i ≤ s.pos ∧ s.pos ≤ e ∧ ∀ r, s = .ret r → r.ended = .none → r.pos = e

def eqSlack : Dec.State → Nat
  | .eq => 1
  | _ => 0

theorem preEnd_cost (n f : Nat) (st : Dec.State) (i : Nat) (hi : i < n) (out : List Byte) (t : Nat) :
    (preEnd n f st i out).Cost (fun s t' => s.Ok i n ∧ t' + eqSlack st ≤ t + 2 * (s.pos - i) + 2) t := by
  induction f generalizing st i out t with
  | zero => trivial
  | succ f ih =>
    have m : ∀ (st' : Dec.State) (out : List Byte) (u k : Nat), i + 1 ≠ n → u + k ≤ t + 2 →
        (preEnd n f st' (i + 1) out).Cost (fun s t' => s.Ok i n ∧ t' + k ≤ t + 2 * (s.pos - i) + 2) u := by
      intro st' out u k h1 h2
      refine (ih st' (i + 1) (by omega) out u).mono fun s t' _ ⟨⟨a1, a2, a3⟩, h⟩ => ⟨⟨by omega, a2, a3⟩, by omega⟩
    have ok1 : ∀ r : Res, i ≤ r.pos → r.pos ≤ n → (r.ended = .none → r.pos = n) → (Step.ret r).Ok i n :=
      fun r h1 h2 h3 => ⟨h1, h2, fun r' hr => by cases hr; exact h3⟩
    have ok2 : ∀ (j : Nat) (out : List Byte), i ≤ j → j ≤ n → (Step.go j out).Ok i n := fun j out h1 h2 => ⟨h1, h2, fun r' hr => by cases hr⟩
    unfold preEnd
    cases st with
    | none => exact ⟨ok2 _ _ (by omega) (by omega), by simp [Step.pos, eqSlack]⟩
    | crlfeq =>
      intro c; dsimp only
      split
      · exact ⟨ok1 _ (by simp) (by simp; omega) (by simp), by simp [Step.pos, eqSlack]⟩
      · refine (ih .eq i hi out (t + 1)).mono fun s t' _ h => ⟨h.1, ?_⟩
        have := h.2
        simp [eqSlack] at this ⊢; omega
    | eq =>
      intro c; dsimp only
      split
      · exact ⟨ok2 _ _ (by omega) (by omega), by simp [Step.pos, eqSlack]⟩
      · split
        · exact ⟨ok1 _ (by simp; omega) (by simp) (by simp), by simp [Step.pos, eqSlack]⟩
        · exact m _ _ _ _ ‹_› (by simp [eqSlack])
    | cr =>
      intro c; dsimp only
      split
      · exact ⟨ok2 _ _ (by omega) (by omega), by simp [Step.pos, eqSlack]⟩
      · split
        · exact ⟨ok1 _ (by simp; omega) (by simp) (by simp), by simp [Step.pos, eqSlack]; omega⟩
        · exact m _ _ _ _ ‹_› (by simp [eqSlack])
    | crlf =>
      intro c; dsimp only
      split
      · split
        · exact ⟨ok1 _ (by simp; omega) (by simp) (by simp), by simp [Step.pos, eqSlack]; omega⟩
        · exact m _ _ _ _ ‹_› (by simp [eqSlack])
      · intro c; dsimp only
        split
        · split
          · exact ⟨ok1 _ (by simp; omega) (by simp) (by simp), by simp [Step.pos, eqSlack]⟩
          · exact m _ _ _ _ ‹_› (by simp [eqSlack])
        · exact ⟨ok2 _ _ (by omega) (by omega), by simp [Step.pos, eqSlack]⟩
    | crlfdt =>
      intro c; dsimp only
      split
      · split
        · exact ⟨ok1 _ (by simp; omega) (by simp) (by simp), by simp [Step.pos, eqSlack]; omega⟩
        · exact m _ _ _ _ ‹_› (by simp [eqSlack])
      · intro c; dsimp only
        split
        · split
          · exact ⟨ok1 _ (by simp; omega) (by simp) (by simp), by simp [Step.pos, eqSlack]⟩
          · exact m _ _ _ _ ‹_› (by simp [eqSlack])
        · exact ⟨ok2 _ _ (by omega) (by omega), by simp [Step.pos, eqSlack]⟩
    | crlfdtcr =>
      intro c; dsimp only
      split
      · exact ⟨ok1 _ (by simp) (by simp; omega) (by simp), by simp [Step.pos, eqSlack]⟩
      · exact ⟨ok2 _ _ (by omega) (by omega), by simp [Step.pos, eqSlack]⟩

theorem afterEq_cost (i0 n t0 i : Nat) (h0 : i0 + 2 ≤ i) (hi : i < n) (out : List Byte) (k : Nat → List Byte → Prog Step) (t : Nat) (ht : t + 2 ≤ t0 + 4 * (i - i0))
    (hk : ∀ (j : Nat) (out : List Byte) (u : Nat), i0 < j → j ≤ n → u ≤ t0 + 4 * (j - i0) → (k j out).Cost (fun s t' => s.Ok i0 n ∧ t' ≤ t0 + 4 * (s.pos - i0)) u) :
    (afterEq i out k).Cost (fun s t' => s.Ok i0 n ∧ t' ≤ t0 + 4 * (s.pos - i0)) t := by
  intro d; dsimp only
  split
  · exact ⟨⟨by simp [Step.pos]; omega, by simp [Step.pos]; omega, by intro r hr; cases hr; simp⟩, by simp [Step.pos]; omega⟩
  · intro d; dsimp only
    split <;> exact hk _ _ _ (by omega) (by omega) (by omega)

theorem loopEnd_cost (n f i : Nat) (hi : i ≤ n) (out : List Byte) (t : Nat) : (loopEnd n f i out).Cost (fun s t' => s.Ok i n ∧ t' ≤ t + 4 * (s.pos - i)) t := by
  induction f generalizing i out t with
  | zero => trivial
  | succ f ih =>
    have m : ∀ (j : Nat) (out : List Byte) (u : Nat), i < j → j ≤ n → u ≤ t + 4 * (j - i) → (loopEnd n f j out).Cost (fun s t' => s.Ok i n ∧ t' ≤ t + 4 * (s.pos - i)) u := by
      intro j out u hj hn hu
      refine (ih j hn out u).mono fun s t' _ ⟨⟨a1, a2, a3⟩, h⟩ => ⟨⟨by omega, a2, a3⟩, by omega⟩
    have ok : ∀ (r : Res) (u : Nat), i ≤ r.pos → r.pos ≤ n → (r.ended = .none → r.pos = n) → u ≤ t + 4 * (r.pos - i) →
        (Prog.ret (Step.ret r)).Cost (fun s t' => s.Ok i n ∧ t' ≤ t + 4 * (s.pos - i)) u :=
      fun r u h1 h2 h3 h4 => ⟨⟨h1, h2, fun r' hr => by cases hr; exact h3⟩, h4⟩
    unfold loopEnd
    split
    · intro c; dsimp only
      split
      · intro d; dsimp only
        split
        · intro e; dsimp only
          split
          · split
            · exact ok _ _ (by simp; omega) (by simp) (by simp) (by simp; omega)
            · intro g; dsimp only
              split
              · split
                · exact ok _ _ (by simp; omega) (by simp) (by simp) (by simp; omega)
                · intro h; dsimp only
                  split
                  · exact ok _ _ (by simp) (by simp; omega) (by simp) (by simp)
                  · exact m _ _ _ (by omega) (by omega) (by omega)
              · intro g; dsimp only
                split
                · split
                  · exact ok _ _ (by simp; omega) (by simp) (by simp) (by simp; omega)
                  · exact afterEq_cost i n t (i + 4) (by omega) (by omega) _ _ _ (by omega) m
                · exact m _ _ _ (by omega) (by omega) (by omega)
          · intro e; dsimp only
            split
            · split
              · exact ok _ _ (by simp; omega) (by simp) (by simp) (by simp; omega)
              · exact afterEq_cost i n t (i + 3) (by omega) (by omega) _ _ _ (by omega) m
            · exact m _ _ _ (by omega) (by omega) (by omega)
        · exact m _ _ _ (by omega) (by omega) (by omega)
      · split
        · exact m _ _ _ (by omega) (by omega) (by omega)
        · split
          · intro d; dsimp only
            split <;> exact m _ _ _ (by omega) (by omega) (by omega)
          · exact m _ _ _ (by omega) (by omega) (by omega)
    · exact ⟨⟨Nat.le_refl _, hi, by intro r hr; cases hr⟩, by omega⟩

theorem decodeEnd_cost (st : Dec.State) (n t : Nat) : (decodeEnd st n).Cost (fun _ t' => t' ≤ t + 4 * n + 5) t := by
  unfold decodeEnd
  split
  · show t ≤ _; omega
  · refine Prog.Cost.bind ((preEnd_cost n (n + n + 2) st 0 (by omega) [] t).mono fun s t1 _ ⟨⟨_, a2, _⟩, h⟩ => ?_)
    cases s with
    | ret r => simp only [Step.pos] at a2 h; show t1 ≤ _; omega
    | go i out =>
      simp only [Step.pos] at a2 h
      refine Prog.Cost.bind ((loopEnd_cost n (n + 1) i a2 out t1).mono fun s t2 _ ⟨⟨b1, b2, _⟩, h'⟩ => ?_)
      cases s with
      | ret r => simp only [Step.pos] at b1 b2 h'; show t2 ≤ _; omega
      | go j out =>
        simp only [Step.pos] at b1 b2 h'
        refine Prog.Cost.bind ((last2_cost ..).mono fun _ t3 _ h3 => ?_)
        show t3 ≤ _
        omega

/-! ### Vectorised decoders -/
namespace Simd

/-- A program that works on the bytes from `i` to `e`, `k` reads for each byte and `c` more; when it has not met the end of the data it is at `e`. -/
def Spends (i e k c : Nat) (p : Prog Res) : Prop := ∀ t, p.Cost (fun r t' => i ≤ r.pos ∧ r.pos ≤ e ∧ (r.ended = .none → r.pos = e) ∧ t' ≤ t + k * (e - i) + c) t

theorem noendPlain_cost (st : Option Dec.State) (i e : Nat) (hi : i ≤ e) (out : List Byte) : Spends i e 1 0 (noendPlain st i e out) := by
  intro t
  unfold noendPlain
  split
  · exact ⟨hi, Nat.le_refl _, fun _ => rfl, by omega⟩
  · have key : (if st = some .eq then .rd i fun c => loopPlain e (e + 1) (i + 1) (out ++ [c - 42#8 - 64#8]) else loopPlain e (e + 1) i out).Cost
        (fun r t' => i ≤ r.1 ∧ r.1 ≤ e ∧ t' = t + (r.1 - i)) t := by
      split
      · intro c
        exact (loopPlain_cost e (e + 1) (i + 1) (by omega) ..).mono fun r t' _ h => by omega
      · exact (loopPlain_cost e (e + 1) i hi ..).mono fun r t' _ h => by omega
    refine Prog.Cost.bind (key.mono fun r t1 _ h => ?_)
    obtain ⟨j, out⟩ := r
    dsimp only at h ⊢
    split
    · intro c; dsimp only
      split <;> exact ⟨hi, Nat.le_refl _, fun _ => rfl, by omega⟩
    · exact ⟨hi, Nat.le_refl _, fun _ => rfl, by omega⟩

theorem preCrlf_cost (i e : Nat) (hi : i < e) (out : List Byte) (t : Nat) : (preCrlf i out).Cost (fun s t' => s.Ok i e ∧ t' ≤ t + 1) t := by
  intro c
  refine ⟨⟨?_, ?_, by intro r hr; cases hr⟩, Nat.le_refl _⟩ <;> (simp only [Step.pos]; split <;> omega)

theorem preCr_cost (i e : Nat) (hi : i < e) (out0 out : List Byte) (t : Nat) : (preCr i e out0 out).Cost (fun s t' => s.Ok i e ∧ t' ≤ t + 2) t := by
  intro c; dsimp only
  split
  · exact ⟨⟨Nat.le_refl _, by simp [Step.pos]; omega, by intro r hr; cases hr⟩, by omega⟩
  · split
    · exact ⟨⟨by simp [Step.pos]; omega, by simp [Step.pos], by intro r hr; cases hr; simp⟩, by omega⟩
    · exact (preCrlf_cost (i + 1) e (by omega) out (t + 1)).mono fun s t' _ ⟨⟨a1, a2, a3⟩, h⟩ => ⟨⟨by omega, a2, a3⟩, by omega⟩

theorem preRaw_cost (st : Option Dec.State) (dlim i e : Nat) (hi : i < e) (out : List Byte) (t : Nat) : (preRaw st dlim i e out).Cost (fun s t' => s.Ok i e ∧ t' ≤ t + 3) t := by
  have a : ∀ out0 out, (preCr i e out0 out).Cost (fun s t' => s.Ok i e ∧ t' ≤ t + 3) t :=
    fun out0 out => (preCr_cost i e hi out0 out t).mono fun s t' _ h => ⟨h.1, by omega⟩
  have b : (preCrlf i out).Cost (fun s t' => s.Ok i e ∧ t' ≤ t + 3) t := (preCrlf_cost i e hi out t).mono fun s t' _ h => ⟨h.1, by omega⟩
  have d : (Prog.ret (Step.go i out)).Cost (fun s t' => s.Ok i e ∧ t' ≤ t + 3) t := ⟨⟨Nat.le_refl _, by simp [Step.pos]; omega, by intro r hr; cases hr⟩, by omega⟩
  unfold preRaw
  split
  · intro c; dsimp only
    split
    · trivial
    · split
      · split
        · exact ⟨⟨by simp [Step.pos]; omega, by simp [Step.pos], by intro r hr; cases hr; simp⟩, by omega⟩
        · exact (preCr_cost (i + 1) e (by omega) _ _ (t + 1)).mono fun s t' _ ⟨⟨a1, a2, a3⟩, h⟩ => ⟨⟨by omega, a2, a3⟩, by omega⟩
      · exact ⟨⟨by simp [Step.pos], by simp [Step.pos]; omega, by intro r hr; cases hr⟩, by omega⟩
  · exact a _ _
  · exact b
  · exact d
  · exact b

theorem noendRaw_cost (st : Option Dec.State) (dlim i e : Nat) (hi : i ≤ e) (out : List Byte) : Spends i e 3 6 (noendRaw st dlim i e out) := by
  intro t
  unfold noendRaw
  split
  · exact ⟨hi, Nat.le_refl _, fun _ => rfl, by omega⟩
  · refine Prog.Cost.bind ((preRaw_cost st dlim i e (by omega) out t).mono fun s t1 _ ⟨⟨a1, a2, a3⟩, h⟩ => ?_)
    cases s with
    | ret r => exact ⟨a1, a2, a3 r rfl, by omega⟩
    | go j out =>
      simp only [Step.pos] at a1 a2
      refine Prog.Cost.bind ((loopRaw_cost e (e + 1) j a2 out t1).mono fun r t2 _ h2 => ?_)
      refine Prog.Cost.bind ((last2_cost ..).mono fun _ t3 _ h3 => ?_)
      exact ⟨hi, Nat.le_refl _, fun _ => rfl, by omega⟩

theorem endRaw_cost (st : Dec.State) (i e : Nat) (hi : i ≤ e) (out : List Byte) : Spends i e 4 5 (endRaw st i e out) := by
  intro t
  unfold endRaw
  split
  · exact ⟨hi, Nat.le_refl _, fun _ => rfl, by omega⟩
  · refine Prog.Cost.bind ((preEnd_cost e (e + e + 2) st i (by omega) out t).mono fun s t1 _ ⟨⟨a1, a2, a3⟩, h⟩ => ?_)
    cases s with
    | ret r => simp only [Step.pos] at a1 a2 h; exact ⟨a1, a2, a3 r rfl, by omega⟩
    | go j out =>
      simp only [Step.pos] at a1 a2 h
      refine Prog.Cost.bind ((loopEnd_cost e (e + 1) j a2 out t1).mono fun s t2 _ ⟨⟨b1, b2, b3⟩, h'⟩ => ?_)
      cases s with
      | ret r => simp only [Step.pos] at b1 b2 h'; exact ⟨by omega, b2, b3 r rfl, by omega⟩
      | go k out =>
        simp only [Step.pos] at b1 b2 h'
        refine Prog.Cost.bind ((last2_cost ..).mono fun _ t3 _ h3 => ?_)
        exact ⟨hi, Nat.le_refl _, fun _ => rfl, by omega⟩

/-- Reads for each byte. -/
def perByte : Dec.Simd.Mode → Nat
  | .plain => 1
  | .raw => 3
  | .endRaw => 4

theorem scalar_cost (md : Dec.Simd.Mode) (st : Option Dec.State) (dlim i e : Nat) (hi : i ≤ e) (out : List Byte) : Spends i e (perByte md) 6 (scalar md st dlim i e out) := by
  intro t
  cases md with
  | plain => exact (noendPlain_cost st i e hi out t).mono fun r t' _ h => ⟨h.1, h.2.1, h.2.2.1, by simp only [perByte]; omega⟩
  | raw => exact noendRaw_cost st dlim i e hi out t
  | endRaw => exact (endRaw_cost _ i e hi out t).mono fun r t' _ h => ⟨h.1, h.2.1, h.2.2.1, by simp only [perByte]; omega⟩

theorem loop_i (width : Nat) (rs : Nat → Dec.Simd.Iter Bool) (lim dlim nm k t : Nat) (m : Mem) (i p : Nat) (e : Bool) (r : Dec.Simd.KRes)
    (h : loop width rs lim dlim nm k t m i p e = some r) : i ≤ r.i ∧ r.i ≤ i + k * width := by
  induction k generalizing t m i p e with
  | zero => simp only [loop, Option.some.injEq] at h; subst h; simp
  | succ k ih =>
    unfold loop at h
    dsimp only at h
    split at h
    · split at h
      · simp only [Option.some.injEq] at h; subst h; simp
      · split at h
        · have := ih _ _ _ _ _ h
          rw [Nat.add_mul]; omega
        · cases h
    · cases h

theorem cost_ite {α : Type} {Q : α → Nat → Prop} {c : Prop} [Decidable c] {p q : Prog α} {t : Nat} (hp : p.Cost Q t) (hq : q.Cost Q t) : (if c then p else q).Cost Q t := by
  split
  · exact hp
  · exact hq

theorem straddle_cost (md : Dec.Simd.Mode) (st : Dec.State) (i : Nat) (out : List Byte) (t : Nat) :
    (straddle md st i out).Cost (fun _ t' => t' ≤ t + 6) t := by
  have z : ∀ (x : Straddle) (u : Nat), u ≤ t + 6 → (Prog.ret x).Cost (fun _ t' => t' ≤ t + 6) u := fun x u h => h
  unfold straddle
  cases st <;> dsimp only <;>
    repeat' first
      | exact z _ _ (by omega)
      | apply cost_ite
      | (refine cost_rds _ fun bs _ => ?_)
      | (intro c; dsimp only)

theorem nextMask_cost (md : Dec.Simd.Mode) (i : Nat) (t : Nat) : (nextMask md i).Cost (fun _ t' => t' ≤ t + 6) t := by
  have z : ∀ (x : Nat) (u : Nat), u ≤ t + 6 → (Prog.ret x).Cost (fun _ t' => t' ≤ t + 6) u := fun x u h => h
  unfold nextMask
  dsimp only
  repeat' first
    | exact z _ _ (by omega)
    | apply cost_ite
    | (intro c; dsimp only)

theorem finish_cost (md : Dec.Simd.Mode) (dlim i e : Nat) (out : List Byte) (st : Dec.State) (t : Nat) :
    (finish md dlim i e out st).Cost (fun _ t' => t' ≤ t + perByte md * (e - i) + 6) t := by
  unfold finish
  split
  · exact (scalar_cost md _ dlim i e (by omega) out t).mono fun r t' _ h => h.2.2.2
  · show t ≤ _; omega

theorem aligned_cost (width : Nat) (lax : Bool) (rs : Nat → Dec.Simd.Iter Bool) (md : Dec.Simd.Mode) (addr n i : Nat) (out : List Byte) (st : Dec.State) (t : Nat) :
    (aligned width lax rs md addr n i out st).Cost (fun _ t' => t' ≤ t + perByte md * (n - i) + 18) t := by
  unfold aligned
  split
  · refine Prog.Cost.bind ((straddle_cost md st i out t).mono fun x t1 _ h1 => ?_)
    cases x with
    | ended r => show t1 ≤ _; omega
    | go _ =>
      dsimp only
      refine Prog.Cost.bind ((nextMask_cost md _ t1).mono fun nm t2 _ h2 => ?_)
      split
      · trivial
      · rename_i r hr
        have := (loop_i _ _ _ _ _ _ _ _ _ _ _ _ hr).1
        refine (finish_cost ..).mono fun _ t3 _ h3 => ?_
        have := Nat.mul_le_mul_left (perByte md) (show n - r.i ≤ n - i by omega)
        omega
  · exact (finish_cost ..).mono fun _ t3 _ h3 => by omega

theorem decode_cost (width : Nat) (hw : 0 < width) (lax : Bool) (rs : Nat → Dec.Simd.Iter Bool) (md : Dec.Simd.Mode) (addr n : Nat) (st : Option Dec.State) (t : Nat) :
    (decode width lax rs md addr n st).Cost (fun _ t' => t' ≤ t + perByte md * n + 24) t := by
  unfold decode
  split
  · exact (scalar_cost md st n 0 n (by omega) [] t).mono fun _ t' _ h => by have := h.2.2.2; rw [Nat.sub_zero] at this; omega
  · split
    · refine Prog.Cost.bind ((scalar_cost md _ n 0 (width - addr % width) (by omega) [] t).mono fun r t1 _ ⟨h1, h2, h3, h4⟩ => ?_)
      have := Nat.mod_lt addr hw
      split
      · rename_i he
        show t1 ≤ _
        have := Nat.mul_le_mul_left (perByte md) (show width - addr % width - 0 ≤ n by omega)
        omega
      · rename_i he
        have h3 := h3 (by simpa using he)
        refine (aligned_cost ..).mono fun _ t2 _ h5 => ?_
        have : perByte md * (width - addr % width - 0) + perByte md * (n - r.pos) = perByte md * n := by rw [← Nat.mul_add]; congr 1; omega
        omega
    · exact (aligned_cost ..).mono fun _ t2 _ h5 => by rw [Nat.sub_zero] at h5; omega

theorem loop_congr (width : Nat) (rs rs' : Nat → Dec.Simd.Iter Bool) (lim dlim nm k t : Nat) (m : Mem) (i p : Nat) (e : Bool) (h : ∀ j, t ≤ j → j < t + k → rs j = rs' j) :
    loop width rs lim dlim nm k t m i p e = loop width rs' lim dlim nm k t m i p e := by
  induction k generalizing t m i p e with
  | zero => rfl
  | succ k ih =>
    unfold loop
    dsimp only
    rw [h t (Nat.le_refl _) (by omega)]
    split
    · split
      · rfl
      · split
        · exact ih _ _ _ _ _ fun j h1 h2 => h j (by omega) (by omega)
        · rfl
    · rfl

/-- The kernel makes at most one round for each `width` bytes. -/
theorem decode_rounds (width : Nat) (hw : 0 < width) (lax : Bool) (rs rs' : Nat → Dec.Simd.Iter Bool) (md : Dec.Simd.Mode) (addr n : Nat) (st : Option Dec.State)
    (h : ∀ j, (j + 1) * width ≤ n → rs j = rs' j) : decode width lax rs md addr n st = decode width lax rs' md addr n st := by
  have key : ∀ i out st, aligned width lax rs md addr n i out st = aligned width lax rs' md addr n i out st := by
    intro i out st
    unfold aligned
    split
    · rename_i hlt
      have : ∀ nm m p e, loop width rs (readLimit lax addr n) n nm ((n - i - Dec.Simd.lenBuffer md width + (width - 1)) / width * width / width) 0 m i p e =
          loop width rs' (readLimit lax addr n) n nm ((n - i - Dec.Simd.lenBuffer md width + (width - 1)) / width * width / width) 0 m i p e := by
        intro nm m p e
        refine loop_congr _ _ _ _ _ _ _ _ _ _ _ _ fun j _ hj => h j ?_
        rw [Nat.mul_div_cancel _ hw, Nat.zero_add] at hj
        have h1 := Nat.div_mul_le_self (n - i - Dec.Simd.lenBuffer md width + (width - 1)) width
        have h2 := Nat.mul_le_mul_right width (show j + 1 ≤ _ from hj)
        have h3 : width - 1 ≤ Dec.Simd.lenBuffer md width := by unfold Dec.Simd.lenBuffer; omega
        omega
      simp only [this]
    · rfl
  unfold decode
  simp only [key]

end Simd

end Yenc.Shared
