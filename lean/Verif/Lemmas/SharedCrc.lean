import Verif.Model.SharedCrc
import Verif.Lemmas.Shared
import Verif.Lemmas.CrcImpl
/-! The CRC functions on data that changes: each is the function on a fixed copy, namely of the bytes as they were loaded. -/
namespace Yenc.Shared.SCrc
open Yenc Yenc.Crc

/-- A fixed copy of the Buffer that begins with the bytes `l`. -/
structure Fits (B : Buf) (l : List Byte) (S : Src) : Prop where
  addr : S.addr = B.addr
  len : S.data.length = B.len
  pre : l <+: S.data

theorem Fits.of_prefix {B : Buf} {l l' : List Byte} {S : Src} (h : Fits B l' S) (hp : l <+: l') : Fits B l S := ⟨h.addr, h.len, hp.trans h.pre⟩

/-- After `lo` bytes, `p` does what `f` does on every copy of the Buffer that begins with the bytes loaded; `hi` is how many bytes were loaded then. -/
def Sim {α : Type} (B : Buf) (p : Prog α) (f : Src → Option α) (lo : Nat) (hi : α → Nat) : Prop :=
  ∀ s l0, l0.length = lo → lo ≤ B.len → Seen s 0 l0 → (∀ S, Fits B l0 S → f S ≠ none) →
    p.Post B.len (fun s' a => ∃ l, l.length = hi a ∧ hi a ≤ B.len ∧ Seen s' 0 l ∧ l0 <+: l ∧ ∀ S, Fits B l S → f S = some a) s

theorem exists_fits (B : Buf) (l : List Byte) (h : l.length ≤ B.len) : ∃ S, Fits B l S :=
  ⟨⟨B.addr, l ++ List.replicate (B.len - l.length) 0#8, fun _ => 0#8⟩, rfl, by simp; omega, List.prefix_append _ _⟩

theorem Sim.ret {α : Type} {B : Buf} {lo : Nat} {hi : α → Nat} (a : α) (h : hi a = lo) : Sim B (.ret a) (fun _ => some a) lo hi :=
  fun _ l0 h1 h2 h3 _ => ⟨l0, by omega, by omega, h3, List.prefix_refl _, fun _ _ => rfl⟩

theorem Sim.ub {α : Type} {B : Buf} {lo : Nat} {hi : α → Nat} {f : Src → Option α} (h : ∀ S, S.addr = B.addr → S.data.length = B.len → f S = none) :
    Sim B .ub f lo hi := by
  intro s l0 h1 h2 h3 h4
  obtain ⟨S, hS⟩ := exists_fits B l0 (by omega)
  exact h4 S hS (h S hS.addr hS.len)

theorem Sim.lift {α : Type} {B : Buf} {lo : Nat} (o : Option α) : Sim B (lift o) (fun _ => o) lo (fun _ => lo) := by
  cases o with
  | none => exact Sim.ub fun _ _ _ => rfl
  | some a => exact Sim.ret a rfl

theorem Sim.congr {α : Type} {B : Buf} {p : Prog α} {f g : Src → Option α} {lo : Nat} {hi : α → Nat} (h : Sim B p f lo hi)
    (hfg : ∀ S, S.addr = B.addr → S.data.length = B.len → g S = f S) : Sim B p g lo hi := by
  intro s l0 h1 h2 h3 h4
  refine (h s l0 h1 h2 h3 fun S hS => by rw [← hfg S hS.addr hS.len]; exact h4 S hS).mono ?_
  rintro s' a - ⟨l, g1, g2, g3, g4, g5⟩
  exact ⟨l, g1, g2, g3, g4, fun S hS => by rw [hfg S hS.addr hS.len]; exact g5 S hS⟩

theorem Sim.lo {α : Type} {B : Buf} {p : Prog α} {f : Src → Option α} {lo lo' : Nat} {hi : α → Nat} (h : Sim B p f lo hi) (hh : lo' = lo) : Sim B p f lo' hi := by
  rw [hh]; exact h

theorem Sim.hi {α : Type} {B : Buf} {p : Prog α} {f : Src → Option α} {lo : Nat} {hi hi' : α → Nat} (h : Sim B p f lo hi)
    (hh : ∀ a, hi' a = hi a) : Sim B p f lo hi' := by
  rw [show hi' = hi from funext hh]; exact h

theorem Sim.bind {α β : Type} {B : Buf} {p : Prog α} {q : α → Prog β} {f : Src → Option α} {g : α → Src → Option β} {lo : Nat} {hi : α → Nat} {hi2 : β → Nat}
    (h : Sim B p f lo hi) (h2 : ∀ a, (∃ S, S.addr = B.addr ∧ S.data.length = B.len ∧ f S = some a) → Sim B (q a) (g a) (hi a) hi2) :
    Sim B (p.bind q) (fun S => (f S).bind fun a => g a S) lo hi2 := by
  intro s l0 g1 g2 g3 g4
  replace g4 : ∀ S, Fits B l0 S → ((f S).bind fun a => g a S) ≠ none := g4
  refine Prog.Post.bind ((h s l0 g1 g2 g3 fun S hS hn => g4 S hS (by rw [hn]; rfl)).mono ?_)
  rintro s' a - ⟨l, k1, k2, k3, k4, k5⟩
  obtain ⟨S0, hS0⟩ := exists_fits B l (by omega)
  refine (h2 a ⟨S0, hS0.addr, hS0.len, k5 S0 hS0⟩ s' l k1 k2 k3 fun S hS hn => g4 S (hS.of_prefix k4) (by rw [k5 S hS]; exact hn)).mono ?_
  rintro s'' b - ⟨l', m1, m2, m3, m4, m5⟩
  exact ⟨l', m1, m2, m3, k4.trans m4, fun S hS => by show (f S).bind _ = _; rw [k5 S (hS.of_prefix m4)]; exact m5 S hS⟩

theorem Sim.ite {α : Type} {B : Buf} {p q : Prog α} {f g : Src → Option α} {lo : Nat} {hi : α → Nat} (c : Prop) [Decidable c]
    (hp : c → Sim B p f lo hi) (hq : ¬ c → Sim B q g lo hi) : Sim B (if c then p else q) (fun S => if c then f S else g S) lo hi := by
  by_cases hc : c
  · simp only [hc, if_true]; exact hp hc
  · simp only [hc, if_false]; exact hq hc

theorem Sim.rd {α : Type} {B : Buf} {k : Byte → Prog α} {g : Byte → Src → Option α} {i : Nat} {hi : α → Nat} (hl : i < B.len)
    (h : ∀ b, Sim B (k b) (g b) (i + 1) hi) : Sim B (.rd i k) (fun S => g (S.data.getD i 0#8) S) i hi := by
  intro s l0 h1 h2 h3 h4
  refine ⟨hl, fun b => ?_⟩
  have hb : ∀ S, Fits B (l0 ++ [b]) S → S.data.getD i 0#8 = b := by
    rintro S ⟨_, _, r, hr⟩
    rw [← hr, List.getD_eq_getElem?_getD, List.append_assoc, List.getElem?_append_right (by omega)]
    simp [h1]
  refine (h b ((i, b) :: s) (l0 ++ [b]) (by simp [h1]) (by omega) ?_ ?_).mono ?_
  · refine (h3.mono (List.subset_cons_self _ _)).append ?_
    rw [h1, Nat.zero_add]
    exact Seen.cons List.mem_cons_self (Seen.nil _ _)
  · intro S hS
    have := h4 S (hS.of_prefix (List.prefix_append _ _))
    simp only at this
    rw [hb S hS] at this; exact this
  · rintro s' a - ⟨l, g1, g2, g3, g4, g5⟩
    exact ⟨l, g1, g2, g3, (List.prefix_append _ _).trans g4, fun S hS => by simp only; rw [hb S (hS.of_prefix g4)]; exact g5 S hS⟩

/-- The bytes loaded are those of every copy that begins with them. -/
theorem Fits.at_eq {B : Buf} {l0 bs : List Byte} {S : Src} (h : Fits B (l0 ++ bs) S) (j : Nat) (hj : j < bs.length) (d : Byte) : bs.getD j d = S.at (l0.length + j) := by
  obtain ⟨_, _, r, hr⟩ := h
  rw [Src.at, ← hr, List.getD_eq_getElem?_getD, List.getD_eq_getElem?_getD, List.append_assoc, List.getElem?_append_right (by omega), Nat.add_sub_cancel_left,
    List.getElem?_append_left hj, List.getElem?_eq_getElem hj]
  rfl

/-- Loading a number. -/
theorem Sim.num {α : Type} {B : Buf} {off n : Nat} {hi : α → Nat} (F : Nat → α) (h : ∀ v, hi (F v) = off + n) :
    Sim B ((loadu B n off).bind fun v => .ret (F (v.le 0 n))) (fun S => (S.loadu n off).map fun v => F (v.le 0 n)) off hi := by
  intro s l0 h1 h2 h3 h4
  obtain ⟨S0, hS0⟩ := exists_fits B l0 (by omega)
  have hle : off + n ≤ B.len := by
    have := h4 S0 hS0
    simp only at this
    rw [Src.loadu, hS0.len] at this
    by_contra hn
    exact this (by rw [if_neg hn]; rfl)
  refine Prog.Post.bind ?_
  rw [loadu, if_pos hle]
  refine rds_post n off _ s (by omega) ?_
  intro bs s' hbs hss hseen
  refine ⟨l0 ++ bs, by rw [h]; simp [h1, hbs], by rw [h]; omega, (h3.mono hss).append (by rw [h1, Nat.zero_add]; exact hseen), List.prefix_append _ _, ?_⟩
  intro S hS
  simp only
  rw [Src.loadu, hS.len, if_pos hle]
  simp only [Option.map_some]
  congr 2
  apply le_congr
  intro j hj
  rw [Nat.zero_add]
  rw [hS.at_eq j (by omega) 0#8, h1]

/-- As `Sim`, at the end, where it does not matter how many bytes were loaded. -/
def Fin {α : Type} (B : Buf) (p : Prog α) (f : Src → Option α) (lo : Nat) : Prop :=
  ∀ s l0, l0.length = lo → lo ≤ B.len → Seen s 0 l0 → (∀ S, Fits B l0 S → f S ≠ none) →
    p.Post B.len (fun s' a => ∃ l, l.length ≤ B.len ∧ Seen s' 0 l ∧ l0 <+: l ∧ ∀ S, Fits B l S → f S = some a) s

theorem Sim.fin {α : Type} {B : Buf} {p : Prog α} {f : Src → Option α} {lo : Nat} {hi : α → Nat} (h : Sim B p f lo hi) : Fin B p f lo := by
  intro s l0 h1 h2 h3 h4
  refine (h s l0 h1 h2 h3 h4).mono ?_
  rintro s' a - ⟨l, g1, g2, g⟩
  exact ⟨l, by omega, g⟩

theorem Fin.congr {α : Type} {B : Buf} {p : Prog α} {f g : Src → Option α} {lo : Nat} (h : Fin B p f lo)
    (hfg : ∀ S, S.addr = B.addr → S.data.length = B.len → g S = f S) : Fin B p g lo := by
  intro s l0 h1 h2 h3 h4
  refine (h s l0 h1 h2 h3 fun S hS => by rw [← hfg S hS.addr hS.len]; exact h4 S hS).mono ?_
  rintro s' a - ⟨l, g1, g2, g4, g5⟩
  exact ⟨l, g1, g2, g4, fun S hS => by rw [hfg S hS.addr hS.len]; exact g5 S hS⟩

theorem Fin.map {α β : Type} {B : Buf} {p : Prog α} {f : Src → Option α} {lo : Nat} (h : Fin B p f lo) (F : α → β) :
    Fin B (p.bind fun a => .ret (F a)) (fun S => (f S).map F) lo := by
  intro s l0 h1 h2 h3 h4
  replace h4 : ∀ S, Fits B l0 S → (f S).map F ≠ none := h4
  refine Prog.Post.bind ((h s l0 h1 h2 h3 fun S hS hn => h4 S hS (by rw [hn]; rfl)).mono ?_)
  rintro s' a - ⟨l, g1, g2, g4, g5⟩
  exact ⟨l, g1, g2, g4, fun S hS => by show (f S).map F = _; rw [g5 S hS]; rfl⟩

theorem Sim.bindFin {α β : Type} {B : Buf} {p : Prog α} {q : α → Prog β} {f : Src → Option α} {g : α → Src → Option β} {lo : Nat} {hi : α → Nat}
    (h : Sim B p f lo hi) (h2 : ∀ a, (∃ S, S.addr = B.addr ∧ S.data.length = B.len ∧ f S = some a) → Fin B (q a) (g a) (hi a)) :
    Fin B (p.bind q) (fun S => (f S).bind fun a => g a S) lo := by
  intro s l0 g1 g2 g3 g4
  replace g4 : ∀ S, Fits B l0 S → ((f S).bind fun a => g a S) ≠ none := g4
  refine Prog.Post.bind ((h s l0 g1 g2 g3 fun S hS hn => g4 S hS (by rw [hn]; rfl)).mono ?_)
  rintro s' a - ⟨l, k1, k2, k3, k4, k5⟩
  obtain ⟨S0, hS0⟩ := exists_fits B l (by omega)
  refine (h2 a ⟨S0, hS0.addr, hS0.len, k5 S0 hS0⟩ s' l k1 k2 k3 fun S hS hn => g4 S (hS.of_prefix k4) (by rw [k5 S hS]; exact hn)).mono ?_
  rintro s'' b - ⟨l', m1, m3, m4, m5⟩
  exact ⟨l', m1, m3, k4.trans m4, fun S hS => by show (f S).bind _ = _; rw [k5 S (hS.of_prefix m4)]; exact m5 S hS⟩

theorem Fin.ite {α : Type} {B : Buf} {p q : Prog α} {f g : Src → Option α} {lo : Nat} (c : Prop) [Decidable c]
    (hp : c → Fin B p f lo) (hq : ¬ c → Fin B q g lo) : Fin B (if c then p else q) (fun S => if c then f S else g S) lo := by
  by_cases hc : c
  · simp only [hc, if_true]; exact hp hc
  · simp only [hc, if_false]; exact hq hc

/-- What is to be shown of a CRC function: it returns the CRC of every copy that begins with the bytes loaded. -/
def Good (B : Buf) (init : U32) (p : Prog U32) : Prop :=
  p.Post B.len (fun s r => ∃ l, l.length ≤ B.len ∧ Seen s 0 l ∧ ∀ S, Fits B l S → Spec.IsCrc32 init S.data r) []

theorem Fin.good {B : Buf} {init : U32} {p : Prog U32} {f : Src → Option U32} (h : Fin B p f 0)
    (hf : ∀ S, S.addr = B.addr → S.data.length = B.len → ∃ r, f S = some r ∧ Spec.IsCrc32 init S.data r) : Good B init p := by
  refine (h [] [] rfl (Nat.zero_le _) (Seen.nil _ _) fun S hS hn => ?_).mono ?_
  · obtain ⟨r, h1, _⟩ := hf S hS.addr hS.len
    rw [hn] at h1; cases h1
  · rintro s r - ⟨l, g1, g3, _, g5⟩
    refine ⟨l, g1, g3, fun S hS => ?_⟩
    obtain ⟨r', h1, h2⟩ := hf S hS.addr hS.len
    rw [g5 S hS] at h1
    cases h1; exact h2

/-! ### ARM -/

theorem Arm.word_sim (B : Buf) (n : Nat) (st : U32 × Nat) : Sim B (Arm.word B n st) (fun S => Crc.Arm.word S n st) st.2 (·.2) :=
  Sim.num (fun v => (Crc.Arm.crc32 (8 * n) st.1 (BitVec.ofNat (8 * n) v), st.2 + n)) fun _ => rfl

theorem Arm.words_sim (B : Buf) (n k : Nat) (st : U32 × Nat) : Sim B (Arm.words B n k st) (fun S => Crc.Arm.words S n k st) st.2 (·.2) := by
  induction k generalizing st with
  | zero => exact Sim.ret st rfl
  | succ k ih => exact (Arm.word_sim B n st).bind fun a _ => ih a

theorem Arm.cond_sim {B : Buf} (c : Bool) {p : U32 × Nat → Prog (U32 × Nat)} {f : Src → U32 × Nat → Option (U32 × Nat)} (st : U32 × Nat)
    (h : Sim B (p st) (fun S => f S st) st.2 (·.2)) : Sim B (Arm.cond c p st) (fun S => Crc.Arm.cond c (f S) st) st.2 (·.2) :=
  Sim.ite (c = true) (fun _ => h) fun _ => Sim.ret st rfl

theorem Arm.align_sim (W : Nat) (B : Buf) (len : Int) (st : U32 × Nat) : Sim B (Arm.align W B len st) (fun S => Crc.Arm.align W S len st) st.2 (·.2) := by
  refine Sim.congr (Sim.ite (len ≥ 16) (fun _ => (Arm.cond_sim _ st (Arm.word_sim B 1 st)).bind fun st _ => (Arm.cond_sim _ st (Arm.word_sim B 2 st)).bind fun st _ =>
    Arm.cond_sim _ st (Arm.word_sim B 4 st)) fun _ => Sim.ret st rfl) ?_
  intro S hS _
  rw [Crc.Arm.align, hS]

theorem Arm.loop_sim (W : Nat) (B : Buf) (f : Nat) (st : U32 × Nat) (len : Int) (hf : len.toNat < f) :
    Sim B (Arm.loop W B f st len) (fun S => Crc.Arm.loop W S st len) st.2 (·.1.2) := by
  induction f generalizing st len with
  | zero => omega
  | succ f ih =>
    rw [Arm.loop]
    by_cases h : W > 0 ∧ len - 8 * W ≥ 0
    · rw [if_pos h]
      refine Sim.congr ((Arm.words_sim B W 8 st).bind fun st _ => ih st _ (by omega)) ?_
      intro S _ _
      rw [Crc.Arm.loop, dif_pos h]
      cases Crc.Arm.words S W 8 st <;> rfl
    · rw [if_neg h]
      refine Sim.congr (Sim.ret _ rfl) ?_
      intro S _ _
      rw [Crc.Arm.loop, dif_neg h]

theorem Arm.tail_sim (L : Nat) (B : Buf) (len : Int) (st : U32 × Nat) : Sim B (Arm.tail L B len st) (fun S => Crc.Arm.tail L S len st) st.2 (·.2) :=
  (Arm.cond_sim _ st (Arm.words_sim B _ 4 st)).bind fun st _ => (Arm.cond_sim _ st (Arm.words_sim B _ 2 st)).bind fun st _ =>
  (Arm.cond_sim _ st (Arm.words_sim B _ 1 st)).bind fun st _ => (Arm.cond_sim _ st (Arm.word_sim B 4 st)).bind fun st _ =>
  (Arm.cond_sim _ st (Arm.word_sim B 2 st)).bind fun st _ => Arm.cond_sim _ st (Arm.word_sim B 1 st)

theorem Arm.calc_fin (L : Nat) (B : Buf) (crc : U32) : Fin B (Arm.armCalc L B crc) (fun S => Crc.Arm.armCalc L S crc B.len) 0 :=
  (Arm.align_sim _ B B.len (crc, 0)).bindFin fun st _ => (Arm.loop_sim _ B _ st _ (by omega)).bindFin fun x _ =>
    (Arm.tail_sim L B x.2 x.1).fin.map fun st => st.1

theorem Arm.good (L : Nat) (hL : L = 2 ∨ L = 3) (B : Buf) (init : U32) : Good B init ((Arm.armCalc L B (~~~init)).bind fun r => .ret (~~~r)) := by
  refine ((Arm.calc_fin L B (~~~init)).map fun r => ~~~r).good ?_
  intro S _ hS
  simp only [← hS]
  exact map_not_spec (armCalc_spec L hL S init)

/-! ### RISC-V -/

theorem Rv.readPartial_sim (w : Nat) (B : Buf) (off sz : Nat) : Sim B (Rv.readPartial w B off sz) (fun S => Crc.Rv.readPartial w S off sz) off (fun _ => off + sz) :=
  Sim.num (fun v => BitVec.ofNat w v) fun _ => rfl

theorem Rv.readFull_sim (w : Nat) (B : Buf) (off : Nat) : Sim B (Rv.readFull w B off) (fun S => Crc.Rv.readFull w S off) off (fun _ => off + w / 8) := by
  refine Sim.congr (Sim.ite ((B.addr + off) % (w / 8) = 0) (fun _ => Sim.num (fun v => BitVec.ofNat w v) fun _ => rfl) fun _ => Sim.ub fun _ _ _ => rfl) ?_
  intro S hS _
  rw [Crc.Rv.readFull, hS]

theorem Sim.map {α β : Type} {B : Buf} {p : Prog α} {f : Src → Option α} {lo : Nat} {hi : α → Nat} {hi2 : β → Nat} (h : Sim B p f lo hi) (F : α → β)
    (hh : ∀ a, hi2 (F a) = hi a) : Sim B (p.bind fun a => .ret (F a)) (fun S => (f S).map F) lo hi2 := by
  refine Sim.congr (h.bind fun a _ => Sim.ret (F a) (hh a)) ?_
  intro S _ _
  cases f S <;> rfl

theorem Rv.align_sim {w : Nat} (B : Buf) (len : Int) (a : Crc.Rv.Acc w) : Sim B (Rv.align B len a) (fun S => Crc.Rv.align S len a) 0 (·.2.1) := by
  refine Sim.congr (Sim.ite (B.addr % (w / 8) ≠ 0 ∧ len ≥ ((w / 8 - B.addr % (w / 8) : Nat) : Int)) (fun _ => (Rv.readPartial_sim w B 0 _).map _ ?_) fun _ => Sim.ret _ rfl) ?_
  · intro d
    by_cases h : w = 64
    · rw [if_pos h]; simp
    · rw [if_neg h]; simp
  · intro S hS _
    rw [Crc.Rv.align, hS]

theorem Rv.loop_sim {w : Nat} (B : Buf) (f : Nat) (a : Crc.Rv.Acc w) (off : Nat) (len : Int) (hf : len.toNat < f) :
    Sim B (Rv.loop B f a off len) (fun S => Crc.Rv.loop S a off len) off (·.2.1) := by
  induction f generalizing a off len with
  | zero => omega
  | succ f ih =>
    rw [Rv.loop]
    simp only
    by_cases h : w / 8 > 0 ∧ len - 4 * (w / 8 : Nat) ≥ 0
    · rw [if_pos h]
      have h4 : ∀ a : Crc.Rv.Acc w, Sim B (Rv.loop B f a (off + 4 * (w / 8)) (len - 4 * (w / 8 : Nat))) (fun S => Crc.Rv.loop S a (off + 4 * (w / 8)) (len - 4 * (w / 8 : Nat)))
          (off + 3 * (w / 8) + w / 8) (·.2.1) := fun a => (ih a _ _ (by omega)).lo (by omega)
      have h3 := fun g : BitVec w → Crc.Rv.Acc w => (Rv.readFull_sim w B (off + 3 * (w / 8))).bind fun d3 _ => h4 (g d3)
      have h2 := fun g : BitVec w → BitVec w → Crc.Rv.Acc w => (Rv.readFull_sim w B (off + 2 * (w / 8))).bind fun d2 _ =>
        (h3 (g d2)).lo (show off + 2 * (w / 8) + w / 8 = off + 3 * (w / 8) by omega)
      refine Sim.congr ((Rv.readFull_sim w B off).bind fun d0 _ => (Rv.readFull_sim w B (off + w / 8)).bind fun d1 _ =>
        (h2 fun d2 d3 => ⟨(Crc.Rv.foldPair a.a0 a.a1).1 ^^^ d0, (Crc.Rv.foldPair a.a0 a.a1).2 ^^^ d1, (Crc.Rv.foldPair a.a2 a.a3).1 ^^^ d2, (Crc.Rv.foldPair a.a2 a.a3).2 ^^^ d3⟩).lo
          (show off + w / 8 + w / 8 = off + 2 * (w / 8) by omega)) ?_
      intro S _ _
      rw [Crc.Rv.loop, dif_pos h]
      cases Crc.Rv.readFull w S off <;> cases Crc.Rv.readFull w S (off + w / 8) <;> cases Crc.Rv.readFull w S (off + 2 * (w / 8)) <;>
        cases Crc.Rv.readFull w S (off + 3 * (w / 8)) <;> rfl
    · rw [if_neg h]
      refine Sim.congr (Sim.ret _ rfl) ?_
      intro S _ _
      rw [Crc.Rv.loop, dif_neg h]

theorem Rv.two_sim {w : Nat} (B : Buf) (len : Int) (a : Crc.Rv.Acc w) (off : Nat) : Sim B (Rv.two B len a off) (fun S => Crc.Rv.two S len a off) off (·.2) := by
  refine Sim.congr (Sim.ite (len / ((w / 8 : Nat) * 2) % 2 = 1) (fun _ => (Rv.readFull_sim w B off).bind fun d0 _ => (Rv.readFull_sim w B (off + w / 8)).bind fun d1 _ =>
    Sim.ret _ (by simp only; omega)) fun _ => Sim.ret _ rfl) ?_
  intro S _ _
  rw [Crc.Rv.two]
  by_cases h : len / ((w / 8 : Nat) * 2) % 2 = 1
  · rw [if_pos h, if_pos h]
    cases Crc.Rv.readFull w S off <;> cases Crc.Rv.readFull w S (off + w / 8) <;> rfl
  · rw [if_neg h, if_neg h]

theorem Rv.one_sim {w : Nat} (B : Buf) (len : Int) (a : Crc.Rv.Acc w) (off : Nat) : Sim B (Rv.one B len a off) (fun S => Crc.Rv.one S len a off) off (·.2) :=
  Sim.ite _ (fun _ => (Rv.readFull_sim w B off).map _ fun _ => rfl) fun _ => Sim.ret _ rfl

theorem Rv.rest_fin {w : Nat} (B : Buf) (len : Int) (a : Crc.Rv.Acc w) (off : Nat) : Fin B (Rv.rest B len a off) (fun S => Crc.Rv.rest S len a off) off :=
  Fin.ite _ (fun _ => (Rv.readPartial_sim w B off _).fin.map _) fun _ => (Sim.ret (hi := fun _ => off) _ rfl).fin

theorem Rv.align_len {w : Nat} (S : Src) (n : Nat) (a : Crc.Rv.Acc w) (x : Crc.Rv.Acc w × Nat × Int) (h : Crc.Rv.align S n a = some x) : x.2.2.toNat < n + 1 := by
  rw [Crc.Rv.align] at h
  simp only at h
  split at h
  · rcases hr : Crc.Rv.readPartial w S 0 (w / 8 - S.addr % (w / 8)) with _ | d
    · rw [hr] at h; cases h
    · rw [hr, Option.map_some] at h
      split at h <;> (cases h; simp only; omega)
  · cases h; simp only; omega

theorem Rv.calc_fin (w : Nat) (B : Buf) (crc : U32) : Fin B (Rv.crcCalc w B crc) (fun S => Crc.Rv.crcCalc w S crc B.len) 0 :=
  (Rv.align_sim B B.len _).bindFin fun x hx => (Rv.loop_sim B _ x.1 x.2.1 x.2.2 (by obtain ⟨S, _, _, h⟩ := hx; exact Rv.align_len S B.len _ x h)).bindFin fun x _ =>
    (Rv.two_sim B x.2.2 x.1 x.2.1).bindFin fun y _ => (Rv.one_sim B x.2.2 y.1 y.2).bindFin fun z _ => (Rv.rest_fin B x.2.2 z.1 z.2).map _

theorem Rv.good (w : Nat) (hw : w = 64 ∨ w = 32) (B : Buf) (init : U32) : Good B init ((Rv.crcCalc w B (~~~init)).bind fun r => .ret (~~~r)) := by
  refine ((Rv.calc_fin w B (~~~init)).map fun r => ~~~r).good ?_
  intro S _ hS
  simp only [← hS]
  exact map_not_spec (crcCalc_spec w hw S init)

end Yenc.Shared.SCrc
