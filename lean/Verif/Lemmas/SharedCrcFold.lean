import Verif.Lemmas.SharedCrc
/-! The portable CRC code and the x86 code with carry-less multiplication, on data that changes. -/
namespace Yenc.Shared.SCrc
open Yenc Yenc.Crc Vec

/-- After `lo` bytes, `p` returns something that is in relation `R` to every copy of the Buffer that begins with the bytes loaded; `hi` is how many bytes were loaded then. -/
def RSim {α : Type} (B : Buf) (p : Prog α) (lo : Nat) (hi : α → Nat) (R : α → Src → Prop) : Prop :=
  ∀ s l0, l0.length = lo → lo ≤ B.len → Seen s 0 l0 →
    p.Post B.len (fun s' a => ∃ l, l.length = hi a ∧ hi a ≤ B.len ∧ Seen s' 0 l ∧ l0 <+: l ∧ ∀ S, Fits B l S → R a S) s

theorem RSim.ret {α : Type} {B : Buf} {lo : Nat} {hi : α → Nat} {R : α → Src → Prop} (a : α) (h : hi a = lo)
    (hR : ∀ S, S.addr = B.addr → S.data.length = B.len → R a S) : RSim B (.ret a) lo hi R :=
  fun _ l0 h1 h2 h3 => ⟨l0, by omega, by omega, h3, List.prefix_refl _, fun S hS => hR S hS.addr hS.len⟩

theorem RSim.mono {α : Type} {B : Buf} {p : Prog α} {lo : Nat} {hi : α → Nat} {R R' : α → Src → Prop} (h : RSim B p lo hi R)
    (hR : ∀ a S, S.addr = B.addr → S.data.length = B.len → R a S → R' a S) : RSim B p lo hi R' := by
  intro s l0 h1 h2 h3
  refine (h s l0 h1 h2 h3).mono ?_
  rintro s' a - ⟨l, g1, g2, g3, g4, g5⟩
  exact ⟨l, g1, g2, g3, g4, fun S hS => hR a S hS.addr hS.len (g5 S hS)⟩

theorem RSim.bind {α β : Type} {B : Buf} {p : Prog α} {q : α → Prog β} {lo : Nat} {hi : α → Nat} {hi2 : β → Nat} {R : α → Src → Prop} {R2 : α → β → Src → Prop}
    (h : RSim B p lo hi R) (h2 : ∀ a, hi a ≤ B.len → (∃ S, S.addr = B.addr ∧ S.data.length = B.len ∧ R a S) → RSim B (q a) (hi a) hi2 (R2 a)) :
    RSim B (p.bind q) lo hi2 (fun b S => ∃ a, R a S ∧ R2 a b S) := by
  intro s l0 g1 g2 g3
  refine Prog.Post.bind ((h s l0 g1 g2 g3).mono ?_)
  rintro s' a - ⟨l, k1, k2, k3, k4, k5⟩
  obtain ⟨S0, hS0⟩ := exists_fits B l (by omega)
  refine (h2 a k2 ⟨S0, hS0.addr, hS0.len, k5 S0 hS0⟩ s' l k1 k2 k3).mono ?_
  rintro s'' b - ⟨l', m1, m2, m3, m4, m5⟩
  exact ⟨l', m1, m2, m3, k4.trans m4, fun S hS => ⟨a, k5 S (hS.of_prefix m4), m5 S hS⟩⟩

theorem RSim.rds {α : Type} {B : Buf} {i m : Nat} {k : List Byte → Prog α} {hi : α → Nat} {R : List Byte → α → Src → Prop} (hl : i + m ≤ B.len)
    (h : ∀ bs, bs.length = m → RSim B (k bs) (i + m) hi (R bs)) :
    RSim B (rds i m k) i hi (fun a S => ∃ bs, bs.length = m ∧ S.data.drop i = bs ++ S.data.drop (i + m) ∧ R bs a S) := by
  intro s l0 h1 h2 h3
  refine rds_post m i _ s hl ?_
  intro bs s' hbs hss hseen
  refine (h bs hbs s' (l0 ++ bs) (by simp [h1, hbs]) hl ((h3.mono hss).append (by rw [h1, Nat.zero_add]; exact hseen))).mono ?_
  rintro s'' a - ⟨l, g1, g2, g3, g4, g5⟩
  refine ⟨l, g1, g2, g3, (List.prefix_append _ _).trans g4, fun S hS => ⟨bs, hbs, ?_, g5 S hS⟩⟩
  obtain ⟨r, hr⟩ := (hS.of_prefix g4).pre
  rw [← hr, List.append_assoc, List.drop_append_of_le_length (by omega), List.drop_eq_nil_of_le (by omega : l0.length ≤ i), List.nil_append, ← List.append_assoc,
    List.drop_append_of_le_length (by simp; omega), List.drop_eq_nil_of_le (by simp; omega), List.nil_append]

theorem RSim.rd {α : Type} {B : Buf} {i : Nat} {k : Byte → Prog α} {hi : α → Nat} {R : Byte → α → Src → Prop} (hl : i < B.len)
    (h : ∀ b, RSim B (k b) (i + 1) hi (R b)) :
    RSim B (.rd i k) i hi (fun a S => ∃ b, S.data.drop i = b :: S.data.drop (i + 1) ∧ R b a S) := by
  have := RSim.rds (B := B) (i := i) (m := 1) (k := fun bs => k (bs.getD 0 0#8)) (hi := hi) (R := fun bs => R (bs.getD 0 0#8)) (by omega) fun bs _ => h _
  refine RSim.mono this ?_
  rintro a S _ _ ⟨bs, h1, h2, h3⟩
  rcases bs with _ | ⟨b, _ | ⟨c, bs⟩⟩ <;> simp at h1
  exact ⟨b, h2, h3⟩

/-! ### The portable code -/

theorem len16 {l : List Byte} (h : l.length = 16) : ∃ p0 p1 p2 p3 p4 p5 p6 p7 p8 p9 pa pb pc pd pe pf, l = [p0, p1, p2, p3, p4, p5, p6, p7, p8, p9, pa, pb, pc, pd, pe, pf] := by
  rcases l with _ | ⟨p0, _ | ⟨p1, _ | ⟨p2, _ | ⟨p3, _ | ⟨p4, _ | ⟨p5, _ | ⟨p6, _ | ⟨p7, _ | ⟨p8, _ | ⟨p9, _ | ⟨pa, _ | ⟨pb,
    _ | ⟨pc, _ | ⟨pd, _ | ⟨pe, _ | ⟨pf, _ | ⟨pg, l2⟩⟩⟩⟩⟩⟩⟩⟩⟩⟩⟩⟩⟩⟩⟩⟩⟩ <;>
    first | (exfalso; simp only [List.length_cons, List.length_nil] at h; omega) | exact ⟨_, _, _, _, _, _, _, _, _, _, _, _, _, _, _, _, rfl⟩

theorem len12 {l : List Byte} (h : l.length = 12) : ∃ p0 p1 p2 p3 p4 p5 p6 p7 p8 p9 pa pb, l = [p0, p1, p2, p3, p4, p5, p6, p7, p8, p9, pa, pb] := by
  rcases l with _ | ⟨p0, _ | ⟨p1, _ | ⟨p2, _ | ⟨p3, _ | ⟨p4, _ | ⟨p5, _ | ⟨p6, _ | ⟨p7, _ | ⟨p8, _ | ⟨p9, _ | ⟨pa, _ | ⟨pb,
    _ | ⟨pg, l2⟩⟩⟩⟩⟩⟩⟩⟩⟩⟩⟩⟩⟩ <;>
    first | (exfalso; simp only [List.length_cons, List.length_nil] at h; omega) | exact ⟨_, _, _, _, _, _, _, _, _, _, _, _, rfl⟩

theorem chains_r (B : Buf) (k : Nat) (a : Acc) (i : Nat) (h : i + 16 * k ≤ B.len) :
    RSim B (chains k a i) i (·.2) (fun x S => x.2 = i + 16 * k ∧ Crc.chains k a (S.data.drop i) = some (x.1, S.data.drop x.2)) := by
  induction k generalizing a i with
  | zero => exact RSim.ret _ rfl fun S _ _ => ⟨rfl, rfl⟩
  | succ k ih =>
    rw [chains]
    refine RSim.mono (RSim.rds (R := fun bs x S => ∃ a', x.2 = i + 16 + 16 * k ∧ Crc.chains k a' (S.data.drop (i + 16)) = some (x.1, S.data.drop x.2) ∧
      Crc.chains (k + 1) a (bs ++ S.data.drop (i + 16)) = Crc.chains k a' (S.data.drop (i + 16))) (by omega) ?_) ?_
    · intro bs hbs
      obtain ⟨p0, p1, p2, p3, p4, p5, p6, p7, p8, p9, pa, pb, pc, pd, pe, pf, rfl⟩ := len16 hbs
      refine RSim.mono (ih _ (i + 16) (by omega)) ?_
      rintro x S _ _ ⟨h1, h2⟩
      exact ⟨_, h1, h2, rfl⟩
    · rintro x S _ _ ⟨bs, h1, h2, a', h3, h4, h5⟩
      exact ⟨by omega, by rw [h2, h5, h4]⟩

theorem aggregate_r (B : Buf) (a : Acc) (i : Nat) (h1 : 12 ≤ B.len - i) (h2 : B.len - i < 28) (hi : i ≤ B.len) :
    RSim B (aggregate B.len a i) i (·.2) (fun x S => Crc.aggregate a (S.data.drop i) = some (x.1, S.data.drop x.2)) := by
  rw [aggregate]
  by_cases h : 16 ≤ B.len - i
  · have h16 := (and_16 _ h1 h2).2 h
    rw [if_pos h16]
    refine RSim.mono (RSim.rds (R := fun bs x S => Crc.aggregate a (bs ++ S.data.drop (i + 16)) = some (x.1, S.data.drop x.2)) (by omega) ?_) ?_
    · intro bs hbs
      obtain ⟨p0, p1, p2, p3, p4, p5, p6, p7, p8, p9, pa, pb, pc, pd, pe, pf, rfl⟩ := len16 hbs
      refine RSim.ret _ rfl fun S _ hS => ?_
      unfold Crc.aggregate
      rw [if_pos]
      · rfl
      · rwa [show ([p0, p1, p2, p3, p4, p5, p6, p7, p8, p9, pa, pb, pc, pd, pe, pf] ++ S.data.drop (i + 16)).length = B.len - i by simp; omega]
    · rintro x S _ _ ⟨bs, h1, h2, h3⟩
      rw [h2, h3]
  · have h16 := fun hc => h ((and_16 _ h1 h2).1 hc)
    rw [if_neg h16]
    refine RSim.mono (RSim.rds (R := fun bs x S => Crc.aggregate a (bs ++ S.data.drop (i + 12)) = some (x.1, S.data.drop x.2)) (by omega) ?_) ?_
    · intro bs hbs
      obtain ⟨p0, p1, p2, p3, p4, p5, p6, p7, p8, p9, pa, pb, rfl⟩ := len12 hbs
      refine RSim.ret _ rfl fun S _ hS => ?_
      unfold Crc.aggregate
      rw [if_neg]
      · rfl
      · rwa [show ([p0, p1, p2, p3, p4, p5, p6, p7, p8, p9, pa, pb] ++ S.data.drop (i + 12)).length = B.len - i by simp; omega]
    · rintro x S _ _ ⟨bs, h1, h2, h3⟩
      rw [h2, h3]

theorem tail_r (B : Buf) (k : Nat) (crc : U32) (i : Nat) (h : i + k = B.len) :
    RSim B (tail k crc i) i (fun _ => B.len) (fun c S => c = Crc.tail crc (S.data.drop i)) := by
  induction k generalizing crc i with
  | zero => exact RSim.ret _ (by omega) fun S _ hS => by rw [List.drop_eq_nil_of_le (by omega)]; rfl
  | succ k ih =>
    rw [tail]
    refine RSim.mono (RSim.rd (by omega) fun b => ih (step crc b) (i + 1) (by omega)) ?_
    rintro c S _ _ ⟨b, h1, h2⟩
    rw [h1, h2]; rfl

theorem align1_r (B : Buf) (crc : U32) : RSim B (align1 B crc) 0 (·.2.2) (fun x S => Crc.align1 S.addr crc S.data = (x.1, x.2.1, S.data.drop x.2.2)) := by
  rw [align1]
  by_cases h : 1 ≤ B.len ∧ B.addr &&& 1 ≠ 0
  · rw [if_pos h]
    refine RSim.mono (RSim.rd (R := fun b x S => x = (B.addr + 1, step crc b, 1)) (by omega) fun b => RSim.ret _ rfl fun _ _ _ => rfl) ?_
    rintro x S hS _ ⟨b, h1, rfl⟩
    rw [List.drop_zero] at h1
    rw [h1]
    unfold Crc.align1
    simp only
    rw [hS, if_pos h.2]
    simp
  · rw [if_neg h]
    refine RSim.ret _ rfl fun S hS hn => ?_
    rcases hd : S.data with _ | ⟨b, bs⟩
    · simp [hS, Crc.align1]
    · rw [hd] at hn
      simp only [List.length_cons] at hn
      unfold Crc.align1
      simp only
      rw [if_neg (by intro hc; exact h ⟨by omega, by rw [← hS]; exact hc⟩)]
      simp [hS]

theorem align2_r (B : Buf) (addr : Nat) (crc : U32) (i : Nat) :
    RSim B (align2 B addr crc i) i (·.2) (fun x S => Crc.align2 addr crc (S.data.drop i) = (x.1, S.data.drop x.2)) := by
  rw [align2]
  by_cases h : i + 2 ≤ B.len ∧ addr &&& 2 ≠ 0
  · rw [if_pos h]
    refine RSim.mono (RSim.rd (R := fun b x S => ∃ c, S.data.drop (i + 1) = c :: S.data.drop (i + 1 + 1) ∧ x = (step (step crc b) c, i + 2)) (by omega) fun b =>
      RSim.rd (by omega) fun c => RSim.ret _ rfl fun _ _ _ => rfl) ?_
    rintro x S hS _ ⟨b, h1, c, h2, rfl⟩
    rw [h1, h2]
    unfold Crc.align2
    simp only
    rw [if_pos h.2]
  · rw [if_neg h]
    refine RSim.ret _ rfl fun S hS hn => ?_
    have hl : (S.data.drop i).length = B.len - i := by simp [hn]
    rcases hd : S.data.drop i with _ | ⟨b, _ | ⟨c, bs⟩⟩
    · rfl
    · rfl
    · rw [hd] at hl
      simp only [List.length_cons] at hl
      unfold Crc.align2
      simp only
      rw [if_neg (by intro hc; exact h ⟨by omega, hc⟩)]

theorem good_of_r {B : Buf} {init : U32} {p : Prog U32} {hi : U32 → Nat} {R : U32 → Src → Prop} (h : RSim B p 0 hi R)
    (hR : ∀ r S, S.addr = B.addr → S.data.length = B.len → R r S → Spec.IsCrc32 init S.data r) : Good B init p := by
  refine (h [] [] rfl (Nat.zero_le _) (Seen.nil _ _)).mono ?_
  rintro s r - ⟨l, g1, g2, g3, _, g5⟩
  exact ⟨l, by omega, g3, fun S hS => hR r S hS.addr hS.len (g5 S hS)⟩

theorem generic_good (B : Buf) (init : U32) : Good B init (generic B init) := by
  refine good_of_r (hi := fun _ => B.len) (R := fun r S => Crc.generic S.addr S.data init = some r) ?_ ?_
  · refine RSim.mono ((align1_r B (~~~init)).bind fun x hx _ => (align2_r B x.1 x.2.1 x.2.2).bind
      (R2 := fun y r S => (if (S.data.drop y.2).length ≥ 8 * 4 - 4 then
        match Crc.chains (((S.data.drop y.2).length - (4 - 1) * 4) / 4 / 4) ⟨y.1, 0, 0, 0⟩ (S.data.drop y.2) with
        | none => none
        | some (a, l) => match Crc.aggregate a l with
          | none => none
          | some (c, l) => some (~~~(Crc.tail c l))
        else some (~~~(Crc.tail y.1 (S.data.drop y.2)))) = some r) fun y hy _ => ?_) ?_
    · have hl : ∀ S : Src, S.data.length = B.len → (S.data.drop y.2).length = B.len - y.2 := fun S hS => by simp [hS]
      by_cases h : B.len - y.2 ≥ 8 * 4 - 4
      · rw [if_pos h]
        refine RSim.mono ((chains_r B _ _ y.2 (by omega)).bind
          (R2 := fun z r S => ∃ c l, Crc.aggregate z.1 (S.data.drop z.2) = some (c, l) ∧ r = ~~~(Crc.tail c l)) fun z hz he => ?_) ?_
        · obtain ⟨S0, _, _, he, _⟩ := he
          refine RSim.mono ((aggregate_r B z.1 z.2 (by omega) (by omega) hz).bind fun u hu _ => (tail_r B (B.len - u.2) u.1 u.2 (by omega)).bind
            (R2 := fun c r S => r = ~~~c) fun c _ _ => RSim.ret _ rfl fun _ _ _ => rfl) ?_
          rintro r S _ hS ⟨u, h1, c, h2, rfl⟩
          exact ⟨_, _, h1, by rw [h2]⟩
        · rintro r S _ hS ⟨z, ⟨h1, h2⟩, c, l, h3, rfl⟩
          rw [hl S hS, if_pos h, h2]
          simp only [h3]
      · rw [if_neg h]
        refine RSim.mono ((tail_r B (B.len - y.2) y.1 y.2 (by omega)).bind (R2 := fun c r S => r = ~~~c) fun c _ _ => RSim.ret _ rfl fun _ _ _ => rfl) ?_
        rintro r S _ hS ⟨c, h2, rfl⟩
        rw [hl S hS, if_neg h, h2]
    · rintro r S _ hS ⟨x, h1, y, h2, h3⟩
      rw [Crc.generic, Crc.align, h1]
      simp only
      rw [h2]
      exact h3
  · intro r S _ _ h
    obtain ⟨r', h1, h2⟩ := generic_spec S.addr S.data init
    rw [h] at h1; cases h1; exact h2

/-! ### Carry-less multiplication on x86 -/

/-- Bytes loaded, of which the first `k` are counted. -/
theorem rds_r {α : Type} (B : Buf) (i m k : Nat) (f : List Byte → α) (hk : k ≤ m) (hl : i + m ≤ B.len) :
    RSim B (rds i m fun bs => .ret (f bs)) i (fun _ => i + k) (fun v S => ∃ bs, bs.length = m ∧ v = f bs ∧ ∀ j d, j < k → bs.getD j d = S.at (i + j)) := by
  intro s l0 h1 h2 h3
  refine rds_post m i _ s hl ?_
  intro bs s' hbs hss hseen
  have ht : Seen s' i (bs.take k) := fun j b hj => hseen j b (by
    rw [List.getElem?_take] at hj
    split at hj
    · exact hj
    · cases hj)
  refine ⟨l0 ++ bs.take k, by simp; omega, by simp only; omega, (h3.mono hss).append (by rw [h1, Nat.zero_add]; exact ht), List.prefix_append _ _, fun S hS => ⟨bs, hbs, rfl, ?_⟩⟩
  intro j d hj
  have := hS.at_eq (d := d) (j := j) (by simp; omega)
  rw [h1] at this
  rw [← this]
  simp only [List.getD_eq_getElem?_getD]
  rw [List.getElem?_take, if_pos hj]

theorem load_r (B : Buf) (n m off : Nat) (ha : (B.addr + off) % n = 0) (ho : off < B.len) (hm : m = min n (B.len - off)) :
    RSim B (load B n off) off (fun _ => off + m) (fun v S => ∀ j, j < m → v j = S.at (off + j)) := by
  rw [load, if_pos ⟨ha, ho⟩, ← hm]
  refine RSim.mono (rds_r B off m m _ (Nat.le_refl _) (by omega)) ?_
  rintro v S _ _ ⟨bs, h1, rfl, h2⟩ j hj
  exact h2 j _ hj

theorem loadu_r (B : Buf) (n k : Nat) (hk : k ≤ n) (h : n ≤ B.len) :
    RSim B (loadu B n 0) 0 (fun _ => k) (fun v S => ∀ j, j < k → v j = S.at (0 + j)) := by
  rw [loadu, if_pos (by omega)]
  have := rds_r B 0 n k (fun bs j => bs.getD j 0#8) hk (by omega)
  rw [Nat.zero_add] at this
  refine RSim.mono this ?_
  rintro v S _ _ ⟨bs, h1, rfl, h2⟩ j hj
  exact h2 j _ hj

namespace X86
open Yenc.Crc.X86

theorem le_at {v : Vec} {S : Src} {off n : Nat} (h : ∀ j, j < n → v j = S.at (off + j)) : le v 0 n = le (fun j => S.at (off + j)) 0 n :=
  le_congr fun j hj => by rw [Nat.zero_add]; exact h j hj

theorem step64 (avx : Bool) (s : Src) (init : U32) (off : Nat) (r : Regs) (t0 t1 t2 t3 : Vec) (hl : off + 64 ≤ s.data.length) (hr : r.val = goal s init off)
    (h0 : ∀ j, j < 16 → t0 j = s.at (off + j)) (h1 : ∀ j, j < 16 → t1 j = s.at (off + 16 + j)) (h2 : ∀ j, j < 16 → t2 j = s.at (off + 32 + j))
    (h3 : ∀ j, j < 16 → t3 j = s.at (off + 48 + j)) :
    Regs.val ⟨foldMerge avx r.c0 t0, foldMerge avx r.c1 t1, foldMerge avx r.c2 t2, foldMerge avx r.c3 t3⟩ = goal s init (off + 64) := by
  unfold Regs.val
  simp only
  rw [ev_foldMerge, ev_foldMerge, ev_foldMerge, ev_foldMerge, le_at h0, le_at h1, le_at h2, le_at h3]
  have g0 := goal_block s init off (by omega)
  have g1 := goal_block s init (off + 16) (by omega)
  have g2 := goal_block s init (off + 32) (by omega)
  have g3 := goal_block s init (off + 48) (by omega)
  rw [show off + 16 + 16 = off + 32 from rfl] at g1
  rw [show off + 32 + 16 = off + 48 from rfl] at g2
  rw [show off + 48 + 16 = off + 64 from rfl] at g3
  have hx : x ^ 512 * y ^ 512 = 1 := xy_pow 512
  apply y_cancel 512
  unfold Regs.val at hr
  obtain ⟨e1, e2, e3⟩ := q_pows
  rw [e3] at g0 g1 g2 g3 hx ⊢
  rw [e1, e2] at hr ⊢
  generalize y ^ 128 = q at *
  linear_combination (ev y (le r.c0 0 16) + q * ev y (le r.c1 0 16) + q * q * ev y (le r.c2 0 16) + q * q * q * ev y (le r.c3 0 16)) * hx + hr - g0 - q * g1 - q * q * g2 - q * q * q * g3

/-- What a part of the computation leaves: the place, what remains, and the value of the accumulators, if it was right before. -/
def Part {ρ : Type} (val : ρ → R) (B : Buf) (init : U32) (al m off : Nat) (r : ρ) (x : ρ × Nat × Nat) (S : Src) : Prop :=
  x.2.1 + x.2.2 = B.len ∧ x.2.2 < m ∧ (B.addr + x.2.1) % al = 0 ∧ (val r = goal S init off → val x.1 = goal S init x.2.1)

theorem loop64_r (avx : Bool) (B : Buf) (init : U32) (f off len : Nat) (r : Regs) (hf : len < f) (ha : (B.addr + off) % 16 = 0) (hl : off + len = B.len) :
    RSim B (loop64 avx B f off len r) off (·.2.1) (Part Regs.val B init 16 64 off r) := by
  induction f generalizing off len r with
  | zero => omega
  | succ f ih =>
    rw [loop64]
    by_cases h : len ≥ 64
    · rw [if_pos h]
      refine RSim.mono ((load_r B 16 16 off ha (by omega) (by omega)).bind fun t0 _ _ => (load_r B 16 16 (off + 16) (by omega) (by omega) (by omega)).bind fun t1 _ _ =>
        (load_r B 16 16 (off + 32) (by omega) (by omega) (by omega)).bind fun t2 _ _ => (load_r B 16 16 (off + 48) (by omega) (by omega) (by omega)).bind fun t3 _ _ =>
        ih (off + 64) (len - 64) _ (by omega) (by omega) (by omega)) ?_
      rintro x S _ hS ⟨t0, h0, t1, h1, t2, h2, t3, h3, e1, e2, e3, e4⟩
      exact ⟨e1, e2, e3, fun hr => e4 (step64 avx S init off r t0 t1 t2 t3 (by omega) hr h0 h1 h2 h3)⟩
    · rw [if_neg h]
      exact RSim.ret _ rfl fun S _ _ => ⟨hl, by simp only; omega, ha, fun hr => hr⟩

theorem step48 (avx : Bool) (s : Src) (init : U32) (off : Nat) (r : Regs) (t0 t1 t2 : Vec) (hl : off + 48 ≤ s.data.length) (hr : r.val = goal s init off)
    (h0 : ∀ j, j < 16 → t0 j = s.at (off + j)) (h1 : ∀ j, j < 16 → t1 j = s.at (off + 16 + j)) (h2 : ∀ j, j < 16 → t2 j = s.at (off + 32 + j)) :
    Regs.val ⟨r.c3, foldMerge avx r.c0 t0, foldMerge avx r.c1 t1, foldMerge avx r.c2 t2⟩ = goal s init (off + 48) := by
  have hx : x ^ 512 * y ^ 512 = 1 := xy_pow 512
  obtain ⟨e1, e2, e3⟩ := q_pows
  unfold Regs.val at hr ⊢
  simp only
  rw [ev_foldMerge, ev_foldMerge, ev_foldMerge, le_at h0, le_at h1, le_at h2]
  have g0 := goal_block s init off (by omega)
  have g1 := goal_block s init (off + 16) (by omega)
  have g2 := goal_block s init (off + 32) (by omega)
  rw [show off + 16 + 16 = off + 32 from rfl] at g1
  rw [show off + 32 + 16 = off + 48 from rfl] at g2
  apply y_cancel 384
  rw [e3] at g0 g1 g2 hx
  rw [e1, e2] at hr ⊢
  generalize y ^ 128 = q at *
  linear_combination (ev y (le r.c0 0 16) + q * ev y (le r.c1 0 16) + q * q * ev y (le r.c2 0 16)) * hx + hr - g0 - q * g1 - q * q * g2

theorem step32 (avx : Bool) (s : Src) (init : U32) (off : Nat) (r : Regs) (t0 t1 : Vec) (hl : off + 32 ≤ s.data.length) (hr : r.val = goal s init off)
    (h0 : ∀ j, j < 16 → t0 j = s.at (off + j)) (h1 : ∀ j, j < 16 → t1 j = s.at (off + 16 + j)) :
    Regs.val ⟨r.c2, r.c3, foldMerge avx r.c0 t0, foldMerge avx r.c1 t1⟩ = goal s init (off + 32) := by
  have hx : x ^ 512 * y ^ 512 = 1 := xy_pow 512
  obtain ⟨e1, e2, e3⟩ := q_pows
  unfold Regs.val at hr ⊢
  simp only
  rw [ev_foldMerge, ev_foldMerge, le_at h0, le_at h1]
  have g0 := goal_block s init off (by omega)
  have g1 := goal_block s init (off + 16) (by omega)
  rw [show off + 16 + 16 = off + 32 from rfl] at g1
  apply y_cancel 256
  rw [e3] at g0 g1 hx
  rw [e1, e2] at hr ⊢
  generalize y ^ 128 = q at *
  linear_combination (ev y (le r.c0 0 16) + q * ev y (le r.c1 0 16)) * hx + hr - g0 - q * g1

theorem step16 (avx : Bool) (s : Src) (init : U32) (off : Nat) (r : Regs) (t0 : Vec) (hl : off + 16 ≤ s.data.length) (hr : r.val = goal s init off)
    (h0 : ∀ j, j < 16 → t0 j = s.at (off + j)) :
    Regs.val ⟨r.c1, r.c2, r.c3, foldMerge avx r.c0 t0⟩ = goal s init (off + 16) := by
  have hx : x ^ 512 * y ^ 512 = 1 := xy_pow 512
  obtain ⟨e1, e2, e3⟩ := q_pows
  unfold Regs.val at hr ⊢
  simp only
  rw [ev_foldMerge, le_at h0]
  have g0 := goal_block s init off (by omega)
  apply y_cancel 128
  rw [e3] at g0 hx
  rw [e1, e2] at hr ⊢
  generalize y ^ 128 = q at *
  linear_combination (ev y (le r.c0 0 16)) * hx + hr - g0

theorem blocks16_r (avx : Bool) (B : Buf) (init : U32) (off len : Nat) (r : Regs) (h64 : len < 64) (ha : (B.addr + off) % 16 = 0) (hl : off + len = B.len) :
    RSim B (blocks16 avx B off len r) off (·.2.1) (Part Regs.val B init 16 16 off r) := by
  rw [blocks16]
  by_cases h48 : len ≥ 48
  · rw [if_pos h48]
    refine RSim.mono ((load_r B 16 16 off ha (by omega) (by omega)).bind fun t0 _ _ => (load_r B 16 16 (off + 16) (by omega) (by omega) (by omega)).bind fun t1 _ _ =>
      (load_r B 16 16 (off + 32) (by omega) (by omega) (by omega)).bind
        (R2 := fun t2 (x : Regs × Nat × Nat) _ => x = (⟨r.c3, foldMerge avx r.c0 t0, foldMerge avx r.c1 t1, foldMerge avx r.c2 t2⟩, off + 48, len - 48)) fun t2 _ _ =>
      RSim.ret _ rfl fun _ _ _ => rfl) ?_
    rintro x S _ hS ⟨t0, h0, t1, h1, t2, h2, rfl⟩
    exact ⟨by simp only; omega, by simp only; omega, by simp only; omega, fun hr => step48 avx S init off r t0 t1 t2 (by omega) hr h0 h1 h2⟩
  · rw [if_neg h48]
    by_cases h32 : len ≥ 32
    · rw [if_pos h32]
      refine RSim.mono ((load_r B 16 16 off ha (by omega) (by omega)).bind fun t0 _ _ => (load_r B 16 16 (off + 16) (by omega) (by omega) (by omega)).bind
        (R2 := fun t1 (x : Regs × Nat × Nat) _ => x = (⟨r.c2, r.c3, foldMerge avx r.c0 t0, foldMerge avx r.c1 t1⟩, off + 32, len - 32)) fun t1 _ _ =>
        RSim.ret _ rfl fun _ _ _ => rfl) ?_
      rintro x S _ hS ⟨t0, h0, t1, h1, rfl⟩
      exact ⟨by simp only; omega, by simp only; omega, by simp only; omega, fun hr => step32 avx S init off r t0 t1 (by omega) hr h0 h1⟩
    · rw [if_neg h32]
      by_cases h16 : len ≥ 16
      · rw [if_pos h16]
        refine RSim.mono ((load_r B 16 16 off ha (by omega) (by omega)).bind
          (R2 := fun t0 (x : Regs × Nat × Nat) _ => x = (⟨r.c1, r.c2, r.c3, foldMerge avx r.c0 t0⟩, off + 16, len - 16)) fun t0 _ _ => RSim.ret _ rfl fun _ _ _ => rfl) ?_
        rintro x S _ hS ⟨t0, h0, rfl⟩
        exact ⟨by simp only; omega, by simp only; omega, by simp only; omega, fun hr => step16 avx S init off r t0 (by omega) hr h0⟩
      · rw [if_neg h16]
        exact RSim.ret _ rfl fun S _ _ => ⟨hl, by simp only; omega, ha, fun hr => hr⟩

theorem good (avx : Bool) (B : Buf) (init : U32) : Good B init (crcFold avx B init) := by
  rw [crcFold]
  by_cases h16 : B.len < 16
  · rw [if_pos h16]
    by_cases h0 : B.len = 0
    · rw [if_pos h0]
      refine good_of_r (hi := fun _ => 0) (R := fun r _ => r = init) (RSim.ret _ rfl fun _ _ _ => rfl) ?_
      rintro r S _ hS rfl
      rw [List.length_eq_zero_iff.1 (hS.trans h0)]
      exact isCrc32_nil r
    · rw [if_neg h0]
      refine good_of_r (rds_r B 0 B.len B.len _ (Nat.le_refl _) (by omega)) ?_
      rintro r S _ hS ⟨bs, h1, rfl, h2⟩
      refine goal_crc S init _ ?_
      rw [done_val, partialFold_ok avx S init 0 B.len _ _ (by omega) h16 (by omega) (fun j hj => h2 j _ hj) (start_val S init), Nat.zero_add, hS]
  · rw [if_neg h16]
    have hf : RSim B (first avx B ((16 - B.addr % 16) % 16) (start init)) 0 (fun _ => (16 - B.addr % 16) % 16) (fun r S => r.val = goal S init ((16 - B.addr % 16) % 16)) := by
      unfold first
      by_cases hd : (16 - B.addr % 16) % 16 = 0
      · rw [if_pos hd, hd]
        exact RSim.ret _ rfl fun S _ _ => start_val S init
      · rw [if_neg hd]
        refine RSim.mono ((loadu_r B 16 ((16 - B.addr % 16) % 16) (by omega) (by omega)).bind (R2 := fun part r _ => r = partialFold avx _ (start init) part) fun part _ _ =>
          RSim.ret _ rfl fun _ _ _ => rfl) ?_
        rintro r S _ hS ⟨part, h1, rfl⟩
        have := partialFold_ok avx S init 0 ((16 - B.addr % 16) % 16) _ part (by omega) (by omega) (by omega) h1 (start_val S init)
        rwa [Nat.zero_add] at this
    refine good_of_r (hi := fun _ => B.len) (R := fun r S => phi (~~~r) = x ^ 543 * goal S init B.len) (RSim.mono (hf.bind fun r _ _ =>
      (loop64_r avx B init (B.len + 1) _ (B.len - (16 - B.addr % 16) % 16) r (by omega) (by omega) (by omega)).bind
      (R2 := fun u r S => u.1.val = goal S init u.2.1 → phi (~~~r) = x ^ 543 * goal S init B.len) fun u _ he => ?_) ?_) ?_
    · obtain ⟨S0, _, _, e1, e2, e3, _⟩ := he
      refine RSim.mono ((blocks16_r avx B init u.2.1 u.2.2 u.1 e2 e3 e1).bind (R2 := fun v r S => v.1.val = goal S init v.2.1 → phi (~~~r) = x ^ 543 * goal S init B.len)
        fun v _ he => ?_) ?_
      · obtain ⟨S0, _, _, e1, e2, e3, _⟩ := he
        by_cases h0 : v.2.2 = 0
        · rw [if_pos h0]
          refine RSim.ret _ (by omega) fun S _ hS hv => ?_
          rw [done_val, hv, show v.2.1 = B.len by omega]
        · rw [if_neg h0]
          refine RSim.mono ((load_r B 16 v.2.2 v.2.1 e3 (by omega) (by omega)).bind (R2 := fun part r _ => r = done avx (partialFold avx v.2.2 v.1 part)) fun part _ _ =>
            RSim.ret _ (by omega) fun _ _ _ => rfl) ?_
          rintro r S _ hS ⟨part, h1, rfl⟩ hv
          rw [done_val, partialFold_ok avx S init v.2.1 v.2.2 _ part (by omega) e2 (by omega) h1 hv, e1]
      · rintro r S _ hS ⟨v, ⟨_, _, _, h1⟩, h2⟩ hu
        exact h2 (h1 hu)
    · rintro r S _ hS ⟨r1, h1, u, ⟨_, _, _, h2⟩, h3⟩
      exact h3 (h2 h1)
    · intro r S _ hS h
      exact goal_crc S init r (by rw [hS]; exact h)

theorem step64_256 (avx : Bool) (s : Src) (init : U32) (off : Nat) (r : Regs2) (t0 t1 : Vec) (hl : off + 64 ≤ s.data.length) (hr : r.val = goal s init off)
    (h0 : ∀ j, j < 32 → t0 j = s.at (off + j)) (h1 : ∀ j, j < 32 → t1 j = s.at (off + 32 + j)) :
    Regs2.val ⟨foldMerge256 avx r.c0 t0, foldMerge256 avx r.c1 t1⟩ = goal s init (off + 64) := by
  unfold Regs2.val
  simp only
  rw [ev_foldMerge256, ev_foldMerge256, le_at h0, le_at h1]
  have g0 := goal_block32 s init off (by omega)
  have g1 := goal_block32 s init (off + 32) (by omega)
  rw [show off + 32 + 32 = off + 64 from rfl] at g1
  have hx : x ^ 512 * y ^ 512 = 1 := xy_pow 512
  apply y_cancel 512
  unfold Regs2.val at hr
  have e3 : y ^ 512 = y ^ 256 * y ^ 256 := by rw [← pow_add]
  rw [e3] at g0 g1 hx ⊢
  generalize y ^ 256 = q at *
  linear_combination (ev y (le r.c0 0 32) + q * ev y (le r.c1 0 32)) * hx + hr - g0 - q * g1

theorem loop64_256_r (avx : Bool) (B : Buf) (init : U32) (f off len : Nat) (r : Regs2) (hf : len < f) (ha : (B.addr + off) % 32 = 0) (hl : off + len = B.len) :
    RSim B (loop64_256 avx B f off len r) off (·.2.1) (Part Regs2.val B init 32 64 off r) := by
  induction f generalizing off len r with
  | zero => omega
  | succ f ih =>
    rw [loop64_256]
    by_cases h : len ≥ 64
    · rw [if_pos h]
      refine RSim.mono ((load_r B 32 32 off ha (by omega) (by omega)).bind fun t0 _ _ => (load_r B 32 32 (off + 32) (by omega) (by omega) (by omega)).bind fun t1 _ _ =>
        ih (off + 64) (len - 64) _ (by omega) (by omega) (by omega)) ?_
      rintro x S _ hS ⟨t0, h0, t1, h1, e1, e2, e3, e4⟩
      exact ⟨e1, e2, e3, fun hr => e4 (step64_256 avx S init off r t0 t1 (by omega) hr h0 h1)⟩
    · rw [if_neg h]
      exact RSim.ret _ rfl fun S _ _ => ⟨hl, by simp only; omega, ha, fun hr => hr⟩

theorem step32_256 (avx : Bool) (s : Src) (init : U32) (off : Nat) (r : Regs2) (t0 : Vec) (hl : off + 32 ≤ s.data.length) (hr : r.val = goal s init off)
    (h0 : ∀ j, j < 32 → t0 j = s.at (off + j)) : Regs2.val ⟨r.c1, foldMerge256 avx r.c0 t0⟩ = goal s init (off + 32) := by
  unfold Regs2.val at hr ⊢
  simp only
  rw [ev_foldMerge256, le_at h0]
  have g0 := goal_block32 s init off (by omega)
  have hx : x ^ 512 * y ^ 512 = 1 := xy_pow 512
  have e3 : y ^ 512 = y ^ 256 * y ^ 256 := by rw [← pow_add]
  apply y_cancel 256
  rw [e3] at g0 hx
  generalize y ^ 256 = q at *
  linear_combination (ev y (le r.c0 0 32)) * hx + hr - g0

theorem block32_r (avx : Bool) (B : Buf) (init : U32) (off len : Nat) (r : Regs2) (h64 : len < 64) (ha : (B.addr + off) % 32 = 0) (hl : off + len = B.len) :
    RSim B (block32 avx B off len r) off (·.2.1) (Part Regs2.val B init 32 32 off r) := by
  rw [block32]
  by_cases h32 : len ≥ 32
  · rw [if_pos h32]
    refine RSim.mono ((load_r B 32 32 off ha (by omega) (by omega)).bind
      (R2 := fun t0 (x : Regs2 × Nat × Nat) _ => x = (⟨r.c1, foldMerge256 avx r.c0 t0⟩, off + 32, len - 32)) fun t0 _ _ => RSim.ret _ rfl fun _ _ _ => rfl) ?_
    rintro x S _ hS ⟨t0, h0, rfl⟩
    exact ⟨by simp only; omega, by simp only; omega, by simp only; omega, fun hr => step32_256 avx S init off r t0 (by omega) hr h0⟩
  · rw [if_neg h32]
    exact RSim.ret _ rfl fun S _ _ => ⟨hl, by simp only; omega, ha, fun hr => hr⟩

theorem good256 (avx : Bool) (B : Buf) (init : U32) : Good B init (crcFold256 avx B init) := by
  rw [crcFold256]
  by_cases h16 : B.len < 32
  · rw [if_pos h16]
    by_cases h0 : B.len = 0
    · rw [if_pos h0]
      refine good_of_r (hi := fun _ => 0) (R := fun r _ => r = init) (RSim.ret _ rfl fun _ _ _ => rfl) ?_
      rintro r S _ hS rfl
      rw [List.length_eq_zero_iff.1 (hS.trans h0)]
      exact isCrc32_nil r
    · rw [if_neg h0]
      refine good_of_r (rds_r B 0 B.len B.len _ (Nat.le_refl _) (by omega)) ?_
      rintro r S _ hS ⟨bs, h1, rfl, h2⟩
      refine goal_crc S init _ ?_
      rw [done256_val, partialFold256_ok avx S init 0 B.len _ _ h16 (by omega) (fun j hj => h2 j _ hj) (start256_val S init), Nat.zero_add, hS]
  · rw [if_neg h16]
    have hf : RSim B (first256 avx B ((32 - B.addr % 32) % 32) (start256 init)) 0 (fun _ => (32 - B.addr % 32) % 32) (fun r S => r.val = goal S init ((32 - B.addr % 32) % 32)) := by
      unfold first256
      by_cases hd : (32 - B.addr % 32) % 32 = 0
      · rw [if_pos hd, hd]
        exact RSim.ret _ rfl fun S _ _ => start256_val S init
      · rw [if_neg hd]
        refine RSim.mono ((loadu_r B 32 ((32 - B.addr % 32) % 32) (by omega) (by omega)).bind (R2 := fun part r _ => r = partialFold256 avx _ (start256 init) part) fun part _ _ =>
          RSim.ret _ rfl fun _ _ _ => rfl) ?_
        rintro r S _ hS ⟨part, h1, rfl⟩
        have := partialFold256_ok avx S init 0 ((32 - B.addr % 32) % 32) _ part (by omega) (by omega) h1 (start256_val S init)
        rwa [Nat.zero_add] at this
    refine good_of_r (hi := fun _ => B.len) (R := fun r S => phi (~~~r) = x ^ 543 * goal S init B.len) (RSim.mono (hf.bind fun r _ _ =>
      (loop64_256_r avx B init (B.len + 1) _ (B.len - (32 - B.addr % 32) % 32) r (by omega) (by omega) (by omega)).bind
      (R2 := fun u r S => u.1.val = goal S init u.2.1 → phi (~~~r) = x ^ 543 * goal S init B.len) fun u _ he => ?_) ?_) ?_
    · obtain ⟨S0, _, _, e1, e2, e3, _⟩ := he
      refine RSim.mono ((block32_r avx B init u.2.1 u.2.2 u.1 e2 e3 e1).bind (R2 := fun v r S => v.1.val = goal S init v.2.1 → phi (~~~r) = x ^ 543 * goal S init B.len)
        fun v _ he => ?_) ?_
      · obtain ⟨S0, _, _, e1, e2, e3, _⟩ := he
        by_cases h0 : v.2.2 = 0
        · rw [if_pos h0]
          refine RSim.ret _ (by omega) fun S _ hS hv => ?_
          rw [done256_val, hv, show v.2.1 = B.len by omega]
        · rw [if_neg h0]
          refine RSim.mono ((load_r B 32 v.2.2 v.2.1 e3 (by omega) (by omega)).bind (R2 := fun part r _ => r = done256 avx (partialFold256 avx v.2.2 v.1 part)) fun part _ _ =>
            RSim.ret _ (by omega) fun _ _ _ => rfl) ?_
          rintro r S _ hS ⟨part, h1, rfl⟩ hv
          rw [done256_val, partialFold256_ok avx S init v.2.1 v.2.2 _ part e2 (by omega) h1 hv, e1]
      · rintro r S _ hS ⟨v, ⟨_, _, _, h1⟩, h2⟩ hu
        exact h2 (h1 hu)
    · rintro r S _ hS ⟨r1, h1, u, ⟨_, _, _, h2⟩, h3⟩
      exact h3 (h2 h1)
    · intro r S _ hS h
      exact goal_crc S init r (by rw [hS]; exact h)

end X86

end Yenc.Shared.SCrc
