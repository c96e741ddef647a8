import Verif.Lemmas.Mem
import Verif.Lemmas.DecEnd
import Verif.Model.DecoderInPlace
/-! The scalar decoders on memory do what the list versions say, provided the destination does not run ahead of the
source. -/
namespace Yenc.Dec.M
open Yenc Yenc.Dec Yenc.Mem

/-- Writing at `p` onwards while reading from `i` up to `e` is safe. -/
def Safe (p i e : Nat) : Prop := p ≤ i ∨ e ≤ p

/-- The loop on memory does what the loop on lists does. -/
def Sim (e : Nat) (m : Mem) (i p : Nat) (out : List Byte) (L : List Byte × List Byte) (R : Mem × Nat × Nat) : Prop :=
  ∃ i' o, L = (m.rd i' e, out ++ o) ∧ R = (m.wr p o, i', p + o.length) ∧ i ≤ i' ∧ i' ≤ max i e ∧ o.length ≤ i' - i

theorem Sim.stop (e : Nat) (m : Mem) (i p : Nat) (out : List Byte) :
    Sim e m i p out (m.rd i e, out) (m, i, p) :=
  ⟨i, [], by simp, by simp [wr], Nat.le_refl _, by omega, by simp⟩

theorem Sim.skip {e m i p out L R} (k : Nat) (h : Sim e m (i + k) p out L R) (hk : i + k ≤ e) :
    Sim e m i p out L R := by
  obtain ⟨i', o, h1, h2, h3, h4, h5⟩ := h
  exact ⟨i', o, h1, h2, by omega, by omega, by omega⟩

theorem Sim.put {e m i p out L R b} (k : Nat) (h : Sim e (m.set p b) (i + k) (p + 1) (out ++ [b]) L R) (h1 : 1 ≤ k)
    (hk : i + k ≤ e) (hs : Safe p i e) : Sim e m i p out L R := by
  obtain ⟨i', o, h1, h2, h3, h4, h5⟩ := h
  refine ⟨i', b :: o, ?_, ?_, by omega, by omega, by simp; omega⟩
  · rw [h1, rd_set_of _ _ _ (by unfold Safe at hs; omega)]; simp
  · rw [h2]; simp [wr]; omega

theorem loopRaw_sim (e : Nat) : ∀ (n : Nat) (m : Mem) (i p : Nat) (out : List Byte), e - i = n → Safe p i e →
    Sim e m i p out (Dec.loopRaw (m.rd i e) out) (loopRaw e m i p) := by
  intro n
  induction n using Nat.strongRecOn with
  | ind n ih =>
    intro m i p out hn hs
    have hs' : p ≤ i ∨ e ≤ p := hs
    rw [loopRaw]
    by_cases h : i + 2 < e
    · rw [if_pos h]
      have h1 := rd_cons m (show i + 2 < e by omega)
      have h2 := rd_cons m (show i + 1 < e by omega)
      have h3 := rd_cons m (show i < e by omega)
      rw [h3, h2, h1, Dec.loopRaw, ← h1, ← h2]
      have st : ∀ (q : Nat) (b : Byte) (j : Nat), i < j → (q < j ∨ e ≤ q) → (m.set q b).rd j e = m.rd j e :=
        fun q b j _ hq => rd_set_of _ _ _ hq
      simp only
      split
      · split
        · exact (ih _ (by omega) m (i + 3) p out rfl (by unfold Safe; omega)).skip 3 (by omega)
        · exact (ih _ (by omega) m (i + 1) p out rfl (by unfold Safe; omega)).skip 1 (by omega)
      · split
        · exact (ih _ (by omega) m (i + 1) p out rfl (by unfold Safe; omega)).skip 1 (by omega)
        · split
          · split
            · have := ih _ (by omega) (m.set p (m (i + 1) - 42#8 - 64#8)) (i + 2) (p + 1) (out ++ [m (i + 1) - 42#8 - 64#8])
                rfl (by unfold Safe; omega)
              rw [st p _ _ (by omega) (by omega)] at this
              exact this.put 2 (by omega) (by omega) hs
            · have := ih _ (by omega) (m.set p (m (i + 1) - 42#8 - 64#8)) (i + 1) (p + 1) (out ++ [m (i + 1) - 42#8 - 64#8])
                rfl (by unfold Safe; omega)
              rw [st p _ _ (by omega) (by omega)] at this
              exact this.put 1 (by omega) (by omega) hs
          · have := ih _ (by omega) (m.set p (m i - 42#8)) (i + 1) (p + 1) (out ++ [m i - 42#8]) rfl (by unfold Safe; omega)
            rw [st p _ _ (by omega) (by omega)] at this
            exact this.put 1 (by omega) (by omega) hs
    · rw [if_neg h]
      have : Dec.loopRaw (m.rd i e) out = (m.rd i e, out) := by
        have hl : (m.rd i e).length ≤ 2 := by simp; omega
        generalize m.rd i e = l at *
        match l, hl with
        | [], _ => rw [Dec.loopRaw.eq_def]
        | [_], _ => rw [Dec.loopRaw.eq_def]
        | [_, _], _ => rw [Dec.loopRaw.eq_def]
      rw [this]
      exact Sim.stop e m i p out

/-- What follows the loop does the same on memory as on lists. -/
def SimF (e : Nat) (m : Mem) (i p : Nat) (out : List Byte) (L : List Byte × State) (R : Mem × Nat × State) : Prop :=
  ∃ o s, L = (out ++ o, s) ∧ R = (m.wr p o, p + o.length, s) ∧ o.length ≤ e - i

theorem SimF.stop (e : Nat) (m : Mem) (i p : Nat) (out : List Byte) (s : State) : SimF e m i p out (out, s) (m, p, s) :=
  ⟨[], s, by simp, by simp [wr], by simp⟩

theorem SimF.skip {e m i p out L R} (k : Nat) (h : SimF e m (i + k) p out L R) : SimF e m i p out L R := by
  obtain ⟨o, s, h1, h2, h3⟩ := h
  exact ⟨o, s, h1, h2, by omega⟩

theorem SimF.put {e m i p out L R b} (k : Nat) (h : SimF e (m.set p b) (i + k) (p + 1) (out ++ [b]) L R) (h1 : 1 ≤ k)
    (hk : i + k ≤ e) : SimF e m i p out L R := by
  obtain ⟨o, s, h1, h2, h3⟩ := h
  refine ⟨b :: o, s, by rw [h1]; simp, by rw [h2]; simp [wr]; omega, by simp; omega⟩

theorem last1_sim (e : Nat) (m : Mem) (i p : Nat) (out : List Byte) (hn : e ≤ i + 1) :
    SimF e m i p out (Dec.last1 (m.rd i e) out) (last1 e m i p) := by
  by_cases h : i + 1 = e
  · have h1 : m.rd i e = [m i] := by rw [rd_cons m (by omega), rd_nil m (by omega)]
    rw [h1, Dec.last1, last1, if_pos h]
    simp only
    split
    · exact (SimF.stop e (m.set p (m i - 42#8)) (i + 1) (p + 1) (out ++ [m i - 42#8]) .none).put 1 (by omega) (by omega)
    · split
      · exact SimF.stop ..
      · split
        · exact SimF.stop ..
        · exact SimF.stop ..
  · have h1 : m.rd i e = [] := rd_nil m (by omega)
    rw [h1, Dec.last1, last1, if_neg h]
    · exact SimF.stop ..
    · simp

theorem last2_sim (hasState : Bool) (e : Nat) (m : Mem) (i p : Nat) (out : List Byte) (hn : e ≤ i + 2) (hs : Safe p i e) :
    SimF e m i p out (Dec.last2 hasState (m.rd i e) out) (last2 hasState e m i p) := by
  have hs' : p ≤ i ∨ e ≤ p := hs
  by_cases h : i + 2 = e
  · have h1 : m.rd (i + 1) e = [m (i + 1)] := by rw [rd_cons m (by omega), rd_nil m (by omega)]
    have h2 : m.rd i e = [m i, m (i + 1)] := by rw [rd_cons m (by omega), h1]
    rw [h2, Dec.last2, last2, if_pos h]
    simp only
    rw [← h1]
    split
    · split
      · exact SimF.stop ..
      · exact (last1_sim e m (i + 1) p out (by omega)).skip 1
    · split
      · exact (last1_sim e m (i + 1) p out (by omega)).skip 1
      · split
        · split
          · have := last1_sim e (m.set p (m (i + 1) - 42#8 - 64#8)) (i + 2) (p + 1) (out ++ [m (i + 1) - 42#8 - 64#8]) (by omega)
            rw [rd_nil _ (by omega)] at this
            exact this.put 2 (by omega) (by omega)
          · have := last1_sim e (m.set p (m (i + 1) - 42#8 - 64#8)) (i + 1) (p + 1) (out ++ [m (i + 1) - 42#8 - 64#8]) (by omega)
            rw [rd_set_of _ _ _ (by omega)] at this
            exact this.put 1 (by omega) (by omega)
        · have := last1_sim e (m.set p (m i - 42#8)) (i + 1) (p + 1) (out ++ [m i - 42#8]) (by omega)
          rw [rd_set_of _ _ _ (by omega)] at this
          exact this.put 1 (by omega) (by omega)
  · rw [last2, if_neg h]
    have hl : (m.rd i e).length ≤ 1 := by simp; omega
    have : Dec.last2 hasState (m.rd i e) out = Dec.last1 (m.rd i e) out := by
      generalize m.rd i e = l at *
      match l, hl with
      | [], _ => rfl
      | [_], _ => rfl
    rw [this]
    exact last1_sim e m i p out (by omega)

theorem loopRaw_rest (l out : List Byte) : (Dec.loopRaw l out).1.length ≤ 2 := by
  induction l, out using Dec.loopRaw.induct with
  | case1 => unfold Dec.loopRaw; simp_all
  | case2 b c r out h ih => rw [Dec.loopRaw, if_pos rfl, if_neg h]; exact ih
  | case3 => unfold Dec.loopRaw; simp_all
  | case4 => unfold Dec.loopRaw; simp_all
  | case5 => unfold Dec.loopRaw; simp_all
  | case6 => unfold Dec.loopRaw; simp_all
  | case7 l out h =>
    match l with
    | [] => simp [Dec.loopRaw]
    | [_] => simp [Dec.loopRaw]
    | [_, _] => simp [Dec.loopRaw]
    | a :: b :: c :: r => exact absurd rfl (h a b c r)

/-- The main loop of the raw decoder and what follows it. -/
theorem tailRaw_sim (hasState : Bool) (e : Nat) (m : Mem) (i p : Nat) (out : List Byte) (hs : Safe p i e) :
    SimF e m i p out (Dec.last2 hasState (Dec.loopRaw (m.rd i e) out).1 (Dec.loopRaw (m.rd i e) out).2)
      (last2 hasState e (loopRaw e m i p).1 (loopRaw e m i p).2.1 (loopRaw e m i p).2.2) := by
  have hr := loopRaw_rest (m.rd i e) out
  obtain ⟨i', o, h1, h2, h3, h4, h5⟩ := loopRaw_sim e _ m i p out rfl hs
  rw [h1] at hr ⊢
  rw [h2]
  simp only [rd_length] at hr
  have hs' : p ≤ i ∨ e ≤ p := hs
  have := last2_sim hasState e (m.wr p o) i' (p + o.length) (out ++ o) (by omega) (by unfold Safe; omega)
  rw [rd_wr_of _ _ _ (by omega)] at this
  obtain ⟨o', s, g1, g2, g3⟩ := this
  refine ⟨o ++ o', s, by rw [g1]; simp, by rw [g2, wr_append]; simp; omega, by simp; omega⟩

/-- `preCr` on memory. -/
theorem preCr_sim (e : Nat) (m : Mem) (i p : Nat) (out : List Byte) (hi : i < e) :
    (∃ n s, Dec.preCr (m.rd i e) out = some (.ret [] s) ∧ preCr e m i p = some (.ret m 0 s) ∧ n = 0) ∨
    (∃ k, Dec.preCr (m.rd i e) out = some (.go (m.rd (i + k) e) out) ∧ preCr e m i p = some (.go m (i + k) p) ∧ i + k ≤ e) := by
  rw [rd_cons m hi, Dec.preCr.eq_def, preCr, if_pos hi]
  simp only
  by_cases h1 : m i = LF
  · rw [if_neg (by simpa using h1), if_neg (by simpa using h1)]
    by_cases h2 : e ≤ i + 1
    · rw [rd_nil m h2, if_pos h2]
      exact Or.inl ⟨0, _, rfl, rfl, rfl⟩
    · rw [rd_cons m (by omega), if_neg h2, preCrlf, if_pos (by omega)]
      right
      by_cases h3 : m (i + 1) = DOT
      · exact ⟨2, by simp [h3], by simp [h3], by omega⟩
      · refine ⟨1, ?_, by simp [h3], by omega⟩
        rw [rd_cons m (show i + 1 < e by omega)]; simp [h3]
  · rw [if_pos (by simpa using h1), if_pos (by simpa using h1)]
    right
    refine ⟨0, ?_, rfl, by omega⟩
    show _ = some (Dec.Pre.go (m.rd i e) out)
    rw [rd_cons m hi]

/-- The decoder without end detection on memory: what it writes begins with the bytes it reports, and never runs further than the
input is long. -/
theorem noendRaw_sim (m : Mem) (src dest len : Nat) (st : Option State) (hs : Safe dest src (src + len)) :
    ∃ out st' o, Dec.noendRaw st (m.rd src (src + len)) = some (out, st') ∧
      noendRaw m src dest len st = some (m.wr dest o, out.length, st') ∧ out <+: o ∧ o.length ≤ len := by
  unfold noendRaw Dec.noendRaw
  by_cases h0 : len = 0
  · subst h0
    rw [if_pos (rd_nil m (by omega)), if_pos rfl]
    exact ⟨[], st, [], rfl, rfl, List.prefix_refl _, by simp⟩
  have hne : m.rd src (src + len) ≠ [] := by rw [rd_cons m (by omega)]; simp
  rw [if_neg hne, if_neg h0]
  generalize he : src + len = e at *
  have hs' : dest ≤ src ∨ e ≤ dest := hs
  -- from the start of the loop on
  have go : ∀ (m' : Mem) (i p : Nat) (out : List Byte), m.wr dest out = m' → p = dest + out.length → src + out.length ≤ i →
      i ≤ e → ∃ o, (let r := Dec.loopRaw (m.rd i e) out
            let f := Dec.last2 st.isSome r.1 r.2
            some (f.1, st.map (fun _ => f.2))) = some (o, st.map fun _ => (last2 st.isSome e (loopRaw e m' i p).1 (loopRaw e m' i p).2.1 (loopRaw e m' i p).2.2).2.2) ∧
        (let r := loopRaw e m' i p
         let f := last2 st.isSome e r.1 r.2.1 r.2.2
         some (f.1, f.2.1 - dest, st.map fun _ => f.2.2)) =
          some (m.wr dest o, o.length, st.map fun _ => (last2 st.isSome e (loopRaw e m' i p).1 (loopRaw e m' i p).2.1 (loopRaw e m' i p).2.2).2.2) ∧ o.length ≤ len := by
    intro m' i p out hm hp hi hie
    subst hm hp
    have := tailRaw_sim st.isSome e (m.wr dest out) i (dest + out.length) out (by unfold Safe; omega)
    rw [rd_wr_of _ _ _ (by omega)] at this
    obtain ⟨o, s, h1, h2, h3⟩ := this
    simp only [h1, h2]
    exact ⟨out ++ o, rfl, by rw [wr_append]; simp; omega, by simp; omega⟩
  have dot : ∃ k, Dec.preCrlf (m.rd src e) = some (.go (m.rd (src + k) e) []) ∧ preCrlf e m src dest = some (.go m (src + k) dest) ∧
      src + k ≤ e := by
    unfold preCrlf Dec.preCrlf
    rw [rd_cons m (by omega), if_pos (by omega)]
    by_cases hd : m src = DOT
    · exact ⟨1, by simp [hd], by simp [hd], by omega⟩
    · refine ⟨0, ?_, by simp [hd], by omega⟩
      show _ = some (Dec.Pre.go (m.rd src e) [])
      rw [rd_cons m (show src < e by omega)]; simp [hd]
  have pre : (∃ s o, Dec.preRaw st (m.rd src e) = some (.ret [] s) ∧ preRaw st e m src dest = some (.ret (m.wr dest o) 0 s) ∧ o.length ≤ len) ∨
      (∃ i o, Dec.preRaw st (m.rd src e) = some (.go (m.rd i e) o) ∧ preRaw st e m src dest = some (.go (m.wr dest o) i (dest + o.length)) ∧
        src + o.length ≤ i ∧ i ≤ e) := by
    obtain ⟨k, d1, d2, d3⟩ := dot
    rcases st with _ | st
    · exact Or.inr ⟨src + k, [], d1, d2, by simp, d3⟩
    cases st with
    | crlf => exact Or.inr ⟨src + k, [], d1, d2, by simp, d3⟩
    | none => exact Or.inr ⟨src, [], rfl, rfl, by simp, by omega⟩
    | crlfdt => exact Or.inr ⟨src, [], rfl, rfl, by simp, by omega⟩
    | crlfdtcr => exact Or.inr ⟨src, [], rfl, rfl, by simp, by omega⟩
    | crlfeq => exact Or.inr ⟨src, [], rfl, rfl, by simp, by omega⟩
    | cr =>
      rcases preCr_sim e m src dest [] (by omega) with ⟨_, s, h1, h3, _⟩ | ⟨k, h1, h3, h4⟩
      · exact Or.inl ⟨s, [], h1, h3, by simp⟩
      · exact Or.inr ⟨src + k, [], h1, h3, by simp, by omega⟩
    | eq =>
      unfold preRaw Dec.preRaw
      simp only
      rw [rd_cons m (by omega), if_pos (by omega)]
      simp only
      by_cases hc : m src = CR
      · rw [if_pos hc, if_pos hc]
        by_cases h2 : e ≤ src + 1
        · rw [rd_nil m h2, if_pos h2]
          exact Or.inl ⟨_, [m src - 42#8 - 64#8], rfl, rfl, by simp; omega⟩
        · rw [if_neg h2]
          have hcons := rd_cons m (show src + 1 < e by omega)
          rw [hcons]
          simp only
          rw [← hcons]
          have := preCr_sim e (m.set dest (m src - 42#8 - 64#8)) (src + 1) (dest + 1) [m src - 42#8 - 64#8] (by omega)
          rw [rd_set_of _ _ _ (by omega)] at this
          rcases this with ⟨_, s, h1, h3, _⟩ | ⟨k, h1, h3, h4⟩
          · exact Or.inl ⟨_, [m src - 42#8 - 64#8], h1, h3, by simp; omega⟩
          · rw [rd_set_of _ _ _ (by omega)] at h1
            exact Or.inr ⟨src + 1 + k, [m src - 42#8 - 64#8], h1, h3, by simp, by omega⟩
      · rw [if_neg hc, if_neg hc]
        exact Or.inr ⟨src + 1, [m src - 42#8 - 64#8], rfl, rfl, by simp, by omega⟩
  rcases pre with ⟨s, o, h1, h2, h3⟩ | ⟨i, o, h1, h2, h3, h4⟩
  · rw [h1, h2]
    exact ⟨[], some s, o, rfl, rfl, by simp, h3⟩
  · rw [h1, h2]
    obtain ⟨o, g1, g2, g3⟩ := go _ i _ o rfl rfl h3 h4
    exact ⟨_, _, o, g1, g2, List.prefix_refl _, g3⟩

/-! ### The plain decoder -/

theorem loopPlain_sim (e : Nat) : ∀ (n : Nat) (m : Mem) (i p : Nat) (out : List Byte), e - i = n → Safe p i e →
    Sim e m i p out (Dec.loopPlain (m.rd i e) out) (loopPlain e m i p) := by
  intro n
  induction n using Nat.strongRecOn with
  | ind n ih =>
    intro m i p out hn hs
    have hs' : p ≤ i ∨ e ≤ p := hs
    rw [loopPlain]
    by_cases h : i + 1 < e
    · rw [if_pos h]
      have h2 := rd_cons m (show i + 1 < e by omega)
      have h3 := rd_cons m (show i < e by omega)
      rw [h3, h2, Dec.loopPlain, ← h2]
      simp only
      split
      · exact (ih _ (by omega) m (i + 1) p out rfl (by unfold Safe; omega)).skip 1 (by omega)
      · split
        · have := ih _ (by omega) (m.set p (m (i + 1) - 64#8 - 42#8)) (i + 2) (p + 1) (out ++ [m (i + 1) - 64#8 - 42#8])
            rfl (by unfold Safe; omega)
          rw [rd_set_of _ _ _ (by omega)] at this
          exact this.put 2 (by omega) (by omega) hs
        · have := ih _ (by omega) (m.set p (m i - 42#8)) (i + 1) (p + 1) (out ++ [m i - 42#8]) rfl (by unfold Safe; omega)
          rw [rd_set_of _ _ _ (by omega)] at this
          exact this.put 1 (by omega) (by omega) hs
    · rw [if_neg h]
      have : Dec.loopPlain (m.rd i e) out = (m.rd i e, out) := by
        have hl : (m.rd i e).length ≤ 1 := by simp; omega
        generalize m.rd i e = l at *
        match l, hl with
        | [], _ => rfl
        | [_], _ => rfl
      rw [this]
      exact Sim.stop e m i p out

theorem loopPlain_rest (l out : List Byte) : (Dec.loopPlain l out).1.length ≤ 1 := by
  induction l, out using Dec.loopPlain.induct with
  | case1 => unfold Dec.loopPlain; simp_all
  | case2 => unfold Dec.loopPlain; simp_all
  | case3 => unfold Dec.loopPlain; simp_all
  | case4 l out h =>
    match l with
    | [] => simp [Dec.loopPlain]
    | [_] => simp [Dec.loopPlain]
    | a :: b :: r => exact absurd rfl (h a b r)

theorem noendPlain_sim (m : Mem) (src dest len : Nat) (st : Option State) (hs : Safe dest src (src + len)) :
    ∃ out st', Dec.noendPlain st (m.rd src (src + len)) = (out, st') ∧
      noendPlain m src dest len st = (m.wr dest out, out.length, st') ∧ out.length ≤ len := by
  unfold noendPlain Dec.noendPlain
  by_cases h0 : len = 0
  · subst h0
    rw [if_pos rfl, rd_nil m (by omega)]
    exact ⟨[], st, rfl, rfl, by simp⟩
  rw [if_neg h0]
  generalize he : src + len = e at *
  have hs' : dest ≤ src ∨ e ≤ dest := hs
  have hcons := rd_cons m (show src < e by omega)
  have go : ∀ (m' : Mem) (i p : Nat) (o0 : List Byte), m.wr dest o0 = m' → p = dest + o0.length → src + o0.length ≤ i → i ≤ e →
      ∃ out st', (let r := Dec.loopPlain (m.rd i e) o0
        match r.1 with
        | [a] =>
          if a ≠ LF ∧ a ≠ CR ∧ a ≠ EQ then (r.2 ++ [a - 42#8], st.map fun _ => State.none)
          else (r.2, st.map fun _ => if a = EQ then .eq else .none)
        | _ => (r.2, st.map fun _ => .none)) = (out, st') ∧
      (let r := loopPlain e m' i p
       if r.2.1 + 1 = e then
         let c := r.1 r.2.1
         if c ≠ LF ∧ c ≠ CR ∧ c ≠ EQ then (r.1.set r.2.2 (c - 42#8), r.2.2 + 1 - dest, st.map fun _ => State.none)
         else (r.1, r.2.2 - dest, st.map fun _ => if c = EQ then .eq else .none)
       else (r.1, r.2.2 - dest, st.map fun _ => .none)) = (m.wr dest out, out.length, st') ∧ out.length ≤ len := by
    intro m' i p o0 hm hp hi hie
    subst hm hp
    have hr := loopPlain_rest (m.rd i e) o0
    have := loopPlain_sim e _ (m.wr dest o0) i (dest + o0.length) o0 rfl (by unfold Safe; omega)
    rw [rd_wr_of _ _ _ (by omega)] at this
    obtain ⟨i', o, h1, h2, h3, h4, h5⟩ := this
    rw [rd_wr_of _ _ _ (by omega)] at h1
    simp only [h1, h2]
    rw [h1] at hr
    simp only [rd_length] at hr
    rw [← wr_append]
    have h6 : dest + o0.length + o.length = dest + (o0 ++ o).length := by simp; omega
    have h7 : (o0 ++ o).length ≤ i' - src := by simp; omega
    rw [h6]
    generalize o0 ++ o = q at *
    by_cases hl : i' + 1 = e
    · rw [if_pos hl]
      have h8 : m.rd i' e = [m i'] := by rw [rd_cons m (by omega), rd_nil m (by omega)]
      have h9 : (m.wr dest q) i' = m i' := wr_out m dest q i' (by omega)
      rw [h8, h9]
      simp only
      split
      · refine ⟨_, _, rfl, ?_, by simp; omega⟩
        rw [wr_append]; simp [wr]; omega
      · exact ⟨_, _, rfl, by simp, by omega⟩
    · rw [if_neg hl, rd_nil m (by omega)]
      exact ⟨_, _, rfl, by simp, by omega⟩
  rw [hcons]
  simp only
  rw [← hcons]
  by_cases hst : st = some .eq
  · rw [if_pos hst, if_pos hst]
    exact go (m.set dest (m src - 42#8 - 64#8)) (src + 1) (dest + 1) [m src - 42#8 - 64#8] rfl rfl (by simp) (by omega)
  · rw [if_neg hst, if_neg hst]
    exact go m src dest [] rfl rfl (by simp) (by omega)

/-! ### The decoder with end detection -/

/-- `preEnd` and `loopEnd` do the same on memory as on lists. -/
def SimS (e : Nat) (m : Mem) (i p : Nat) (out : List Byte) : Dec.Step → Step → Prop
  | .ret r, .ret r' => ∃ o, r.out = out ++ o ∧ r'.m = m.wr p o ∧ r'.dest = p + o.length ∧ r'.state = r.state ∧ r'.ended = r.ended ∧
      r.rest = m.rd r'.src e ∧ i ≤ r'.src ∧ r'.src ≤ e ∧ o.length ≤ r'.src - i
  | .go rest out', .go m' i' p' => ∃ o, out' = out ++ o ∧ m' = m.wr p o ∧ p' = p + o.length ∧ rest = m.rd i' e ∧ i ≤ i' ∧ i' ≤ max i e ∧
      o.length ≤ i' - i
  | _, _ => False

theorem SimS.go (e : Nat) (m : Mem) (i p : Nat) (out : List Byte) :
    SimS e m i p out (.go (m.rd i e) out) (.go m i p) :=
  ⟨[], by simp, by simp [wr], by simp, rfl, Nat.le_refl _, by omega, by simp⟩

theorem SimS.ret (e : Nat) (m : Mem) (i p k : Nat) (out : List Byte) (s : State) (x : Ended) (hk : i + k ≤ e) :
    SimS e m i p out (.ret ⟨m.rd (i + k) e, out, s, x⟩) (.ret ⟨m, i + k, p, s, x⟩) :=
  ⟨[], by simp, by simp [wr], by simp, rfl, rfl, rfl, by simp, by simpa using hk, by simp⟩

theorem SimS.retE (e : Nat) (m : Mem) (i p : Nat) (out : List Byte) (s : State) (x : Ended) (hk : i ≤ e) :
    SimS e m i p out (.ret ⟨[], out, s, x⟩) (.ret ⟨m, e, p, s, x⟩) :=
  ⟨[], by simp, by simp [wr], by simp, rfl, rfl, (rd_nil m (Nat.le_refl _)).symm, hk, Nat.le_refl _, by simp⟩

theorem SimS.skip {e m i p out L R} (k : Nat) (h : SimS e m (i + k) p out L R) (hk : i + k ≤ e) : SimS e m i p out L R := by
  cases L <;> cases R <;> simp only [SimS] at h ⊢
  · obtain ⟨o, h1, h2, h3, h4, h5, h6, h7, h8, h9⟩ := h
    exact ⟨o, h1, h2, h3, h4, h5, h6, by omega, h8, by omega⟩
  · obtain ⟨o, h1, h2, h3, h4, h5, h6, h7⟩ := h
    exact ⟨o, h1, h2, h3, h4, by omega, by omega, by omega⟩

theorem SimS.put {e m i p out L R b} (k : Nat) (h : SimS e (m.set p b) (i + k) (p + 1) (out ++ [b]) L R) (h1 : 1 ≤ k)
    (hk : i + k ≤ e) (hs : Safe p i e) : SimS e m i p out L R := by
  have hs' : p ≤ i ∨ e ≤ p := hs
  cases L <;> cases R <;> simp only [SimS] at h ⊢
  · obtain ⟨o, h1, h2, h3, h4, h5, h6, h7, h8, h9⟩ := h
    refine ⟨b :: o, by simp [h1], h2, by simp; omega, h4, h5, ?_, by omega, h8, by simp; omega⟩
    rw [h6, rd_set_of _ _ _ (by omega)]
  · obtain ⟨o, h1, h2, h3, h4, h5, h6, h7⟩ := h
    refine ⟨b :: o, by simp [h1], h2, by simp; omega, ?_, by omega, by omega, by simp; omega⟩
    rw [h4, rd_set_of _ _ _ (by omega)]

theorem loopEnd_sim (e : Nat) : ∀ (n : Nat) (m : Mem) (i p : Nat) (out : List Byte), e - i = n → Safe p i e →
    SimS e m i p out (Dec.loopEnd (m.rd i e) out) (loopEnd e m i p) := by
  intro n
  induction n using Nat.strongRecOn with
  | ind n ih =>
    intro m i p out hn hs
    have hs' : p ≤ i ∨ e ≤ p := hs
    rw [loopEnd]
    have skip : ∀ k, 1 ≤ k → i + k ≤ e → SimS e m i p out (Dec.loopEnd (m.rd (i + k) e) out) (loopEnd e m (i + k) p) :=
      fun k h1 h2 => (ih _ (by omega) m (i + k) p out rfl (by unfold Safe; omega)).skip k h2
    have put : ∀ (b : Byte) k, 1 ≤ k → i + k ≤ e →
        SimS e m i p out (Dec.loopEnd (m.rd (i + k) e) (out ++ [b])) (loopEnd e (m.set p b) (i + k) (p + 1)) := by
      intro b k h1 h2
      have := ih _ (by omega) (m.set p b) (i + k) (p + 1) (out ++ [b]) rfl (by unfold Safe; omega)
      rw [rd_set_of _ _ _ (by omega)] at this
      exact this.put k h1 h2 hs
    by_cases h : i + 2 < e
    · rw [if_pos h]
      have c2 := rd_cons m (show i + 2 < e by omega)
      have c1 := rd_cons m (show i + 1 < e by omega)
      have c0 := rd_cons m (show i < e by omega)
      have key : Dec.loopEnd (m.rd i e) out =
          (if m i = CR then
            if m (i + 1) = LF then
              if m (i + 2) = DOT then
                if i + 3 = e then .ret ⟨[], out, .crlfdt, .none⟩
                else if m (i + 3) = CR then
                  if i + 4 = e then .ret ⟨[], out, .crlfdtcr, .none⟩
                  else if m (i + 4) = LF then .ret ⟨m.rd (i + 5) e, out, .crlf, .article⟩ else Dec.loopEnd (m.rd (i + 4) e) out
                else if m (i + 3) = EQ then
                  if i + 4 = e then .ret ⟨[], out, .crlfeq, .none⟩
                  else if m (i + 4) = LY then .ret ⟨m.rd (i + 5) e, out, .none, .control⟩
                  else if m (i + 4) = CR then Dec.loopEnd (m.rd (i + 4) e) (out ++ [m (i + 4) - 42#8 - 64#8])
                  else Dec.loopEnd (m.rd (i + 5) e) (out ++ [m (i + 4) - 42#8 - 64#8])
                else Dec.loopEnd (m.rd (i + 3) e) out
              else if m (i + 2) = EQ then
                if i + 3 = e then .ret ⟨[], out, .crlfeq, .none⟩
                else if m (i + 3) = LY then .ret ⟨m.rd (i + 4) e, out, .none, .control⟩
                else if m (i + 3) = CR then Dec.loopEnd (m.rd (i + 3) e) (out ++ [m (i + 3) - 42#8 - 64#8])
                else Dec.loopEnd (m.rd (i + 4) e) (out ++ [m (i + 3) - 42#8 - 64#8])
              else Dec.loopEnd (m.rd (i + 1) e) out
            else Dec.loopEnd (m.rd (i + 1) e) out
          else if m i = LF then Dec.loopEnd (m.rd (i + 1) e) out
          else if m i = EQ then
            if m (i + 1) ≠ CR then Dec.loopEnd (m.rd (i + 2) e) (out ++ [m (i + 1) - 42#8 - 64#8])
            else Dec.loopEnd (m.rd (i + 1) e) (out ++ [m (i + 1) - 42#8 - 64#8])
          else Dec.loopEnd (m.rd (i + 1) e) (out ++ [m i - 42#8])) := by
        rw [c0, c1, c2]
        conv_lhs => rw [Dec.loopEnd.eq_def]
        simp only
        by_cases h3 : i + 3 = e
        · have n3 : m.rd (i + 2 + 1) e = [] := rd_nil m (by omega)
          rw [if_pos h3, if_pos h3, n3]
        · have c3 := rd_cons m (show i + 2 + 1 < e by omega)
          rw [if_neg h3, if_neg h3]
          by_cases h4 : i + 4 = e
          · have n4 : m.rd (i + 2 + 1 + 1) e = [] := rd_nil m (by omega)
            rw [if_pos h4, if_pos h4]
            simp only [c3, n4]
          · have c4 := rd_cons m (show i + 2 + 1 + 1 < e by omega)
            rw [if_neg h4, if_neg h4]
            simp only [c3, c4]
      rw [key]
      clear key
      simp only
      split
      · split
        · split
          · split
            · exact SimS.retE _ _ _ _ _ _ _ (by omega)
            · split
              · split
                · exact SimS.retE _ _ _ _ _ _ _ (by omega)
                · split
                  · exact SimS.ret _ _ _ _ _ _ _ _ (by omega)
                  · exact skip 4 (by omega) (by omega)
              · split
                · split
                  · exact SimS.retE _ _ _ _ _ _ _ (by omega)
                  · split
                    · exact SimS.ret _ _ _ _ _ _ _ _ (by omega)
                    · split
                      · exact put _ 4 (by omega) (by omega)
                      · exact put _ 5 (by omega) (by omega)
                · exact skip 3 (by omega) (by omega)
          · split
            · split
              · exact SimS.retE _ _ _ _ _ _ _ (by omega)
              · split
                · exact SimS.ret _ _ _ _ _ _ _ _ (by omega)
                · split
                  · exact put _ 3 (by omega) (by omega)
                  · exact put _ 4 (by omega) (by omega)
            · exact skip 1 (by omega) (by omega)
        · exact skip 1 (by omega) (by omega)
      · split
        · exact skip 1 (by omega) (by omega)
        · split
          · split
            · exact put _ 2 (by omega) (by omega)
            · exact put _ 1 (by omega) (by omega)
          · exact put _ 1 (by omega) (by omega)
    · rw [if_neg h]
      have : Dec.loopEnd (m.rd i e) out = .go (m.rd i e) out := by
        have hl : (m.rd i e).length ≤ 2 := by simp; omega
        generalize m.rd i e = l at *
        match l, hl with
        | [], _ => rw [Dec.loopEnd.eq_def]
        | [_], _ => rw [Dec.loopEnd.eq_def]
        | [_, _], _ => rw [Dec.loopEnd.eq_def]
      rw [this]
      exact SimS.go e m i p out

theorem loopEnd_rest : ∀ (n : Nat) (l out : List Byte), l.length = n → ∀ rest out', Dec.loopEnd l out = .go rest out' → rest.length ≤ 2 := by
  intro n
  induction n using Nat.strongRecOn with
  | ind n ih =>
    intro l out hl rest out' h
    have again : ∀ l' o', l'.length < n → Dec.loopEnd l' o' = .go rest out' → rest.length ≤ 2 :=
      fun l' o' h1 h2 => ih _ h1 l' o' rfl rest out' h2
    match l with
    | [] => simp [Dec.loopEnd] at h; simp [h.1]
    | [_] => simp [Dec.loopEnd] at h; simp [← h.1]
    | [_, _] => simp [Dec.loopEnd] at h; simp [← h.1]
    | a :: b :: c :: r =>
      rw [Dec.loopEnd.eq_def] at h
      simp only at h
      simp only [List.length_cons] at hl
      split at h
      · split at h
        · split at h
          · split at h
            · cases h
            · split at h
              · split at h
                · cases h
                · split at h
                  · cases h
                  · exact again _ _ (by simp at hl ⊢; omega) h
              · split at h
                · split at h
                  · cases h
                  · split at h
                    · cases h
                    · split at h
                      · exact again _ _ (by simp at hl ⊢; omega) h
                      · exact again _ _ (by simp at hl ⊢; omega) h
                · exact again _ _ (by simp at hl ⊢; omega) h
          · split at h
            · split at h
              · cases h
              · split at h
                · cases h
                · split at h
                  · exact again _ _ (by simp at hl ⊢; omega) h
                  · exact again _ _ (by simp at hl ⊢; omega) h
            · exact again _ _ (by simp at hl ⊢; omega) h
        · exact again _ _ (by simp at hl ⊢; omega) h
      · split at h
        · exact again _ _ (by simp at hl ⊢; omega) h
        · split at h
          · split at h
            · exact again _ _ (by simp at hl ⊢; omega) h
            · exact again _ _ (by simp at hl ⊢; omega) h
          · exact again _ _ (by simp at hl ⊢; omega) h

theorem preEnd_sim (e : Nat) : ∀ (n : Nat) (st : State) (m : Mem) (i p : Nat) (out : List Byte), 2 * (e - i) + st.rank = n → i < e → Safe p i e →
    ∃ L R, Dec.preEnd st (m.rd i e) out = some L ∧ preEnd st e m i p = some R ∧ SimS e m i p out L R := by
  intro n
  induction n using Nat.strongRecOn with
  | ind n ih =>
    intro st m i p out hn hi hs
    have hs' : p ≤ i ∨ e ≤ p := hs
    have skip : ∀ st', i + 1 < e → ∃ L R, Dec.preEnd st' (m.rd (i + 1) e) out = some L ∧ preEnd st' e m (i + 1) p = some R ∧ SimS e m i p out L R := by
      intro st' h1
      have r1 : st'.rank ≤ 1 := by cases st' <;> decide
      obtain ⟨L, R, h2, h3, h4⟩ := ih (2 * (e - (i + 1)) + st'.rank) (by omega) st' m (i + 1) p out rfl h1 (by unfold Safe; omega)
      exact ⟨L, R, h2, h3, h4.skip 1 (by omega)⟩
    have cons := rd_cons m hi
    have emp : (m.rd (i + 1) e = []) ↔ i + 1 = e := by
      constructor
      · intro h
        have := congrArg List.length h
        simp at this; omega
      · intro h; exact rd_nil m (by omega)
    rw [preEnd.eq_def]
    cases st with
    | none =>
      rw [if_pos rfl]
      rw [Dec.preEnd]
      exact ⟨_, _, rfl, rfl, SimS.go e m i p out⟩
    | crlfeq =>
      rw [if_neg (by simp), dif_pos hi, cons, Dec.preEnd]
      simp only
      by_cases h1 : m i = LY
      · rw [if_pos h1, if_pos h1]
        exact ⟨_, _, rfl, rfl, SimS.ret e m i p 1 out _ _ (by omega)⟩
      · rw [if_neg h1, if_neg h1, ← cons]
        exact ih (2 * (e - i) + State.rank .eq) (by simp [State.rank] at hn ⊢; omega) .eq m i p out rfl hi hs
    | eq =>
      rw [if_neg (by simp), dif_pos hi, cons, Dec.preEnd]
      simp only
      have put1 : ∀ b L R, SimS e (m.set p b) (i + 1) (p + 1) (out ++ [b]) L R → SimS e m i p out L R :=
        fun b L R h => h.put 1 (by omega) (by omega) hs
      by_cases h1 : m i = CR
      · rw [if_neg (not_not.2 h1), if_neg (not_not.2 h1)]
        by_cases h2 : i + 1 = e
        · rw [if_pos h2, if_pos (emp.2 h2)]
          exact ⟨_, _, rfl, rfl, put1 _ _ _ (SimS.retE e _ (i + 1) _ _ _ _ (by omega))⟩
        · rw [if_neg h2, if_neg (fun h => h2 (emp.1 h))]
          obtain ⟨L, R, g1, g2, g3⟩ := ih (2 * (e - (i + 1)) + State.rank .cr) (by simp [State.rank] at hn ⊢; omega) .cr
            (m.set p (m i - 42#8 - 64#8)) (i + 1) (p + 1) (out ++ [m i - 42#8 - 64#8]) rfl (by omega) (by unfold Safe; omega)
          rw [rd_set_of _ _ _ (by omega)] at g1
          exact ⟨L, R, g1, g2, put1 _ _ _ g3⟩
      · rw [if_pos h1, if_pos h1]
        refine ⟨_, _, rfl, rfl, put1 (m i - 42#8 - 64#8) _ _ ?_⟩
        have := SimS.go e (m.set p (m i - 42#8 - 64#8)) (i + 1) (p + 1) (out ++ [m i - 42#8 - 64#8])
        rw [rd_set_of _ _ _ (by omega)] at this
        exact this
    | cr =>
      rw [if_neg (by simp), dif_pos hi, cons, Dec.preEnd]
      simp only
      by_cases h1 : m i = LF
      · rw [if_neg (not_not.2 h1), if_neg (not_not.2 h1)]
        by_cases h2 : i + 1 = e
        · rw [if_pos h2, if_pos (emp.2 h2)]
          exact ⟨_, _, rfl, rfl, SimS.retE e m i p out _ _ (by omega)⟩
        · rw [if_neg h2, if_neg (fun h => h2 (emp.1 h))]
          exact skip .crlf (by omega)
      · rw [if_pos h1, if_pos h1, ← cons]
        exact ⟨_, _, rfl, rfl, SimS.go e m i p out⟩
    | crlf =>
      rw [if_neg (by simp), dif_pos hi, cons, Dec.preEnd]
      simp only
      by_cases h1 : m i = DOT
      · rw [if_pos h1, if_pos h1]
        by_cases h2 : i + 1 = e
        · rw [if_pos h2, if_pos (emp.2 h2)]
          exact ⟨_, _, rfl, rfl, SimS.retE e m i p out _ _ (by omega)⟩
        · rw [if_neg h2, if_neg (fun h => h2 (emp.1 h))]
          exact skip .crlfdt (by omega)
      · rw [if_neg h1, if_neg h1]
        by_cases h1 : m i = EQ
        · rw [if_pos h1, if_pos h1]
          by_cases h2 : i + 1 = e
          · rw [if_pos h2, if_pos (emp.2 h2)]
            exact ⟨_, _, rfl, rfl, SimS.retE e m i p out _ _ (by omega)⟩
          · rw [if_neg h2, if_neg (fun h => h2 (emp.1 h))]
            exact skip .crlfeq (by omega)
        · rw [if_neg h1, if_neg h1, ← cons]
          exact ⟨_, _, rfl, rfl, SimS.go e m i p out⟩
    | crlfdt =>
      rw [if_neg (by simp), dif_pos hi, cons, Dec.preEnd]
      simp only
      by_cases h1 : m i = CR
      · rw [if_pos h1, if_pos h1]
        by_cases h2 : i + 1 = e
        · rw [if_pos h2, if_pos (emp.2 h2)]
          exact ⟨_, _, rfl, rfl, SimS.retE e m i p out _ _ (by omega)⟩
        · rw [if_neg h2, if_neg (fun h => h2 (emp.1 h))]
          exact skip .crlfdtcr (by omega)
      · rw [if_neg h1, if_neg h1]
        by_cases h1 : m i = EQ
        · rw [if_pos h1, if_pos h1]
          by_cases h2 : i + 1 = e
          · rw [if_pos h2, if_pos (emp.2 h2)]
            exact ⟨_, _, rfl, rfl, SimS.retE e m i p out _ _ (by omega)⟩
          · rw [if_neg h2, if_neg (fun h => h2 (emp.1 h))]
            exact skip .crlfeq (by omega)
        · rw [if_neg h1, if_neg h1, ← cons]
          exact ⟨_, _, rfl, rfl, SimS.go e m i p out⟩
    | crlfdtcr =>
      rw [if_neg (by simp), dif_pos hi, cons, Dec.preEnd]
      simp only
      by_cases h1 : m i = LF
      · rw [if_pos h1, if_pos h1]
        exact ⟨_, _, rfl, rfl, SimS.ret e m i p 1 out _ _ (by omega)⟩
      · rw [if_neg h1, if_neg h1, ← cons]
        exact ⟨_, _, rfl, rfl, SimS.go e m i p out⟩

/-- The decoder with end detection on memory. -/
theorem endRaw_sim (m : Mem) (src dest len : Nat) (st : State) (hs : Safe dest src (src + len)) :
    ∃ r, endRaw m src dest len st =
        some ⟨m.wr dest (run st (m.rd src (src + len))).out, r, dest + (run st (m.rd src (src + len))).out.length,
          (run st (m.rd src (src + len))).state, (run st (m.rd src (src + len))).ended⟩ ∧
      (run st (m.rd src (src + len))).rest = m.rd r (src + len) ∧ src ≤ r ∧ r ≤ src + len ∧
      (run st (m.rd src (src + len))).out.length ≤ r - src := by
  have hrun := endRaw_eq st (m.rd src (src + len))
  generalize run st (m.rd src (src + len)) = q at *
  generalize he : src + len = e at *
  have hs' : dest ≤ src ∨ e ≤ dest := hs
  unfold Dec.endRaw at hrun
  unfold endRaw
  by_cases h0 : len = 0
  · rw [if_pos (rd_nil m (by omega))] at hrun
    rw [if_pos h0]
    cases hrun
    exact ⟨src, by simp [wr], (rd_nil m (by omega)).symm, Nat.le_refl _, by omega, by simp⟩
  · rw [if_neg (by rw [rd_cons m (by omega)]; simp)] at hrun
    rw [if_neg h0]
    obtain ⟨L, R, h1, h2, h3⟩ := preEnd_sim e _ st m src dest [] rfl (by omega) hs
    rw [h1] at hrun
    rw [he, h2]
    cases L with
    | ret r =>
      cases R with
      | go => exact absurd h3 (by simp [SimS])
      | ret r' =>
        simp only [Option.some.injEq] at hrun ⊢
        subst hrun
        obtain ⟨o, g1, g2, g3, g4, g5, g6, g7, g8, g9⟩ := h3
        obtain ⟨rm, rs, rdd, rst, re⟩ := r'
        simp only [List.nil_append] at *
        subst g2 g3 g4 g5
        exact ⟨rs, by rw [g1], g6, g7, g8, by rw [g1]; exact g9⟩
    | go rest out' =>
      cases R with
      | ret => exact absurd h3 (by simp [SimS])
      | go m' i' p' =>
        simp only [Option.some.injEq] at hrun ⊢
        obtain ⟨o, g1, g2, g3, g4, g5, g6, g7⟩ := h3
        simp only [List.nil_append] at g1
        subst g1 g2 g3 g4
        have h4 := loopEnd_sim e _ (m.wr dest out') i' (dest + out'.length) out' rfl (by unfold Safe; omega)
        rw [rd_wr_of _ _ _ (by omega)] at h4
        have hl := loopEnd_rest _ (m.rd i' e) out' rfl
        unfold tailEnd
        unfold Dec.tailEnd at hrun
        cases hL : Dec.loopEnd (m.rd i' e) out' with
        | ret r =>
          rw [hL] at h4 hrun
          cases hR : loopEnd e (m.wr dest out') i' (dest + out'.length) with
          | go => rw [hR] at h4; exact absurd h4 (by simp [SimS])
          | ret r' =>
            rw [hR] at h4
            simp only at hrun
            subst hrun
            obtain ⟨o, g1, g2, g3, g4, k5, k6, k7, k8, k9⟩ := h4
            obtain ⟨rm, rs, rdd, rst, re⟩ := r'
            simp only at *
            subst g2 g3 g4 k5
            rw [rd_wr_of _ _ _ (by omega)] at k6
            exact ⟨rs, by rw [g1, wr_append]; simp; omega, k6, by omega, k8, by rw [g1]; simp; omega⟩
        | go rest out2 =>
          rw [hL] at h4 hrun
          cases hR : loopEnd e (m.wr dest out') i' (dest + out'.length) with
          | ret => rw [hR] at h4; exact absurd h4 (by simp [SimS])
          | go m2 i2 p2 =>
            rw [hR] at h4
            obtain ⟨o, k1, k2, k3, k4, k5, k6, k7⟩ := h4
            rw [← wr_append] at k2
            subst k1 k2 k3
            have k8 := hl rest (out' ++ o) hL
            rw [rd_wr_of _ _ _ (by omega)] at k4
            subst k4
            simp only [rd_length] at k8
            have h6 := last2_sim true e (m.wr dest (out' ++ o)) i2 (dest + out'.length + o.length) (out' ++ o) (by omega)
              (by unfold Safe; omega)
            rw [rd_wr_of _ _ _ (by simp; omega)] at h6
            obtain ⟨o2, s, j1, j2, j3⟩ := h6
            simp only [j1, j2] at hrun ⊢
            subst hrun
            refine ⟨e, ?_, (rd_nil m (Nat.le_refl _)).symm, by omega, Nat.le_refl _, by simp; omega⟩
            simp only [wr_append, List.length_append, Nat.add_assoc]

end Yenc.Dec.M
