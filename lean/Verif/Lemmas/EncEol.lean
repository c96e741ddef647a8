import Verif.Lemmas.EncX86Base
import Verif.Model.EncoderEol
/-! The frame of the ARM and RISC-V encoders is right, provided that the rounds and the handling of the end of a line are. -/
namespace Yenc.Enc.Simd
open Yenc
open Yenc.Dec.Simd (cnt cnt_add cnt_le cnt_congr)

/-- The last character of a line. -/
def lastChar (c : Byte) : List Byte := if Spec.critical (c + 42#8) = true ∨ c + 42#8 = TAB ∨ c + 42#8 = SP then [EQ, c + 42#8 + 64#8] else [c + 42#8]

/-- The `n` characters after the first. -/
def body (b : Nat → Byte) (n : Nat) : List Byte := expand (special true (fun j => b (1 + j))) (fun j => b (1 + j)) n

/-- What the handling of the end of a line has to do: write the last character of the line, the line break and the `n - 1` characters that follow. -/
structure Eol.Ok (n : Nat) (b : Nat → Byte) (e : Eol) : Prop where
  adv : e.adv = (lastChar (b 0) ++ [CR, LF] ++ body b (n - 1)).length
  col : ∀ ls, e.col ls = ((body b (n - 1)).length : Int) - ls + 1
  out : ∀ d : D, (d.stores e.stores).m.rdn d.p e.adv = lastChar (b 0) ++ [CR, LF] ++ body b (n - 1)
  hi : ∀ d : D, (d.stores e.stores).hi ≤ max d.hi (d.p + e.adv + 8)

structure EKernel.Ok (K : EKernel) : Prop where
  width : 8 ≤ K.width
  eolWidth : 2 ≤ K.eolWidth ∧ K.eolWidth ≤ K.width
  round : ∀ pos b, (K.round pos b).toRound.Ok K.width false b
  colAdv : ∀ pos b, (K.round pos b).colAdv = (K.round pos b).adv
  eol : ∀ b, (K.eol b).Ok K.eolWidth b

/-- State between rounds: what is written, followed by the reference encoding of the rest, is the whole. -/
structure EInv (ls : Nat) (src total : List Byte) (ec : Nat) (d : D) (pos c : Nat) : Prop where
  le : pos ≤ src.length
  out : d.toW.out ++ Spec.encode ls false c (src.drop pos) = total
  col : Spec.endCol ls false c (src.drop pos) = ec
  hi : d.hi ≤ total.length + 8

theorem Inv.toE {ls : Nat} {src total : List Byte} {ec : Nat} {d : D} {pos c : Nat} (h : Inv ls src total ec d pos c) : EInv ls src total ec d pos c :=
  ⟨h.le, h.out, h.col, by have := h.hi; omega⟩

theorem EInv.len {ls : Nat} {src total : List Byte} {ec : Nat} {d : D} {pos c : Nat} (h : EInv ls src total ec d pos c) : d.p + (src.length - pos) ≤ total.length := by
  rw [← h.out, List.length_append, D.toW_out_length]
  have h1 : ∀ (l : List Byte) (c : Nat), l.length ≤ (Spec.encode ls false c l).length := by
    intro l c
    have := midLen_le_encode ls false c l []
    rw [List.append_nil] at this
    have h2 : l.length ≤ midLen l := by
      clear this
      induction l with
      | nil => simp
      | cons x xs ihx => rw [midLen_cons]; have := mid_pos x; simp; omega
    omega
  have := h1 (src.drop pos) c
  rw [List.length_drop] at this
  omega

/-- The end of a line. -/
theorem EInv.eol {K : EKernel} (hK : K.Ok) {ls : Nat} (hls : 2 * K.width ≤ ls) {src total : List Byte} {ec : Nat} {d : D} {pos c : Nat} (h : EInv ls src total ec d pos c)
    (hp : pos + K.eolWidth ≤ src.length)
    (hc : c + 1 = ls ∨ (c + 2 = ls ∧ Spec.critical (src.getD pos 0#8 + 42#8) = true)) :
    ∃ (d' : D) (c' : Nat), eolHandle K ls src d pos = some (d', pos + K.eolWidth, (c' : Int) - ls + 1) ∧ EInv ls src total ec d' (pos + K.eolWidth) c' ∧
      1 ≤ c' ∧ c' + 1 < ls := by
  unfold eolHandle
  rw [if_neg (by omega)]
  have he := hK.eol fun j => src.getD (pos + j) 0#8
  obtain ⟨hw, hew, hew'⟩ := And.intro hK.width hK.eolWidth
  simp only
  generalize K.eol (fun j => src.getD (pos + j) 0#8) = e at *
  have hlt : pos < src.length := by omega
  have hb0 : src.getD (pos + 0) 0#8 = src[pos] := by
    simp only [List.getD_eq_getElem?_getD, Nat.add_zero, List.getElem?_eq_getElem hlt]; rfl
  rw [Nat.add_zero] at hb0
  rw [hb0] at hc
  have hne : src.drop (pos + 1) ≠ [] := by
    intro h
    have := congrArg List.length h
    simp at this; omega
  obtain ⟨e1, e2⟩ := encode_eol ls c (by omega) src[pos] (src.drop (pos + 1)) hne hc
  have hbl : (body (fun j => src.getD (pos + j) 0#8) (K.eolWidth - 1)).length = (expand (special true fun j => src.getD (pos + 1 + j) 0#8) (fun j => src.getD (pos + 1 + j) 0#8) (K.eolWidth - 1)).length := by
    simp only [body, Nat.add_assoc]
  have hbe : body (fun j => src.getD (pos + j) 0#8) (K.eolWidth - 1) = expand (special true fun j => src.getD (pos + 1 + j) 0#8) (fun j => src.getD (pos + 1 + j) 0#8) (K.eolWidth - 1) := by
    simp only [body, Nat.add_assoc]
  have hl := expand_length (special true fun j => src.getD (pos + 1 + j) 0#8) (fun j => src.getD (pos + 1 + j) 0#8) (K.eolWidth - 1)
  have hl2 : cnt (special true fun j => src.getD (pos + 1 + j) 0#8) (K.eolWidth - 1) ≤ K.eolWidth - 1 := cnt_le _ _
  obtain ⟨g1, g2⟩ := encode_run ls 0 src (pos + 1) (K.eolWidth - 1) true _ rfl (fun _ => rfl) (by simp) (by omega) (by omega)
  rw [← hbe] at g1 g2 hl
  rw [show pos + 1 + (K.eolWidth - 1) = pos + K.eolWidth by omega, Nat.zero_add] at g1 g2
  have ho := h.out
  have hcol := h.col
  rw [drop_get hlt, e1, g1] at ho
  rw [drop_get hlt, e2, g2] at hcol
  have hadv := he.adv
  have hout := he.out d
  have hlast : lastChar (src.getD (pos + 0) 0#8) = if Spec.critical (src[pos] + 42#8) = true ∨ src[pos] + 42#8 = TAB ∨ src[pos] + 42#8 = SP then [EQ, src[pos] + 42#8 + 64#8] else [src[pos] + 42#8] := by
    rw [Nat.add_zero, hb0]; rfl
  rw [hlast] at hadv hout
  generalize hB : body (fun j => src.getD (pos + j) 0#8) (K.eolWidth - 1) = B at *
  generalize (if Spec.critical (src[pos] + 42#8) = true ∨ src[pos] + 42#8 = TAB ∨ src[pos] + 42#8 = SP then [EQ, src[pos] + 42#8 + 64#8] else [src[pos] + 42#8]) = L at *
  have hout' : ((d.stores e.stores).adv e.adv).toW.out = d.toW.out ++ (L ++ [CR, LF] ++ B) := by
    simp only [D.adv, D.toW, stores_p]
    rw [Mem.rdn_append, Nat.zero_add, hout]
    congr 1
    exact Mem.rdn_congr fun x _ h2 => stores_keep d e.stores x (by omega)
  refine ⟨(d.stores e.stores).adv e.adv, B.length, by rw [he.col, hB], ⟨by omega, by rw [hout', ← ho]; simp, hcol, ?_⟩, by omega, by omega⟩
  have h1 := he.hi d
  have h2 := h.hi
  have h3 := congrArg List.length ho
  simp only [List.length_append, D.toW_out_length] at h3 hadv
  simp only [D.adv]
  omega

/-- The main loop. -/
theorem eLoop_spec (K : EKernel) (hK : K.Ok) (ls : Nat) (hls : 2 * K.width ≤ ls) (src : List Byte) (total : List Byte) (ec : Nat) (fuel : Nat) (d : D) (pos c : Nat)
    (hfuel : src.length < pos + fuel) (hc : 1 ≤ c) (hcl : c + 1 < ls) (h : EInv ls src total ec d pos c) :
    ∃ (d' : D) (pos' c' : Nat), eLoop K ls src fuel d pos ((c : Int) - ls + 1) = some (d', pos', (c' : Int) - ls + 1) ∧ EInv ls src total ec d' pos' c' ∧ 1 ≤ c' ∧ c' + 1 < ls := by
  induction fuel generalizing d pos c with
  | zero => have := h.le; omega
  | succ fuel ih =>
  obtain ⟨hW, hew, hew'⟩ := And.intro hK.width hK.eolWidth
  rw [eLoop]
  by_cases hmore : ¬ (pos : Int) - src.length + (2 * K.width - 1) < 0
  · rw [if_neg hmore]
    exact ⟨d, pos, c, rfl, h, hc, hcl⟩
  replace hmore := Decidable.not_not.1 hmore
  rw [if_pos hmore, if_neg (by omega)]
  simp only
  have hr := hK.round pos (fun j => src.getD (pos + j) 0#8)
  rw [hK.colAdv pos (fun j => src.getD (pos + j) 0#8)]
  generalize K.round pos (fun j => src.getD (pos + j) 0#8) = r at *
  generalize hbb : (fun j => src.getD (pos + j) 0#8) = b at *
  have hadv := hr.adv
  have hp1 : ((d.stores r.stores).adv r.adv).p = d.p + r.adv := by simp only [D.adv, hr.pos]
  have hm1 : ((d.stores r.stores).adv r.adv).m.rdn 0 (d.p + r.adv) = d.toW.out ++ expand (special false b) b K.width := by
    simp only [D.adv]
    rw [Mem.rdn_append, Nat.zero_add, hr.out]
    congr 1
    exact Mem.rdn_congr fun x _ h2 => hr.keep d x (by omega)
  have hh1 : ((d.stores r.stores).adv r.adv).hi ≤ max d.hi (d.p + 2 * K.width) := by simp only [D.adv]; exact hr.hi d
  have htlen := h.len
  have hhi := h.hi
  have hh2 : ((d.stores r.stores).adv r.adv).hi ≤ total.length + 8 := by omega
  generalize hd1 : (d.stores r.stores).adv r.adv = d1 at *
  have hcol : (c : Int) - ls + 1 + r.adv = ((c + r.adv : Nat) : Int) - ls + 1 := by push_cast; omega
  rw [hcol]
  by_cases hov : 0 ≤ ((c + r.adv : Nat) : Int) - ls + 1
  · rw [if_pos hov]
    -- the line is full
    obtain ⟨k, ⟨hk1, hk2⟩, hrev⟩ := hr.cut (ls - 1 - c) (by omega) (by omega)
    have hrev' : r.revert (((c + r.adv : Nat) : Int) - ls + 1) = (((k + cnt (special false b) k : Nat) : Int) - r.adv, (k : Int) - K.width) := by
      rw [← hrev]; congr 1; omega
    rw [hrev']
    simp only
    have hkept : (expand (special false b) b k).length = k + cnt (special false b) k := expand_length _ _ _
    have hkle : k + cnt (special false b) k ≤ ls - 1 - c := by omega
    obtain ⟨g1, g2⟩ := encode_run ls c src pos k false b hbb.symm (by simp) (fun _ => hc) (by omega) (by rw [hkept]; omega)
    rw [hkept] at g1 g2
    have hp2 : (d1.p : Int) + (((k + cnt (special false b) k : Nat) : Int) - r.adv) = ((d.p + (k + cnt (special false b) k) : Nat) : Int) := by
      rw [hp1]; push_cast; omega
    have hi2 : ((pos + K.width : Nat) : Int) + ((k : Int) - K.width) = ((pos + k : Nat) : Int) := by push_cast; omega
    rw [hp2, hi2]
    rw [if_neg (show ¬ (((d.p + (k + cnt (special false b) k) : Nat) : Int) < 0 ∨ ((pos + k : Nat) : Int) < 0) by omega)]
    simp only [Int.toNat_natCast]
    have hout : (D.mk d1.m (d.p + (k + cnt (special false b) k)) d1.hi).toW.out = d.toW.out ++ expand (special false b) b k := by
      have hsplit : expand (special false b) b K.width = expand (special false b) b k ++ expand (fun j => special false b (k + j)) (fun j => b (k + j)) (K.width - k) := by
        rw [← expand_add]; congr 1; omega
      have hle : k + cnt (special false b) k ≤ r.adv := by
        rw [hadv, hsplit, List.length_append, hkept]; omega
      have h1 : d1.m.rdn 0 (d.p + r.adv) = d1.m.rdn 0 (d.p + (k + cnt (special false b) k)) ++ d1.m.rdn (0 + (d.p + (k + cnt (special false b) k))) (r.adv - (k + cnt (special false b) k)) := by
        rw [← Mem.rdn_append]; congr 1; omega
      rw [hm1, hsplit, ← List.append_assoc] at h1
      have h2 := List.append_inj_left h1 (by simp [hkept])
      simp only [D.toW] at h2 ⊢
      exact h2.symm
    have hI : EInv ls src total ec ⟨d1.m, d.p + (k + cnt (special false b) k), d1.hi⟩ (pos + k) (c + (k + cnt (special false b) k)) :=
      ⟨by omega, by rw [hout, List.append_assoc, ← g1, h.out], by rw [← g2, h.col], hh2⟩
    obtain ⟨d2, c2, f1, f2, f3, f4⟩ := hI.eol hK hls (by omega) (by
      rcases hk2 with h | ⟨h, hkn, hs⟩
      · left; omega
      · right
        refine ⟨by omega, ?_⟩
        have hbk : src.getD (pos + k) 0#8 = b k := by rw [← hbb]
        rw [hbk]
        simpa [special] using hs)
    rw [f1]
    simp only
    exact ih d2 (pos + k + K.eolWidth) c2 (by omega) f3 f4 f2
  · rw [if_neg hov]
    obtain ⟨g1, g2⟩ := encode_run ls c src pos K.width false b hbb.symm (by simp) (fun _ => hc) (by omega) (by rw [← hadv]; omega)
    rw [← hadv] at g1 g2
    have ht1 : d1.toW.out ++ Spec.encode ls false (c + r.adv) (src.drop (pos + K.width)) = total := by
      have : d1.toW.out = d.toW.out ++ expand (special false b) b K.width := by
        rw [← hm1, ← hp1]; rfl
      rw [this, ← h.out, g1, List.append_assoc]
    have he1 : Spec.endCol ls false (c + r.adv) (src.drop (pos + K.width)) = ec := by rw [← g2, h.col]
    exact ih d1 (pos + K.width) (c + r.adv) (by omega) (by omega) (by omega) ⟨by omega, ht1, he1, hh2⟩

/-- A kernel of the ARM and RISC-V kind, with correct rounds and a correct end of line, is right. -/
theorem eRun_ok (K : EKernel) (hK : K.Ok) : KernelFn.Ok (eRun K) := by
  intro ls col src d hls hne hp0 hh0
  unfold eRun
  obtain ⟨hW, hew, hew'⟩ := And.intro hK.width hK.eolWidth
  have hI0 : Inv ls src (Spec.encode ls false col src) (Spec.endCol ls false col src) d 0 col :=
    ⟨by omega, by simp [D.toW, hp0, Mem.rdn], by simp, by omega⟩
  generalize Spec.encode ls false col src = total at *
  generalize Spec.endCol ls false col src = ec at *
  by_cases hskip : (src.length : Int) ≤ 2 * K.width - 1 ∨ (ls : Int) < 2 * K.width
  · rw [if_pos hskip]
    have : src.length ≠ 0 := fun h => hne (List.length_eq_zero_iff.1 h)
    exact ⟨d, 0, col, rfl, by omega, hI0.out, hI0.col, by omega, by simp [hne]⟩
  rw [if_neg hskip]
  have hlen : 2 * K.width ≤ src.length := by omega
  -- the first character of a line
  have s1 : ∃ (d1 : D) (pos1 c1 : Nat), eFirst ls src d 0 ((col : Int) - ls + 1) = some (d1, pos1, (c1 : Int) - ls + 1) ∧ pos1 ≤ 1 ∧
      Inv ls src total ec d1 pos1 c1 ∧ 1 ≤ c1 := by
    unfold eFirst
    by_cases hz : (col : Int) - ls + 1 = -ls + 1
    · rw [if_pos hz]
      have h0 : 0 < src.length := by omega
      rw [List.getElem?_eq_getElem h0]
      have hc2 : col = 0 := by omega
      subst hc2
      have hl := encChar_length ls 0 false (src[0] + 42#8)
      refine ⟨_, 1, _, ?_, by omega, hI0.first h0 (by omega), hl.1⟩
      simp only [(first_toW d src[0] ls).2]
      congr 3
      omega
    · rw [if_neg hz]
      exact ⟨d, 0, col, rfl, by omega, hI0, by omega⟩
  obtain ⟨d1, pos1, c1, e1, p1, i1, l1⟩ := s1
  rw [e1]
  simp only [Option.bind_eq_bind, Option.bind_some]
  -- a full line
  have s2 : ∃ (d2 : D) (pos2 c2 : Nat), eFull K ls src d1 pos1 ((c1 : Int) - ls + 1) = some (d2, pos2, (c2 : Int) - ls + 1) ∧
      EInv ls src total ec d2 pos2 c2 ∧ 1 ≤ c2 ∧ c2 + 1 < ls := by
    unfold eFull
    by_cases hfull : 0 ≤ (c1 : Int) - ls + 1
    · rw [if_pos hfull]
      by_cases hz : (c1 : Int) - ls + 1 = 0
      · rw [if_pos hz]
        obtain ⟨d2, c2, f1, f2, f3, f4⟩ := i1.toE.eol hK (by omega) (by omega) (Or.inl (by omega))
        exact ⟨d2, _, c2, f1, f2, f3, f4⟩
      · rw [if_neg hz]
        have h0 : pos1 < src.length := by omega
        rw [List.getElem?_eq_getElem h0]
        have hl := encChar_length ls 0 false (src[pos1] + 42#8)
        refine ⟨_, pos1 + 1, _, ?_, (i1.eolFirst h0 (by omega)).toE, hl.1, by omega⟩
        simp only
        rw [(eolFirst_toW d1 src[pos1] ls).2]
        congr 3
        omega
    · rw [if_neg hfull]
      exact ⟨d1, pos1, c1, rfl, i1.toE, l1, by omega⟩
  obtain ⟨d2, pos2, c2, e2, i2, l2, l2'⟩ := s2
  rw [e2]
  simp only [Option.bind_some]
  obtain ⟨d', pos', c', r1, r2, r3, r4⟩ := eLoop_spec K hK ls (by omega) src total ec (src.length + 1) d2 pos2 c2 (by omega) l2 l2' i2
  rw [r1]
  simp only [Option.bind_some]
  exact ⟨d', pos', c', by congr 3; omega, r2.le, r2.out, r2.col, by have := r2.hi; omega, fun _ => ⟨r3, by omega⟩⟩

end Yenc.Enc.Simd
