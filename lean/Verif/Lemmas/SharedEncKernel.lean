import Verif.Lemmas.SharedEnc
import Verif.Lemmas.EncX86Sse
import Verif.Lemmas.EncX86Avx2
import Verif.Lemmas.EncNeon
import Verif.Lemmas.EncRvv
import Verif.Lemmas.Api
/-! The kernels of the vectorised encoders on data that changes. -/
namespace Yenc.Shared.SimdEnc
open Yenc Yenc.Enc Yenc.Enc.Simd Yenc.Spec
open Yenc.Dec.Simd (cnt cnt_add cnt_le cnt_congr)

/-! ## Blocks -/

theorem map_range_getD (bs : List Byte) (k : Nat) (h : k ≤ bs.length) : (List.range k).map (fun j => bs.getD j 0#8) = bs.take k := by
  apply List.ext_getElem
  · simp; omega
  · intro i h1 h2
    simp at h1 h2
    simp only [List.getElem_map, List.getElem_range, List.getElem_take]
    rw [List.getD_eq_getElem?_getD, List.getElem?_eq_getElem (by omega)]
    rfl

theorem _root_.Yenc.Shared.Seen.take {s : List (Nat × Byte)} {i : Nat} {bs : List Byte} (h : Seen s i bs) (k : Nat) : Seen s i (bs.take k) := by
  intro j b hj
  rw [List.getElem?_take] at hj
  split at hj
  · exact h j b hj
  · simp at hj

theorem _root_.Yenc.Shared.Seen.block {s : List (Nat × Byte)} {i : Nat} {bs : List Byte} (h : Seen s i bs) (k : Nat) (hk : k ≤ bs.length) :
    Seen s i ((List.range k).map fun j => bs.getD j 0#8) := by
  rw [map_range_getD bs k hk]; exact h.take k

/-- How far memory is written depends only on where and how much is stored. -/
theorem stores_hi (d d' : D) (l l' : List (Nat × List Byte)) (h : l.map (fun s => (s.1, s.2.length)) = l'.map (fun s => (s.1, s.2.length))) (hp : d.p = d'.p) (hd : d.hi = d'.hi) :
    (d.stores l).hi = (d'.stores l').hi := by
  induction l generalizing d d' l' with
  | nil =>
    cases l' with
    | nil => simpa [D.stores] using hd
    | cons y r => simp at h
  | cons x l ih =>
    cases l' with
    | nil => simp at h
    | cons y r =>
      simp only [List.map_cons, List.cons.injEq, Prod.mk.injEq] at h
      rw [D.stores, D.stores]
      exact ih _ _ r h.2 (by simp [D.store, hp]) (by simp [D.store, hd, hp, h.1])

/-- The stores of a round, kept up to character `k`. -/
theorem St.block {ex : Bool} {ls col n : Nat} {s : List (Nat × Byte)} {d : D} {pos c : Nat} (h : St ex ls col n s d.toW pos c) {W : Nat} {start : Bool} {bs : List Byte}
    {r r' : Round} {b' : Nat → Byte} (hlike : Like r r') (hr : r'.Ok W start b') (hex : ex = true → r = r' ∧ b' = fun j => bs.getD j 0#8) (hbs : bs.length = W) (hseen : Seen s pos bs)
    (hW : pos + W ≤ n) (hc : start = true → c = 0) (hc' : start = false → 1 ≤ c) (k : Nat) (hk : k ≤ W) (hcl : c + (k + cnt (special start b') k) + 1 ≤ ls) (p : Nat)
    (hp : p = d.p + (k + cnt (special start b') k)) :
    St ex ls col n s (D.mk ((d.stores r.stores).adv r.adv).m p ((d.stores r.stores).adv r.adv).hi).toW (pos + k) (c + (k + cnt (special start b') k)) := by
  have hcnt : cnt (special start b') k ≤ k := cnt_le _ _
  have hhi : ((d.stores r.stores).adv r.adv).hi ≤ max d.hi (d.p + 2 * W) := by
    simp only [D.adv]
    rw [stores_hi d d r.stores r'.stores hlike.stores rfl rfl]
    exact hr.hi d
  refine h.step (List.Subset.refl _) _ k _ 0 (by omega) (by simp only [D.toW_out_length]; omega) (by simp only [D.toW_out_length]; omega) ?_ (Or.inl ⟨rfl, by omega⟩) ?_
  · rw [D.toW_out_length]
    show ((d.stores r.stores).adv r.adv).hi ≤ max d.hi _
    omega
  · intro he
    obtain ⟨rfl, rfl⟩ := hex he
    refine ⟨_, ?_, hseen.block k (by omega), fun l _ hl => ?_⟩
    · simp
    have hlen : (expand (special start fun j => bs.getD j 0#8) (fun j => bs.getD j 0#8) k).length = k + cnt (special start fun j => bs.getD j 0#8) k := expand_length _ _ _
    have hlo := hl.run start (fun j => bs.getD j 0#8) k hc hc' (by omega)
    rw [hlen] at hlo
    have hout : (D.mk ((d.stores r.stores).adv r.adv).m p ((d.stores r.stores).adv r.adv).hi).toW.out =
        d.toW.out ++ expand (special start fun j => bs.getD j 0#8) (fun j => bs.getD j 0#8) k := by
      have hsplit : expand (special start fun j => bs.getD j 0#8) (fun j => bs.getD j 0#8) W = expand (special start fun j => bs.getD j 0#8) (fun j => bs.getD j 0#8) k ++
          expand (fun j => special start (fun j => bs.getD j 0#8) (k + j)) (fun j => bs.getD (k + j) 0#8) (W - k) := by
        rw [← expand_add]; congr 1; omega
      have hm1 : ((d.stores r.stores).adv r.adv).m.rdn 0 (d.p + r.adv) = d.toW.out ++ expand (special start fun j => bs.getD j 0#8) (fun j => bs.getD j 0#8) W := by
        simp only [D.adv]
        rw [Mem.rdn_append, Nat.zero_add, hr.out]
        congr 1
        exact Mem.rdn_congr fun x _ h2 => hr.keep d x (by omega)
      have hle : k + cnt (special start fun j => bs.getD j 0#8) k ≤ r.adv := by
        rw [hr.adv, hsplit, List.length_append, hlen]; omega
      generalize ((d.stores r.stores).adv r.adv).m = m at *
      have h1 : m.rdn 0 (d.p + r.adv) = m.rdn 0 p ++ m.rdn (0 + p) (r.adv - (k + cnt (special start fun j => bs.getD j 0#8) k)) := by
        rw [← Mem.rdn_append]; congr 1; omega
      rw [hm1, hsplit, ← List.append_assoc] at h1
      have h2 := List.append_inj_left h1 (by rw [List.length_append, hlen, D.toW_out_length, Mem.rdn_length]; omega)
      simp only [D.toW] at h2 ⊢
      exact h2.symm
    rw [hout]
    exact hlo

/-! ## The x86 kernels -/

/-- What a kernel leaves behind, with the column counted from the end of the line. -/
def Mid (ex : Bool) (ls col n : Nat) (s : List (Nat × Byte)) (x : D × Nat × Int) : Prop :=
  ∃ c : Nat, x.2.2 = (c : Int) - ls + 1 ∧ St ex ls col n s x.1.toW x.2.1 c ∧ c ≤ ls ∧ (1 ≤ c ∨ x.2.1 < n)

/-- A line that is cut in the column before the last is cut before a byte that was critical. -/
theorem cut_seen {ls : Nat} {s : List (Nat × Byte)} {bs : List Byte} {pos c k W : Nat} {start : Bool} (hseen : Seen s pos bs) (hbs : bs.length = W) (hls : 3 ≤ ls) (hc : start = true → c = 0)
    (hk : k < W) (hs : special start (fun j => bs.getD j 0#8) k = true) (hcol : c + (k + cnt (special start fun j => bs.getD j 0#8) k) + 2 = ls) :
    ∃ b, (pos + k, b) ∈ s ∧ critical (b + 42#8) = true := by
  refine ⟨bs.getD k 0#8, hseen k _ (by rw [List.getD_eq_getElem?_getD, List.getElem?_eq_getElem (by omega)]; rfl), ?_⟩
  unfold special at hs
  split at hs
  · rename_i h
    simp at h
    obtain ⟨h1, rfl⟩ := h
    have := hc h1
    have h0 := cnt_le (special start fun j => bs.getD j 0#8) 0
    omega
  · exact hs

/-- The last character of a line, from its place in memory. -/
theorem St.eolLast {ex : Bool} {ls col n : Nat} {s : List (Nat × Byte)} {d : D} {pos c : Nat} (h : St ex ls col n s d.toW pos c) (x : Byte) (hp : pos < n) (hls : 3 ≤ ls)
    (hc : c + 1 = ls ∨ (c + 2 = ls ∧ (ex = true → ∃ b, (pos, b) ∈ s ∧ critical (b + 42#8) = true))) : St ex ls col n ((pos, x) :: s) (d.eolLast x).toW (pos + 1) 0 := by
  have e := eolLast_toW d x
  exact h.last x hp hls hc _ (by rw [e]) (by rw [e, D.toW_out_length]; exact Nat.le_refl _)

theorem loop_post {ex : Bool} (K : Kernel) (hK : K.Ok) (rnd : Nat → Bool → Byte → (Nat → Byte) → Round)
    (hr : ∀ pos start prev b, ∃ prev' b', Like (rnd pos start prev b) (K.round start prev' b')) (hex : ex = true → ∀ pos, rnd pos = K.round) {ls col n : Nat} (hls : 16 ≤ ls) (fuel : Nat)
    {start : Bool} {s : List (Nat × Byte)} {d : D} {pos c : Nat} (h : St ex ls col n s d.toW pos c)
    (hfuel : n < pos + fuel) (hc : start = true → c = 0) (hc' : start = false → 1 ≤ c) (hcl : c + 1 < ls) (hpos : pos + 2 * K.width ≤ n + 2) (hback : K.priming = true → 1 ≤ pos) :
    (loop K rnd ls n fuel start d pos ((c : Int) - ls + 1)).Post n (Mid ex ls col n) s := by
  induction fuel generalizing start s d pos c with
  | zero => have := hK.width; omega
  | succ fuel ih =>
  have hW := hK.width
  rw [loop]
  refine rds_post 1 (pos - 1) _ s (by omega) ?_
  intro pv s0 _ hs0 _
  refine rds_post K.width pos _ s0 (by omega) ?_
  intro bs s1 hbs hs1 hseen
  replace h := h.mono (fun x hx => hs1 (hs0 hx))
  simp only
  have hcase : ∃ prev' b', Like (rnd pos start (pv.getD 0 0#8) fun j => bs.getD j 0#8) (K.round start prev' b') ∧
      (ex = true → rnd pos start (pv.getD 0 0#8) (fun j => bs.getD j 0#8) = K.round start prev' b' ∧ b' = fun j => bs.getD j 0#8) := by
    cases ex with
    | false => obtain ⟨p', b', h⟩ := hr pos start (pv.getD 0 0#8) fun j => bs.getD j 0#8; exact ⟨p', b', h, by simp⟩
    | true =>
      have := hex rfl pos
      exact ⟨pv.getD 0 0#8, fun j => bs.getD j 0#8, by rw [this]; exact ⟨rfl, rfl, rfl, rfl⟩, fun _ => ⟨by rw [this], rfl⟩⟩
  obtain ⟨prev', b', hlike, hex'⟩ := hcase
  have hb := hK.back start prev' b'
  have hrr := hK.round start prev' b'
  generalize rnd pos start (pv.getD 0 0#8) (fun j => bs.getD j 0#8) = r at *
  generalize K.round start prev' b' = r' at *
  rw [if_neg (by
    rintro ⟨h, h0⟩
    rw [hlike.back] at h
    have := hback (hb h); omega)]
  have hadv : r.adv = K.width + cnt (special start b') K.width := by rw [hlike.adv, hrr.adv, expand_length]
  have hp1 : ((d.stores r.stores).adv r.adv).p = d.p + r.adv := by simp only [D.adv, stores_p]
  have hblock := fun k hk hcl p hp => h.block hlike hrr hex' hbs hseen (by omega) hc hc' k hk hcl p hp
  generalize hd1 : (d.stores r.stores).adv r.adv = d1 at *
  have hcol : (c : Int) - ls + 1 + r.adv = ((c + r.adv : Nat) : Int) - ls + 1 := by push_cast; omega
  rw [hcol]
  by_cases hov : 0 ≤ ((c + r.adv : Nat) : Int) - ls + 1
  · rw [if_pos hov]
    obtain ⟨k, ⟨hk1, hk2⟩, hrev⟩ := hrr.cut (ls - 1 - c) (by omega) (by rw [← hlike.adv]; omega)
    have hrev' : r.revert (((c + r.adv : Nat) : Int) - ls + 1) = (((k + cnt (special start b') k : Nat) : Int) - r.adv, (k : Int) - K.width) := by
      rw [hlike.revert, hlike.adv, ← hrev]; congr 1; rw [← hlike.adv]; omega
    rw [hrev']
    simp only
    have hp2 : (d1.p : Int) + (((k + cnt (special start b') k : Nat) : Int) - r.adv) = ((d.p + (k + cnt (special start b') k) : Nat) : Int) := by
      rw [hp1]; push_cast; omega
    have hi2 : ((pos + K.width : Nat) : Int) + ((k : Int) - K.width) = ((pos + k : Nat) : Int) := by push_cast; omega
    rw [hp2, hi2]
    rw [if_neg (show ¬ (((d.p + (k + cnt (special start b') k) : Nat) : Int) < 0 ∨ ((pos + k : Nat) : Int) < 0) by omega)]
    simp only [Int.toNat_natCast]
    refine ⟨by omega, fun x => ?_⟩
    simp only
    have h2 := (hblock k hk1 (by omega) _ rfl).eolLast x (by omega) (by omega) (hk2.imp (by omega) fun hk2 => ⟨by omega, fun he => by
      rw [(hex' he).2] at hk2
      exact cut_seen (ls := ls) (c := c) hseen hbs (by omega) hc hk2.2.1 hk2.2.2 (by omega)⟩)
    have hlso : -(ls : Int) + 1 = ((0 : Nat) : Int) - ls + 1 := by simp
    by_cases hstop : n ≤ pos + k + 2 * K.width
    · rw [if_pos hstop, hlso]
      exact ⟨0, rfl, h2, by omega, Or.inr (by simp only; omega)⟩
    · rw [if_neg hstop, hlso]
      exact ih h2 (by omega) (fun _ => rfl) (by simp) (by omega) (by omega) (by omega)
  · rw [if_neg hov]
    have h2 := hblock K.width (Nat.le_refl _) (by omega) d1.p (by omega)
    rw [← hadv] at h2
    by_cases hmore : pos + K.width + 2 * K.width < n
    · rw [if_pos hmore]
      exact ih h2 (by omega) (by simp) (by omega) (by omega) (by omega) (by omega)
    · rw [if_neg hmore]
      exact ⟨_, rfl, h2, by omega, Or.inl (by omega)⟩

/-- What is needed of a kernel. -/
def KPost (ex : Bool) (K : KernelProg) : Prop := ∀ (ls col n : Nat) (d : D), 12 ≤ ls → n ≠ 0 → d.p = 0 → d.hi = 0 →
  (K ls col n d).Post n (fun s x => ∃ c : Nat, x.2.2 = (c : Int) ∧ St ex ls col n s x.1.toW x.2.1 c ∧ (c ≤ ls ∨ x.2.1 < n) ∧ (1 ≤ c ∨ x.2.1 < n)) []

theorem St.init (ex : Bool) (ls col n : Nat) (d : D) (hp : d.p = 0) (hh : d.hi = 0) : St ex ls col n [] d.toW 0 col := by
  have ho : d.toW.out = [] := List.length_eq_zero_iff.mp (by rw [D.toW_out_length, hp])
  exact ⟨Nat.zero_le _, Nat.zero_le _, ⟨0, Or.inl rfl, by rw [ho]; simp, by show d.hi ≤ _; omega⟩, fun _ => ⟨[], rfl, Seen.nil _ _, by rw [ho]; exact .nil⟩⟩

theorem run_post {ex : Bool} (K : Kernel) (hK : K.Ok) (rnd : Nat → Bool → Byte → (Nat → Byte) → Round)
    (hr : ∀ pos start prev b, ∃ prev' b', Like (rnd pos start prev b) (K.round start prev' b')) (hex : ex = true → ∀ pos, rnd pos = K.round) : KPost ex (run K rnd) := by
  intro ls col n d hls hn hp0 hh0
  unfold run
  have hW := hK.width
  have hI0 := St.init ex ls col n d hp0 hh0
  by_cases hskip : n ≤ 2 * K.width ∨ (ls : Int) < 16
  · rw [if_pos hskip]
    exact ⟨col, rfl, hI0, Or.inr (by simp only; omega), Or.inr (by simp only; omega)⟩
  rw [if_neg hskip]
  apply Prog.Post.bind
  -- the character handled on its own
  have s1 : (priming K ls d 0 ((col : Int) - ls + 1)).Post n (fun s x => ∃ c : Nat, x.2.2 = (c : Int) - ls + 1 ∧ x.2.1 ≤ 1 ∧
      St ex ls col n s x.1.toW x.2.1 c ∧ (K.priming = true → 1 ≤ x.2.1 ∨ c = 0 ∨ ls ≤ c + 1)) [] := by
    unfold priming
    by_cases hpr : K.priming = true ∧ (col : Int) - ls + 1 < 0 ∧ (col : Int) - ls + 1 ≠ -ls + 1
    · rw [if_pos hpr]
      refine ⟨by omega, fun x => ?_⟩
      obtain ⟨f1, f2⟩ := prime_toW d x
      have e := encChar_mid ls col x (by omega) (by omega)
      have hl := encChar_length ls col false (x + 42#8)
      rw [← e] at f1 f2
      have hh := hI0.char x (by omega) (by omega) (d.prime x).1.toW (by rw [f1]) (by rw [f1, D.toW_out_length]; simp only; show max d.hi _ ≤ max d.hi _; omega)
      exact ⟨_, by simp only; rw [f2]; push_cast; omega, Nat.le_refl _, hh, fun _ => Or.inl (Nat.le_refl _)⟩
    · rw [if_neg hpr]
      refine ⟨col, rfl, Nat.zero_le _, hI0, fun h => ?_⟩
      by_cases h0 : col = 0
      · exact Or.inr (Or.inl h0)
      · refine Or.inr (Or.inr ?_)
        by_cases h1 : ls ≤ col + 1
        · exact h1
        · exact absurd ⟨h, by omega, by omega⟩ hpr
  refine s1.mono ?_
  rintro s1 ⟨d1, pos1, col1⟩ - ⟨c1, hcol1, p1, i1, b1⟩
  simp only at hcol1 p1 i1 b1 ⊢
  subst hcol1
  apply Prog.Post.bind
  -- a full line
  have s2 : (full ls d1 pos1 ((c1 : Int) - ls + 1)).Post n (fun s x => ∃ c : Nat, x.2.2 = (c : Int) - ls + 1 ∧ x.2.1 ≤ 2 ∧
      St ex ls col n s x.1.toW x.2.1 c ∧ (K.priming = true → 1 ≤ x.2.1 ∨ c = 0) ∧ c + 1 < ls) s1 := by
    unfold full
    by_cases hfull : 0 ≤ (c1 : Int) - ls + 1
    · rw [if_pos hfull]
      refine ⟨by omega, fun x => ?_⟩
      simp only
      by_cases hz : (c1 : Int) - ls + 1 = 0
      · rw [if_pos hz]
        exact ⟨0, by simp, by simp only; omega, i1.eolLast x (by omega) (by omega) (by omega), fun _ => Or.inr rfl, by omega⟩
      · rw [if_neg hz]
        obtain ⟨f1, f2⟩ := eolFirst_toW d1 x ls
        have hl := encChar_length ls 0 false (x + 42#8)
        have hh := i1.eol x (by omega) (by omega) (by omega) (d1.eolFirst x).1.toW (by rw [f1]) (by rw [f1, D.toW_out_length]; exact Nat.le_refl _)
        exact ⟨_, by simp only; rw [f2]; omega, by simp only; omega, hh, fun _ => Or.inl (by simp only; omega), by omega⟩
    · rw [if_neg hfull]
      refine ⟨c1, rfl, by simp only; omega, i1, fun h => ?_, by omega⟩
      rcases b1 h with h | h | h
      · exact Or.inl h
      · exact Or.inr h
      · omega
  refine s2.mono ?_
  rintro s2 ⟨d2, pos2, col2⟩ - ⟨c2, hcol2, p2, i2, b2, l2⟩
  simp only at hcol2 p2 i2 b2 l2 ⊢
  subst hcol2
  apply Prog.Post.bind
  -- the first character of a line
  have s3 : (lineStart ls d2 pos2 ((c2 : Int) - ls + 1)).Post n (fun s x => ∃ c : Nat, x.2.2 = (c : Int) - ls + 1 ∧ x.2.1 ≤ 3 ∧
      St ex ls col n s x.1.toW x.2.1 c ∧ (K.priming = true → 1 ≤ x.2.1) ∧ 1 ≤ c ∧ c + 1 < ls) s2 := by
    unfold lineStart
    by_cases hz : (c2 : Int) - ls + 1 = -ls + 1
    · rw [if_pos hz]
      refine ⟨by omega, fun x => ?_⟩
      have hc2 : c2 = 0 := by omega
      subst hc2
      obtain ⟨f1, f2⟩ := first_toW d2 x ls
      have hl := encChar_length ls 0 false (x + 42#8)
      have hh := i2.char x (by omega) (by omega) (d2.first x).1.toW (by rw [f1]) (by rw [f1, D.toW_out_length]; show max d2.hi _ ≤ max d2.hi _; omega)
      rw [Nat.zero_add] at hh
      exact ⟨_, by simp only; rw [f2]; push_cast; omega, by simp only; omega, hh, fun _ => by simp only; omega, hl.1, by omega⟩
    · rw [if_neg hz]
      refine ⟨c2, rfl, by simp only; omega, i2, fun h => ?_, by omega, by omega⟩
      rcases b2 h with h | h
      · exact h
      · omega
  refine s3.mono ?_
  rintro s3 ⟨d3, pos3, col3⟩ - ⟨c3, hcol3, p3, i3, b3, l3, l3'⟩
  simp only at hcol3 p3 i3 b3 ⊢
  subst hcol3
  apply Prog.Post.bind
  refine (loop_post K hK rnd hr hex (by omega) (n + 1) i3 (by omega) (by simp) (fun _ => l3) l3' (by omega) b3).mono ?_
  rintro s4 ⟨d4, pos4, col4⟩ - ⟨c4, hcol4, i4, l4, l4'⟩
  simp only at hcol4 i4 l4' ⊢
  exact ⟨c4, by simp only; omega, i4, Or.inl l4, l4'⟩

/-! ## The kernels for ARM and RISC-V -/

theorem eol_post {ex : Bool} {K : EKernel} (hK : K.Ok) {ls col n : Nat} (hls : 2 * K.width ≤ ls) {s : List (Nat × Byte)} {d : D} {pos c : Nat} (h : St ex ls col n s d.toW pos c)
    (hp : pos + K.eolWidth ≤ n) (hc : c + 1 = ls ∨ (c + 2 = ls ∧ (ex = true → ∃ b, (pos, b) ∈ s ∧ critical (b + 42#8) = true))) :
    (eolHandle K ls d pos).Post n (fun s x => ∃ c' : Nat, x.2 = (pos + K.eolWidth, (c' : Int) - ls + 1) ∧ St ex ls col n s x.1.toW (pos + K.eolWidth) c' ∧ 1 ≤ c' ∧ c' + 1 < ls) s := by
  unfold eolHandle
  refine rds_post K.eolWidth pos _ s hp ?_
  intro bs s1 hbs hs1 hseen
  obtain ⟨hw, hew, hew'⟩ := And.intro hK.width hK.eolWidth
  have he := hK.eol fun j => bs.getD j 0#8
  simp only
  generalize K.eol (fun j => bs.getD j 0#8) = e at *
  generalize hbb : (fun j => bs.getD j 0#8) = b at *
  have hl : (body b (K.eolWidth - 1)).length = K.eolWidth - 1 + cnt (special true fun j => b (1 + j)) (K.eolWidth - 1) := expand_length _ _ _
  have hl2 : cnt (special true fun j => b (1 + j)) (K.eolWidth - 1) ≤ K.eolWidth - 1 := cnt_le _ _
  have hlast : 1 ≤ (Enc.Simd.lastChar (b 0)).length ∧ (Enc.Simd.lastChar (b 0)).length ≤ 2 := by unfold Enc.Simd.lastChar; split <;> simp
  have hadv := he.adv
  simp only [List.length_append, List.length_cons, List.length_nil] at hadv
  have hout' : ((d.stores e.stores).adv e.adv).toW.out = d.toW.out ++ (Enc.Simd.lastChar (b 0) ++ [CR, LF] ++ body b (K.eolWidth - 1)) := by
    simp only [D.adv, D.toW, stores_p]
    rw [Mem.rdn_append, Nat.zero_add, he.out d]
    congr 1
    exact Mem.rdn_congr fun x _ h2 => stores_keep d e.stores x (by omega)
  refine ⟨(body b (K.eolWidth - 1)).length, by rw [he.col], ?_, by omega, by omega⟩
  refine h.step hs1 _ K.eolWidth _ 1 hp ?_ ?_ ?_ (Or.inr ⟨rfl, by omega, by omega⟩) ?_
  · rw [hout']; simp only [List.length_append, List.length_cons, List.length_nil]; omega
  · rw [hout']; simp only [List.length_append, List.length_cons, List.length_nil]; omega
  · rw [D.toW_out_length]
    have := he.hi d
    show (d.stores e.stores).hi ≤ max d.hi _
    omega
  · intro hex
    refine ⟨bs, hbs, hseen, fun l hll hl' => ?_⟩
    rw [hout']
    have h1 := hl'.last (b 0) (by omega) (hc.imp id fun h => ⟨h.1, by
      obtain ⟨y, h1, h2⟩ := h.2 hex
      cases hx : critical (b 0 + 42#8) with
      | true => exact Or.inl rfl
      | false =>
        refine Or.inr ⟨y, b 0, by rw [hll]; exact hs1 h1, ?_, h2, hx⟩
        rw [hll]
        have := hseen 0 (b 0) (by rw [← hbb]; simp only; rw [List.getD_eq_getElem?_getD, List.getElem?_eq_getElem (by omega)]; rfl)
        rwa [Nat.add_zero] at this⟩)
    have h2 := h1.run true (fun j => b (1 + j)) (K.eolWidth - 1) (fun _ => rfl) (by simp) (by
      have : (expand (special true fun j => b (1 + j)) (fun j => b (1 + j)) (K.eolWidth - 1)).length = (body b (K.eolWidth - 1)).length := rfl
      omega)
    have hsplit : bs = b 0 :: (List.range (K.eolWidth - 1)).map (fun j => b (1 + j)) := by
      have h3 := map_range_getD bs K.eolWidth (by omega)
      rw [hbb, List.take_of_length_le (by omega)] at h3
      rw [← h3]
      obtain ⟨m, hm⟩ : ∃ m, K.eolWidth = 1 + m := ⟨K.eolWidth - 1, by omega⟩
      rw [hm, List.range_add, List.map_append, List.map_map]
      rw [show 1 + m - 1 = m by omega]
      rfl
    rw [hsplit]
    rw [Nat.zero_add] at h2
    simp only [Enc.Simd.lastChar, Enc.Simd.body]
    simpa using h2

theorem eLoop_post {ex : Bool} (K : EKernel) (hK : K.Ok) {ls col n : Nat} (hls : 2 * K.width ≤ ls) (fuel : Nat) {s : List (Nat × Byte)} {d : D} {pos c : Nat}
    (h : St ex ls col n s d.toW pos c) (hfuel : n < pos + fuel) (hc : 1 ≤ c) (hcl : c + 1 < ls) :
    (eLoop K ls n fuel d pos ((c : Int) - ls + 1)).Post n (Mid ex ls col n) s := by
  induction fuel generalizing s d pos c with
  | zero => have := h.le; omega
  | succ fuel ih =>
  obtain ⟨hW, hew, hew'⟩ := And.intro hK.width hK.eolWidth
  rw [eLoop]
  by_cases hmore : ¬ (pos : Int) - n + (2 * K.width - 1) < 0
  · rw [if_neg hmore]
    exact ⟨c, rfl, h, by omega, Or.inl hc⟩
  replace hmore := Decidable.not_not.1 hmore
  rw [if_pos hmore]
  refine rds_post K.width pos _ s (by omega) ?_
  intro bs s1 hbs hs1 hseen
  replace h := h.mono hs1
  simp only
  have hrr := hK.round pos (fun j => bs.getD j 0#8)
  rw [hK.colAdv pos (fun j => bs.getD j 0#8)]
  generalize K.round pos (fun j => bs.getD j 0#8) = r at *
  generalize hbb : (fun j => bs.getD j 0#8) = b at *
  have hadv : r.adv = K.width + cnt (special false b) K.width := by rw [hrr.adv, expand_length]
  have hp1 : ((d.stores r.stores).adv r.adv).p = d.p + r.adv := by simp only [D.adv, stores_p]
  have hblock := fun k hk hcl p hp => h.block (r := r.toRound) ⟨rfl, rfl, rfl, rfl⟩ hrr (fun _ => ⟨rfl, hbb.symm⟩) hbs hseen (by omega) (by simp) (fun _ => hc) k hk hcl p hp
  generalize hd1 : (d.stores r.stores).adv r.adv = d1 at *
  have hcol : (c : Int) - ls + 1 + r.adv = ((c + r.adv : Nat) : Int) - ls + 1 := by push_cast; omega
  rw [hcol]
  by_cases hov : 0 ≤ ((c + r.adv : Nat) : Int) - ls + 1
  · rw [if_pos hov]
    obtain ⟨k, ⟨hk1, hk2⟩, hrev⟩ := hrr.cut (ls - 1 - c) (by omega) (by omega)
    have hrev' : r.revert (((c + r.adv : Nat) : Int) - ls + 1) = (((k + cnt (special false b) k : Nat) : Int) - r.adv, (k : Int) - K.width) := by
      rw [← hrev]; congr 1; omega
    rw [hrev']
    simp only
    have hp2 : (d1.p : Int) + (((k + cnt (special false b) k : Nat) : Int) - r.adv) = ((d.p + (k + cnt (special false b) k) : Nat) : Int) := by
      rw [hp1]; push_cast; omega
    have hi2 : ((pos + K.width : Nat) : Int) + ((k : Int) - K.width) = ((pos + k : Nat) : Int) := by push_cast; omega
    rw [hp2, hi2]
    rw [if_neg (show ¬ (((d.p + (k + cnt (special false b) k) : Nat) : Int) < 0 ∨ ((pos + k : Nat) : Int) < 0) by omega)]
    simp only [Int.toNat_natCast]
    apply Prog.Post.bind
    refine (eol_post hK hls (hblock k hk1 (by omega) _ rfl) (by omega) (hk2.imp (by omega) fun hk2 => ⟨by omega, fun he => by
      rw [← hbb] at hk2
      exact cut_seen (ls := ls) (c := c) hseen hbs (by omega) (by simp) hk2.2.1 hk2.2.2 (by omega)⟩)).mono ?_
    rintro s2 ⟨d2, pos2, col2⟩ - ⟨c2, e2, i2, l2, l2'⟩
    simp only [Prod.mk.injEq] at e2 i2 ⊢
    obtain ⟨rfl, rfl⟩ := e2
    exact ih i2 (by omega) l2 l2'
  · rw [if_neg hov]
    have h2 := hblock K.width (Nat.le_refl _) (by omega) d1.p (by omega)
    rw [← hadv] at h2
    exact ih h2 (by omega) (by omega) (by omega)

theorem eRun_post (ex : Bool) (K : EKernel) (hK : K.Ok) : KPost ex (eRun K) := by
  intro ls col n d hls hn hp0 hh0
  unfold eRun
  obtain ⟨hW, hew, hew'⟩ := And.intro hK.width hK.eolWidth
  have hI0 := St.init ex ls col n d hp0 hh0
  by_cases hskip : (n : Int) ≤ 2 * K.width - 1 ∨ (ls : Int) < 2 * K.width
  · rw [if_pos hskip]
    exact ⟨col, rfl, hI0, Or.inr (by simp only; omega), Or.inr (by simp only; omega)⟩
  rw [if_neg hskip]
  apply Prog.Post.bind
  -- the first character of a line
  have s1 : (lineStart ls d 0 ((col : Int) - ls + 1)).Post n (fun s x => ∃ c : Nat, x.2.2 = (c : Int) - ls + 1 ∧ x.2.1 ≤ 1 ∧
      St ex ls col n s x.1.toW x.2.1 c ∧ 1 ≤ c) [] := by
    unfold lineStart
    by_cases hz : (col : Int) - ls + 1 = -ls + 1
    · rw [if_pos hz]
      refine ⟨by omega, fun x => ?_⟩
      have hc2 : col = 0 := by omega
      subst hc2
      obtain ⟨f1, f2⟩ := first_toW d x ls
      have hl := encChar_length ls 0 false (x + 42#8)
      have hh := hI0.char x (by omega) (by omega) (d.first x).1.toW (by rw [f1]) (by rw [f1, D.toW_out_length]; show max d.hi _ ≤ max d.hi _; omega)
      rw [Nat.zero_add (encChar ls 0 false (x + 42#8)).length] at hh
      exact ⟨(encChar ls 0 false (x + 42#8)).length, by simp only; rw [f2]; push_cast; omega, by simp only; omega, hh, hl.1⟩
    · rw [if_neg hz]
      exact ⟨col, rfl, Nat.zero_le _, hI0, by omega⟩
  refine s1.mono ?_
  rintro s1 ⟨d1, pos1, col1⟩ - ⟨c1, hcol1, p1, i1, l1⟩
  simp only at hcol1 p1 i1 ⊢
  subst hcol1
  apply Prog.Post.bind
  -- a full line
  have s2 : (eFull K ls d1 pos1 ((c1 : Int) - ls + 1)).Post n (fun s x => ∃ c : Nat, x.2.2 = (c : Int) - ls + 1 ∧
      St ex ls col n s x.1.toW x.2.1 c ∧ 1 ≤ c ∧ c + 1 < ls) s1 := by
    unfold eFull
    by_cases hfull : 0 ≤ (c1 : Int) - ls + 1
    · rw [if_pos hfull]
      by_cases hz : (c1 : Int) - ls + 1 = 0
      · rw [if_pos hz]
        refine (eol_post hK (by omega) i1 (by omega) (by omega)).mono ?_
        rintro s2 ⟨d2, pos2, col2⟩ - ⟨c2, e2, i2, l2, l2'⟩
        simp only [Prod.mk.injEq] at e2 i2 ⊢
        obtain ⟨rfl, rfl⟩ := e2
        exact ⟨c2, rfl, i2, l2, l2'⟩
      · rw [if_neg hz]
        refine ⟨by omega, fun x => ?_⟩
        obtain ⟨f1, f2⟩ := eolFirst_toW d1 x ls
        have hl := encChar_length ls 0 false (x + 42#8)
        have hh := i1.eol x (by omega) (by omega) (by omega) (d1.eolFirst x).1.toW (by rw [f1]) (by rw [f1, D.toW_out_length]; exact Nat.le_refl _)
        exact ⟨_, by simp only; rw [f2]; omega, hh, hl.1, by omega⟩
    · rw [if_neg hfull]
      exact ⟨c1, rfl, i1, l1, by omega⟩
  refine s2.mono ?_
  rintro s2 ⟨d2, pos2, col2⟩ - ⟨c2, hcol2, i2, l2, l2'⟩
  simp only at hcol2 i2 ⊢
  subst hcol2
  apply Prog.Post.bind
  refine (eLoop_post K hK (by omega) (n + 1) i2 (by omega) l2 l2').mono ?_
  rintro s4 ⟨d4, pos4, col4⟩ - ⟨c4, hcol4, i4, l4, l4'⟩
  simp only at hcol4 i4 l4' ⊢
  exact ⟨c4, by simp only; omega, i4, Or.inl l4, l4'⟩

theorem IsEnc.post {ex : Bool} {K : KernelProg} (h : IsEnc ex K) : KPost ex K := by
  cases h with
  | sse c h rnd hr => exact run_post _ (sse_ok c h) rnd hr (by simp)
  | avx2 c rnd hr => exact run_post _ (avx2_ok c) rnd hr (by simp)
  | sseAgree c h => exact run_post _ (sse_ok c h) _ (fun pos start prev b => ⟨prev, b, rfl, rfl, rfl, rfl⟩) (fun _ _ => rfl)
  | avx2Agree c => exact run_post _ (avx2_ok c) _ (fun pos start prev b => ⟨prev, b, rfl, rfl, rfl, rfl⟩) (fun _ _ => rfl)
  | neon a64 => exact eRun_post _ _ (Neon.neon_ok a64)
  | rvv vl h junk => exact eRun_post _ _ (Rvv.rvv_ok vl h junk)

/-! ## The encoder -/

/-- The scalar encoder, which is used for short lines. -/
theorem short_out {ls : Nat} (hls : 1 ≤ ls) {col n : Nat} (hcol : col < ls) (hn : n ≠ 0) (fin ex : Bool) {s : List (Nat × Byte)} {x : W × Int}
    (h : ∃ L, L.length = n ∧ Seen s 0 L ∧ x.1.out = Spec.encode ls fin col L ∧
      x.1.hi ≤ x.1.out.length + 16 ∧ Enc.ColRel ls x.2 (Spec.endCol ls fin col L) ∧ (fin = false → 2 ≤ ls → x.2 ≤ (ls : Int))) : Out ex ls col n fin s x := by
  obtain ⟨L, h1, h2, h3, h4, h5, h6⟩ := h
  have hlen := Enc.encode_length_le ls hls fin col hcol L
  have hlo := Loose.encode hls (.nil : Loose (Unsteady s) ls col [] [] col) L
  rw [List.nil_append, List.nil_append] at hlo
  have hge : ∀ (l : List Byte) (c : Nat), l.length ≤ (Spec.encode ls fin c l).length := by
    intro l
    induction l with
    | nil => simp
    | cons y r ih =>
      intro c
      have := (encChar_length ls c (fin && r.isEmpty) (y + 42#8)).1
      have h0 := (encChar_length ls 0 (fin && r.isEmpty) (y + 42#8)).1
      by_cases hc : ls ≤ c
      · rw [encode_cons_ge ls fin c y r hc]
        have := ih (encChar ls 0 (fin && r.isEmpty) (y + 42#8)).length
        simp only [List.length_append, List.length_cons]; omega
      · rw [encode_cons_lt ls fin c y r (by omega)]
        have := ih (c + (encChar ls c (fin && r.isEmpty) (y + 42#8)).length)
        simp only [List.length_append, List.length_cons]; omega
  have hge' := hge L col
  rw [← h3] at hlen hge'
  rw [h1] at hlen
  have hne : L ≠ [] := by intro h; rw [h] at h1; simp at h1; omega
  have hpos : ∀ (l : List Byte) (c : Nat), l ≠ [] → 1 ≤ endCol ls false c l := by
    intro l
    induction l with
    | nil => simp
    | cons y r ih =>
      intro c _
      have h2 := (encChar_length ls c (false && r.isEmpty) (y + 42#8)).1
      have h0 := (encChar_length ls 0 (false && r.isEmpty) (y + 42#8)).1
      by_cases hc : ls ≤ c
      · rw [endCol_cons_ge ls false c y r hc]
        cases r with
        | nil => simpa [endCol] using h0
        | cons z r => exact ih _ (by simp)
      · rw [endCol_cons_lt ls false c y r (by omega)]
        cases r with
        | nil => simp only [endCol]; omega
        | cons z r => exact ih _ (by simp)
  obtain ⟨a, lc, k1, k2, k3⟩ := Enc.encode_fin ls hls col L hne
  have hcl := hlo.col_le (by omega)
  have hfinish : finish (Spec.encode ls false col L) = Spec.encode ls true col L := by
    unfold finish
    rw [k1]
    have g1 : (a ++ [lc]).getLast? = some lc := by simp
    have g2 : (a ++ [lc]).dropLast = a := by simp
    rw [g1, g2]
    simp only
    by_cases hlc : lc = TAB ∨ lc = SP
    · rw [if_pos hlc, (k2 hlc).1]
    · rw [if_neg hlc, (k3 hlc).1]
  refine ⟨by omega, by omega, by omega, ?_, fun _ => ⟨L, _, _, h1, h2, hlo, hpos L col hne, ?_, ?_⟩, ?_⟩
  · have : endCol ls fin col L ≤ ls + 1 := by
      cases fin with
      | false => exact hcl
      | true =>
        by_cases hlc : lc = TAB ∨ lc = SP
        · have := (k2 hlc).2; omega
        · have := (k3 hlc).2; omega
    rcases h5 with h | h <;> omega
  · rw [h3]
    cases fin with
    | false => rfl
    | true => rw [if_pos rfl, hfinish]
  · rintro rfl
    rcases h5 with h | h
    · exact Or.inl h
    · exact Or.inr h
  · rintro rfl e he
    rw [h3, ← hfinish] at he
    exact hlo.finished.2.2.2 e he

/-- The whole encoder. -/
theorem encode_post {ex : Bool} {K : KernelProg} (hK : IsEnc ex K) (m0 : Mem) {ls : Nat} (hls : 1 ≤ ls) (hls2 : ls + 6 < 2 ^ 31) {col n : Nat} (hcol : col < ls) (hn : n ≠ 0) (fin : Bool) :
    (encode K m0 ls col n fin).Post n (Out ex ls col n fin) [] := by
  unfold encode
  rw [if_neg hn]
  by_cases hsmall : (ls : Int) < 12
  · rw [if_pos hsmall]
    exact (Shared.encode_post ls hls hls2 col n fin hn).mono fun s x _ h => short_out hls hcol hn fin ex h
  rw [if_neg hsmall, if_neg (show ¬ (col : Int) < 0 by omega)]
  apply Prog.Post.bind
  refine (hK.post ls col n ⟨m0, 0, 0⟩ (by omega) hn rfl rfl).mono ?_
  rintro s ⟨d, pos, c'⟩ - ⟨c, h1, h2, h3, h4⟩
  simp only at h1 h2 h3 h4 ⊢
  subst h1
  apply Prog.Post.bind
  refine (rest_post (by omega) h2 h3 h4).mono ?_
  intro s1 x _ hx
  exact fin_post (by omega) (by omega) hn fin hx

end Yenc.Shared.SimdEnc
