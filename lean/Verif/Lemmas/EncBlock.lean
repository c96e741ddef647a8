import Verif.Lemmas.EncSimd
import Verif.Lemmas.Compact
/-! What a vectorised encoder writes for a block of characters, and where a full line has to be cut. -/
namespace Yenc.Enc.Simd
open Yenc
open Yenc.Dec.Simd (cnt cnt_add cnt_le cnt_congr)

/-- Escaped at the start of a line. -/
def escFirst (c : Byte) : Bool := Spec.critical (c + 42#8) || c + 42#8 = DOT || c + 42#8 = TAB || c + 42#8 = SP

/-- Is character `j` of a block escaped?  `start` tells that the block is at the start of a line. -/
def special (start : Bool) (b : Nat → Byte) (j : Nat) : Bool :=
  if start && j == 0 then escFirst (b j) else Spec.critical (b j + 42#8)

/-- What character `j` is written as. -/
def ech (s : Nat → Bool) (b : Nat → Byte) (j : Nat) : List Byte := if s j then [EQ, b j + 106#8] else [b j + 42#8]

/-- What `n` characters are written as. -/
def expand (s : Nat → Bool) (b : Nat → Byte) (n : Nat) : List Byte := (List.range n).flatMap (ech s b)

theorem expand_add (s : Nat → Bool) (b : Nat → Byte) (m n : Nat) :
    expand s b (m + n) = expand s b m ++ expand (fun j => s (m + j)) (fun j => b (m + j)) n := by
  simp only [expand, List.range_add, List.flatMap_append, List.flatMap_map]
  rfl

theorem expand_one (s : Nat → Bool) (b : Nat → Byte) : expand s b 1 = ech s b 0 := by simp [expand, List.range_one]

theorem expand_zero (s : Nat → Bool) (b : Nat → Byte) : expand s b 0 = [] := rfl

theorem expand_congr {s s' : Nat → Bool} {b b' : Nat → Byte} {n : Nat} (h1 : ∀ j, j < n → s j = s' j) (h2 : ∀ j, j < n → b j = b' j) :
    expand s b n = expand s' b' n := by
  unfold expand
  simp only [List.flatMap]
  congr 1
  apply List.map_congr_left
  intro j hj
  rw [List.mem_range] at hj
  simp only [ech, h1 j hj, h2 j hj]

theorem cnt_succ (s : Nat → Bool) (n : Nat) : cnt s (n + 1) = cnt s n + (s n).toNat := by
  rw [cnt_add]
  congr 1
  simp only [cnt, List.range_one]
  cases h : s n <;> simp [h]

theorem expand_length (s : Nat → Bool) (b : Nat → Byte) (n : Nat) : (expand s b n).length = n + cnt s n := by
  induction n with
  | zero => rfl
  | succ n ih =>
    rw [expand_add, List.length_append, ih, cnt_succ, expand_one]
    unfold ech
    simp only [Nat.add_zero]
    cases h : s n <;> simp <;> omega

theorem ech_mid (b : Nat → Byte) (j : Nat) : ech (special false b) b j = mid (b j) := by
  have : b j + 42#8 + 64#8 = b j + 106#8 := by rw [BitVec.add_assoc]; rfl
  simp only [ech, special, mid, Bool.false_and, this]
  rfl

theorem expand_mid (b : Nat → Byte) (n : Nat) : expand (special false b) b n = (((List.range n).map b).map mid).flatten := by
  unfold expand
  rw [List.flatMap]
  congr 1
  rw [List.map_map]
  apply List.map_congr_left
  intro j _
  rw [ech_mid]; rfl

theorem take_drop_eq (src : List Byte) (pos k : Nat) (h : pos + k ≤ src.length) :
    (src.drop pos).take k = (List.range k).map (fun j => src.getD (pos + j) 0#8) := by
  apply List.ext_getElem
  · simp; omega
  · intro i h1 h2
    simp at h1
    simp only [List.getElem_take, List.getElem_drop, List.getElem_map, List.getElem_range]
    rw [List.getD_eq_getElem?_getD, List.getElem?_eq_getElem (by omega)]
    rfl

theorem encChar_first (ls : Nat) (b : Nat → Byte) : Spec.encChar ls 0 false (b 0 + 42#8) = ech (special true b) b 0 := by
  have h2 : b 0 + 42#8 + 64#8 = b 0 + 106#8 := by rw [BitVec.add_assoc]; rfl
  have h1 : Spec.mustEscape ls 0 false (b 0 + 42#8) = escFirst (b 0) := by
    unfold Spec.mustEscape escFirst
    simp [Bool.or_assoc]
  simp only [Spec.encChar, ech, special, Bool.true_and, h1, h2]
  simp

/-- Characters that stay before the last column are written as `expand` says. -/
theorem encode_run (ls c : Nat) (src : List Byte) (pos k : Nat) (start : Bool) (b : Nat → Byte) (hb : b = fun j => src.getD (pos + j) 0#8)
    (hc : start = true → c = 0) (hc' : start = false → 1 ≤ c) (hk : pos + k ≤ src.length)
    (hls : c + (expand (special start b) b k).length < ls) :
    Spec.encode ls false c (src.drop pos) = expand (special start b) b k ++ Spec.encode ls false (c + (expand (special start b) b k).length) (src.drop (pos + k)) ∧
    Spec.endCol ls false c (src.drop pos) = Spec.endCol ls false (c + (expand (special start b) b k).length) (src.drop (pos + k)) := by
  have hmid : ∀ (pos c k : Nat) (b : Nat → Byte), (b = fun j => src.getD (pos + j) 0#8) → 1 ≤ c → pos + k ≤ src.length →
      c + (expand (special false b) b k).length < ls →
      Spec.encode ls false c (src.drop pos) = expand (special false b) b k ++ Spec.encode ls false (c + (expand (special false b) b k).length) (src.drop (pos + k)) ∧
      Spec.endCol ls false c (src.drop pos) = Spec.endCol ls false (c + (expand (special false b) b k).length) (src.drop (pos + k)) := by
    intro pos c k b hb h1 hk hls
    have e1 : src.drop pos = (List.range k).map b ++ src.drop (pos + k) := by
      have := take_drop_eq src pos k hk
      rw [← hb] at this
      rw [← this, ← List.drop_drop, List.take_append_drop]
    have e2 : (expand (special false b) b k).length = midLen ((List.range k).map b) := by
      rw [expand_mid, flatten_mid_length]
    rw [e2] at hls ⊢
    rw [expand_mid, e1]
    exact encode_mid_run ls c _ _ h1 (Or.inr hls)
  cases start with
  | false => exact hmid pos c k b hb (hc' rfl) hk hls
  | true =>
    have h0 := hc rfl
    subst h0
    rcases k with _ | k
    · simp [expand]
    have e0 : src.drop pos = b 0 :: src.drop (pos + 1) := by
      rw [List.drop_eq_getElem_cons (show pos < src.length by omega), hb]
      congr 1
      simp only [List.getD_eq_getElem?_getD, Nat.add_zero, List.getElem?_eq_getElem (show pos < src.length by omega)]
      rfl
    have e1 : expand (special true b) b (k + 1) = ech (special true b) b 0 ++ expand (special false (fun j => b (1 + j))) (fun j => b (1 + j)) k := by
      rw [Nat.add_comm k 1, expand_add, expand_one]
      congr 1
      apply expand_congr
      · intro j _
        simp only [special, Bool.true_and, Bool.false_and]
        rw [if_neg (by simp)]
        simp
      · intro j _; rfl
    rw [e1, List.length_append] at hls
    rw [e1, List.length_append]
    have f1 := encode_cons_lt ls false 0 (b 0) (src.drop (pos + 1)) (by omega)
    have f2 := endCol_cons_lt ls false 0 (b 0) (src.drop (pos + 1)) (by omega)
    simp only [Bool.false_and, Nat.zero_add, encChar_first] at f1 f2
    have hpos : 1 ≤ (ech (special true b) b 0).length := by unfold ech; split <;> simp
    obtain ⟨g1, g2⟩ := hmid (pos + 1) (ech (special true b) b 0).length k (fun j => b (1 + j))
      (by rw [hb]; funext j; simp [Nat.add_assoc]) hpos (by omega) (by omega)
    rw [show pos + 1 + k = pos + (k + 1) by omega] at g1 g2
    rw [e0, f1, f2, g1, g2]
    simp

/-! ## The end of a line -/

/-- The bytes `eolLastChar` stands for: the character, escaped if it is a tab or space or would be in the middle of a line, and the line break. -/
theorem eolLast_bytes : ∀ c : Byte, (bytes32 (eolLastChar c)).take (3 + (eolLastChar c >>> 27).toNat) =
    (if Spec.critical (c + 42#8) = true ∨ c + 42#8 = TAB ∨ c + 42#8 = SP then [EQ, c + 42#8 + 64#8] else [c + 42#8]) ++ [CR, LF] := by
  decide +kernel

theorem eolLast_adv : ∀ c : Byte, 3 + (eolLastChar c >>> 27).toNat ≤ 4 := by decide +kernel

theorem eolLast_toW (d : D) (c : Byte) : (d.eolLast c).toW =
    ⟨d.toW.out ++ ((if Spec.critical (c + 42#8) = true ∨ c + 42#8 = TAB ∨ c + 42#8 = SP then [EQ, c + 42#8 + 64#8] else [c + 42#8]) ++ [CR, LF]),
      max d.hi (d.p + 4)⟩ := by
  unfold D.eolLast
  rw [D.put_toW _ _ _ (by have := eolLast_adv c; simpa [bytes32] using this)]
  unfold W.put
  rw [eolLast_bytes, D.toW_out_length]
  simp [bytes32, D.toW]

/-- In the last column, or one before it if the character would be escaped anyway, the character ends the line. -/
theorem encode_eol (ls c : Nat) (hls : 3 ≤ ls) (x : Byte) (r : List Byte) (hr : r ≠ [])
    (h : c + 1 = ls ∨ (c + 2 = ls ∧ Spec.critical (x + 42#8) = true)) :
    Spec.encode ls false c (x :: r) =
      ((if Spec.critical (x + 42#8) = true ∨ x + 42#8 = TAB ∨ x + 42#8 = SP then [EQ, x + 42#8 + 64#8] else [x + 42#8]) ++ [CR, LF]) ++ Spec.encode ls false 0 r ∧
    Spec.endCol ls false c (x :: r) = Spec.endCol ls false 0 r := by
  obtain ⟨y, ys, rfl⟩ := List.exists_cons_of_ne_nil hr
  have e1 := encode_cons_lt ls false c x (y :: ys) (by omega)
  have e2 := endCol_cons_lt ls false c x (y :: ys) (by omega)
  simp only [Bool.false_and] at e1 e2
  have e3 : Spec.encChar ls c false (x + 42#8) =
      (if Spec.critical (x + 42#8) = true ∨ x + 42#8 = TAB ∨ x + 42#8 = SP then [EQ, x + 42#8 + 64#8] else [x + 42#8]) := by
    unfold Spec.encChar Spec.mustEscape
    have h0 : c ≠ 0 := by omega
    rcases h with h | ⟨h, hx⟩
    · by_cases hx : Spec.critical (x + 42#8) = true <;> simp [hx, h0, h]
    · simp [hx]
  have e4 : ls ≤ c + (Spec.encChar ls c false (x + 42#8)).length := by
    have := (encChar_length ls c false (x + 42#8)).1
    rcases h with h | ⟨h, hx⟩
    · omega
    · rw [e3, if_pos (Or.inl hx)]; simp; omega
  have f1 := encode_cons_ge ls false _ y ys e4
  have f2 := endCol_cons_ge ls false _ y ys e4
  have g1 := encode_cons_lt ls false 0 y ys (by omega)
  have g2 := endCol_cons_lt ls false 0 y ys (by omega)
  simp only [Bool.false_and, Nat.zero_add] at f1 f2 g1 g2
  rw [e1, e2, f1, f2, e3, g1, g2]
  simp

/-! ## Rounds -/

/-- Where `T` bytes of output end: after `k` characters, or inside the escape sequence of character `k`. -/
def CutAt (s : Nat → Bool) (n T k : Nat) : Prop :=
  k ≤ n ∧ (k + cnt s k = T ∨ (k + cnt s k + 1 = T ∧ k < n ∧ s k = true))

/-- What a round has to do: write the characters of the block, report how many bytes that is, and, told by how much the output is too long, go back to the right place. -/
structure Round.Ok (W : Nat) (start : Bool) (b : Nat → Byte) (r : Round) : Prop where
  adv : r.adv = (expand (special start b) b W).length
  pos : ∀ d : D, (d.stores r.stores).p = d.p
  keep : ∀ d : D, ∀ a, a < d.p → (d.stores r.stores).m a = d.m a
  out : ∀ d : D, (d.stores r.stores).m.rdn d.p r.adv = expand (special start b) b W
  hi : ∀ d : D, (d.stores r.stores).hi ≤ max d.hi (d.p + 2 * W)
  cut : ∀ T : Nat, 1 ≤ T → T ≤ r.adv → ∃ k, CutAt (special start b) W T k ∧
    r.revert ((r.adv : Int) - T) = (((k + cnt (special start b) k : Nat) : Int) - r.adv, (k : Int) - W)

/-- What a kernel has to satisfy. -/
structure Kernel.Ok (K : Kernel) : Prop where
  width : 16 ≤ K.width
  back : ∀ start prev b, (K.round start prev b).back = true → K.priming = true
  round : ∀ start prev b, (K.round start prev b).Ok K.width start b

/-- The main loop. -/
theorem loop_spec (K : Kernel) (hK : K.Ok) (ls : Nat) (hls : 16 ≤ ls) (src : List Byte) (total : List Byte) (ec : Nat) (fuel : Nat) (start : Bool) (d : D) (pos c : Nat)
    (hfuel : src.length < pos + fuel) (hc : start = true → c = 0) (hc' : start = false → 1 ≤ c) (hcl : c + 1 < ls)
    (hpos : pos + 2 * K.width ≤ src.length + 2) (hback : K.priming = true → 1 ≤ pos)
    (ht : d.toW.out ++ Spec.encode ls false c (src.drop pos) = total) (he : Spec.endCol ls false c (src.drop pos) = ec)
    (hhi : d.hi ≤ total.length + 2) :
    ∃ (d' : D) (pos' c' : Nat), loop K ls src fuel start d pos ((c : Int) - ls + 1) = some (d', pos', (c' : Int) - ls + 1) ∧ pos' < src.length ∧
      d'.toW.out ++ Spec.encode ls false c' (src.drop pos') = total ∧ Spec.endCol ls false c' (src.drop pos') = ec ∧ d'.hi ≤ total.length + 2 := by
  induction fuel generalizing start d pos c with
  | zero => have := hK.width; omega
  | succ fuel ih =>
  have hW := hK.width
  rw [loop]
  simp only
  have hb := hK.back start (src.getD (pos - 1) 0#8) (fun j => src.getD (pos + j) 0#8)
  have hr := hK.round start (src.getD (pos - 1) 0#8) (fun j => src.getD (pos + j) 0#8)
  generalize K.round start (src.getD (pos - 1) 0#8) (fun j => src.getD (pos + j) 0#8) = r at *
  rw [if_neg (by
    rintro (h | ⟨h, h0⟩)
    · omega
    · have := hback (hb h); omega)]
  generalize hbb : (fun j => src.getD (pos + j) 0#8) = b at *
  have hadv := hr.adv
  -- destination after the stores
  have hp1 : ((d.stores r.stores).adv r.adv).p = d.p + r.adv := by simp only [D.adv, hr.pos]
  have hm1 : ((d.stores r.stores).adv r.adv).m.rdn 0 (d.p + r.adv) = d.toW.out ++ expand (special start b) b K.width := by
    simp only [D.adv]
    rw [Mem.rdn_append, Nat.zero_add, hr.out]
    congr 1
    exact Mem.rdn_congr fun x _ h2 => hr.keep d x (by omega)
  have hh1 : ((d.stores r.stores).adv r.adv).hi ≤ max d.hi (d.p + 2 * K.width) := by simp only [D.adv]; exact hr.hi d
  have htlen : d.p + (src.length - pos) ≤ total.length := by
    rw [← ht, List.length_append, D.toW_out_length]
    have h1 : ∀ (l : List Byte) (c : Nat), l.length ≤ (Spec.encode ls false c l).length := by
      intro l c
      have := midLen_le_encode ls false c l []
      rw [List.append_nil] at this
      have h2 : l.length ≤ midLen l := by
        clear this
        induction l with
        | nil => simp
        | cons x xs ihx => rw [midLen_cons]; have := mid_pos x; simp; omega
      omega
    have := h1 (src.drop pos) c
    rw [List.length_drop] at this
    omega
  have hh2 : ((d.stores r.stores).adv r.adv).hi ≤ total.length + 2 := by omega
  generalize hd1 : (d.stores r.stores).adv r.adv = d1 at *
  have hcol : (c : Int) - ls + 1 + r.adv = ((c + r.adv : Nat) : Int) - ls + 1 := by push_cast; omega
  rw [hcol]
  by_cases hov : 0 ≤ ((c + r.adv : Nat) : Int) - ls + 1
  · rw [if_pos hov]
    -- the line is full
    obtain ⟨k, ⟨hk1, hk2⟩, hrev⟩ := hr.cut (ls - 1 - c) (by omega) (by omega)
    have hrev' : r.revert (((c + r.adv : Nat) : Int) - ls + 1) = (((k + cnt (special start b) k : Nat) : Int) - r.adv, (k : Int) - K.width) := by
      rw [← hrev]; congr 1; omega
    rw [hrev']
    simp only
    have hkept : (expand (special start b) b k).length = k + cnt (special start b) k := expand_length _ _ _
    have hkle : k + cnt (special start b) k ≤ ls - 1 - c := by omega
    obtain ⟨g1, g2⟩ := encode_run ls c src pos k start b hbb.symm hc hc' (by omega) (by rw [hkept]; omega)
    rw [hkept] at g1 g2
    have hp2 : (d1.p : Int) + (((k + cnt (special start b) k : Nat) : Int) - r.adv) = ((d.p + (k + cnt (special start b) k) : Nat) : Int) := by
      rw [hp1]; push_cast; omega
    have hi2 : ((pos + K.width : Nat) : Int) + ((k : Int) - K.width) = ((pos + k : Nat) : Int) := by push_cast; omega
    rw [hp2, hi2]
    rw [if_neg (show ¬ (((d.p + (k + cnt (special start b) k) : Nat) : Int) < 0 ∨ ((pos + k : Nat) : Int) < 0) by omega)]
    simp only [Int.toNat_natCast]
    have hlt : pos + k < src.length := by omega
    rw [List.getElem?_eq_getElem hlt]
    simp only
    have hdrop : src.drop (pos + k) = src[pos + k] :: src.drop (pos + k + 1) := List.drop_eq_getElem_cons hlt
    have hbk : b k = src[pos + k] := by
      rw [← hbb]; simp only [List.getD_eq_getElem?_getD, List.getElem?_eq_getElem hlt]; rfl
    have hrne : src.drop (pos + k + 1) ≠ [] := by
      intro h
      have := congrArg List.length h
      simp at this; omega
    have heol := encode_eol ls (c + (k + cnt (special start b) k)) (by omega) src[pos + k] (src.drop (pos + k + 1)) hrne (by
      rcases hk2 with h | ⟨h, hkn, hs⟩
      · left; omega
      · right
        refine ⟨by omega, ?_⟩
        rw [← hbk]
        unfold special at hs
        cases start with
        | false => simpa using hs
        | true =>
          have h0 := hc rfl
          have : cnt (special true b) k ≤ k := cnt_le _ _
          have hk0 : k ≠ 0 := by omega
          simpa [hk0] using hs)
    have hout : (D.mk d1.m (d.p + (k + cnt (special start b) k)) d1.hi).toW.out = d.toW.out ++ expand (special start b) b k := by
      have hsplit : expand (special start b) b K.width = expand (special start b) b k ++ expand (fun j => special start b (k + j)) (fun j => b (k + j)) (K.width - k) := by
        rw [← expand_add]; congr 1; omega
      have hle : k + cnt (special start b) k ≤ r.adv := by
        rw [hadv, hsplit, List.length_append, hkept]; omega
      have h1 : d1.m.rdn 0 (d.p + r.adv) = d1.m.rdn 0 (d.p + (k + cnt (special start b) k)) ++ d1.m.rdn (0 + (d.p + (k + cnt (special start b) k))) (r.adv - (k + cnt (special start b) k)) := by
        rw [← Mem.rdn_append]; congr 1; omega
      rw [hm1, hsplit, ← List.append_assoc] at h1
      have h2 := List.append_inj_left h1 (by simp [hkept])
      simp only [D.toW] at h2 ⊢
      exact h2.symm
    have htw := eolLast_toW ⟨d1.m, d.p + (k + cnt (special start b) k), d1.hi⟩ src[pos + k]
    rw [hout] at htw
    generalize hd2 : (D.mk d1.m (d.p + (k + cnt (special start b) k)) d1.hi).eolLast src[pos + k] = d2 at *
    have ht2 : d2.toW.out ++ Spec.encode ls false 0 (src.drop (pos + k + 1)) = total := by
      rw [htw, ← ht, g1, hdrop, heol.1]; simp
    have he2 : Spec.endCol ls false 0 (src.drop (pos + k + 1)) = ec := by rw [← heol.2, ← hdrop, ← g2, he]
    have hhi2 : d2.hi ≤ total.length + 2 := by
      have h1 : d2.hi = max d1.hi (d.p + (k + cnt (special start b) k) + 4) := congrArg W.hi htw
      have h2 : d.p + (k + cnt (special start b) k) + 3 ≤ total.length := by
        rw [← ht2, htw]
        simp only [List.length_append, hkept, D.toW_out_length]
        split <;> simp <;> omega
      omega
    have hlso : -(ls : Int) + 1 = ((0 : Nat) : Int) - ls + 1 := by simp
    by_cases hstop : src.length ≤ pos + k + 2 * K.width
    · rw [if_pos hstop, hlso]
      exact ⟨d2, pos + k + 1, 0, rfl, by omega, ht2, he2, hhi2⟩
    · rw [if_neg hstop, hlso]
      exact ih true d2 (pos + k + 1) 0 (by omega) (fun _ => rfl) (by simp) (by omega) (by omega) (by omega) ht2 he2 hhi2
  · rw [if_neg hov]
    obtain ⟨g1, g2⟩ := encode_run ls c src pos K.width start b hbb.symm hc hc' (by omega) (by rw [← hadv]; omega)
    rw [← hadv] at g1 g2
    have ht1 : d1.toW.out ++ Spec.encode ls false (c + r.adv) (src.drop (pos + K.width)) = total := by
      have : d1.toW.out = d.toW.out ++ expand (special start b) b K.width := by
        rw [← hm1, ← hp1]; rfl
      rw [this, ← ht, g1, List.append_assoc]
    have he1 : Spec.endCol ls false (c + r.adv) (src.drop (pos + K.width)) = ec := by rw [← g2, he]
    by_cases hmore : pos + K.width + 2 * K.width < src.length
    · rw [if_pos hmore]
      have h1 : 1 ≤ r.adv := by rw [hadv, expand_length]; omega
      exact ih false d1 (pos + K.width) (c + r.adv) (by omega) (by simp) (by omega) (by omega) (by omega) (by omega) ht1 he1 hh2
    · rw [if_neg hmore]
      exact ⟨d1, pos + K.width, c + r.adv, rfl, by omega, ht1, he1, hh2⟩

/-! ## The prologue and the whole kernel -/

theorem prime_table : ∀ c : Byte, (decide (c = 214#8 ∨ c = 10#8 + 214#8 ∨ c = 13#8 + 214#8 ∨ c = 61#8 - 42#8) = Spec.critical (c + 42#8)) ∧
    bytes16 (0x6a3d#16 + (c.setWidth 16 <<< 8)) = [EQ, c + 42#8 + 64#8] := by decide +kernel

theorem prime_toW (d : D) (c : Byte) : (d.prime c).1.toW = ⟨d.toW.out ++ mid c, max d.hi (d.p + (mid c).length)⟩ ∧ (d.prime c).2 = ((mid c).length : Int) := by
  obtain ⟨h1, h2⟩ := prime_table c
  unfold D.prime mid
  by_cases h : c = 214#8 ∨ c = 10#8 + 214#8 ∨ c = 13#8 + 214#8 ∨ c = 61#8 - 42#8
  · have hc : Spec.critical (c + 42#8) = true := by rw [← h1]; exact decide_eq_true h
    rw [if_pos h, if_pos hc, h2]
    simp only
    rw [D.put_toW _ _ _ (by simp)]
    simp [W.put, D.toW]
  · have hc : ¬ Spec.critical (c + 42#8) = true := by rw [← h1]; simpa using h
    rw [if_neg h, if_neg hc]
    simp only
    rw [D.put_toW _ _ _ (by simp)]
    simp [W.put, D.toW]

theorem first_toW (d : D) (c : Byte) (ls : Nat) :
    (d.first c).1.toW = ⟨d.toW.out ++ Spec.encChar ls 0 false (c + 42#8), max d.hi (d.p + (Spec.encChar ls 0 false (c + 42#8)).length)⟩ ∧
    (d.first c).2 = ((Spec.encChar ls 0 false (c + 42#8)).length : Int) := by
  have h := firstChar_eq d.toW c ls false
  simp only [D.toW_out_length] at h
  have h1 : ((d.first c).1.toW, (d.first c).2) = firstChar d.toW c := by
    unfold D.first firstChar
    split
    · simp only [D.put_toW d (bytes16 (escapedLUT c)) 2 (by simp [bytes16])]
    · simp only [D.put_toW d [c + 42#8] 1 (by simp)]
  rw [h] at h1
  exact ⟨congrArg Prod.fst h1, congrArg Prod.snd h1⟩

theorem eolFirst_toW (d : D) (c : Byte) (ls : Nat) :
    (d.eolFirst c).1.toW = ⟨d.toW.out ++ CR :: LF :: Spec.encChar ls 0 false (c + 42#8), max d.hi (d.p + 4)⟩ ∧
    (d.eolFirst c).2 = ((Spec.encChar ls 0 false (c + 42#8)).length : Int) := by
  have h := eolChar_eq d.toW c ls false
  simp only [D.toW_out_length] at h
  have h1 : ((d.eolFirst c).1.toW, (d.eolFirst c).2) = eolChar d.toW c := by
    unfold D.eolFirst eolChar
    split
    · simp only
      rw [D.put_toW _ _ 4 (by simp [bytes32])]
    · simp only
      rw [D.put_toW _ _ 3 (by simp [bytes32])]
  rw [h] at h1
  exact ⟨congrArg Prod.fst h1, congrArg Prod.snd h1⟩

/-- State in the prologue: what is written, followed by the reference encoding of the rest, is the whole. -/
structure Inv (ls : Nat) (src total : List Byte) (ec : Nat) (d : D) (pos c : Nat) : Prop where
  le : pos ≤ src.length
  out : d.toW.out ++ Spec.encode ls false c (src.drop pos) = total
  col : Spec.endCol ls false c (src.drop pos) = ec
  hi : d.hi ≤ total.length + 2

theorem drop_get {src : List Byte} {pos : Nat} (h : pos < src.length) : src.drop pos = src[pos] :: src.drop (pos + 1) := List.drop_eq_getElem_cons h

theorem Inv.prime {ls : Nat} {src total : List Byte} {ec : Nat} {d : D} {pos c : Nat} (h : Inv ls src total ec d pos c) (hp : pos < src.length) (h1 : 1 ≤ c) (h2 : c + 1 < ls) :
    Inv ls src total ec (d.prime src[pos]).1 (pos + 1) (c + (mid src[pos]).length) := by
  have e1 := encode_cons_lt ls false c src[pos] (src.drop (pos + 1)) (by omega)
  have e2 := endCol_cons_lt ls false c src[pos] (src.drop (pos + 1)) (by omega)
  simp only [Bool.false_and, encChar_mid ls c _ h1 h2] at e1 e2
  obtain ⟨f1, _⟩ := prime_toW d src[pos]
  have ho := h.out
  have hc := h.col
  rw [drop_get hp, e1] at ho
  rw [drop_get hp, e2] at hc
  refine ⟨by omega, by rw [f1, ← ho]; simp, hc, ?_⟩
  have h3 : (d.prime src[pos]).1.hi = max d.hi (d.p + (mid src[pos]).length) := congrArg W.hi f1
  have := congrArg List.length ho
  simp only [List.length_append, D.toW_out_length] at this
  have := h.hi
  omega

theorem Inv.first {ls : Nat} {src total : List Byte} {ec : Nat} {d : D} {pos : Nat} (h : Inv ls src total ec d pos 0) (hp : pos < src.length) (hls : 1 ≤ ls) :
    Inv ls src total ec (d.first src[pos]).1 (pos + 1) (Spec.encChar ls 0 false (src[pos] + 42#8)).length := by
  have e1 := encode_cons_lt ls false 0 src[pos] (src.drop (pos + 1)) (by omega)
  have e2 := endCol_cons_lt ls false 0 src[pos] (src.drop (pos + 1)) (by omega)
  simp only [Bool.false_and, Nat.zero_add] at e1 e2
  obtain ⟨f1, _⟩ := first_toW d src[pos] ls
  have ho := h.out
  have hc := h.col
  rw [drop_get hp, e1] at ho
  rw [drop_get hp, e2] at hc
  refine ⟨by omega, by rw [f1, ← ho]; simp, hc, ?_⟩
  have h3 : (d.first src[pos]).1.hi = _ := congrArg W.hi f1
  have := congrArg List.length ho
  simp only [List.length_append, D.toW_out_length] at this
  have := h.hi
  simp only at h3
  omega

theorem Inv.eolFirst {ls : Nat} {src total : List Byte} {ec : Nat} {d : D} {pos c : Nat} (h : Inv ls src total ec d pos c) (hp : pos < src.length) (hls : ls ≤ c) :
    Inv ls src total ec (d.eolFirst src[pos]).1 (pos + 1) (Spec.encChar ls 0 false (src[pos] + 42#8)).length := by
  have e1 := encode_cons_ge ls false c src[pos] (src.drop (pos + 1)) (by omega)
  have e2 := endCol_cons_ge ls false c src[pos] (src.drop (pos + 1)) (by omega)
  simp only [Bool.false_and] at e1 e2
  obtain ⟨f1, _⟩ := eolFirst_toW d src[pos] ls
  have ho := h.out
  have hc := h.col
  rw [drop_get hp, e1] at ho
  rw [drop_get hp, e2] at hc
  refine ⟨by omega, by rw [f1, ← ho]; simp, hc, ?_⟩
  have h3 : (d.eolFirst src[pos]).1.hi = _ := congrArg W.hi f1
  have := congrArg List.length ho
  simp only [List.length_append, List.length_cons, D.toW_out_length] at this
  have := h.hi
  simp only at h3
  omega

theorem Inv.eolLast {ls : Nat} {src total : List Byte} {ec : Nat} {d : D} {pos c : Nat} (h : Inv ls src total ec d pos c) (hp : pos + 1 < src.length) (hls : 3 ≤ ls) (hc : c + 1 = ls) :
    Inv ls src total ec (d.eolLast src[pos]) (pos + 1) 0 := by
  have hne : src.drop (pos + 1) ≠ [] := by
    intro h
    have := congrArg List.length h
    simp at this; omega
  obtain ⟨e1, e2⟩ := encode_eol ls c hls src[pos] (src.drop (pos + 1)) hne (Or.inl hc)
  have f1 := eolLast_toW d src[pos]
  have ho := h.out
  have hc := h.col
  rw [drop_get (show pos < src.length by omega), e1] at ho
  rw [drop_get (show pos < src.length by omega), e2] at hc
  refine ⟨by omega, by rw [f1, ← ho]; simp, hc, ?_⟩
  have h3 : (d.eolLast src[pos]).hi = _ := congrArg W.hi f1
  have h4 := congrArg List.length ho
  simp only [List.length_append, List.length_cons, D.toW_out_length] at h4
  have := h.hi
  simp only at h3
  split at h4 <;> simp at h4 <;> omega

/-- A kernel of the x86 kind, with correct rounds, is right. -/
theorem run_ok (K : Kernel) (hK : K.Ok) : KernelFn.Ok (run K) := by
  intro ls col src d hls hne hp0 hh0
  unfold run
  have hW := hK.width
  have hI0 : Inv ls src (Spec.encode ls false col src) (Spec.endCol ls false col src) d 0 col :=
    ⟨by omega, by simp [D.toW, hp0, Mem.rdn], by simp, by omega⟩
  generalize Spec.encode ls false col src = total at *
  generalize Spec.endCol ls false col src = ec at *
  by_cases hskip : src.length ≤ 2 * K.width ∨ (ls : Int) < 16
  · rw [if_pos hskip]
    have : src.length ≠ 0 := fun h => hne (List.length_eq_zero_iff.1 h)
    exact ⟨d, 0, col, rfl, by omega, hI0.out, hI0.col, by omega, by simp [hne]⟩
  rw [if_neg hskip]
  have hlen : 2 * K.width < src.length := by omega
  -- the character handled on its own
  have s1 : ∃ (d1 : D) (pos1 c1 : Nat), priming K ls src d 0 ((col : Int) - ls + 1) = some (d1, pos1, (c1 : Int) - ls + 1) ∧ pos1 ≤ 1 ∧
      Inv ls src total ec d1 pos1 c1 ∧ (K.priming = true → 1 ≤ pos1 ∨ c1 = 0 ∨ ls ≤ c1 + 1) := by
    unfold priming
    by_cases hpr : K.priming = true ∧ (col : Int) - ls + 1 < 0 ∧ (col : Int) - ls + 1 ≠ -ls + 1
    · rw [if_pos hpr]
      have h0 : 0 < src.length := by omega
      rw [List.getElem?_eq_getElem h0]
      have hi := hI0.prime h0 (by omega) (by omega)
      refine ⟨_, 1, _, ?_, by omega, hi, fun _ => Or.inl (by omega)⟩
      simp only [(prime_toW d src[0]).2]
      congr 3
      push_cast; omega
    · rw [if_neg hpr]
      refine ⟨d, 0, col, rfl, by omega, hI0, fun h => ?_⟩
      by_cases h0 : col = 0
      · exact Or.inr (Or.inl h0)
      · refine Or.inr (Or.inr ?_)
        by_cases h1 : ls ≤ col + 1
        · exact h1
        · exact absurd ⟨h, by omega, by omega⟩ hpr
  obtain ⟨d1, pos1, c1, e1, p1, i1, b1⟩ := s1
  rw [e1]
  -- a full line
  have s2 : ∃ (d2 : D) (pos2 c2 : Nat), full ls src d1 pos1 ((c1 : Int) - ls + 1) = some (d2, pos2, (c2 : Int) - ls + 1) ∧ pos2 ≤ 2 ∧
      Inv ls src total ec d2 pos2 c2 ∧ (K.priming = true → 1 ≤ pos2 ∨ c2 = 0) ∧ c2 + 1 < ls := by
    unfold full
    by_cases hfull : 0 ≤ (c1 : Int) - ls + 1
    · rw [if_pos hfull]
      have h0 : pos1 < src.length := by omega
      rw [List.getElem?_eq_getElem h0]
      simp only
      by_cases hz : (c1 : Int) - ls + 1 = 0
      · rw [if_pos hz]
        exact ⟨_, pos1 + 1, 0, by simp, by omega, i1.eolLast (by omega) (by omega) (by omega), fun _ => Or.inr rfl, by omega⟩
      · rw [if_neg hz]
        refine ⟨_, pos1 + 1, _, ?_, by omega, i1.eolFirst h0 (by omega), fun _ => Or.inl (by omega), ?_⟩
        · rw [(eolFirst_toW d1 src[pos1] ls).2]
          congr 3
          omega
        · have := (encChar_length ls 0 false (src[pos1] + 42#8)).2
          omega
    · rw [if_neg hfull]
      refine ⟨d1, pos1, c1, rfl, by omega, i1, fun h => ?_, by omega⟩
      rcases b1 h with h | h | h
      · exact Or.inl h
      · exact Or.inr h
      · omega
  obtain ⟨d2, pos2, c2, e2, p2, i2, b2, l2⟩ := s2
  simp only [Option.bind_eq_bind, Option.bind_some]
  rw [e2]
  simp only [Option.bind_some]
  -- the first character of a line
  have s3 : ∃ (d3 : D) (pos3 c3 : Nat), lineStart ls src d2 pos2 ((c2 : Int) - ls + 1) = some (d3, pos3, (c3 : Int) - ls + 1) ∧ pos3 ≤ 3 ∧
      Inv ls src total ec d3 pos3 c3 ∧ (K.priming = true → 1 ≤ pos3) ∧ 1 ≤ c3 ∧ c3 + 1 < ls := by
    unfold lineStart
    by_cases hz : (c2 : Int) - ls + 1 = -ls + 1
    · rw [if_pos hz]
      have h0 : pos2 < src.length := by omega
      rw [List.getElem?_eq_getElem h0]
      have hc2 : c2 = 0 := by omega
      subst hc2
      have hl := encChar_length ls 0 false (src[pos2] + 42#8)
      refine ⟨_, pos2 + 1, _, ?_, by omega, i2.first h0 (by omega), fun _ => by omega, hl.1, by omega⟩
      simp only [(first_toW d2 src[pos2] ls).2]
      congr 3
      omega
    · rw [if_neg hz]
      refine ⟨d2, pos2, c2, rfl, by omega, i2, fun h => ?_, by omega, by omega⟩
      rcases b2 h with h | h
      · exact h
      · omega
  obtain ⟨d3, pos3, c3, e3, p3, i3, b3, l3, l3'⟩ := s3
  rw [e3]
  simp only [Option.bind_some]
  obtain ⟨d', pos', c', r1, r2, r3, r4, r5⟩ := loop_spec K hK ls (by omega) src total ec (src.length + 1) false d3 pos3 c3 (by omega) (by simp) (fun _ => l3) l3'
    (by omega) b3 i3.out i3.col i3.hi
  rw [r1]
  simp only [Option.bind_some]
  refine ⟨d', pos', c', by congr 3; omega, by omega, r3, r4, by omega, ?_⟩
  intro h
  have := congrArg List.length h
  simp at this; omega

end Yenc.Enc.Simd
