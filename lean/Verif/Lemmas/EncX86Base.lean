import Verif.Lemmas.EncBlock
import Verif.Model.EncoderX86
import Verif.Lemmas.Vec
/-! Tools for the rounds of the x86 encoders: sequences of overlapping stores, and finding the cut from the bit pattern of the `=` in the output. -/
namespace Yenc.Enc.Simd
open Yenc Vec
open Yenc.Dec.Simd (cnt cnt_add cnt_le cnt_congr)

/-! ## Overlapping stores -/

theorem stores_p (d : D) (l : List (Nat × List Byte)) : (d.stores l).p = d.p := by
  induction l generalizing d with
  | nil => rfl
  | cons x r ih => rw [D.stores, ih]; rfl

theorem stores_append (d : D) (l r : List (Nat × List Byte)) : d.stores (l ++ r) = (d.stores l).stores r := by
  induction l generalizing d with
  | nil => rfl
  | cons x l ih => rw [List.cons_append, D.stores, D.stores, ih]

theorem stores_keep (d : D) (l : List (Nat × List Byte)) (a : Nat) (ha : a < d.p) : (d.stores l).m a = d.m a := by
  induction l generalizing d with
  | nil => rfl
  | cons x r ih =>
    rw [D.stores, ih (d.store x.1 x.2) ha]
    exact Mem.wr_out _ _ _ _ (Or.inl (by omega))

/-- The stores produce `out` at the destination pointer and touch at most `n` bytes. -/
structure Writes (l : List (Nat × List Byte)) (out : List Byte) (n : Nat) : Prop where
  out : ∀ d : D, (d.stores l).m.rdn d.p out.length = out
  hi : ∀ d : D, (d.stores l).hi ≤ max d.hi (d.p + n)
  above : ∀ (d : D) (a : Nat), d.p + n ≤ a → (d.stores l).m a = d.m a

theorem Writes.nil (n : Nat) : Writes [] [] n := ⟨fun _ => rfl, fun d => by simp only [D.stores]; omega, fun _ _ _ => rfl⟩

/-- A store at the end of what was written so far adds its beginning. -/
theorem Writes.snoc {l : List (Nat × List Byte)} {out : List Byte} {n : Nat} (h : Writes l out n) (o : Nat) (ho : o = out.length) (piece junk bs : List Byte)
    (hb : bs = piece ++ junk) (hn : o + bs.length ≤ n) : Writes (l ++ [(o, bs)]) (out ++ piece) n := by
  refine ⟨fun d => ?_, fun d => ?_, fun d a ha => ?_⟩
  · have hp := stores_p d l
    simp only [stores_append, D.stores, D.store, hp]
    rw [List.length_append, Mem.rdn_append, ← ho, hb, Mem.rdn_wr_prefix, ho]
    congr 1
    rw [← h.out d]
    simp only [Mem.rdn_length]
    apply Mem.rdn_congr
    intro x h1 h2
    exact Mem.wr_out _ _ _ _ (Or.inl (by omega))
  · have hp := stores_p d l
    have := h.hi d
    simp only [stores_append, D.stores, D.store, hp]
    omega
  · have hp := stores_p d l
    simp only [stores_append, D.stores, D.store, hp]
    rw [Mem.wr_out _ _ _ _ (Or.inr (by omega)), h.above d a ha]

theorem toList_add (v : Vec) (a b : Nat) : toList v (a + b) = toList v a ++ toList (fun j => v (a + j)) b := by
  simp only [toList, List.range_add, List.map_append, List.map_map]
  rfl

theorem toList_length (v : Vec) (a : Nat) : (toList v a).length = a := by simp [toList]

/-- The same when the store is made in two parts. -/
theorem Writes.storeu {l : List (Nat × List Byte)} {out : List Byte} {n : Nat} (h : Writes l out n) (c : X86.Cfg) (o : Nat) (ho : o = out.length) (v : Vec) (piece junk : List Byte)
    (hb : toList v 16 = piece ++ junk) (hn : o + 16 ≤ n) : Writes (l ++ X86.storeu c o v) (out ++ piece) n := by
  rw [X86.storeu]
  have hw := h.snoc o ho piece junk _ hb (by rw [toList_length]; omega)
  cases c.split
  · exact hw
  · have key : ∀ d : D, d.stores (l ++ [(o, toList v 8), (o + 8, toList (fun j => v (8 + j)) 8)]) = d.stores (l ++ [(o, toList v 16)]) := by
      intro d
      simp only [stores_append, D.stores, D.store]
      have e : toList v 16 = toList v 8 ++ toList (fun j => v (8 + j)) 8 := toList_add v 8 8
      rw [e, Mem.wr_append]
      simp only [toList_length, List.length_append, D.mk.injEq]
      exact ⟨rfl, trivial, by omega⟩
    exact ⟨fun d => by simp only [if_true]; rw [key]; exact hw.out d, fun d => by simp only [if_true]; rw [key]; exact hw.hi d,
      fun d a ha => by simp only [if_true]; rw [key]; exact hw.above d a ha⟩

/-- A byte put behind the rest beforehand. -/
theorem Writes.before {l : List (Nat × List Byte)} {out : List Byte} {n : Nat} (h : Writes l out n) (hn : out.length = n) (x : Byte) :
    Writes ((n, [x]) :: l) (out ++ [x]) (n + 1) := by
  refine ⟨fun d => ?_, fun d => ?_, fun d a ha => ?_⟩
  · rw [D.stores, List.length_append, Mem.rdn_append]
    have h1 := h.out (d.store n [x])
    have hp : (d.store n [x]).p = d.p := rfl
    rw [hp] at h1
    rw [h1]
    congr 1
    show Mem.rdn _ _ 1 = _
    simp only [Mem.rdn]
    rw [h.above _ _ (by rw [hp]; omega)]
    simp only [D.store, hn]
    rw [Mem.wr_apply, dif_pos (by simp)]
    simp
  · rw [D.stores]
    have := h.hi (d.store n [x])
    simp only [D.store, List.length_singleton] at this ⊢
    omega
  · rw [D.stores, h.above (d.store n [x]) a (by show d.p + n ≤ a; omega)]
    exact Mem.wr_out _ _ _ _ (Or.inr (by simp; omega))

theorem Writes.mono {l : List (Nat × List Byte)} {out : List Byte} {n m : Nat} (h : Writes l out n) (hm : n ≤ m) : Writes l out m :=
  ⟨h.out, fun d => by have := h.hi d; omega, fun d a ha => h.above d a (by omega)⟩

/-! ## Where to cut -/

theorem getD_append_left {α : Type} (l r : List α) (x : α) (i : Nat) (h : i < l.length) : (l ++ r).getD i x = l.getD i x := by
  rw [List.getD_eq_getElem?_getD, List.getD_eq_getElem?_getD, List.getElem?_append_left h]

theorem getD_append_right {α : Type} (l r : List α) (x : α) (i : Nat) (h : l.length ≤ i) : (l ++ r).getD i x = r.getD (i - l.length) x := by
  rw [List.getD_eq_getElem?_getD, List.getD_eq_getElem?_getD, List.getElem?_append_right h]

/-- For each byte of the output: is it an `=` put before an escaped character? -/
def eqBits (s : Nat → Bool) (n : Nat) : List Bool := (List.range n).flatMap fun j => if s j then [true, false] else [false]

theorem eqBits_add (s : Nat → Bool) (m n : Nat) : eqBits s (m + n) = eqBits s m ++ eqBits (fun j => s (m + j)) n := by
  simp only [eqBits, List.range_add, List.flatMap_append, List.flatMap_map]

theorem eqBits_one (s : Nat → Bool) : eqBits s 1 = if s 0 then [true, false] else [false] := by simp [eqBits, List.range_one]

theorem eqBits_length (s : Nat → Bool) (n : Nat) : (eqBits s n).length = n + cnt s n := by
  induction n with
  | zero => rfl
  | succ n ih =>
    rw [eqBits_add, List.length_append, ih, cnt_succ, eqBits_one]
    simp only [Nat.add_zero]
    cases h : s n <;> simp <;> omega

theorem eqBits_congr {s s' : Nat → Bool} {n : Nat} (h : ∀ j, j < n → s j = s' j) : eqBits s n = eqBits s' n := by
  unfold eqBits
  simp only [List.flatMap]
  congr 1
  apply List.map_congr_left
  intro j hj
  rw [h j (by simpa using hj)]

theorem eqBits_count (s : Nat → Bool) (n : Nat) : (eqBits s n).count true = cnt s n := by
  induction n with
  | zero => rfl
  | succ n ih =>
    rw [eqBits_add, List.count_append, ih, cnt_succ, eqBits_one]
    simp only [Nat.add_zero]
    cases h : s n <;> simp

/-- How far to go back (in the output, in the input) when only `T` bytes of the output fit. -/
def goBack (L : List Bool) (T : Nat) : Int × Int :=
  let e : Int := if L.getD (T - 1) false then 1 else 0
  (-((L.length : Int) - T) - e, -((L.length : Int) - T) - e + ((L.drop (T - 1)).count true : Nat))

theorem goBack_spec (s : Nat → Bool) (n T : Nat) (h1 : 1 ≤ T) (h2 : T ≤ (eqBits s n).length) :
    ∃ k, CutAt s n T k ∧ goBack (eqBits s n) T = (((k + cnt s k : Nat) : Int) - (eqBits s n).length, (k : Int) - n) := by
  induction n with
  | zero => simp [eqBits] at h2; omega
  | succ n ih =>
    have hl := eqBits_length s n
    rw [eqBits_add, eqBits_one] at *
    simp only [Nat.add_zero] at *
    by_cases hT : T ≤ (eqBits s n).length
    · obtain ⟨k, ⟨hk, hk'⟩, hg⟩ := ih hT
      refine ⟨k, ⟨by omega, by rcases hk' with h | h; exact Or.inl h; exact Or.inr ⟨h.1, by omega, h.2.2⟩⟩, ?_⟩
      simp only [goBack, Prod.mk.injEq] at hg ⊢
      rw [getD_append_left _ _ _ _ (by omega), List.drop_append_of_le_length (by omega), List.count_append, List.length_append]
      obtain ⟨ha, hb⟩ := hg
      generalize (if (eqBits s n).getD (T - 1) false = true then (1 : Int) else 0) = e at ha hb ⊢
      cases s n <;> simp <;> omega
    · have e1 : ∀ (X : List Bool), (eqBits s n ++ X).getD (T - 1) false = X.getD (T - 1 - (eqBits s n).length) false := by
        intro X; rw [getD_append_right _ _ _ _ (by omega)]
      have e2 : ∀ (X : List Bool), (eqBits s n ++ X).drop (T - 1) = X.drop (T - 1 - (eqBits s n).length) := by
        intro X
        rw [List.drop_append, List.drop_eq_nil_of_le (by omega), List.nil_append]
      simp only [goBack, e1, e2, List.length_append]
      rw [List.length_append] at h2
      cases hs : s n
      · simp only [hs, Bool.false_eq_true, if_false, List.length_singleton] at h2 ⊢
        have : T - 1 - (eqBits s n).length = 0 := by omega
        rw [this]
        refine ⟨n + 1, ⟨by omega, Or.inl ?_⟩, ?_⟩
        · rw [cnt_succ, hs]; simp only [Bool.toNat_false]; omega
        · rw [cnt_succ, hs]; simp; omega
      · simp only [hs, if_true, List.length_cons, List.length_nil] at h2 ⊢
        by_cases h0 : T - 1 - (eqBits s n).length = 0
        · rw [h0]
          refine ⟨n, ⟨by omega, Or.inr ⟨by omega, by omega, hs⟩⟩, ?_⟩
          simp; omega
        · have : T - 1 - (eqBits s n).length = 1 := by omega
          rw [this]
          refine ⟨n + 1, ⟨by omega, Or.inl ?_⟩, ?_⟩
          · rw [cnt_succ, hs]; simp only [Bool.toNat_true]; omega
          · rw [cnt_succ, hs]; simp; omega

/-- A round is right if it writes the expansion and goes back as the bit pattern says. -/
theorem Round.ok_of {W : Nat} {start : Bool} {b : Nat → Byte} {r : Round} (hadv : r.adv = W + cnt (special start b) W)
    (hw : Writes r.stores (expand (special start b) b W) (2 * W))
    (hr : ∀ T, 1 ≤ T → T ≤ r.adv → r.revert ((r.adv : Int) - T) = goBack (eqBits (special start b) W) T) : r.Ok W start b := by
  have hl := expand_length (special start b) b W
  have he := eqBits_length (special start b) W
  refine ⟨by omega, fun d => stores_p _ _, fun d a ha => stores_keep _ _ _ ha, fun d => ?_, hw.hi, fun T h1 h2 => ?_⟩
  · rw [hadv, ← hl]; exact hw.out d
  · obtain ⟨k, hk, hg⟩ := goBack_spec (special start b) W T h1 (by omega)
    refine ⟨k, hk, ?_⟩
    rw [hr T h1 h2, hg, he, hadv]

/-! ## Bit patterns in registers -/

/-- The bits of `x` are `L`, followed by zeros. -/
def Bits {w : Nat} (x : BitVec w) (L : List Bool) : Prop := ∀ i, x.getLsbD i = L.getD i false

theorem Bits.shl {w : Nat} {x y : BitVec w} {K L : List Bool} (hx : Bits x K) (hy : Bits y L) (hl : K.length + L.length ≤ w) :
    Bits ((y <<< K.length) ||| x) (K ++ L) := by
  intro i
  rw [BitVec.getLsbD_or, BitVec.getLsbD_shiftLeft, hx i, hy]
  by_cases h : i < K.length
  · rw [getD_append_left _ _ _ _ h]
    simp [h]
  · rw [getD_append_right _ _ _ _ (by omega)]
    have : K.getD i false = false := by simp [List.getD_eq_getElem?_getD, List.getElem?_eq_none (show K.length ≤ i by omega)]
    rw [this, Bool.or_false]
    by_cases hi : i < w
    · simp [h, hi]
    · have : L.getD (i - K.length) false = false := by simp [List.getD_eq_getElem?_getD, List.getElem?_eq_none (show L.length ≤ i - K.length by omega)]
      rw [this, Bool.and_false]

theorem cnt_list (L : List Bool) : ∀ n, L.length ≤ n → cnt (fun j => L.getD j false) n = L.count true := by
  induction L with
  | nil => intro n _; simp [cnt]
  | cons a L ih =>
    intro n hn
    simp only [List.length_cons] at hn
    obtain ⟨m, rfl⟩ : ∃ m, n = 1 + m := ⟨n - 1, by omega⟩
    rw [cnt_add]
    have e : (fun j => (a :: L).getD (1 + j) false) = fun j => L.getD j false := by
      funext j; rw [Nat.add_comm]; simp
    rw [e, ih m (by omega)]
    simp only [cnt, List.range_one, List.count_cons]
    cases a <;> simp; omega

theorem Bits.popcnt {w : Nat} {x : BitVec w} {L : List Bool} (h : Bits x L) (hl : L.length ≤ w) : popcnt x = L.count true := by
  rw [Dec.Simd.popcnt_eq, show x.getLsbD = fun j => L.getD j false from funext h, cnt_list L w hl]

theorem Bits.shr {w : Nat} {x : BitVec w} {L : List Bool} (h : Bits x L) (k : Nat) : Bits (x >>> k) (L.drop k) := by
  intro i
  rw [BitVec.getLsbD_ushiftRight, h]
  simp [List.getD_eq_getElem?_getD]

theorem Bits.zero {w : Nat} {x : BitVec w} {L : List Bool} (h : Bits x L) (k : Nat) : (x >>> k).getLsbD 0 = L.getD k false := by
  rw [h.shr k 0]
  simp [List.getD_eq_getElem?_getD]

end Yenc.Enc.Simd
