import Verif.Model.Heap
import Mathlib.Data.List.Perm.Basic
import Mathlib.Data.List.Nodup
import Mathlib.Tactic.Basic
/-! Lemmas about `Model/Heap.lean`. -/
namespace Yenc.Heap

/-- The blocks that belong to Buffers. -/
def owned (bs : List Ext) : List (Nat × Nat) := bs.filterMap fun b => b.ptr.map fun q => (q, b.data.length)

structure Inv (base : List (Nat × Nat)) (s : St) : Prop where
  perm : s.heap.live.Perm (base ++ owned s.buffers)
  nodup : (s.heap.live.map (·.1)).Nodup
  fresh : ∀ b ∈ s.heap.live, b.1 < s.heap.fresh
  null : ∀ b ∈ s.buffers, b.ptr = none → b.data = []

theorem filter_fresh {h : Heap} (hf : ∀ b ∈ h.live, b.1 < h.fresh) : h.live.filter (·.1 != h.fresh) = h.live := by
  rw [List.filter_eq_self]
  intro b hb
  have := hf b hb
  simp only [bne_iff_ne]; omega

/-- The heap after a granted `malloc`. -/
def grown (h : Heap) (size : Nat) : Heap := ⟨(h.fresh, size) :: h.live, h.fresh + 1⟩

theorem realloc_grown (p : Policy) {h : Heap} (hf : ∀ b ∈ h.live, b.1 < h.fresh) (size n : Nat) :
    realloc p (grown h size) (some h.fresh) n =
      if n = 0 ∧ p.zeroFrees (grown h size) then some (⟨h.live, h.fresh + 1⟩, none)
      else if p.regrant (grown h size) h.fresh n then
        some (⟨((if p.moves (grown h size) h.fresh n then h.fresh + 1 else h.fresh), n) :: h.live, h.fresh + 2⟩, some (if p.moves (grown h size) h.fresh n then h.fresh + 1 else h.fresh))
      else some (grown h size, none) := by
  have hl : (grown h size).live.any (·.1 == h.fresh) = true := by simp [grown]
  have hfil : (grown h size).live.filter (·.1 != h.fresh) = h.live := by
    rw [grown, List.filter_cons_of_neg (by simp), filter_fresh hf]
  simp only [realloc]
  rw [if_pos hl, hfil]
  rfl

/-- What the steps of `produce` leave behind. -/
theorem produce_inv {p : Policy} (hz : ∀ h q, p.regrant h q 0 = true) {base : List (Nat × Nat)} {s s' : St} {size touched : Nat} {out : List Byte} (hi : Inv base s)
    (hs : produce p s size touched out = some s') : Inv base s' ∧ (∃ q, s'.buffers = ⟨q, out⟩ :: s.buffers) ∧ s'.reported = s.reported + out.length := by
  unfold produce malloc at hs
  by_cases hg : p.grant s.heap size = true
  swap
  · rw [if_neg hg] at hs
    simp [usable] at hs
  rw [if_pos hg] at hs
  change (if usable (grown s.heap size) (some s.heap.fresh) touched = true then
    match realloc p (grown s.heap size) (some s.heap.fresh) out.length with
    | none => none
    | some (h, q) => if q = none ∧ out ≠ [] then none else some ⟨h, ⟨q, out⟩ :: s.buffers, s.reported + out.length⟩
  else none) = some s' at hs
  by_cases hu : usable (grown s.heap size) (some s.heap.fresh) touched = true
  swap
  · rw [if_neg hu] at hs; cases hs
  rw [if_pos hu, realloc_grown p hi.fresh] at hs
  by_cases h0 : out.length = 0 ∧ p.zeroFrees (grown s.heap size) = true
  · have ho : out = [] := List.length_eq_zero_iff.mp h0.1
    subst ho
    rw [if_pos h0] at hs
    simp only [ne_eq, not_true_eq_false, and_false, if_false, Option.some.injEq] at hs
    subst hs
    refine ⟨⟨hi.perm, hi.nodup, fun b hb => ?_, ?_⟩, ⟨none, rfl⟩, rfl⟩
    · have := hi.fresh b hb
      show b.1 < s.heap.fresh + 1
      omega
    · intro b hb hb'
      rcases List.mem_cons.mp hb with rfl | hb
      · rfl
      · exact hi.null b hb hb'
  rw [if_neg h0] at hs
  by_cases hr : p.regrant (grown s.heap size) s.heap.fresh out.length = true
  · rw [if_pos hr] at hs
    obtain ⟨q, hq⟩ : ∃ q, q = if p.moves (grown s.heap size) s.heap.fresh out.length = true then s.heap.fresh + 1 else s.heap.fresh := ⟨_, rfl⟩
    rw [← hq] at hs
    have hq1 : s.heap.fresh ≤ q ∧ q < s.heap.fresh + 2 := by
      rw [hq]
      by_cases hm : p.moves (grown s.heap size) s.heap.fresh out.length = true
      · rw [if_pos hm]; omega
      · rw [if_neg hm]; omega
    simp only [reduceCtorEq, false_and, if_false, Option.some.injEq] at hs
    subst hs
    refine ⟨⟨?_, ?_, ?_, ?_⟩, ⟨some q, rfl⟩, rfl⟩
    · show ((q, out.length) :: s.heap.live).Perm (base ++ (q, out.length) :: owned s.buffers)
      exact (hi.perm.cons _).trans List.perm_middle.symm
    · show (((q, out.length) :: s.heap.live).map (·.1)).Nodup
      rw [List.map_cons, List.nodup_cons]
      refine ⟨fun hm => ?_, hi.nodup⟩
      obtain ⟨b, hb, hb'⟩ := List.mem_map.mp hm
      have := hi.fresh b hb
      simp only at hb'
      omega
    · intro b hb
      show b.1 < s.heap.fresh + 2
      rcases List.mem_cons.mp hb with rfl | hb
      · exact hq1.2
      · have := hi.fresh b hb; omega
    · intro b hb hb'
      rcases List.mem_cons.mp hb with rfl | hb
      · cases hb'
      · exact hi.null b hb hb'
  · rw [if_neg hr] at hs
    by_cases ho : out = []
    · subst ho; exact absurd (hz _ _) hr
    · simp only [true_and, ne_eq, ho, not_false_eq_true, if_true] at hs
      cases hs

/-- With a C library that grants everything `produce` succeeds. -/
theorem produce_some {p : Policy} (hg : ∀ h n, p.grant h n = true) (hr : ∀ h q n, p.regrant h q n = true) {s : St} (hf : ∀ b ∈ s.heap.live, b.1 < s.heap.fresh)
    {size touched : Nat} (ht : touched ≤ size) (out : List Byte) : ∃ s', produce p s size touched out = some s' := by
  unfold produce malloc
  rw [if_pos (hg _ _)]
  change ∃ s' : St, (if usable (grown s.heap size) (some s.heap.fresh) touched = true then
    match realloc p (grown s.heap size) (some s.heap.fresh) out.length with
    | none => none
    | some (h, q) => if q = none ∧ out ≠ [] then none else some (St.mk h (⟨q, out⟩ :: s.buffers) (s.reported + out.length))
  else none) = some s'
  rw [if_pos (by simp [usable, grown, ht]), realloc_grown p hf]
  by_cases h0 : out.length = 0 ∧ p.zeroFrees (grown s.heap size) = true
  · have ho : out = [] := List.length_eq_zero_iff.mp h0.1
    rw [if_pos h0]
    simp only [ho, ne_eq, not_true_eq_false, and_false, if_false]
    exact ⟨_, rfl⟩
  · rw [if_neg h0, if_pos (hr _ _ _)]
    simp only [reduceCtorEq, false_and, if_false]
    exact ⟨_, rfl⟩

/-- `produce` with too small a block, or with a refused one, is undefined. -/
theorem produce_none {p : Policy} {s : St} (hf : ∀ b ∈ s.heap.live, b.1 < s.heap.fresh) {size touched : Nat} (out : List Byte) (h : ¬ touched ≤ size ∨ p.grant s.heap size = false) :
    produce p s size touched out = none := by
  unfold produce malloc
  by_cases hg : p.grant s.heap size = true
  · rw [if_pos hg]
    refine if_neg ?_
    have ht : ¬ touched ≤ size := h.resolve_right (by rw [hg]; decide)
    simp only [usable, List.any_cons, BEq.rfl, Bool.true_and, ht, decide_false, Bool.false_or, List.any_eq_true, not_exists, not_and]
    intro b hb hb'
    have := hf b hb
    simp only [Bool.and_eq_true, beq_iff_eq] at hb'
    omega
  · rw [if_neg hg]
    rfl

theorem collect_inv {base : List (Nat × Nat)} {s : St} (hi : Inv base s) (i : Nat) : ∃ s', collect i s = some s' ∧ Inv base s' ∧ s'.buffers = s.buffers.eraseIdx i := by
  unfold collect
  rcases hb : s.buffers[i]? with _ | b
  · refine ⟨s, rfl, hi, ?_⟩
    rw [List.eraseIdx_of_length_le (by simpa using hb)]
  obtain ⟨hlt, hb'⟩ := List.getElem?_eq_some_iff.mp hb
  have hp : (b :: s.buffers.eraseIdx i).Perm s.buffers := by rw [← hb']; exact List.getElem_cons_eraseIdx_perm hlt
  have hn : ∀ b' ∈ s.buffers.eraseIdx i, b'.ptr = none → b'.data = [] := fun b' h => hi.null b' (List.mem_of_mem_eraseIdx h)
  rcases hq : b.ptr with _ | q
  · refine ⟨⟨s.heap, s.buffers.eraseIdx i, s.reported - toInt32 b.data.length⟩, by simp only [hq, free, Option.map], ⟨?_, hi.nodup, hi.fresh, hn⟩, rfl⟩
    have : (owned (b :: s.buffers.eraseIdx i)) = owned (s.buffers.eraseIdx i) := by simp [owned, hq]
    refine hi.perm.trans (List.Perm.append_left _ ?_)
    show (owned s.buffers).Perm (owned (s.buffers.eraseIdx i))
    rw [← this]
    exact (hp.filterMap _).symm
  · have ho : (owned (b :: s.buffers.eraseIdx i)) = (q, b.data.length) :: owned (s.buffers.eraseIdx i) := by simp [owned, hq]
    have hperm : s.heap.live.Perm ((q, b.data.length) :: (base ++ owned (s.buffers.eraseIdx i))) := by
      refine hi.perm.trans (List.Perm.trans (List.Perm.append_left _ ?_) List.perm_middle)
      rw [← ho]
      exact (hp.filterMap _).symm
    have hnd : ((((q, b.data.length) :: (base ++ owned (s.buffers.eraseIdx i)))).map (·.1)).Nodup := ((hperm.map _).nodup_iff).mp hi.nodup
    rw [List.map_cons, List.nodup_cons] at hnd
    have hlive : s.heap.live.any (·.1 == q) = true := by
      rw [List.any_eq_true]
      exact ⟨_, hperm.mem_iff.mpr List.mem_cons_self, by simp⟩
    refine ⟨⟨{ s.heap with live := s.heap.live.filter (·.1 != q) }, s.buffers.eraseIdx i, s.reported - toInt32 b.data.length⟩, by simp only [hq, free, hlive, if_true, Option.map], ⟨?_, ?_, ?_, hn⟩, rfl⟩
    · refine (hperm.filter _).trans ?_
      rw [List.filter_cons_of_neg (by simp), List.filter_eq_self.mpr]
      intro c hc
      have : c.1 ≠ q := fun h => hnd.1 (List.mem_map.mpr ⟨c, hc, h⟩)
      simpa using this
    · exact (hi.nodup.sublist (List.Sublist.map _ List.filter_sublist))
    · exact fun c hc => hi.fresh c (List.mem_of_mem_filter hc)

/-! ### Calls -/

/-- How a call on the heap is related to the call of `Model/Bindings.lean`: it allocates nothing, or goes through `produce`. -/
inductive Shape (p : Policy) (s : St) {α : Type} (dat : α → List Byte) : Outcome α → Res α → Prop where
  | ub : Shape p s dat .ub none
  | thr (m : String) : Shape p s dat (.throw m) (some (s, .error m))
  | plain (r : α) : Shape p s dat (.ret r) (some (s, .ok r))
  | alloc (size touched : Nat) (r : α) (h : touched ≤ size) : Shape p s dat (.ret r) ((produce p s size touched (dat r)).map fun s' => (s', .ok r))
  | over (size touched : Nat) (r : α) (h : ¬ touched ≤ size) : Shape p s dat .ub ((produce p s size touched (dat r)).map fun s' => (s', .ok r))

theorem encode_shape (p : Policy) (e : Enc.Impl) (args : List Arg) (s : St) : Shape p s id (Enc.apiEncode e args) (encode p e args s) := by
  unfold Enc.apiEncode encode
  rcases args with _ | ⟨_ | _ | _ | _, rest⟩ <;> try exact .thr _
  rename_i src
  simp only
  by_cases hne : src = []
  · rw [if_pos hne, if_pos hne]; exact .plain _
  rw [if_neg hne, if_neg hne]
  rcases Enc.lineArgs rest with ⟨ls, col⟩ | m | _
  · simp only [Outcome.bind, Enc.runInto]
    rcases e ls col src true with _ | ⟨w, c⟩
    · exact .ub
    · simp only
      by_cases h : max w.hi w.out.length ≤ yencMaxSize src.length ls.toNat
      · rw [if_pos (by omega)]; exact .alloc _ _ w.out h
      · rw [if_neg (by omega)]; exact .over _ _ w.out h
  · exact .thr _
  · exact .ub

theorem encodeIncr_shape (p : Policy) (e : Enc.Impl) (args : List Arg) (s : St) : Shape p s Prod.fst (Enc.apiEncodeIncr e args) (encodeIncr p e args s) := by
  have key : ∀ (src : List Byte) (rest : List Arg), Shape p s Prod.fst
      ((Enc.lineArgs rest).bind fun (ls, col) => if src = [] then .ret ([], col) else Enc.runInto e ls col src false (yencMaxSize src.length ls.toNat))
      (match Enc.lineArgs rest with
      | .ub => none
      | .throw m => some (s, .error m)
      | .ret (ls, col) =>
        if src = [] then some (s, .ok ([], col))
        else
          match e ls col src false with
          | none => none
          | some (w, col') =>
            (produce p s (yencMaxSize src.length ls.toNat) (max w.hi w.out.length) w.out).map fun s' => (s', .ok (w.out, col'))) := by
    intro src rest
    rcases Enc.lineArgs rest with ⟨ls, col⟩ | m | _
    · simp only [Outcome.bind]
      by_cases hne : src = []
      · rw [if_pos hne, if_pos hne]; exact .plain _
      rw [if_neg hne, if_neg hne]
      simp only [Enc.runInto]
      rcases e ls col src false with _ | ⟨w, c⟩
      · exact .ub
      · simp only
        by_cases h : max w.hi w.out.length ≤ yencMaxSize src.length ls.toNat
        · rw [if_pos (by omega)]; exact .alloc _ _ (w.out, c) h
        · rw [if_neg (by omega)]; exact .over _ _ (w.out, c) h
    · exact .thr _
    · exact .ub
  rcases args with _ | ⟨_ | _ | _ | _, rest⟩ <;> try exact .thr _
  rename_i src
  rcases rest with _ | ⟨_ | _ | _ | _, rest⟩
  · exact key src []
  · simp only [encodeIncr]
    rcases Enc.apiEncodeIncr e _ with r | m | _
    · exact .plain _
    · exact .thr _
    · exact .ub
  · rename_i n; exact key src (.int n :: rest)
  · rename_i b; exact key src (.bool b :: rest)
  · exact key src (.other :: rest)

theorem decode_shape (p : Policy) (d : Dec.Impl) (args : List Arg) (s : St) : Shape p s id (Dec.apiDecode d args) (decode p d args s) := by
  unfold Dec.apiDecode decode
  rcases args with _ | ⟨_ | _ | _ | _, rest⟩ <;> try exact .thr _
  rename_i src
  simp only
  by_cases hne : src = []
  · rw [if_pos hne, if_pos hne]; exact .plain _
  rw [if_neg hne, if_neg hne]
  rcases Dec.rawArg rest with b | m | _
  · simp only [Outcome.bind, Dec.runPlain]
    rcases (if b = true then d.raw src else d.plain src) with _ | out
    · exact .ub
    · simp only
      by_cases h : max src.length out.length ≤ src.length
      · rw [if_pos (by omega)]; exact .alloc _ _ out h
      · rw [if_neg (by omega)]; exact .over _ _ out h
  · exact .thr _
  · exact .ub

theorem decodeIncr_shape (p : Policy) (d : Dec.Impl) (src : List Byte) (st : Int) (dest : Option Nat) (s : St) :
    Shape p s Dec.IncrRes.output (Dec.decodeIncr d src st dest) (decodeIncr p d src st dest s) := by
  unfold decodeIncr
  rcases dest with _ | n
  · simp only [Dec.decodeIncr]
    rcases Dec.State.ofInt st with _ | st'
    · exact .ub
    simp only [Bool.false_eq_true, if_false]
    rcases d.endRaw st' src with _ | r
    · exact .ub
    · simp only
      by_cases h : max src.length r.out.length ≤ src.length
      · rw [if_pos (by omega)]
        exact .alloc _ _ (⟨toInt32 ↑(src.length - r.rest.length), toInt32 r.out.length, r.out, r.ended.toNat, r.state.toNat⟩ : Dec.IncrRes) h
      · rw [if_neg (by omega)]
        exact .over _ _ (⟨toInt32 ↑(src.length - r.rest.length), toInt32 r.out.length, r.out, r.ended.toNat, r.state.toNat⟩ : Dec.IncrRes) h
  · simp only
    rcases Dec.decodeIncr d src st (some n) with r | m | _
    · exact .plain _
    · exact .thr _
    · exact .ub

/-- With a C library that grants everything the call does what it does in `Model/Bindings.lean`. -/
theorem Shape.generous {p : Policy} {s : St} {α : Type} {dat : α → List Byte} {O : Outcome α} {C : Res α} (h : Shape p s dat O C)
    (hg : ∀ h n, p.grant h n = true) (hr : ∀ h q n, p.regrant h q n = true) (hf : ∀ b ∈ s.heap.live, b.1 < s.heap.fresh) :
    (∃ r s', O = .ret r ∧ C = some (s', .ok r)) ∨ (∃ m, O = .throw m ∧ C = some (s, .error m)) ∨ (O = .ub ∧ C = none) := by
  cases h with
  | ub => exact .inr (.inr ⟨rfl, rfl⟩)
  | thr m => exact .inr (.inl ⟨m, rfl, rfl⟩)
  | plain r => exact .inl ⟨r, s, rfl, rfl⟩
  | alloc size touched r h =>
    obtain ⟨s', hs⟩ := produce_some hg hr hf h (dat r)
    exact .inl ⟨r, s', rfl, by rw [hs]; rfl⟩
  | over size touched r h => exact .inr (.inr ⟨rfl, by rw [produce_none hf _ (.inl h)]; rfl⟩)

/-- What a call leaves behind, whatever the C library grants. -/
theorem Shape.inv {p : Policy} {s : St} {α : Type} {dat : α → List Byte} {O : Outcome α} {C : Res α} (h : Shape p s dat O C) (hz : ∀ h q, p.regrant h q 0 = true)
    {base : List (Nat × Nat)} (hi : Inv base s) {s' : St} {r : Except String α} (hC : C = some (s', r)) :
    Inv base s' ∧ ((s' = s) ∨ ∃ a q, r = .ok a ∧ s'.buffers = ⟨q, dat a⟩ :: s.buffers ∧ s'.reported = s.reported + (dat a).length) := by
  cases h with
  | ub => cases hC
  | thr m => cases hC; exact ⟨hi, .inl rfl⟩
  | plain r => cases hC; exact ⟨hi, .inl rfl⟩
  | alloc size touched r h =>
    rcases hs : produce p s size touched (dat r) with _ | t
    · rw [hs] at hC; cases hC
    · rw [hs] at hC; cases hC
      obtain ⟨h1, ⟨q, h2⟩, h3⟩ := produce_inv hz hi hs
      exact ⟨h1, .inr ⟨r, q, rfl, h2, h3⟩⟩
  | over size touched r h =>
    rw [produce_none hi.fresh _ (.inl h)] at hC
    cases hC

end Yenc.Heap
