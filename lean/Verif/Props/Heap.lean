import Verif.Lemmas.Heap
import Verif.Props.Encode
import Verif.Props.Decode
/-!
Property C84: the memory of results is released exactly once.
-/
namespace Yenc.Props
open Heap

variable {e : Enc.Impl} {d : Dec.Impl} {p : Policy}

/-- The blocks that Buffers hold: one of exactly the Buffer's length each (an empty Buffer may have none). -/
def blocksOf : List Ext → List (Nat × Nat)
  | [] => []
  | b :: bs =>
    match b.ptr with
    | none => blocksOf bs
    | some q => (q, b.data.length) :: blocksOf bs

theorem blocksOf_eq (bs : List Ext) : blocksOf bs = owned bs := by
  induction bs with
  | nil => rfl
  | cons b bs ih =>
    unfold blocksOf
    rcases hq : b.ptr with _ | q
    · simp only; rw [ih]; simp [owned, hq]
    · simp only; rw [ih]; simp [owned, hq]

/-- The C library never refuses. -/
def Generous (p : Policy) : Prop := (∀ h n, p.grant h n = true) ∧ ∀ h q n, p.regrant h q n = true

/-- The call is not undefined for reasons other than memory: the arguments have the types that the casts expect. -/
def Defined (e : Enc.Impl) (d : Dec.Impl) : Op → Prop
  | .encode args => Enc.apiEncode e args ≠ .ub
  | .encodeIncr args => Enc.apiEncodeIncr e args ≠ .ub
  | .decode args => Dec.apiDecode d args ≠ .ub
  | .decodeIncr src st dest => Dec.decodeIncr d src st dest ≠ .ub
  | .collect _ => True

/-- The heap of a running process: names of blocks are distinct and have been used. -/
def Heap.Ok (h : Heap.Heap) : Prop := (h.live.map (·.1)).Nodup ∧ ∀ b ∈ h.live, b.1 < h.fresh

/-! ### Single calls -/

/-- C84: as long as the C library does not refuse memory, the calls return, throw and are undefined as the model without a heap says. -/
theorem C84_calls (hp : Generous p) (s : St) (hs : Heap.Ok s.heap) :
    (∀ args, (∃ r s', Enc.apiEncode e args = .ret r ∧ Heap.encode p e args s = some (s', .ok r)) ∨
      (∃ m, Enc.apiEncode e args = .throw m ∧ Heap.encode p e args s = some (s, .error m)) ∨ (Enc.apiEncode e args = .ub ∧ Heap.encode p e args s = none)) ∧
    (∀ args, (∃ r s', Enc.apiEncodeIncr e args = .ret r ∧ Heap.encodeIncr p e args s = some (s', .ok r)) ∨
      (∃ m, Enc.apiEncodeIncr e args = .throw m ∧ Heap.encodeIncr p e args s = some (s, .error m)) ∨ (Enc.apiEncodeIncr e args = .ub ∧ Heap.encodeIncr p e args s = none)) ∧
    (∀ args, (∃ r s', Dec.apiDecode d args = .ret r ∧ Heap.decode p d args s = some (s', .ok r)) ∨
      (∃ m, Dec.apiDecode d args = .throw m ∧ Heap.decode p d args s = some (s, .error m)) ∨ (Dec.apiDecode d args = .ub ∧ Heap.decode p d args s = none)) ∧
    (∀ src st dest, (∃ r s', Dec.decodeIncr d src st dest = .ret r ∧ Heap.decodeIncr p d src st dest s = some (s', .ok r)) ∨
      (∃ m, Dec.decodeIncr d src st dest = .throw m ∧ Heap.decodeIncr p d src st dest s = some (s, .error m)) ∨
      (Dec.decodeIncr d src st dest = .ub ∧ Heap.decodeIncr p d src st dest s = none)) :=
  ⟨fun args => (encode_shape p e args s).generous hp.1 hp.2 hs.2, fun args => (encodeIncr_shape p e args s).generous hp.1 hp.2 hs.2,
    fun args => (decode_shape p d args s).generous hp.1 hp.2 hs.2, fun src st dest => (decodeIncr_shape p d src st dest s).generous hp.1 hp.2 hs.2⟩

theorem step_some (hp : Generous p) {base : List (Nat × Nat)} {s : St} (hi : Inv base s) (op : Op) (hd : Defined e d op) : ∃ s', step p e d s op = some s' := by
  have hs : Heap.Ok s.heap := ⟨hi.nodup, hi.fresh⟩
  have h := C84_calls (e := e) (d := d) hp s hs
  cases op with
  | encode args =>
    rcases h.1 args with ⟨r, s', h1, h2⟩ | ⟨m, h1, h2⟩ | ⟨h1, h2⟩
    · exact ⟨s', by simp only [step, h2, Option.map]⟩
    · exact ⟨s, by simp only [step, h2, Option.map]⟩
    · exact absurd h1 hd
  | encodeIncr args =>
    rcases h.2.1 args with ⟨r, s', h1, h2⟩ | ⟨m, h1, h2⟩ | ⟨h1, h2⟩
    · exact ⟨s', by simp only [step, h2, Option.map]⟩
    · exact ⟨s, by simp only [step, h2, Option.map]⟩
    · exact absurd h1 hd
  | decode args =>
    rcases h.2.2.1 args with ⟨r, s', h1, h2⟩ | ⟨m, h1, h2⟩ | ⟨h1, h2⟩
    · exact ⟨s', by simp only [step, h2, Option.map]⟩
    · exact ⟨s, by simp only [step, h2, Option.map]⟩
    · exact absurd h1 hd
  | decodeIncr src st dest =>
    rcases h.2.2.2 src st dest with ⟨r, s', h1, h2⟩ | ⟨m, h1, h2⟩ | ⟨h1, h2⟩
    · exact ⟨s', by simp only [step, h2, Option.map]⟩
    · exact ⟨s, by simp only [step, h2, Option.map]⟩
    · exact absurd h1 hd
  | collect i =>
    obtain ⟨s', h1, -⟩ := collect_inv hi i
    exact ⟨s', h1⟩

/-- What a step does to the Buffers: nothing, a new one, or one less. -/
theorem step_inv (hz : ∀ h q, p.regrant h q 0 = true) {base : List (Nat × Nat)} {s s' : St} (hi : Inv base s) (op : Op) (hs : step p e d s op = some s') :
    Inv base s' ∧ (s' = s ∨ (∃ b, s'.buffers = b :: s.buffers ∧ s'.reported = s.reported + b.data.length) ∨
      ∃ i b, s.buffers[i]? = some b ∧ s'.buffers = s.buffers.eraseIdx i ∧ s'.reported = s.reported - toInt32 b.data.length) := by
  have fin : ∀ {α : Type} {dat : α → List Byte} {O : Outcome α} {C : Res α} (_ : Shape p s dat O C) (_ : C.map (·.1) = some s'),
      Inv base s' ∧ (s' = s ∨ (∃ b, s'.buffers = b :: s.buffers ∧ s'.reported = s.reported + b.data.length) ∨
      ∃ i b, s.buffers[i]? = some b ∧ s'.buffers = s.buffers.eraseIdx i ∧ s'.reported = s.reported - toInt32 b.data.length) := by
    intro α dat O C h1 h2
    rcases hC : C with _ | ⟨t, r⟩
    · rw [hC] at h2; cases h2
    · rw [hC] at h2; cases h2
      obtain ⟨h3, h4⟩ := h1.inv hz hi hC
      refine ⟨h3, ?_⟩
      rcases h4 with h4 | ⟨a, q, -, h5, h6⟩
      · exact .inl h4
      · exact .inr (.inl ⟨_, h5, h6⟩)
  cases op with
  | encode args => exact fin (encode_shape p e args s) hs
  | encodeIncr args => exact fin (encodeIncr_shape p e args s) hs
  | decode args => exact fin (decode_shape p d args s) hs
  | decodeIncr src st dest => exact fin (decodeIncr_shape p d src st dest s) hs
  | collect i =>
    obtain ⟨t, h1, h2, h3⟩ := collect_inv hi i
    have : t = s' := by simp only [step] at hs; rw [h1] at hs; cases hs; rfl
    subst this
    refine ⟨h2, ?_⟩
    unfold Heap.collect at h1
    rcases hb : s.buffers[i]? with _ | b
    · rw [hb] at h1; cases h1; exact .inl rfl
    · rw [hb] at h1
      simp only at h1
      rcases hf : free s.heap b.ptr with _ | h
      · rw [hf] at h1; cases h1
      · rw [hf] at h1; cases h1
        exact .inr (.inr ⟨i, b, hb, rfl, rfl⟩)

theorem run_inv (hz : ∀ h q, p.regrant h q 0 = true) {base : List (Nat × Nat)} (ops : List Op) {s s' : St} (hi : Inv base s) (hs : run p e d s ops = some s') : Inv base s' := by
  induction ops generalizing s with
  | nil => cases hs; exact hi
  | cons op ops ih =>
    unfold run at hs
    rcases h : step p e d s op with _ | t
    · rw [h] at hs; cases hs
    · rw [h] at hs
      exact ih (step_inv hz hi op h).1 hs

theorem inv_start {h : Heap.Heap} (hh : Heap.Ok h) : Inv h.live ⟨h, [], 0⟩ := ⟨by simp [owned], hh.1, hh.2, by simp⟩

/-! ### Histories -/

/-- C84: in every history of calls and collections, if memory is never refused and the arguments are of the right types, nothing undefined happens; in particular `free` and `realloc` are
only given blocks that are live. -/
theorem C84_no_ub (hp : Generous p) (h : Heap.Heap) (hh : Heap.Ok h) (ops : List Op) (hd : ∀ op ∈ ops, Defined e d op) : ∃ s, run p e d ⟨h, [], 0⟩ ops = some s := by
  suffices H : ∀ s, Inv h.live s → ∃ s', run p e d s ops = some s' from H _ (inv_start hh)
  induction ops with
  | nil => exact fun s _ => ⟨s, rfl⟩
  | cons op ops ih =>
    intro s hi
    obtain ⟨t, ht⟩ := step_some hp hi op (hd op List.mem_cons_self)
    have hi' := (step_inv (fun h q => hp.2 h q 0) hi op ht).1
    obtain ⟨s', hs'⟩ := ih (fun o ho => hd o (List.mem_cons_of_mem _ ho)) t hi'
    exact ⟨s', by simp only [run, ht, Option.bind]; exact hs'⟩

/-- C84: after every history the blocks in use are those in use before and those of the Buffers not yet collected, each of exactly the length of its Buffer, and no two the same.
This holds whether memory is refused or not, as long as the history has not become undefined and `realloc` does not refuse to shrink a block to nothing. -/
theorem C84_no_leak (hz : ∀ h q, p.regrant h q 0 = true) (h : Heap.Heap) (hh : Heap.Ok h) (ops : List Op) (s : St) (hs : run p e d ⟨h, [], 0⟩ ops = some s) :
    s.heap.live.Perm (h.live ++ blocksOf s.buffers) ∧ (s.heap.live.map (·.1)).Nodup ∧ ∀ b ∈ s.buffers, b.ptr = none → b.data = [] := by
  have hi := run_inv hz ops (inv_start hh) hs
  rw [blocksOf_eq]
  exact ⟨hi.perm, hi.nodup, hi.null⟩

/-- C84: when all Buffers have been collected, everything has been given back. -/
theorem C84_all_released (hz : ∀ h q, p.regrant h q 0 = true) (h : Heap.Heap) (hh : Heap.Ok h) (ops : List Op) (s : St) (hs : run p e d ⟨h, [], 0⟩ ops = some s)
    (hb : s.buffers = []) : s.heap.live.Perm h.live := by
  have := (C84_no_leak hz h hh ops s hs).1
  rw [hb] at this
  simpa [blocksOf] using this

/-- C84: a call that throws takes no memory, whatever the C library does. -/
theorem C84_throw_unchanged (s s' : St) (m : String) :
    (∀ args, Heap.encode p e args s = some (s', .error m) → s' = s) ∧ (∀ args, Heap.encodeIncr p e args s = some (s', .error m) → s' = s) ∧
    (∀ args, Heap.decode p d args s = some (s', .error m) → s' = s) ∧ (∀ src st dest, Heap.decodeIncr p d src st dest s = some (s', .error m) → s' = s) := by
  have fin : ∀ {α : Type} {dat : α → List Byte} {O : Outcome α} {C : Res α} (_ : Shape p s dat O C) (_ : C = some (s', .error m)), s' = s := by
    intro α dat O C h1 h2
    cases h1 with
    | ub => cases h2
    | thr => cases h2; rfl
    | plain => cases h2
    | alloc size touched r _ => rcases h : produce p s size touched (dat r) with _ | t <;> rw [h] at h2 <;> cases h2
    | over size touched r _ => rcases h : produce p s size touched (dat r) with _ | t <;> rw [h] at h2 <;> cases h2
  exact ⟨fun a => fin (encode_shape p e a s), fun a => fin (encodeIncr_shape p e a s), fun a => fin (decode_shape p d a s), fun a b c => fin (decodeIncr_shape p d a b c s)⟩

/-- C84, false where memory is refused: the result of `malloc` is not checked (yencode.cc:132, 221, 250, 312), so a refusal is undefined behaviour, for every coder and non-empty data. -/
theorem C84_refused_false (he : Enc.IsImpl e) (hd : Dec.IsImpl d) (data : List Byte) (hne : data ≠ []) (s : St) (hs : Heap.Ok s.heap) (hp : ∀ n, p.grant s.heap n = false) :
    (∃ out, Enc.apiEncode e [.buffer data] = .ret out) ∧ Heap.encode p e [.buffer data] s = none ∧
    (∃ out, Dec.apiDecode d [.buffer data] = .ret out) ∧ Heap.decode p d [.buffer data] s = none := by
  have ea := (C13_arguments he data hne 128 0 (by decide) (by decide)).2.2.2.2.2
  have e1 : ∃ out, Enc.apiEncode e [.buffer data] = .ret out := by rw [ea.1]; exact ea.2 (by decide) (by decide) (by decide) (by decide)
  have d1 : ∃ out, Dec.apiDecode d [.buffer data] = .ret out := by
    have e2 : Dec.apiDecode d [.buffer data] = Dec.apiDecode d [.buffer data, .bool false] := by
      simp only [Dec.apiDecode, hne, if_false, Dec.rawArg, argToBool]
    rw [e2]
    rcases Dec.apiDecode_any hd.correct false data with h | h
    · exact ⟨_, h⟩
    · exact ⟨_, h.2.2⟩
  refine ⟨e1, ?_, d1, ?_⟩
  · simp only [Heap.encode, hne, if_false, Enc.lineArgs]
    rcases e 128 0 data true with _ | ⟨w, c⟩
    · rfl
    · simp only [produce_none hs.2 _ (.inr (hp _)), Option.map]
  · simp only [Heap.decode, hne, if_false, Dec.rawArg]
    rcases (if false = true then d.raw data else d.plain data) with _ | out
    · rfl
    · simp only [produce_none hs.2 _ (.inr (hp _)), Option.map]

/-- C84: the hypothesis of `C84_no_leak` is needed: `realloc` to nothing that is refused leaves the block behind for ever (yencode.cc:252 forgets the old pointer). -/
theorem C84_refused_shrink_false :
    ∃ (p : Policy) (s : St), run p Enc.encodeGeneric Dec.generic ⟨⟨[], 0⟩, [], 0⟩ [.decode [.buffer [13#8, 10#8]], .collect 0] = some s ∧ s.buffers = [] ∧ s.heap.live = [(0, 2)] :=
  ⟨⟨fun _ _ => true, fun _ _ _ => false, fun _ _ _ => false, fun _ => false⟩, ⟨⟨[(0, 2)], 1⟩, [], 0⟩, by decide +kernel, rfl, rfl⟩

/-- C84: the model notices misuse: releasing or resizing a block that is not live, so also a second time, is undefined, and so is a coder that writes to it or past its end. -/
theorem C84_detects (h : Heap.Heap) (q n : Nat) :
    (Heap.free h (some q) = none ↔ q ∉ h.live.map (·.1)) ∧
    (Heap.realloc p h (some q) n = none ↔ q ∉ h.live.map (·.1)) ∧
    (∀ h', Heap.free h (some q) = some h' → Heap.free h' (some q) = none) ∧
    (Heap.usable h (some q) n = true ↔ ∃ b ∈ h.live, b.1 = q ∧ n ≤ b.2) ∧ Heap.usable h none n = false := by
  have hm : h.live.any (·.1 == q) = true ↔ q ∈ h.live.map (·.1) := by simp
  refine ⟨?_, ?_, ?_, by simp [Heap.usable], rfl⟩
  · unfold Heap.free
    by_cases hq : h.live.any (·.1 == q) = true
    · simp only [hq, if_true]; simp [hm.1 hq]
    · simp only [hq]; simpa using fun hc => hq (hm.2 hc)
  · unfold Heap.realloc
    by_cases hq : h.live.any (·.1 == q) = true
    · simp only [hq, if_true]
      have := hm.1 hq
      split
      · simpa using this
      · split <;> simpa using this
    · simp only [hq]; simpa using fun hc => hq (hm.2 hc)
  · intro h' hf
    have e : Heap.free h (some q) = if h.live.any (·.1 == q) then some { h with live := h.live.filter (·.1 != q) } else none := rfl
    rw [e] at hf
    split at hf
    · cases hf
      show (if (h.live.filter (·.1 != q)).any (·.1 == q) then _ else none) = none
      rw [if_neg (by simp)]
    · cases hf

/-- The sum of the lengths of the Buffers. -/
def totalLength : List Ext → Int
  | [] => 0
  | b :: bs => b.data.length + totalLength bs

theorem totalLength_eraseIdx (bs : List Ext) (i : Nat) (b : Ext) (h : bs[i]? = some b) : totalLength (bs.eraseIdx i) = totalLength bs - b.data.length := by
  induction bs generalizing i with
  | nil => cases h
  | cons a bs ih =>
    cases i with
    | zero => cases h; simp only [List.eraseIdx_cons_zero, totalLength]; omega
    | succ i => simp only [List.eraseIdx_cons_succ, totalLength]; rw [ih i (by simpa using h)]; omega

/-- C84, Node.js 0.10: as long as Buffers are shorter than 2 GiB, what V8 has been told about external memory is the sum of the lengths of the Buffers it has not yet collected. -/
theorem C84_reported (hz : ∀ h q, p.regrant h q 0 = true) (h : Heap.Heap) (hh : Heap.Ok h) (ops : List Op) (s : St) (hs : run p e d ⟨h, [], 0⟩ ops = some s)
    (hsmall : ∀ k s', run p e d ⟨h, [], 0⟩ (ops.take k) = some s' → ∀ b ∈ s'.buffers, b.data.length < 2 ^ 31) : s.reported = totalLength s.buffers := by
  suffices H : ∀ (ops : List Op) (t : St), Inv h.live t → t.reported = totalLength t.buffers →
      (∀ k s', run p e d t (ops.take k) = some s' → ∀ b ∈ s'.buffers, b.data.length < 2 ^ 31) → run p e d t ops = some s → s.reported = totalLength s.buffers from
    H ops _ (inv_start hh) rfl hsmall hs
  intro ops
  induction ops with
  | nil => intro t _ ht _ hs; cases hs; exact ht
  | cons op ops ih =>
    intro t hi ht hk hs
    rcases hst : step p e d t op with _ | t'
    · simp only [run, hst] at hs; cases hs
    have hrun : run p e d t' ops = some s := by simpa only [run, hst, Option.bind] using hs
    obtain ⟨hi', hc⟩ := step_inv hz hi op hst
    have hk0 := hk 0 t rfl
    refine ih t' hi' ?_ (fun k s' hs' => hk (k + 1) s' (by simp only [List.take_succ_cons, run, hst, Option.bind]; exact hs')) hrun
    rcases hc with rfl | ⟨b, h1, h2⟩ | ⟨i, b, h1, h2, h3⟩
    · exact ht
    · rw [h1, h2, ht, totalLength]; omega
    · rw [h2, h3, totalLength_eraseIdx _ _ _ h1, ht]
      have := hk0 b (List.mem_of_getElem? h1)
      rw [toInt32_of_range _ (by omega) (by omega)]

/-! ### A concrete case -/

/-- A C library that grants everything, moves blocks of odd names and frees on `realloc(p, 0)`. -/
def someLibc : Policy := ⟨fun _ _ => true, fun _ _ _ => true, fun _ q _ => q % 2 == 1, fun _ => true⟩

/-- Two other blocks are in use; three calls, one of them with an empty result and one that throws, and a collection: the state that results has one Buffer left. -/
example : Generous someLibc ∧ Heap.Ok ⟨[(3, 10), (0, 7)], 4⟩ ∧
    (∀ op ∈ [Op.encode [.buffer [65#8, 65#8]], .decode [.buffer [13#8, 10#8]], .decode [.buffer [107#8]], .encode [.other], .collect 2], Defined Enc.encodeGeneric Dec.generic op) ∧
    ∃ s, run someLibc Enc.encodeGeneric Dec.generic ⟨⟨[(3, 10), (0, 7)], 4⟩, [], 0⟩
      [.encode [.buffer [65#8, 65#8]], .decode [.buffer [13#8, 10#8]], .decode [.buffer [107#8]], .encode [.other], .collect 2] = some s ∧
      s.heap.live = [(8, 1), (3, 10), (0, 7)] ∧ s.buffers = [⟨some 8, [65#8]⟩, ⟨none, []⟩] ∧ s.reported = 1 := by
  refine ⟨⟨fun _ _ => rfl, fun _ _ _ => rfl⟩, ⟨by decide, by decide⟩, ?_, ⟨⟨[(8, 1), (3, 10), (0, 7)], 9⟩, [⟨some 8, [65#8]⟩, ⟨none, []⟩], 1⟩, by decide +kernel, rfl, rfl, rfl⟩
  intro op hop
  simp only [List.mem_cons, List.not_mem_nil, or_false] at hop
  rcases hop with rfl | rfl | rfl | rfl | rfl
  · show Enc.apiEncode Enc.encodeGeneric [.buffer [65#8, 65#8]] ≠ .ub
    decide +kernel
  · show Dec.apiDecode Dec.generic [.buffer [13#8, 10#8]] ≠ .ub
    decide +kernel
  · show Dec.apiDecode Dec.generic [.buffer [107#8]] ≠ .ub
    decide +kernel
  · show Enc.apiEncode Enc.encodeGeneric [.other] ≠ .ub
    decide +kernel
  · trivial

end Yenc.Props
