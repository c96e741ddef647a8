import Verif.Model.LegacyEffects
import Verif.Props.UndefinedIncr
/-!
Property C109: conversions that run JavaScript in the middle of a call, on Node before version 8.
-/
namespace Yenc.Props
open Yenc

variable {eimpl : Enc.Impl} {impl : Crc.Impl}

namespace Effects
open LegacyEffects

/-- No code can change the length of a Buffer. -/
def SameLengths (s s' : Store) : Prop := ∀ i, (s' i).length = (s i).length

/-- The optional line size and column `rest` convert to the numbers `args`, one after the other, and the Buffers go from `s` to `s'`. Of a negative line size the column is not converted. -/
inductive Converted : List Obj → Store → List Arg → Store → Prop
  | none (s) : Converted [] s [] s
  | one (a : Obj) (s s' : Store) (n : Int) : a.toInteger s = (some n, s') → Converted [a] s [.int n] s'
  | negative (a : Obj) (rest : List Obj) (s s' : Store) (n : Int) : a.toInteger s = (some n, s') → toInt32 n < 0 → Converted (a :: rest) s [.int n] s'
  | two (a b : Obj) (rest : List Obj) (s s' s'' : Store) (n m : Int) :
      a.toInteger s = (some n, s') → ¬ toInt32 n < 0 → b.toInteger s' = (some m, s'') → Converted (a :: b :: rest) s [.int n, .int m] s''

theorem Converted.line {rest : List Obj} {s s' : Store} {args : List Arg} (h : Converted rest s args s') :
    lineArgs rest s = (Enc.lineArgs args).bind fun p => .ret (p, s') := by
  cases h with
  | none => rfl
  | one a s s' n h =>
    simp only [lineArgs, LegacyEffects.argToInt, h, Outcome.bind, Enc.lineArgs, Yenc.argToInt]
    generalize (if toInt32 n = 0 then (128 : Int) else toInt32 n) = z
    by_cases hz : z < 0
    · rw [if_pos hz, if_pos hz]
    · rw [if_neg hz, if_neg hz]
  | negative a rest s s' n h hn =>
    have hz : (if toInt32 n = 0 then (128 : Int) else toInt32 n) < 0 := by rw [if_neg (by omega)]; exact hn
    simp only [lineArgs, LegacyEffects.argToInt, h, Outcome.bind, Enc.lineArgs, Yenc.argToInt, hz, if_true]
  | two a b rest s s1 s' n m h hn h2 =>
    simp only [lineArgs, LegacyEffects.argToInt, h, h2, Outcome.bind, Enc.lineArgs, Yenc.argToInt]
    generalize (if toInt32 n = 0 then (128 : Int) else toInt32 n) = z
    by_cases hz : z < 0
    · rw [if_pos hz, if_pos hz]
    · rw [if_neg hz, if_neg hz]
      by_cases hc : toInt32 m > z ∨ toInt32 m < 0
      · rw [if_pos hc, if_pos hc]
      · rw [if_neg hc, if_neg hc]

theorem Converted.ints {rest : List Obj} {s s' : Store} {args : List Arg} (h : Converted rest s args s') : ∀ a ∈ args, ∃ n, a = .int n := by
  cases h with
  | none => intro a h; cases h
  | one a s s' n h => simp
  | negative a rest s s' n h hn => simp
  | two a b rest s s1 s' n m h hn h2 => simp

theorem read_eq {s s' : Store} (h : SameLengths s s') (i : Nat) : readData s' i (s i).length = .ret (s' i) := by
  unfold readData
  rw [if_pos (by rw [h i]), ← h i, List.take_length]

theorem nil_iff {s s' : Store} (h : SameLengths s s') (i : Nat) : s' i = [] ↔ (s i).length = 0 := by
  rw [← h i, List.length_eq_zero_iff]

/-- Other data than on entry: a line size whose conversion changes Buffer 0 to `d` and is `n`. -/
def changes (d : List Byte) (n : Int) : Obj := ⟨none, fun s => (some n, fun i => if i = 0 then d else s i)⟩

/-- Buffer `i`. -/
def buffer (i : Nat) : Obj := ⟨some i, fun s => (some 0, s)⟩

end Effects
open LegacyEffects Effects

/-- C109: `encode` and `encodeTo` do what they do, on later versions, with the converted numbers and the Buffers as the conversions leave them. -/
theorem C109_encode {rest : List Obj} {s s' : Store} {args : List Arg} (h : Converted rest s args s') (hl : SameLengths s s') (v w : Obj) (i j : Nat)
    (hv : v.buf = some i) (hw : w.buf = some j) (hne : s i ≠ []) :
    encode eimpl (v :: rest) s = (Enc.apiEncode eimpl (.buffer (s' i) :: args)).bind (fun r => .ret (r, s')) ∧
    encodeTo eimpl (v :: w :: rest) s = (Enc.apiEncodeTo eimpl (.buffer (s' i) :: .buffer (s' j) :: args)).bind (fun r => .ret (r, s')) := by
  have h0 : ¬ (s i).length = 0 := by rw [List.length_eq_zero_iff]; exact hne
  have h1 : ¬ s' i = [] := by rw [nil_iff hl]; exact h0
  constructor
  · simp only [encode, hv, h0, if_false, h.line, Enc.apiEncode, h1]
    cases Enc.lineArgs args with
    | ub => rfl
    | throw m => rfl
    | ret p =>
      simp only [Outcome.bind, read_eq hl, hl i]
      cases Enc.runInto eimpl p.1 p.2 (s' i) true (yencMaxSize (s i).length p.1.toNat) <;> rfl
  · simp only [encodeTo, hv, hw, h0, if_false, h.line, Enc.apiEncodeTo, h1]
    cases Enc.lineArgs args with
    | ub => rfl
    | throw m => rfl
    | ret p =>
      simp only [Outcome.bind, read_eq hl, hl i]
      split
      · rfl
      · cases Enc.runInto eimpl p.1 p.2 (s' i) true (s' j).length <;> rfl

-- a line size that, when converted, overwrites the data
example (s : Store) (h : s 0 = [1#8]) := (C109_encode (eimpl := eimpl) (.one (changes [2#8] 64) s _ 64 rfl)
  (by intro i; by_cases e : i = 0 <;> simp [e, h]) (buffer 0) (buffer 1) 0 1 rfl rfl (by simp [h])).1

/-- C109: so does `encodeIncr`, with an output and without. -/
theorem C109_incr {rest : List Obj} {s s' : Store} {args : List Arg} (h : Converted rest s args s') (hl : SameLengths s s') (v w : Obj) (i j : Nat)
    (hv : v.buf = some i) (hw : w.buf = some j) :
    encodeIncr eimpl (v :: w :: rest) s = (Enc.apiEncodeIncr eimpl (.buffer (s' i) :: .buffer (s' j) :: args)).bind (fun r => .ret (r, s')) ∧
    ((∀ a t, rest = a :: t → a.buf = none) →
      encodeIncr eimpl (v :: rest) s = (Enc.apiEncodeIncr eimpl (.buffer (s' i) :: args)).bind (fun r => .ret (r, s'))) := by
  have hnil := nil_iff hl i
  constructor
  · simp only [encodeIncr, hv, hw, h.line, Enc.apiEncodeIncr, hl i, hl j, hnil]
    split
    · rfl
    · cases Enc.lineArgs args with
      | ub => rfl
      | throw m => rfl
      | ret p =>
        simp only [Outcome.bind, read_eq hl, hl j]
        split
        · rfl
        · cases Enc.runInto eimpl p.1 p.2 (s' i) false (s j).length <;> rfl
  · intro hb
    have hx : Enc.apiEncodeIncr eimpl (.buffer (s' i) :: args) = (Enc.lineArgs args).bind fun (ls, col) =>
        if s' i = [] then .ret ([], col) else Enc.runInto eimpl ls col (s' i) false (yencMaxSize (s' i).length ls.toNat) := by
      cases h <;> rfl
    have hy : encodeIncr eimpl (v :: rest) s = (lineArgs rest s).bind fun ((ls, col), s1) =>
        if (s i).length = 0 then .ret (([], col), s1)
        else (readData s1 i (s i).length).bind fun src => (Enc.runInto eimpl ls col src false (yencMaxSize (s i).length ls.toNat)).bind fun r => .ret (r, s1) := by
      cases rest with
      | nil => simp only [encodeIncr, hv]
      | cons a t => simp only [encodeIncr, hv, hb a t rfl]
    rw [hx, hy, h.line]
    cases Enc.lineArgs args with
    | ub => rfl
    | throw m => rfl
    | ret p =>
      simp only [Outcome.bind, read_eq hl, hl i, hnil]
      split
      · rfl
      · cases Enc.runInto eimpl p.1 p.2 (s' i) false (yencMaxSize (s i).length p.1.toNat) <;> rfl

-- a column that, when converted, overwrites the data
example (s : Store) (h : s 0 = [1#8]) := (C109_incr (eimpl := eimpl) (.two ⟨none, fun s => (some 64, s)⟩ (changes [2#8] 3) [] s s _ 64 3 rfl (by decide) rfl)
  (by intro i; by_cases e : i = 0 <;> simp [e, h]) (buffer 0) (buffer 1) 0 1 rfl rfl).2 (by rintro a t ⟨⟩; rfl)

/-- C109: for no data `encode` and `encodeTo` run no conversion, whatever else is passed. -/
theorem C109_empty (rest : List Obj) (s : Store) (v w : Obj) (i j : Nat) (hv : v.buf = some i) (hw : w.buf = some j) (he : s i = []) :
    encode eimpl (v :: rest) s = .ret ([], s) ∧ encodeTo eimpl (v :: w :: rest) s = .ret ((0, []), s) := by
  constructor
  · simp only [encode, hv, he, List.length_nil, if_true]
  · simp only [encodeTo, hv, hw, he, List.length_nil, if_true]

example := C109_empty (eimpl := eimpl) [⟨none, fun s => (none, s)⟩] (fun _ => []) (buffer 0) (buffer 1) 0 1 rfl rfl rfl

/-- C109: `crc32_combine`, `crc32_zeroes` and `crc32_shift` use the CRCs as they are when the call is made. -/
theorem C109_crc (s s' : Store) (v w c : Obj) (rest : List Obj) (i j : Nat) (n : Int) (hv : v.buf = some i) (hw : w.buf = some j) (hc : c.toInteger s = (some n, s')) :
    combine impl (v :: w :: c :: rest) s = (Crc.apiCombine impl [.buffer (s i), .buffer (s j), .int n]).bind (fun r => .ret (r, s')) ∧
    zeroes impl (c :: v :: rest) s = (Crc.apiZeroes impl [.int n, .buffer (s i)]).bind (fun r => .ret (r, s')) ∧
    zeroes impl [c] s = (Crc.apiZeroes impl [.int n]).bind (fun r => .ret (r, s')) ∧
    shift impl (c :: v :: rest) s = (Crc.apiShift impl [.int n, .buffer (s i)]).bind (fun r => .ret (r, s')) ∧
    shift impl [c] s = (Crc.apiShift impl [.int n]).bind (fun r => .ret (r, s')) := by
  have hlen : ¬ [Arg.buffer (s i), .buffer (s j), .int n].length < 3 := by simp
  refine ⟨?_, ?_, ?_, ?_, ?_⟩
  · simp only [combine, hv, hw, Crc.apiCombine, hlen, if_false, Crc.twoCrcs, List.getD_cons_succ, List.getD_cons_zero]
    split
    · rfl
    · cases Crc.readCrc (s i) <;> cases Crc.readCrc (s j) <;> simp only [Outcome.bind, LegacyEffects.argToInt, hc, Yenc.argToInt]
  · simp only [zeroes, LegacyEffects.initArg, hv, Crc.apiZeroes, Crc.initArg]
    split
    · rfl
    · cases Crc.readCrc (s i) <;> simp only [Outcome.bind, LegacyEffects.argToInt, hc, Yenc.argToInt]
      split
      · cases Crc.negInt (toInt32 n) <;> rfl
      · rfl
  · simp only [zeroes, LegacyEffects.initArg, Crc.apiZeroes, Crc.initArg, Outcome.bind, LegacyEffects.argToInt, hc, Yenc.argToInt]
    split
    · cases Crc.negInt (toInt32 n) <;> rfl
    · rfl
  · simp only [shift, LegacyEffects.initArg, hv, Crc.apiShift, Crc.initArg]
    split
    · rfl
    · cases Crc.readCrc (s i) <;> simp only [Outcome.bind, LegacyEffects.argToInt, hc, Yenc.argToInt]
      split
      · cases Crc.negInt (toInt32 n) <;> rfl
      · rfl
  · simp only [shift, LegacyEffects.initArg, Crc.apiShift, Crc.initArg, Outcome.bind, LegacyEffects.argToInt, hc, Yenc.argToInt]
    split
    · cases Crc.negInt (toInt32 n) <;> rfl
    · rfl

-- a length that, when converted, overwrites the first CRC
example (s : Store) := C109_crc (impl := impl) s _ (buffer 0) (buffer 1) (changes [9#8, 9#8, 9#8, 9#8] 5) [] 0 1 5 rfl rfl rfl

/-- C109: if no conversion throws and the lengths of lines and columns are moderate, `encode` and `encodeTo` return or throw, whatever the conversions do to the Buffers, and so does
`encodeIncr` without an output. -/
theorem C109_defined (he : Enc.IsImpl eimpl) {rest : List Obj} {s s' : Store} {args : List Arg} (h : Converted rest s args s') (hl : SameLengths s s') (hfit : Undef.FitsLine args)
    (v w : Obj) : encode eimpl (v :: rest) s ≠ .ub ∧ encodeTo eimpl (v :: w :: rest) s ≠ .ub ∧
    ((∀ a t, rest = a :: t → a.buf = none) → encodeIncr eimpl (v :: rest) s ≠ .ub) := by
  have hints := h.ints
  have hgood : ¬ Undef.BadLine args := by
    rintro ⟨a, t, e, hb⟩
    subst e
    obtain ⟨n, rfl⟩ := hints a (by simp)
    rcases hb with hb | ⟨m, b, u, -, -, e2, hb⟩
    · exact hb n rfl
    · subst e2
      obtain ⟨k, rfl⟩ := hints b (by simp)
      exact hb k rfl
  have hbind : ∀ {α : Type} (x : Outcome α), x ≠ .ub → (x.bind fun r => Outcome.ret (r, s')) ≠ .ub := by
    intro α x hx
    cases x with
    | ub => exact absurd rfl hx
    | _ => intro h; cases h
  have hnb : ∀ b ∈ args, ∀ d, b ≠ .buffer d := by
    rintro b hb d rfl
    obtain ⟨n, e⟩ := hints _ hb
    cases e
  have h1 : ∀ x, Enc.apiEncode eimpl (.buffer x :: args) ≠ .ub := by
    intro x hx
    obtain ⟨y, t, e, -, hb⟩ := (C106_encode he _ (by rintro a t ⟨⟩; exact hfit) (by rintro a d t e; cases e; exact absurd rfl (hnb _ (by simp) d))).1.1 hx
    cases e
    exact hgood hb
  have h2 : ∀ x y, Enc.apiEncodeTo eimpl (.buffer x :: .buffer y :: args) ≠ .ub := by
    intro x y hx
    obtain ⟨a, d, t, e, -, hb⟩ := (C106_encode he _ (by rintro a t ⟨⟩ n u e; cases e) (by rintro a d t ⟨⟩; exact hfit)).2.1 hx
    cases e
    exact hgood hb
  have h3 : ∀ x, Enc.apiEncodeIncr eimpl (.buffer x :: args) ≠ .ub := by
    intro x hx
    exact hgood (((C106_incr he x [] args hfit).1 (fun d t e => hnb _ (by rw [e]; simp) d rfl)).1 hx)
  cases hv : v.buf with
  | none => exact ⟨(by simp [encode, hv]), (by simp [encodeTo, hv]), (by simp [encodeIncr, hv])⟩
  | some i =>
    refine ⟨?_, ?_, fun hb => (by rw [(C109_incr (eimpl := eimpl) h hl v (buffer 0) i 0 hv rfl).2 hb]; exact hbind _ (h3 _))⟩
    · by_cases hne : s i = []
      · simp [encode, hv, hne]
      · rw [(C109_encode (eimpl := eimpl) h hl v (buffer 0) i 0 hv rfl hne).1]; exact hbind _ (h1 _)
    · cases hw : w.buf with
      | none => simp [encodeTo, hv, hw]
      | some j =>
        by_cases hne : s i = []
        · simp [encodeTo, hv, hw, hne]
        · rw [(C109_encode (eimpl := eimpl) h hl v w i j hv hw hne).2]; exact hbind _ (h2 _ _)

example (he : Enc.IsImpl eimpl) (s : Store) (h : s 0 = [1#8]) := C109_defined he (.one (changes [2#8] 64) s _ 64 rfl)
  (by intro i; by_cases e : i = 0 <;> simp [e, h]) (by rintro n t ⟨⟩; decide) (buffer 0) (buffer 1)

/-- C109: that `encode` encodes the data it is called with fails. -/
theorem C109_on_entry_false : ¬ ∀ (rest : List Obj) (s s' : Store) (args : List Arg), Converted rest s args s' → SameLengths s s' → ∀ (v : Obj) (i : Nat), v.buf = some i →
    encode Enc.encodeGeneric (v :: rest) s = (Enc.apiEncode Enc.encodeGeneric (.buffer (s i) :: args)).bind (fun r => .ret (r, s')) := by
  intro H
  have hl : SameLengths (fun _ => [1#8]) (fun i => if i = 0 then [2#8] else [1#8]) := by intro i; by_cases e : i = 0 <;> simp [e]
  have h := H [changes [2#8] 64] (fun _ => [1#8]) _ [.int 64] (.one _ _ _ 64 rfl) hl (buffer 0) 0 rfl
  rw [(C109_encode (eimpl := Enc.encodeGeneric) (.one (changes [2#8] 64) (fun _ => [1#8]) _ 64 rfl) hl (buffer 0) (buffer 0) 0 0 rfl rfl (by simp)).1] at h
  have e1 : Enc.apiEncode Enc.encodeGeneric [.buffer [2#8], .int 64] = .ret [44#8] := by decide +kernel
  have e2 : Enc.apiEncode Enc.encodeGeneric [.buffer [1#8], .int 64] = .ret [43#8] := by decide +kernel
  simp only [if_true, e1, e2, Outcome.bind] at h
  injection h with h
  injection h with h
  revert h; decide

end Yenc.Props
