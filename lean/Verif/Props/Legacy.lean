import Verif.Model.Legacy
import Verif.Props.UndefinedIncr
/-!
Property C107: the native functions on Node before version 8.
-/
namespace Yenc.Props
open Yenc Spec

variable {eimpl : Enc.Impl} {dimpl : Dec.Impl} {impl : Crc.Impl}

namespace Old
open Legacy

/-- The argument as a Buffer, or as something that is not. -/
def asBuf (v : Val) : Arg :=
  match v.buf with
  | some b => .buffer b
  | none => .other

/-- The argument converted to an integer. -/
def asInt (v : Val) : Arg :=
  match v.toInteger with
  | some n => .int n
  | none => .other

/-- The argument converted to a Boolean. -/
def asBool (v : Val) : Arg := .bool v.toBoolean

/-- `v` is the same JavaScript value as `a`. -/
def Same (a : Arg) (v : Val) : Prop :=
  match a with
  | .buffer b => v.buf = some b
  | .int n => v.buf = none ∧ v.toInteger = some n
  | .bool b => v.buf = none ∧ v.toBoolean = b
  | .other => v.buf = none

/-- The JavaScript value `undefined`. -/
def undef : Legacy.Val := ⟨none, some 0, false⟩

theorem argToInt_eq (v : Val) : Legacy.argToInt v = Yenc.argToInt (asInt v) := by
  unfold Legacy.argToInt asInt
  cases v.toInteger <;> rfl

theorem lineArgs_eq (rest : List Val) : Legacy.lineArgs rest = Enc.lineArgs (rest.map asInt) := by
  have hi := argToInt_eq
  cases rest with
  | nil => rfl
  | cons a rest =>
    cases rest with
    | nil => simp only [Legacy.lineArgs, Enc.lineArgs, List.map_cons, List.map_nil, hi]
    | cons b rest => simp only [Legacy.lineArgs, Enc.lineArgs, List.map_cons, hi]

theorem initArg_eq (d : Crc.U32) (rest : List Val) : Legacy.initArg d rest = Crc.initArg d (rest.map asBuf) := by
  cases rest with
  | nil => rfl
  | cons a rest =>
    simp only [Legacy.initArg, List.map_cons, asBuf]
    cases a.buf <;> rfl

theorem twoCrcs_eq (a b : Val) (rest : List Val) (r : List Arg) : Legacy.twoCrcs (a :: b :: rest) = Crc.twoCrcs (asBuf a :: asBuf b :: r) := by
  simp only [Legacy.twoCrcs, asBuf]
  cases a.buf <;> cases b.buf <;> rfl

/-- Where the code on both versions looks at the bytes, a value is the same. -/
theorem Same.asBuf {a : Arg} {v : Val} (h : Same a v) : (∃ b, a = .buffer b ∧ v.buf = some b) ∨ ((∀ b, a ≠ .buffer b) ∧ v.buf = none) := by
  cases a with
  | buffer b => exact .inl ⟨b, rfl, h⟩
  | int n => exact .inr ⟨(by intro b e; cases e), h.1⟩
  | bool n => exact .inr ⟨(by intro b e; cases e), h.1⟩
  | other => exact .inr ⟨(by intro b e; cases e), h⟩

theorem Same.int {a : Arg} {v : Val} (h : Same a v) : Yenc.argToInt a = .ub ∨ Legacy.argToInt v = Yenc.argToInt a := by
  cases a with
  | int n => right; unfold Legacy.argToInt; rw [h.2]; rfl
  | _ => exact .inl rfl

theorem Same.bool {a : Arg} {v : Val} (h : Same a v) : Yenc.argToBool a = .ub ∨ Legacy.argToBool v = Yenc.argToBool a := by
  cases a with
  | bool n => right; unfold Legacy.argToBool; rw [h.2]; rfl
  | _ => exact .inl rfl

theorem Same.line {r : List Arg} {q : List Val} (h : List.Forall₂ Same r q) : Enc.lineArgs r = .ub ∨ Legacy.lineArgs q = Enc.lineArgs r := by
  cases h with
  | nil => exact .inr rfl
  | @cons a v r q ha h =>
    rcases ha.int with e | e
    · left; simp only [Enc.lineArgs, e, Outcome.bind]
    cases h with
    | nil => right; simp only [Enc.lineArgs, Legacy.lineArgs, e]
    | @cons b w r q hb h =>
      rcases hb.int with f | f
      · cases hn : Yenc.argToInt a with
        | ub => left; simp only [Enc.lineArgs, hn, Outcome.bind]
        | throw m => right; simp only [Enc.lineArgs, Legacy.lineArgs, e, hn, Outcome.bind]
        | ret n =>
          simp only [Enc.lineArgs, Legacy.lineArgs, e, hn, f, Outcome.bind]
          generalize (if toInt32 n = 0 then (128 : Int) else toInt32 n) = z
          by_cases hz : z < 0
          · rw [if_pos hz, if_pos hz]; exact .inr rfl
          · rw [if_neg hz]; exact .inl rfl
      · right; simp only [Enc.lineArgs, Legacy.lineArgs, e, f]

theorem Same.raw {r : List Arg} {q : List Val} (h : List.Forall₂ Same r q) : Dec.rawArg r = .ub ∨ Legacy.rawArg q = Dec.rawArg r := by
  cases h with
  | nil => exact .inr rfl
  | cons ha h => exact ha.bool

theorem Same.init {r : List Arg} {q : List Val} (d : Crc.U32) (h : List.Forall₂ Same r q) : Legacy.initArg d q = Crc.initArg d r := by
  cases h with
  | nil => rfl
  | @cons a v r q ha h =>
    rcases ha.asBuf with ⟨b, rfl, e⟩ | ⟨hn, e⟩
    · simp only [Legacy.initArg, e, Crc.initArg]
    · simp only [Legacy.initArg, e]
      cases a with
      | buffer b => exact absurd rfl (hn b)
      | _ => rfl

theorem Same.two {r : List Arg} {q : List Val} (h : List.Forall₂ Same r q) : Legacy.twoCrcs q = Crc.twoCrcs r := by
  cases h with
  | nil => rfl
  | @cons a v r q ha h =>
    cases h with
    | nil => cases a <;> rfl
    | @cons b w r q hb h =>
      rcases ha.asBuf with ⟨x, rfl, e⟩ | ⟨hn, e⟩ <;> rcases hb.asBuf with ⟨y, rfl, f⟩ | ⟨hm, f⟩ <;> simp only [Legacy.twoCrcs, e, f, Crc.twoCrcs]
      · cases b with
        | buffer z => exact absurd rfl (hm z)
        | _ => rfl
      · cases a with
        | buffer z => exact absurd rfl (hn z)
        | _ => rfl
      · cases a with
        | buffer z => exact absurd rfl (hn z)
        | _ => rfl

end Old
open Old

/-- C107: on Node before 8 a call does what the same call does on later versions with its arguments converted: those that are not Buffers to integers, for `decode` to Booleans. -/
theorem C107_converted (v w x : Legacy.Val) (rest : List Legacy.Val) (addr : Nat) :
    Legacy.encode eimpl (v :: rest) = Enc.apiEncode eimpl (asBuf v :: rest.map asInt) ∧
    Legacy.encodeTo eimpl (v :: w :: rest) = Enc.apiEncodeTo eimpl (asBuf v :: asBuf w :: rest.map asInt) ∧
    Legacy.decode dimpl (v :: rest) = Dec.apiDecode dimpl (asBuf v :: rest.map asBool) ∧
    Legacy.decodeTo dimpl (v :: w :: rest) = Dec.apiDecodeTo dimpl (asBuf v :: asBuf w :: rest.map asBool) ∧
    Legacy.crc32 impl addr (v :: rest) = Crc.apiCrc32 impl addr (asBuf v :: rest.map asBuf) ∧
    Legacy.combine impl (v :: w :: x :: rest) = Crc.apiCombine impl (asBuf v :: asBuf w :: asInt x :: rest.map asInt) ∧
    Legacy.zeroes impl (v :: rest) = Crc.apiZeroes impl (asInt v :: rest.map asBuf) ∧
    Legacy.multiply impl (v :: w :: rest) = Crc.apiMultiply impl (asBuf v :: asBuf w :: rest.map asBuf) ∧
    Legacy.shift impl (v :: rest) = Crc.apiShift impl (asInt v :: rest.map asBuf) := by
  have hi := argToInt_eq
  have hr : Legacy.rawArg rest = Dec.rawArg (rest.map asBool) := by cases rest <;> rfl
  refine ⟨?_, ?_, ?_, ?_, ?_, ?_, ?_, ?_, ?_⟩
  · simp only [Legacy.encode, asBuf]
    cases v.buf with
    | none => rfl
    | some b => simp only [Enc.apiEncode, lineArgs_eq]
  · simp only [Legacy.encodeTo, asBuf]
    cases v.buf <;> cases w.buf <;> simp only [Enc.apiEncodeTo, lineArgs_eq]
  · simp only [Legacy.decode, asBuf]
    cases v.buf with
    | none => rfl
    | some b => simp only [Dec.apiDecode, hr]
  · simp only [Legacy.decodeTo, asBuf]
    cases v.buf <;> cases w.buf <;> simp only [Dec.apiDecodeTo, hr]
  · simp only [Legacy.crc32, asBuf]
    cases v.buf with
    | none => rfl
    | some b => simp only [Crc.apiCrc32, initArg_eq]; rfl
  · simp only [Legacy.combine, Crc.apiCombine, twoCrcs_eq v w (x :: rest) (asInt x :: rest.map asInt), hi]
    simp
  · simp only [Legacy.zeroes, Crc.apiZeroes, initArg_eq, hi]
  · simp only [Legacy.multiply, Crc.apiMultiply, twoCrcs_eq v w rest (rest.map asBuf)]
    simp
  · simp only [Legacy.shift, Crc.apiShift, initArg_eq, hi]

-- `encode(data, '64')` and `decode(data, 1)` on Node 6: as `encode(data, 64)` and `decode(data, true)`
example (d : List Byte) : Legacy.encode eimpl [⟨some d, some 0, true⟩, ⟨none, some 64, true⟩] = Enc.apiEncode eimpl [.buffer d, .int 64] ∧
    Legacy.decode dimpl [⟨some d, some 0, true⟩, ⟨none, some 1, true⟩] = Dec.apiDecode dimpl [.buffer d, .bool true] :=
  have h := C107_converted (eimpl := eimpl) (dimpl := dimpl) (impl := Crc.genericImpl)
  ⟨(h ⟨some d, some 0, true⟩ undef undef [⟨none, some 64, true⟩] 0).1, (h ⟨some d, some 0, true⟩ undef undef [⟨none, some 1, true⟩] 0).2.2.1⟩

/-- C107: the same for `encodeIncr`, whose second argument may be the output. -/
theorem C107_incr (v w : Legacy.Val) (rest : List Legacy.Val) :
    Legacy.encodeIncr eimpl [v] = Enc.apiEncodeIncr eimpl [asBuf v] ∧
    Legacy.encodeIncr eimpl (v :: w :: rest) =
      Enc.apiEncodeIncr eimpl (asBuf v :: (if w.buf.isSome then asBuf w else asInt w) :: rest.map asInt) := by
  constructor
  · simp only [Legacy.encodeIncr, asBuf]
    cases v.buf <;> rfl
  · simp only [Legacy.encodeIncr, asBuf]
    cases v.buf with
    | none => rfl
    | some s =>
      cases hw : w.buf with
      | some d => simp only [Option.isSome_some, if_true, Enc.apiEncodeIncr, lineArgs_eq]
      | none =>
        simp only [Option.isSome_none, Bool.false_eq_true, if_false, lineArgs_eq, List.map_cons, asInt]
        cases w.toInteger <;> rfl

-- with and without an output
example (d o : List Byte) : Legacy.encodeIncr eimpl [⟨some d, some 0, true⟩, ⟨some o, some 0, true⟩, ⟨none, some 64, true⟩] = Enc.apiEncodeIncr eimpl [.buffer d, .buffer o, .int 64] ∧
    Legacy.encodeIncr eimpl [⟨some d, some 0, true⟩, ⟨none, some 64, true⟩, ⟨none, some 3, true⟩] = Enc.apiEncodeIncr eimpl [.buffer d, .int 64, .int 3] :=
  ⟨(C107_incr _ _ _).2, (C107_incr _ _ _).2⟩

/-- C107: a call whose outcome is defined on Node 8 and later has that outcome on earlier versions. -/
theorem C107_same {args : List Arg} {vals : List Legacy.Val} (h : List.Forall₂ Same args vals) (addr : Nat) :
    (Enc.apiEncode eimpl args ≠ .ub → Legacy.encode eimpl vals = Enc.apiEncode eimpl args) ∧
    (Enc.apiEncodeTo eimpl args ≠ .ub → Legacy.encodeTo eimpl vals = Enc.apiEncodeTo eimpl args) ∧
    (Enc.apiEncodeIncr eimpl args ≠ .ub → Legacy.encodeIncr eimpl vals = Enc.apiEncodeIncr eimpl args) ∧
    (Dec.apiDecode dimpl args ≠ .ub → Legacy.decode dimpl vals = Dec.apiDecode dimpl args) ∧
    (Dec.apiDecodeTo dimpl args ≠ .ub → Legacy.decodeTo dimpl vals = Dec.apiDecodeTo dimpl args) ∧
    Legacy.crc32 impl addr vals = Crc.apiCrc32 impl addr args ∧
    (Crc.apiCombine impl args ≠ .ub → Legacy.combine impl vals = Crc.apiCombine impl args) ∧
    (Crc.apiZeroes impl args ≠ .ub → Legacy.zeroes impl vals = Crc.apiZeroes impl args) ∧
    Legacy.multiply impl vals = Crc.apiMultiply impl args ∧
    (Crc.apiShift impl args ≠ .ub → Legacy.shift impl vals = Crc.apiShift impl args) := by
  cases h with
  | nil => exact ⟨fun _ => rfl, fun _ => rfl, fun _ => rfl, fun _ => rfl, fun _ => rfl, rfl, fun _ => rfl, fun _ => rfl, rfl, fun _ => rfl⟩
  | @cons a v r q ha h =>
    have hi : ∀ c : Crc.U32, Legacy.initArg c q = Crc.initArg c r := fun c => Same.init c h
    have hcount : ∀ (c : Crc.U32) (F : Crc.U32 → Int → Outcome (List Byte)),
        ((Crc.initArg c r).bind fun x => (Yenc.argToInt a).bind (F x)) ≠ .ub →
        ((Crc.initArg c r).bind fun x => (Legacy.argToInt v).bind (F x)) = ((Crc.initArg c r).bind fun x => (Yenc.argToInt a).bind (F x)) := by
      intro c F hne
      rcases ha.int with e | e
      · rcases Undef.initArg_cases c r with ⟨-, x, hx⟩ | ⟨-, m, hm⟩
        · rw [hx, e] at hne; exact absurd rfl hne
        · rw [hm]; rfl
      · rw [e]
    refine ⟨?_, ?_, ?_, ?_, ?_, ?_, ?_, ?_, ?_, ?_⟩
    · rcases ha.asBuf with ⟨s, rfl, e⟩ | ⟨hn, e⟩
      · intro hne
        simp only [Legacy.encode, e, Enc.apiEncode] at hne ⊢
        by_cases hs : s = []
        · simp only [hs, if_true]
        · rw [if_neg hs] at hne
          rw [if_neg hs, if_neg hs]
          rcases Same.line h with f | f
          · rw [f] at hne; exact absurd rfl hne
          · rw [f]
      · intro _
        simp only [Legacy.encode, e]
        cases a with
        | buffer z => exact absurd rfl (hn z)
        | _ => rfl
    · cases h with
      | nil => intro _; cases a <;> rfl
      | @cons b w r q hb h =>
        rcases ha.asBuf with ⟨s, rfl, e⟩ | ⟨hn, e⟩
        · rcases hb.asBuf with ⟨d, rfl, f⟩ | ⟨hm, f⟩
          · intro hne
            simp only [Legacy.encodeTo, e, f, Enc.apiEncodeTo] at hne ⊢
            by_cases hs : s = []
            · simp only [hs, if_true]
            · rw [if_neg hs] at hne
              rw [if_neg hs, if_neg hs]
              rcases Same.line h with g | g
              · rw [g] at hne; exact absurd rfl hne
              · rw [g]
          · intro _
            simp only [Legacy.encodeTo, e, f]
            cases b with
            | buffer z => exact absurd rfl (hm z)
            | _ => rfl
        · intro _
          simp only [Legacy.encodeTo, e]
          cases a with
          | buffer z => exact absurd rfl (hn z)
          | _ => rfl
    · rcases ha.asBuf with ⟨s, rfl, e⟩ | ⟨hn, e⟩
      · cases h with
        | nil => intro _; simp only [Legacy.encodeIncr, e]; rfl
        | @cons b w r q hb h =>
          rcases hb.asBuf with ⟨d, rfl, f⟩ | ⟨hm, f⟩
          · intro hne
            simp only [Legacy.encodeIncr, e, f, Enc.apiEncodeIncr] at hne ⊢
            split at hne
            · rename_i hl; rw [if_pos hl, if_pos hl]
            · rename_i hl
              rw [if_neg hl, if_neg hl]
              rcases Same.line h with g | g
              · rw [g] at hne; exact absurd rfl hne
              · rw [g]
          · have hx : Enc.apiEncodeIncr eimpl (.buffer s :: b :: r) = (Enc.lineArgs (b :: r)).bind fun (ls, col) =>
                if s = [] then .ret ([], col) else Enc.runInto eimpl ls col s false (yencMaxSize s.length ls.toNat) := by
              cases b with
              | buffer z => exact absurd rfl (hm z)
              | _ => rfl
            intro hne
            rw [hx] at hne ⊢
            simp only [Legacy.encodeIncr, e, f]
            rcases Same.line (.cons hb h) with g | g
            · rw [g] at hne; exact absurd rfl hne
            · rw [g]
      · intro _
        simp only [Legacy.encodeIncr, e]
        cases a with
        | buffer z => exact absurd rfl (hn z)
        | _ => rfl
    · rcases ha.asBuf with ⟨s, rfl, e⟩ | ⟨hn, e⟩
      · intro hne
        simp only [Legacy.decode, e, Dec.apiDecode] at hne ⊢
        by_cases hs : s = []
        · simp only [hs, if_true]
        · rw [if_neg hs] at hne
          rw [if_neg hs, if_neg hs]
          rcases Same.raw h with f | f
          · rw [f] at hne; exact absurd rfl hne
          · rw [f]
      · intro _
        simp only [Legacy.decode, e]
        cases a with
        | buffer z => exact absurd rfl (hn z)
        | _ => rfl
    · cases h with
      | nil => intro _; cases a <;> rfl
      | @cons b w r q hb h =>
        rcases ha.asBuf with ⟨s, rfl, e⟩ | ⟨hn, e⟩
        · rcases hb.asBuf with ⟨d, rfl, f⟩ | ⟨hm, f⟩
          · intro hne
            simp only [Legacy.decodeTo, e, f, Dec.apiDecodeTo] at hne ⊢
            by_cases hs : s = []
            · simp only [hs, if_true]
            · rw [if_neg hs] at hne
              rw [if_neg hs, if_neg hs]
              split at hne
              · rename_i hl; rw [if_pos hl, if_pos hl]
              · rename_i hl
                rw [if_neg hl, if_neg hl]
                rcases Same.raw h with g | g
                · rw [g] at hne; exact absurd rfl hne
                · rw [g]
          · intro _
            simp only [Legacy.decodeTo, e, f]
            cases b with
            | buffer z => exact absurd rfl (hm z)
            | _ => rfl
        · intro _
          simp only [Legacy.decodeTo, e]
          cases a with
          | buffer z => exact absurd rfl (hn z)
          | _ => rfl
    · rcases ha.asBuf with ⟨s, rfl, e⟩ | ⟨hn, e⟩
      · simp only [Legacy.crc32, e, Crc.apiCrc32, hi]; rfl
      · simp only [Legacy.crc32, e]
        cases a with
        | buffer z => exact absurd rfl (hn z)
        | _ => rfl
    · have ht := Same.two (.cons ha h)
      cases h with
      | nil => intro _; rfl
      | @cons b w r q hb h =>
        cases h with
        | nil => intro _; rfl
        | @cons c x r q hc h =>
          intro hne
          have hl : ¬ (a :: b :: c :: r).length < 3 := by simp
          simp only [Legacy.combine, Crc.apiCombine, ht, if_neg hl, List.getD_cons_succ, List.getD_cons_zero] at hne ⊢
          rcases hc.int with g | g
          · rcases Undef.twoCrcs_cases a b (c :: r) with ⟨-, -, y, hy⟩ | ⟨-, m, hm⟩
            · rw [hy, g] at hne; exact absurd rfl hne
            · rw [hm]; rfl
          · rw [g]
    · intro hne
      simp only [Legacy.zeroes, Crc.apiZeroes, hi] at hne ⊢
      exact hcount _ _ hne
    · have hlen := (List.Forall₂.cons ha h).length_eq
      simp only [Legacy.multiply, Crc.apiMultiply, Same.two (.cons ha h), ← hlen]
    · intro hne
      simp only [Legacy.shift, Crc.apiShift, hi] at hne ⊢
      exact hcount _ _ hne

-- the hypotheses hold of `encode(data, 64)`, which has an outcome, and so it has the same
example : List.Forall₂ Same [.buffer [1#8], .int 64] [⟨some [1#8], some 0, true⟩, ⟨none, some 64, true⟩] ∧ Enc.apiEncode Enc.encodeGeneric [.buffer [1#8], .int 64] ≠ .ub := by
  refine ⟨.cons rfl (.cons ⟨rfl, rfl⟩ .nil), fun h => ?_⟩
  obtain ⟨s, t, e, -, a, u, e2, h⟩ := (C106_encode .generic _ (by rintro s t ⟨⟩ n u ⟨⟩; decide) (by rintro s d t e; cases e)).1.1 h
  cases e
  cases e2
  rcases h with h | ⟨n, b, u, -, -, e3, -⟩
  · exact h 64 rfl
  · cases e3

/-- C107: `undefined` for an optional number or Boolean is as good as leaving it out. -/
theorem C107_undefined (v w : Legacy.Val) (ls : Legacy.Val) :
    Legacy.encode eimpl [v, undef] = Legacy.encode eimpl [v] ∧ Legacy.encode eimpl [v, ls, undef] = Legacy.encode eimpl [v, ls] ∧
    Legacy.encode eimpl [v, undef, undef] = Legacy.encode eimpl [v] ∧
    Legacy.encodeTo eimpl [v, w, undef] = Legacy.encodeTo eimpl [v, w] ∧ Legacy.encodeTo eimpl [v, w, ls, undef] = Legacy.encodeTo eimpl [v, w, ls] ∧
    Legacy.decode dimpl [v, undef] = Legacy.decode dimpl [v] ∧ Legacy.decodeTo dimpl [v, w, undef] = Legacy.decodeTo dimpl [v, w] := by
  have h1 : Legacy.lineArgs [undef] = Legacy.lineArgs [] := by decide
  have h2 : ∀ l, Legacy.lineArgs [l, undef] = Legacy.lineArgs [l] := by
    intro l
    simp only [Legacy.lineArgs, Legacy.argToInt, undef]
    cases l.toInteger with
    | none => rfl
    | some n =>
      simp only [Outcome.bind]
      generalize (if toInt32 n = 0 then (128 : Int) else toInt32 n) = z
      by_cases hz : z < 0
      · rw [if_pos hz, if_pos hz]
      · have h0 : toInt32 0 = 0 := by decide
        rw [if_neg hz, if_neg hz, h0, if_neg (by omega), ite_self]
  have h3 : Legacy.lineArgs [undef, undef] = Legacy.lineArgs [] := (h2 undef).trans h1
  have h4 : Legacy.rawArg [undef] = Legacy.rawArg [] := rfl
  refine ⟨?_, ?_, ?_, ?_, ?_, ?_, ?_⟩
  · simp only [Legacy.encode, h1]
  · simp only [Legacy.encode, h2]
  · simp only [Legacy.encode, h3]
  · simp only [Legacy.encodeTo, h1]
  · simp only [Legacy.encodeTo, h2]
  · simp only [Legacy.decode, h4]
  · simp only [Legacy.decodeTo, h4]

-- whatever the data and the line size; and an unconvertible column is still undefined
example (d : List Byte) (n : Int) := C107_undefined (eimpl := eimpl) (dimpl := dimpl) ⟨some d, some 0, true⟩ ⟨some d, some 0, true⟩ ⟨none, some n, true⟩
example : Legacy.encode eimpl [⟨some [1#8], some 0, true⟩, undef, ⟨none, none, true⟩] = .ub := rfl

/-- C107: `decode` and `decodeTo` always return or throw; the CRC functions do if the conversions succeed, but for a count of 2^31 modulo 2^32. -/
theorem C107_defined (hd : Dec.IsImpl dimpl) (hi : Crc.IsImpl impl) (addr : Nat) (args : List Legacy.Val) :
    Legacy.decode dimpl args ≠ .ub ∧ Legacy.decodeTo dimpl args ≠ .ub ∧ Legacy.crc32 impl addr args ≠ .ub ∧ Legacy.multiply impl args ≠ .ub ∧
    ((∀ v ∈ args, ∃ n, v.toInteger = some n) → Legacy.combine impl args ≠ .ub) ∧
    ((∀ v ∈ args, ∃ n, v.toInteger = some n ∧ n % 2 ^ 32 ≠ 2 ^ 31) → Legacy.zeroes impl args ≠ .ub ∧ Legacy.shift impl args ≠ .ub) := by
  have hb : ∀ v : Legacy.Val, ¬ Undef.NotBool (asBool v) := fun v h => h _ rfl
  have hint : ∀ (v : Legacy.Val) n, v.toInteger = some n → asInt v = .int n := by
    intro v n h; unfold asInt; rw [h]
  have hcb : ∀ (v : Legacy.Val) (t : List Legacy.Val), (∃ n, v.toInteger = some n ∧ n % 2 ^ 32 ≠ 2 ^ 31) →
      Legacy.zeroes impl (v :: t) ≠ .ub ∧ Legacy.shift impl (v :: t) ≠ .ub := by
    rintro v t ⟨n, hn, hne⟩
    obtain ⟨-, -, -, -, -, -, hz, -, hs⟩ := C107_converted (eimpl := Enc.encodeGeneric) (dimpl := dimpl) (impl := impl) v v v t addr
    have hbad : ∀ l, ¬ ∃ a u, asInt v :: l = a :: u ∧ Undef.GoodInit u ∧ (Undef.NotInt a ∨ ∃ n, a = .int n ∧ n % 2 ^ 32 = 2 ^ 31) := by
      rintro l ⟨a, u, e, -, h⟩
      cases e
      rw [hint v n hn] at h
      rcases h with h | ⟨m, e, h⟩
      · exact h n rfl
      · cases e; exact hne h
    exact ⟨fun h => hbad _ ((C106_count _).1.1 (hz ▸ h)), fun h => hbad _ ((C106_count _).2.1 (hs ▸ h))⟩
  refine ⟨?_, ?_, ?_, ?_, ?_, ?_⟩
  · cases args with
    | nil => intro h; cases h
    | cons v t =>
      intro h
      rw [(C107_converted (eimpl := Enc.encodeGeneric) (dimpl := dimpl) (impl := impl) v v v t addr).2.2.1] at h
      obtain ⟨s, a, u, e, -, hn⟩ := (C106_decode hd _).1.1 h
      cases t with
      | nil => simp at e
      | cons w t => simp only [List.map_cons, List.cons.injEq] at e; exact hb w (e.2.1 ▸ hn)
  · match args with
    | [] => intro h; cases h
    | [_] => intro h; cases h
    | v :: w :: t =>
      intro h
      rw [(C107_converted (eimpl := Enc.encodeGeneric) (dimpl := dimpl) (impl := impl) v w v t addr).2.2.2.1] at h
      obtain ⟨s, d, a, u, e, -, -, hn⟩ := (C106_decode hd _).2.1 h
      cases t with
      | nil => simp at e
      | cons x t => simp only [List.map_cons, List.cons.injEq] at e; exact hb x (e.2.2.1 ▸ hn)
  · cases args with
    | nil => intro h; cases h
    | cons v t =>
      rw [(C107_converted (eimpl := Enc.encodeGeneric) (dimpl := dimpl) (impl := impl) v v v t addr).2.2.2.2.1]
      exact (C106_crc hi addr _).1
  · match args with
    | [] => intro h; cases h
    | [_] => intro h; cases h
    | v :: w :: t =>
      rw [(C107_converted (eimpl := Enc.encodeGeneric) (dimpl := dimpl) (impl := impl) v w v t addr).2.2.2.2.2.2.2.1]
      exact (C106_crc hi addr _).2
  · match args with
    | [] => intro _ h; cases h
    | [_] => intro _ h; cases h
    | [_, _] => intro _ h; cases h
    | v :: w :: x :: t =>
      intro hall h
      obtain ⟨n, hn⟩ := hall x (by simp)
      rw [(C107_converted (eimpl := Enc.encodeGeneric) (dimpl := dimpl) (impl := impl) v w x t addr).2.2.2.2.2.1] at h
      obtain ⟨a, b, y, u, e, -, -, hy⟩ := (C106_combine _).1 h
      simp only [List.cons.injEq] at e
      rw [← e.2.2.1, hint x n hn] at hy
      exact hy n rfl
  · cases args with
    | nil => intro _; exact ⟨(by intro h; cases h), (by intro h; cases h)⟩
    | cons v t => intro hall; exact hcb v t (hall v (by simp))

example (hd : Dec.IsImpl dimpl) (hi : Crc.IsImpl impl) : Legacy.decode dimpl [⟨some [1#8], some 0, true⟩, ⟨none, none, true⟩] ≠ .ub ∧ Legacy.zeroes impl [⟨none, some (-5), true⟩] ≠ .ub :=
  ⟨(C107_defined hd hi 0 _).1, ((C107_defined hd hi 0 _).2.2.2.2.2 (by simp)).1⟩

namespace Old

theorem asInt_some (v : Legacy.Val) (n : Int) (h : v.toInteger = some n) : asInt v = .int n := by
  unfold asInt; rw [h]

theorem asInt_noBuf (x : Legacy.Val) (d : List Byte) : asInt x ≠ .buffer d := by
  unfold asInt; cases x.toInteger <;> exact fun h => by cases h

theorem goodLine (rest : List Legacy.Val) (hall : ∀ x ∈ rest, ∃ n, x.toInteger = some n) : ¬ Undef.BadLine (rest.map asInt) := by
  have hgood : ∀ x ∈ rest, ¬ Undef.NotInt (asInt x) := by
    intro x hx h
    obtain ⟨n, hn⟩ := hall x hx
    exact h n (asInt_some x n hn)
  rintro ⟨a, t, e, h⟩
  cases rest with
  | nil => cases e
  | cons x r =>
    simp only [List.map_cons, List.cons.injEq] at e
    rcases h with h | ⟨n, b, u, -, -, e2, h⟩
    · exact hgood x (by simp) (e.1 ▸ h)
    · cases r with
      | nil => rw [← e.2] at e2; cases e2
      | cons y r =>
        rw [← e.2] at e2
        simp only [List.map_cons, List.cons.injEq] at e2
        exact hgood y (by simp) (e2.1 ▸ h)

/-- What holds of all the numbers holds of the first. -/
theorem firstInt {P : Int → Prop} (rest : List Legacy.Val) (hall : ∀ x ∈ rest, ∀ n, x.toInteger = some n → P n) (n : Int) (t : List Arg)
    (e : rest.map asInt = .int n :: t) : P n := by
  cases rest with
  | nil => cases e
  | cons x r =>
    simp only [List.map_cons, List.cons.injEq] at e
    obtain ⟨e1, -⟩ := e
    unfold asInt at e1
    split at e1
    · rename_i m hm
      cases e1
      exact hall x (by simp) _ hm
    · cases e1

end Old

/-- C107: `encode` and `encodeTo` always return or throw if the conversions succeed and the line size is not one of the six largest. -/
theorem C107_encode_defined (he : Enc.IsImpl eimpl) (v w : Legacy.Val) (rest : List Legacy.Val)
    (hall : ∀ x ∈ rest, ∃ n, x.toInteger = some n)
    (hfit : ∀ x ∈ rest, ∀ n, x.toInteger = some n → ¬ (2147483641 < n % 2 ^ 32 ∧ n % 2 ^ 32 < 2 ^ 31)) :
    Legacy.encode eimpl (v :: rest) ≠ .ub ∧ Legacy.encodeTo eimpl (v :: w :: rest) ≠ .ub := by
  have hline := goodLine rest hall
  have hfits : Undef.FitsLine (rest.map asInt) := fun n t e => firstInt rest hfit n t e
  obtain ⟨h1, h2, -⟩ := C107_converted (eimpl := eimpl) (dimpl := Dec.generic) (impl := Crc.genericImpl) v w v rest 0
  rw [h1, h2]
  constructor
  · intro h
    obtain ⟨s, t, e, -, hb⟩ := (C106_encode he _ (by rintro s t e; simp only [List.cons.injEq] at e; rw [← e.2]; exact hfits) (by
      rintro s d t e
      cases rest with
      | nil => simp at e
      | cons x r => simp only [List.map_cons, List.cons.injEq] at e; exact absurd e.2.1 (asInt_noBuf x d))).1.1 h
    simp only [List.cons.injEq] at e
    exact hline (e.2 ▸ hb)
  · intro h
    obtain ⟨s, d, t, e, -, hb⟩ := (C106_encode he _ (by
      rintro s t e n u e2
      simp only [List.cons.injEq] at e
      rw [← e.2] at e2
      simp only [List.cons.injEq] at e2
      unfold asBuf at e2
      split at e2 <;> exact absurd e2.1 (by intro h; cases h)) (by
      rintro s d t e
      simp only [List.cons.injEq] at e
      rw [← e.2.2]; exact hfits)).2.1 h
    simp only [List.cons.injEq] at e
    exact hline (e.2.2 ▸ hb)

example (he : Enc.IsImpl eimpl) : Legacy.encode eimpl [⟨some [1#8], some 0, true⟩, undef, ⟨none, some 7, true⟩] ≠ .ub :=
  (C107_encode_defined he _ undef _ (by simp [undef]) (by simp [undef])).1

/-- C107: the same for `encodeIncr`; with an output only for line sizes of at least 128 (0 stands for 128). -/
theorem C107_incr_defined (he : Enc.IsImpl eimpl) (v w : Legacy.Val) (rest : List Legacy.Val)
    (hall : ∀ x ∈ rest, ∃ n, x.toInteger = some n)
    (hfit : ∀ x ∈ rest, ∀ n, x.toInteger = some n → ¬ (2147483641 < n % 2 ^ 32 ∧ n % 2 ^ 32 < 2 ^ 31)) :
    ((∀ x ∈ rest, x.buf = none) → Legacy.encodeIncr eimpl (v :: rest) ≠ .ub) ∧
    (w.buf.isSome → (∀ ls cols, rest = ls :: cols → ∀ n, ls.toInteger = some n → n % 2 ^ 32 = 0 ∨ 128 ≤ n % 2 ^ 32) → Legacy.encodeIncr eimpl (v :: w :: rest) ≠ .ub) := by
  have hline := goodLine rest hall
  have hfits : Undef.FitsLine (rest.map asInt) := fun n t e => firstInt rest hfit n t e
  have hbuf : ∀ x : Legacy.Val, asBuf x = .other ∨ ∃ b, asBuf x = .buffer b := by
    intro x; unfold asBuf; cases x.buf with
    | none => exact .inl rfl
    | some b => exact .inr ⟨b, rfl⟩
  constructor
  · intro hnb
    have hx : Legacy.encodeIncr eimpl (v :: rest) = Enc.apiEncodeIncr eimpl (asBuf v :: rest.map asInt) := by
      cases rest with
      | nil => exact (C107_incr v v []).1
      | cons x r =>
        rw [(C107_incr v x r).2, hnb x (by simp)]
        rfl
    rw [hx]
    rcases hbuf v with e | ⟨s, e⟩
    · rw [e]; intro h; cases h
    · rw [e]
      refine fun h => hline (((C106_incr he s [] _ hfits).1 ?_).1 h)
      intro d u e
      cases rest with
      | nil => cases e
      | cons x r => simp only [List.map_cons, List.cons.injEq] at e; exact asInt_noBuf x d e.1
  · intro hw hwide
    rw [(C107_incr v w rest).2, if_pos hw]
    rcases hbuf v with e | ⟨s, e⟩
    · rw [e]; intro h; cases h
    · rcases hbuf w with f | ⟨d, f⟩
      · unfold asBuf at f
        obtain ⟨b, hb⟩ := Option.isSome_iff_exists.1 hw
        rw [hb] at f
        cases f
      · rw [e, f]
        refine fun h => hline (((C106_incr he s d _ hfits).2 ?_).1 h).2
        intro n t e
        cases rest with
        | nil => cases e
        | cons x r =>
          exact firstInt (P := fun n => n % 2 ^ 32 = 0 ∨ 128 ≤ n % 2 ^ 32) [x] (by simpa using hwide x r rfl) n [] (by simp only [List.map_cons, List.cons.injEq] at e; simp [e.1])

-- `encodeIncr(data, undefined, 7)` and `encodeIncr(data, output, 200)`
example (he : Enc.IsImpl eimpl) (o : List Byte) : Legacy.encodeIncr eimpl [⟨some [1#8], some 0, true⟩, undef, ⟨none, some 7, true⟩] ≠ .ub ∧
    Legacy.encodeIncr eimpl [⟨some [1#8], some 0, true⟩, ⟨some o, some 0, true⟩, ⟨none, some 200, true⟩] ≠ .ub :=
  ⟨(C107_incr_defined he _ undef _ (by simp [undef]) (by simp [undef])).1 (by simp [undef]),
    (C107_incr_defined he _ _ [⟨none, some 200, true⟩] (by simp) (by simp)).2 rfl (by rintro ls cols ⟨⟩ n ⟨⟩; decide)⟩

end Yenc.Props
