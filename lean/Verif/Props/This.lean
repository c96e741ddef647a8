import Verif.Model.JsThis
import Verif.Props.Charset
/-!
Property C97: `from_post` called on something else than the module.
-/
namespace Yenc.Props
open Spec Yenc.Js

variable {lib : Lib} {env : Env}

/-- The setting `this` has. -/
def setting : Option Charset → Charset
  | none => .utf8
  | some cs => cs

theorem toStr_obj (o : Option Charset) (b : List Byte) : (This.obj o).toStr b = .ret ((setting o).toStr b) := by
  cases o <;> rfl

theorem headerLoopT_obj {o : Option Charset} {cs : Charset} (hc : cs.KeepsAscii) (ho : (setting o).KeepsAscii) (data : List Byte) (n sp : Nat) (p : Option Nat)
    (lines : List Str) : headerLoopT (.obj o) cs data n sp p lines = .ret (headerLoopC (setting o) data n sp p lines) := by
  induction n generalizing sp p lines with
  | zero => rfl
  | succ n ih =>
    cases p with
    | none => rfl
    | some p =>
      simp only [headerLoopT, headerLoopC, toStr_obj, Outcome.bind, ih, indexOf_crlf hc, indexOf_crlf ho]
      repeat' split
      all_goals rfl

theorem layoutT_obj {o : Option Charset} {cs : Charset} (hc : cs.KeepsAscii) (ho : (setting o).KeepsAscii) (data : List Byte) (h : Header) :
    layoutT (.obj o) cs data h = .ret (layoutC (setting o) data h) := by
  cases h with
  | noEnd => rfl
  | empty => rfl
  | dataAt lines ds =>
    simp only [layoutT, layoutC, toStr_obj, Outcome.bind, indexOf_crlf hc, indexOf_crlf ho, lastIndexOf_end hc, lastIndexOf_end ho]
    cases findRev (Js.ascii (lit "\r\n=yend ")) (data.drop ds) <;> rfl

/-- C97: called on an object, `from_post` reads the text of the lines by the `encoding` of that object (by UTF-8 if it has none), whatever the setting of the module: the result
is what the module returns with that setting. -/
theorem C97_object (o : Option Charset) (cs : Charset) (hc : cs = .utf8 ∨ cs = .latin1 ∨ cs = .ascii)
    (ho : setting o = .utf8 ∨ setting o = .latin1 ∨ setting o = .ascii) (data : List Byte) (isRaw : Bool) :
    fromPostT lib env (.obj o) cs data isRaw = fromPostC lib env (setting o) data isRaw := by
  unfold fromPostT fromPostC
  rw [findStartC_eq hc, findStartC_eq ho]
  cases findStart data with
  | none => rfl
  | some start =>
    simp only [headerLoopT_obj hc ho, layoutT_obj hc ho, Outcome.bind, indexOf_crlf hc, indexOf_crlf ho]
    cases layoutC (setting o) data (headerLoopC (setting o) data data.length start (findFrom crlf data (start + 8)) []) <;> rfl

/-- C97: the module itself. -/
theorem C97_module (cs : Charset) (hc : cs = .utf8 ∨ cs = .latin1 ∨ cs = .ascii) (data : List Byte) (isRaw : Bool) :
    fromPostT lib env (.obj (some cs)) cs data isRaw = fromPostC lib env cs data isRaw := C97_object (some cs) cs hc hc data isRaw

-- an object without the property, while the module is set to latin1
example : setting none = .utf8 ∧ fromPostT lib env (.obj none) .latin1 [1, 2] false = fromPostC lib env .utf8 [1, 2] false :=
  ⟨rfl, C97_object none .latin1 (.inr (.inl rfl)) (.inl rfl) _ _⟩

theorem headerLoopT_undef (cs : Charset) (data : List Byte) (n sp : Nat) (p : Option Nat) (lines : List Str) :
    headerLoopT .undef cs data n sp p lines = .ret .noEnd ∨
      (headerLoopT .undef cs data n sp p lines = .throw "TypeError: Cannot read properties of undefined (reading 'encoding')") := by
  cases n with
  | zero => exact .inl rfl
  | succ n =>
    cases p with
    | none => exact .inl rfl
    | some p =>
      by_cases hp : p = 0
      · exact .inl (by simp [headerLoopT, hp])
      · exact .inr (by simp [headerLoopT, hp, This.toStr, Outcome.bind])

theorem headerLoopT_undef_noEnd {cs : Charset} {data : List Byte} {n sp : Nat} {p : Option Nat} {lines : List Str}
    (h : headerLoopT .undef cs data n sp p lines = .ret .noEnd) : headerLoopC cs data n sp p lines = .noEnd := by
  cases n with
  | zero => rfl
  | succ n =>
    cases p with
    | none => rfl
    | some p =>
      by_cases hp : p = 0
      · simp [headerLoopC, hp]
      · simp [headerLoopT, hp, This.toStr, Outcome.bind] at h

/-- C97, false as coded for the function taken out of the module (`const {from_post} = require('yencode')`): whatever the bytes, it never gives a post.  It returns the error
`no_start_found` exactly where the method does; otherwise it throws a TypeError or returns `no_end_found`, the latter only where the method does too. -/
theorem C97_detached (cs : Charset) (data : List Byte) (isRaw : Bool) :
    (fromPostT lib env .undef cs data isRaw = .ret (.error "no_start_found") ∧ fromPostC lib env cs data isRaw = .ret (.error "no_start_found")) ∨
    (fromPostT lib env .undef cs data isRaw = .ret (.error "no_end_found") ∧ fromPostC lib env cs data isRaw = .ret (.error "no_end_found")) ∨
    fromPostT lib env .undef cs data isRaw = .throw "TypeError: Cannot read properties of undefined (reading 'encoding')" := by
  unfold fromPostT fromPostC
  cases findStartC cs data with
  | none => exact .inl ⟨rfl, rfl⟩
  | some start =>
    refine .inr ?_
    dsimp only
    rcases headerLoopT_undef cs data data.length start (cs.indexOf data (lit "\r\n") (start + 8)) [] with hh | hh
    · left
      rw [hh, headerLoopT_undef_noEnd hh]
      exact ⟨rfl, rfl⟩
    · right
      rw [hh]; rfl

/-- C97: so on every post of the library for which the method gives the data back, the function taken out of the module throws. -/
theorem C97_detached_false (h : lib.IsLib) (hl : env.Lawful) (name : Str) (hu : ∀ u ∈ name, u < 65536) (hn : ¬ [13, 10] <:+: name) (ls parts : Nat) (h1 : 1 ≤ ls)
    (h2 : ls + 6 < 2 ^ 31) (hp : parts ≤ 1) (d : List Byte) (hs : d.length ≤ 2 ^ 53) (isRaw : Bool) :
    ∃ post, ((multiPost name d.length parts ls).encode lib d).2 = .ret post ∧
      fromPostT lib env .undef .utf8 post isRaw = .throw "TypeError: Cannot read properties of undefined (reading 'encoding')" := by
  obtain ⟨post, p, _, _, g1, g2, _⟩ := C93_name h hl .utf8 (.inl rfl) name hu hn ls parts h1 h2 hp d hs isRaw
  refine ⟨post, g1, ?_⟩
  rcases C97_detached (lib := lib) (env := env) .utf8 post isRaw with ⟨_, c⟩ | ⟨_, c⟩ | c
  · rw [g2] at c; simp at c
  · rw [g2] at c; simp at c
  · exact c

-- the three outcomes
example : fromPostT genericLib jsEnv .undef .utf8 (Js.ascii (lit "x")) false = .ret (.error "no_start_found") ∧
    fromPostT genericLib jsEnv .undef .utf8 (Js.ascii (lit "=ybegin line=128")) false = .ret (.error "no_end_found") ∧
    fromPostT genericLib jsEnv .undef .utf8 (Js.ascii (lit "=ybegin line=128 size=0 name=a\r\n=yend size=0")) false =
      .throw "TypeError: Cannot read properties of undefined (reading 'encoding')" := by
  decide +kernel

end Yenc.Props
