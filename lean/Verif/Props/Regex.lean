import Verif.Lemmas.JsRegexPost
import Verif.Props.FromPost
import Verif.Props.Args
/-!
C100: the work done on header lines. The regular expressions are matched as ECMA-262 says, by backtracking; the count is of the tests made of single characters in looking for properties.
-/
namespace Yenc.Props
open Yenc.Js Spec

/-- C100: `/([a-z_][a-z_0-9]*)=/` finds a name followed by `=` if there is one, the leftmost, and with it what comes after the `=`. -/
theorem C100_match (line : Str) :
    (∀ i r, (execAt reProp line).2 = some (i, r) → ∃ k, FirstName line (line.take i) k r) ∧
    ((execAt reProp line).2 = none ↔ ∀ pre k post, ¬ NameAt line pre k post) := by
  rw [execAt_prop]
  cases h : matchProp line with
  | none => exact ⟨by simp, by simpa using matchProp_none h⟩
  | some x =>
    obtain ⟨pre, k, post⟩ := x
    have hf := matchProp_some h
    refine ⟨fun i r hr => ?_, by simp; exact ⟨_, _, _, hf.1⟩⟩
    simp only [Option.map_some, Option.some.injEq, Prod.mk.injEq] at hr
    obtain ⟨rfl, rfl⟩ := hr
    refine ⟨k, ?_⟩
    have e : line.take pre.length = pre := by rw [hf.1.1, List.append_assoc, List.take_left]
    rwa [e]

/-- Non-vacuity: `x1 a_2=b=c`. -/
example : execAt reProp (lit "x1 a_2=b=c") = (12, some (3, lit "b=c")) := by decide +kernel

/-- C100: `/^\d+$/` accepts the texts of one or more decimal digits, with work proportional to their length. -/
theorem C100_number (s : Str) :
    ((execStart reNumber s).2 = true ↔ s ≠ [] ∧ ∀ c ∈ s, 48 ≤ c ∧ c ≤ 57) ∧ (execStart reNumber s).1 ≤ 3 * s.length + 2 := by
  obtain ⟨h1, h2⟩ := execStart_eq reNumber s
  obtain ⟨g1, g2⟩ := matchNumber s
  refine ⟨?_, by omega⟩
  rw [h1, g1]
  simp [isNumber]

example : (execStart reNumber (lit "0123")).2 = true ∧ execStart reNumber (lit "12a") = (9, false) := by decide +kernel

/-- C100: `/^[a-fA-F0-9]{8}$/` accepts the texts of eight hexadecimal digits, with work proportional to their length. -/
theorem C100_hex (s : Str) :
    ((execStart reHex s).2 = true ↔ s.length = 8 ∧ ∀ c ∈ s, (97 ≤ c ∧ c ≤ 102) ∨ (65 ≤ c ∧ c ≤ 70) ∨ (48 ≤ c ∧ c ≤ 57)) ∧ (execStart reHex s).1 ≤ s.length + 10 := by
  obtain ⟨h1, h2⟩ := execStart_eq reHex s
  obtain ⟨g1, g2⟩ := matchHex s
  refine ⟨?_, by omega⟩
  rw [h1, g1]
  simp [isHex8, or_assoc]

example : (execStart reHex (lit "DEADbe01")).2 = true ∧ (execStart reHex (lit "DEADbe0")).2 = false := by decide +kernel

/-- C100: `from_post` with the work counted returns what `from_post` returns. -/
theorem C100_same (lib : Lib) (env : Env) (data : List Byte) (isRaw : Bool) : (fromPostR lib env data isRaw).2 = fromPost lib env data isRaw :=
  fromPostR_eq lib env data isRaw

/-- C100: the work is at most the square of the length of the post, whatever the post. The full claim, at most proportional to the length, is false: see `C100_linear_false`. -/
theorem C100_work_partial (lib : Lib) (env : Env) (hl : env.Lawful) (data : List Byte) (isRaw : Bool) : (fromPostR lib env data isRaw).1 ≤ data.length ^ 2 :=
  fromPostR_count lib env (fun b => by rw [hl.utf8]; exact utf8Decode_length b) data isRaw

/-- Non-vacuity: a `=ybegin` line with two properties and a stray word: 6 + 6 tests for the properties, 9 for the word. -/
example : (fromPostR genericLib jsEnv (text "=ybegin line=1 size=0 ab\r\n") true).1 = 21 ∧ (text "=ybegin line=1 size=0 ab\r\n").length = 26 := by decide +kernel

/-- Non-vacuity: a whole post, with a stray word in the `=yend` line: 6 + 6 + 6 for the properties of the first line and 1 at its end, 6 for the property of the last line and 9 for the word. -/
example : (fromPostR genericLib jsEnv (text "=ybegin line=1 size=0 name=x\r\nk\r\n=yend size=0 ab\r\n") true).1 = 34 := by decide +kernel

/-- C100: on the posts that the library makes itself the work is the same whatever the data, the name and the line size: 33 tests for a file in one post. -/
theorem C100_own_single {lib : Lib} {env : Env} (h : lib.IsLib) (hl : env.Lawful) (name : Str) (hn : SafeName name) (ls parts : Nat) (h1 : 1 ≤ ls) (h2 : ls + 6 < 2 ^ 31) (hp : parts ≤ 1)
    (d : List Byte) (isRaw : Bool) : ∃ post, ((multiPost name d.length parts ls).encode lib d).2 = .ret post ∧ (fromPostR lib env post isRaw).1 = 33 :=
  ⟨_, single_eq h name ls parts h1 h2 d hp, steps_single lib env hl name hn ls _ _ _ (noKeyword_encode ls h1 d) isRaw⟩

example := C100_own_single genericLib_isLib natEnv_lawful (lit "n") ⟨by decide, by decide, by decide, by decide⟩ 128 1 (by decide) (by decide) (by decide) [65#8] false

/-- C100: and 66 tests for a part of a file, 73 for the last part, whose `=yend` line has one property more. -/
theorem C100_own_parts {lib : Lib} {env : Env} (h : lib.IsLib) (hl : env.Lawful) (name : Str) (hn : SafeName name) (ls : Nat) (h1 : 1 ≤ ls) (h2 : ls + 6 < 2 ^ 31) (ds : List (List Byte))
    (hp : 1 < ds.length) (hs : ds.flatten.length < 2 ^ 63) (isRaw : Bool) :
    ∃ ps : List (List Byte), (feedParts lib name ls ds).2 = ps.map .ret ∧ ps.length = ds.length ∧
      ∀ i post, ps[i]? = some post → (fromPostR lib env post isRaw).1 = if i + 1 = ds.length then 73 else 66 := by
  have b := (run_all h hs h1 h2 ds (EncInv.init (name := name) (size := ds.flatten.length) hp h1) (by simp) (by simp) (by simp)).2
  refine ⟨_, b, partsOf_length .., fun i post hi => ?_⟩
  have hi' : i < ds.length := by
    by_contra hc
    rw [List.getElem?_eq_none (by rw [partsOf_length]; omega)] at hi
    cases hi
  rw [List.getElem?_eq_getElem (by rw [partsOf_length]; exact hi'), partsOf_getElem _ _ _ _ _ _ _ _ hi'] at hi
  simp only [partOf, List.nil_append, Nat.zero_add, Option.some.injEq] at hi
  rw [← hi, steps_multi lib env hl name hn _ _ _ _ _ _ _ _ _ (noKeyword_encode ls h1 _)]
  by_cases e : i + 1 = ds.length <;> simp [e]

/-- Non-vacuity: two posts made by the library. -/
example : (((multiPost (lit "a b") 3 1 128).encode genericLib [1, 2, 3]).2.bind fun post => .ret (fromPostR genericLib jsEnv post true).1) = .ret 33 ∧
    (feedParts genericLib (lit "n") 128 [[1], [2, 3], [4]]).2.map (fun o => o.bind fun post => .ret (fromPostR genericLib jsEnv post false).1) = [.ret 66, .ret 66, .ret 73] := by
  decide +kernel

/-- C100: for a `=ybegin` line of `n` letters `a` the work is exactly `(n + 1)²`. -/
theorem C100_letters (lib : Lib) (env : Env) (hl : env.Lawful) (isRaw : Bool) (n : Nat) (hn : 0 < n) :
    (fromPostR lib env (text "=ybegin " ++ List.replicate n 97 ++ text "\r\n") isRaw).1 = (n + 1) ^ 2 := by
  have e : text "=ybegin " ++ List.replicate n 97 ++ text "\r\n" = hostile n := by
    have e1 : text "\r\n" = crlf := by decide
    have e2 : text "=ybegin " = ascii (lit "=ybegin ") := by decide
    have e3 : (List.replicate n 97 : List Byte) = ascii (List.replicate n 97) := by simp [ascii]
    rw [hostile, e1, e2, e3]; simp [ascii]
  rw [e]
  exact hostile_steps lib env hl isRaw n hn

example : (fromPostR genericLib jsEnv (text "=ybegin " ++ List.replicate 5 97 ++ text "\r\n") true).1 = 36 := by decide +kernel

/-- C100: the work is not at most proportional to the length of the post. -/
theorem C100_linear_false (lib : Lib) (env : Env) (hl : env.Lawful) (isRaw : Bool) : ∀ K, ∃ data, K * data.length + K < (fromPostR lib env data isRaw).1 := by
  intro K
  refine ⟨text "=ybegin " ++ List.replicate (K + 11) 97 ++ text "\r\n", ?_⟩
  rw [C100_letters lib env hl isRaw (K + 11) (by omega)]
  have e1 : (text "=ybegin ").length = 8 := by decide
  have e2 : (text "\r\n").length = 2 := by decide
  simp only [List.length_append, List.length_replicate, e1, e2]
  nlinarith

end Yenc.Props
