import Verif.Model.LegacyData
import Verif.Props.Data
import Verif.Props.Number
/-!
Property C108: what an encoder of `multi_post` does with data that is not a Buffer on Node.js before 4.5.
-/
namespace Yenc.Props
open Spec Yenc.Js

variable {lib : Lib} {env : Env}

/-- The bytes a value stands for; the new Buffer made for a Number has the bytes the memory held before. -/
def OldBytes : OldData → List Byte → Prop
  | .data (.buffer b), x => x = b
  | .data (.str s), x => x = utf8Encode s
  | .data (.array a), x => x = a.map (BitVec.ofInt 8)
  | .data .other, _ => False
  | .num m, x => x = m

theorem encodeOld_bytes (e : YEnc) {d : OldData} {b : List Byte} (h : OldBytes d b) : e.encodeOld lib d = e.encode lib b := by
  have ht : toBufferOld d = .ret b := by
    cases d with
    | num m => rw [show b = m from h]; rfl
    | data d =>
      cases d with
      | other => exact absurd h id
      | buffer x => rw [show b = x from h]; rfl
      | str x => rw [show b = utf8Encode x from h]; rfl
      | array x => rw [show b = x.map (BitVec.ofInt 8) from h]; rfl
  rw [YEnc.encodeOld, ht]
  by_cases hm : e.mode = .done
  · rw [if_pos hm, YEnc.encode, hm]
  · rw [if_neg hm]

theorem runOld_bytes (e : YEnc) {ds : List OldData} {bs : List (List Byte)} (h : List.Forall₂ OldBytes ds bs) : e.runOld lib ds = e.run lib bs := by
  induction h generalizing e with
  | nil => rfl
  | cons h1 _ ih => simp only [YEnc.runOld, YEnc.run, encodeOld_bytes e h1, ih]

/-- C108: without Numbers, a history of calls goes as on later versions, as long as all data are usable. -/
theorem C108_same (lib : Lib) (e : YEnc) (ds : List Data) (h : Data.other ∉ ds) : e.runOld lib (ds.map .data) = e.runData lib ds := by
  induction ds generalizing e with
  | nil => rfl
  | cons d ds ih =>
    have e1 : e.encodeOld lib (.data d) = e.encodeData lib d := by
      cases d with
      | other => simp at h
      | _ => rfl
    simp only [List.map_cons, YEnc.runOld, YEnc.runData, e1, ih _ (fun hm => h (by simp [hm]))]

example (lib : Lib) (e : YEnc) := C108_same lib e [.str (lit "ab"), .array [300, -1], .buffer [1#8]] (by decide)

/-- C108, unusable data: the call throws and leaves the encoder as it was, as on later versions (`C77_unusable_data`). -/
theorem C108_unusable_data (lib : Lib) (e : YEnc) : (∃ m, (e.encodeOld lib (.data .other)).2 = .throw m) ∧ (e.encodeOld lib (.data .other)).1 = e := by
  rw [YEnc.encodeOld]
  split
  · exact ⟨⟨_, rfl⟩, rfl⟩
  · exact ⟨⟨_, rfl⟩, rfl⟩

/-- C108: a Number is not refused. `multi_post(name, n, 1, ls).encode(n)` posts whatever `n` bytes the memory held, without fault: everybody who reads the post gets them. -/
theorem C108_number_single (h : lib.IsLib) (hl : env.Lawful) (name : Str) (hn : SafeName name) (ls : Nat) (h1 : 1 ≤ ls) (h2 : ls + 6 < 2 ^ 31)
    (memory : List Byte) (hs : memory.length ≤ 2 ^ 53) (isRaw : Bool) :
    ∃ post p, ((multiPost name memory.length 1 ls).encodeOld lib (.num memory)).2 = .ret post ∧ fromPost lib env post isRaw = .ret (.ok p) ∧
      p.data = some memory ∧ p.warnings = ["missing_yend_newline"] := by
  obtain ⟨post, p, _, _, q1, q2, _, _, q3, _, q4, _⟩ := C45_single h hl name hn ls 1 h1 h2 (by omega) memory hs isRaw
  exact ⟨post, p, (by rw [encodeOld_bytes _ (show OldBytes (.num memory) memory from rfl)]; exact q1), q2, q3, q4⟩

example (isRaw : Bool) := C108_number_single genericLib_isLib jsEnv_lawful (lit "n") ⟨by decide, by decide, by decide, by decide⟩ 128 (by decide) (by decide) [104#8, 105#8] (by decide) isRaw

/-- C108, parts: a file posted in two or more non-empty pieces, each a Buffer, a string, an array or a Number; the reader gets the pieces, and for the Numbers the memory. -/
theorem C108_parts (h : lib.IsLib) (hl : env.Lawful) (name : Str) (hn : SafeName name) (ls : Nat) (h1 : 1 ≤ ls) (h2 : ls + 6 < 2 ^ 31)
    (ds : List OldData) (bs : List (List Byte)) (hb : List.Forall₂ OldBytes ds bs) (hp : 1 < ds.length) (hne : ∀ b ∈ bs, b ≠ []) (hs : bs.flatten.length < 2 ^ 53) (isRaw : Bool) :
    ∃ posts : List (List Byte), ((multiPost name bs.flatten.length ds.length ls).runOld lib ds).2 = posts.map .ret ∧ posts.length = ds.length ∧
      ∀ i, i < ds.length → ∃ post p, posts[i]? = some post ∧ fromPost lib env post isRaw = .ret (.ok p) ∧ p.data = bs[i]? ∧ p.warnings = ["missing_yend_newline"] := by
  have hlen := hb.length_eq
  obtain ⟨ps, q1, q2, q3⟩ := C45_parts h hl name hn ls h1 h2 bs (by omega) hne hs isRaw
  refine ⟨ps, ?_, by omega, fun i hi => ?_⟩
  · rw [runOld_bytes _ hb, hlen]; exact q1
  · obtain ⟨post, p, _, _, r1, r2, _, _, r3, _, r4, _⟩ := q3 i (by omega)
    exact ⟨post, p, r1, r2, by rw [r3, List.getElem?_eq_getElem], r4⟩

example (isRaw : Bool) := C108_parts genericLib_isLib jsEnv_lawful (lit "n") ⟨by decide, by decide, by decide, by decide⟩ 128 (by decide) (by decide)
  [.data (.buffer [1#8]), .num [104#8, 105#8]] [[1#8], [104#8, 105#8]] (.cons rfl (.cons rfl .nil)) (by decide) (by decide) (by decide) isRaw

/-- C108, that the post only depends on the arguments is false: `multi_post('n', 2, 1).encode(2)` twice, with different memory. -/
theorem C108_depends_on_arguments_false :
    ((multiPost (lit "n") 2 1 128).encodeOld genericLib (.num [0#8, 0#8])).2 ≠ ((multiPost (lit "n") 2 1 128).encodeOld genericLib (.num [104#8, 105#8])).2 := by
  have hn : SafeName (lit "n") := ⟨by decide, by decide, by decide, by decide⟩
  obtain ⟨a, p, a1, a2, a3, -⟩ := C108_number_single genericLib_isLib natEnv_lawful (lit "n") hn 128 (by decide) (by decide) [0#8, 0#8] (by decide) false
  obtain ⟨b, q, b1, b2, b3, -⟩ := C108_number_single genericLib_isLib natEnv_lawful (lit "n") hn 128 (by decide) (by decide) [104#8, 105#8] (by decide) false
  intro h
  have e : Outcome.ret a = Outcome.ret b := by rw [← a1, ← b1]; exact h
  cases e
  rw [a2] at b2
  cases b2
  rw [a3] at b3
  exact absurd b3 (by decide)

end Yenc.Props
