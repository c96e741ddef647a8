import Verif.Props.Post
/-!
Property C76: what a refused `encode` call leaves behind.
-/
namespace Yenc.Props
open Spec Yenc.Js

variable {lib : Lib}

/-- The number of calls that returned, and the number of the first `parts` calls that did not, together are at most `parts`. -/
theorem history_count (size parts : Nat) (lens : List Nat) (calls pos : Nat) (hc : calls ≤ parts) :
    ((history size parts calls pos lens).1.filter id).length + (((history size parts calls pos lens).1.take (parts - calls)).filter (!·)).length ≤
      parts - calls := by
  induction lens generalizing calls pos with
  | nil => simp [history]
  | cons a t ih =>
    rw [history]
    by_cases hl : calls = parts
    · subst hl
      have none : ∀ (t : List Nat) (c p : Nat), calls ≤ c → (history size calls c p t).1.filter id = [] := by
        intro t
        induction t with
        | nil => intros; rfl
        | cons b t ih =>
          intro c p hcp
          rw [history, if_neg (by simp [accepts]; omega)]
          simpa using ih (c + 1) p (by omega)
      rw [if_neg (by simp [accepts])]
      simpa using none t (calls + 1) pos (by omega)
    · obtain ⟨k, hk⟩ : ∃ k, parts - calls = k + 1 := ⟨parts - calls - 1, by omega⟩
      have hk' : parts - (calls + 1) = k := by omega
      split
      · have := ih (calls + 1) (pos + a) (by omega)
        rw [hk'] at this
        rw [hk]
        simp only [List.filter_cons, id, List.take_succ_cons, Bool.not_true, if_true, List.length_cons]
        simp only [Bool.false_eq_true, if_false]
        omega
      · have := ih (calls + 1) pos (by omega)
        rw [hk'] at this
        rw [hk]
        simp only [List.filter_cons, id, List.take_succ_cons, Bool.not_false, if_true, List.length_cons]
        simp only [Bool.false_eq_true, if_false]
        omega

/-- C76, false as coded: a refused call changes the encoder.  Two parts of one byte each; the second call passes two bytes by mistake and throws; the
correct call then throws too, though without the mistake it would have returned the second part. -/
theorem C76_retry_false :
    let e := multiPost (lit "n") 2 2 128
    ((e.run genericLib [[65#8], [66#8, 67#8], [66#8]]).2.map returned = [true, false, false]) ∧
    ((e.run genericLib [[65#8], [66#8]]).2.map returned = [true, true]) := by
  decide +kernel

/-- C76, false as coded, second way: the encoder can be driven to the end of its file after a refused call, and the parts it has returned are then
numbered 1 and 3 of 3; there is no part 2. -/
theorem C76_gap_witness :
    ((multiPost (lit "n") 3 3 128).run genericLib [[65#8], [65#8, 66#8, 67#8], [66#8, 67#8]]).2 =
    [.ret (text "=ybegin part=1 total=3 line=128 size=3 name=n\r\n=ypart begin=1 end=1\r\nk\r\n=yend size=1 part=1 pcrc32=d3d99e8b"),
     .throw "Exceeded total file size",
     .ret (text "=ybegin part=3 total=3 line=128 size=3 name=n\r\n=ypart begin=2 end=3\r\nlm\r\n=yend size=2 part=3 pcrc32=6c432f52 crc32=a3830348")] := by
  decide +kernel

/-- C76, false as coded, third way: when the last part is refused because it does not complete the file, the `crc` property has already taken its data in,
though `pos` has not. -/
theorem C76_crc_witness :
    let e := ((multiPost (lit "n") 3 2 128).run genericLib [[65#8], [66#8]]).1
    e.pos = 1 ∧ e.crc ≠ Crc.packCrc (Crc.crc1 0 [65#8]) ∧ e.crc = Crc.packCrc (Crc.crc1 0 [65#8, 66#8]) := by
  decide +kernel

/-- C76, how much a refused call costs: of a multi-part encoder, the calls that return and the refused calls among the first `parts` ones together are at
most `parts`.  So every refused call loses a part for good, whatever is called afterwards. -/
theorem C76_refusal_final (h : lib.IsLib) (name : Str) (size parts ls : Nat) (h1 : 1 ≤ ls) (h2 : ls + 6 < 2 ^ 31) (hp : 1 < parts)
    (hs : size < 2 ^ 53) (ds : List (List Byte)) :
    let outs := ((multiPost name size parts ls).run lib ds).2
    (outs.filter fun o => match o with | .ret _ => true | _ => false).length +
      ((outs.take parts).filter fun o => match o with | .ret _ => false | _ => true).length ≤ parts := by
  intro outs
  have e1 := (C44_multi_post_protocol h name size parts ls h1 h2 hp hs ds).1
  have hc := history_count size parts (ds.map List.length) 0 0 (by omega)
  rw [← e1, Nat.sub_zero, ← List.map_take, List.filter_map, List.filter_map, List.length_map, List.length_map] at hc
  refine Nat.le_trans (Nat.add_le_add (Nat.le_of_eq ?_) (Nat.le_of_eq ?_)) hc
  · exact congrArg List.length (List.filter_congr fun o _ => by cases o <;> rfl)
  · exact congrArg List.length (List.filter_congr fun o _ => by cases o <;> rfl)

example := C76_refusal_final genericLib_isLib (lit "n") 5 2 128 (by decide) (by decide) (by decide) (by decide) [[65#8], [66#8]]

/-- C76 and C42 for every history, with or without refused calls: if the j-th call returns, it returns part j+1, whose range starts after the
bytes accepted so far and whose data section decodes to the data passed; so if a call is refused there is never a part of its number. -/
theorem C76_part_numbers (h : lib.IsLib) (name : Str) (size parts ls : Nat) (h1 : 1 ≤ ls) (h2 : ls + 6 < 2 ^ 31) (hp : 1 < parts)
    (hs : size < 2 ^ 53) (ds : List (List Byte)) :
    ∃ nm : List Byte, ∀ j (hj : j < ds.length) out, ((multiPost name size parts ls).run lib ds).2[j]? = some (.ret out) →
      ∃ body pcrc crc, out = partPost (j + 1) parts ls size nm (history size parts 0 0 ((ds.take j).map List.length)).2 ds[j].length body pcrc crc ∧
        IsCrc32 0 ds[j] pcrc ∧ ∀ isRaw, Dec.apiDecode lib.dec [.buffer body, .bool isRaw] = .ret ds[j] := by
  refine ⟨fileName name, ?_⟩
  have gen : ∀ (ds : List (List Byte)) (e : YEnc) (calls : Nat) (acc : List Byte), EncInv name size parts ls e calls acc →
      ∀ j (hj : j < ds.length) out, (e.run lib ds).2[j]? = some (.ret out) →
      ∃ body pcrc crc, out = partPost (calls + j + 1) parts ls size (fileName name)
          (history size parts calls acc.length ((ds.take j).map List.length)).2 ds[j].length body pcrc crc ∧
        IsCrc32 0 ds[j] pcrc ∧ ∀ isRaw, Dec.apiDecode lib.dec [.buffer body, .bool isRaw] = .ret ds[j] := by
    intro ds
    induction ds with
    | nil => intro _ _ _ _ j hj; simp at hj
    | cons d ds ih =>
      intro e calls acc hi j hj out ho
      simp only [YEnc.run] at ho
      by_cases ha : accepts size parts calls acc.length d.length = true
      · obtain ⟨a1, a2⟩ := hi.accept h (by omega) h1 h2 d ha
        cases j with
        | zero =>
          simp only [List.getElem?_cons_zero, a1, Option.some.injEq, Outcome.ret.injEq] at ho
          subst ho
          exact ⟨_, _, _, rfl, Crc.crc1_spec 0 _, fun isRaw => decode_body h ls h1 _ isRaw⟩
        | succ j =>
          obtain ⟨body, pcrc, crc, q1, q2⟩ := ih _ _ _ a2 j (by simpa using hj) out (by simpa using ho)
          refine ⟨body, pcrc, crc, ?_, q2⟩
          rw [q1, List.length_append]
          simp only [List.take_succ_cons, List.map_cons, history, if_pos ha, List.getElem_cons_succ]
          rw [show calls + 1 + j + 1 = calls + (j + 1) + 1 by omega]
      · obtain ⟨⟨m, a1⟩, a2⟩ := hi.reject h (by omega) d (by simpa using ha)
        cases j with
        | zero => simp [a1] at ho
        | succ j =>
          obtain ⟨body, pcrc, crc, q1, q2⟩ := ih _ _ _ a2 j (by simpa using hj) out (by simpa using ho)
          refine ⟨body, pcrc, crc, ?_, q2⟩
          rw [q1]
          simp only [List.take_succ_cons, List.map_cons, history, if_neg ha, List.getElem_cons_succ]
          rw [show calls + 1 + j + 1 = calls + (j + 1) + 1 by omega]
  intro j hj out ho
  simpa using gen ds _ _ _ (EncInv.init (name := name) (size := size) hp h1) j hj out ho

-- the hypotheses are met: a history with a refused call in the middle, with the positions of its parts
example : (history 3 3 0 0 [1, 3, 2]) = ([true, false, true], 3) ∧ (history 3 3 0 0 [1, 3]).2 = 1 := by decide

/-- C76, where it holds.  Partial: only single-part encoders (multi-part ones are the counter-examples above).  A single-part encoder can be retried.  After any number of calls with data of the wrong length, all of which throw, the call with the
right length returns exactly what a new encoder returns. -/
theorem C76_single_retry_partial (h : lib.IsLib) (name : Str) (size parts ls : Nat) (h1 : 1 ≤ ls) (h2 : ls + 6 < 2 ^ 31) (hp : parts ≤ 1)
    (wrong : List (List Byte)) (hw : ∀ d ∈ wrong, d.length ≠ size) (d : List Byte) (hd : d.length = size) :
    let e := multiPost name size parts ls
    ∃ out, (e.encode lib d).2 = .ret out ∧ ((e.run lib (wrong ++ [d])).2.getLast? = some (.ret out)) ∧
      ∀ i < wrong.length, ∃ m, (e.run lib (wrong ++ [d])).2[i]? = some (.throw m) := by
  intro e
  obtain ⟨out, ho⟩ := ((C44_single_post_protocol h name size parts ls h1 h2 hp d).2 hd).1
  refine ⟨out, ho, ?_⟩
  induction wrong with
  | nil => simp [YEnc.run, e, ho]
  | cons w t ih =>
    obtain ⟨⟨m, hm⟩, hs⟩ := (C44_single_post_protocol h name size parts ls h1 h2 hp w).1 (hw w (by simp))
    obtain ⟨i1, i2⟩ := ih (fun d hd => hw d (by simp [hd]))
    have er : e.run lib ((w :: t) ++ [d]) = ((e.run lib (t ++ [d])).1, .throw m :: (e.run lib (t ++ [d])).2) := by
      simp only [List.cons_append, YEnc.run]
      rw [show (e.encode lib w).1 = e from hs, show (e.encode lib w).2 = .throw m from hm]
    rw [er]
    refine ⟨?_, fun i hi => ?_⟩
    · rw [List.getLast?_cons, i1]; rfl
    · cases i with
      | zero => exact ⟨m, rfl⟩
      | succ i => exact i2 i (by simpa using hi)

-- two refused calls, then the right one
example : ((multiPost (lit "n") 1 1 128).run genericLib [[], [65#8, 66#8], [65#8]]).2.map returned = [false, false, true] := by decide +kernel

end Yenc.Props
