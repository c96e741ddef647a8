import Verif.Lemmas.JsEnc
import Verif.Lemmas.JsFromPost
import Verif.Props.Encode
/-!
Properties C42-C48: `multi_post`, `from_post`, `post`.
-/
namespace Yenc.Props
open Spec Yenc.Js

variable {lib : Lib}

theorem partsOf_length (name : Str) (size parts ls calls : Nat) (acc : List Byte) (ds : List (List Byte)) :
    (partsOf name size parts ls calls acc ds).length = ds.length := by
  induction ds generalizing calls acc with
  | nil => rfl
  | cons d ds ih => simp [partsOf, ih]

theorem partsOf_getElem (name : Str) (size parts ls calls : Nat) (acc : List Byte) (ds : List (List Byte)) (i : Nat) (hi : i < ds.length) :
    (partsOf name size parts ls calls acc ds)[i]'(by rw [partsOf_length]; exact hi) =
      partOf name size parts ls (calls + i) (acc ++ (ds.take i).flatten) ds[i] := by
  induction ds generalizing calls acc i with
  | nil => simp at hi
  | cons d ds ih =>
    cases i with
    | zero => simp [partsOf]
    | succ i =>
      simp only [partsOf, List.getElem_cons_succ, List.take_succ_cons, List.flatten_cons]
      rw [ih (calls + 1) (acc ++ d) i (by simpa using hi)]
      rw [show calls + 1 + i = calls + (i + 1) by omega, List.append_assoc]

/-- The portable implementations, as an instance. -/
def genericLib : Lib := ⟨Enc.encodeGeneric, Dec.generic, Crc.genericImpl, fun _ => 0⟩

theorem genericLib_isLib : genericLib.IsLib := ⟨.generic, .generic, .generic⟩

/-- The outcome of feeding the pieces `ds` of a file to `multi_post(name, size, parts, ls)`. -/
def feedParts (lib : Lib) (name : Str) (ls : Nat) (ds : List (List Byte)) : YEnc × List (Outcome (List Byte)) :=
  (multiPost name ds.flatten.length ds.length ls).run lib ds

/-- C42: for every file cut into two or more pieces, every call returns a part; the i-th part is a yEnc part (number i+1 of the number of pieces,
same name, line and size in all of them, data range directly after that of the earlier pieces), and decoding its data section (with or without dot
unstuffing) gives the i-th piece back. -/
theorem C42_multi_post_parts (h : lib.IsLib) (name : Str) (ls : Nat) (h1 : 1 ≤ ls) (h2 : ls + 6 < 2 ^ 31) (ds : List (List Byte)) (hp : 1 < ds.length)
    (hs : ds.flatten.length < 2 ^ 53) :
    ∃ ps : List (List Byte), (feedParts lib name ls ds).2 = ps.map .ret ∧ ps.length = ds.length ∧
      ∃ nm : List Byte, ∀ i (hi : i < ds.length), ∃ body pcrc crc,
        ps[i]? = some (partPost (i + 1) ds.length ls ds.flatten.length nm (ds.take i).flatten.length ds[i].length body pcrc crc) ∧
        ∀ isRaw, Dec.apiDecode lib.dec [.buffer body, .bool isRaw] = .ret ds[i] := by
  obtain ⟨_, b⟩ := run_all h (show ds.flatten.length < 2 ^ 63 by omega) h1 h2 ds (EncInv.init (name := name) (size := ds.flatten.length) hp h1) (by simp)
    (by simp) (by simp)
  refine ⟨_, b, partsOf_length .., fileName name, fun i hi => ?_⟩
  rw [List.getElem?_eq_getElem (by rw [partsOf_length]; exact hi), partsOf_getElem _ _ _ _ _ _ _ _ hi]
  simp only [partOf, List.nil_append, Nat.zero_add]
  exact ⟨_, _, _, rfl, fun isRaw => decode_body h ls h1 _ isRaw⟩

theorem single_eq (h : lib.IsLib) (name : Str) (ls parts : Nat) (h1 : 1 ≤ ls) (h2 : ls + 6 < 2 ^ 31) (d : List Byte) (hp : parts ≤ 1) :
    ((multiPost name d.length parts ls).encode lib d).2 =
      .ret (singlePost ls d.length (fileName name) (Spec.encode ls true 0 d) (Crc.crc1 0 d)) := by
  have h3 : ¬ ls = 0 := by omega
  have h4 : ¬ parts > 1 := by omega
  have e : text "\r\n" = [CR, LF] := by decide
  simp only [multiPost, if_neg h3, if_neg h4, YEnc.encode, YEnc.encodeSingle, crc32_eq h, encode_eq h d ls h1 h2]
  simp only [ne_eq, not_true_eq_false, if_false, singleText, singlePost, text_append, text_toString, text_hex8 _ _ (Crc.packCrc_buf _), e, ascii_append, List.append_assoc]
  simp only [text_lit]

-- two parts: 'A' and 'BC'
example : (feedParts genericLib (lit "n") 128 [[65#8], [66#8, 67#8]]).2 =
    [.ret (text "=ybegin part=1 total=2 line=128 size=3 name=n\r\n=ypart begin=1 end=1\r\nk\r\n=yend size=1 part=1 pcrc32=d3d99e8b"),
     .ret (text "=ybegin part=2 total=2 line=128 size=3 name=n\r\n=ypart begin=2 end=3\r\nlm\r\n=yend size=2 part=2 pcrc32=6c432f52 crc32=a3830348")] := by
  decide +kernel

/-- C42 for one part: the post is a single-part yEnc post whose data section decodes to the data. -/
theorem C42_multi_post_single (h : lib.IsLib) (name : Str) (ls parts : Nat) (h1 : 1 ≤ ls) (h2 : ls + 6 < 2 ^ 31) (d : List Byte) (hp : parts ≤ 1) :
    ∃ nm body crc, ((multiPost name d.length parts ls).encode lib d).2 = .ret (singlePost ls d.length nm body crc) ∧ IsCrc32 0 d crc ∧
      ∀ isRaw, Dec.apiDecode lib.dec [.buffer body, .bool isRaw] = .ret d := by
  exact ⟨fileName name, _, _, single_eq h name ls parts h1 h2 d hp, Crc.crc1_spec 0 d, fun isRaw => decode_body h ls h1 d isRaw⟩

example := C42_multi_post_single genericLib_isLib (lit "n") 128 1 (by decide) (by decide) [65#8, 214#8] (by decide)

/-- Adding the lengths: the ranges of the parts are contiguous from 1 to the file size. -/
theorem C42_ranges (ds : List (List Byte)) :
    (ds.take 0).flatten.length = 0 ∧ (ds.take ds.length).flatten.length = ds.flatten.length ∧
      ∀ i (hi : i < ds.length), (ds.take (i + 1)).flatten.length = (ds.take i).flatten.length + ds[i].length := by
  refine ⟨by simp, by simp, fun i hi => ?_⟩
  rw [List.take_succ_eq_append_getElem hi, List.flatten_append, List.length_append]
  simp

/-- C43: the checksums of the parts.  Each carries the CRC-32 of its piece, the last one also the CRC-32 of the whole file; and after any number of
successful calls the `crc` property is the CRC-32 of the data so far. -/
theorem C43_multi_post_crcs (h : lib.IsLib) (name : Str) (ls : Nat) (h1 : 1 ≤ ls) (h2 : ls + 6 < 2 ^ 31) (ds : List (List Byte)) (hp : 1 < ds.length)
    (hs : ds.flatten.length < 2 ^ 53) :
    (∃ ps : List (List Byte), (feedParts lib name ls ds).2 = ps.map .ret ∧
      ∀ i (hi : i < ds.length), ∃ nm body pcrc crc,
        ps[i]? = some (partPost (i + 1) ds.length ls ds.flatten.length nm (ds.take i).flatten.length ds[i].length body pcrc
          (if i + 1 = ds.length then some crc else none)) ∧
        IsCrc32 0 ds[i] pcrc ∧ IsCrc32 0 ds.flatten crc) ∧
    ∀ k ≤ ds.length, ∃ c, CrcBuf ((multiPost name ds.flatten.length ds.length ls).run lib (ds.take k)).1.crc c ∧ IsCrc32 0 (ds.take k).flatten c := by
  have i0 := EncInv.init (name := name) (size := ds.flatten.length) hp h1
  obtain ⟨_, b⟩ := run_all h (show ds.flatten.length < 2 ^ 63 by omega) h1 h2 ds i0 (by simp) (by simp) (by simp)
  refine ⟨⟨_, b, fun i hi => ?_⟩, fun k hk => ?_⟩
  · rw [List.getElem?_eq_getElem (by rw [partsOf_length]; exact hi), partsOf_getElem _ _ _ _ _ _ _ _ hi]
    simp only [partOf, List.nil_append, Nat.zero_add]
    refine ⟨fileName name, Spec.encode ls true 0 ds[i], Crc.crc1 0 ds[i], Crc.crc1 0 ds.flatten, ?_, Crc.crc1_spec 0 _, Crc.crc1_spec 0 _⟩
    by_cases hl : i + 1 = ds.length
    · simp only [if_pos hl]
      rw [show (ds.take i).flatten ++ ds[i] = ds.flatten by
        have := congrArg List.flatten (List.take_succ_eq_append_getElem hi)
        rw [hl, List.take_length] at this
        rw [this, List.flatten_append, List.flatten_singleton]]
    · simp only [if_neg hl]
  · have hz : (ds.take k).flatten.length ≤ ds.flatten.length := by
      conv_rhs => rw [← List.take_append_drop k ds]
      rw [List.flatten_append, List.length_append]; omega
    obtain ⟨a, _⟩ := run_all h (show ds.flatten.length < 2 ^ 63 by omega) h1 h2 (ds.take k) i0 (by simp) (by simpa using hz) (by
      intro hh
      have : k = ds.length := by simp at hh; omega
      simp [this])
    refine ⟨_, ?_, Crc.crc1_spec 0 _⟩
    rw [a.crc ?_]
    · exact Crc.packCrc_buf _
    · by_cases hl : k = ds.length
      · right; simp [hl]
      · left; simp; omega

example := C43_multi_post_crcs genericLib_isLib (lit "n") 128 (by decide) (by decide) [[65#8], [66#8, 67#8]] (by decide) (by decide)

/-- C43, histories with refused calls: as long as fewer than `parts` calls were made, the `crc` property is the CRC-32 of the accepted data, i.e.
of the pieces whose calls returned. -/
theorem C43_running_crc (h : lib.IsLib) (name : Str) (size parts ls : Nat) (h1 : 1 ≤ ls) (h2 : ls + 6 < 2 ^ 31) (hp : 1 < parts) (hs : size < 2 ^ 53)
    (ds : List (List Byte)) (hc : ds.length < parts) :
    ∃ c, CrcBuf ((multiPost name size parts ls).run lib ds).1.crc c ∧
      IsCrc32 0 ((ds.zip ((multiPost name size parts ls).run lib ds).2).filterMap fun x => match x.2 with | .ret _ => some x.1 | _ => none).flatten c := by
  have gen : ∀ (ds : List (List Byte)) (e : YEnc) (calls : Nat) (acc : List Byte), EncInv name size parts ls e calls acc →
      accepted size parts calls acc ds =
        acc ++ ((ds.zip (e.run lib ds).2).filterMap fun x => match x.2 with | .ret _ => some x.1 | _ => none).flatten := by
    intro ds
    induction ds with
    | nil => simp [accepted, YEnc.run]
    | cons d ds ih =>
      intro e calls acc hi
      simp only [accepted, YEnc.run, List.zip_cons_cons]
      by_cases ha : accepts size parts calls acc.length d.length = true
      · obtain ⟨a1, a2⟩ := hi.accept h (by omega) h1 h2 d ha
        rw [if_pos ha, ih _ _ _ a2, a1]
        simp
      · obtain ⟨⟨m, a1⟩, a2⟩ := hi.reject h (by omega) d (by simpa using ha)
        rw [if_neg ha, ih _ _ _ a2, a1]
        simp
  have i0 := EncInv.init (name := name) (size := size) hp h1
  obtain ⟨b1, _⟩ := run_inv h (by omega) h1 h2 ds i0
  have g := gen ds _ _ _ i0
  rw [List.nil_append] at g
  rw [← g]
  refine ⟨_, ?_, Crc.crc1_spec 0 _⟩
  rw [b1.crc (.inl (by omega))]
  exact Crc.packCrc_buf _

example := C43_running_crc genericLib_isLib (lit "n") 5 3 128 (by decide) (by decide) (by decide) (by decide) [[65#8], [66#8, 67#8]] (by decide)

/-- C44: which calls of a history throw (`history` says which are accepted: fewer than `parts` calls so far, also counting refused ones; the data fits
into `size`; and the last part completes it), what the `part` and `pos` properties are afterwards, and that no call does anything else than return or
throw. -/
theorem C44_multi_post_protocol (h : lib.IsLib) (name : Str) (size parts ls : Nat) (h1 : 1 ≤ ls) (h2 : ls + 6 < 2 ^ 31) (hp : 1 < parts)
    (hs : size < 2 ^ 53) (ds : List (List Byte)) :
    let r := (multiPost name size parts ls).run lib ds
    r.2.map (fun o => match o with | .ret _ => true | _ => false) = (history size parts 0 0 (ds.map List.length)).1 ∧ .ub ∉ r.2 ∧
      r.1.part = ds.length ∧ r.1.pos = (history size parts 0 0 (ds.map List.length)).2 := by
  have i0 := EncInv.init (name := name) (size := size) hp h1
  obtain ⟨b1, b2, b3, b4⟩ := run_inv h (by omega) h1 h2 ds i0
  refine ⟨b2, b4, by rw [b1.part, Nat.zero_add], ?_⟩
  rw [b1.pos, b3]; rfl

-- a history with refused calls: the second exceeds the size, the third is the last part and too short, the fourth exceeds the number of parts
example : (history 5 3 0 0 [2, 4, 2, 1]).1 = [true, false, false, false] ∧ (history 5 3 0 0 [2, 4, 3]) = ([true, false, true], 5) := by decide

theorem history_last (size parts : Nat) (lens : List Nat) (calls pos : Nat) (hc : calls + lens.length = parts) (hl : lens ≠ [])
    (h : (history size parts calls pos lens).1.getLast? = some true) : (history size parts calls pos lens).2 = size := by
  induction lens generalizing calls pos with
  | nil => exact absurd rfl hl
  | cons a t ih =>
    cases t with
    | nil =>
      simp only [history] at h ⊢
      split at h
      · rename_i ha
        rw [if_pos ha]
        simp [accepts] at ha hc
        omega
      · simp at h
    | cons b t =>
      have hne : ∀ c p, (history size parts c p (b :: t)).1 ≠ [] := by
        intro c p
        have : ∀ c p l, (history size parts c p l).1.length = l.length := by
          intro c p l
          induction l generalizing c p with
          | nil => rfl
          | cons x l ih => simp only [history]; split <;> simp [ih]
        intro h0
        have := this c p (b :: t)
        rw [h0] at this
        simp at this
      rw [history.eq_def] at h ⊢
      simp only at h ⊢
      split at h
      · rename_i ha
        rw [if_pos ha]
        rw [List.getLast?_cons, List.getLast?_eq_some_getLast (hne _ _)] at h
        apply ih
        · simp at hc ⊢; omega
        · simp
        · rw [List.getLast?_eq_some_getLast (hne _ _)]; simpa using h
      · rename_i ha
        rw [if_neg ha]
        rw [List.getLast?_cons, List.getLast?_eq_some_getLast (hne _ _)] at h
        apply ih
        · simp at hc ⊢; omega
        · simp
        · rw [List.getLast?_eq_some_getLast (hne _ _)]; simpa using h

/-- C44: an encoder that has accepted its last part is complete: `pos` is `size` and `part` is `parts`. -/
theorem C44_multi_post_complete (h : lib.IsLib) (name : Str) (size parts ls : Nat) (h1 : 1 ≤ ls) (h2 : ls + 6 < 2 ^ 31) (hp : 1 < parts)
    (hs : size < 2 ^ 53) (ds : List (List Byte)) (hd : ds.length = parts) (out : List Byte)
    (hl : ((multiPost name size parts ls).run lib ds).2.getLast? = some (.ret out)) :
    ((multiPost name size parts ls).run lib ds).1.pos = size ∧ ((multiPost name size parts ls).run lib ds).1.part = parts := by
  obtain ⟨c1, _, c3, c4⟩ := C44_multi_post_protocol h name size parts ls h1 h2 hp hs ds
  refine ⟨?_, by rw [c3, hd]⟩
  rw [c4]
  apply history_last
  · simpa using hd
  · intro h0
    have : ds = [] := by simpa using h0
    subst this; simp at hd; omega
  · rw [← c1, List.getLast?_map, hl]; rfl

/-- C44 for one part: the call throws iff the size is wrong, and can then be retried; after a successful call every further call throws. -/
theorem C44_single_post_protocol (h : lib.IsLib) (name : Str) (size parts ls : Nat) (h1 : 1 ≤ ls) (h2 : ls + 6 < 2 ^ 31) (hp : parts ≤ 1) (d : List Byte) :
    let e := multiPost name size parts ls
    (d.length ≠ size → (∃ m, (e.encode lib d).2 = .throw m) ∧ (e.encode lib d).1 = e) ∧
    (d.length = size → (∃ out, (e.encode lib d).2 = .ret out) ∧ (e.encode lib d).1.pos = size ∧ (e.encode lib d).1.part = 1 ∧
      ∀ d', ∃ m, (((e.encode lib d).1).encode lib d').2 = .throw m) := by
  have h3 : ¬ ls = 0 := by omega
  have h4 : ¬ parts > 1 := by omega
  constructor
  · intro hd
    have hd' : size ≠ d.length := fun h => hd h.symm
    simp only [multiPost, if_neg h3, if_neg h4, YEnc.encode, YEnc.encodeSingle]
    simp [hd']
  · rintro rfl
    simp only [multiPost, if_neg h3, if_neg h4, YEnc.encode, YEnc.encodeSingle, crc32_eq h, encode_eq h d ls h1 h2]
    simp

/-- C47, false as coded: with this file name the single-part post has a second, injected header line. -/
theorem C47_header_injection_false :
    let name := lit "a\r\n=ypart begin=1 end=9"
    ((multiPost name 1 1 128).encode genericLib [65#8]).2 =
      .ret (text "=ybegin line=128 size=1 name=a\r\n=ypart begin=1 end=9\r\nk\r\n=yend size=1 crc32=d3d99e8b") := by
  decide +kernel

/-- C47, the sanitiser does not even remove all occurrences of the sequence it looks for. -/
theorem C47_sanitiser_incomplete : [13, 10, 0] <:+: removeBad (lit "\r\n" ++ [13, 10, 0, 0]) := by
  decide

/-- C47, where it holds.  Partial: names without the sequence CR LF stay on one line: the first line break after the start of the name is the one that
the library appends.  (Names with CR LF are the counter-examples above.) -/
theorem C47_one_line_partial (h : lib.IsLib) (name : Str) (ls : Nat) (h1 : 1 ≤ ls) (h2 : ls + 6 < 2 ^ 31) (d : List Byte)
    (hu : ∀ u ∈ name, u < 65536) (hn : ¬ [13, 10] <:+: name) :
    ∃ nm body crc, ((multiPost name d.length 1 ls).encode lib d).2 = .ret (singlePost ls d.length nm body crc) ∧ ¬ [CR, LF] <:+: nm ∧
      ∀ i < nm.length, ¬ [CR, LF] <+: (nm ++ text "\r\n").drop i := by
  refine ⟨fileName name, Spec.encode ls true 0 d, Crc.crc1 0 d, ?_, fileName_no_crlf name hu hn, ?_⟩
  · exact single_eq h name ls 1 h1 h2 d (by omega)
  · intro i hi hpre
    have f := find_crlf (fileName name) [] (fileName_no_crlf name hu hn)
    exact find_first f i hi hpre

example : ¬ [13, 10] <:+: lit "a\rb\nc =yend name" ∧ ∀ u ∈ lit "a\rb\nc =yend name", u < 65536 := by decide

/-- C48, false as coded: `post` never returns, whatever the arguments. -/
theorem C48_post_false (name : Option Str) (data : List Byte) (ls : Nat) : ∃ m, post name data ls = .throw m := by
  cases name <;> exact ⟨_, rfl⟩

end Yenc.Props
