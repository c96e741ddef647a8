import Verif.Model.JsPost
import Verif.Props.Crc
import Verif.Spec.Post
/-! The multi-part encoder, call by call. -/
namespace Yenc.Js
open Yenc Spec

/-- The library is made of implementations that can be installed. -/
structure Lib.IsLib (lib : Lib) : Prop where
  enc : Enc.IsImpl lib.enc
  dec : Dec.IsImpl lib.dec
  crc : Crc.IsImpl lib.crc

/-! ### Texts -/

theorem text_append (a b : String) : text (a ++ b) = text a ++ text b := by simp [text]

theorem text_lit (s : String) : text s = ascii (lit s) := by simp [text, ascii, lit]

theorem ascii_append (a b : Str) : ascii (a ++ b) = ascii a ++ ascii b := by simp [ascii]

theorem text_toString (n : Nat) : text (toString n) = ascii (dec n) := by
  simp [text, ascii, dec, toString, Nat.repr]

theorem text_hex8 (v : BitVec 32) (b : List Byte) (h : CrcBuf b v) : text (hex8 v) = ascii (hex b) := by
  obtain ⟨h1, h2⟩ := h
  rcases b with _ | ⟨a, _ | ⟨b, _ | ⟨c, _ | ⟨d, _ | ⟨e, l⟩⟩⟩⟩⟩ <;> simp at h1
  have hd : ∀ n, n < 16 → (Nat.digitChar n).toNat = hexDigit n := by decide
  have := a.isLt; have := b.isLt; have := c.isLt; have := d.isLt
  simp only [beValue, List.foldl_cons, List.foldl_nil] at h2
  simp only [text, hex8, ascii, hex, String.toList_ofList, List.map_map, List.range_succ, List.range_zero, List.nil_append, List.map_append,
    List.map_cons, List.map_nil, Function.comp, List.flatMap_cons, List.flatMap_nil, List.append_nil, List.cons_append]
  rw [← h2]
  simp only [hd _ (Nat.mod_lt _ (by decide : 0 < 16))]
  congr 1
  · congr 2; omega
  congr 1
  · congr 2; omega
  congr 1
  · congr 2; omega
  congr 1
  · congr 2; omega
  congr 1
  · congr 2; omega
  congr 1
  · congr 2; omega
  congr 1
  · congr 2; omega
  congr 1
  · congr 2; omega

/-! ### The native calls -/

variable {lib : Lib}

theorem crc32_eq (h : lib.IsLib) (d : List Byte) : lib.crc32 d = .ret (Crc.packCrc (Crc.crc1 0 d)) :=
  Crc.apiCrc32_nil h.crc.correct _ d

theorem encode_eq (h : lib.IsLib) (d : List Byte) (ls : Nat) (h1 : 1 ≤ ls) (h2 : ls + 6 < 2 ^ 31) :
    Enc.apiEncode lib.enc [.buffer d, .int ls] = .ret (Spec.encode ls true 0 d) := by
  have h3 := Enc.apiEncode_eq h.enc.correct ls 0 d h1 h2 (by omega)
  rw [← h3]
  unfold Enc.apiEncode
  have h4 := Enc.lineArgs_eq ls 0 h1 (by omega) (by omega) []
  have h5 : Enc.lineArgs [.int ls] = .ret ((ls : Int), 0) := by
    have h6 : ¬ ((ls : Int) = 0) := by omega
    have h7 : ¬ ((ls : Int) < 0) := by omega
    simp only [Enc.lineArgs, argToInt, Outcome.bind, toInt32_of_lt ls (by omega), if_neg h6, if_neg h7]
  simp only [h5]
  split
  · rfl
  · have : Enc.lineArgs [.int ls, .int 0] = .ret ((ls : Int), 0) := by simpa using h4
    simp [this]

theorem combine_eq (h : lib.IsLib) (a b : List Byte) (hb : b.length < 2 ^ 63) :
    Crc.apiCombine lib.crc [.buffer (Crc.packCrc (Crc.crc1 0 a)), .buffer (Crc.packCrc (Crc.crc1 0 b)), .int b.length] =
      .ret (Crc.packCrc (Crc.crc1 0 (a ++ b))) := by
  rw [Props.C27_combine h.crc 0 0 0 a b _ _ [] hb (Crc.apiCrc32_nil h.crc.correct 0 a) (Crc.apiCrc32_nil h.crc.correct 0 b),
    Crc.apiCrc32_nil h.crc.correct]

/-! ### One call -/

/-- The header line of a multi-part post after the part number. -/
def multiInfo (name : Str) (size parts ls : Nat) : List Byte :=
  ascii (lit " total=" ++ dec parts ++ lit " line=" ++ dec ls ++ lit " size=" ++ dec size ++ lit " name=") ++ fileName name ++ [CR, LF]

theorem partText_eq (part pos len total ls size : Nat) (name : Str) (body : List Byte) (pcrc : BitVec 32) :
    partText part pos len (multiInfo name size total ls) body (Crc.packCrc pcrc) [] =
      partPost part total ls size (fileName name) pos len body pcrc none ∧
    ∀ crc, partText part pos len (multiInfo name size total ls) body (Crc.packCrc pcrc) (lit " crc32=" ++ hex (Crc.packCrc crc)) =
      partPost part total ls size (fileName name) pos len body pcrc (some crc) := by
  have e : text "\r\n" = [CR, LF] := by decide
  have e' : ascii (lit "\r\n") = [CR, LF] := by decide
  have e'' : text "" = [] := by decide
  constructor
  · simp only [partText, partPost, multiInfo, text_append, text_toString, text_hex8 _ _ (Crc.packCrc_buf _), ascii_append, List.append_assoc,
      e', e'']
    simp only [text_lit, ascii_append, List.append_assoc, e']
    simp [ascii]
  · intro crc
    simp only [partText, partPost, multiInfo, text_append, text_toString, text_hex8 _ _ (Crc.packCrc_buf _), ascii_append, List.append_assoc,
      e']
    simp only [text_lit, e']

/-- The state of a multi-part encoder after `calls` calls, having accepted the data `acc`. -/
structure EncInv (name : Str) (size parts ls : Nat) (e : YEnc) (calls : Nat) (acc : List Byte) : Prop where
  hsize : e.size = size
  hparts : e.parts = parts
  hline : e.lineSize = ls
  mode : e.mode = .multi
  part : e.part = calls
  pos : e.pos = acc.length
  le : acc.length ≤ size
  info : calls < parts → e.yInfo = some (multiInfo name size parts ls)
  crc : calls < parts ∨ acc.length = size → e.crc = Crc.packCrc (Crc.crc1 0 acc)

/-- What a part looks like. -/
noncomputable def partOf (name : Str) (size parts ls calls : Nat) (acc d : List Byte) : List Byte :=
  partPost (calls + 1) parts ls size (fileName name) acc.length d.length (Spec.encode ls true 0 d) (Crc.crc1 0 d)
    (if calls + 1 = parts then some (Crc.crc1 0 (acc ++ d)) else none)

variable {name : Str} {size parts ls : Nat}

theorem EncInv.init (hp : 1 < parts) (h1 : 1 ≤ ls) : EncInv name size parts ls (multiPost name size parts ls) 0 [] := by
  have h2 : ¬ ls = 0 := by omega
  constructor <;> simp [multiPost, hp, h2, multiInfo, List.append_assoc]
  intro _; decide

theorem EncInv.accept (h : lib.IsLib) (hs : size < 2 ^ 63) (h1 : 1 ≤ ls) (h2 : ls + 6 < 2 ^ 31) {e : YEnc} {calls : Nat} {acc : List Byte}
    (hi : EncInv name size parts ls e calls acc) (d : List Byte) (ha : accepts size parts calls acc.length d.length = true) :
    (e.encode lib d).2 = .ret (partOf name size parts ls calls acc d) ∧
      EncInv name size parts ls (e.encode lib d).1 (calls + 1) (acc ++ d) := by
  simp only [accepts, Bool.and_eq_true, Bool.or_eq_true, decide_eq_true_eq] at ha
  obtain ⟨⟨ha1, ha2⟩, ha3⟩ := ha
  have g1 : ¬ calls + 1 > parts := by omega
  have g2 : ¬ acc.length + d.length > size := by omega
  by_cases hl : calls + 1 = parts
  · have g3 : acc.length + d.length = size := by simpa [hl] using ha3
    have key : e.encode lib d = ({ e with part := calls + 1, crc := Crc.packCrc (Crc.crc1 0 (acc ++ d)), yInfo := none, pos := acc.length + d.length },
        .ret (partOf name size parts ls calls acc d)) := by
      simp only [YEnc.encode, hi.mode, YEnc.encodeMulti, hi.part, hi.hparts, hi.pos, hi.hsize, if_neg g1, if_neg g2, YEnc.sums, crc32_eq h,
        hi.crc (.inl ha1), combine_eq h acc d (by omega), if_pos hl, g3, gt_iff_lt, Nat.lt_irrefl, ne_eq, not_true_eq_false, if_false, YEnc.finish, hi.info ha1, hi.hline,
        encode_eq h d ls h1 h2, partOf, (partText_eq _ _ _ _ _ _ _ _ _).2]
    rw [key]
    refine ⟨rfl, ?_⟩
    constructor <;> simp [hi.hsize, hi.hparts, hi.hline, hi.mode, g3]
    omega
  · have key : e.encode lib d = ({ e with part := calls + 1, crc := Crc.packCrc (Crc.crc1 0 (acc ++ d)), pos := acc.length + d.length },
        .ret (partOf name size parts ls calls acc d)) := by
      simp only [YEnc.encode, hi.mode, YEnc.encodeMulti, hi.part, hi.hparts, hi.pos, hi.hsize, if_neg g1, if_neg g2, YEnc.sums, crc32_eq h,
        hi.crc (.inl ha1), combine_eq h acc d (by omega), if_neg hl, YEnc.finish, hi.info ha1, hi.hline,
        encode_eq h d ls h1 h2, partOf, (partText_eq _ _ _ _ _ _ _ _ _).1]
    rw [key]
    refine ⟨rfl, ?_⟩
    constructor <;> simp [hi.hsize, hi.hparts, hi.hline, hi.mode, hi.info ha1]
    omega

theorem EncInv.reject (h : lib.IsLib) (hs : size < 2 ^ 63) {e : YEnc} {calls : Nat} {acc : List Byte}
    (hi : EncInv name size parts ls e calls acc) (d : List Byte) (ha : accepts size parts calls acc.length d.length = false) :
    (∃ m, (e.encode lib d).2 = .throw m) ∧ EncInv name size parts ls (e.encode lib d).1 (calls + 1) acc := by
  by_cases g1 : calls + 1 > parts
  · have key : e.encode lib d = ({ e with part := calls + 1 }, .throw "Exceeded number of specified yEnc parts") := by
      simp only [YEnc.encode, hi.mode, YEnc.encodeMulti, hi.part, hi.hparts, if_pos g1]
    rw [key]
    refine ⟨⟨_, rfl⟩, ?_⟩
    constructor <;> simp [hi.hsize, hi.hparts, hi.hline, hi.mode, hi.pos, hi.le]
    · omega
    · intro hh; exact hi.crc (hh.imp (by omega) id)
  by_cases g2 : acc.length + d.length > size
  · have key : e.encode lib d = ({ e with part := calls + 1 }, .throw "Exceeded total file size") := by
      simp only [YEnc.encode, hi.mode, YEnc.encodeMulti, hi.part, hi.hparts, if_neg g1, hi.pos, hi.hsize, if_pos g2]
    rw [key]
    refine ⟨⟨_, rfl⟩, ?_⟩
    constructor <;> simp [hi.hsize, hi.hparts, hi.hline, hi.mode, hi.pos, hi.le]
    · intro _; exact hi.info (by omega)
    · intro hh; exact hi.crc (hh.imp (by omega) id)
  have g3 : calls + 1 = parts ∧ acc.length + d.length ≠ size := by
    simp [accepts] at ha
    have := ha (by omega) (by omega)
    omega
  have key : e.encode lib d = ({ e with part := calls + 1, crc := Crc.packCrc (Crc.crc1 0 (acc ++ d)) }, .throw "File size doesn't match total data length") := by
      simp only [YEnc.encode, hi.mode, YEnc.encodeMulti, hi.part, hi.hparts, hi.pos, hi.hsize, if_neg g1, if_neg g2, YEnc.sums, crc32_eq h,
        hi.crc (.inl (show calls < parts by omega)), combine_eq h acc d (by omega), if_pos g3.1, g3.2, ne_eq, not_false_eq_true, if_true]
  rw [key]
  refine ⟨⟨_, rfl⟩, ?_⟩
  constructor <;> simp [hi.hsize, hi.hparts, hi.hline, hi.mode, hi.pos, hi.le]
  · omega
  · intro hh; omega

/-! ### Histories -/

/-- The data accepted in a history. -/
def accepted (size parts : Nat) : Nat → List Byte → List (List Byte) → List Byte
  | _, acc, [] => acc
  | calls, acc, d :: ds => accepted size parts (calls + 1) (if accepts size parts calls acc.length d.length then acc ++ d else acc) ds

/-- Did a call return? -/
def returned (o : Outcome (List Byte)) : Bool := match o with | .ret _ => true | _ => false

theorem run_inv (h : lib.IsLib) (hs : size < 2 ^ 63) (h1 : 1 ≤ ls) (h2 : ls + 6 < 2 ^ 31) (ds : List (List Byte)) {e : YEnc} {calls : Nat}
    {acc : List Byte} (hi : EncInv name size parts ls e calls acc) :
    EncInv name size parts ls (e.run lib ds).1 (calls + ds.length) (accepted size parts calls acc ds) ∧
      (e.run lib ds).2.map returned = (history size parts calls acc.length (ds.map List.length)).1 ∧
      (accepted size parts calls acc ds).length = (history size parts calls acc.length (ds.map List.length)).2 ∧
      .ub ∉ (e.run lib ds).2 := by
  induction ds generalizing e calls acc with
  | nil => simpa [YEnc.run, accepted, history] using hi
  | cons d ds ih =>
    simp only [YEnc.run, accepted, history, List.map_cons, List.length_cons]
    by_cases ha : accepts size parts calls acc.length d.length = true
    · obtain ⟨a1, a2⟩ := hi.accept h hs h1 h2 d ha
      obtain ⟨b1, b2, b3, b4⟩ := ih a2
      rw [if_pos ha, if_pos ha]
      rw [List.length_append] at b2 b3
      refine ⟨by rw [show calls + (ds.length + 1) = calls + 1 + ds.length by omega]; exact b1, ?_, b3, ?_⟩
      · rw [b2, a1]; rfl
      · rw [a1]; simpa using b4
    · have ha' : accepts size parts calls acc.length d.length = false := by simpa using ha
      obtain ⟨⟨m, a1⟩, a2⟩ := hi.reject h hs d ha'
      obtain ⟨b1, b2, b3, b4⟩ := ih a2
      rw [if_neg ha, if_neg ha]
      refine ⟨by rw [show calls + (ds.length + 1) = calls + 1 + ds.length by omega]; exact b1, ?_, b3, ?_⟩
      · rw [b2, a1]; rfl
      · rw [a1]; simpa using b4

/-- The parts produced from given pieces. -/
noncomputable def partsOf (name : Str) (size parts ls : Nat) : Nat → List Byte → List (List Byte) → List (List Byte)
  | _, _, [] => []
  | calls, acc, d :: ds => partOf name size parts ls calls acc d :: partsOf name size parts ls (calls + 1) (acc ++ d) ds

theorem run_all (h : lib.IsLib) (hs : size < 2 ^ 63) (h1 : 1 ≤ ls) (h2 : ls + 6 < 2 ^ 31) (ds : List (List Byte)) {e : YEnc} {calls : Nat}
    {acc : List Byte} (hi : EncInv name size parts ls e calls acc) (hp : calls + ds.length ≤ parts) (hz : acc.length + ds.flatten.length ≤ size)
    (hl : calls + ds.length = parts → acc.length + ds.flatten.length = size) :
    EncInv name size parts ls (e.run lib ds).1 (calls + ds.length) (acc ++ ds.flatten) ∧
      (e.run lib ds).2 = (partsOf name size parts ls calls acc ds).map .ret := by
  induction ds generalizing e calls acc with
  | nil => simpa [YEnc.run, partsOf] using hi
  | cons d ds ih =>
    simp only [List.length_cons, List.flatten_cons, List.length_append] at hp hz hl
    have ha : accepts size parts calls acc.length d.length = true := by
      simp only [accepts, Bool.and_eq_true, Bool.or_eq_true, decide_eq_true_eq]
      refine ⟨⟨by omega, by omega⟩, ?_⟩
      rcases ds with _ | ⟨d', ds⟩
      · simp at hl hp; omega
      · simp at hp; left; omega
    obtain ⟨a1, a2⟩ := hi.accept h hs h1 h2 d ha
    obtain ⟨b1, b2⟩ := ih a2 (by omega) (by rw [List.length_append]; omega) (by rw [List.length_append]; omega)
    simp only [YEnc.run, partsOf, List.map_cons, List.length_cons, List.flatten_cons]
    refine ⟨by rw [show calls + (ds.length + 1) = calls + 1 + ds.length by omega, ← List.append_assoc]; exact b1, by rw [a1, b2]⟩

end Yenc.Js
