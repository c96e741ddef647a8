import Verif.Model.JsArgs
import Verif.Lemmas.JsEnc
import Verif.Lemmas.Number
import Verif.Props.Number
/-! `multi_post` with any primitive values. -/
namespace Yenc.Js
open Yenc Spec

theorem utf8Encode_asciis (s : Str) (h : ∀ c ∈ s, c < 128) : utf8Encode s = ascii s := by
  induction s with
  | nil => rfl
  | cons a s ih =>
    have ha := h a (by simp)
    have h1 : isHigh a = false := by simp [isHigh]; omega
    have h2 : isLow a = false := by simp [isLow]; omega
    have h3 : utf8Char a = [BitVec.ofNat 8 a] := by unfold utf8Char; rw [if_pos (by omega)]
    cases s with
    | nil => simp [utf8Encode, h1, h2, h3, ascii]
    | cons b s =>
      rw [utf8Encode]
      simp only [h1, h2, Bool.false_and, Bool.or_self, Bool.false_eq_true, if_false, h3]
      rw [ih fun c hc => h c (by simp [hc])]
      simp [ascii]

/-- `v` stands for `n`. -/
structure Prim.Is (sh : Number → Str) (v : Prim) (n : Nat) : Prop where
  eq : ∀ m, v.eqNat m = decide (m = n)
  num : v.numeric = .fin n
  str : v.toStr sh = dec n

theorem Prim.Is.gt {sh : Number → Str} {v : Prim} {n : Nat} (h : v.Is sh n) (m : Nat) : v.gtNat m = decide (m > n) := by
  simp [Prim.gtNat, h.num, Number.lt]

theorem ne_fin (m n : Nat) : Number.ne (.fin m) (.fin n) = decide (m ≠ n) := by simp [Number.ne]

theorem Prim.is_num {sh : Number → Str} {n : Nat} (hs : sh (.fin n) = dec n) : (Prim.num (.fin n)).Is sh n :=
  ⟨fun m => by simp [Prim.eqNat, Prim.numeric, ne_fin], rfl, hs⟩

theorem Prim.is_big {sh : Number → Str} (n : Nat) : (Prim.big n).Is sh n :=
  ⟨fun m => by
    have := ne_fin m n
    simp only [Prim.eqNat, Prim.numeric, Int.cast_natCast, this]; simp, by simp [Prim.numeric], by simp [Prim.toStr]⟩

theorem ofStr_dec {n : Nat} (h : n ≤ 2 ^ 53) : Number.ofStr (dec n) = .fin n := by
  rw [Props.ofStr_digits (isNumber_dec n), decVal_dec, Number.rnd_nat h]

theorem Prim.is_str {sh : Number → Str} {n : Nat} (h : n ≤ 2 ^ 53) : (Prim.str (dec n)).Is sh n :=
  ⟨fun m => by simp [Prim.eqNat, Prim.numeric, ofStr_dec h, ne_fin], by simp [Prim.numeric, ofStr_dec h], rfl⟩

theorem toArg_nat {n : Nat} (h : n < 2 ^ 63) : (Prim.num (.fin n)).toArg = .int n := by
  have : ((n : ℚ)).den = 1 := Rat.den_natCast _
  have h2 : ((n : ℚ)).num = n := Rat.num_natCast _
  simp only [Prim.toArg, this, h2, true_and]
  rw [if_pos (by omega)]

/-- An encoder with values in the place of integers. -/
structure PrimSim (sh : Number → Str) (v : YEncV) (e : YEnc) : Prop where
  size : v.size.Is sh e.size
  parts : v.parts.Is sh e.parts
  line : v.lineSize.toArg = .int e.lineSize
  part : v.part = e.part
  pos : v.pos = e.pos
  crc : v.crc = e.crc
  yInfo : v.yInfo = e.yInfo
  mode : v.mode = e.mode

variable {lib : Lib} {sh : Number → Str}

theorem PrimSim.finish {v : YEncV} {e : YEnc} (h : PrimSim sh v e) (d : List Byte) (yi : Option (List Byte)) (crc : List Byte) (f : Str) :
    (v.finish lib d yi crc f).2 = (e.finish lib d yi crc f).2 ∧ PrimSim sh (v.finish lib d yi crc f).1 (e.finish lib d yi crc f).1 := by
  obtain ⟨vs, vp, vl, a, b, c, y, m⟩ := v
  obtain ⟨h1, h2, h3, h4, h5, h6, h7, h8⟩ := h
  dsimp only at h1 h2 h3 h4 h5 h6 h7 h8
  subst h4 h5 h6 h7 h8
  unfold YEncV.finish YEnc.finish
  cases yi with
  | none => exact ⟨rfl, ⟨h1, h2, h3, rfl, rfl, rfl, rfl, rfl⟩⟩
  | some yi =>
    simp only [h3]
    cases Enc.apiEncode lib.enc [.buffer d, .int e.lineSize] <;> exact ⟨rfl, ⟨h1, h2, h3, rfl, rfl, rfl, rfl, rfl⟩⟩

theorem PrimSim.sums {v : YEncV} {e : YEnc} (h : PrimSim sh v e) (d : List Byte) :
    (v.sums lib d).2 = (e.sums lib d).2 ∧ PrimSim sh (v.sums lib d).1 (e.sums lib d).1 := by
  obtain ⟨vs, vp, vl, a, b, c, y, m⟩ := v
  obtain ⟨h1, h2, h3, h4, h5, h6, h7, h8⟩ := h
  dsimp only at h1 h2 h3 h4 h5 h6 h7 h8
  subst h4 h5 h6 h7 h8
  unfold YEncV.sums YEnc.sums
  dsimp only
  cases lib.crc32 d with
  | throw m => exact ⟨rfl, ⟨h1, h2, h3, rfl, rfl, rfl, rfl, rfl⟩⟩
  | ub => exact ⟨rfl, ⟨h1, h2, h3, rfl, rfl, rfl, rfl, rfl⟩⟩
  | ret crc =>
    dsimp only
    cases Crc.apiCombine lib.crc [.buffer e.crc, .buffer crc, .int d.length] with
    | throw m => exact ⟨rfl, ⟨h1, h2, h3, rfl, rfl, rfl, rfl, rfl⟩⟩
    | ub => exact ⟨rfl, ⟨h1, h2, h3, rfl, rfl, rfl, rfl, rfl⟩⟩
    | ret full =>
      dsimp only
      by_cases hp : e.part = e.parts
      · rw [if_pos (by rw [h2.eq]; simpa using hp), if_pos hp]
        by_cases hs : e.pos + d.length = e.size
        · rw [if_neg (by rw [h1.eq]; simpa using hs), if_neg (by simpa using hs)]
          exact PrimSim.finish ⟨h1, h2, h3, rfl, rfl, rfl, rfl, rfl⟩ _ _ _ _
        · rw [if_pos (by rw [h1.eq]; simpa using hs), if_pos hs]
          exact ⟨rfl, ⟨h1, h2, h3, rfl, rfl, rfl, rfl, rfl⟩⟩
      · rw [if_neg (by rw [h2.eq]; simpa using hp), if_neg hp]
        exact PrimSim.finish ⟨h1, h2, h3, rfl, rfl, rfl, rfl, rfl⟩ _ _ _ _

theorem PrimSim.encode {v : YEncV} {e : YEnc} (h : PrimSim sh v e) (d : List Byte) :
    (v.encode lib d).2 = (e.encode lib d).2 ∧ PrimSim sh (v.encode lib d).1 (e.encode lib d).1 := by
  obtain ⟨vs, vp, vl, a, b, c, y, m⟩ := v
  obtain ⟨h1, h2, h3, h4, h5, h6, h7, h8⟩ := h
  dsimp only at h1 h2 h3 h4 h5 h6 h7 h8
  subst h4 h5 h6 h7 h8
  unfold YEncV.encode YEnc.encode
  dsimp only
  cases hm : e.mode with
  | done => exact ⟨rfl, ⟨h1, h2, h3, rfl, rfl, rfl, rfl, hm.symm⟩⟩
  | multi =>
    simp only [YEncV.encodeMulti, YEnc.encodeMulti]
    by_cases g1 : e.part + 1 > e.parts
    · rw [if_pos (by rw [h2.gt]; simpa using g1), if_pos g1]
      exact ⟨rfl, ⟨h1, h2, h3, rfl, rfl, rfl, rfl, hm.symm⟩⟩
    · rw [if_neg (by rw [h2.gt]; simpa using g1), if_neg g1]
      by_cases g2 : e.pos + d.length > e.size
      · rw [if_pos (by rw [h1.gt]; simpa using g2), if_pos g2]
        exact ⟨rfl, ⟨h1, h2, h3, rfl, rfl, rfl, rfl, hm.symm⟩⟩
      · rw [if_neg (by rw [h1.gt]; simpa using g2), if_neg g2]
        exact PrimSim.sums ⟨h1, h2, h3, rfl, rfl, rfl, rfl, hm.symm⟩ d
  | single =>
    simp only [YEncV.encodeSingle, YEnc.encodeSingle]
    by_cases g1 : d.length = e.size
    · rw [if_neg (by rw [h1.eq]; simpa using g1), if_neg (by simpa using g1.symm)]
      cases lib.crc32 d with
      | throw m => exact ⟨rfl, ⟨h1, h2, h3, rfl, rfl, rfl, rfl, rfl⟩⟩
      | ub => exact ⟨rfl, ⟨h1, h2, h3, rfl, rfl, rfl, rfl, rfl⟩⟩
      | ret crc =>
        dsimp only
        cases e.yInfo with
        | none => exact ⟨rfl, ⟨h1, h2, h3, rfl, rfl, rfl, rfl, rfl⟩⟩
        | some yi =>
          simp only [h3]
          cases Enc.apiEncode lib.enc [.buffer d, .int e.lineSize] <;> exact ⟨rfl, ⟨h1, h2, h3, rfl, rfl, rfl, rfl, rfl⟩⟩
    · rw [if_pos (by rw [h1.eq]; simpa using g1), if_pos (fun h => g1 h.symm)]
      exact ⟨rfl, ⟨h1, h2, h3, rfl, rfl, rfl, rfl, hm.symm⟩⟩

theorem PrimSim.run {v : YEncV} {e : YEnc} (h : PrimSim sh v e) (ds : List (List Byte)) :
    (v.run lib ds).2 = (e.run lib ds).2 ∧ PrimSim sh (v.run lib ds).1 (e.run lib ds).1 := by
  induction ds generalizing v e with
  | nil => exact ⟨rfl, h⟩
  | cons d ds ih =>
    obtain ⟨a, b⟩ := h.encode (lib := lib) d
    obtain ⟨a', b'⟩ := ih b
    exact ⟨by simp only [YEncV.run, YEnc.run, a, a'], b'⟩

theorem lit_lt {s : String} (h : s.toList.all (fun c => c.toNat < 128) = true) : ∀ c ∈ lit s, c < 128 := by
  intro c hc
  simp only [lit, List.mem_map] at hc
  obtain ⟨x, hx, rfl⟩ := hc
  have := List.all_eq_true.mp h x hx
  simpa using this

theorem append_lt {a b : Str} (ha : ∀ c ∈ a, c < 128) (hb : ∀ c ∈ b, c < 128) : ∀ c ∈ a ++ b, c < 128 := by
  intro c hc
  rcases List.mem_append.mp hc with h | h
  · exact ha c h
  · exact hb c h

theorem PrimSim.init (name : Str) {size parts ls : Prim} {n p l : Nat} (hn : size.Is sh n) (hp : parts.Is sh p)
    (hl : (ls.falsy = true ∧ l = 0) ∨ (ls.falsy = false ∧ l ≠ 0 ∧ ls.toArg = .int l ∧ ls.toStr sh = dec l)) (h128 : sh (.fin 128) = dec 128) :
    PrimSim sh (multiPostV sh name size parts ls) (multiPost name n p l) := by
  have key : (if ls.falsy then Prim.num (.fin 128) else ls).toArg = .int ((if l = 0 then 128 else l : Nat) : Int) ∧
      (if ls.falsy then Prim.num (.fin 128) else ls).toStr sh = dec (if l = 0 then 128 else l) := by
    rcases hl with ⟨h1, rfl⟩ | ⟨h1, h2, h3, h4⟩
    · rw [if_pos h1, if_pos rfl]
      exact ⟨toArg_nat (n := 128) (by decide), h128⟩
    · rw [if_neg (by simp [h1]), if_neg h2]
      exact ⟨h3, h4⟩
  have e1 : ∀ a b c : Nat, utf8Encode (lit " total=" ++ dec a ++ lit " line=" ++ dec b ++ lit " size=" ++ dec c ++ lit " name=") =
      ascii (lit " total=" ++ dec a ++ lit " line=" ++ dec b ++ lit " size=" ++ dec c ++ lit " name=") := by
    intro a b c
    refine utf8Encode_asciis _ ?_
    repeat' apply append_lt
    all_goals first | exact dec_lt_128 _ | exact lit_lt (by decide)
  have e2 : ∀ b c : Nat, utf8Encode (lit "=ybegin line=" ++ dec b ++ lit " size=" ++ dec c ++ lit " name=") =
      ascii (lit "=ybegin line=" ++ dec b ++ lit " size=" ++ dec c ++ lit " name=") := by
    intro b c
    refine utf8Encode_asciis _ ?_
    repeat' apply append_lt
    all_goals first | exact dec_lt_128 _ | exact lit_lt (by decide)
  have e3 : Number.lt (.fin 1) parts.numeric = decide (p > 1) := by
    rw [hp.num]; simp [Number.lt]
  unfold multiPostV multiPost
  simp only [e3, key.2, hn.str, hp.str, e1, e2]
  by_cases h : p > 1
  · simp only [h, decide_true, if_true]
    exact ⟨hn, hp, key.1, rfl, rfl, rfl, rfl, rfl⟩
  · simp only [h, decide_false, Bool.false_eq_true, if_false]
    exact ⟨hn, hp, key.1, rfl, rfl, rfl, rfl, rfl⟩

end Yenc.Js
