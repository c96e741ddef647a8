import Verif.Lemmas.JsRegex
import Verif.Lemmas.JsFromPost
/-! The number of tests for the posts that the library makes itself. -/
namespace Yenc.Js
open Yenc Spec

theorem takeWhile_key (k r : Str) (h : ∀ c ∈ k, isPropChar c = true) : (k ++ 61 :: r).takeWhile isPropChar = k ∧ (k ++ 61 :: r).dropWhile isPropChar = 61 :: r := by
  induction k with
  | nil => exact ⟨rfl, rfl⟩
  | cons c k ih =>
    obtain ⟨h1, h2⟩ := ih fun c hc => h c (by simp [hc])
    have := h c (by simp)
    simp [this, h1, h2]

/-- Looking for a property where one begins. -/
theorem execAt_key (k r : Str) (hk : isKey k = true) : execAt reProp (k ++ 61 :: r) = (k.length + 2, some (0, r)) := by
  cases k with
  | nil => simp [isKey] at hk
  | cons c k =>
    simp only [isKey, Bool.and_eq_true, List.all_eq_true] at hk
    obtain ⟨h1, h2⟩ := takeWhile_key k r (fun x hx => hk.2 x (by simp [hx]))
    obtain ⟨g1, g2⟩ := tryMany_eq isPropChar (by decide) (k ++ 61 :: r)
    have e : matchItems reProp (c :: (k ++ 61 :: r)) = if isPropStart c = true then ((tryMany isPropChar (matchItems [.one (· = 61)]) (k ++ 61 :: r)).1 + 1, (tryMany isPropChar (matchItems [.one (· = 61)]) (k ++ 61 :: r)).2) else (1, none) := rfl
    rw [List.cons_append]
    unfold execAt
    rw [e, if_pos hk.1, g2, g1, h1, h2]
    simp

/-- The number of tests for the properties of a line. -/
def propSteps (tag : Str) : Nat → Str → Nat
  | 0, _ => 0
  | n + 1, line =>
    let m := execAt reProp line
    match m.2 with
    | none => m.1
    | some (index, after) => m.1 + propSteps tag n (propValue tag ((line.take (line.length - after.length - 1)).drop index) after).2

theorem parsePropsR_steps (tag : Str) (n : Nat) (line : Str) (p : Props) (ws : List String) (k : Nat) : (parsePropsR tag n line p ws k).2.2 = k + propSteps tag n line := by
  induction n generalizing line p ws k with
  | zero => rfl
  | succ n ih =>
    unfold parsePropsR propSteps
    dsimp only
    generalize execAt reProp line = m
    obtain ⟨m, o⟩ := m
    cases o with
    | none => rfl
    | some x => obtain ⟨i, a⟩ := x; simp only [ih]; omega

def lineSteps (line : Str) : Nat := propSteps (lineTag line) ((lineRest line).length + 1) (lineRest line)

theorem parseLinesR_steps (lines : List Str) (y : YData) (ws : List String) (k : Nat) : (parseLinesR lines y ws k).2.2 = k + (lines.map lineSteps).sum := by
  induction lines generalizing y ws k with
  | nil => rfl
  | cons l ls ih =>
    simp only [parseLinesR, ih, List.map_cons, List.sum_cons]
    have : (parseLineR l y ws k).2.2 = k + lineSteps l := parsePropsR_steps ..
    omega

theorem propSteps_nil (tag : Str) (n : Nat) : propSteps tag (n + 1) [] = 1 := rfl

theorem propSteps_key (tag k a : Str) (n : Nat) (hk : isKey k = true) : propSteps tag (n + 1) (k ++ 61 :: a) = k.length + 2 + propSteps tag n (propValue tag k a).2 := by
  have e : ((k ++ 61 :: a).take ((k ++ 61 :: a).length - a.length - 1)).drop 0 = k := by
    rw [List.drop_zero, List.take_left']
    simp; omega
  rw [propSteps, execAt_key k a hk]
  dsimp only
  rw [e]

theorem propSteps_cons (tag k v r : Str) (n : Nat) (hk : isKey k = true) (hv : 32 ∉ v) (ht : ¬ (tag = lit "begin" ∧ k = lit "name")) :
    propSteps tag (n + 1) (k ++ 61 :: (v ++ 32 :: r)) = k.length + 2 + propSteps tag n r := by
  have h := takeWhile_append_stop (fun c => decide (c ≠ 32)) v 32 r (by simp only [List.all_eq_true, decide_eq_true_eq]; rintro x hx rfl; exact hv hx) (by simp)
  rw [propSteps_key _ _ _ _ hk]
  simp only [propValue, if_neg ht, h.1]
  simp

theorem propSteps_last (tag k v : Str) (n : Nat) (hk : isKey k = true) (hv : 32 ∉ v) (ht : ¬ (tag = lit "begin" ∧ k = lit "name")) :
    propSteps tag (n + 2) (k ++ 61 :: v) = k.length + 3 := by
  have h : v.takeWhile (fun c => decide (c ≠ 32)) = v := by
    induction v with
    | nil => rfl
    | cons c v ih =>
      simp only [List.mem_cons, not_or] at hv
      rw [List.takeWhile_cons, if_pos (by simpa using Ne.symm hv.1), ih hv.2]
  rw [propSteps_key _ _ _ _ hk]
  simp only [propValue, if_neg ht, h]
  rw [List.drop_of_length_le (by omega), propSteps_nil]

theorem propSteps_name (v : Str) (n : Nat) : propSteps (lit "begin") (n + 2) (lit "name" ++ 61 :: v) = 7 := by
  rw [propSteps_key _ _ _ _ (by decide)]
  simp only [propValue, and_self, if_true]
  rfl

theorem steps_begin (ls size : Nat) (name : Str) (n : Nat) : propSteps (lit "begin") (n + 4) (beginProps ls size name) = 19 := by
  rw [beginProps, propSteps_cons _ _ _ _ _ (by decide) (dec_no_space _) (by decide), propSteps_cons _ _ _ _ _ (by decide) (dec_no_space _) (by decide), propSteps_name]
  rfl

theorem steps_beginPart (part total ls size : Nat) (name : Str) (n : Nat) : propSteps (lit "begin") (n + 6) (beginPartProps part total ls size name) = 32 := by
  rw [beginPartProps, propSteps_cons _ _ _ _ _ (by decide) (dec_no_space _) (by decide), propSteps_cons _ _ _ _ _ (by decide) (dec_no_space _) (by decide), steps_begin]
  rfl

theorem steps_part (b e : Nat) (n : Nat) : propSteps (lit "part") (n + 3) (partProps b e) = 13 := by
  rw [partProps, propSteps_cons _ _ _ _ _ (by decide) (dec_no_space _) (by decide), propSteps_last _ _ _ _ (by decide) (dec_no_space _) (by decide)]
  rfl

theorem steps_end (size : Nat) (crc : Str) (hc : 32 ∉ crc) (n : Nat) : propSteps (lit "end") (n + 3) (endProps size crc) = 14 := by
  rw [endProps, propSteps_cons _ _ _ _ _ (by decide) (dec_no_space _) (by decide), propSteps_last _ _ _ _ (by decide) hc (by decide)]
  rfl

theorem steps_endPart (size part : Nat) (pcrc : Str) (crc : Option Str) (hp : 32 ∉ pcrc) (hc : ∀ c, crc = some c → 32 ∉ c) (n : Nat) :
    propSteps (lit "end") (n + 5) (endPartProps size part pcrc crc) = if crc.isSome then 28 else 21 := by
  rw [endPartProps.eq_def, propSteps_cons _ _ _ _ _ (by decide) (dec_no_space _) (by decide), propSteps_cons _ _ _ _ _ (by decide) (dec_no_space _) (by decide)]
  cases crc with
  | none =>
    simp only [List.append_nil]
    rw [propSteps_last _ _ _ _ (by decide) hp (by decide)]
    rfl
  | some c =>
    simp only
    rw [propSteps_cons _ _ _ _ _ (by decide) hp (by decide), propSteps_last _ _ _ _ (by decide) (hc c rfl) (by decide)]
    rfl

theorem lineSteps_eq (t R : Str) (ht : 32 ∉ t) (h1 : ∀ c, R.head? = some c → isSpace c = false) (h2 : ∀ c, R.getLast? = some c → isSpace c = false) :
    lineSteps (lit "=y" ++ (t ++ 32 :: R)) = propSteps t (R.length + 1) R := by
  simp only [lineSteps, lineTag_eq t R ht, lineRest_eq t R ht h1 h2]

theorem layoutR_steps (env : Env) (H body tail : List Byte) (lines : List Str) (ht : CR ∉ tail) :
    (layoutR env (H ++ body ++ (text "\r\n=yend " ++ tail)) (.dataAt lines H.length)).1 = (lines.map lineSteps).sum + lineSteps (trim (env.toStr (text "=yend " ++ tail))) := by
  have t8 : (text "\r\n=yend ").length = 8 := by decide
  have e8 : text "\r\n=yend " = CR :: LF :: text "=yend " := by decide
  have d0 : (H ++ body ++ (text "\r\n=yend " ++ tail)).drop H.length = body ++ (text "\r\n=yend " ++ tail) := by simp
  have hcr : ∀ i, 0 < i → ∀ l, (text "\r\n=yend " ++ tail).drop i ≠ CR :: l := by
    intro i hi l hl
    have hm : CR ∈ (text "\r\n=yend " ++ tail).drop i := by rw [hl]; simp
    obtain ⟨j, rfl⟩ : ∃ j, i = j + 1 := ⟨i - 1, by omega⟩
    have : CR ∈ LF :: text "=yend " ++ tail := List.mem_of_mem_drop (by rw [e8] at hm; exact hm)
    rw [List.cons_append, List.mem_cons, List.mem_append] at this
    rcases this with h | h | h
    · exact absurd h (by decide)
    · exact absurd h (by decide)
    · exact ht h
  have r1 : findRev (text "\r\n=yend ") (body ++ (text "\r\n=yend " ++ tail)) = some body.length := by
    refine findRev_eq (by simp [t8]) (by simp) ?_
    rintro i h1 h2 ⟨s, hs⟩
    rw [List.drop_append, List.drop_of_length_le (by omega), List.nil_append] at hs
    exact hcr (i - body.length) (by omega) _ (by rw [← hs, e8]; rfl)
  have r2 : findFrom crlf (H ++ body ++ (text "\r\n=yend " ++ tail)) (H.length + body.length + 8) = none := by
    have : (H ++ body ++ (text "\r\n=yend " ++ tail)).drop (H.length + body.length + 8) = tail := by
      rw [← List.append_assoc, List.drop_append, List.drop_of_length_le (by simp [t8]; omega)]
      simp only [List.length_append, t8, List.nil_append]
      rw [show H.length + body.length + 8 - (H.length + body.length + 8) = 0 by omega]; rfl
    rw [findFrom, this, find_none]
    rintro i hi ⟨s, hs⟩
    have hm : CR ∈ tail.drop i := by rw [← hs]; simp [crlf]
    exact ht (List.mem_of_mem_drop hm)
  have r3 : ((H ++ body ++ (text "\r\n=yend " ++ tail)).take (H ++ body ++ (text "\r\n=yend " ++ tail)).length).drop (H.length + body.length + 2) =
      text "=yend " ++ tail := by
    rw [List.take_length, List.drop_append, List.drop_of_length_le (by simp)]
    rw [List.length_append, show H.length + body.length + 2 - (H.length + body.length) = 2 by omega, e8]
    rfl
  have e : ascii (lit "\r\n=yend ") = text "\r\n=yend " := (text_lit _).symm
  simp only [layoutR, d0, e, r1, r2, r3, parseLinesR_steps]
  simp

theorem fromPostR_one (lib : Lib) (env : Env) (L' body tail : List Byte) (isRaw : Bool) (hL : ¬ [CR, LF] <:+: L') (ht : CR ∉ tail)
    (h1 : (trim (env.toStr (text "=ybegin " ++ L'))).take 6 ≠ lit "=yend ")
    (h2 : ¬ [EQ, LY] <+: body ++ (text "\r\n=yend " ++ tail)) :
    let H := text "=ybegin " ++ L' ++ [CR, LF]
    let data := H ++ body ++ (text "\r\n=yend " ++ tail)
    (fromPostR lib env data isRaw).1 = lineSteps (trim (env.toStr (text "=ybegin " ++ L'))) + lineSteps (trim (env.toStr (text "=yend " ++ tail))) := by
  intro H data
  have t8 : (text "=ybegin ").length = 8 := by decide
  have e0 : data = text "=ybegin " ++ (L' ++ CR :: LF :: (body ++ (text "\r\n=yend " ++ tail))) := by simp [data, H]
  have s0 : findStart data = some 0 := by
    rw [findStart, e0, List.take_append_of_le_length (by rw [t8]), ← text_lit, if_pos (by rw [List.take_of_length_le (by rw [t8])])]
  have f0 : findFrom crlf data (0 + 8) = some (8 + L'.length) := by
    rw [findFrom, e0, Nat.zero_add, List.drop_append, List.drop_of_length_le (by rw [t8]), t8, Nat.sub_self, List.nil_append, List.drop_zero, crlf,
      find_crlf _ _ hL]
  have k0 : (data.take (8 + L'.length)).drop 0 = text "=ybegin " ++ L' := by
    rw [List.drop_zero, e0, ← List.append_assoc, List.take_append_of_le_length (by rw [List.length_append, t8]), List.take_of_length_le (by rw [List.length_append, t8])]
  have k1 : data.drop (8 + L'.length + 2) = body ++ (text "\r\n=yend " ++ tail) := by
    have : data = H ++ (body ++ (text "\r\n=yend " ++ tail)) := by simp [data]
    rw [this, List.drop_append, List.drop_of_length_le (by simp [H, t8]; omega)]
    have : 8 + L'.length + 2 - H.length = 0 := by simp [H, t8]; omega
    rw [this]; rfl
  obtain ⟨n, hn⟩ : ∃ n, data.length = n + 1 := ⟨data.length - 1, by rw [e0]; simp [t8]; omega⟩
  have hH : H.length = 8 + L'.length + 2 := by simp [H, t8]; omega
  have hd := headerLoop_data (env := env) data _ n 0 (8 + L'.length) [] (by omega) k0 h1 (by rw [k1]; exact h2)
  simp only [fromPostR, s0, f0, hn, hd, ← hH]
  rw [show data = H ++ body ++ (text "\r\n=yend " ++ tail) from rfl, layoutR_steps env H body tail _ ht]
  simp

theorem fromPostR_two (lib : Lib) (env : Env) (L' M' body tail : List Byte) (isRaw : Bool) (hL : ¬ [CR, LF] <:+: L') (hM : ¬ [CR, LF] <:+: text "=y" ++ M') (ht : CR ∉ tail)
    (h1 : (trim (env.toStr (text "=ybegin " ++ L'))).take 6 ≠ lit "=yend ") (h3 : (trim (env.toStr (text "=y" ++ M'))).take 6 ≠ lit "=yend ")
    (h2 : ¬ [EQ, LY] <+: body ++ (text "\r\n=yend " ++ tail)) :
    let H := text "=ybegin " ++ L' ++ [CR, LF] ++ (text "=y" ++ M') ++ [CR, LF]
    let data := H ++ body ++ (text "\r\n=yend " ++ tail)
    (fromPostR lib env data isRaw).1 = lineSteps (trim (env.toStr (text "=ybegin " ++ L'))) + lineSteps (trim (env.toStr (text "=y" ++ M'))) + lineSteps (trim (env.toStr (text "=yend " ++ tail))) := by
  intro H data
  have t8 : (text "=ybegin ").length = 8 := by decide
  have t2 : text "=y" = [EQ, LY] := by decide
  have e0 : data = text "=ybegin " ++ (L' ++ CR :: LF :: (text "=y" ++ M' ++ CR :: LF :: (body ++ (text "\r\n=yend " ++ tail)))) := by simp [data, H]
  have s0 : findStart data = some 0 := by
    rw [findStart, e0, List.take_append_of_le_length (by rw [t8]), ← text_lit, if_pos (by rw [List.take_of_length_le (by rw [t8])])]
  have f0 : findFrom crlf data (0 + 8) = some (8 + L'.length) := by
    rw [findFrom, e0, Nat.zero_add, List.drop_append, List.drop_of_length_le (by rw [t8]), t8, Nat.sub_self, List.nil_append, List.drop_zero, crlf,
      find_crlf _ _ hL]
  have k0 : (data.take (8 + L'.length)).drop 0 = text "=ybegin " ++ L' := by
    rw [List.drop_zero, e0, ← List.append_assoc, List.take_append_of_le_length (by rw [List.length_append, t8]), List.take_of_length_le (by rw [List.length_append, t8])]
  have k1 : data.drop (8 + L'.length + 2) = (text "=y" ++ M') ++ CR :: LF :: (body ++ (text "\r\n=yend " ++ tail)) := by
    have : data = (text "=ybegin " ++ L' ++ [CR, LF]) ++ ((text "=y" ++ M') ++ CR :: LF :: (body ++ (text "\r\n=yend " ++ tail))) := by simp [e0]
    rw [this, List.drop_append, List.drop_of_length_le (by simp [t8]; omega)]
    have : 8 + L'.length + 2 - (text "=ybegin " ++ L' ++ [CR, LF]).length = 0 := by simp [t8]; omega
    rw [this]; rfl
  have f1 : findFrom crlf data (8 + L'.length + 2) = some (8 + L'.length + 2 + (text "=y" ++ M').length) := by
    rw [findFrom, k1, crlf, find_crlf _ _ hM]
  have k2 : (data.take (8 + L'.length + 2 + (text "=y" ++ M').length)).drop (8 + L'.length + 2) = text "=y" ++ M' := by
    rw [← List.take_drop, k1, List.take_left' rfl]
  have k3 : data.drop (8 + L'.length + 2 + (text "=y" ++ M').length + 2) = body ++ (text "\r\n=yend " ++ tail) := by
    rw [Nat.add_assoc (8 + L'.length + 2), ← List.drop_drop, k1, List.drop_append, List.drop_of_length_le (by omega), Nat.add_sub_cancel_left]; rfl
  obtain ⟨n, hn⟩ : ∃ n, data.length = n + 1 + 1 := ⟨data.length - 2, by rw [e0]; simp [t8]; omega⟩
  have hH : H.length = 8 + L'.length + 2 + (text "=y" ++ M').length + 2 := by simp [H, t8]; omega
  have hd := headerLoop_next (env := env) data _ (n + 1) 0 (8 + L'.length) [] (by omega) k0 h1 (by rw [k1, t2]; simp)
  have hd2 := headerLoop_data (env := env) data _ n (8 + L'.length + 2) (8 + L'.length + 2 + (text "=y" ++ M').length) [trim (env.toStr (text "=ybegin " ++ L'))]
    (by omega) k2 h3 (by rw [k3]; exact h2)
  rw [List.nil_append, f1, hd2] at hd
  simp only [fromPostR, s0, f0, hn, hd, ← hH]
  rw [show data = H ++ body ++ (text "\r\n=yend " ++ tail) from rfl, layoutR_steps env H body tail _ ht]
  simp

theorem steps_single (lib : Lib) (env : Env) (hl : env.Lawful) (name : Str) (hn : SafeName name) (ls : Nat) (size : Nat) (crc0 : BitVec 32) (bd : List Byte) (hb : NoKeyword bd) (isRaw : Bool) :
    (fromPostR lib env (singlePost ls size (fileName name) bd crc0) isRaw).1 = 33 := by
  have e8 : ascii (lit "=y" ++ (lit "begin" ++ 32 :: beginProps ls size [])) = text "=ybegin " ++ ascii (beginProps ls size []) := by
    rw [text_lit, ← ascii_append]; rfl
  have l1 : trim (env.toStr (text "=ybegin " ++ (ascii (beginProps ls size []) ++ fileName name))) =
      lit "=y" ++ (lit "begin" ++ 32 :: beginProps ls size name) := by
    rw [← List.append_assoc, ← e8, toStr_name hl _ _ ?_ hn]
    · have : lit "=y" ++ (lit "begin" ++ 32 :: beginProps ls size []) ++ name = lit "=y" ++ (lit "begin" ++ 32 :: beginProps ls size name) := by
        rw [beginProps_name ls size name]; simp
      rw [this, trim_line _ _ (by simp [beginProps]) (begin_last ls _ name hn)]
    · exact (Printable.append (by unfold Printable; decide) (.append (by unfold Printable; decide) (.cons (by decide) (printable_beginProps _ _)))).lt
  generalize hcr : Crc.packCrc crc0 = c
  have hc4 : c.length = 4 := by rw [← hcr]; rfl
  have l2 : trim (env.toStr (text "=yend " ++ ascii (endProps size (hex c)))) = lit "=y" ++ (lit "end" ++ 32 :: endProps size (hex c)) := by
    have e6 : text "=yend " ++ ascii (endProps size (hex c)) = ascii (lit "=y" ++ (lit "end" ++ 32 :: endProps size (hex c))) := by
      rw [text_lit, ← ascii_append]; rfl
    rw [e6, toStr_ascii hl _ (Printable.append (by unfold Printable; decide) (.append (by unfold Printable; decide) (.cons (by decide) (printable_endProps _ _)))).lt]
    apply trim_line
    · simp [endProps]
    · exact end_last _ _ hc4
  have g := fromPostR_one lib env (ascii (beginProps ls size []) ++ fileName name) bd (ascii (endProps size (hex c))) isRaw
    (no_crlf_append _ _ (printable_beginProps _ _).no_cr (safe_no_crlf hn)) (printable_endProps _ _).no_cr
    (by rw [l1]; intro hh; exact absurd (hh.symm.trans (show _ = lit "=ybegi" from rfl)) (by decide))
    (by rw [show text "\r\n=yend " = CR :: LF :: text "=yend " from by decide]; exact hb.cr _)
  simp only at g
  have sh := single_shape ls size (fileName name) bd crc0
  rw [hcr, e8] at sh
  rw [List.append_assoc (text "=ybegin ")] at sh
  rw [← sh, l1, l2] at g
  rw [g, lineSteps_eq (lit "begin") (beginProps ls size name) (by decide) (head_key (lit "line") _ (by decide)) (begin_last ls _ name hn),
    lineSteps_eq (lit "end") (endProps size (hex c)) (by decide) (head_key (lit "size") _ (by decide)) (end_last _ _ hc4)]
  obtain ⟨n, hn1⟩ : ∃ n, (beginProps ls size name).length + 1 = n + 4 := ⟨(beginProps ls size name).length - 3, by simp [beginProps, lit]⟩
  obtain ⟨m, hm1⟩ : ∃ m, (endProps size (hex c)).length + 1 = m + 3 := ⟨(endProps size (hex c)).length - 2, by simp [endProps, lit]⟩
  rw [hn1, hm1, steps_begin, steps_end _ _ (hex_no_space _)]

theorem steps_multi (lib : Lib) (env : Env) (hl : env.Lawful) (name : Str) (hn : SafeName name) (part total ls size pos len : Nat) (crc0 : BitVec 32) (crc : Option (BitVec 32))
    (bd : List Byte) (hb : NoKeyword bd) (isRaw : Bool) :
    (fromPostR lib env (partPost part total ls size (fileName name) pos len bd crc0 crc) isRaw).1 = if crc.isSome then 73 else 66 := by
  have e8 : ascii (lit "=y" ++ (lit "begin" ++ 32 :: beginPartProps part total ls size [])) = text "=ybegin " ++ ascii (beginPartProps part total ls size []) := by
    rw [text_lit, ← ascii_append]; rfl
  have l1 : trim (env.toStr (text "=ybegin " ++ (ascii (beginPartProps part total ls size []) ++ fileName name))) =
      lit "=y" ++ (lit "begin" ++ 32 :: beginPartProps part total ls size name) := by
    rw [← List.append_assoc, ← e8, toStr_name hl _ _ ?_ hn]
    · have : lit "=y" ++ (lit "begin" ++ 32 :: beginPartProps part total ls size []) ++ name = lit "=y" ++ (lit "begin" ++ 32 :: beginPartProps part total ls size name) := by
        rw [beginPartProps_name part total ls size name]; simp
      rw [this, trim_line _ _ (by simp [beginPartProps]) (beginPart_last part total ls _ name hn)]
    · exact (Printable.append (by unfold Printable; decide) (.append (by unfold Printable; decide) (.cons (by decide) (printable_beginPartProps _ _ _ _)))).lt
  have pp : Printable (lit "part" ++ 32 :: partProps (pos + 1) (pos + len)) := .append (by unfold Printable; decide) (.cons (by decide) (printable_partProps _ _))
  have l3 : trim (env.toStr (text "=y" ++ ascii (lit "part" ++ 32 :: partProps (pos + 1) (pos + len)))) =
      lit "=y" ++ (lit "part" ++ 32 :: partProps (pos + 1) (pos + len)) := by
    rw [text_lit, ← ascii_append, toStr_ascii hl _ (Printable.append (by unfold Printable; decide) pp).lt]
    exact trim_line _ _ (by simp [partProps]) (part_last _ _)
  obtain ⟨co, hco⟩ : ∃ co : Option (List Byte), co = crc.map Crc.packCrc := ⟨_, rfl⟩
  have hco' : (crc.map fun c => hex (Crc.packCrc c)) = co.map hex := by rw [hco, Option.map_map]; rfl
  have hcl : ∀ x, co = some x → x.length = 4 := by
    intro x hx
    rw [hco] at hx
    cases crc with
    | none => simp at hx
    | some c => simp at hx; rw [← hx]; rfl
  generalize hcr : Crc.packCrc crc0 = c
  have hc4 : c.length = 4 := by rw [← hcr]; rfl
  have l2 : trim (env.toStr (text "=yend " ++ ascii (endPartProps len part (hex c) (co.map hex)))) = lit "=y" ++ (lit "end" ++ 32 :: endPartProps len part (hex c) (co.map hex)) := by
    have e6 : text "=yend " ++ ascii (endPartProps len part (hex c) (co.map hex)) = ascii (lit "=y" ++ (lit "end" ++ 32 :: endPartProps len part (hex c) (co.map hex))) := by
      rw [text_lit, ← ascii_append]; rfl
    rw [e6, toStr_ascii hl _ (Printable.append (by unfold Printable; decide) (.append (by unfold Printable; decide) (.cons (by decide) (printable_endPartProps _ _ _ _)))).lt]
    exact trim_line _ _ (by simp [endPartProps]) (endPart_last _ _ _ hc4 _ hcl)
  have g := fromPostR_two lib env (ascii (beginPartProps part total ls size []) ++ fileName name)
    (ascii (lit "part" ++ 32 :: partProps (pos + 1) (pos + len))) bd (ascii (endPartProps len part (hex c) (co.map hex))) isRaw
    (no_crlf_append _ _ (printable_beginPartProps _ _ _ _).no_cr (safe_no_crlf hn))
    (by
      rw [text_lit, ← ascii_append]
      intro hh
      exact (Printable.append (by unfold Printable; decide) pp).no_cr (hh.subset (by simp)))
    (printable_endPartProps _ _ _ _).no_cr
    (by rw [l1]; intro hh; exact absurd (hh.symm.trans (show _ = lit "=ybegi" from rfl)) (by decide))
    (by rw [l3]; intro hh; exact absurd (hh.symm.trans (show _ = lit "=ypart" from rfl)) (by decide))
    (by rw [show text "\r\n=yend " = CR :: LF :: text "=yend " from by decide]; exact hb.cr _)
  simp only at g
  have sh := part_shape part total ls size (fileName name) pos len bd crc0 crc
  rw [hcr, hco'] at sh
  rw [← sh, l1, l2, l3] at g
  rw [g, lineSteps_eq (lit "begin") (beginPartProps part total ls size name) (by decide) (head_key (lit "part") _ (by decide)) (beginPart_last part total ls _ name hn),
    lineSteps_eq (lit "part") (partProps (pos + 1) (pos + len)) (by decide) (head_key (lit "begin") _ (by decide)) (part_last _ _),
    lineSteps_eq (lit "end") (endPartProps len part (hex c) (co.map hex)) (by decide) (head_key (lit "size") _ (by decide)) (endPart_last _ _ _ hc4 _ hcl)]
  obtain ⟨n, hn1⟩ : ∃ n, (beginPartProps part total ls size name).length + 1 = n + 6 := ⟨(beginPartProps part total ls size name).length - 5, by simp [beginPartProps, beginProps, lit]⟩
  obtain ⟨k, hk1⟩ : ∃ k, (partProps (pos + 1) (pos + len)).length + 1 = k + 3 := ⟨(partProps (pos + 1) (pos + len)).length - 2, by simp [partProps, lit]⟩
  obtain ⟨m, hm1⟩ : ∃ m, (endPartProps len part (hex c) (co.map hex)).length + 1 = m + 5 := ⟨(endPartProps len part (hex c) (co.map hex)).length - 4, by simp [endPartProps, lit]⟩
  rw [hn1, hk1, hm1, steps_beginPart, steps_part, steps_endPart _ _ _ _ (hex_no_space _) (by intro x hx; cases co with | none => simp at hx | some y => simp at hx; rw [← hx]; exact hex_no_space _)]
  cases crc <;> subst hco <;> rfl

end Yenc.Js
