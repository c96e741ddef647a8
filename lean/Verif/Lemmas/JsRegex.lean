import Verif.Model.JsRegex
import Verif.Lemmas.JsHeader
/-! The regular expressions: what they match, and the number of tests. -/
namespace Yenc.Js
open Yenc Spec

/-- `[..]*=`: the characters of the class, then `=`, which is not one of them. -/
theorem tryMany_eq (p : Nat → Bool) (hp : p 61 = false) (l : Str) :
    (tryMany p (matchItems [.one (· = 61)]) l).2 = (match l.dropWhile p with | [] => none | e :: r => if e = 61 then some r else none) ∧
    (tryMany p (matchItems [.one (· = 61)]) l).1 =
      (if (tryMany p (matchItems [.one (· = 61)]) l).2.isSome then (l.takeWhile p).length + 2 else 2 * (l.takeWhile p).length + 2) := by
  have hk : ∀ c l, p c = true → matchItems [.one (· = 61)] (c :: l) = (1, none) := by
    intro c l hc
    have : ¬ c = 61 := by rintro rfl; simp [hp] at hc
    simp [matchItems, this]
  induction l with
  | nil => simp [tryMany, matchItems]
  | cons c l ih =>
    unfold tryMany
    by_cases hc : p c = true
    · simp only [hc, if_true, List.dropWhile_cons, List.takeWhile_cons, hk c l hc]
      obtain ⟨ih1, ih2⟩ := ih
      generalize tryMany p (matchItems [.one (· = 61)]) l = x at *
      obtain ⟨n, o⟩ := x
      cases o with
      | none => simp only [← ih1] at ih2 ⊢; simp at ih2 ⊢; omega
      | some r => simp only [← ih1] at ih2 ⊢; simp at ih2 ⊢; omega
    · simp only [hc, if_false, List.dropWhile_cons, List.takeWhile_cons, Bool.false_eq_true]
      by_cases h : c = 61 <;> simp [matchItems, h]

theorem matchItems_prop (l : Str) : (matchItems reProp l).2 = (matchHere l).map Prod.snd ∧ (matchItems reProp l).1 ≤ 2 * l.length + 1 ∧
    ((∀ c ∈ l, isPropStart c = true) → (matchItems reProp l).1 = 2 * l.length + 1) := by
  cases l with
  | nil => simp [reProp, matchItems, matchHere]
  | cons c l =>
    have h := tryMany_eq isPropChar (by decide) l
    have e : matchItems reProp (c :: l) = if isPropStart c = true then ((tryMany isPropChar (matchItems [.one (· = 61)]) l).1 + 1, (tryMany isPropChar (matchItems [.one (· = 61)]) l).2) else (1, none) := rfl
    rw [e]
    by_cases hc : isPropStart c = true
    · have hc' : isPropChar c = true := by simp [isPropChar, hc]
      simp only [hc, if_true, matchHere, List.dropWhile_cons, hc', h.1]
      have hlen : (l.takeWhile isPropChar).length ≤ l.length := (List.takeWhile_prefix _).length_le
      refine ⟨?_, ?_, ?_⟩
      · cases l.dropWhile isPropChar with
        | nil => rfl
        | cons e r => by_cases he : e = 61 <;> simp [he]
      · rw [h.2]
        simp only [List.length_cons]
        split <;> omega
      · intro hall
        have hd : l.dropWhile isPropChar = [] := by
          rw [← List.append_nil l, List.dropWhile_append_of_pos]
          · rfl
          · intro x hx
            simp [isPropChar, hall x (by simp [hx])]
        have ht : l.takeWhile isPropChar = l := by
          have := List.takeWhile_append_dropWhile (p := isPropChar) (l := l)
          rwa [hd, List.append_nil] at this
        rw [h.2, h.1, hd, ht]
        simp; omega
    · simp only [hc, if_false, matchHere, Bool.false_eq_true]
      refine ⟨rfl, by simp, fun h => absurd (h c (by simp)) hc⟩

theorem execAt_prop (l : Str) : (execAt reProp l).2 = (matchProp l).map fun x => (x.1.length, x.2.2) := by
  induction l with
  | nil => rfl
  | cons c l ih =>
    have h := (matchItems_prop (c :: l)).1
    unfold execAt matchProp
    cases hm : matchHere (c :: l) with
    | some x => rw [hm] at h; simp [h]
    | none =>
      rw [hm] at h
      simp only [h, Option.map_none, ih]
      cases matchProp l with
      | none => rfl
      | some x => obtain ⟨s, w, r⟩ := x; simp

theorem sq_succ (n : Nat) : (n + 1) ^ 2 = n ^ 2 + (2 * n + 1) := by ring

/-- The number of tests in looking for a property. -/
theorem execAt_count (l : Str) : (execAt reProp l).1 + (match matchProp l with | some x => (x.2.2.length + 2) ^ 2 | none => 0) ≤ (l.length + 1) ^ 2 := by
  induction l with
  | nil => simp [execAt, reProp, matchItems, matchProp]
  | cons c l ih =>
    obtain ⟨h1, h2, -⟩ := matchItems_prop (c :: l)
    unfold execAt matchProp
    have e : ((c :: l).length + 1) ^ 2 = (l.length + 1) ^ 2 + (2 * (c :: l).length + 1) := by simp only [List.length_cons]; ring
    rw [e]
    cases hm : matchHere (c :: l) with
    | some x =>
      obtain ⟨w, r⟩ := x
      rw [hm] at h1
      obtain ⟨g1, g2⟩ := matchHere_some hm
      have hw : 1 ≤ w.length := by cases w with
        | nil => simp [isKey] at g2
        | cons => simp
      have hl : r.length + 2 ≤ l.length + 1 := by have := congrArg List.length g1; simp at this; omega
      have := Nat.pow_le_pow_left hl 2
      simp only [h1, Option.map_some]
      omega
    | none =>
      rw [hm] at h1
      simp only [h1, Option.map_none]
      cases hp : matchProp l with
      | none => rw [hp] at ih; simp only at ih ⊢; omega
      | some x => rw [hp] at ih; obtain ⟨s, w, r⟩ := x; simp only at ih ⊢; omega

theorem execAt_letters (l : Str) (h : ∀ c ∈ l, isPropStart c = true) : (execAt reProp l).1 = (l.length + 1) ^ 2 ∧ (execAt reProp l).2 = none := by
  induction l with
  | nil => simp [execAt, reProp, matchItems]
  | cons c l ih =>
    obtain ⟨h1, -, h3⟩ := matchItems_prop (c :: l)
    have hm : matchHere (c :: l) = none := by
      cases hm : matchHere (c :: l) with
      | none => rfl
      | some x =>
        obtain ⟨w, r⟩ := x
        have := (matchHere_some hm).1
        have := h 61 (by rw [this]; simp)
        simp [isPropStart] at this
    rw [hm] at h1
    obtain ⟨g1, g2⟩ := ih fun c hc => h c (by simp [hc])
    unfold execAt
    simp only [h1, Option.map_none, g2, and_true, g1, h3 h, List.length_cons]
    ring

/-- The loop over the properties of a line. -/
theorem parsePropsR_eq (tag : Str) (n : Nat) (line : Str) (p : Props) (ws : List String) (k : Nat) :
    ((parsePropsR tag n line p ws k).1, (parsePropsR tag n line p ws k).2.1) = parsePropsN tag n line p ws ∧ (parsePropsR tag n line p ws k).2.2 ≤ k + (line.length + 1) ^ 2 := by
  induction n generalizing line p ws k with
  | zero => simp [parsePropsR, parsePropsN]
  | succ n ih =>
    have h1 := execAt_prop line
    have h2 := execAt_count line
    unfold parsePropsR parsePropsN
    cases hm : matchProp line with
    | none =>
      rw [hm] at h1 h2
      simp only [h1, Option.map_none] at h2 ⊢
      exact ⟨trivial, by omega⟩
    | some x =>
      obtain ⟨s, w, r⟩ := x
      rw [hm] at h1 h2
      simp only [h1, Option.map_some] at h2 ⊢
      have hs := matchProp_some hm
      have e : line = s ++ (w ++ 61 :: r) := by rw [hs.1.1, List.append_assoc]
      have hl : line.length - r.length - 1 = s.length + w.length := by rw [e]; simp; omega
      have hprop : (line.take (line.length - r.length - 1)).drop s.length = w := by
        rw [hl, e, ← List.append_assoc, List.take_left' (by simp), List.drop_left' rfl]
      have hi : (s.length = 0) = (s = []) := by simp
      simp only [hprop, hi]
      have hv := propValue_length tag w r
      obtain ⟨g1, g2⟩ := ih (propValue tag w r).2 (p.set w (propValue tag w r).1)
        (if p.has w = true then (if s = [] then ws else ws ++ ["ignored_line_data"]) ++ ["duplicate_property"] else if s = [] then ws else ws ++ ["ignored_line_data"])
        (k + (execAt reProp line).1)
      refine ⟨g1, ?_⟩
      have := Nat.pow_le_pow_left (show (propValue tag w r).2.length + 1 ≤ r.length + 2 by omega) 2
      omega

theorem parseLineR_eq (line : Str) (y : YData) (ws : List String) (k : Nat) :
    ((parseLineR line y ws k).1, (parseLineR line y ws k).2.1) = parseLine line y ws ∧ (parseLineR line y ws k).2.2 ≤ k + (line.length + 1) ^ 2 := by
  obtain ⟨h1, h2⟩ := parsePropsR_eq (lineTag line) ((lineRest line).length + 1) (lineRest line) ⟨[]⟩ ws k
  have hl : (lineRest line).length ≤ line.length := by
    unfold lineRest trim
    have e1 : ∀ l : Str, (l.dropWhile isSpace).length ≤ l.length := fun l => (List.dropWhile_suffix _).length_le
    have := e1 (((line.drop 2).drop ((lineTag line).length + 1)).dropWhile isSpace).reverse
    have := e1 ((line.drop 2).drop ((lineTag line).length + 1))
    simp only [List.length_reverse, List.length_drop] at *
    omega
  unfold parseLineR parseLine parseProps
  rw [parsePropsN_fuel _ _ ((lineRest line).length + 1) _ _ _ (Nat.le_refl _) (by omega), ← h1]
  refine ⟨rfl, h2.trans ?_⟩
  have := Nat.pow_le_pow_left (show (lineRest line).length + 1 ≤ line.length + 1 by omega) 2
  omega

/-- The bound for a number of lines. -/
def squares (lines : List Str) : Nat := (lines.map fun l => (l.length + 1) ^ 2).sum

theorem parseLinesR_eq (lines : List Str) (y : YData) (ws : List String) (k : Nat) :
    ((parseLinesR lines y ws k).1, (parseLinesR lines y ws k).2.1) = parseLines lines y ws ∧ (parseLinesR lines y ws k).2.2 ≤ k + squares lines := by
  induction lines generalizing y ws k with
  | nil => simp [parseLinesR, parseLines, squares]
  | cons l ls ih =>
    obtain ⟨h1, h2⟩ := parseLineR_eq l y ws k
    simp only [parseLinesR, parseLines, ← h1]
    obtain ⟨g1, g2⟩ := ih (parseLineR l y ws k).1 (parseLineR l y ws k).2.1 (parseLineR l y ws k).2.2
    refine ⟨g1, g2.trans ?_⟩
    have : squares (l :: ls) = (l.length + 1) ^ 2 + squares ls := by simp [squares]
    omega

theorem trim_length (s : Str) : (trim s).length ≤ s.length := by
  unfold trim
  have e1 : ∀ l : Str, (l.dropWhile isSpace).length ≤ l.length := fun l => (List.dropWhile_suffix _).length_le
  have := e1 (s.dropWhile isSpace).reverse
  have := e1 s
  simp only [List.length_reverse] at *
  omega

theorem sq_add (a b : Nat) : a ^ 2 + b ^ 2 ≤ (a + b) ^ 2 := by nlinarith [Nat.zero_le (a * b)]

theorem findFrom_bound (data : List Byte) (sp q : Nat) (h : findFrom crlf data sp = some q) : sp ≤ q ∧ q + 2 ≤ data.length := by
  obtain ⟨h1, h2, h3⟩ := findFrom_some h
  refine ⟨h1, ?_⟩
  have := h3.length_le
  simp only [List.length_drop, crlf, List.length_cons, List.length_nil] at this
  omega

theorem headerLoop_squares (env : Env) (hlen : ∀ b, (env.toStr b).length ≤ b.length) (data : List Byte) (start : Nat) (n sp : Nat) (p : Option Nat) (lines : List Str)
    (hp : ∀ q, p = some q → sp ≤ q ∧ q + 2 ≤ data.length) (hs : start ≤ sp) (hl : squares lines ≤ (sp - start) ^ 2) :
    (∀ ls ds, headerLoop env data n sp p lines = .dataAt ls ds → start ≤ ds ∧ ds ≤ data.length ∧ squares ls ≤ (ds - start) ^ 2) ∧
    ∀ ls e, headerLoop env data n sp p lines = .empty ls e → squares ls ≤ data.length ^ 2 := by
  induction n generalizing sp p lines with
  | zero => simp [headerLoop]
  | succ n ih =>
    unfold headerLoop
    cases p with
    | none => simp
    | some q =>
      obtain ⟨h1, h2⟩ := hp q rfl
      have hsq : squares (lines ++ [trim (env.toStr ((data.take q).drop sp))]) ≤ (q + 2 - start) ^ 2 := by
        have e : squares (lines ++ [trim (env.toStr ((data.take q).drop sp))]) = squares lines + ((trim (env.toStr ((data.take q).drop sp))).length + 1) ^ 2 := by simp [squares]
        have g1 := (trim_length _).trans (hlen ((data.take q).drop sp))
        have g2 : ((data.take q).drop sp).length ≤ q - sp := by simp; omega
        have g3 := Nat.pow_le_pow_left (show (trim (env.toStr ((data.take q).drop sp))).length + 1 ≤ q + 2 - sp by omega) 2
        have g4 := sq_add (sp - start) (q + 2 - sp)
        rw [show sp - start + (q + 2 - sp) = q + 2 - start by omega] at g4
        omega
      simp only
      split
      · simp
      · split
        · refine ⟨by simp, fun ls e h => ?_⟩
          simp only [Header.empty.injEq] at h
          rw [← h.1]
          exact hsq.trans (Nat.pow_le_pow_left (by omega) 2)
        · split
          · refine ⟨fun ls ds h => ?_, by simp⟩
            simp only [Header.dataAt.injEq] at h
            rw [← h.1, ← h.2]
            exact ⟨by omega, h2, hsq⟩
          · exact ih (q + 2) _ _ (fun q' h' => findFrom_bound data _ _ h') (by omega) hsq

theorem layoutR_eq (env : Env) (data : List Byte) (h : Header) : (layoutR env data h).2 = layout env data h := by
  cases h with
  | noEnd => rfl
  | empty lines e => simp only [layoutR, layout, ← (parseLinesR_eq lines ⟨[], none⟩ [] 0).1]
  | dataAt lines ds =>
    unfold layoutR layout
    simp only [← (parseLinesR_eq lines ⟨[], none⟩ [] 0).1]
    cases findRev (ascii (lit "\r\n=yend ")) (data.drop ds) with
    | none => rfl
    | some i =>
      dsimp only
      have h := fun l => (parseLinesR_eq [l] (parseLinesR lines ⟨[], none⟩ [] 0).1 [] (parseLinesR lines ⟨[], none⟩ [] 0).2.2).1
      rw [← h]
      cases findFrom crlf data (ds + i + 8) <;> rfl

theorem utf8Decode_length (b : List Byte) : (utf8Decode b).length ≤ b.length := by
  fun_induction utf8Decode b <;> simp_all [utf16] <;> (try split) <;> (try simp) <;> omega

theorem layoutR_count (env : Env) (hlen : ∀ b, (env.toStr b).length ≤ b.length) (data : List Byte) (start : Nat) (h : Header)
    (h1 : ∀ ls ds, h = .dataAt ls ds → start ≤ ds ∧ ds ≤ data.length ∧ squares ls ≤ (ds - start) ^ 2) (h2 : ∀ ls e, h = .empty ls e → squares ls ≤ data.length ^ 2) :
    (layoutR env data h).1 ≤ data.length ^ 2 := by
  cases h with
  | noEnd => simp [layoutR]
  | empty lines e =>
    have := (parseLinesR_eq lines ⟨[], none⟩ [] 0).2
    have := h2 lines e rfl
    simp only [layoutR]
    omega
  | dataAt lines ds =>
    obtain ⟨g1, g2, g3⟩ := h1 lines ds rfl
    have a := (parseLinesR_eq lines ⟨[], none⟩ [] 0).2
    have c := Nat.pow_le_pow_left (show ds - start ≤ data.length by omega) 2
    unfold layoutR
    dsimp only
    cases hf : findRev (ascii (lit "\r\n=yend ")) (data.drop ds) with
    | none => dsimp only; omega
    | some i =>
      dsimp only
      have key : ∀ stop, (parseLinesR [trim (env.toStr ((data.take stop).drop (ds + i + 2)))] (parseLinesR lines ⟨[], none⟩ [] 0).1 [] (parseLinesR lines ⟨[], none⟩ [] 0).2.2).2.2 ≤ data.length ^ 2 := by
        intro stop
        have b := (parseLinesR_eq [trim (env.toStr ((data.take stop).drop (ds + i + 2)))] (parseLinesR lines ⟨[], none⟩ [] 0).1 [] (parseLinesR lines ⟨[], none⟩ [] 0).2.2).2
        have e : squares [trim (env.toStr ((data.take stop).drop (ds + i + 2)))] = ((trim (env.toStr ((data.take stop).drop (ds + i + 2)))).length + 1) ^ 2 := by simp [squares]
        have d1 := (trim_length _).trans (hlen ((data.take stop).drop (ds + i + 2)))
        have d2 : ((data.take stop).drop (ds + i + 2)).length ≤ data.length - (ds + i + 2) := by simp; omega
        have hi : ds + i < data.length := by
          obtain ⟨k1, -⟩ := findRev_some hf
          simp at k1; omega
        have d3 := Nat.pow_le_pow_left (show (trim (env.toStr ((data.take stop).drop (ds + i + 2)))).length + 1 ≤ data.length - ds by omega) 2
        have d4 := sq_add (ds - start) (data.length - ds)
        have d5 := Nat.pow_le_pow_left (show ds - start + (data.length - ds) ≤ data.length by omega) 2
        omega
      cases findFrom crlf data (ds + i + 8) with
      | none => exact key _
      | some p => exact key _

theorem fromPostR_count (lib : Lib) (env : Env) (hlen : ∀ b, (env.toStr b).length ≤ b.length) (data : List Byte) (isRaw : Bool) :
    (fromPostR lib env data isRaw).1 ≤ data.length ^ 2 := by
  unfold fromPostR
  cases findStart data with
  | none => simp
  | some start =>
    dsimp only
    obtain ⟨h1, h2⟩ := headerLoop_squares env hlen data start data.length start (findFrom crlf data (start + 8)) []
      (fun q h => by have := findFrom_bound data _ _ h; omega) (Nat.le_refl _) (by simp [squares])
    exact layoutR_count env hlen data start _ h1 h2

theorem fromPostR_eq (lib : Lib) (env : Env) (data : List Byte) (isRaw : Bool) : (fromPostR lib env data isRaw).2 = fromPost lib env data isRaw := by
  unfold fromPostR fromPost
  cases findStart data with
  | none => rfl
  | some start =>
    dsimp only
    rw [layoutR_eq]
    rfl

/-- The two expressions that begin with `^`. -/
theorem tryMany_stop (p : Nat → Bool) (l : Str) :
    ((tryMany p (matchItems [.stop]) l).2.isSome = l.all p) ∧ (tryMany p (matchItems [.stop]) l).1 ≤ 2 * l.length + 2 := by
  induction l with
  | nil => simp [tryMany, matchItems]
  | cons c l ih =>
    unfold tryMany
    have hk : matchItems [.stop] (c :: l) = (1, none) := by simp [matchItems]
    by_cases hc : p c = true
    · simp only [hc, if_true, List.all_cons, Bool.true_and, List.length_cons, hk]
      obtain ⟨ih1, ih2⟩ := ih
      rw [← ih1]
      generalize tryMany p (matchItems [.stop]) l = x at *
      obtain ⟨n, o⟩ := x
      cases o <;> simp at ih2 ⊢ <;> omega
    · simp [hc, hk]

theorem matchNumber (l : Str) : (matchItems reNumber l).2.isSome = isNumber l ∧ (matchItems reNumber l).1 ≤ 2 * l.length + 1 := by
  cases l with
  | nil => simp [reNumber, matchItems, isNumber]
  | cons c l =>
    obtain ⟨h1, h2⟩ := tryMany_stop isDigit l
    have e : matchItems reNumber (c :: l) = if isDigit c = true then ((tryMany isDigit (matchItems [.stop]) l).1 + 1, (tryMany isDigit (matchItems [.stop]) l).2) else (1, none) := rfl
    have e2 : isNumber (c :: l) = (isDigit c && l.all isDigit) := rfl
    rw [e, e2]
    by_cases hc : isDigit c = true
    · simp only [hc, if_true, h1, Bool.true_and, true_and, List.length_cons]; omega
    · simp [hc]

theorem matchOnes (p : Nat → Bool) (n : Nat) (l : Str) :
    ((matchItems (List.replicate n (.one p) ++ [.stop]) l).2.isSome = (decide (l.length = n) && l.all p)) ∧ (matchItems (List.replicate n (.one p) ++ [.stop]) l).1 ≤ n + 1 := by
  induction n generalizing l with
  | zero => cases l <;> simp [matchItems]
  | succ n ih =>
    rw [List.replicate_succ, List.cons_append]
    cases l with
    | nil => simp [matchItems]
    | cons c l =>
      obtain ⟨h1, h2⟩ := ih l
      unfold matchItems
      by_cases hc : p c = true
      · simp only [hc, if_true, h1, List.all_cons, Bool.true_and, List.length_cons, Nat.add_right_cancel_iff, true_and]; omega
      · simp [hc]

theorem matchHex (l : Str) : (matchItems reHex l).2.isSome = isHex8 l ∧ (matchItems reHex l).1 ≤ 9 :=
  matchOnes isHexDigit 8 l

theorem execStart_eq (items : List Item) (l : Str) : (execStart items l).2 = (matchItems items l).2.isSome ∧ (execStart items l).1 ≤ (matchItems items l).1 + 1 + l.length := by
  unfold execStart
  cases (matchItems items l).2 <;> simp

/-- A header of letters. -/
def hostile (n : Nat) : List Byte := ascii (lit "=ybegin " ++ List.replicate n 97) ++ crlf

theorem hostile_length (n : Nat) : (hostile n).length = n + 10 := by
  have : (lit "=ybegin ").length = 8 := rfl
  simp [hostile, ascii, crlf, this]; omega

theorem hostile_steps (lib : Lib) (env : Env) (hl : env.Lawful) (isRaw : Bool) (n : Nat) (hn : 0 < n) : (fromPostR lib env (hostile n) isRaw).1 = (n + 1) ^ 2 := by
  have e0 : lit "=ybegin " ++ List.replicate n 97 = lit "=y" ++ (lit "begin" ++ 32 :: List.replicate n 97) := by rfl
  have hne : List.replicate n 97 ≠ [] := by simp; omega
  have hlast : ∀ c, (List.replicate n 97).getLast? = some c → isSpace c = false := by
    intro c hc
    have := List.mem_of_getLast? hc
    simp at this
    rw [this.2]; rfl
  have hhead : ∀ c, (List.replicate n 97).head? = some c → isSpace c = false := by
    intro c hc
    have := List.mem_of_mem_head? hc
    simp at this
    rw [this.2]; rfl
  have h1 : findStart (hostile n) = some 0 := by
    unfold findStart hostile
    rw [if_pos]
    rw [ascii, List.map_append, List.append_assoc, List.take_left' (i := 8) (l₁ := List.map (BitVec.ofNat 8) (lit "=ybegin ")) rfl]; rfl
  have hA : (ascii (lit "=ybegin " ++ List.replicate n 97)).length = n + 8 := by
    have : (lit "=ybegin ").length = 8 := rfl
    simp [ascii, this]; omega
  have h2 : findFrom crlf (hostile n) 8 = some (n + 8) := by
    have e : hostile n = ascii (lit "=ybegin ") ++ (ascii (List.replicate n 97) ++ crlf) := by simp [hostile, ascii]
    rw [findFrom_eq, e, List.drop_left' (i := 8) (l₁ := ascii (lit "=ybegin ")) rfl, find_skip _ _ (by simp [ascii, CR])]
    have : find crlf crlf = some 0 := by decide
    simp [this, ascii]; omega
  have h3 : env.toStr (((hostile n).take (n + 8)).drop 0) = lit "=y" ++ (lit "begin" ++ 32 :: List.replicate n 97) := by
    rw [hostile, List.take_left' hA, List.drop_zero, toStr_ascii hl, e0]
    intro c hc
    rw [List.mem_append] at hc
    rcases hc with hc | hc
    · revert c; decide
    · simp at hc; omega
  have h4 : headerLoop env (hostile n) (hostile n).length 0 (findFrom crlf (hostile n) 8) [] = .dataAt [lit "=y" ++ (lit "begin" ++ 32 :: List.replicate n 97)] (n + 10) := by
    rw [hostile_length]
    unfold headerLoop
    simp only [h2, h3, trim_line _ _ hne hlast]
    rw [if_neg (by omega), if_neg (by
      have e : (lit "=y" ++ (lit "begin" ++ 32 :: List.replicate n 97)).take 6 = (lit "=ybegin").take 6 := rfl
      rw [e]; decide), if_pos]
    · rfl
    · left
      rw [List.getElem?_eq_none (by rw [hostile_length])]
      simp
  have h5 : ∀ y ws, (parseLineR (lit "=y" ++ (lit "begin" ++ 32 :: List.replicate n 97)) y ws 0).2.2 = (n + 1) ^ 2 := by
    intro y ws
    unfold parseLineR
    rw [lineRest_eq _ _ (by decide) hhead hlast]
    dsimp only
    obtain ⟨m, rfl⟩ : ∃ m, n = m + 1 := ⟨n - 1, by omega⟩
    obtain ⟨g1, g2⟩ := execAt_letters (List.replicate (m + 1) 97) (by intro c hc; simp at hc; rw [hc]; rfl)
    rw [List.length_replicate] at g1 ⊢
    unfold parsePropsR
    simp only [g2, g1, Nat.zero_add]
  unfold fromPostR
  simp only [h1, Nat.zero_add, h4]
  unfold layoutR
  simp only [List.drop_eq_nil_of_le (Nat.le_of_eq (hostile_length n))]
  have : findRev (ascii (lit "\r\n=yend ")) [] = none := by decide
  simp only [this, parseLinesR, h5]

end Yenc.Js
