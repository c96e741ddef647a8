import Verif.Lemmas.JsHeader
import Verif.Model.JsMessage
import Verif.Spec.Message
/-!
The texts of the warnings of `from_post`.
-/
namespace Yenc.Js
open Spec

variable {lib : Lib} {env : Env}

/-! ### Without the texts, the model is the one of `Model/JsPost.lean` -/

def codes (ws : List Warning) : List String := ws.map (·.code)

@[simp] theorem codes_nil : codes [] = [] := rfl
@[simp] theorem codes_append (a b : List Warning) : codes (a ++ b) = codes a ++ codes b := by simp [codes]
@[simp] theorem codes_cons (w : Warning) (ws : List Warning) : codes (w :: ws) = w.code :: codes ws := rfl
theorem codes_one (c : String) (m : Str) : codes [⟨c, m⟩] = [c] := rfl

theorem ignoredEnd_codes (line : Str) (ws : List Warning) : codes (ignoredEnd line ws) = if line = [] then codes ws else codes ws ++ ["ignored_line_data"] := by
  unfold ignoredEnd; split <;> simp

theorem parsePropsM_codes (tag : Str) (n : Nat) (line : Str) (p : Props) (ws : List Warning) :
    ((parsePropsM tag n line p ws).1, codes (parsePropsM tag n line p ws).2) = parsePropsN tag n line p (codes ws) := by
  induction n generalizing line p ws with
  | zero => simp [parsePropsM, parsePropsN, ignoredEnd_codes]
  | succ n ih =>
    unfold parsePropsM parsePropsN
    cases matchProp line with
    | none => simp [ignoredEnd_codes]
    | some x =>
      obtain ⟨s, w, r⟩ := x
      simp only
      rw [ih]
      congr 1
      by_cases h1 : p.has w = true <;> by_cases h2 : s = [] <;> simp [h1, h2]

theorem parseLineM_codes (line : Str) (y : YData) (ws : List Warning) :
    ((parseLineM line y ws).1, codes (parseLineM line y ws).2) = parseLine line y (codes ws) := by
  have h := parsePropsM_codes (lineTag line) (lineRest line).length (lineRest line) ⟨[]⟩ ws
  simp only [parseLineM, parseLine, parseProps, ← h]
  congr 1
  split <;> simp

theorem parseLinesM_codes (lines : List Str) (y : YData) (ws : List Warning) :
    ((parseLinesM lines y ws).1, codes (parseLinesM lines y ws).2) = parseLines lines y (codes ws) := by
  induction lines generalizing y ws with
  | nil => rfl
  | cons l ls ih =>
    have h := parseLineM_codes l y ws
    simp only [parseLinesM, parseLines, ← h]
    exact ih _ _

def LayoutM.erase (l : LayoutM) : Layout := ⟨l.dataStart, l.dataEnd, l.yencEnd, l.props, codes l.warnings⟩

theorem layoutM_erase (data : List Byte) (h : Header) : (layoutM env data h).map LayoutM.erase = layout env data h := by
  cases h with
  | noEnd => rfl
  | empty lines e =>
    have h := parseLinesM_codes lines ⟨[], none⟩ []
    rw [codes_nil] at h
    simp only [layoutM, layout, Option.map_some, LayoutM.erase, ← h]
  | dataAt lines ds =>
    have h := parseLinesM_codes lines ⟨[], none⟩ []
    rw [codes_nil] at h
    simp only [layoutM, layout, ← h]
    cases findRev (ascii (lit "\r\n=yend ")) (data.drop ds) with
    | none => rfl
    | some i =>
      simp only [Option.map_some, LayoutM.erase]
      cases findFrom crlf data (ds + i + 8) with
      | none =>
        have g := parseLinesM_codes [trim (env.toStr ((data.take data.length).drop (ds + i + 2)))] (parseLinesM lines ⟨[], none⟩ []).1 []
        rw [codes_nil] at g
        simp only [if_true, codes_append, codes_one, ← g]
      | some p =>
        have g := parseLinesM_codes [trim (env.toStr ((data.take p).drop (ds + i + 2)))] (parseLinesM lines ⟨[], none⟩ []).1 []
        rw [codes_nil] at g
        simp only [reduceCtorEq, if_false, codes_append, ← g]

theorem checkNumberM_codes (r : Rec) (key : String) (ws : List Warning) : codes (checkNumberM r key ws) = checkNumber r key (codes ws) := by
  unfold checkNumberM checkNumber
  cases r.get (lit key) with
  | none => rfl
  | some t =>
    cases t with
    | nil => rfl
    | cons c cs =>
      simp only
      split
      · simp
      · split <;> simp

theorem checkNumbersM_fold (r : Rec) (ks : List String) (ws : List Warning) :
    codes (ks.foldl (fun ws k => checkNumberM r k ws) ws) = ks.foldl (fun ws k => checkNumber r k ws) (codes ws) := by
  induction ks generalizing ws with
  | nil => rfl
  | cons k ks ih => rw [List.foldl_cons, List.foldl_cons, ih, checkNumberM_codes]

theorem codes_ite (P : Prop) [Decidable P] (a b : List Warning) : codes (if P then a else b) = if P then codes a else codes b := by split <;> rfl

theorem checkNumbersM_codes (y : YData) (ws : List Warning) : codes (checkNumbersM y ws) = checkNumbers y (codes ws) := by
  simp only [checkNumbersM, checkNumbers, codes_ite, checkNumbersM_fold]

theorem checkPartM_codes (b e : Rec) (ws : List Warning) : codes (checkPartM env b e ws) = checkPart env b e (codes ws) := by
  simp only [checkPartM, checkPart, codes_ite, codes_append, codes_one]

theorem checkRangeM_codes (b p e : Rec) (size : Str) (ws : List Warning) : codes (checkRangeM env b p e size ws) = checkRange env b p e size (codes ws) := by
  simp only [checkRangeM, checkRange]
  cases p.truthy && truthy (p.get (lit "begin")) && truthy (p.get (lit "end")) <;> cases p.get (lit "begin") <;> cases p.get (lit "end") <;>
    simp only [codes_ite, codes_append, codes_one]

theorem checkHexM_codes (e : Rec) (prop : String) (ws : List Warning) : codes (checkHexM e prop ws) = checkHex e prop (codes ws) := by
  unfold checkHexM checkHex
  cases e.get (lit prop) with
  | none => rfl
  | some t => cases t <;> simp only [codes_ite, codes_append, codes_one]

theorem checkSizeM_codes (b e : Rec) (ws : List Warning) : codes (checkSizeM env b e ws) = checkSize env b e (codes ws) := by
  simp only [checkSizeM, checkSize, codes_ite, codes_append, codes_one]

theorem checkDataM_codes (p e : Rec) (size : Str) (len : Nat) (crc : Str) (low : Bool) (ws : List Warning) :
    codes (checkDataM env p e size len crc low ws) = checkData env p e size len crc low (codes ws) := by
  simp only [checkDataM, checkData, codes_ite, codes_append, codes_one]

theorem checkPropsM_codes (y : YData) (size : Str) (ws : List Warning) : codes (checkPropsM env y size ws) = checkProps env y size (codes ws) := by
  simp only [checkPropsM, checkProps, checkSizeM_codes, checkHexM_codes, checkRangeM_codes, checkPartM_codes, checkNumbersM_codes]

def PostM.erase (p : PostM) : Post := ⟨p.yencStart, p.dataStart, p.dataEnd, p.yencEnd, p.props, p.data, p.crc32, codes p.warnings⟩

def FromPostM.erase : FromPostM → FromPost
  | .error c _ => .error c
  | .ok p => .ok p.erase

theorem requiredM_erase (y : YData) : (requiredM y).bind (fun s => .ret (match s with | .error _ => none | .ok s => some s)) = required y := by
  unfold requiredM required
  cases y.get (lit "begin") with
  | undef => rfl
  | str s => rfl
  | obj b =>
    simp only
    split
    · rfl
    · cases y.get (lit "end") with
      | undef => rfl
      | str s => rfl
      | obj b2 =>
        simp only
        cases (Rec.obj b2).get (lit "size") with
        | none => rfl
        | some s => cases s <;> rfl

theorem bind_assoc {α β γ : Type} (o : Outcome α) (f : α → Outcome β) (g : β → Outcome γ) : (o.bind f).bind g = o.bind fun a => (f a).bind g := by
  cases o <;> rfl

theorem fromPostM_erase (data : List Byte) (isRaw : Bool) :
    (fromPostM lib env data isRaw).bind (fun r => .ret r.erase) = fromPost lib env data isRaw := by
  unfold fromPostM fromPost
  cases findStart data with
  | none => rfl
  | some start =>
    simp only
    rw [← layoutM_erase]
    cases layoutM env data (headerLoop env data data.length start (findFrom crlf data (start + 8)) []) with
    | none => rfl
    | some l =>
      simp only [Option.map_some]
      rw [show l.erase.props = l.props from rfl, ← requiredM_erase, bind_assoc, bind_assoc]
      congr 1
      funext s
      cases s with
      | error m => rfl
      | ok size =>
        simp only [Outcome.bind, concludeM, conclude, LayoutM.erase]
        cases l.dataStart with
        | none => simp only [FromPostM.erase, PostM.erase, checkDataM_codes, checkPropsM_codes]
        | some ds =>
          cases l.dataEnd with
          | none => simp only [FromPostM.erase, PostM.erase, checkDataM_codes, checkPropsM_codes]
          | some de =>
            simp only
            cases Dec.apiDecode lib.dec [.buffer ((data.take de).drop ds), .bool isRaw] with
            | ret out =>
              simp only
              cases lib.crc32 out with
              | ret crc => simp only [FromPostM.erase, PostM.erase, checkDataM_codes, checkPropsM_codes]
              | _ => rfl
            | _ => rfl

/-! ### The items of a line -/

def toWarning (m : Message) : Warning := ⟨m.1, m.2⟩

theorem has_set (p : Props) (k v k' : Str) : (p.set k v).has k' = true ↔ p.has k' = true ∨ k' = k := by
  unfold Props.set
  by_cases h : k = lit "__proto__"
  · rw [if_pos h]
    constructor
    · exact .inl
    · rintro (h1 | rfl)
      · exact h1
      · subst h
        have : objectProto.contains (lit "__proto__") = true := by decide
        simp only [Props.has, this, Bool.or_true]
  · rw [if_neg h]
    by_cases e : k' = k
    · subst e; simp [Props.has, Props.get]
    · have e' : (k' == k) = false := by simpa using e
      simp only [Props.has, Props.get, List.lookup_cons, e', lookup_filter_ne k k' e p.own, e, or_false]

theorem parsePropsM_items (tag : Str) (n : Nat) (line : Str) (hn : line.length ≤ n) (p : Props) (seen : List Str) (ws : List Warning)
    (hp : ∀ k, IsName k → (p.has k = true ↔ k ∈ chars "constructor" :: chars "__proto__" :: seen)) :
    ∃ is, Items (tag = chars "begin") line is ∧ (parsePropsM tag n line p ws).2 = ws ++ (itemMessages seen is).map toWarning ∧
      ∀ t, (parsePropsM tag n line p ws).1.has t = true ↔ p.has t = true ∨ t ∈ fieldNames is := by
  induction n generalizing line p seen ws with
  | zero =>
    have : line = [] := by simpa using hn
    subst this
    have : Items (tag = chars "begin") [] (textIf [] (.atEnd [])) := .stop (by rintro pre k post ⟨h, _⟩; have := congrArg List.length h; simp at this)
    exact ⟨[], this, by simp [parsePropsM, ignoredEnd, itemMessages], by simp [parsePropsM, fieldNames]⟩
  | succ n ih =>
    unfold parsePropsM
    cases hm : matchProp line with
    | none =>
      refine ⟨textIf line (.atEnd line), .stop (matchProp_none hm), ?_, ?_⟩
      · simp only [ignoredEnd, textIf]
        split <;> simp [itemMessages, toWarning, quote, lit, chars]
      · intro t
        have : fieldNames (textIf line (.atEnd line)) = [] := by unfold textIf; split <;> simp [fieldNames]
        simp [this]
    | some x =>
      obtain ⟨pre, k, post⟩ := x
      have hf := matchProp_some hm
      have hl := matchProp_length hm
      have hk := hf.1.2
      simp only
      have hw : ∀ (v : Str) (is : List Item), (if p.has k then (if pre = [] then ws else ws ++ [⟨"ignored_line_data", quote "Unknown additional data ignored: \"" pre "\""⟩]) ++
            [⟨"duplicate_property", quote "Duplicate property encountered: `" k "`"⟩]
            else if pre = [] then ws else ws ++ [⟨"ignored_line_data", quote "Unknown additional data ignored: \"" pre "\""⟩]) ++ (itemMessages (k :: seen) is).map toWarning =
            ws ++ (itemMessages seen (textIf pre (.before pre) ++ .field k v :: is)).map toWarning := by
        intro v is
        have h1 := hp k hk
        unfold textIf
        by_cases h2 : p.has k = true <;> by_cases h3 : pre = []
        · simp only [h2, h3, if_true, List.nil_append, itemMessages, if_pos (h1.1 h2)]
          simp [toWarning, quote, lit, chars]
        · simp only [h2, h3, if_true, if_false, List.cons_append, List.nil_append, itemMessages, if_pos (h1.1 h2)]
          simp [toWarning, quote, lit, chars]
        · simp only [h2, h3, if_true, List.nil_append, itemMessages, if_neg (fun h => h2 (h1.2 h))]
          simp
        · simp only [h2, h3, if_false, List.cons_append, List.nil_append, itemMessages, if_neg (fun h => h2 (h1.2 h))]
          simp [toWarning, quote, lit, chars]
      have hp' : ∀ v k', IsName k' → ((p.set k v).has k' = true ↔ k' ∈ chars "constructor" :: chars "__proto__" :: k :: seen) := by
        intro v k' hk'
        rw [has_set, hp k' hk']
        simp only [List.mem_cons]
        tauto
      have hnil : ∀ m q w, parsePropsM tag m [] q w = (q, w) := by
        intro m q w
        cases m with
        | zero => simp [parsePropsM, ignoredEnd]
        | succ m => simp [parsePropsM, ignoredEnd, matchProp]
      have hfn : ∀ (v : Str) (is : List Item), fieldNames (textIf pre (.before pre) ++ .field k v :: is) = k :: fieldNames is := by
        intro v is
        unfold textIf
        split <;> simp [fieldNames]
      by_cases hnm : tag = lit "begin" ∧ k = lit "name"
      · have hpv : propValue tag k post = (post, []) := by simp [propValue, hnm]
        rw [hpv]
        refine ⟨textIf pre (.before pre) ++ [.field k post], ?_, ?_, ?_⟩
        · obtain ⟨h1, h2⟩ := (named_iff tag k).1 hnm
          subst h2
          exact .name h1 hf
        · rw [hnil, ← hw]
          simp [itemMessages]
        · intro t
          rw [hnil, has_set, hfn]
          simp [fieldNames]
      · have hpv : propValue tag k post = (post.takeWhile (fun c => decide (c ≠ 32)), post.drop ((post.takeWhile (fun c => decide (c ≠ 32))).length + 1)) := by
          rw [propValue, if_neg hnm]
        rw [hpv]
        simp only
        obtain ⟨t1, t2⟩ := takeWhile_space post
        have hl2 : (post.drop ((post.takeWhile (fun c => decide (c ≠ 32))).length + 1)).length ≤ post.length := by simp
        generalize post.takeWhile (fun c => decide (c ≠ 32)) = v at t1 t2 hl2 ⊢
        generalize post.drop (v.length + 1) = r at t2 hl2 ⊢
        rcases t2 with ⟨t2, t3⟩ | t2
        · subst t3; subst t2
          refine ⟨textIf pre (.before pre) ++ [.field k post], .last (fun h => hnm ((named_iff tag k).2 h)) hf t1, ?_, ?_⟩
          · rw [hnil, ← hw]
            simp [itemMessages]
          · intro t
            rw [hnil, has_set, hfn]
            simp [fieldNames]
        · rw [t2] at hf
          obtain ⟨is, q1, q2, q3⟩ := ih r (by omega) (p.set k v) (k :: seen)
            (if p.has k then (if pre = [] then ws else ws ++ [⟨"ignored_line_data", quote "Unknown additional data ignored: \"" pre "\""⟩]) ++
              [⟨"duplicate_property", quote "Duplicate property encountered: `" k "`"⟩]
            else if pre = [] then ws else ws ++ [⟨"ignored_line_data", quote "Unknown additional data ignored: \"" pre "\""⟩]) (hp' v)
          refine ⟨textIf pre (.before pre) ++ .field k v :: is, .next (fun h => hnm ((named_iff tag k).2 h)) hf t1 q1, ?_, ?_⟩
          · rw [q2, hw]
          · intro t
            rw [q3, has_set, hfn, List.mem_cons, or_assoc]

theorem spell_textIf (pre : Str) (is : List Item) : spell (textIf pre (.before pre) ++ is) = pre ++ spell is := by
  unfold textIf
  split
  · rename_i h; subst h; rfl
  · rfl

/-- The items make up the line. -/
theorem spell_items {named : Bool} {line : Str} {is : List Item} (h : Items named line is) (hl : ∀ c, line.getLast? = some c → c ≠ 32) : spell is = line := by
  induction h with
  | @stop line _ =>
    unfold textIf
    split
    · rename_i h; subst h; rfl
    · simp [spell]
  | name _ hf => rw [spell_textIf, hf.1.1]; simp [spell]
  | last _ hf _ => rw [spell_textIf, hf.1.1]; simp [spell]
  | @next line pre k v rest is _ hf _ _ ih =>
    have e := hf.1.1
    have hr : ∀ c, rest.getLast? = some c → c ≠ 32 := by
      intro c hc
      apply hl
      have : rest ≠ [] := by rintro rfl; simp at hc
      rw [e, show pre ++ k ++ 61 :: (v ++ 32 :: rest) = (pre ++ k ++ 61 :: (v ++ [32])) ++ rest by simp, List.getLast?_append, hc]
      rfl
    have ih := ih hr
    cases is with
    | nil =>
      have : rest = [] := by rw [← ih]; rfl
      subst this
      refine absurd rfl (hl 32 ?_)
      rw [e, show pre ++ k ++ 61 :: (v ++ 32 :: []) = (pre ++ k ++ 61 :: v) ++ [32] by simp, List.getLast?_append]
      rfl
    | cons i is =>
      rw [spell_textIf, e, ← ih]
      simp [spell]

def itemPiece : Item → Piece
  | .field k v => .field k v
  | .before _ => .ignored
  | .atEnd _ => .ignored

theorem items_pieces {named : Bool} {line : Str} {is : List Item} (h : Items named line is) : Pieces named line (is.map itemPiece) := by
  have e : ∀ (t : Str) (i : Item), itemPiece i = .ignored → (textIf t i).map itemPiece = skipped t := by
    intro t i hi; unfold textIf skipped; split <;> simp [hi]
  induction h with
  | stop h => rw [e _ _ rfl]; exact .stop h
  | name h1 h2 => rw [List.map_append, e _ _ rfl]; exact .name h1 h2
  | last h1 h2 h3 => rw [List.map_append, e _ _ rfl]; exact .last h1 h2 h3
  | next h1 h2 h3 _ ih => rw [List.map_append, e _ _ rfl]; exact .next h1 h2 h3 ih

theorem readFull_readLine {s : Str} {l : FullLine} (h : ReadFull s l) : ReadLine s l.line := by
  obtain ⟨h1, h2⟩ := h
  have e : l.line.pieces = l.items.map itemPiece := by
    simp only [FullLine.line]
    apply List.map_congr_left
    intro i _
    cases i <;> rfl
  refine ⟨h1, ?_⟩
  rcases h2 with ⟨h2, h3⟩ | ⟨rest, h2, h3, h4⟩
  · exact .inl ⟨h2, by rw [e, h3]; rfl⟩
  · exact .inr ⟨rest, _, h2, h3, by rw [e]; exact items_pieces h4⟩

/-- A line consists of these items in one way only. -/
theorem items_unique {named : Bool} {line : Str} {is is' : List Item} (h : Items named line is) (h' : Items named line is') : is = is' := by
  induction h generalizing is' with
  | stop hn =>
    cases h' with
    | stop _ => rfl
    | name _ hf => exact absurd hf.1 (hn _ _ _)
    | last _ hf _ => exact absurd hf.1 (hn _ _ _)
    | next _ hf _ _ => exact absurd hf.1 (hn _ _ _)
  | name hn hf =>
    cases h' with
    | stop hn' => exact absurd hf.1 (hn' _ _ _)
    | name _ hf' => obtain ⟨rfl, _, rfl⟩ := firstName_unique hf hf'; rfl
    | last hn' hf' _ => obtain ⟨_, rfl, _⟩ := firstName_unique hf hf'; exact absurd ⟨hn, rfl⟩ hn'
    | next hn' hf' _ _ => obtain ⟨_, rfl, _⟩ := firstName_unique hf hf'; exact absurd ⟨hn, rfl⟩ hn'
  | last hn hf hv =>
    cases h' with
    | stop hn' => exact absurd hf.1 (hn' _ _ _)
    | name hn' hf' => obtain ⟨_, rfl, _⟩ := firstName_unique hf hf'; exact absurd ⟨hn', rfl⟩ hn
    | last _ hf' _ => obtain ⟨rfl, rfl, rfl⟩ := firstName_unique hf hf'; rfl
    | next _ hf' _ _ => obtain ⟨_, _, rfl⟩ := firstName_unique hf hf'; exact absurd (by simp) hv
  | next hn hf hv _ ih =>
    cases h' with
    | stop hn' => exact absurd hf.1 (hn' _ _ _)
    | name hn' hf' => obtain ⟨_, rfl, _⟩ := firstName_unique hf hf'; exact absurd ⟨hn', rfl⟩ hn
    | last _ hf' hv' => obtain ⟨_, _, rfl⟩ := firstName_unique hf hf'; exact absurd (by simp) hv'
    | next _ hf' hv' hp' =>
      obtain ⟨rfl, rfl, e⟩ := firstName_unique hf hf'
      obtain ⟨rfl, rfl⟩ := split_space hv hv' e
      rw [ih hp']

theorem readFull_unique {s : Str} {l l' : FullLine} (h : ReadFull s l) (h' : ReadFull s l') : l = l' := by
  obtain ⟨t, is⟩ := l
  obtain ⟨t', is'⟩ := l'
  obtain ⟨h1, h2⟩ := h
  obtain ⟨h1', h2'⟩ := h'
  simp only at h1 h2 h1' h2'
  rcases h2 with ⟨h2, rfl⟩ | ⟨r, h2, h3, h4⟩ <;> rcases h2' with ⟨h2', rfl⟩ | ⟨r', h2', h3', h4'⟩
  · rw [← h2, ← h2']
  · rw [h2] at h2'; exact absurd (by rw [h2']; simp) h1
  · rw [h2'] at h2; exact absurd (by rw [h2]; simp) h1'
  · obtain ⟨rfl, rfl⟩ := split_space h1 h1' (h2.symm.trans h2')
    rw [trimmed_unique h3] at h4
    rw [trimmed_unique h3'] at h4'
    rw [items_unique h4 h4']

/-! ### Lines -/

/-- The tags stored so far, and what the prototype has. -/
structure Stored (y : YData) (seen : SeenTags) : Prop where
  proto : ∀ t, t ∉ objectProto → ((match y.proto with | some p => p.has t | none => false) = true ↔ t ∈ seen.inherited)
  own : ∀ t, t ∉ objectProto → ((y.own.lookup t).isSome = true ↔ t ∈ seen.tags)

theorem Stored.empty : Stored ⟨[], none⟩ ⟨[], []⟩ := ⟨by simp, by simp⟩

theorem everyObject_eq : everyObject = objectProto := by decide

theorem props_has (p : Props) (t : Str) (ht : t ∉ objectProto) : (p.get t).isSome = p.has t := by
  have : objectProto.contains t = false := by simpa using ht
  simp only [Props.has, this, Bool.or_false]

theorem Stored.has {y : YData} {seen : SeenTags} (h : Stored y seen) (t : Str) : y.has t = true ↔ t ∈ everyObject ++ seen.inherited ++ seen.tags := by
  rw [everyObject_eq]
  by_cases ht : t ∈ objectProto
  · have : objectProto.contains t = true := by simpa using ht
    simp only [YData.has, this, Bool.or_true, List.mem_append, ht, true_or]
  · have : objectProto.contains t = false := by simpa using ht
    have h1 := h.proto t ht
    have h2 := h.own t ht
    simp only [YData.has, this, Bool.or_false, Bool.or_eq_true, List.mem_append, ht, false_or, ← h2, ← h1]
    rw [or_comm]
    refine or_congr ?_ Iff.rfl
    cases y.proto with
    | none => rfl
    | some p => simp only [props_has p t ht]

theorem Stored.set {y : YData} {seen : SeenTags} (h : Stored y seen) (l : FullLine) (v : Props) (hv : ∀ t, v.has t = true ↔ (⟨[]⟩ : Props).has t = true ∨ t ∈ fieldNames l.items) :
    Stored (y.set l.tag v) (seen.next l) := by
  have hlc : lit "__proto__" = chars "__proto__" := rfl
  unfold SeenTags.next YData.set
  rw [hlc]
  by_cases hp : l.tag = chars "__proto__"
  · rw [if_pos hp, if_pos hp]
    refine ⟨fun t ht => ?_, h.own⟩
    have : (⟨[]⟩ : Props).has t = false := by
      have : objectProto.contains t = false := by simpa using ht
      simp only [Props.has, this, Bool.or_false]; rfl
    simp only [hv, this, Bool.false_eq_true, false_or]
  · rw [if_neg hp, if_neg hp]
    refine ⟨h.proto, fun u hu => ?_⟩
    have hu' : u ≠ lit "__proto__" := by rintro rfl; exact hu (by decide)
    have e := YData.lookup_set y l.tag u v hu'
    unfold YData.set at e
    rw [hlc, if_neg hp] at e
    rw [e, List.mem_cons, ← h.own u hu]
    by_cases e : u = l.tag <;> simp [e]

theorem parseLineM_line (s : Str) (y : YData) (ws : List Warning) :
    ∃ l, ReadFull s l ∧ ∀ seen, Stored y seen →
      Stored (parseLineM s y ws).1 (seen.next l) ∧ (parseLineM s y ws).2 = ws ++ (lineMessages seen [l]).map toWarning := by
  obtain ⟨is, h1, h2, h5⟩ := parsePropsM_items (lineTag s) _ (lineRest s) (Nat.le_refl _) ⟨[]⟩ [] ws (by
    intro k hk
    rw [proto_names k hk]
    simp [lit, chars])
  refine ⟨⟨lineTag s, is⟩, ?_, ?_⟩
  · obtain ⟨t1, t2⟩ := takeWhile_space (s.drop 2)
    refine ⟨t1, ?_⟩
    rcases t2 with ⟨t2, t3⟩ | t2
    · refine .inl ⟨t2, ?_⟩
      have e : lineRest s = [] := by rw [lineRest, lineTag, t3]; rfl
      rw [e] at h1
      have := spell_items h1 (by simp)
      cases is with
      | nil => rfl
      | cons i is =>
        exfalso
        have hp := pieces_unique (items_pieces h1) (.stop (line := []) (by rintro pre k post ⟨h, _⟩; have := congrArg List.length h; simp at this))
        simp [skipped] at hp
    · have tr := trim_trimmed ((s.drop 2).drop ((lineTag s).length + 1))
      have sp : spell is = lineRest s := by
        refine spell_items h1 fun c hc => ?_
        obtain ⟨_, _, _, _, _, _, hl⟩ := tr
        rintro rfl
        exact hl 32 hc (by decide)
      refine .inr ⟨_, t2, ?_, ?_⟩
      · rw [sp]; exact tr
      · rw [sp]; exact h1
  · intro seen hy
    refine ⟨hy.set ⟨lineTag s, is⟩ _ h5, ?_⟩
    have hh := hy.has (lineTag s)
    simp only [parseLineM, h2, lineMessages]
    by_cases hs : y.has (lineTag s) = true
    · rw [if_pos hs, if_pos (hh.1 hs)]
      simp [toWarning, quote, lit, chars]
    · rw [if_neg hs, if_neg (fun h => hs (hh.2 h))]
      simp

theorem lineMessages_append (seen : SeenTags) (a b : List FullLine) :
    lineMessages seen (a ++ b) = lineMessages seen a ++ lineMessages (a.foldl SeenTags.next seen) b := by
  induction a generalizing seen with
  | nil => rfl
  | cons l a ih => simp [lineMessages, ih]

theorem parseLinesM_lines (ss : List Str) (y : YData) (ws : List Warning) :
    ∃ ls, List.Forall₂ ReadFull ss ls ∧ ∀ seen, Stored y seen →
      Stored (parseLinesM ss y ws).1 (ls.foldl SeenTags.next seen) ∧ (parseLinesM ss y ws).2 = ws ++ (lineMessages seen ls).map toWarning := by
  induction ss generalizing y ws with
  | nil => exact ⟨[], .nil, fun seen hy => ⟨hy, by simp [parseLinesM, lineMessages]⟩⟩
  | cons s ss ih =>
    obtain ⟨l, h1, h2⟩ := parseLineM_line s y ws
    obtain ⟨ls, h3, h4⟩ := ih (parseLineM s y ws).1 (parseLineM s y ws).2
    refine ⟨l :: ls, .cons h1 h3, fun seen hy => ?_⟩
    obtain ⟨a1, a2⟩ := h2 seen hy
    obtain ⟨b1, b2⟩ := h4 (seen.next l) a1
    refine ⟨by simpa [parseLinesM] using b1, ?_⟩
    simp only [parseLinesM]
    rw [b2, a2, show l :: ls = [l] ++ ls from rfl, lineMessages_append]
    simp

/-! ### The other warnings -/

/-- More warnings, with fixed texts. -/
def Fixed (ws ws' : List Warning) : Prop := ∃ ex, ws' = ws ++ ex ∧ ∀ w ∈ ex, ∃ m ∈ otherMessages, w = ⟨m.1, chars m.2⟩

theorem Fixed.refl (ws : List Warning) : Fixed ws ws := ⟨[], by simp, by simp⟩

theorem Fixed.trans {a b c : List Warning} (h : Fixed a b) (h' : Fixed b c) : Fixed a c := by
  obtain ⟨x, rfl, hx⟩ := h
  obtain ⟨y, rfl, hy⟩ := h'
  exact ⟨x ++ y, by simp, fun w hw => (List.mem_append.1 hw).elim (hx w) (hy w)⟩

theorem Fixed.push (ws : List Warning) (c m : String) (h : (c, m) ∈ otherMessages) : Fixed ws (ws ++ [⟨c, lit m⟩]) :=
  ⟨_, rfl, fun w hw => ⟨_, h, by simpa [lit, chars] using hw⟩⟩

theorem Fixed.ite {P : Prop} [Decidable P] {ws a b : List Warning} (ha : Fixed ws a) (hb : Fixed ws b) : Fixed ws (if P then a else b) := by
  split <;> assumption

theorem quote_lit (a b c : String) : quote a (lit b) c = lit (a ++ b ++ c) := by simp [quote, lit]

theorem checkNumberM_fixed (r : Rec) (key : String) (ws : List Warning) (h1 : ("invalid_prop_" ++ key, "`" ++ key ++ "` is not a number") ∈ otherMessages)
    (h2 : key ≠ "size" → ("zero_prop_" ++ key, "`" ++ key ++ "` cannot be 0") ∈ otherMessages) : Fixed ws (checkNumberM r key ws) := by
  unfold checkNumberM
  split
  · rw [quote_lit, quote_lit]
    split
    · exact .push _ _ _ h1
    · split
      · rename_i h; exact .push _ _ _ (h2 h.2)
      · exact .refl _
  · exact .refl _

theorem checkNumbersM_fixed (y : YData) (ws : List Warning) : Fixed ws (checkNumbersM y ws) := by
  have h : ∀ k ∈ ["line", "total", "part", "size", "begin", "end"], ("invalid_prop_" ++ k, "`" ++ k ++ "` is not a number") ∈ otherMessages ∧
      (k ≠ "size" → ("zero_prop_" ++ k, "`" ++ k ++ "` cannot be 0") ∈ otherMessages) := by decide
  have f : ∀ (r : Rec) (ks : List String) (ws : List Warning), (∀ k ∈ ks, k ∈ ["line", "total", "part", "size", "begin", "end"]) →
      Fixed ws (if r.truthy then ks.foldl (fun ws k => checkNumberM r k ws) ws else ws) := by
    intro r ks ws hk
    refine .ite ?_ (.refl _)
    induction ks generalizing ws with
    | nil => exact .refl _
    | cons k ks ih =>
      obtain ⟨h1, h2⟩ := h k (hk k (by simp))
      exact (checkNumberM_fixed r k ws h1 h2).trans (ih _ fun j hj => hk j (by simp [hj]))
  simp only [checkNumbersM]
  exact ((f _ _ _ (by decide)).trans (f _ _ _ (by decide))).trans (f _ _ _ (by decide))

theorem checkPartM_fixed (b e : Rec) (ws : List Warning) : Fixed ws (checkPartM env b e ws) :=
  .ite (.push _ _ _ (by decide)) (.ite (.push _ _ _ (by decide)) (.refl _))

theorem checkRangeM_fixed (b p e : Rec) (size : Str) (ws : List Warning) : Fixed ws (checkRangeM env b p e size ws) := by
  simp only [checkRangeM]
  split
  · exact .ite (.push _ _ _ (by decide)) (.ite (.push _ _ _ (by decide)) (.ite (.push _ _ _ (by decide)) (.refl _)))
  · exact .ite (.push _ _ _ (by decide)) (.refl _)

theorem checkHexM_fixed (e : Rec) (prop : String) (ws : List Warning) (h : ("invalid_prop_" ++ prop, "`" ++ prop ++ "` is not a valid CRC32 value") ∈ otherMessages) :
    Fixed ws (checkHexM e prop ws) := by
  unfold checkHexM
  split
  · rw [quote_lit]; exact .ite (.refl _) (.push _ _ _ h)
  · exact .refl _

theorem checkSizeM_fixed (b e : Rec) (ws : List Warning) : Fixed ws (checkSizeM env b e ws) :=
  .ite (.push _ _ _ (by decide)) (.ite (.push _ _ _ (by decide)) (.refl _))

theorem checkDataM_fixed (p e : Rec) (size : Str) (len : Nat) (crc : Str) (low : Bool) (ws : List Warning) :
    Fixed ws (checkDataM env p e size len crc low ws) :=
  ((Fixed.ite (.push _ _ _ (by decide)) (.refl _)).trans (.ite (.push _ _ _ (by decide)) (.refl _))).trans (.ite (.push _ _ _ (by decide)) (.refl _))

theorem checkPropsM_fixed (y : YData) (size : Str) (ws : List Warning) : Fixed ws (checkPropsM env y size ws) :=
  ((((checkNumbersM_fixed y ws).trans (checkPartM_fixed _ _ _)).trans (checkRangeM_fixed _ _ _ _ _)).trans
    ((checkHexM_fixed _ "pcrc32" _ (by decide)).trans (checkHexM_fixed _ "crc32" _ (by decide)))).trans (checkSizeM_fixed _ _ _)

/-- Is it about a header line? -/
def isHeader (w : Warning) : Bool := headerCodes.contains w.code

theorem Fixed.filter {a b : List Warning} (h : Fixed a b) : b.filter isHeader = a.filter isHeader := by
  obtain ⟨x, rfl, hx⟩ := h
  rw [List.filter_append]
  have : x.filter isHeader = [] := by
    rw [List.filter_eq_nil_iff]
    intro w hw
    obtain ⟨m, hm, rfl⟩ := hx w hw
    have : ∀ m ∈ otherMessages, ¬ headerCodes.contains m.1 = true := by decide
    exact this m hm
  rw [this, List.append_nil]

theorem itemMessages_codes (is : List Item) (seen : List Str) : ∀ m ∈ itemMessages seen is, m.1 ∈ headerCodes := by
  induction is generalizing seen with
  | nil => simp [itemMessages]
  | cons i is ih =>
    cases i with
    | field k v =>
      intro m hm
      rcases List.mem_append.1 hm with hm | hm
      · split at hm
        · rw [List.mem_singleton] at hm; subst hm; simp [headerCodes]
        · simp at hm
      · exact ih _ m hm
    | before t =>
      intro m hm
      rcases List.mem_cons.1 hm with rfl | hm
      · simp [headerCodes]
      · exact ih _ m hm
    | atEnd t =>
      intro m hm
      rcases List.mem_cons.1 hm with rfl | hm
      · simp [headerCodes]
      · exact ih _ m hm

theorem lineMessages_codes (ls : List FullLine) (seen : SeenTags) : ∀ m ∈ lineMessages seen ls, m.1 ∈ headerCodes := by
  induction ls generalizing seen with
  | nil => simp [lineMessages]
  | cons l ls ih =>
    intro m hm
    rcases List.mem_append.1 hm with hm | hm
    · rcases List.mem_append.1 hm with hm | hm
      · exact itemMessages_codes _ _ m hm
      · split at hm
        · rw [List.mem_singleton] at hm; subst hm; simp [headerCodes]
        · simp at hm
    · exact ih _ m hm

theorem filter_messages (ls : List FullLine) (seen : SeenTags) : ((lineMessages seen ls).map toWarning).filter isHeader = (lineMessages seen ls).map toWarning := by
  rw [List.filter_eq_self]
  intro w hw
  obtain ⟨m, hm, rfl⟩ := List.mem_map.1 hw
  simpa [isHeader, toWarning] using lineMessages_codes ls seen m hm

theorem parseLinesM_header (ss : List Str) (y : YData) : ∀ w ∈ (parseLinesM ss y []).2, isHeader w = true := by
  intro w hw
  have h := parseLinesM_codes ss y []
  obtain ⟨ls, -, h2⟩ := parseLines_lines ss y []
  rw [codes_nil, h2, List.nil_append] at h
  have hc : w.code ∈ codes (parseLinesM ss y []).2 := List.mem_map.2 ⟨w, hw, rfl⟩
  rw [show codes (parseLinesM ss y []).2 = warnLines y ls from congrArg Prod.snd h] at hc
  rcases warnLines_range ls y _ hc with e | e | e <;> simp [isHeader, headerCodes, e]

/-- The warning about a missing line break. -/
def noBreak : Warning := ⟨"missing_yend_newline", lit "No line terminator found for =yend line"⟩

/-- The lines of a post, and the warnings about them. -/
theorem layoutM_forward {data : List Byte} {s : Nat} (hs : text "=ybegin " <+: data.drop s) {l : LayoutM}
    (h : layoutM env data (headerLoop env data data.length s (findFrom crlf data (s + 8)) []) = some l) :
    ∃ ended texts ls, PostLines env.toStr data s l.dataStart l.dataEnd l.yencEnd ended texts ∧ List.Forall₂ ReadFull texts ls ∧
      l.warnings.filter isHeader = (lineMessages ⟨[], []⟩ ls).map toWarning ∧ ∀ w ∈ l.warnings, isHeader w = true ∨ w = noBreak := by
  rw [findFrom_begin hs] at h
  have hf := headerLoop_forward (env := env) data data.length s [] (begin_eqy hs)
  split at hf
  · rename_i e; rw [e] at h; simp [layoutM] at h
  · rename_i lines stop e
    rw [e] at h
    obtain ⟨raws, rest, ts, t, a1, a2, a3, a4, a5, a6, a7⟩ := hf
    simp only [layoutM, Option.some.injEq] at h
    subst h a6 a7
    obtain ⟨ls, b1, b2⟩ := parseLinesM_lines ([] ++ (ts ++ [t])) ⟨[], none⟩ []
    refine ⟨true, _, ls, .empty a1 a2 a3 a4 a5, b1, ?_, fun w hw => .inl (parseLinesM_header _ _ w hw)⟩
    have := (b2 _ .empty).2
    simp only [List.nil_append] at this ⊢
    rw [this, filter_messages]
  · rename_i lines ds e
    rw [e] at h
    obtain ⟨raws, rest, ts, a1, a0, a2, a3, a4, a5, a6, a7⟩ := hf
    simp only [layoutM] at h
    split at h
    · simp at h
    · rename_i i hi
      rw [← text_lit] at hi
      obtain ⟨_, f2⟩ := findRev_some hi
      rw [List.drop_drop] at f2
      have f3 : ∀ j > ds + i, ¬ text "\r\n=yend " <+: data.drop j := by
        intro j hj hpre
        refine findRev_last (by decide) hi (j - ds) (by omega) ?_
        rw [List.drop_drop, show ds + (j - ds) = j by omega]; exact hpre
      have f4 : text "=yend " <+: data.drop (ds + i + 2) := by
        obtain ⟨r, hr⟩ := f2
        rw [← List.drop_drop, ← hr, show text "\r\n=yend " = [CR, LF] ++ text "=yend " by decide, List.append_assoc]; show _ <+: text _ ++ r
        exact List.prefix_append _ _
      have f5 := findFrom_skip f4 (by decide)
      rw [show ds + i + 2 + (text "=yend ").length = ds + i + 8 by rw [show (text "=yend ").length = 6 by decide]] at f5
      rw [f5, findFrom_eq] at h
      simp only [Option.some.injEq] at h
      obtain ⟨ls, b1, b2⟩ := parseLinesM_lines lines ⟨[], none⟩ []
      have b3 := parseLinesM_header lines ⟨[], none⟩
      generalize parseLinesM lines ⟨[], none⟩ [] = r at h b2 b3
      have hlen := f4.length_le
      simp only [List.length_drop, show (text "=yend ").length = 6 by decide] at hlen
      cases hp : find crlf (data.drop (ds + i + 2)) with
      | none =>
        rw [hp] at h
        simp only [Option.map_none, if_true] at h
        rw [List.take_length] at h
        obtain ⟨ls', c1, c2⟩ := parseLinesM_lines [trim (env.toStr (data.drop (ds + i + 2)))] r.1 []
        have c3 := parseLinesM_header [trim (env.toStr (data.drop (ds + i + 2)))] r.1
        generalize parseLinesM [trim (env.toStr (data.drop (ds + i + 2)))] r.1 [] = q at h c2 c3
        have key := PostLines.full (toStr := env.toStr) (ended := false) (tail := []) (raw := data.drop (ds + i + 2)) a1 a0 a2 a3 a4 a5 (e := ds + i) (by omega) f2 f3 (by simp)
          (find_crlf_none hp) (.inr ⟨rfl, rfl⟩) (trim_trimmed _)
        refine ⟨false, ts ++ [trim (env.toStr (data.drop (ds + i + 2)))], ls ++ ls', ?_, ?_, ?_, ?_⟩
        rotate_left 1
        · exact List.rel_append (by rw [a7] at b1; simpa using b1) c1
        · obtain ⟨d1, d2⟩ := b2 _ .empty
          obtain ⟨_, d3⟩ := c2 _ d1
          rw [← h, lineMessages_append]
          simp only [d2, d3, List.nil_append, List.filter_append, List.map_append, filter_messages]
          have : [(⟨"missing_yend_newline", lit "No line terminator found for =yend line"⟩ : Warning)].filter isHeader = [] := by decide
          rw [this]
          simp
        · intro w hw
          rw [← h] at hw
          simp only [List.mem_append, List.mem_singleton] at hw
          rcases hw with (hw | hw) | hw
          exacts [.inl (b3 w hw), .inr hw, .inl (c3 w hw)]
        · rw [← h]
          have e1 : ds + i + 2 + (data.drop (ds + i + 2)).length + (if false = true then 2 else 0) = data.length := by
            simp only [List.length_drop]; simp; omega
          rw [e1] at key
          rw [← a6] at key
          exact key
      | some j =>
        rw [hp] at h
        simp only [Option.map_some] at h
        rw [List.drop_take, show ds + i + 2 + j - (ds + i + 2) = j by omega] at h
        obtain ⟨g1, g2⟩ := find_crlf_some hp
        have hj := (find_some hp).1
        simp only [List.length_drop] at hj
        obtain ⟨ls', c1, c2⟩ := parseLinesM_lines [trim (env.toStr ((data.drop (ds + i + 2)).take j))] r.1 []
        have c3 := parseLinesM_header [trim (env.toStr ((data.drop (ds + i + 2)).take j))] r.1
        generalize parseLinesM [trim (env.toStr ((data.drop (ds + i + 2)).take j))] r.1 [] = q at h c2 c3
        simp only [reduceCtorEq, if_false] at h
        have key := PostLines.full (toStr := env.toStr) (ended := true) a1 a0 a2 a3 a4 a5 (e := ds + i) (by omega) f2 f3 g1 g2 (.inl ⟨rfl, ⟨_, rfl⟩⟩) (trim_trimmed _)
        refine ⟨true, ts ++ [trim (env.toStr ((data.drop (ds + i + 2)).take j))], ls ++ ls', ?_, ?_, ?_, ?_⟩
        rotate_left 1
        · exact List.rel_append (by rw [a7] at b1; simpa using b1) c1
        · obtain ⟨d1, d2⟩ := b2 _ .empty
          obtain ⟨_, d3⟩ := c2 _ d1
          rw [← h, lineMessages_append]
          simp only [d2, d3, List.nil_append, List.filter_append, List.map_append, filter_messages]
        · intro w hw
          rw [← h] at hw
          simp only [List.mem_append] at hw
          rcases hw with hw | hw
          exacts [.inl (b3 w hw), .inl (c3 w hw)]
        · rw [← h]
          have e1 : ds + i + 2 + ((data.drop (ds + i + 2)).take j).length + (if true = true then 2 else 0) = ds + i + 2 + j + 2 := by
            simp only [List.length_take, List.length_drop]; simp; omega
          rw [e1] at key
          rw [← a6] at key
          exact key

end Yenc.Js
