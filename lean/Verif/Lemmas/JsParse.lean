import Verif.Model.JsPost
import Verif.Lemmas.JsText
/-! Parsing of header lines. -/
namespace Yenc.Js
open Yenc

/-- What the text of a property name looks like. -/
def isKey (k : Str) : Bool := (match k with | [] => false | c :: _ => isPropStart c) && k.all isPropChar

theorem takeWhile_append_stop {α : Type} (p : α → Bool) (a : List α) (x : α) (r : List α) (ha : a.all p = true) (hx : p x = false) :
    (a ++ x :: r).takeWhile p = a ∧ (a ++ x :: r).dropWhile p = x :: r := by
  induction a with
  | nil => simp [hx]
  | cons c a ih =>
    simp only [List.all_cons, Bool.and_eq_true] at ha
    simp [ha.1, ih ha.2]

theorem matchHere_key (k r : Str) (hk : isKey k = true) : matchHere (k ++ 61 :: r) = some (k, r) := by
  unfold isKey at hk
  cases k with
  | nil => simp at hk
  | cons c k =>
    simp only [Bool.and_eq_true] at hk
    have h := takeWhile_append_stop isPropChar (c :: k) 61 r hk.2 (by decide)
    simp only [matchHere, List.cons_append, if_pos hk.1]
    rw [← List.cons_append, h.1, h.2]
    simp

theorem matchProp_key (k r : Str) (hk : isKey k = true) : matchProp (k ++ 61 :: r) = some ([], k, r) := by
  have h := matchHere_key k r hk
  cases k with
  | nil => simp [isKey] at hk
  | cons c k =>
    rw [List.cons_append] at h ⊢
    rw [matchProp, h]

/-! The loop ends by itself. -/

theorem matchHere_length {l w r : Str} (h : matchHere l = some (w, r)) : r.length < l.length := by
  unfold matchHere at h
  cases l with
  | nil => simp at h
  | cons c l =>
    simp only at h
    split at h
    · split at h
      · simp at h
      · rename_i e r' he
        have h1 : ((c :: l).dropWhile isPropChar).length ≤ (c :: l).length := (List.dropWhile_suffix _).length_le
        rw [he] at h1
        split at h
        · simp at h; obtain ⟨_, rfl⟩ := h; simp at h1 ⊢; omega
        · simp at h
    · simp at h

theorem matchProp_length {l s w r : Str} (h : matchProp l = some (s, w, r)) : r.length < l.length := by
  induction l generalizing s with
  | nil => simp [matchProp] at h
  | cons c l ih =>
    unfold matchProp at h
    split at h
    · rename_i w' r' hm
      simp at h; obtain ⟨_, _, rfl⟩ := h
      exact matchHere_length hm
    · split at h
      · rename_i s' w' r' hm
        simp at h; obtain ⟨_, rfl, rfl⟩ := h
        have := ih hm
        simp; omega
      · simp at h

theorem propValue_length (tag prop after : Str) : (propValue tag prop after).2.length ≤ after.length := by
  unfold propValue
  split <;> simp

theorem parsePropsN_fuel (tag : Str) (n m : Nat) (line : Str) (p : Props) (ws : List String) (hn : line.length ≤ n) (hm : line.length ≤ m) :
    parsePropsN tag n line p ws = parsePropsN tag m line p ws := by
  induction n generalizing m line p ws with
  | zero =>
    have : line = [] := by simpa using hn
    subst this
    cases m <;> simp [parsePropsN, matchProp]
  | succ n ih =>
    cases m with
    | zero =>
      have : line = [] := by simpa using hm
      subst this
      simp [parsePropsN, matchProp]
    | succ m =>
      simp only [parsePropsN]
      split
      · rfl
      · rename_i s w r hmp
        have h1 := matchProp_length hmp
        have h2 := propValue_length tag w r
        exact ih _ _ _ _ (by omega) (by omega)

/-- The loop over the properties, without the bound on the number of rounds. -/
theorem parseProps_eq (tag line : Str) (p : Props) (ws : List String) :
    parseProps tag line p ws =
      match matchProp line with
      | none => (p, if line = [] then ws else ws ++ ["ignored_line_data"])
      | some (skipped, prop, after) =>
        parseProps tag (propValue tag prop after).2 (p.set prop (propValue tag prop after).1)
          (if p.has prop then (if skipped = [] then ws else ws ++ ["ignored_line_data"]) ++ ["duplicate_property"]
            else if skipped = [] then ws else ws ++ ["ignored_line_data"]) := by
  unfold parseProps
  rw [parsePropsN_fuel tag line.length (line.length + 1) line p ws (Nat.le_refl _) (by omega)]
  rw [parsePropsN]
  split
  · rename_i h; simp [h]
  · rename_i s w r hmp
    have h1 := matchProp_length hmp
    have h2 := propValue_length tag w r
    simp only [hmp]
    apply parsePropsN_fuel
    · omega
    · omega

theorem parseProps_nil (tag : Str) (p : Props) (ws : List String) : parseProps tag [] p ws = (p, ws) := by
  rw [parseProps_eq]; simp [matchProp]

/-- A property followed by more. -/
theorem parseProps_cons (tag k v r : Str) (p : Props) (ws : List String) (hk : isKey k = true) (hv : 32 ∉ v)
    (ht : ¬ (tag = lit "begin" ∧ k = lit "name")) (hp : p.has k = false) :
    parseProps tag (k ++ 61 :: (v ++ 32 :: r)) p ws = parseProps tag r (p.set k v) ws := by
  rw [parseProps_eq, matchProp_key k _ hk]
  have h := takeWhile_append_stop (fun c => decide (c ≠ 32)) v 32 r (by simp only [List.all_eq_true, decide_eq_true_eq]; rintro x hx rfl; exact hv hx) (by simp)
  simp only [propValue, if_neg ht, h.1, hp]
  simp

/-- The last property of a line. -/
theorem parseProps_last (tag k v : Str) (p : Props) (ws : List String) (hk : isKey k = true) (hv : 32 ∉ v)
    (ht : ¬ (tag = lit "begin" ∧ k = lit "name")) (hp : p.has k = false) :
    parseProps tag (k ++ 61 :: v) p ws = (p.set k v, ws) := by
  rw [parseProps_eq, matchProp_key k _ hk]
  have h : v.takeWhile (fun c => decide (c ≠ 32)) = v := by
    induction v with
    | nil => rfl
    | cons c v ih =>
      simp only [List.mem_cons, not_or] at hv
      rw [List.takeWhile_cons, if_pos (by simpa using Ne.symm hv.1), ih hv.2]
  simp only [propValue, if_neg ht, h, hp]
  rw [List.drop_of_length_le (by omega)]
  simp [parseProps_nil]

/-- The file name: the rest of the line. -/
theorem parseProps_name (v : Str) (p : Props) (ws : List String) (hp : p.has (lit "name") = false) :
    parseProps (lit "begin") (lit "name" ++ 61 :: v) p ws = (p.set (lit "name") v, ws) := by
  rw [parseProps_eq, matchProp_key _ _ (by decide)]
  simp only [propValue, and_self, if_true, hp]
  simp [parseProps_nil]

theorem lineTag_eq (t r : Str) (ht : 32 ∉ t) : lineTag (lit "=y" ++ (t ++ 32 :: r)) = t := by
  have e : (lit "=y" ++ (t ++ 32 :: r)).drop 2 = t ++ 32 :: r := by rfl
  rw [lineTag, e]
  exact (takeWhile_append_stop _ t 32 r (by simp only [List.all_eq_true, decide_eq_true_eq]; rintro x hx rfl; exact ht hx) (by simp)).1

theorem lineRest_eq (t r : Str) (ht : 32 ∉ t) (h1 : ∀ c, r.head? = some c → isSpace c = false) (h2 : ∀ c, r.getLast? = some c → isSpace c = false) :
    lineRest (lit "=y" ++ (t ++ 32 :: r)) = r := by
  have e : (lit "=y" ++ (t ++ 32 :: r)).drop 2 = t ++ 32 :: r := by rfl
  rw [lineRest, lineTag_eq t r ht, e]
  have : (t ++ 32 :: r).drop (t.length + 1) = r := by
    rw [List.drop_append, List.drop_of_length_le (by omega)]; simp
  rw [this, trim_eq r h1 h2]

end Yenc.Js
