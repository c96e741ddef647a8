import Verif.Spec.Header
import Verif.Lemmas.JsTotal
/-!
The header lines read by `from_post` are those of `Spec/Header.lean`.
-/
namespace Yenc.Js
open Yenc Spec

variable {env : Env}

/-! ### White space -/

theorem isSpace_iff (c : Nat) : isSpace c = true ↔ c ∈ jsSpaces := by
  simp only [isSpace, jsSpaces, Bool.or_eq_true, Bool.and_eq_true, decide_eq_true_eq, List.mem_cons, List.not_mem_nil, or_false]
  omega

theorem isSpace_false_iff (c : Nat) : isSpace c = false ↔ c ∉ jsSpaces := by
  rw [← isSpace_iff]; simp

theorem dropWhile_split (p : Nat → Bool) (s : Str) : ∃ a, s = a ++ s.dropWhile p ∧ (∀ c ∈ a, p c = true) ∧ ∀ c, (s.dropWhile p).head? = some c → p c = false := by
  induction s with
  | nil => exact ⟨[], by simp⟩
  | cons x s ih =>
    rw [List.dropWhile_cons]
    by_cases hx : p x = true
    · rw [if_pos hx]
      obtain ⟨a, h1, h2, h3⟩ := ih
      refine ⟨x :: a, by rw [List.cons_append, ← h1], ?_, h3⟩
      intro c hc
      rcases List.mem_cons.1 hc with rfl | hc
      exacts [hx, h2 c hc]
    · rw [if_neg hx]
      exact ⟨[], rfl, by simp, by simpa using hx⟩

theorem trim_trimmed (s : Str) : Trimmed s (trim s) := by
  obtain ⟨a, h1, h2, h3⟩ := dropWhile_split isSpace s
  obtain ⟨b, g1, g2, g3⟩ := dropWhile_split isSpace (s.dropWhile isSpace).reverse
  have g1' : s.dropWhile isSpace = trim s ++ b.reverse := by
    rw [trim, ← List.reverse_append, ← g1, List.reverse_reverse]
  refine ⟨a, b.reverse, by rw [List.append_assoc, ← g1', ← h1], fun c hc => (isSpace_iff c).1 (h2 c hc), fun c hc => (isSpace_iff c).1 (g2 c (by simpa using hc)), ?_, ?_⟩
  · intro c hc
    rw [← isSpace_false_iff]
    apply h3
    rw [g1']
    cases ht : trim s with
    | nil => rw [ht] at hc; simp at hc
    | cons x r => rw [ht] at hc; simpa using hc
  · intro c hc
    rw [← isSpace_false_iff]
    apply g3
    rw [trim, List.getLast?_reverse] at hc
    exact hc

theorem trimmed_unique {s t : Str} (h : Trimmed s t) : t = trim s := by
  obtain ⟨a, b, rfl, ha, hb, h1, h2⟩ := h
  have e1 : ∀ (a l : Str), (∀ c ∈ a, isSpace c = true) → (a ++ l).dropWhile isSpace = l.dropWhile isSpace := by
    intro a l ha
    induction a with
    | nil => rfl
    | cons x a ih => rw [List.cons_append, List.dropWhile_cons, if_pos (ha x (by simp)), ih (fun c hc => ha c (by simp [hc]))]
  unfold trim
  rw [List.append_assoc, e1 a _ (fun c hc => (isSpace_iff c).2 (ha c hc))]
  cases t with
  | nil =>
    rw [List.nil_append]
    have := e1 b [] (fun c hc => (isSpace_iff c).2 (hb c hc))
    rw [List.append_nil] at this
    rw [this]; rfl
  | cons x t =>
    have hx := h1 x rfl
    rw [← isSpace_false_iff] at hx
    rw [List.cons_append, List.dropWhile_cons, hx, if_neg (by simp), ← List.cons_append, List.reverse_append,
      e1 _ _ (fun c hc => (isSpace_iff c).2 (hb c (by simpa using hc)))]
    have h2' : ∀ c, (x :: t).reverse.head? = some c → isSpace c = false := by
      intro c hc
      rw [List.head?_reverse] at hc
      exact (isSpace_false_iff c).2 (h2 c hc)
    generalize hr : (x :: t).reverse = r at h2'
    have : r.dropWhile isSpace = r := by
      cases r with
      | nil => rfl
      | cons y r => rw [List.dropWhile_cons, h2' y rfl, if_neg (by simp)]
    rw [this, ← hr, List.reverse_reverse]

/-! ### Property names -/

theorem isPropStart_iff (c : Nat) : isPropStart c = true ↔ Letter c := by
  simp [isPropStart, Letter]

theorem isPropChar_iff (c : Nat) : isPropChar c = true ↔ Letter c ∨ Digit c := by
  simp [isPropChar, isPropStart_iff, Digit]

theorem isKey_iff (k : Str) : isKey k = true ↔ IsName k := by
  unfold isKey IsName
  cases k with
  | nil => simp
  | cons c k =>
    simp only [Bool.and_eq_true, List.all_cons, List.all_eq_true, isPropStart_iff, isPropChar_iff]
    constructor
    · rintro ⟨h1, _, h2⟩; exact ⟨c, k, rfl, h1, h2⟩
    · rintro ⟨c', r', e, h1, h2⟩
      injection e with e1 e2; subst e1; subst e2
      exact ⟨h1, .inl h1, h2⟩

theorem matchHere_some {l w r : Str} (h : matchHere l = some (w, r)) : l = w ++ 61 :: r ∧ isKey w = true := by
  unfold matchHere at h
  cases l with
  | nil => simp at h
  | cons c l =>
    simp only at h
    split at h
    · rename_i hc
      split at h
      · simp at h
      · rename_i e r' he
        split at h
        · rename_i he61
          subst he61
          simp only [Option.some.injEq, Prod.mk.injEq] at h
          obtain ⟨rfl, rfl⟩ := h
          have e1 : c :: l = (c :: l).takeWhile isPropChar ++ (c :: l).dropWhile isPropChar := (List.takeWhile_append_dropWhile).symm
          rw [he] at e1
          refine ⟨e1, ?_⟩
          have hcc : isPropChar c = true := by simp [isPropChar, hc]
          rw [List.takeWhile_cons, if_pos hcc]
          simp only [isKey, hc, Bool.true_and, List.all_eq_true]
          intro x hx
          rcases List.mem_cons.1 hx with rfl | hx
          · exact hcc
          · exact List.all_eq_true.1 List.all_takeWhile x hx
        · simp at h
    · simp at h

theorem matchHere_none {l : Str} (h : matchHere l = none) (k r : Str) (hk : isKey k = true) : l ≠ k ++ 61 :: r := by
  rintro rfl
  rw [matchHere_key k r hk] at h; simp at h

theorem matchProp_none {l : Str} (h : matchProp l = none) (pre k post : Str) : ¬ NameAt l pre k post := by
  rintro ⟨e, hk⟩
  rw [← isKey_iff] at hk
  induction l generalizing pre with
  | nil => have := congrArg List.length e; simp at this
  | cons c l ih =>
    unfold matchProp at h
    split at h
    · simp at h
    · rename_i hm
      split at h
      · simp at h
      · rename_i hm2
        cases pre with
        | nil => exact matchHere_none hm k post hk (by simpa using e)
        | cons x pre =>
          simp only [List.cons_append, List.cons.injEq] at e
          exact ih hm2 pre (by simpa using e.2)

theorem matchProp_some {l pre k post : Str} (h : matchProp l = some (pre, k, post)) : FirstName l pre k post := by
  induction l generalizing pre with
  | nil => simp [matchProp] at h
  | cons c l ih =>
    unfold matchProp at h
    split at h
    · rename_i w r hm
      simp only [Option.some.injEq, Prod.mk.injEq] at h
      obtain ⟨rfl, rfl, rfl⟩ := h
      obtain ⟨e, hk⟩ := matchHere_some hm
      exact ⟨⟨by simpa using e, (isKey_iff _).1 hk⟩, fun _ _ _ _ => by simp⟩
    · rename_i hm
      split at h
      · rename_i s w r hm2
        simp only [Option.some.injEq, Prod.mk.injEq] at h
        obtain ⟨rfl, rfl, rfl⟩ := h
        obtain ⟨⟨e, hk⟩, hmin⟩ := ih hm2
        refine ⟨⟨by rw [e]; simp, hk⟩, ?_⟩
        rintro pre' k' post' ⟨e', hk'⟩
        cases pre' with
        | nil => exact absurd (by simpa using e') (matchHere_none hm k' post' ((isKey_iff _).2 hk'))
        | cons x pre' =>
          simp only [List.cons_append, List.cons.injEq] at e'
          have := hmin pre' k' post' ⟨by simpa using e'.2, hk'⟩
          simpa using this
      · simp at h

theorem firstName_unique {l pre k post pre' k' post' : Str} (h : FirstName l pre k post) (h' : FirstName l pre' k' post') :
    pre = pre' ∧ k = k' ∧ post = post' := by
  obtain ⟨⟨e, hk⟩, h1⟩ := h
  obtain ⟨⟨e', hk'⟩, h1'⟩ := h'
  have hl : pre.length = pre'.length := Nat.le_antisymm (h1 _ _ _ ⟨e', hk'⟩) (h1' _ _ _ ⟨e, hk⟩)
  have e2 : pre ++ (k ++ 61 :: post) = pre' ++ (k' ++ 61 :: post') := by rw [← List.append_assoc, ← e, e', List.append_assoc]
  obtain ⟨rfl, e3⟩ := List.append_inj e2 hl
  have m := matchHere_key k post ((isKey_iff _).2 hk)
  rw [e3, matchHere_key k' post' ((isKey_iff _).2 hk')] at m
  simp only [Option.some.injEq, Prod.mk.injEq] at m
  exact ⟨rfl, m.1.symm, m.2.symm⟩

theorem matchProp_iff {l pre k post : Str} : matchProp l = some (pre, k, post) ↔ FirstName l pre k post := by
  refine ⟨matchProp_some, fun h => ?_⟩
  cases hm : matchProp l with
  | none => exact absurd h.1 (matchProp_none hm _ _ _)
  | some x =>
    obtain ⟨a, b, c⟩ := x
    obtain ⟨rfl, rfl, rfl⟩ := firstName_unique (matchProp_some hm) h
    rfl

/-! ### The pieces of a line -/

/-- What the pieces do to a record. -/
def applyPieces (p : Props) : List Piece → Props
  | [] => p
  | .ignored :: ps => applyPieces p ps
  | .field k v :: ps => applyPieces (p.set k v) ps

/-- The warnings for the pieces. -/
def warnPieces (p : Props) : List Piece → List String
  | [] => []
  | .ignored :: ps => "ignored_line_data" :: warnPieces p ps
  | .field k v :: ps => (if p.has k then ["duplicate_property"] else []) ++ warnPieces (p.set k v) ps

theorem applyPieces_skipped (p : Props) (s : Str) (ps : List Piece) : applyPieces p (skipped s ++ ps) = applyPieces p ps := by
  unfold skipped; split <;> rfl

theorem warnPieces_skipped (p : Props) (s : Str) (ps : List Piece) :
    warnPieces p (skipped s ++ ps) = (if s = [] then [] else ["ignored_line_data"]) ++ warnPieces p ps := by
  unfold skipped; split <;> rfl

theorem takeWhile_space (v : Str) : (32 ∉ v.takeWhile (fun c => decide (c ≠ 32))) ∧
    (v = v.takeWhile (fun c => decide (c ≠ 32)) ∧ v.drop ((v.takeWhile (fun c => decide (c ≠ 32))).length + 1) = [] ∨
      v = v.takeWhile (fun c => decide (c ≠ 32)) ++ 32 :: v.drop ((v.takeWhile (fun c => decide (c ≠ 32))).length + 1)) := by
  induction v with
  | nil => simp
  | cons c v ih =>
    by_cases hc : c = 32
    · subst hc; simp
    · rw [List.takeWhile_cons, if_pos (by simpa using hc)]
      refine ⟨by simpa [Ne.symm hc] using ih.1, ?_⟩
      rcases ih.2 with ⟨h1, h2⟩ | h
      · exact .inl ⟨by rw [← h1], by simpa using h2⟩
      · refine .inr ?_
        rw [List.length_cons, List.drop_succ_cons, List.cons_append, ← h]

theorem named_iff (tag k : Str) : (tag = lit "begin" ∧ k = lit "name") ↔ (decide (tag = chars "begin") = true ∧ k = chars "name") := by
  simp [chars, lit]

/-- The loop over the properties of a line follows the description. -/
theorem parseProps_pieces (tag : Str) (n : Nat) (line : Str) (hn : line.length ≤ n) (p : Props) (ws : List String) :
    ∃ ps, Pieces (tag = chars "begin") line ps ∧ parseProps tag line p ws = (applyPieces p ps, ws ++ warnPieces p ps) := by
  induction n generalizing line p ws with
  | zero =>
    have : line = [] := by simpa using hn
    subst this
    refine ⟨[], ?_, by rw [parseProps_nil]; simp [applyPieces, warnPieces]⟩
    have : Pieces (tag = chars "begin") [] (skipped []) := .stop (by rintro pre k post ⟨h, _⟩; have := congrArg List.length h; simp at this)
    exact this
  | succ n ih =>
    rw [parseProps_eq]
    cases hm : matchProp line with
    | none =>
      refine ⟨skipped line, .stop (matchProp_none hm), ?_⟩
      have e1 := applyPieces_skipped p line []
      have e2 := warnPieces_skipped p line []
      rw [List.append_nil] at e1 e2
      simp only [e1, e2, applyPieces, warnPieces]
      split <;> simp
    | some x =>
      obtain ⟨pre, k, post⟩ := x
      have hf := matchProp_some hm
      have hl := matchProp_length hm
      simp only
      have hw : ∀ (v : Str) (ps : List Piece), (if p.has k then (if pre = [] then ws else ws ++ ["ignored_line_data"]) ++ ["duplicate_property"]
            else if pre = [] then ws else ws ++ ["ignored_line_data"]) ++ warnPieces (p.set k v) ps = ws ++ warnPieces p (skipped pre ++ .field k v :: ps) := by
        intro v ps
        rw [warnPieces_skipped]
        simp only [warnPieces]
        by_cases h1 : p.has k = true <;> by_cases h2 : pre = [] <;> simp [h1, h2]
      by_cases hnm : tag = lit "begin" ∧ k = lit "name"
      · have hpv : propValue tag k post = (post, []) := by simp [propValue, hnm]
        rw [hpv]
        simp only
        refine ⟨skipped pre ++ [.field k post], ?_, ?_⟩
        · obtain ⟨h1, h2⟩ := (named_iff tag k).1 hnm
          subst h2
          exact .name h1 hf
        · rw [parseProps_nil, ← hw]
          simp [applyPieces_skipped, applyPieces, warnPieces]
      · have hpv : propValue tag k post = (post.takeWhile (fun c => decide (c ≠ 32)), post.drop ((post.takeWhile (fun c => decide (c ≠ 32))).length + 1)) := by
          rw [propValue, if_neg hnm]
        rw [hpv]
        simp only
        obtain ⟨t1, t2⟩ := takeWhile_space post
        have hl2 : (post.drop ((post.takeWhile (fun c => decide (c ≠ 32))).length + 1)).length ≤ post.length := by simp
        generalize post.takeWhile (fun c => decide (c ≠ 32)) = v at t1 t2 hl2 ⊢
        generalize post.drop (v.length + 1) = r at t2 hl2 ⊢
        rcases t2 with ⟨t2, t3⟩ | t2
        · subst t3; subst t2
          refine ⟨skipped pre ++ [.field k post], .last (fun h => hnm ((named_iff tag k).2 h)) hf t1, ?_⟩
          rw [parseProps_nil, ← hw]
          simp [applyPieces_skipped, applyPieces, warnPieces]
        · rw [t2] at hf
          obtain ⟨ps, q1, q2⟩ := ih r (by omega) (p.set k v)
            (if p.has k then (if pre = [] then ws else ws ++ ["ignored_line_data"]) ++ ["duplicate_property"]
              else if pre = [] then ws else ws ++ ["ignored_line_data"])
          refine ⟨skipped pre ++ .field k v :: ps, .next (fun h => hnm ((named_iff tag k).2 h)) hf t1 q1, ?_⟩
          rw [q2, hw]
          simp [applyPieces_skipped, applyPieces]

theorem split_space {v v' r r' : Str} (h : 32 ∉ v) (h' : 32 ∉ v') (e : v ++ 32 :: r = v' ++ 32 :: r') : v = v' ∧ r = r' := by
  induction v generalizing v' with
  | nil =>
    cases v' with
    | nil => simpa using e
    | cons x v' => simp only [List.nil_append, List.cons_append, List.cons.injEq] at e; exact absurd (by simp [e.1]) h'
  | cons y v ih =>
    cases v' with
    | nil => simp only [List.nil_append, List.cons_append, List.cons.injEq] at e; exact absurd (by simp [← e.1]) h
    | cons x v' =>
      simp only [List.cons_append, List.cons.injEq] at e
      obtain ⟨rfl, rfl⟩ := ih (fun hm => h (by simp [hm])) (fun hm => h' (by simp [hm])) e.2
      exact ⟨by rw [e.1], rfl⟩

/-- A line can be read in one way only. -/
theorem pieces_unique {named : Bool} {line : Str} {ps ps' : List Piece} (h : Pieces named line ps) (h' : Pieces named line ps') : ps = ps' := by
  induction h generalizing ps' with
  | stop hn =>
    cases h' with
    | stop _ => rfl
    | name _ hf => exact absurd hf.1 (hn _ _ _)
    | last _ hf _ => exact absurd hf.1 (hn _ _ _)
    | next _ hf _ _ => exact absurd hf.1 (hn _ _ _)
  | name hn hf =>
    cases h' with
    | stop hn' => exact absurd hf.1 (hn' _ _ _)
    | name _ hf' => obtain ⟨rfl, _, rfl⟩ := firstName_unique hf hf'; rfl
    | last hn' hf' _ => obtain ⟨_, rfl, _⟩ := firstName_unique hf hf'; exact absurd ⟨hn, rfl⟩ hn'
    | next hn' hf' _ _ => obtain ⟨_, rfl, _⟩ := firstName_unique hf hf'; exact absurd ⟨hn, rfl⟩ hn'
  | last hn hf hv =>
    cases h' with
    | stop hn' => exact absurd hf.1 (hn' _ _ _)
    | name hn' hf' => obtain ⟨_, rfl, _⟩ := firstName_unique hf hf'; exact absurd ⟨hn', rfl⟩ hn
    | last _ hf' _ => obtain ⟨rfl, rfl, rfl⟩ := firstName_unique hf hf'; rfl
    | next _ hf' _ _ => obtain ⟨_, _, rfl⟩ := firstName_unique hf hf'; exact absurd (by simp) hv
  | next hn hf hv _ ih =>
    cases h' with
    | stop hn' => exact absurd hf.1 (hn' _ _ _)
    | name hn' hf' => obtain ⟨_, rfl, _⟩ := firstName_unique hf hf'; exact absurd ⟨hn', rfl⟩ hn
    | last _ hf' hv' => obtain ⟨_, _, rfl⟩ := firstName_unique hf hf'; exact absurd (by simp) hv'
    | next _ hf' hv' hp' =>
      obtain ⟨rfl, rfl, e⟩ := firstName_unique hf hf'
      obtain ⟨rfl, rfl⟩ := split_space hv hv' e
      rw [ih hp']

/-- The names found on a line are property names. -/
theorem pieces_names {named : Bool} {line : Str} {ps : List Piece} (h : Pieces named line ps) : ∀ k v, .field k v ∈ ps → IsName k := by
  have hs : ∀ s k v, Piece.field k v ∉ skipped s := by intro s k v; unfold skipped; split <;> simp
  induction h with
  | stop _ => intro k v hm; exact absurd hm (hs _ _ _)
  | name _ hf =>
    intro k v hm
    rcases List.mem_append.1 hm with hm | hm
    · exact absurd hm (hs _ _ _)
    · simp only [List.mem_singleton, Piece.field.injEq] at hm; rw [hm.1]; exact hf.1.2
  | last _ hf _ =>
    intro k v hm
    rcases List.mem_append.1 hm with hm | hm
    · exact absurd hm (hs _ _ _)
    · simp only [List.mem_singleton, Piece.field.injEq] at hm; rw [hm.1]; exact hf.1.2
  | next _ hf _ _ ih =>
    intro k v hm
    rcases List.mem_append.1 hm with hm | hm
    · exact absurd hm (hs _ _ _)
    · rcases List.mem_cons.1 hm with hm | hm
      · simp only [Piece.field.injEq] at hm; rw [hm.1]; exact hf.1.2
      · exact ih k v hm

/-! ### Records -/

/-- The properties among the pieces. -/
def pieceFields (ps : List Piece) : List (Str × Str) := ps.filterMap fun p => match p with | .field k v => some (k, v) | .ignored => none

theorem Props.get_set (p : Props) (k v key : Str) (hk : key ≠ lit "__proto__") : (p.set k v).get key = if key = k then some v else p.get key := by
  unfold Props.set Props.get
  by_cases h : k = lit "__proto__"
  · rw [if_pos h, if_neg (by rintro rfl; exact hk h)]
  · rw [if_neg h]
    by_cases e : key = k
    · subst e; simp
    · have : (key == k) = false := by simpa using e
      simp only [List.lookup_cons, this, if_neg e]
      exact lookup_filter_ne k key e p.own

theorem applyPieces_get (ps : List Piece) (p : Props) (key : Str) (hk : key ≠ lit "__proto__") :
    (applyPieces p ps).get key = match (pieceFields ps).reverse.find? (fun f => f.1 = key) with | some f => some f.2 | none => p.get key := by
  induction ps generalizing p with
  | nil => rfl
  | cons x ps ih =>
    cases x with
    | ignored => rw [applyPieces, ih]; rfl
    | field k v =>
      rw [applyPieces, ih, show pieceFields (.field k v :: ps) = (k, v) :: pieceFields ps from rfl, List.reverse_cons, List.find?_append]
      cases (pieceFields ps).reverse.find? (fun f => decide (f.1 = key)) with
      | some f => rfl
      | none =>
        rw [Props.get_set p k v key hk]
        by_cases e : k = key
        · subst e; simp
        · simp [e, Ne.symm e]

theorem Props.has_set (p : Props) (k v k' : Str) : (p.set k v).has k' = true ↔ p.has k' = true ∨ k' = k := by
  by_cases h : k' = lit "__proto__"
  · subst h
    have : ∀ q : Props, q.has (lit "__proto__") = true := by intro q; simp only [Props.has, Bool.or_eq_true]; exact .inr (by decide)
    simp [this]
  · simp only [Props.has, Props.get_set p k v k' h, Bool.or_eq_true]
    by_cases e : k' = k
    · simp [e]
    · simp [e]

/-- When is a duplicate property reported? -/
theorem warnPieces_dup (ps : List Piece) (p : Props) :
    "duplicate_property" ∈ warnPieces p ps ↔ ¬ ((pieceFields ps).map Prod.fst).Nodup ∨ ∃ k ∈ (pieceFields ps).map Prod.fst, p.has k = true := by
  induction ps generalizing p with
  | nil => simp [warnPieces, pieceFields]
  | cons x ps ih =>
    cases x with
    | ignored => rw [warnPieces, List.mem_cons, ih]; simp [pieceFields]
    | field k v =>
      rw [warnPieces, List.mem_append, ih, show pieceFields (.field k v :: ps) = (k, v) :: pieceFields ps from rfl, List.map_cons, List.nodup_cons]
      generalize (pieceFields ps).map Prod.fst = ks
      simp only [Props.has_set, List.mem_cons]
      constructor
      · rintro (h | h | ⟨k', h1, h2 | h2⟩)
        · split at h
          · rename_i hh; exact .inr ⟨k, .inl rfl, hh⟩
          · simp at h
        · exact .inl fun h3 => h h3.2
        · exact .inr ⟨k', .inr h1, h2⟩
        · subst h2; exact .inl fun h3 => h3.1 h1
      · rintro (h | ⟨k', rfl | h1, h2⟩)
        · by_cases hm : k ∈ ks
          · exact .inr (.inr ⟨k, hm, .inr rfl⟩)
          · exact .inr (.inl fun hn => h ⟨hm, hn⟩)
        · rw [if_pos h2]; exact .inl (by simp)
        · exact .inr (.inr ⟨k', h1, .inl h2⟩)

theorem warnPieces_ignored (ps : List Piece) (p : Props) : "ignored_line_data" ∈ warnPieces p ps ↔ .ignored ∈ ps := by
  induction ps generalizing p with
  | nil => simp [warnPieces]
  | cons x ps ih =>
    cases x with
    | ignored => simp [warnPieces]
    | field k v =>
      rw [warnPieces, List.mem_append, ih]
      have : "ignored_line_data" ∉ (if p.has k then ["duplicate_property"] else []) := by split <;> simp
      simp [this]

theorem warnPieces_range (ps : List Piece) (p : Props) : ∀ w ∈ warnPieces p ps, w = "ignored_line_data" ∨ w = "duplicate_property" := by
  induction ps generalizing p with
  | nil => simp [warnPieces]
  | cons x ps ih =>
    cases x with
    | ignored =>
      intro w hw
      rcases List.mem_cons.1 hw with rfl | hw
      exacts [.inl rfl, ih _ w hw]
    | field k v =>
      intro w hw
      rcases List.mem_append.1 hw with hw | hw
      · split at hw
        · exact .inr (by simpa using hw)
        · simp at hw
      · exact ih _ w hw

/-- The names of `Object.prototype` that can be property names. -/
theorem proto_names (k : Str) (hk : IsName k) : (⟨[]⟩ : Props).has k = true ↔ k = lit "constructor" ∨ k = lit "__proto__" := by
  rw [← isKey_iff] at hk
  have e : (⟨[]⟩ : Props).has k = objectProto.contains k := by simp [Props.has, Props.get]
  rw [e, List.contains_iff_mem]
  constructor
  · intro h
    have : ∀ x ∈ objectProto, isKey x = true → x = lit "constructor" ∨ x = lit "__proto__" := by decide
    exact this k h hk
  · rintro (rfl | rfl) <;> decide

/-! ### Lines -/

def applyLines (y : YData) : List Line → YData
  | [] => y
  | l :: ls => applyLines (y.set l.tag (applyPieces ⟨[]⟩ l.pieces)) ls

def warnLines (y : YData) : List Line → List String
  | [] => []
  | l :: ls => warnPieces ⟨[]⟩ l.pieces ++ (if y.has l.tag then ["duplicate_line"] else []) ++ warnLines (y.set l.tag (applyPieces ⟨[]⟩ l.pieces)) ls

theorem trim_nil : trim [] = [] := rfl

theorem parseLine_line (s : Str) (y : YData) (ws : List String) :
    ∃ l, ReadLine s l ∧ parseLine s y ws = (y.set l.tag (applyPieces ⟨[]⟩ l.pieces), ws ++ (warnPieces ⟨[]⟩ l.pieces ++ if y.has l.tag then ["duplicate_line"] else [])) := by
  obtain ⟨ps, h1, h2⟩ := parseProps_pieces (lineTag s) _ (lineRest s) (Nat.le_refl _) ⟨[]⟩ ws
  refine ⟨⟨lineTag s, ps⟩, ?_, ?_⟩
  · obtain ⟨t1, t2⟩ := takeWhile_space (s.drop 2)
    refine ⟨t1, ?_⟩
    rcases t2 with ⟨t2, t3⟩ | t2
    · refine .inl ⟨t2, ?_⟩
      have e : lineRest s = [] := by rw [lineRest, lineTag, t3]; rfl
      rw [e] at h1
      refine pieces_unique h1 ?_
      have : Pieces (lineTag s = chars "begin") [] (skipped []) := .stop (by rintro pre k post ⟨h, _⟩; have := congrArg List.length h; simp at this)
      exact this
    · exact .inr ⟨_, _, t2, trim_trimmed _, h1⟩
  · simp only [parseLine, h2]
    split <;> simp

theorem parseLines_lines (ss : List Str) (y : YData) (ws : List String) :
    ∃ ls, List.Forall₂ ReadLine ss ls ∧ parseLines ss y ws = (applyLines y ls, ws ++ warnLines y ls) := by
  induction ss generalizing y ws with
  | nil => exact ⟨[], .nil, by simp [parseLines, applyLines, warnLines]⟩
  | cons s ss ih =>
    obtain ⟨l, h1, h2⟩ := parseLine_line s y ws
    obtain ⟨ls, h3, h4⟩ := ih (parseLine s y ws).1 (parseLine s y ws).2
    refine ⟨l :: ls, .cons h1 h3, ?_⟩
    rw [h2] at h4
    simp only [parseLines, h2, h4, applyLines, warnLines]
    simp

theorem applyLines_append (y : YData) (a b : List Line) : applyLines y (a ++ b) = applyLines (applyLines y a) b := by
  induction a generalizing y with
  | nil => rfl
  | cons l a ih => exact ih _

theorem warnLines_append (y : YData) (a b : List Line) : warnLines y (a ++ b) = warnLines y a ++ warnLines (applyLines y a) b := by
  induction a generalizing y with
  | nil => rfl
  | cons l a ih => simp [warnLines, applyLines, ih]

/-- A line can be read in one way only. -/
theorem readLine_unique {s : Str} {l l' : Line} (h : ReadLine s l) (h' : ReadLine s l') : l = l' := by
  obtain ⟨t, ps⟩ := l
  obtain ⟨t', ps'⟩ := l'
  obtain ⟨h1, h2⟩ := h
  obtain ⟨h1', h2'⟩ := h'
  simp only at h1 h2 h1' h2'
  rcases h2 with ⟨h2, rfl⟩ | ⟨r, b, h2, h3, h4⟩ <;> rcases h2' with ⟨h2', rfl⟩ | ⟨r', b', h2', h3', h4'⟩
  · rw [← h2, ← h2']
  · rw [h2] at h2'; exact absurd (by rw [h2']; simp) h1
  · rw [h2'] at h2; exact absurd (by rw [h2]; simp) h1'
  · obtain ⟨rfl, rfl⟩ := split_space h1 h1' (h2.symm.trans h2')
    rw [trimmed_unique h3] at h4
    rw [trimmed_unique h3'] at h4'
    rw [pieces_unique h4 h4']

theorem readLines_unique {ss : List Str} {ls ls' : List Line} (h : List.Forall₂ ReadLine ss ls) (h' : List.Forall₂ ReadLine ss ls') : ls = ls' := by
  induction h generalizing ls' with
  | nil => cases h'; rfl
  | cons h1 _ ih => cases h' with | cons h1' h2' => rw [readLine_unique h1 h1', ih h2']

theorem readLine_names {s : Str} {l : Line} (h : ReadLine s l) : ∀ k ∈ l.names, IsName k := by
  intro k hk
  simp only [Line.names, Line.fields, List.mem_map, List.mem_filterMap] at hk
  obtain ⟨f, ⟨p, hp, hf⟩, rfl⟩ := hk
  cases p with
  | ignored => simp at hf
  | field k v =>
    simp only [Option.some.injEq] at hf; subst hf
    rcases h.2 with ⟨_, h2⟩ | ⟨_, _, _, _, h2⟩
    · rw [h2] at hp; simp at hp
    · exact pieces_names h2 k v hp

theorem YData.lookup_set (y : YData) (k t : Str) (v : Props) (ht : t ≠ lit "__proto__") : (y.set k v).own.lookup t = if t = k then some v else y.own.lookup t := by
  unfold YData.set
  by_cases h : k = lit "__proto__"
  · rw [if_pos h, if_neg (by rintro rfl; exact ht h)]
  · rw [if_neg h]
    by_cases e : t = k
    · subst e; simp
    · have : (t == k) = false := by simpa using e
      simp only [List.lookup_cons, this, if_neg e]
      exact lookup_filter_ne k t e y.own

theorem applyLines_lookup (ls : List Line) (y : YData) (t : Str) (ht : t ≠ lit "__proto__") :
    (applyLines y ls).own.lookup t = match ls.reverse.find? (fun l => l.tag = t) with | some l => some (applyPieces ⟨[]⟩ l.pieces) | none => y.own.lookup t := by
  induction ls generalizing y with
  | nil => rfl
  | cons l ls ih =>
    rw [applyLines, ih, List.reverse_cons, List.find?_append]
    cases ls.reverse.find? (fun l => decide (l.tag = t)) with
    | some f => rfl
    | none =>
      rw [YData.lookup_set y _ t _ ht]
      by_cases e : l.tag = t
      · subst e; simp
      · simp [e, Ne.symm e]

theorem YData.get_get (y : YData) (t key : Str) : (y.get t).get key = (y.own.lookup t).bind (fun p => p.get key) := by
  unfold YData.get
  cases y.own.lookup t with
  | some p => rfl
  | none =>
    simp only
    cases y.proto with
    | none => rfl
    | some p => simp only; cases p.get t <;> rfl

/-- The values found are those of the description. -/
theorem applyLines_value (ls : List Line) (t key : Str) (ht : t ≠ lit "__proto__") (hk : key ≠ lit "__proto__") :
    ((applyLines ⟨[], none⟩ ls).get t).get key = valueOf ls t key := by
  rw [YData.get_get, applyLines_lookup ls _ t ht, valueOf]
  cases ls.reverse.find? (fun l => decide (l.tag = t)) with
  | none => rfl
  | some l =>
    simp only [Option.bind]
    rw [applyPieces_get _ _ _ hk, show l.fields = pieceFields l.pieces from rfl]
    cases (pieceFields l.pieces).reverse.find? (fun f => decide (f.1 = key)) <;> rfl

theorem warnLines_ignored (ls : List Line) (y : YData) : "ignored_line_data" ∈ warnLines y ls ↔ ∃ l ∈ ls, .ignored ∈ l.pieces := by
  induction ls generalizing y with
  | nil => simp [warnLines]
  | cons l ls ih =>
    have : "ignored_line_data" ∉ (if y.has l.tag then ["duplicate_line"] else []) := by split <;> simp
    simp only [warnLines, List.mem_append, ih, warnPieces_ignored, this, or_false, List.mem_cons, exists_eq_or_imp]

theorem warnLines_dupProp (ls : List Line) (y : YData) :
    "duplicate_property" ∈ warnLines y ls ↔ ∃ l ∈ ls, ¬ l.names.Nodup ∨ ∃ k ∈ l.names, (⟨[]⟩ : Props).has k = true := by
  induction ls generalizing y with
  | nil => simp [warnLines]
  | cons l ls ih =>
    have : "duplicate_property" ∉ (if y.has l.tag then ["duplicate_line"] else []) := by split <;> simp
    simp only [warnLines, List.mem_append, ih, warnPieces_dup, this, or_false, List.mem_cons, exists_eq_or_imp]
    rfl

theorem warnPieces_no_dupLine (ps : List Piece) (p : Props) : "duplicate_line" ∉ warnPieces p ps := fun h => by
  have := warnPieces_range ps p _ h
  simp at this

theorem warnLines_dupLine (ls : List Line) (y : YData) (hy : y.proto = none) (h : ∀ l ∈ ls, l.tag ∉ objectProto) :
    "duplicate_line" ∈ warnLines y ls ↔ ¬ (ls.map Line.tag).Nodup ∨ ∃ l ∈ ls, (y.own.lookup l.tag).isSome := by
  induction ls generalizing y with
  | nil => simp [warnLines]
  | cons l ls ih =>
    have hl := h l (by simp)
    have hnp : l.tag ≠ lit "__proto__" := by rintro e; exact hl (by rw [e]; decide)
    have hset : (y.set l.tag (applyPieces ⟨[]⟩ l.pieces)).proto = none := by unfold YData.set; rw [if_neg hnp]; exact hy
    have hhas : y.has l.tag = (y.own.lookup l.tag).isSome := by
      simp only [YData.has, hy, Bool.or_false]
      have : objectProto.contains l.tag = false := by simpa using hl
      rw [this, Bool.or_false]
    rw [warnLines, List.mem_append, List.mem_append, ih _ hset (fun m hm => h m (by simp [hm])), hhas, List.map_cons, List.nodup_cons]
    have key : ∀ m ∈ ls, (((y.set l.tag (applyPieces ⟨[]⟩ l.pieces)).own.lookup m.tag).isSome = true ↔ m.tag = l.tag ∨ (y.own.lookup m.tag).isSome = true) := by
      intro m hm
      rw [YData.lookup_set y _ _ _ (by intro e; exact h m (by simp [hm]) (by rw [e]; decide))]
      by_cases e : m.tag = l.tag
      · simp [e]
      · simp [e]
    simp only [warnPieces_no_dupLine, false_or, List.mem_cons, exists_eq_or_imp]
    constructor
    · rintro (h1 | h1 | ⟨m, hm, h2⟩)
      · split at h1
        · rename_i hh; exact .inr (.inl hh)
        · simp at h1
      · exact .inl fun h3 => h1 h3.2
      · rcases (key m hm).1 h2 with h2 | h2
        · exact .inl fun h3 => h3.1 (List.mem_map.2 ⟨m, hm, h2⟩)
        · exact .inr (.inr ⟨m, hm, h2⟩)
    · rintro (h1 | h1 | ⟨m, hm, h2⟩)
      · by_cases hm : l.tag ∈ ls.map Line.tag
        · obtain ⟨m, hm, e⟩ := List.mem_map.1 hm
          exact .inr (.inr ⟨m, hm, (key m hm).2 (.inl e)⟩)
        · exact .inr (.inl fun hn => h1 ⟨hm, hn⟩)
      · rw [if_pos h1]; exact .inl (by simp)
      · exact .inr (.inr ⟨m, hm, (key m hm).2 (.inr h2)⟩)

theorem warnLines_range (ls : List Line) (y : YData) : ∀ w ∈ warnLines y ls, w = "ignored_line_data" ∨ w = "duplicate_property" ∨ w = "duplicate_line" := by
  induction ls generalizing y with
  | nil => simp [warnLines]
  | cons l ls ih =>
    intro w hw
    rw [warnLines, List.mem_append, List.mem_append] at hw
    rcases hw with (hw | hw) | hw
    · rcases warnPieces_range _ _ w hw with h | h
      exacts [.inl h, .inr (.inl h)]
    · split at hw
      · exact .inr (.inr (by simpa using hw))
      · simp at hw
    · exact ih _ w hw


/-! ### The first lines -/

theorem find_crlf_some {l : List Byte} {i : Nat} (h : find crlf l = some i) : l = l.take i ++ CR :: LF :: l.drop (i + 2) ∧ ¬ [CR, LF] <:+: l.take i := by
  obtain ⟨h1, h2⟩ := find_some h
  have h3 := find_first h
  constructor
  · obtain ⟨r, hr⟩ := h2
    have e : l.drop (i + 2) = r := by rw [← List.drop_drop, ← hr]; rfl
    rw [e]
    conv_lhs => rw [← List.take_append_drop i l, ← hr]
    rfl
  · rintro ⟨a, b, e⟩
    have hlen := congrArg List.length e
    simp only [List.length_append, List.length_take, List.length_cons, List.length_nil] at hlen
    refine h3 a.length (by omega) ?_
    have : l = a ++ ([CR, LF] ++ (b ++ l.drop i)) := by
      conv_lhs => rw [← List.take_append_drop i l, ← e]
      simp
    rw [this, List.drop_left]
    exact ⟨_, rfl⟩

theorem findFrom_eq (data : List Byte) (s : Nat) : findFrom crlf data s = (find crlf (data.drop s)).map (s + ·) := by
  unfold findFrom; cases find crlf (data.drop s) <;> rfl

theorem eqy_iff (l : List Byte) : text "=y" <+: l ↔ l[0]? = some EQ ∧ l[1]? = some LY := by
  rw [show text "=y" = [EQ, LY] by decide]
  cases l with
  | nil => simp
  | cons a l =>
    cases l with
    | nil => simp
    | cons b l => simp [List.cons_prefix_cons, eq_comm]

/-- A first line that starts with `=y`. -/
theorem raw_first {l : List Byte} {i : Nat} (h : find crlf l = some i) (hy : text "=y" <+: l) : RawLine (l.take i) := by
  obtain ⟨e, hn⟩ := find_crlf_some h
  refine ⟨?_, hn⟩
  rw [eqy_iff] at hy ⊢
  have h2 : 2 ≤ i := by
    rcases i with _ | _ | i
    · rw [e] at hy; have := hy.1; simp at this
    · have h0 := hy.2
      rw [e] at h0
      have hl := (find_some h).1
      rw [List.getElem?_append_right (by simp)] at h0
      rw [show 1 - (l.take (0 + 1)).length = 0 by simp; omega] at h0
      simp at h0
    · omega
  rw [List.getElem?_take_of_lt (by omega), List.getElem?_take_of_lt (by omega)]
  exact hy

/-- What the loop over the first lines has seen, from the position `sp` on. -/
theorem headerLoop_forward (data : List Byte) (n sp : Nat) (acc : List Str) (hy : text "=y" <+: data.drop sp) :
    match headerLoop env data n sp (findFrom crlf data sp) acc with
    | .noEnd => True
    | .empty ls e => ∃ raws rest ts t, data.drop sp = joinLines raws ++ rest ∧ (∀ l ∈ raws, RawLine l) ∧
        List.Forall₂ (fun r => Trimmed (env.toStr r)) raws (ts ++ [t]) ∧ (∀ u ∈ ts, ¬ chars "=yend " <+: u) ∧ chars "=yend " <+: t ∧
        e = sp + (joinLines raws).length ∧ ls = acc ++ (ts ++ [t])
    | .dataAt ls ds => ∃ raws rest ts, data.drop sp = joinLines raws ++ rest ∧ raws ≠ [] ∧ (∀ l ∈ raws, RawLine l) ∧
        List.Forall₂ (fun r => Trimmed (env.toStr r)) raws ts ∧ (∀ u ∈ ts, ¬ chars "=yend " <+: u) ∧ ¬ text "=y" <+: rest ∧
        ds = sp + (joinLines raws).length ∧ ls = acc ++ ts := by
  induction n generalizing sp acc with
  | zero => simp [headerLoop]
  | succ n ih =>
    rw [findFrom_eq]
    cases hf : find crlf (data.drop sp) with
    | none => simp [headerLoop]
    | some i =>
      obtain ⟨e, _⟩ := find_crlf_some hf
      have hraw := raw_first hf hy
      have hlen := (find_some hf).1
      simp only [Option.map_some, headerLoop]
      have h0 : sp + i ≠ 0 := by
        intro h0
        have := hraw.1.length_le
        simp only [show (text "=y").length = 2 by decide, List.length_take] at this
        omega
      rw [if_neg h0, List.drop_take, show sp + i - sp = i by omega]
      rw [List.drop_drop] at e
      have hl : (joinLines [(data.drop sp).take i]).length = i + 2 := by
        simp only [joinLines, List.flatMap_cons, List.flatMap_nil, List.append_nil, List.length_append, List.length_take, List.length_cons, List.length_nil]
        omega
      have htrim := trim_trimmed (env.toStr ((data.drop sp).take i))
      have e' : data.drop sp = joinLines [(data.drop sp).take i] ++ data.drop (sp + (i + 2)) := by
        conv_lhs => rw [e]
        simp [joinLines]
      have htake : ∀ t : Str, t.take 6 = lit "=yend " ↔ chars "=yend " <+: t := by
        intro t
        rw [show chars "=yend " = lit "=yend " from rfl, List.prefix_iff_eq_take, show (lit "=yend ").length = 6 by decide]
        exact eq_comm
      by_cases h1 : (trim (env.toStr ((data.drop sp).take i))).take 6 = lit "=yend "
      · rw [if_pos h1]
        refine ⟨_, _, [], _, e', ?_, .cons htrim .nil, by simp, (htake _).1 h1, ?_, rfl⟩
        · intro l hl; rw [List.mem_singleton] at hl; rw [hl]; exact hraw
        · rw [hl]; omega
      rw [if_neg h1]
      have hye : (data[sp + i + 2]? ≠ some EQ ∨ data[sp + i + 3]? ≠ some LY) ↔ ¬ text "=y" <+: data.drop (sp + (i + 2)) := by
        rw [eqy_iff, List.getElem?_drop, List.getElem?_drop, Classical.not_and_iff_not_or_not]
        rw [show sp + (i + 2) + 0 = sp + i + 2 by omega, show sp + (i + 2) + 1 = sp + i + 3 by omega]
      by_cases h2 : data[sp + i + 2]? ≠ some EQ ∨ data[sp + i + 3]? ≠ some LY
      · rw [if_pos h2]
        refine ⟨_, _, [_], e', by simp, ?_, .cons htrim .nil, ?_, hye.1 h2, ?_, rfl⟩
        · intro l hl; rw [List.mem_singleton] at hl; rw [hl]; exact hraw
        · intro u hu; rw [List.mem_singleton] at hu; rw [hu, ← htake]; exact h1
        · rw [hl]; omega
      rw [if_neg h2]
      have hy2 : text "=y" <+: data.drop (sp + i + 2) := by
        rw [show sp + i + 2 = sp + (i + 2) by omega]
        exact Classical.not_not.1 (fun h => h2 (hye.2 h))
      have := ih (sp + i + 2) (acc ++ [trim (env.toStr ((data.drop sp).take i))]) hy2
      have hj : ∀ raws, joinLines ((data.drop sp).take i :: raws) = joinLines [(data.drop sp).take i] ++ joinLines raws := by
        intro raws; simp [joinLines]
      split at this
      · trivial
      · skip
        obtain ⟨raws, rest, ts, t, a1, a2, a3, a4, a5, a6, a7⟩ := this
        refine ⟨(data.drop sp).take i :: raws, rest, trim (env.toStr ((data.drop sp).take i)) :: ts, t, ?_, ?_, .cons htrim a3, ?_, a5, ?_, ?_⟩
        · rw [hj, List.append_assoc, ← a1, show sp + i + 2 = sp + (i + 2) by omega]; exact e'
        · intro l hl; rcases List.mem_cons.1 hl with rfl | hl
          exacts [hraw, a2 l hl]
        · intro u hu; rcases List.mem_cons.1 hu with rfl | hu
          · rw [← htake]; exact h1
          · exact a4 u hu
        · rw [a6, hj, List.length_append, hl]; omega
        · rw [a7]; simp
      · skip
        obtain ⟨raws, rest, ts, a1, a0, a2, a3, a4, a5, a6, a7⟩ := this
        refine ⟨(data.drop sp).take i :: raws, rest, trim (env.toStr ((data.drop sp).take i)) :: ts, ?_, by simp, ?_, .cons htrim a3, ?_, a5, ?_, ?_⟩
        · rw [hj, List.append_assoc, ← a1, show sp + i + 2 = sp + (i + 2) by omega]; exact e'
        · intro l hl; rcases List.mem_cons.1 hl with rfl | hl
          exacts [hraw, a2 l hl]
        · intro u hu; rcases List.mem_cons.1 hu with rfl | hu
          · rw [← htake]; exact h1
          · exact a4 u hu
        · rw [a6, hj, List.length_append, hl]; omega
        · rw [a7]; simp


theorem yend_take (t : Str) : t.take 6 = lit "=yend " ↔ chars "=yend " <+: t := by
  rw [show chars "=yend " = lit "=yend " from rfl, List.prefix_iff_eq_take, show (lit "=yend ").length = 6 by decide]
  exact eq_comm

theorem joinLines_cons (r : List Byte) (rs : List (List Byte)) : joinLines (r :: rs) = r ++ CR :: LF :: joinLines rs := by simp [joinLines]

theorem joinLines_start {rs : List (List Byte)} (hne : rs ≠ []) (h : ∀ l ∈ rs, RawLine l) (rest : List Byte) : text "=y" <+: joinLines rs ++ rest := by
  cases rs with
  | nil => exact absurd rfl hne
  | cons r rs =>
    obtain ⟨x, hx⟩ := (h r (by simp)).1
    rw [joinLines_cons, ← hx]
    exact ⟨_, by simp only [List.append_assoc]; rfl⟩

/-- One step of the loop. -/
theorem loop_step {data raw rest : List Byte} {sp : Nat} (hd : data.drop sp = raw ++ CR :: LF :: rest) (hr : RawLine raw) :
    findFrom crlf data sp = some (sp + raw.length) ∧ sp + raw.length ≠ 0 ∧ (data.take (sp + raw.length)).drop sp = raw ∧ data.drop (sp + raw.length + 2) = rest := by
  refine ⟨?_, ?_, ?_, ?_⟩
  · rw [findFrom_eq, hd, show crlf = [CR, LF] from rfl, find_crlf raw rest hr.2]; rfl
  · have := hr.1.length_le
    simp only [show (text "=y").length = 2 by decide] at this
    omega
  · rw [List.drop_take, hd, show sp + raw.length - sp = raw.length by omega, List.take_left]
  · rw [Nat.add_assoc, ← List.drop_drop, hd, ← List.drop_drop, List.drop_left]; rfl

theorem headerLoop_full (data : List Byte) (raws : List (List Byte)) : ∀ (n sp : Nat) (acc ts : List Str) (rest : List Byte), data.drop sp = joinLines raws ++ rest →
    raws ≠ [] → (∀ l ∈ raws, RawLine l) → List.Forall₂ (fun r => Trimmed (env.toStr r)) raws ts → (∀ u ∈ ts, ¬ chars "=yend " <+: u) →
    ¬ text "=y" <+: rest → raws.length ≤ n →
    headerLoop env data n sp (findFrom crlf data sp) acc = .dataAt (acc ++ ts) (sp + (joinLines raws).length) := by
  induction raws with
  | nil => intro n sp acc ts rest _ h; exact absurd rfl h
  | cons raw raws ih =>
    intro n sp acc ts rest hd _ hr ht hu hrest hn
    cases ht with
    | cons ht1 ht2 =>
      rename_i t ts
      obtain ⟨n, rfl⟩ : ∃ m, n = m + 1 := ⟨n - 1, by simp at hn; omega⟩
      rw [joinLines_cons, List.append_assoc, List.cons_append, List.cons_append] at hd
      obtain ⟨e1, e2, e3, e4⟩ := loop_step hd (hr raw (by simp))
      have e5 : (trim (env.toStr raw)).take 6 ≠ lit "=yend " := by
        rw [← trimmed_unique ht1, ne_eq, yend_take]; exact hu t (by simp)
      rw [e1]
      by_cases hne : raws = []
      · subst hne
        cases ht2
        rw [headerLoop_data data raw n sp _ acc e2 e3 e5 (by rw [e4, show [EQ, LY] = text "=y" by decide]; simpa [joinLines] using hrest), ← trimmed_unique ht1]
        simp [joinLines]; omega
      · rw [headerLoop_next data raw n sp _ acc e2 e3 e5 (by
          rw [e4, show [EQ, LY] = text "=y" by decide]; exact joinLines_start hne (fun l hl => hr l (by simp [hl])) rest)]
        rw [ih n _ _ ts rest e4 hne (fun l hl => hr l (by simp [hl])) ht2 (fun u hu' => hu u (by simp [hu'])) hrest (by simp at hn; omega), ← trimmed_unique ht1, joinLines_cons]
        simp; omega

theorem headerLoop_end (data L : List Byte) (n sp p : Nat) (lines : List Str) (hp : p ≠ 0) (hL : (data.take p).drop sp = L)
    (h1 : (trim (env.toStr L)).take 6 = lit "=yend ") :
    headerLoop env data (n + 1) sp (some p) lines = .empty (lines ++ [trim (env.toStr L)]) (p + 2) := by
  simp only [headerLoop, if_neg hp, hL, if_pos h1]

theorem headerLoop_empty (data : List Byte) (raws : List (List Byte)) : ∀ (n sp : Nat) (acc ts : List Str) (t : Str) (rest : List Byte),
    data.drop sp = joinLines raws ++ rest → (∀ l ∈ raws, RawLine l) → List.Forall₂ (fun r => Trimmed (env.toStr r)) raws (ts ++ [t]) →
    (∀ u ∈ ts, ¬ chars "=yend " <+: u) → chars "=yend " <+: t → raws.length ≤ n →
    headerLoop env data n sp (findFrom crlf data sp) acc = .empty (acc ++ (ts ++ [t])) (sp + (joinLines raws).length) := by
  induction raws with
  | nil => intro n sp acc ts t rest _ _ h; cases ts <;> cases h
  | cons raw raws ih =>
    intro n sp acc ts t rest hd hr ht hu hy hn
    obtain ⟨n, rfl⟩ : ∃ m, n = m + 1 := ⟨n - 1, by simp at hn; omega⟩
    rw [joinLines_cons, List.append_assoc, List.cons_append, List.cons_append] at hd
    obtain ⟨e1, e2, e3, e4⟩ := loop_step hd (hr raw (by simp))
    rw [e1]
    cases ts with
    | nil =>
      rw [List.nil_append] at ht
      cases ht with
      | cons ht1 ht2 =>
        cases ht2
        rw [headerLoop_end data raw n sp _ acc e2 e3 (by rw [← trimmed_unique ht1, yend_take]; exact hy), ← trimmed_unique ht1]
        simp [joinLines]; omega
    | cons u ts =>
      rw [List.cons_append] at ht
      cases ht with
      | cons ht1 ht2 =>
        have hne : raws ≠ [] := by rintro rfl; cases ts <;> cases ht2
        have e5 : (trim (env.toStr raw)).take 6 ≠ lit "=yend " := by
          rw [← trimmed_unique ht1, ne_eq, yend_take]; exact hu u (by simp)
        rw [headerLoop_next data raw n sp _ acc e2 e3 e5 (by
          rw [e4, show [EQ, LY] = text "=y" by decide]; exact joinLines_start hne (fun l hl => hr l (by simp [hl])) rest)]
        rw [ih n _ _ ts t rest e4 (fun l hl => hr l (by simp [hl])) ht2 (fun u hu' => hu u (by simp [hu'])) hy (by simp at hn; omega), ← trimmed_unique ht1, joinLines_cons]
        simp; omega

theorem joinLines_length (raws : List (List Byte)) : raws.length ≤ (joinLines raws).length := by
  induction raws with
  | nil => simp
  | cons r rs ih => rw [joinLines_cons]; simp only [List.length_append, List.length_cons]; omega

theorem find_skip (pre r : List Byte) (h : CR ∉ pre) : find crlf (pre ++ r) = (find crlf r).map (pre.length + ·) := by
  induction pre with
  | nil => simp
  | cons x pre ih =>
    simp only [List.mem_cons, not_or] at h
    have e : crlf.isPrefixOf (x :: (pre ++ r)) = false := by
      simp only [crlf, List.isPrefixOf_cons₂, Bool.and_eq_false_iff]
      exact .inl (by simpa using h.1)
    rw [List.cons_append, find, e, if_neg (by simp), ih h.2]
    cases find crlf r with
    | none => rfl
    | some i => simp; omega

/-- The search for the end of a line may start after its first characters. -/
theorem findFrom_skip {data pre : List Byte} {s : Nat} (h : pre <+: data.drop s) (hc : CR ∉ pre) : findFrom crlf data (s + pre.length) = findFrom crlf data s := by
  obtain ⟨r, hr⟩ := h
  rw [findFrom_eq, findFrom_eq, ← List.drop_drop, ← hr, find_skip pre r hc, List.drop_left]
  cases find crlf r with
  | none => rfl
  | some i => simp; omega

theorem findFrom_begin {data : List Byte} {s : Nat} (h : text "=ybegin " <+: data.drop s) : findFrom crlf data (s + 8) = findFrom crlf data s :=
  findFrom_skip h (by decide)

theorem begin_eqy {l : List Byte} (h : text "=ybegin " <+: l) : text "=y" <+: l :=
  List.IsPrefix.trans ⟨text "begin ", by decide⟩ h

theorem find_crlf_none {l : List Byte} (h : find crlf l = none) : ¬ [CR, LF] <:+: l := by
  rintro ⟨a, b, rfl⟩
  have : ∃ i, find crlf (a ++ [CR, LF] ++ b) = some i := by
    clear h
    rw [List.append_assoc]
    induction a with
    | nil => exact ⟨0, rfl⟩
    | cons x a ih =>
      obtain ⟨i, hi⟩ := ih
      rw [List.cons_append, find]
      split
      · exact ⟨_, rfl⟩
      · rw [hi]; exact ⟨_, rfl⟩
  rw [h] at this
  obtain ⟨i, hi⟩ := this
  simp at hi

/-- What `layout` finds is what the description says. -/
theorem layout_forward {data : List Byte} {s : Nat} (hs : text "=ybegin " <+: data.drop s) {l : Layout}
    (h : layout env data (headerLoop env data data.length s (findFrom crlf data (s + 8)) []) = some l) :
    ∃ ended texts ls, PostLines env.toStr data s l.dataStart l.dataEnd l.yencEnd ended texts ∧ List.Forall₂ ReadLine texts ls ∧
      l.props = applyLines ⟨[], none⟩ ls ∧ ∀ w, w ∈ l.warnings ↔ w ∈ warnLines ⟨[], none⟩ ls ∨ w = "missing_yend_newline" ∧ ended = false := by
  rw [findFrom_begin hs] at h
  have hf := headerLoop_forward (env := env) data data.length s [] (begin_eqy hs)
  split at hf
  · rename_i e; rw [e] at h; simp [layout] at h
  · rename_i lines stop e
    rw [e] at h
    obtain ⟨raws, rest, ts, t, a1, a2, a3, a4, a5, a6, a7⟩ := hf
    simp only [layout, Option.some.injEq] at h
    subst h a6 a7
    obtain ⟨ls, b1, b2⟩ := parseLines_lines ([] ++ (ts ++ [t])) ⟨[], none⟩ []
    exact ⟨true, _, ls, .empty a1 a2 a3 a4 a5, b1, by simp only [b2], by simp only [b2]; simp⟩
  · rename_i lines ds e
    rw [e] at h
    obtain ⟨raws, rest, ts, a1, a0, a2, a3, a4, a5, a6, a7⟩ := hf
    simp only [layout] at h
    split at h
    · simp at h
    · rename_i i hi
      rw [← text_lit] at hi
      obtain ⟨_, f2⟩ := findRev_some hi
      rw [List.drop_drop] at f2
      have f3 : ∀ j > ds + i, ¬ text "\r\n=yend " <+: data.drop j := by
        intro j hj hpre
        refine findRev_last (by decide) hi (j - ds) (by omega) ?_
        rw [List.drop_drop, show ds + (j - ds) = j by omega]; exact hpre
      have f4 : text "=yend " <+: data.drop (ds + i + 2) := by
        obtain ⟨r, hr⟩ := f2
        rw [← List.drop_drop, ← hr, show text "\r\n=yend " = [CR, LF] ++ text "=yend " by decide, List.append_assoc]; show _ <+: text _ ++ r
        exact List.prefix_append _ _
      have f5 := findFrom_skip f4 (by decide)
      rw [show ds + i + 2 + (text "=yend ").length = ds + i + 8 by rw [show (text "=yend ").length = 6 by decide]] at f5
      rw [f5, findFrom_eq] at h
      simp only [Option.some.injEq] at h
      obtain ⟨ls, b1, b2⟩ := parseLines_lines lines ⟨[], none⟩ []
      rw [b2] at h
      simp only [List.nil_append] at h
      have hlen := f4.length_le
      simp only [List.length_drop, show (text "=yend ").length = 6 by decide] at hlen
      cases hp : find crlf (data.drop (ds + i + 2)) with
      | none =>
        rw [hp] at h
        simp only [Option.map_none, if_true] at h
        rw [List.take_length] at h
        obtain ⟨ls', c1, c2⟩ := parseLines_lines [trim (env.toStr (data.drop (ds + i + 2)))] (applyLines ⟨[], none⟩ ls) []
        rw [c2] at h
        simp only [List.nil_append] at h
        have key := PostLines.full (toStr := env.toStr) (ended := false) (tail := []) (raw := data.drop (ds + i + 2)) a1 a0 a2 a3 a4 a5 (e := ds + i) (by omega) f2 f3 (by simp)
          (find_crlf_none hp) (.inr ⟨rfl, rfl⟩) (trim_trimmed _)
        refine ⟨false, ts ++ [trim (env.toStr (data.drop (ds + i + 2)))], ls ++ ls', ?_, ?_, ?_, ?_⟩
        rotate_left 1
        · exact List.rel_append (by rw [a7] at b1; simpa using b1) c1
        · rw [← h, applyLines_append]
        · rw [← h, warnLines_append]
          intro w
          simp only [List.mem_append, List.mem_singleton]
          tauto
        · rw [← h]
          have e1 : ds + i + 2 + (data.drop (ds + i + 2)).length + (if false = true then 2 else 0) = data.length := by
            simp only [List.length_drop]; simp; omega
          rw [e1] at key
          rw [← a6] at key
          exact key
      | some j =>
        rw [hp] at h
        simp only [Option.map_some] at h
        rw [List.drop_take, show ds + i + 2 + j - (ds + i + 2) = j by omega] at h
        obtain ⟨g1, g2⟩ := find_crlf_some hp
        have hj := (find_some hp).1
        simp only [List.length_drop] at hj
        obtain ⟨ls', c1, c2⟩ := parseLines_lines [trim (env.toStr ((data.drop (ds + i + 2)).take j))] (applyLines ⟨[], none⟩ ls) []
        rw [c2] at h
        simp only [List.nil_append] at h
        have key := PostLines.full (toStr := env.toStr) (ended := true) a1 a0 a2 a3 a4 a5 (e := ds + i) (by omega) f2 f3 g1 g2 (.inl ⟨rfl, ⟨_, rfl⟩⟩) (trim_trimmed _)
        refine ⟨true, ts ++ [trim (env.toStr ((data.drop (ds + i + 2)).take j))], ls ++ ls', ?_, ?_, ?_, ?_⟩
        rotate_left 1
        · exact List.rel_append (by rw [a7] at b1; simpa using b1) c1
        · rw [← h, applyLines_append]
        · rw [← h, warnLines_append]
          intro w
          simp
        · rw [← h]
          have e1 : ds + i + 2 + ((data.drop (ds + i + 2)).take j).length + (if true = true then 2 else 0) = ds + i + 2 + j + 2 := by
            simp only [List.length_take, List.length_drop]; simp; omega
          rw [e1] at key
          rw [← a6] at key
          exact key

/-- Conversely, a post as described is found. -/
theorem layout_backward {data : List Byte} {s : Nat} (hs : text "=ybegin " <+: data.drop s) {ds de : Option Nat} {stop : Nat} {ended : Bool} {texts : List Str}
    (h : PostLines env.toStr data s ds de stop ended texts) :
    (layout env data (headerLoop env data data.length s (findFrom crlf data (s + 8)) [])).isSome := by
  rw [findFrom_begin hs]
  cases h with
  | empty a1 a2 a3 a4 a5 =>
    rename_i raws rest ts t
    have hl : raws.length ≤ data.length := by
      have := congrArg List.length a1
      have := joinLines_length raws
      simp only [List.length_drop, List.length_append] at *
      omega
    rw [headerLoop_empty data raws data.length s [] ts t rest a1 a2 a3 a4 a5 hl]
    rfl
  | full a1 a0 a2 a3 a4 a5 b1 b2 b3 =>
    rename_i raws rest ts e raw tail t c3 c1 c2 c4
    have hl : raws.length ≤ data.length := by
      have := congrArg List.length a1
      have := joinLines_length raws
      simp only [List.length_drop, List.length_append] at *
      omega
    rw [headerLoop_full data raws data.length s [] ts rest a1 a0 a2 a3 a4 a5 hl]
    simp only [layout]
    cases hr : findRev (ascii (lit "\r\n=yend ")) (data.drop (s + (joinLines raws).length)) with
    | some i => rfl
    | none =>
      exfalso
      rw [← text_lit] at hr
      have hlen := b2.length_le
      simp only [List.length_drop, show (text "\r\n=yend ").length = 8 by decide] at hlen
      have : findRev (text "\r\n=yend ") (data.drop (s + (joinLines raws).length)) = some (e - (s + (joinLines raws).length)) := by
        apply findRev_eq
        · simp only [List.length_drop]; omega
        · rw [List.drop_drop, show s + (joinLines raws).length + (e - (s + (joinLines raws).length)) = e by omega]; exact b2
        · intro j hj _
          rw [List.drop_drop]; exact b3 _ (by omega)
      rw [this] at hr; simp at hr

theorem trimmed_map {toStr : List Byte → Str} {raws : List (List Byte)} {ts : List Str} (h : List.Forall₂ (fun r => Trimmed (toStr r)) raws ts) :
    ts = raws.map (fun r => trim (toStr r)) := by
  induction h with
  | nil => rfl
  | cons h1 _ ih => rw [List.map_cons, ← ih, ← trimmed_unique h1]

/-- A post can be read in one way only. -/
theorem postLines_unique {data : List Byte} {s : Nat} {ds de ds' de' : Option Nat} {stop stop' : Nat} {ended ended' : Bool} {texts texts' : List Str}
    (h : PostLines env.toStr data s ds de stop ended texts) (h' : PostLines env.toStr data s ds' de' stop' ended' texts') :
    ds = ds' ∧ de = de' ∧ stop = stop' ∧ ended = ended' ∧ texts = texts' := by
  have hl : ∀ {raws : List (List Byte)} {rest : List Byte}, data.drop s = joinLines raws ++ rest → raws.length ≤ data.length := by
    intro raws rest a1
    have := congrArg List.length a1
    have := joinLines_length raws
    simp only [List.length_drop, List.length_append] at *
    omega
  cases h with
  | empty a1 a2 a3 a4 a5 =>
    have e := headerLoop_empty data _ data.length s [] _ _ _ a1 a2 a3 a4 a5 (hl a1)
    cases h' with
    | empty a1' a2' a3' a4' a5' =>
      rw [headerLoop_empty data _ data.length s [] _ _ _ a1' a2' a3' a4' a5' (hl a1')] at e
      simp only [List.nil_append, Header.empty.injEq] at e
      exact ⟨rfl, rfl, e.2.symm, rfl, e.1.symm⟩
    | full a1' a0' a2' a3' a4' a5' =>
      rw [headerLoop_full data _ data.length s [] _ _ a1' a0' a2' a3' a4' a5' (hl a1')] at e
      simp at e
  | full a1 a0 a2 a3 a4 a5 b1 b2 b3 c1 c2 c3 c4 =>
    have e := headerLoop_full data _ data.length s [] _ _ a1 a0 a2 a3 a4 a5 (hl a1)
    cases h' with
    | empty a1' a2' a3' a4' a5' =>
      rw [headerLoop_empty data _ data.length s [] _ _ _ a1' a2' a3' a4' a5' (hl a1')] at e
      simp at e
    | full a1' a0' a2' a3' a4' a5' b1' b2' b3' c1' c2' c3' c4' =>
      rw [headerLoop_full data _ data.length s [] _ _ a1' a0' a2' a3' a4' a5' (hl a1')] at e
      simp only [List.nil_append, Header.dataAt.injEq] at e
      rename_i e1 raw tail t raws' rest' ts' e1' raw' tail' t'
      have he : e1 = e1' := by
        rcases Nat.lt_trichotomy e1 e1' with h1 | h1 | h1
        · exact absurd b2' (b3 _ h1)
        · exact h1
        · exact absurd b2 (b3' _ h1)
      subst he
      rw [c1] at c1'
      have key : raw = raw' ∧ ended = ended' := by
        rcases c3 with ⟨rfl, x, rfl⟩ | ⟨rfl, rfl⟩ <;> rcases c3' with ⟨rfl, x', rfl⟩ | ⟨rfl, rfl⟩
        · have f := find_crlf raw x c2
          have f' := find_crlf raw' x' c2'
          rw [show raw ++ CR :: LF :: x = raw ++ ([CR, LF] ++ x) from rfl, c1', show raw' ++ ([CR, LF] ++ x') = raw' ++ CR :: LF :: x' from rfl, f'] at f
          simp only [Option.some.injEq] at f
          exact ⟨(List.append_inj c1' f.symm).1, rfl⟩
        · rw [List.append_nil] at c1'; exact absurd ⟨raw, x, by rw [← c1', List.append_assoc]⟩ c2'
        · rw [List.append_nil] at c1'; exact absurd ⟨raw', x', by rw [c1', List.append_assoc]⟩ c2
        · exact ⟨by simpa using c1', rfl⟩
      obtain ⟨rfl, rfl⟩ := key
      exact ⟨by rw [e.2], rfl, rfl, rfl, by rw [e.1, trimmed_unique c4, trimmed_unique c4']⟩

end Yenc.Js
