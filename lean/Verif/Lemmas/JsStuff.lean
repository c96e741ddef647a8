import Verif.Lemmas.JsAround
import Verif.Lemmas.JsHeader
import Verif.Lemmas.EncSize
/-! `from_post` on dot-stuffed text. -/
namespace Yenc.Js
open Yenc Spec

variable {env : Env} {lib : Lib}

/-- The two bytes before the end of `l`, where `p`, `q` come before `l`. -/
def ctx : Byte → Byte → List Byte → Byte × Byte
  | p, q, [] => (p, q)
  | _, q, c :: l => ctx q c l

theorem stuffAux_append (p q : Byte) (a b : List Byte) : stuffAux p q (a ++ b) = stuffAux p q a ++ stuffAux (ctx p q a).1 (ctx p q a).2 b := by
  induction a generalizing p q with
  | nil => rfl
  | cons c a ih =>
    rw [List.cons_append, stuffAux, stuffAux, ctx, ih]
    split <;> simp

theorem ctx_append (p q : Byte) (a b : List Byte) : ctx p q (a ++ b) = ctx (ctx p q a).1 (ctx p q a).2 b := by
  induction a generalizing p q with
  | nil => rfl
  | cons c a ih => rw [List.cons_append, ctx, ctx, ih]

theorem stuffAux_length (p q : Byte) (l : List Byte) : l.length ≤ (stuffAux p q l).length := by
  induction l generalizing p q with
  | nil => simp
  | cons c l ih =>
    have := ih q c
    rw [stuffAux]
    split <;> simp only [List.length_cons] <;> omega

theorem stuffAux_nodot (p q : Byte) (l : List Byte) (h : DOT ∉ l) : stuffAux p q l = l := by
  induction l generalizing p q with
  | nil => rfl
  | cons c l ih =>
    simp only [List.mem_cons, not_or] at h
    rw [stuffAux, if_neg (fun hc => h.1 hc.2.2.symm), ih _ _ h.2]

/-- Text without line break, nor one across its start. -/
theorem stuffAux_nobreak (p q : Byte) (l : List Byte) (h0 : ¬ (p = CR ∧ q = LF)) (h : ¬ [CR, LF] <:+: q :: l) : stuffAux p q l = l := by
  induction l generalizing p q with
  | nil => rfl
  | cons c l ih =>
    rw [stuffAux, if_neg (fun hh => h0 ⟨hh.1, hh.2.1⟩)]
    congr 1
    refine ih q c ?_ fun hh => h (hh.trans ⟨[q], [], by simp⟩)
    rintro ⟨rfl, rfl⟩
    exact h ⟨[], l, rfl⟩

/-- Text without line break whose first byte is not a dot. -/
theorem stuffAux_line (p q c : Byte) (l : List Byte) (hc : c ≠ DOT) (hq : ¬ (q = CR ∧ c = LF)) (h : ¬ [CR, LF] <:+: c :: l) : stuffAux p q (c :: l) = c :: l := by
  rw [stuffAux, if_neg (fun hh => hc hh.2.2), stuffAux_nobreak q c l hq h]

theorem prefix_stuffAux (pat : List Byte) (hp : DOT ∉ pat) (p q : Byte) (l : List Byte) : pat <+: stuffAux p q l ↔ pat <+: l := by
  induction pat generalizing p q l with
  | nil => simp
  | cons x pat ih =>
    simp only [List.mem_cons, not_or] at hp
    cases l with
    | nil => simp [stuffAux]
    | cons c l =>
      rw [stuffAux]
      split
      · rename_i h
        obtain ⟨-, -, rfl⟩ := h
        simp only [List.cons_prefix_cons]
        exact ⟨fun h => absurd h.1.symm hp.1, fun h => absurd h.1.symm hp.1⟩
      · simp only [List.cons_prefix_cons, ih hp.2]

theorem find_stuffAux (pat : List Byte) (h0 : pat ≠ []) (hp : DOT ∉ pat) (p q : Byte) (l : List Byte) :
    find pat (stuffAux p q l) = (find pat l).map fun n => (stuffAux p q (l.take n)).length := by
  induction l generalizing p q with
  | nil => rfl
  | cons c l ih =>
    have hpre := prefix_stuffAux pat hp p q (c :: l)
    have hdot : ∀ m : List Byte, ¬ pat <+: DOT :: m := by
      intro m h
      cases pat with
      | nil => exact h0 rfl
      | cons x pat =>
        rw [List.cons_prefix_cons] at h
        exact hp (by rw [h.1]; simp)
    by_cases hc : p = CR ∧ q = LF ∧ c = DOT
    · have e : ∀ m, stuffAux p q (c :: m) = DOT :: DOT :: stuffAux q c m := fun m => by rw [stuffAux, if_pos hc]
      obtain ⟨-, -, rfl⟩ := hc
      rw [e, find, if_neg (by rw [List.isPrefixOf_iff_prefix]; exact hdot _), find, if_neg (by rw [List.isPrefixOf_iff_prefix]; exact hdot _),
        find, if_neg (by rw [List.isPrefixOf_iff_prefix]; exact hdot _), ih]
      cases find pat l with
      | none => rfl
      | some i => simp [e]
    · have e : ∀ m, stuffAux p q (c :: m) = c :: stuffAux q c m := fun m => by rw [stuffAux, if_neg hc]
      rw [e] at hpre ⊢
      rw [find, find]
      by_cases hx : pat <+: c :: l
      · rw [if_pos (List.isPrefixOf_iff_prefix.2 (hpre.2 hx)), if_pos (List.isPrefixOf_iff_prefix.2 hx)]; rfl
      · rw [if_neg (fun h => hx (hpre.1 (List.isPrefixOf_iff_prefix.1 h))), if_neg (fun h => hx (List.isPrefixOf_iff_prefix.1 h)), ih]
        cases find pat l with
        | none => rfl
        | some i => simp [e]

theorem findRev_stuffAux (pat : List Byte) (h0 : pat ≠ []) (hp : DOT ∉ pat) (p q : Byte) (l : List Byte) :
    findRev pat (stuffAux p q l) = (findRev pat l).map fun n => (stuffAux p q (l.take n)).length := by
  induction l generalizing p q with
  | nil => rfl
  | cons c l ih =>
    have hpre := prefix_stuffAux pat hp p q (c :: l)
    have hdot : ∀ m : List Byte, ¬ pat <+: DOT :: m := by
      intro m h
      cases pat with
      | nil => exact h0 rfl
      | cons x pat =>
        rw [List.cons_prefix_cons] at h
        exact hp (by rw [h.1]; simp)
    by_cases hc : p = CR ∧ q = LF ∧ c = DOT
    · have e : ∀ m, stuffAux p q (c :: m) = DOT :: DOT :: stuffAux q c m := fun m => by rw [stuffAux, if_pos hc]
      obtain ⟨-, -, rfl⟩ := hc
      rw [e, findRev, findRev, findRev, ih]
      cases findRev pat l with
      | none => simp [hdot]
      | some i => simp [e]
    · have e : ∀ m, stuffAux p q (c :: m) = c :: stuffAux q c m := fun m => by rw [stuffAux, if_neg hc]
      rw [e] at hpre ⊢
      rw [findRev, findRev, ih]
      cases findRev pat l with
      | none =>
        simp only [Option.map_none]
        by_cases hx : pat <+: c :: l
        · rw [if_pos (List.isPrefixOf_iff_prefix.2 (hpre.2 hx)), if_pos (List.isPrefixOf_iff_prefix.2 hx)]; rfl
        · rw [if_neg (fun h => hx (hpre.1 (List.isPrefixOf_iff_prefix.1 h))), if_neg (fun h => hx (List.isPrefixOf_iff_prefix.1 h))]; rfl
      | some i => simp [e]

/-! ### Positions -/

/-- Where position `n` of `data` is in the stuffed text. -/
def spos (data : List Byte) (n : Nat) : Nat := (stuff (data.take n)).length

theorem spos_zero (data : List Byte) : spos data 0 = 0 := by simp [spos, stuff, stuffAux]

theorem spos_length (data : List Byte) : spos data data.length = (stuff data).length := by simp [spos]

theorem spos_ge (data : List Byte) (n : Nat) (h : n ≤ data.length) : n ≤ spos data n := by
  have := stuffAux_length CR LF (data.take n)
  simp only [List.length_take] at this
  unfold spos stuff; omega

theorem drop_spos (data : List Byte) (k : Nat) :
    (stuff data).drop (spos data k) = stuffAux (ctx CR LF (data.take k)).1 (ctx CR LF (data.take k)).2 (data.drop k) := by
  have : stuff data = stuff (data.take k) ++ stuffAux (ctx CR LF (data.take k)).1 (ctx CR LF (data.take k)).2 (data.drop k) := by
    unfold stuff; rw [← stuffAux_append, List.take_append_drop]
  rw [this]
  exact List.drop_left

theorem take_spos (data : List Byte) (k : Nat) : (stuff data).take (spos data k) = stuff (data.take k) := by
  have : stuff data = stuff (data.take k) ++ stuffAux (ctx CR LF (data.take k)).1 (ctx CR LF (data.take k)).2 (data.drop k) := by
    unfold stuff; rw [← stuffAux_append, List.take_append_drop]
  rw [this]
  exact List.take_left

theorem spos_add (data : List Byte) (k n : Nat) :
    spos data (k + n) = spos data k + (stuffAux (ctx CR LF (data.take k)).1 (ctx CR LF (data.take k)).2 ((data.drop k).take n)).length := by
  unfold spos stuff
  rw [List.take_add, stuffAux_append, List.length_append]

theorem spos_pat {data pat : List Byte} {k : Nat} (hp : DOT ∉ pat) (h : pat <+: data.drop k) : spos data (k + pat.length) = spos data k + pat.length := by
  rw [spos_add]
  obtain ⟨r, hr⟩ := h
  rw [← hr, List.take_left, stuffAux_nodot _ _ _ hp]

theorem seg_spos (data : List Byte) {k m : Nat} (h : k ≤ m) :
    ((stuff data).take (spos data m)).drop (spos data k) = stuffAux (ctx CR LF (data.take k)).1 (ctx CR LF (data.take k)).2 ((data.take m).drop k) := by
  rw [take_spos]
  have := drop_spos (data.take m) k
  have e : (data.take m).take k = data.take k := by rw [List.take_take, Nat.min_eq_left h]
  rw [e] at this
  rw [← this]; unfold spos; rw [e]

theorem findFrom_spos (pat data : List Byte) (h0 : pat ≠ []) (hp : DOT ∉ pat) (k : Nat) :
    findFrom pat (stuff data) (spos data k) = (findFrom pat data k).map (spos data) := by
  unfold findFrom
  rw [drop_spos, find_stuffAux pat h0 hp]
  cases find pat (data.drop k) with
  | none => rfl
  | some i => simp [spos_add]

theorem prefix_spos (pat data : List Byte) (hp : DOT ∉ pat) (k : Nat) : pat <+: (stuff data).drop (spos data k) ↔ pat <+: data.drop k := by
  rw [drop_spos, prefix_stuffAux _ hp]

/-- A line that starts with `=` is unchanged. -/
theorem line_spos {data r : List Byte} {sp p : Nat} (h : sp ≤ p) (hr : (data.take p).drop sp = EQ :: r) (hn : ¬ [CR, LF] <:+: (data.take p).drop sp) :
    ((stuff data).take (spos data p)).drop (spos data sp) = (data.take p).drop sp := by
  rw [seg_spos data h]
  rw [hr] at hn ⊢
  exact stuffAux_line _ _ _ _ (by decide) (fun hh => absurd hh.2 (by decide)) hn

theorem findStart_stuff (data : List Byte) : findStart (stuff data) = (findStart data).map (spos data) := by
  have h8 : ∀ l : List Byte, l.take 8 = ascii (lit "=ybegin ") ↔ text "=ybegin " <+: l := by
    intro l
    rw [← text_lit]
    constructor
    · intro h; rw [← h]; exact List.take_prefix _ _
    · intro h; exact (List.prefix_iff_eq_take.1 h).symm
  unfold findStart
  simp only [h8]
  have hx := prefix_spos (text "=ybegin ") data (by decide) 0
  rw [spos_zero, List.drop_zero, List.drop_zero] at hx
  simp only [hx]
  by_cases hb : text "=ybegin " <+: data
  · rw [if_pos hb, if_pos hb]; simp [spos_zero]
  · rw [if_neg hb, if_neg hb, ← text_lit]
    have hf := find_stuffAux (text "\r\n=ybegin ") (by decide) (by decide) CR LF data
    change find _ (stuff data) = _ at hf
    rw [hf]
    cases hi : find (text "\r\n=ybegin ") data with
    | none => rfl
    | some i =>
      obtain ⟨_, h2⟩ := find_some hi
      have : spos data (i + 2) = spos data i + 2 := spos_pat (pat := [CR, LF]) (by decide) (List.IsPrefix.trans ⟨text "=ybegin ", by decide⟩ h2)
      simp only [Option.map_some, this]; rfl

/-! ### The first lines -/

/-- Positions mapped. -/
def Header.map (f : Nat → Nat) : Header → Header
  | .noEnd => .noEnd
  | .empty ls e => .empty ls (f e)
  | .dataAt ls s => .dataAt ls (f s)

theorem eqy_drop (data : List Byte) (k : Nat) : (data[k]? ≠ some EQ ∨ data[k + 1]? ≠ some LY) ↔ ¬ text "=y" <+: data.drop k := by
  rw [eqy_iff]
  simp only [List.getElem?_drop, Nat.add_zero]
  tauto

theorem headerLoop_stuff (data : List Byte) (n sp : Nat) (acc : List Str) (hy : text "=y" <+: data.drop sp) :
    headerLoop env (stuff data) n (spos data sp) (findFrom crlf (stuff data) (spos data sp)) acc =
      (headerLoop env data n sp (findFrom crlf data sp) acc).map (spos data) := by
  induction n generalizing sp acc with
  | zero => rfl
  | succ n ih =>
    rw [findFrom_spos crlf data (by decide) (by decide)]
    cases hf : findFrom crlf data sp with
    | none => rfl
    | some p =>
      obtain ⟨h1, h2, h3⟩ := findFrom_some hf
      have hraw : RawLine ((data.take p).drop sp) ∧ p ≠ sp := by
        rw [findFrom_eq] at hf
        cases hi : find crlf (data.drop sp) with
        | none => rw [hi] at hf; simp at hf
        | some i =>
          rw [hi] at hf; simp only [Option.map_some, Option.some.injEq] at hf
          have := raw_first hi hy
          refine ⟨?_, ?_⟩
          · rw [List.drop_take, show p - sp = i by omega]; exact this
          · rintro rfl
            rw [show i = 0 by omega] at this
            have := this.1.length_le
            simp [text] at this
      obtain ⟨⟨r, hr⟩, hn⟩ := hraw.1
      have hl : ((stuff data).take (spos data p)).drop (spos data sp) = (data.take p).drop sp := by
        refine line_spos (r := LY :: r) h1 ?_ hn
        rw [← hr]; rfl
      have hp0 : p ≠ 0 := by have := hraw.2; omega
      have hs0 : spos data p ≠ 0 := by have := spos_ge data p (by omega); omega
      have hp2 : spos data (p + 2) = spos data p + 2 := spos_pat (pat := crlf) (by decide) h3
      simp only [Option.map_some, headerLoop]
      rw [if_neg hp0, if_neg hs0, hl]
      by_cases ht : (trim (env.toStr ((data.take p).drop sp))).take 6 = lit "=yend "
      · rw [if_pos ht, if_pos ht, ← hp2]; rfl
      rw [if_neg ht, if_neg ht]
      have e1 := eqy_drop data (p + 2)
      have e2 := eqy_drop (stuff data) (spos data p + 2)
      rw [← hp2, prefix_spos _ _ (by decide), ← e1, hp2] at e2
      by_cases hc : data[p + 2]? ≠ some EQ ∨ data[p + 3]? ≠ some LY
      · rw [if_pos hc, if_pos (e2.2 hc), ← hp2]; rfl
      · rw [if_neg hc, if_neg (fun h => hc (e2.1 h)), ← hp2]
        refine ih _ _ ?_
        by_contra hcc
        exact hc (e1.2 hcc)

/-! ### The end line and the data -/

def Layout.map (f : Nat → Nat) (l : Layout) : Layout := { l with dataStart := l.dataStart.map f, dataEnd := l.dataEnd.map f, yencEnd := f l.yencEnd }

theorem layout_stuff (data : List Byte) (h : Header) : layout env (stuff data) (h.map (spos data)) = (layout env data h).map (Layout.map (spos data)) := by
  cases h with
  | noEnd => rfl
  | empty lines e => rfl
  | dataAt lines ds =>
    simp only [Header.map, layout]
    rw [drop_spos, ← text_lit, findRev_stuffAux _ (by decide) (by decide)]
    cases hi : findRev (text "\r\n=yend ") (data.drop ds) with
    | none => rfl
    | some i =>
      have hpre : text "\r\n=yend " <+: data.drop (ds + i) := by
        have := (findRev_some hi).2
        rwa [List.drop_drop] at this
      have e0 : spos data ds + (stuffAux (ctx CR LF (data.take ds)).1 (ctx CR LF (data.take ds)).2 ((data.drop ds).take i)).length = spos data (ds + i) :=
        (spos_add data ds i).symm
      have e8 : spos data (ds + i + 8) = spos data (ds + i) + 8 := spos_pat (pat := text "\r\n=yend ") (by decide) hpre
      have e2 : spos data (ds + i + 2) = spos data (ds + i) + 2 := spos_pat (pat := [CR, LF]) (by decide) (List.IsPrefix.trans ⟨text "=yend ", by decide⟩ hpre)
      have hend : text "=yend " <+: data.drop (ds + i + 2) := by
        obtain ⟨r, hr⟩ := hpre
        rw [← List.drop_drop, ← hr, show text "\r\n=yend " = [CR, LF] ++ text "=yend " by decide, List.append_assoc]
        exact List.prefix_append _ _
      have hskip : findFrom crlf data (ds + i + 8) = findFrom crlf data (ds + i + 2) := findFrom_skip (pre := text "=yend ") hend (by decide)
      simp only [Option.map_some, e0, ← e8, ← e2, findFrom_spos crlf data (by decide) (by decide)]
      cases hf : findFrom crlf data (ds + i + 8) with
      | none =>
        have hl : ((stuff data).take (stuff data).length).drop (spos data (ds + i + 2)) = (data.take data.length).drop (ds + i + 2) := by
          rw [← spos_length]
          obtain ⟨r, hr⟩ := hend
          have hlen := congrArg List.length hr
          simp only [List.length_append, List.length_drop, show (text "=yend ").length = 6 by decide] at hlen
          refine line_spos (r := text "yend " ++ r) (by omega) ?_ ?_
          · rw [List.take_length, ← hr]; rfl
          · rw [List.take_length]
            rw [hskip, findFrom_eq] at hf
            refine find_crlf_none ?_
            simpa using hf
        simp only [Option.map_none, Layout.map, hl, Option.map_some]
        rw [spos_length]
      | some p =>
        have hpm := findFrom_some hf
        have hp2 : spos data (p + 2) = spos data p + 2 := spos_pat (pat := crlf) (by decide) hpm.2.2
        have hl : ((stuff data).take (spos data p)).drop (spos data (ds + i + 2)) = (data.take p).drop (ds + i + 2) := by
          rw [hskip, findFrom_eq] at hf
          obtain ⟨r, hr⟩ := take_drop_prefix (p := p) hend (by rw [show (text "=yend ").length = 6 by decide]; omega)
          refine line_spos (r := text "yend " ++ r) (by omega) ?_ ?_
          · rw [hr]; rfl
          · cases hx : find crlf (data.drop (ds + i + 2)) with
            | none => rw [hx] at hf; simp at hf
            | some j =>
              rw [hx] at hf; simp only [Option.map_some, Option.some.injEq] at hf
              rw [List.drop_take, show p - (ds + i + 2) = j by omega]
              exact (find_crlf_some hx).2
        simp only [Option.map_some, Layout.map, hl, hp2]
        simp

theorem headerLoop_dataAt {data : List Byte} {n sp : Nat} {k : Nat} {acc lines : List Str} {s : Nat}
    (h : headerLoop env data n sp (findFrom crlf data k) acc = .dataAt lines s) : ∃ p, s = p + 2 ∧ crlf <+: data.drop p := by
  induction n generalizing sp k acc with
  | zero => simp [headerLoop] at h
  | succ n ih =>
    cases hf : findFrom crlf data k with
    | none => rw [hf] at h; simp [headerLoop] at h
    | some p =>
      rw [hf] at h
      simp only [headerLoop] at h
      by_cases h0 : p = 0
      · rw [if_pos h0] at h; simp at h
      rw [if_neg h0] at h
      by_cases h1 : (trim (env.toStr ((data.take p).drop sp))).take 6 = lit "=yend "
      · rw [if_pos h1] at h; simp at h
      rw [if_neg h1] at h
      by_cases h2 : data[p + 2]? ≠ some EQ ∨ data[p + 3]? ≠ some LY
      · rw [if_pos h2] at h
        injection h with _ h
        exact ⟨p, h.symm, (findFrom_some hf).2.2⟩
      · rw [if_neg h2] at h
        exact ih h

/-- Where the data are. -/
theorem layout_data {data : List Byte} {h : Header} {l : Layout} (hl : layout env data h = some l) :
    (l.dataStart = none ∧ l.dataEnd = none) ∨
      ∃ lines ds de, h = .dataAt lines ds ∧ l.dataStart = some ds ∧ l.dataEnd = some de ∧ ds ≤ de ∧ text "\r\n=yend " <+: data.drop de := by
  cases h with
  | noEnd => simp [layout] at hl
  | empty lines e =>
    simp only [layout, Option.some.injEq] at hl
    subst hl
    exact .inl ⟨rfl, rfl⟩
  | dataAt lines ds =>
    simp only [layout] at hl
    rw [← text_lit] at hl
    cases hi : findRev (text "\r\n=yend ") (data.drop ds) with
    | none => rw [hi] at hl; simp at hl
    | some i =>
      rw [hi] at hl
      simp only [Option.some.injEq] at hl
      subst hl
      refine .inr ⟨lines, ds, ds + i, rfl, rfl, rfl, by omega, ?_⟩
      have := (findRev_some hi).2
      rwa [List.drop_drop] at this

theorem ctx_crlf {data : List Byte} {p : Nat} (h : crlf <+: data.drop p) : ctx CR LF (data.take (p + 2)) = (CR, LF) := by
  obtain ⟨r, hr⟩ := h
  rw [List.take_add, ctx_append, ← hr]
  rfl

def Post.map (f : Nat → Nat) (p : Post) : Post :=
  { p with yencStart := f p.yencStart, dataStart := p.dataStart.map f, dataEnd := p.dataEnd.map f, yencEnd := f p.yencEnd }

def FromPost.map (f : Nat → Nat) : FromPost → FromPost
  | .error c => .error c
  | .ok p => .ok (p.map f)

theorem fromPost_stuff (data : List Byte)
    (hd : ∀ s l size ds de, findStart data = some s → layout env data (headerLoop env data data.length s (findFrom crlf data (s + 8)) []) = some l →
      required l.props = .ret (some size) → l.dataStart = some ds → l.dataEnd = some de →
      Dec.apiDecode lib.dec [.buffer (stuff ((data.take de).drop ds)), .bool true] = Dec.apiDecode lib.dec [.buffer ((data.take de).drop ds), .bool false]) :
    fromPost lib env (stuff data) true = (fromPost lib env data false).bind fun r => .ret (r.map (spos data)) := by
  unfold fromPost
  rw [findStart_stuff]
  cases hs : findStart data with
  | none => rfl
  | some s =>
    have hb := (findStart_spec hs).1
    have e8 : spos data (s + 8) = spos data s + 8 := spos_pat (pat := text "=ybegin ") (by decide) hb
    have e : headerLoop env (stuff data) (stuff data).length (spos data s) (findFrom crlf (stuff data) (spos data s + 8)) [] =
        (headerLoop env data data.length s (findFrom crlf data (s + 8)) []).map (spos data) := by
      have hskip : findFrom crlf (stuff data) (spos data s + 8) = findFrom crlf (stuff data) (spos data s) :=
        findFrom_begin ((prefix_spos _ _ (by decide) _).2 hb)
      rw [hskip, headerLoop_stuff data _ _ _ (begin_eqy hb), ← findFrom_begin hb]
      congr 1
      refine headerLoop_fuel _ _ _ _ _ _ (fun q hq => ?_) (stuffAux_length CR LF data)
      have := findFrom_some hq
      omega
    simp only [Option.map_some, e, layout_stuff]
    cases hl : layout env data (headerLoop env data data.length s (findFrom crlf data (s + 8)) []) with
    | none => rfl
    | some l =>
      simp only [Option.map_some]
      show (required l.props).bind _ = _
      cases hq : required l.props with
      | throw m => rfl
      | ub => rfl
      | ret o =>
        simp only [Outcome.bind]
        cases o with
        | none => rfl
        | some size =>
          have hsec := layout_data hl
          have hd' := hd s l size
          obtain ⟨ds, de, ye, y, ws⟩ := l
          rcases hsec with ⟨h1, h2⟩ | ⟨lines, ds', de', hh, h1, h2, h3, h4⟩
          · simp only at h1 h2; subst h1; subst h2
            simp [conclude, Layout.map, FromPost.map, Post.map]
          · simp only at h1 h2; subst h1; subst h2
            obtain ⟨p, hp, hc⟩ := headerLoop_dataAt hh
            have hsg : ((stuff data).take (spos data de')).drop (spos data ds') = stuff ((data.take de').drop ds') := by
              rw [seg_spos data h3]
              subst hp
              rw [ctx_crlf hc]; rfl
            simp only [conclude, Layout.map, Option.map_some, hsg]
            rw [hd' ds' de' hs hl hq rfl rfl]
            cases Dec.apiDecode lib.dec [.buffer ((data.take de').drop ds'), .bool false] with
            | ret out =>
              simp only [Outcome.bind]
              cases lib.crc32 out <;> simp [FromPost.map, Post.map]
            | throw m => rfl
            | ub => rfl

theorem unstuffAux_append (p q : Byte) (a b : List Byte) :
    unstuffAux p q (a ++ b) = unstuffAux p q a ++ unstuffAux (ctx p q a).1 (ctx p q a).2 b := by
  induction a generalizing p q with
  | nil => rfl
  | cons c a ih =>
    rw [List.cons_append, unstuffAux, unstuffAux, ctx, ih]
    split <;> simp

theorem suffix_of_stuff {l : List Byte} (h : [EQ, CR, LF] <:+ stuff l) : [EQ, CR, LF] <:+ l := by
  obtain ⟨t, ht⟩ := h
  have := Enc.unstuff_stuffAux CR LF l
  change unstuffAux CR LF (stuff l) = l at this
  rw [← ht, unstuffAux_append] at this
  refine ⟨unstuffAux CR LF t, Eq.trans ?_ this⟩
  congr 1
  simp [unstuffAux]

end Yenc.Js
