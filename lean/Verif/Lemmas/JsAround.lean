import Verif.Lemmas.JsTotal
/-! `from_post` on a post with other text before or after it. -/
namespace Yenc.Js
open Yenc Spec

variable {env : Env} {lib : Lib}

/-! ### Text before -/

theorem findFrom_shift (pat pre data : List Byte) (k : Nat) : findFrom pat (pre ++ data) (pre.length + k) = (findFrom pat data k).map (pre.length + ·) := by
  unfold findFrom
  rw [← List.drop_drop, List.drop_left]
  cases find pat (data.drop k) <;> simp [Nat.add_assoc]

/-- Positions moved by `n`. -/
def Header.shift (n : Nat) : Header → Header
  | .noEnd => .noEnd
  | .empty ls e => .empty ls (n + e)
  | .dataAt ls s => .dataAt ls (n + s)

theorem take_drop_shift (pre data : List Byte) (p sp : Nat) : ((pre ++ data).take (pre.length + p)).drop (pre.length + sp) = (data.take p).drop sp := by
  rw [List.take_append, List.take_of_length_le (by omega), ← List.drop_drop, List.drop_left, Nat.add_sub_cancel_left]

theorem get_shift (pre data : List Byte) (i : Nat) : (pre ++ data)[pre.length + i]? = data[i]? := by
  rw [List.getElem?_append_right (by omega), Nat.add_sub_cancel_left]

theorem headerLoop_shift (pre data : List Byte) (n sp : Nat) (p : Option Nat) (lines : List Str) (hp : p ≠ some 0) :
    headerLoop env (pre ++ data) n (pre.length + sp) (p.map (pre.length + ·)) lines = (headerLoop env data n sp p lines).shift pre.length := by
  induction n generalizing sp p lines with
  | zero => rfl
  | succ n ih =>
    cases p with
    | none => rfl
    | some p =>
      have h0 : p ≠ 0 := fun h => hp (by rw [h])
      simp only [Option.map_some, headerLoop]
      rw [if_neg h0, if_neg (by omega), take_drop_shift, Nat.add_assoc, Nat.add_assoc, get_shift, get_shift]
      by_cases h1 : (trim (env.toStr ((data.take p).drop sp))).take 6 = lit "=yend "
      · rw [if_pos h1, if_pos h1]; rfl
      rw [if_neg h1, if_neg h1]
      by_cases h2 : data[p + 2]? ≠ some EQ ∨ data[p + 3]? ≠ some LY
      · rw [if_pos h2, if_pos h2]; rfl
      rw [if_neg h2, if_neg h2, findFrom_shift]
      exact ih _ _ _ fun h => by have := (findFrom_some h).1; omega

/-- Positions moved by `n`. -/
def Layout.shift (n : Nat) (l : Layout) : Layout := { l with dataStart := l.dataStart.map (n + ·), dataEnd := l.dataEnd.map (n + ·), yencEnd := n + l.yencEnd }

theorem layout_shift (pre data : List Byte) (h : Header) : layout env (pre ++ data) (h.shift pre.length) = (layout env data h).map (Layout.shift pre.length) := by
  cases h with
  | noEnd => rfl
  | empty lines e => rfl
  | dataAt lines ds =>
    simp only [Header.shift, layout]
    rw [← List.drop_drop, List.drop_left]
    cases findRev (ascii (lit "\r\n=yend ")) (data.drop ds) with
    | none => rfl
    | some i =>
      simp only [Option.map_some, Layout.shift]
      rw [Nat.add_assoc, Nat.add_assoc, Nat.add_assoc, Nat.add_assoc, findFrom_shift]
      cases findFrom crlf data (ds + (i + 8)) with
      | none => simp [take_drop_shift]
      | some p => simp [take_drop_shift, Nat.add_assoc]

/-- Positions moved by `n`. -/
def Post.shift (n : Nat) (p : Post) : Post :=
  { p with yencStart := n + p.yencStart, dataStart := p.dataStart.map (n + ·), dataEnd := p.dataEnd.map (n + ·), yencEnd := n + p.yencEnd }

def FromPost.shift (n : Nat) : FromPost → FromPost
  | .error c => .error c
  | .ok p => .ok (p.shift n)

theorem conclude_shift (pre data : List Byte) (isRaw : Bool) (l : Layout) (size : Str) :
    conclude lib env (pre ++ data) isRaw pre.length (l.shift pre.length) size = (conclude lib env data isRaw 0 l size).bind fun r => .ret (r.shift pre.length) := by
  obtain ⟨ds, de, ye, y, ws⟩ := l
  cases ds with
  | none => simp [conclude, Layout.shift, Outcome.bind, FromPost.shift, Post.shift]
  | some ds =>
    cases de with
    | none => simp [conclude, Layout.shift, Outcome.bind, FromPost.shift, Post.shift]
    | some de =>
      simp only [conclude, Layout.shift, Option.map_some, take_drop_shift]
      cases Dec.apiDecode lib.dec [.buffer ((data.take de).drop ds), .bool isRaw] with
      | ret out =>
        simp only [Outcome.bind]
        cases lib.crc32 out <;> simp [FromPost.shift, Post.shift]
      | throw m => rfl
      | ub => rfl

theorem fromPost_shift {pre data : List Byte} (isRaw : Bool) (h0 : findStart data = some 0) (h : findStart (pre ++ data) = some pre.length) :
    fromPost lib env (pre ++ data) isRaw = (fromPost lib env data isRaw).bind fun r => .ret (r.shift pre.length) := by
  have e : headerLoop env (pre ++ data) (pre ++ data).length pre.length (findFrom crlf (pre ++ data) (pre.length + 8)) [] =
      (headerLoop env data data.length 0 (findFrom crlf data (0 + 8)) []).shift pre.length := by
    rw [← headerLoop_shift, findFrom_shift]
    · refine headerLoop_fuel _ _ _ _ _ _ (fun q hq => ?_) (by simp)
      cases hf : findFrom crlf data 8 with
      | none => rw [hf] at hq; simp at hq
      | some i =>
        rw [hf] at hq
        simp only [Option.map_some, Option.some.injEq] at hq
        have := (findFrom_some hf).2.1
        simp; omega
    · intro h; have := (findFrom_some h).1; omega
  unfold fromPost
  rw [h0, h]
  simp only [e, layout_shift]
  cases layout env data (headerLoop env data data.length 0 (findFrom crlf data (0 + 8)) []) with
  | none => rfl
  | some l =>
    simp only [Option.map_some]
    show (required l.props).bind _ = _
    cases required l.props with
    | ret o =>
      simp only [Outcome.bind]
      cases o with
      | none => rfl
      | some size => exact conclude_shift pre data isRaw l size
    | throw m => rfl
    | ub => rfl

/-! ### Text after -/

theorem prefix_append_iff {pat data suf : List Byte} {i : Nat} (h : i + pat.length ≤ data.length) : pat <+: (data ++ suf).drop i ↔ pat <+: data.drop i := by
  rw [List.drop_append_of_le_length (by omega)]
  constructor
  · intro hp
    exact List.prefix_of_prefix_length_le hp (List.prefix_append _ _) (by rw [List.length_drop]; omega)
  · intro hp
    exact hp.trans (List.prefix_append _ _)

theorem findFrom_least {pat data : List Byte} {k n : Nat} (h : findFrom pat data k = some n) : ∀ j, k ≤ j → j < n → ¬ pat <+: data.drop j := by
  intro j h1 h2 hp
  unfold findFrom at h
  cases hf : find pat (data.drop k) with
  | none => rw [hf] at h; simp at h
  | some i =>
    rw [hf] at h
    simp only [Option.some.injEq] at h
    refine find_first hf (j - k) (by omega) ?_
    rw [List.drop_drop, show k + (j - k) = j by omega]; exact hp

theorem findFrom_eq_some {pat data : List Byte} {k n : Nat} (hp : pat ≠ []) (hk : k ≤ n) (h : pat <+: data.drop n) (h2 : ∀ j, k ≤ j → j < n → ¬ pat <+: data.drop j) :
    findFrom pat data k = some n := by
  have h1 := h.length_le
  have h3 : 0 < pat.length := List.length_pos_iff.2 hp
  rw [List.length_drop] at h1
  unfold findFrom
  rw [find_eq (n := n - k) (by rw [List.length_drop]; omega)]
  · simp; omega
  · rw [List.drop_drop, show k + (n - k) = n by omega]; exact h
  · intro i hi hp
    rw [List.drop_drop] at hp
    exact h2 _ (by omega) (by omega) hp

theorem prefix_len {pat data : List Byte} {n : Nat} (hp : pat ≠ []) (h : pat <+: data.drop n) : n + pat.length ≤ data.length := by
  have h1 := h.length_le
  have h3 : 0 < pat.length := List.length_pos_iff.2 hp
  rw [List.length_drop] at h1
  omega

theorem findFrom_append {pat data : List Byte} (suf : List Byte) {k n : Nat} (hp : pat ≠ []) (h : findFrom pat data k = some n) : findFrom pat (data ++ suf) k = some n := by
  obtain ⟨h1, -, h2⟩ := findFrom_some h
  have h3 := prefix_len hp h2
  refine findFrom_eq_some hp h1 ((prefix_append_iff h3).2 h2) fun j hj hn hc => findFrom_least h j hj hn ?_
  exact (prefix_append_iff (by omega)).1 hc

theorem crlf_ne : crlf ≠ [] := by simp [crlf]

theorem headerLoop_append (data suf : List Byte) (n sp : Nat) (p : Option Nat) (lines : List Str) (hp : ∀ q, p = some q → q + 2 ≤ data.length)
    (h1 : headerLoop env data n sp p lines ≠ .noEnd) (h2 : ∀ ls ds, headerLoop env data n sp p lines = .dataAt ls ds → ds + 2 ≤ data.length) :
    headerLoop env (data ++ suf) n sp p lines = headerLoop env data n sp p lines := by
  induction n generalizing sp p lines with
  | zero => rfl
  | succ n ih =>
    cases p with
    | none => rfl
    | some p =>
      have hl := hp p rfl
      simp only [headerLoop] at h1 h2 ⊢
      by_cases h0 : p = 0
      · rw [if_pos h0] at h1; exact absurd rfl h1
      rw [if_neg h0] at h1 h2 ⊢
      rw [if_neg h0, List.take_append_of_le_length (by omega)]
      by_cases h3 : (trim (env.toStr ((data.take p).drop sp))).take 6 = lit "=yend "
      · rw [if_pos h3, if_pos h3]
      rw [if_neg h3] at h1 h2 ⊢
      rw [if_neg h3]
      by_cases h4 : data[p + 2]? ≠ some EQ ∨ data[p + 3]? ≠ some LY
      · rw [if_pos h4] at h2 ⊢
        have := h2 _ _ rfl
        rw [List.getElem?_append_left (by omega), List.getElem?_append_left (by omega), if_pos h4]
      · have h5 : data[p + 3]? = some LY := by
          by_contra hc
          exact h4 (.inr hc)
        have := (List.getElem?_eq_some_iff.1 h5).1
        rw [if_neg h4] at h1 h2 ⊢
        rw [List.getElem?_append_left (by omega), List.getElem?_append_left (by omega), if_neg h4]
        cases hf : findFrom crlf data (p + 2) with
        | none =>
          rw [hf] at h1
          exact absurd (by cases n <;> rfl) h1
        | some q =>
          rw [hf] at h1 h2
          rw [findFrom_append suf crlf_ne hf]
          refine ih _ _ _ (fun r hr => ?_) h1 h2
          cases hr
          have := prefix_len crlf_ne (findFrom_some hf).2.2
          exact this

theorem yend_ne : ascii (lit "\r\n=yend ") ≠ [] := by decide

theorem layout_append {data suf : List Byte} {hd : Header} {l : Layout} (h : layout env data hd = some l) (hn : l.dataStart = none ∨ "missing_yend_newline" ∉ l.warnings)
    (hs : l.dataStart = none ∨ ∀ i, data.length < i + 8 → ¬ text "\r\n=yend " <+: (data ++ suf).drop i) : layout env (data ++ suf) hd = some l := by
  cases hd with
  | noEnd => simp [layout] at h
  | empty lines e => exact h
  | dataAt lines ds =>
    simp only [layout] at h ⊢
    cases hf : findRev (ascii (lit "\r\n=yend ")) (data.drop ds) with
    | none => rw [hf] at h; simp at h
    | some i =>
      rw [hf] at h
      simp only [Option.some.injEq] at h
      subst h
      simp only [reduceCtorEq, false_or] at hn hs
      obtain ⟨a1, a2⟩ := findRev_some hf
      have a3 := findRev_last yend_ne hf
      rw [List.drop_drop] at a2
      have a4 := prefix_len yend_ne a2
      have l8 : (ascii (lit "\r\n=yend ")).length = 8 := by decide
      rw [l8] at a4
      have e : findRev (ascii (lit "\r\n=yend ")) ((data ++ suf).drop ds) = some i := by
        refine findRev_eq (by simp; omega) ?_ ?_
        · rw [List.drop_drop, prefix_append_iff (by omega)]; exact a2
        · intro j hj _ hc
          rw [List.drop_drop] at hc
          rcases Nat.lt_or_ge data.length (ds + j + 8) with hb | hb
          · exact hs _ hb hc
          · rw [prefix_append_iff (by omega)] at hc
            refine a3 j hj ?_
            rw [List.drop_drop]; exact hc
      rw [e]
      cases hp : findFrom crlf data (ds + i + 8) with
      | none =>
        rw [hp] at hn
        exact absurd (by simp) hn
      | some q =>
        have a5 := prefix_len crlf_ne (findFrom_some hp).2.2
        have : q ≤ data.length := by omega
        simp only [findFrom_append suf crlf_ne hp, List.take_append_of_le_length this]

end Yenc.Js
