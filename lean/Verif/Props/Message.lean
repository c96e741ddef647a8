import Verif.Lemmas.JsMessage
import Verif.Props.Header
/-!
Property C104: what the warnings and errors of `from_post` say.
-/
namespace Yenc.Props
open Spec Yenc.Js

variable {lib : Lib} {env : Env}

/-- C104: the results are those of the model without texts: every warning and every error there has exactly one message here, in the same order. -/
theorem C104_codes (data : List Byte) (isRaw : Bool) :
    fromPost lib env data isRaw = match fromPostM lib env data isRaw with
      | .ret (.ok p) => .ret (.ok ⟨p.yencStart, p.dataStart, p.dataEnd, p.yencEnd, p.props, p.data, p.crc32, p.warnings.map (·.code)⟩)
      | .ret (.error c _) => .ret (.error c)
      | .throw m => .throw m
      | .ub => .ub := by
  rw [← fromPostM_erase]
  cases fromPostM lib env data isRaw with
  | ret r => cases r <;> rfl
  | throw m => rfl
  | ub => rfl

theorem fromPostM_ok {data : List Byte} {isRaw : Bool} {p : PostM} (hp : fromPostM lib env data isRaw = .ret (.ok p)) :
    ∃ l, findStart data = some p.yencStart ∧ layoutM env data (headerLoop env data data.length p.yencStart (findFrom crlf data (p.yencStart + 8)) []) = some l ∧
      p.dataStart = l.dataStart ∧ p.dataEnd = l.dataEnd ∧ p.yencEnd = l.yencEnd ∧ Fixed l.warnings p.warnings := by
  unfold fromPostM at hp
  split at hp
  · simp at hp
  · rename_i s hs
    split at hp
    · simp at hp
    · rename_i l hl
      cases hr : requiredM l.props with
      | ret o =>
        rw [hr] at hp
        simp only [Outcome.bind] at hp
        cases o with
        | error m => simp at hp
        | ok size =>
          simp only [concludeM] at hp
          split at hp
          · cases hd : Dec.apiDecode lib.dec [.buffer ((data.take _).drop _), .bool isRaw] with
            | ret out =>
              rw [hd] at hp
              simp only [Outcome.bind] at hp
              cases hc : lib.crc32 out with
              | ret crc =>
                rw [hc] at hp
                simp only [Outcome.bind, Outcome.ret.injEq, FromPostM.ok.injEq] at hp
                subst hp
                exact ⟨l, hs, hl, rfl, rfl, rfl, (checkPropsM_fixed _ _ _).trans (checkDataM_fixed _ _ _ _ _ _ _)⟩
              | throw m => rw [hc] at hp; simp [Outcome.bind] at hp
              | ub => rw [hc] at hp; simp [Outcome.bind] at hp
            | throw m => rw [hd] at hp; simp [Outcome.bind] at hp
            | ub => rw [hd] at hp; simp [Outcome.bind] at hp
          · simp only [Outcome.ret.injEq, FromPostM.ok.injEq] at hp
            subst hp
            exact ⟨l, hs, hl, rfl, rfl, rfl, (checkPropsM_fixed _ _ _).trans (checkDataM_fixed _ _ _ _ _ _ _)⟩
      | throw m => rw [hr] at hp; simp [Outcome.bind] at hp
      | ub => rw [hr] at hp; simp [Outcome.bind] at hp

/-- C104, nothing is passed over silently: each header line consists of its tag, properties and other text, and the warnings about header lines are, in order and word for word, one for each piece of
other text, quoting it, one for each repeated property and each repeated line, naming it.  (Lines whose tag is the name of something every object has, such as `toString`, always count as repeated; so do, after a line
`=y__proto__`, lines whose tag is the name of one of its properties.) -/
theorem C104_quotes (data : List Byte) (isRaw : Bool) (p : PostM) (hp : fromPostM lib env data isRaw = .ret (.ok p)) :
    ∃ ended texts ls, PostLines env.toStr data p.yencStart p.dataStart p.dataEnd p.yencEnd ended texts ∧ List.Forall₂ ReadFull texts ls ∧
      List.Forall₂ ReadLine texts (ls.map FullLine.line) ∧
      (p.warnings.filter fun w => headerCodes.contains w.code).map (fun w => (w.code, w.message)) = lineMessages ⟨[], []⟩ ls := by
  obtain ⟨l, h1, h2, h3, h4, h5, h6⟩ := fromPostM_ok hp
  obtain ⟨ended, texts, ls, a1, a2, a3, -⟩ := layoutM_forward (findStart_spec h1).1 h2
  refine ⟨ended, texts, ls, by rw [h3, h4, h5]; exact a1, a2, ?_, ?_⟩
  · clear a1 a3
    induction a2 with
    | nil => exact .nil
    | cons h _ ih => exact .cons (readFull_readLine h) ih
  · have := h6.filter.trans a3
    have e : (p.warnings.filter fun w => headerCodes.contains w.code) = p.warnings.filter isHeader := rfl
    rw [e, this, List.map_map]
    have : (fun w : Warning => (w.code, w.message)) ∘ toWarning = id := rfl
    rw [this, List.map_id]

/-- C104: the description leaves no choice. -/
theorem C104_unique (data : List Byte) (s : Nat) {ds de ds' de' : Option Nat} {stop stop' : Nat} {ended ended' : Bool} {texts texts' : List Str} {ls ls' : List FullLine}
    (h : PostLines env.toStr data s ds de stop ended texts) (h' : PostLines env.toStr data s ds' de' stop' ended' texts')
    (hl : List.Forall₂ ReadFull texts ls) (hl' : List.Forall₂ ReadFull texts' ls') : ls = ls' := by
  obtain ⟨-, -, -, -, rfl⟩ := postLines_unique h h'
  clear h h'
  induction hl generalizing ls' with
  | nil => cases hl'; rfl
  | cons h1 _ ih => cases hl' with | cons h1' h2' => rw [readFull_unique h1 h1', ih h2']

/-- C104: the other warnings have fixed messages. -/
theorem C104_table (data : List Byte) (isRaw : Bool) (p : PostM) (hp : fromPostM lib env data isRaw = .ret (.ok p)) (w : Warning) (hw : w ∈ p.warnings) (hh : w.code ∉ headerCodes) :
    ∃ m ∈ otherMessages, w.code = m.1 ∧ w.message = chars m.2 := by
  obtain ⟨l, h1, h2, -, -, -, ex, h6, h7⟩ := fromPostM_ok hp
  obtain ⟨ended, texts, ls, -, -, -, a4⟩ := layoutM_forward (findStart_spec h1).1 h2
  rw [h6] at hw
  rcases List.mem_append.1 hw with hw | hw
  · rcases a4 w hw with h | h
    · exact absurd (by simpa [isHeader] using h) hh
    · refine ⟨("missing_yend_newline", "No line terminator found for =yend line"), by decide, ?_⟩
      rw [h]
      exact ⟨rfl, rfl⟩
  · obtain ⟨m, hm, rfl⟩ := h7 w hw
    exact ⟨m, hm, rfl, rfl⟩

/-- C104: the four error messages. -/
theorem C104_errors (data : List Byte) (isRaw : Bool) (c : String) (m : Str) (h : fromPostM lib env data isRaw = .ret (.error c m)) :
    (c, m) ∈ [("no_start_found", chars "yEnc start marker not found"), ("no_end_found", chars "yEnd end marker not found"),
      ("missing_required_properties", chars "Could not find line/size/name properties on ybegin line"),
      ("missing_required_properties", chars "Could not find size properties on yend line")] := by
  unfold fromPostM at h
  split at h
  · simp only [Outcome.ret.injEq, FromPostM.error.injEq] at h
    obtain ⟨rfl, rfl⟩ := h
    decide
  · split at h
    · simp only [Outcome.ret.injEq, FromPostM.error.injEq] at h
      obtain ⟨rfl, rfl⟩ := h
      decide
    · rename_i l _
      have hm : ∀ m, requiredM l.props = .ret (.error m) →
          m = chars "Could not find line/size/name properties on ybegin line" ∨ m = chars "Could not find size properties on yend line" := by
        intro m hr
        unfold requiredM at hr
        split at hr
        · simp at hr
        · simp only [Outcome.ret.injEq, Except.error.injEq] at hr; exact .inl hr.symm
        · split at hr
          · simp only [Outcome.ret.injEq, Except.error.injEq] at hr; exact .inl hr.symm
          · split at hr
            · simp at hr
            · split at hr
              · simp at hr
              · simp only [Outcome.ret.injEq, Except.error.injEq] at hr; exact .inr hr.symm
      cases hr : requiredM l.props with
      | ret o =>
        rw [hr] at h
        simp only [Outcome.bind] at h
        cases o with
        | error m' =>
          simp only [Outcome.ret.injEq, FromPostM.error.injEq] at h
          obtain ⟨rfl, rfl⟩ := h
          rcases hm m' hr with rfl | rfl <;> simp
        | ok size =>
          exfalso
          simp only [concludeM] at h
          split at h
          · cases hd : Dec.apiDecode lib.dec [.buffer ((data.take _).drop _), .bool isRaw] with
            | ret out =>
              rw [hd] at h
              simp only [Outcome.bind] at h
              cases hc : lib.crc32 out <;> rw [hc] at h <;> simp [Outcome.bind] at h
            | throw m => rw [hd] at h; simp [Outcome.bind] at h
            | ub => rw [hd] at h; simp [Outcome.bind] at h
          · simp at h
      | throw m => rw [hr] at h; simp [Outcome.bind] at h
      | ub => rw [hr] at h; simp [Outcome.bind] at h

/-- A post with text that belongs to no property, a repeated property, a repeated line and a wrong size. -/
def noisy : List Byte := text "=ybegin ? line=1 size=0 size=1 name=a b\r\n=ypart x\r\n=ypart x y\r\n=yend size=2 !\r\n"

example : (fun o => match o with | .ret (.ok p) => p.warnings.map (fun w => (w.code, w.message)) | _ => [])
    (fromPostM genericLib natEnv noisy false) =
    [("ignored_line_data", chars "Unknown additional data ignored: \"? \""),
      ("duplicate_property", chars "Duplicate property encountered: `size`"),
      ("ignored_line_data", chars "Unknown additional end-of-line data ignored: \"x\""),
      ("ignored_line_data", chars "Unknown additional end-of-line data ignored: \"x y\""),
      ("duplicate_line", chars "Duplicate line encountered: `part`"),
      ("ignored_line_data", chars "Unknown additional end-of-line data ignored: \"!\""),
      ("size_mismatch", chars "Size specified in begin and end do not match"),
      ("data_size_mismatch", chars "Decoded data length doesn't match size specified in yend")] := by decide +kernel

example : fromPostM genericLib natEnv (text "=ybegin line=1 size=1 name=\r\n=yend size=\r\n") false =
    .ret (.error "missing_required_properties" (chars "Could not find size properties on yend line")) := by decide +kernel

/-- A line `=y__proto__` makes lines named like its properties count as repeated; `toString` always does. -/
example : (fun o => match o with | .ret (.ok p) => p.warnings.map (fun w => (w.code, w.message)) | _ => [])
    (fromPostM genericLib natEnv (text "=ybegin line=1 size=0 name=a\r\n=y__proto__ x=1\r\n=yx\r\n=ytoString\r\n\r\n=yend size=0\r\n") false) =
    [("duplicate_line", chars "Duplicate line encountered: `__proto__`"), ("duplicate_line", chars "Duplicate line encountered: `x`"),
      ("duplicate_line", chars "Duplicate line encountered: `toString`")] := by decide +kernel

/-- The items of a line. -/
example : spell [.before (chars "? "), .field (chars "line") (chars "1"), .field (chars "size") (chars "0"), .atEnd (chars "!")] = chars "? line=1 size=0 !" := by decide

end Yenc.Props
