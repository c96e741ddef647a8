import Verif.Basic
/-!
Model of the scalar decoders, `/repo/src/decoder.cc:11-338`.

A pointer `es + i` (`i ≤ 0`) into the source is represented by the list of bytes from there to `es`; a read past the end of
the source is the outcome `none`.  The destination is the list of bytes written so far (`p` always points just past
them, nothing is ever written ahead of `p`); that source and destination may be the same memory is treated in
`Verif/Model/DecoderInPlace.lean`.
-/
namespace Yenc.Dec

/-- `YencDecoderState`, decoder.h:12-20. -/
inductive State where
  | crlf | eq | cr | none | crlfdt | crlfdtcr | crlfeq
deriving DecidableEq, Repr

/-- `YencDecoderEnd`, decoder.h:23-27. -/
inductive Ended where
  | none | control | article
deriving DecidableEq, Repr

/-- What a call leaves behind: `rest` are the bytes from `*src` on, `out` those written, then `*state` and the return
value. -/
structure Res where
  rest : List Byte
  out : List Byte
  state : State
  ended : Ended
deriving DecidableEq, Repr

/-! ### `do_decode_noend_scalar` -/

/-- Outcome of the `switch(*state)` at the start: `return`, or carry on with the main loop. -/
inductive Pre where
  | ret (out : List Byte) (st : State)
  | go (rest : List Byte) (out : List Byte)
deriving DecidableEq, Repr

/-- decoder.cc:43-45: `case YDEC_STATE_CRLF`, also 48-49 (`state == NULL`). -/
def preCrlf (l : List Byte) : Option Pre :=
  match l with
  | [] => none
  | c :: cs => some (if c = DOT then .go cs [] else .go l [])

/-- decoder.cc:38-42: `case YDEC_STATE_CR`; `out` are the bytes written before (one, when falling through from
`YDEC_STATE_EQ`).  `return 0` forgets them: the caller advances `*dest` by the returned value. -/
def preCr (l : List Byte) (out : List Byte) : Option Pre :=
  match l with
  | [] => none
  | c :: cs =>
    if c ≠ LF then some (.go l out)
    else
      match cs with
      | [] => some (.ret [] .crlf)
      | d :: ds => some (if d = DOT then .go ds out else .go cs out)

/-- decoder.cc:25-49: the initial `switch`, `st = none` being `state == NULL`. -/
def preRaw (st : Option State) (l : List Byte) : Option Pre :=
  match st with
  | some .eq =>
    match l with
    | [] => none
    | c :: cs =>
      if c = CR then
        match cs with
        | [] => some (.ret [] .cr)
        | _ :: _ => preCr cs [c - 42#8 - 64#8]
      else some (.go cs [c - 42#8 - 64#8])
  | some .cr => preCr l []
  | some .crlf => preCrlf l
  | some _ => some (.go l [])
  | none => preCrlf l

/-- decoder.cc:51-70: `for(; i < -2; i++)`. -/
def loopRaw : List Byte → List Byte → List Byte × List Byte
  | a :: b :: c :: r, out =>
    if a = CR then
      if b = LF ∧ c = DOT then loopRaw r out else loopRaw (b :: c :: r) out
    else if a = LF then loopRaw (b :: c :: r) out
    else if a = EQ then
      if b ≠ CR then loopRaw (c :: r) (out ++ [b - 42#8 - 64#8])
      else loopRaw (b :: c :: r) (out ++ [b - 42#8 - 64#8])
    else loopRaw (b :: c :: r) (out ++ [a - 42#8])
  | l, out => (l, out)
termination_by l => l.length
decreasing_by all_goals simp <;> omega

/-- decoder.cc:96-105 (also 313-322): the final character. -/
def last1 (l : List Byte) (out : List Byte) : List Byte × State :=
  match l with
  | [c] =>
    if c ≠ LF ∧ c ≠ CR ∧ c ≠ EQ then (out ++ [c - 42#8], .none)
    else if c = EQ then (out, .eq)
    else if c = CR then (out, .cr)
    else (out, .none)
  | _ => (out, .none)

/-- decoder.cc:71-105 (also 283-322): `*state = NONE`, the last but one character and the final character. `hasState` says that `state`
is not NULL. -/
def last2 (hasState : Bool) (l : List Byte) (out : List Byte) : List Byte × State :=
  match l with
  | [a, b] =>
    if a = CR then
      if hasState ∧ b = LF then (out, .crlf) else last1 [b] out
    else if a = LF then last1 [b] out
    else if a = EQ then
      if b ≠ CR then (out ++ [b - 42#8 - 64#8], .none) else last1 [b] (out ++ [b - 42#8 - 64#8])
    else last1 [b] (out ++ [a - 42#8])
  | _ => last1 l out

/-- `do_decode_noend_scalar<true>(src, dest, len, state)`, decoder.cc:12-106,145: the bytes counted as written and the final state
(meaningless if `st = none`, i.e. `state == NULL`). -/
def noendRaw (st : Option State) (l : List Byte) : Option (List Byte × Option State) :=
  if l = [] then some ([], st)
  else
    match preRaw st l with
    | none => none
    | some (.ret out s) => some (out, some s)
    | some (.go rest out) =>
      let r := loopRaw rest out
      let f := last2 st.isSome r.1 r.2
      some (f.1, st.map (fun _ => f.2))

/-- decoder.cc:123-132: `for(; i < -1; i++)` of the plain decoder. -/
def loopPlain : List Byte → List Byte → List Byte × List Byte
  | a :: b :: r, out =>
    if a = LF ∨ a = CR then loopPlain (b :: r) out
    else if a = EQ then loopPlain r (out ++ [b - 64#8 - 42#8])
    else loopPlain (b :: r) (out ++ [a - 42#8])
  | l, out => (l, out)

/-- `do_decode_noend_scalar<false>(src, dest, len, state)`, decoder.cc:12-22,107-145. -/
def noendPlain (st : Option State) (l : List Byte) : List Byte × Option State :=
  match l with
  | [] => ([], st)
  | c :: cs =>
    let s := if st = some .eq then (cs, [c - 42#8 - 64#8]) else (l, [])
    let r := loopPlain s.1 s.2
    match r.1 with
    | [a] =>
      if a ≠ LF ∧ a ≠ CR ∧ a ≠ EQ then (r.2 ++ [a - 42#8], st.map fun _ => .none)
      else (r.2, st.map fun _ => if a = EQ then .eq else .none)
    | _ => (r.2, st.map fun _ => .none)

/-! ### `do_decode_end_scalar`

Only the instance `isRaw = true` exists in the program (decoder.cc:344, 348), and it is only ever called with a non-NULL
`state` (yencode.cc:314, decoder_common.h:32,143), so the model is specialised to that. -/

/-- `return` with `*src`, `*dest`, `*state` set, or reaching the main loop. -/
inductive Step where
  | ret (r : Res)
  | go (rest : List Byte) (out : List Byte)
deriving DecidableEq, Repr

/-- Order in which the labels of the initial `switch` can follow each other without consuming input. -/
def State.rank : State → Nat
  | .crlfeq => 1
  | _ => 0

/-- decoder.cc:166-223: the initial `switch(*state)` with its fall-throughs and gotos. `YDEC_CHECK_END(s)` (159-164) returns if the
input is used up. -/
def preEnd (st : State) (l : List Byte) (out : List Byte) : Option Step :=
  match st, l with
  | .none, l => some (.go l out)
  | _, [] => none
  | .crlfeq, c :: cs =>
    if c = LY then some (.ret ⟨cs, out, .none, .control⟩)
    else preEnd .eq (c :: cs) out
  | .eq, c :: cs =>
    let out' := out ++ [c - 42#8 - 64#8]
    if c ≠ CR then some (.go cs out')
    else if cs = [] then some (.ret ⟨[], out', .cr, .none⟩)
    else preEnd .cr cs out'
  | .cr, c :: cs =>
    if c ≠ LF then some (.go (c :: cs) out)
    else if cs = [] then some (.ret ⟨[], out, .crlf, .none⟩)
    else preEnd .crlf cs out
  | .crlf, c :: cs =>
    if c = DOT then
      if cs = [] then some (.ret ⟨[], out, .crlfdt, .none⟩)
      else preEnd .crlfdt cs out
    else if c = EQ then
      if cs = [] then some (.ret ⟨[], out, .crlfeq, .none⟩)
      else preEnd .crlfeq cs out
    else some (.go (c :: cs) out)
  | .crlfdt, c :: cs =>
    if c = CR then
      if cs = [] then some (.ret ⟨[], out, .crlfdtcr, .none⟩)
      else preEnd .crlfdtcr cs out
    else if c = EQ then
      if cs = [] then some (.ret ⟨[], out, .crlfeq, .none⟩)
      else preEnd .crlfeq cs out
    else some (.go (c :: cs) out)
  | .crlfdtcr, c :: cs =>
    if c = LF then some (.ret ⟨cs, out, .crlf, .article⟩)
    else some (.go (c :: cs) out)
termination_by (l.length, st.rank)
decreasing_by
  all_goals simp_wf
  all_goals first | (apply Prod.Lex.left; simp; done) | (apply Prod.Lex.right; simp [State.rank]; done)

/-- decoder.cc:225-281: `for(; i < -2; i++)`. -/
def loopEnd : List Byte → List Byte → Step
  | a :: b :: c :: r, out =>
    if a = CR then
      if b = LF then
        if c = DOT then
          match r with
          | [] => .ret ⟨[], out, .crlfdt, .none⟩
          | d :: r1 =>
            if d = CR then
              match r1 with
              | [] => .ret ⟨[], out, .crlfdtcr, .none⟩
              | e :: r2 => if e = LF then .ret ⟨r2, out, .crlf, .article⟩ else loopEnd (e :: r2) out
            else if d = EQ then
              match r1 with
              | [] => .ret ⟨[], out, .crlfeq, .none⟩
              | e :: r2 =>
                if e = LY then .ret ⟨r2, out, .none, .control⟩
                else if e = CR then loopEnd (e :: r2) (out ++ [e - 42#8 - 64#8])
                else loopEnd r2 (out ++ [e - 42#8 - 64#8])
            else loopEnd (d :: r1) out
        else if c = EQ then
          match r with
          | [] => .ret ⟨[], out, .crlfeq, .none⟩
          | d :: r1 =>
            if d = LY then .ret ⟨r1, out, .none, .control⟩
            else if d = CR then loopEnd (d :: r1) (out ++ [d - 42#8 - 64#8])
            else loopEnd r1 (out ++ [d - 42#8 - 64#8])
        else loopEnd (b :: c :: r) out
      else loopEnd (b :: c :: r) out
    else if a = LF then loopEnd (b :: c :: r) out
    else if a = EQ then
      if b ≠ CR then loopEnd (c :: r) (out ++ [b - 42#8 - 64#8])
      else loopEnd (b :: c :: r) (out ++ [b - 42#8 - 64#8])
    else loopEnd (b :: c :: r) (out ++ [a - 42#8])
  | l, out => .go l out
termination_by l => l.length
decreasing_by all_goals simp <;> omega

/-- decoder.cc:225-328: the main loop and what follows. -/
def tailEnd (l : List Byte) (out : List Byte) : Res :=
  match loopEnd l out with
  | .ret r => r
  | .go rest out =>
    let f := last2 true rest out
    ⟨[], f.1, f.2, .none⟩

/-- `do_decode_end_scalar<true>(&src, &dest, len, state)`, decoder.cc:148-329. -/
def endRaw (st : State) (l : List Byte) : Option Res :=
  if l = [] then some ⟨[], [], st, .none⟩
  else
    match preEnd st l [] with
    | none => none
    | some (.ret r) => some r
    | some (.go rest out) => some (tailEnd rest out)

end Yenc.Dec
