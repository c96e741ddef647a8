import Verif.Model.Mem
import Verif.Model.JsChunk
/-!
The scalar decoders again, `/repo/src/decoder.cc:11-338`, this time on memory: `es`, `i` and `p` of the code are addresses
(`i` stands for `es + i`), bytes are read from and written to one memory, so that decoding a buffer into itself is covered.
A read of `es[i]` at or beyond `es` is the outcome `none`.
-/
namespace Yenc.Dec.M
open Yenc Yenc.Dec

/-- Outcome of the initial `switch` of `do_decode_noend_scalar`: the function returns `n`, or the loop starts. -/
inductive Pre where
  | ret (m : Mem) (n : Nat) (st : State)
  | go (m : Mem) (i p : Nat)

/-- decoder.cc:44-48: `case YDEC_STATE_CRLF`, also 49-50 (`state == NULL`). -/
def preCrlf (e : Nat) (m : Mem) (i p : Nat) : Option Pre :=
  if i < e then some (.go m (if m i = DOT then i + 1 else i) p) else none

/-- decoder.cc:38-43: `case YDEC_STATE_CR` and the fall-through to `YDEC_STATE_CRLF`. -/
def preCr (e : Nat) (m : Mem) (i p : Nat) : Option Pre :=
  if i < e then
    if m i ≠ LF then some (.go m i p)
    else if e ≤ i + 1 then some (.ret m 0 .crlf)
    else preCrlf e m (i + 1) p
  else none

/-- decoder.cc:25-50. -/
def preRaw (st : Option State) (e : Nat) (m : Mem) (i p : Nat) : Option Pre :=
  match st with
  | some .eq =>
    if i < e then
      let c := m i
      let m := m.set p (c - 42#8 - 64#8)
      if c = CR then
        if e ≤ i + 1 then some (.ret m 0 .cr) else preCr e m (i + 1) (p + 1)
      else some (.go m (i + 1) (p + 1))
    else none
  | some .cr => preCr e m i p
  | some .crlf => preCrlf e m i p
  | some _ => some (.go m i p)
  | none => preCrlf e m i p

/-- decoder.cc:52-71: `for(; i < -2; i++)`; results are the memory, `i` and `p`. -/
def loopRaw (e : Nat) (m : Mem) (i p : Nat) : Mem × Nat × Nat :=
  if i + 2 < e then
    let c := m i
    if c = CR then
      if m (i + 1) = LF ∧ m (i + 2) = DOT then loopRaw e m (i + 3) p else loopRaw e m (i + 1) p
    else if c = LF then loopRaw e m (i + 1) p
    else if c = EQ then
      let c := m (i + 1)
      let m := m.set p (c - 42#8 - 64#8)
      if c ≠ CR then loopRaw e m (i + 2) (p + 1) else loopRaw e m (i + 1) (p + 1)
    else loopRaw e (m.set p (c - 42#8)) (i + 1) (p + 1)
  else (m, i, p)
termination_by e - i

/-- decoder.cc:96-106 (also 313-323): the final character; results are the memory, `p` and `*state`. -/
def last1 (e : Nat) (m : Mem) (i p : Nat) : Mem × Nat × State :=
  if i + 1 = e then
    let c := m i
    if c ≠ LF ∧ c ≠ CR ∧ c ≠ EQ then (m.set p (c - 42#8), p + 1, .none)
    else if c = EQ then (m, p, .eq)
    else if c = CR then (m, p, .cr)
    else (m, p, .none)
  else (m, p, .none)

/-- decoder.cc:72-106 (also 287-323): the last but one and the final character. -/
def last2 (hasState : Bool) (e : Nat) (m : Mem) (i p : Nat) : Mem × Nat × State :=
  if i + 2 = e then
    let c := m i
    if c = CR then
      if hasState ∧ m (i + 1) = LF then (m, p, .crlf) else last1 e m (i + 1) p
    else if c = LF then last1 e m (i + 1) p
    else if c = EQ then
      let c := m (i + 1)
      let m := m.set p (c - 42#8 - 64#8)
      if c ≠ CR then last1 e m (i + 2) (p + 1) else last1 e m (i + 1) (p + 1)
    else last1 e (m.set p (c - 42#8)) (i + 1) (p + 1)
  else last1 e m i p

/-- `do_decode_noend_scalar<true>(src, dest, len, state)`, decoder.cc:12-106,145: memory, return value, `*state`. -/
def noendRaw (m : Mem) (src dest len : Nat) (st : Option State) : Option (Mem × Nat × Option State) :=
  if len = 0 then some (m, 0, st)
  else
    match preRaw st (src + len) m src dest with
    | none => none
    | some (.ret m n s) => some (m, n, some s)
    | some (.go m i p) =>
      let r := loopRaw (src + len) m i p
      let f := last2 st.isSome (src + len) r.1 r.2.1 r.2.2
      some (f.1, f.2.1 - dest, st.map fun _ => f.2.2)

/-- decoder.cc:123-132: `for(; i < -1; i++)` of the plain decoder. -/
def loopPlain (e : Nat) (m : Mem) (i p : Nat) : Mem × Nat × Nat :=
  if i + 1 < e then
    let c := m i
    if c = LF ∨ c = CR then loopPlain e m (i + 1) p
    else if c = EQ then loopPlain e (m.set p (m (i + 1) - 64#8 - 42#8)) (i + 2) (p + 1)
    else loopPlain e (m.set p (c - 42#8)) (i + 1) (p + 1)
  else (m, i, p)
termination_by e - i

/-- `do_decode_noend_scalar<false>(src, dest, len, state)`, decoder.cc:12-22,108-145. -/
def noendPlain (m : Mem) (src dest len : Nat) (st : Option State) : Mem × Nat × Option State :=
  if len = 0 then (m, 0, st)
  else
    let e := src + len
    let s : Mem × Nat × Nat :=
      if st = some .eq then (m.set dest (m src - 42#8 - 64#8), src + 1, dest + 1) else (m, src, dest)
    let r := loopPlain e s.1 s.2.1 s.2.2
    if r.2.1 + 1 = e then
      let c := r.1 r.2.1
      if c ≠ LF ∧ c ≠ CR ∧ c ≠ EQ then (r.1.set r.2.2 (c - 42#8), r.2.2 + 1 - dest, st.map fun _ => .none)
      else (r.1, r.2.2 - dest, st.map fun _ => if c = EQ then .eq else .none)
    else (r.1, r.2.2 - dest, st.map fun _ => .none)

/-- What `do_decode_end_scalar` leaves behind: memory, `*src`, `*dest`, `*state`, return value. -/
structure Res where
  m : Mem
  src : Nat
  dest : Nat
  state : State
  ended : Ended

/-- `return`, or reaching the main loop. -/
inductive Step where
  | ret (r : Res)
  | go (m : Mem) (i p : Nat)

/-- decoder.cc:165-223: the initial `switch(*state)` (instance `isRaw = true`). -/
def preEnd (st : State) (e : Nat) (m : Mem) (i p : Nat) : Option Step :=
  if st = .none then some (.go m i p)
  else if _h : i < e then
    match st with
    | .none => some (.go m i p)
    | .crlfeq =>
      if m i = LY then some (.ret ⟨m, i + 1, p, .none, .control⟩) else preEnd .eq e m i p
    | .eq =>
      let c := m i
      let m := m.set p (c - 42#8 - 64#8)
      if c ≠ CR then some (.go m (i + 1) (p + 1))
      else if i + 1 = e then some (.ret ⟨m, e, p + 1, .cr, .none⟩)
      else preEnd .cr e m (i + 1) (p + 1)
    | .cr =>
      if m i ≠ LF then some (.go m i p)
      else if i + 1 = e then some (.ret ⟨m, e, p, .crlf, .none⟩)
      else preEnd .crlf e m (i + 1) p
    | .crlf =>
      if m i = DOT then
        if i + 1 = e then some (.ret ⟨m, e, p, .crlfdt, .none⟩) else preEnd .crlfdt e m (i + 1) p
      else if m i = EQ then
        if i + 1 = e then some (.ret ⟨m, e, p, .crlfeq, .none⟩) else preEnd .crlfeq e m (i + 1) p
      else some (.go m i p)
    | .crlfdt =>
      if m i = CR then
        if i + 1 = e then some (.ret ⟨m, e, p, .crlfdtcr, .none⟩) else preEnd .crlfdtcr e m (i + 1) p
      else if m i = EQ then
        if i + 1 = e then some (.ret ⟨m, e, p, .crlfeq, .none⟩) else preEnd .crlfeq e m (i + 1) p
      else some (.go m i p)
    | .crlfdtcr =>
      if m i = LF then some (.ret ⟨m, i + 1, p, .crlf, .article⟩) else some (.go m i p)
  else none
termination_by (e - i, st.rank)
decreasing_by
  all_goals first | (apply Prod.Lex.left; omega) | (apply Prod.Lex.right; simp [State.rank])

/-- decoder.cc:225-286: `for(; i < -2; i++)`. -/
def loopEnd (e : Nat) (m : Mem) (i p : Nat) : Step :=
  if i + 2 < e then
    let c := m i
    if c = CR then
      if m (i + 1) = LF then
        if m (i + 2) = DOT then
          if i + 3 = e then .ret ⟨m, e, p, .crlfdt, .none⟩
          else if m (i + 3) = CR then
            if i + 4 = e then .ret ⟨m, e, p, .crlfdtcr, .none⟩
            else if m (i + 4) = LF then .ret ⟨m, i + 5, p, .crlf, .article⟩
            else loopEnd e m (i + 4) p
          else if m (i + 3) = EQ then
            if i + 4 = e then .ret ⟨m, e, p, .crlfeq, .none⟩
            else if m (i + 4) = LY then .ret ⟨m, i + 5, p, .none, .control⟩
            else
              let c := m (i + 4)
              let m := m.set p (c - 42#8 - 64#8)
              if c = CR then loopEnd e m (i + 4) (p + 1) else loopEnd e m (i + 5) (p + 1)
          else loopEnd e m (i + 3) p
        else if m (i + 2) = EQ then
          if i + 3 = e then .ret ⟨m, e, p, .crlfeq, .none⟩
          else if m (i + 3) = LY then .ret ⟨m, i + 4, p, .none, .control⟩
          else
            let c := m (i + 3)
            let m := m.set p (c - 42#8 - 64#8)
            if c = CR then loopEnd e m (i + 3) (p + 1) else loopEnd e m (i + 4) (p + 1)
        else loopEnd e m (i + 1) p
      else loopEnd e m (i + 1) p
    else if c = LF then loopEnd e m (i + 1) p
    else if c = EQ then
      let c := m (i + 1)
      let m := m.set p (c - 42#8 - 64#8)
      if c ≠ CR then loopEnd e m (i + 2) (p + 1) else loopEnd e m (i + 1) (p + 1)
    else loopEnd e (m.set p (c - 42#8)) (i + 1) (p + 1)
  else .go m i p
termination_by e - i

/-- decoder.cc:225-328: the main loop and what follows. -/
def tailEnd (e : Nat) (m : Mem) (i p : Nat) : Res :=
  match loopEnd e m i p with
  | .ret r => r
  | .go m i p => ⟨(last2 true e m i p).1, e, (last2 true e m i p).2.1, (last2 true e m i p).2.2, .none⟩

/-- `do_decode_end_scalar<true>(&src, &dest, len, state)`, decoder.cc:148-329. -/
def endRaw (m : Mem) (src dest len : Nat) (st : State) : Option Res :=
  if len = 0 then some ⟨m, src, dest, st, .none⟩
  else
    match preEnd st (src + len) m src dest with
    | none => none
    | some (.ret r) => some r
    | some (.go m i p) => some (tailEnd (src + len) m i p)

/-! ### The entry points on memory -/

/-- The functions behind `_do_decode`, `_do_decode_raw` (called with `state == NULL`; results: memory and the number of bytes
`decode` reports, decoder.h:35-39) and `_do_decode_end_raw` (decoder.h:41-43). Arguments are the memory, `src`, `dest`, `len`. -/
structure Impl where
  plain : Mem → Nat → Nat → Nat → Option (Mem × Nat)
  raw : Mem → Nat → Nat → Nat → Option (Mem × Nat)
  endRaw : Mem → Nat → Nat → Nat → State → Option Res

/-- The portable implementation, decoder.cc:331-344. -/
def generic : Impl where
  plain m src dest len := some ((noendPlain m src dest len none).1, (noendPlain m src dest len none).2.1)
  raw m src dest len := (noendRaw m src dest len none).map fun r => (r.1, r.2.1)
  endRaw := endRaw

/-- A `Buffer`: where its bytes are, and how many. -/
structure View where
  addr : Nat
  len : Nat

/-- `decodeTo(data, output, stripDots)`, yencode.cc:257-277, on memory. -/
def decodeTo (I : Impl) (m : Mem) (data output : View) (isRaw : Bool) : Outcome (Int × Mem) :=
  if data.len = 0 then .ret (0, m)
  else if output.len < data.len then .ret (0, m)
  else
    match (if isRaw then I.raw else I.plain) m data.addr output.addr data.len with
    | none => .ub
    | some (m', n) => .ret (toInt32 n, m')

/-- What `decodeChunk` returns when an output buffer is given, apart from that buffer. -/
structure ChunkRes where
  read : Int
  written : Int
  ended : Bool
  state : List Byte
deriving DecidableEq, Repr

/-- `decodeChunk(data, output, prev)`, index.js:133-167 and yencode.cc:280-332, on memory, with an output buffer and a state string. -/
def decodeChunk (I : Impl) (m : Mem) (data output : View) (prev : List Byte) : Outcome (ChunkRes × Mem) :=
  let p := Js.normPrev prev
  if data.len = 0 then .ret (⟨0, 0, false, p⟩, m)
  else
    match Js.stateIndex p with
    | none => .throw "ReferenceError: i is not defined"
    | some n =>
      match State.ofInt n with
      | none => .ub
      | some st =>
        if output.len < data.len then .throw "Destination buffer does not have enough space"
        else
          match I.endRaw m data.addr output.addr data.len st with
          | none => .ub
          | some r =>
            .ret (⟨toInt32 ((r.src : Int) - data.addr), toInt32 ((r.dest : Int) - output.addr), r.ended ≠ .none,
              ([Js.decodePrev.getD r.state.toNat [], [CR, LF, EQ, LY], [CR, LF, DOT, CR, LF]] : List (List Byte)).getD r.ended.toNat []⟩, r.m)

end Yenc.Dec.M
