import Verif.Model.Bindings
/-!
The portable coders, when the bytes of the input Buffer change during the call: the Buffer may be a view of a `SharedArrayBuffer` that another thread writes to.

A program is a tree of reads; every read of `src` may give a different byte.  The models in EncoderScalar.lean and DecoderScalar.lean represent the input by a list of bytes, so they read
each byte as often as they like; here every read of the source text is one read, in the order of the source text (compilers may read once and keep the value, or read again; only the former is
modelled).  The output is the memory of the call alone.
-/
namespace Yenc.Shared

/-- A program that reads bytes of a Buffer: `rd i k` reads `src[i]` and goes on with `k`.  `ub` is the outcome of undefined operations. -/
inductive Prog (α : Type) where
  | ret (a : α)
  | rd (i : Nat) (k : Byte → Prog α)
  | ub

/-- One program after another. -/
def Prog.bind {α β : Type} : Prog α → (α → Prog β) → Prog β
  | .ret a, f => f a
  | .rd i k, f => .rd i fun b => (k b).bind f
  | .ub, _ => .ub

/-- Run a program on a Buffer of `n` bytes; `mem t i` is the byte `i` at the time of read number `t`.  The result comes with the number of reads; reading outside is `none`. -/
def Prog.run {α : Type} (mem : Nat → Nat → Byte) (n : Nat) : Prog α → Nat → Option (α × Nat)
  | .ret a, t => some (a, t)
  | .rd i k, t => if i < n then (k (mem t i)).run mem n (t + 1) else none
  | .ub, _ => none

/-- Read `m` bytes from `i` on. -/
def rds {α : Type} : Nat → Nat → (List Byte → Prog α) → Prog α
  | _, 0, k => k []
  | i, m + 1, k => .rd i fun b => rds (i + 1) m fun bs => k (b :: bs)

/-! ### Encoder -/

/-- What the unrolled loop leaves behind, as `Enc.Unrolled`, with positions. -/
structure Unrolled where
  i : Nat
  w : Enc.W
  col : Int
  sp : Option (List Byte × Nat)

/-- encoder.cc:51-73: `while (i < -1-8 && line_size-col-1 > 8)`, as `Enc.unroll8`; `i` counts from the start. The first argument bounds the number of rounds (never reached, C89_encode). -/
def unroll8 (ls : Int) (n : Nat) : Nat → Nat → Enc.W → Int → Option (List Byte × Nat) → Prog Unrolled
  | 0, _, _, _, _ => .ub
  | f + 1, i, w, col, sp =>
    if i + 9 < n ∧ ls - col - 1 > 8 then
      rds i 8 fun bs =>
        let w' := bs.foldl Enc.doThing w
        let col' := col + ((w'.out.length : Int) - w.out.length)
        if col' < 2 ^ 31 then unroll8 ls n f (i + 8) w' col' (some (w.out, i)) else .ub
    else .ret ⟨i, w, col, sp⟩

/-- encoder.cc:74-80, as `Enc.revert`: the bytes of the last round will be read again. -/
def revert (ls : Int) (u : Unrolled) : Nat × Enc.W × Int :=
  match u.sp with
  | none => (u.i, u.w, u.col)
  | some (spOut, spI) =>
    if u.col ≥ ls - 1 then (spI, ⟨spOut, u.w.hi⟩, u.col - ((u.w.out.length : Int) - spOut.length))
    else (u.i, u.w, u.col)

/-- Outcome of the inner loop, as `Enc.Inner`. -/
inductive Inner where
  | ended (w : Enc.W) (col : Int)
  | cont (i : Nat) (w : Enc.W) (col : Int)

/-- encoder.cc:82-102: `while(col < line_size-1)`, as `Enc.innerLoop`. -/
def innerLoop (ls : Int) (n : Nat) : Nat → Nat → Enc.W → Int → Prog Inner
  | 0, _, _, _ => .ub
  | f + 1, i, w, col =>
    if col < ls - 1 then
      .rd i fun c =>
        let w' := Enc.doThing w c
        let col' := col + (if Enc.escapeLUT c ≠ 0#8 then 1 else 2)
        if n ≤ i + 1 then .ret (.ended w' col') else innerLoop ls n f (i + 1) w' col'
    else .ret (.cont i w col)

/-- encoder.cc:117-129: the line break and the first character of the next line. -/
def eol {α : Type} (i : Nat) (w : Enc.W) (k : Nat → Enc.W → Int → Prog α) : Prog α :=
  .rd i fun d => k (i + 1) (Enc.eolChar w d).1 (Enc.eolChar w d).2

/-- encoder.cc:48-130: the outer `while(i < 0)`, as `Enc.line` and `Enc.outer`. -/
def outer (ls : Int) (n : Nat) : Nat → Nat → Enc.W → Int → Prog (Enc.W × Int)
  | 0, _, _, _ => .ub
  | f + 1, i, w, col =>
    if n ≤ i then .ret (w, col)
    else
      (unroll8 ls n (n + 1) i w col none).bind fun u =>
      let r := revert ls u
      (innerLoop ls n (n + 1) r.1 r.2.1 r.2.2).bind fun x =>
      match x with
      | .ended w' col' => .ret (w', col')
      | .cont i' w' col' =>
        if col' < ls then
          .rd i' fun c =>
            if n ≤ i' + 1 then .ret (Enc.lastChar w' c, col')
            else eol (i' + 1) (Enc.lastChar w' c) (outer ls n f)
        else if n ≤ i' then .ret (w', col')
        else eol i' w' (outer ls n f)

/-- `do_encode_generic` on `n` bytes, encoder.cc:30-145, as `Enc.encodeGeneric`. -/
def encode (ls col : Int) (n : Nat) (fin : Bool) : Prog (Enc.W × Int) :=
  (if col = 0 then .rd 0 fun c => outer ls n (n + 1) 1 (Enc.firstChar ⟨[], 0⟩ c).1 (Enc.firstChar ⟨[], 0⟩ c).2
    else outer ls n (n + 1) 0 ⟨[], 0⟩ col).bind fun (w, col) =>
  if fin then
    match Enc.doEnd w col with
    | none => .ub
    | some r => .ret r
  else .ret (w, col)

/-! ### Plain decoder -/

/-- decoder.cc:123-132: `for(; i < -1; i++)`, as `Dec.loopPlain`. -/
def loopPlain (n : Nat) : Nat → Nat → List Byte → Prog (Nat × List Byte)
  | 0, _, _ => .ub
  | f + 1, i, out =>
    if i + 1 < n then
      .rd i fun c =>
        if c = LF ∨ c = CR then loopPlain n f (i + 1) out
        else if c = EQ then .rd (i + 1) fun d => loopPlain n f (i + 2) (out ++ [d - 64#8 - 42#8])
        else loopPlain n f (i + 1) (out ++ [c - 42#8])
    else .ret (i, out)

/-- `do_decode_noend_scalar<false>` with `state == NULL`, decoder.cc:12-22,107-145, as `Dec.noendPlain none`. -/
def decodePlain (n : Nat) : Prog (List Byte) :=
  if n = 0 then .ret []
  else
    (loopPlain n (n + 1) 0 []).bind fun (i, out) =>
    if i + 1 = n then .rd i fun c => if c ≠ LF ∧ c ≠ CR ∧ c ≠ EQ then .ret (out ++ [c - 42#8]) else .ret out
    else .ret out

/-! ### Decoders that strip dots -/

/-- decoder.cc:96-105 (also 313-322): the final character, as `Dec.last1`. -/
def last1 (n i : Nat) (out : List Byte) : Prog (List Byte × Dec.State) :=
  if i + 1 = n then
    .rd i fun c =>
      if c ≠ LF ∧ c ≠ CR ∧ c ≠ EQ then .ret (out ++ [c - 42#8], .none)
      else if c = EQ then .ret (out, .eq)
      else if c = CR then .ret (out, .cr)
      else .ret (out, .none)
  else .ret (out, .none)

/-- decoder.cc:71-105 (also 283-322): the last two characters, as `Dec.last2`. -/
def last2 (hasState : Bool) (n i : Nat) (out : List Byte) : Prog (List Byte × Dec.State) :=
  if i + 2 = n then
    .rd i fun c =>
      if c = CR then
        if hasState then .rd (i + 1) fun d => if d = LF then .ret (out, .crlf) else last1 n (i + 1) out
        else last1 n (i + 1) out
      else if c = LF then last1 n (i + 1) out
      else if c = EQ then
        .rd (i + 1) fun d => if d ≠ CR then last1 n (i + 2) (out ++ [d - 42#8 - 64#8]) else last1 n (i + 1) (out ++ [d - 42#8 - 64#8])
      else last1 n (i + 1) (out ++ [c - 42#8])
  else last1 n i out

/-- decoder.cc:51-70: `for(; i < -2; i++)`, as `Dec.loopRaw`. -/
def loopRaw (n : Nat) : Nat → Nat → List Byte → Prog (Nat × List Byte)
  | 0, _, _ => .ub
  | f + 1, i, out =>
    if i + 2 < n then
      .rd i fun c =>
        if c = CR then
          .rd (i + 1) fun d =>
            if d = LF then .rd (i + 2) fun e => if e = DOT then loopRaw n f (i + 3) out else loopRaw n f (i + 1) out
            else loopRaw n f (i + 1) out
        else if c = LF then loopRaw n f (i + 1) out
        else if c = EQ then
          .rd (i + 1) fun d => if d ≠ CR then loopRaw n f (i + 2) (out ++ [d - 42#8 - 64#8]) else loopRaw n f (i + 1) (out ++ [d - 42#8 - 64#8])
        else loopRaw n f (i + 1) (out ++ [c - 42#8])
    else .ret (i, out)

/-- `do_decode_noend_scalar<true>` with `state == NULL`, decoder.cc:12-106,145, as `Dec.noendRaw none`. -/
def decodeRaw (n : Nat) : Prog (List Byte) :=
  if n = 0 then .ret []
  else
    .rd 0 fun c =>
      (loopRaw n (n + 1) (if c = DOT then 1 else 0) []).bind fun (i, out) =>
      (last2 false n i out).bind fun (out, _) => .ret out

/-- What `do_decode_end_scalar` leaves behind, as `Dec.Res`, with the position instead of the rest. -/
structure Res where
  pos : Nat
  out : List Byte
  state : Dec.State
  ended : Dec.Ended
deriving DecidableEq, Repr

/-- `return`, or go on with the main loop. -/
inductive Step where
  | ret (r : Res)
  | go (i : Nat) (out : List Byte)

/-- decoder.cc:166-223: the initial `switch(*state)`, as `Dec.preEnd`.  The first argument bounds the number of labels passed. -/
def preEnd (n : Nat) : Nat → Dec.State → Nat → List Byte → Prog Step
  | 0, _, _, _ => .ub
  | f + 1, st, i, out =>
    match st with
    | .none => .ret (.go i out)
    | .crlfeq => .rd i fun c => if c = LY then .ret (.ret ⟨i + 1, out, .none, .control⟩) else preEnd n f .eq i out
    | .eq => .rd i fun c =>
      if c ≠ CR then .ret (.go (i + 1) (out ++ [c - 42#8 - 64#8]))
      else if i + 1 = n then .ret (.ret ⟨n, out ++ [c - 42#8 - 64#8], .cr, .none⟩)
      else preEnd n f .cr (i + 1) (out ++ [c - 42#8 - 64#8])
    | .cr => .rd i fun c =>
      if c ≠ LF then .ret (.go i out)
      else if i + 1 = n then .ret (.ret ⟨n, out, .crlf, .none⟩)
      else preEnd n f .crlf (i + 1) out
    | .crlf => .rd i fun c =>
      if c = DOT then
        if i + 1 = n then .ret (.ret ⟨n, out, .crlfdt, .none⟩) else preEnd n f .crlfdt (i + 1) out
      else .rd i fun c =>
        if c = EQ then
          if i + 1 = n then .ret (.ret ⟨n, out, .crlfeq, .none⟩) else preEnd n f .crlfeq (i + 1) out
        else .ret (.go i out)
    | .crlfdt => .rd i fun c =>
      if c = CR then
        if i + 1 = n then .ret (.ret ⟨n, out, .crlfdtcr, .none⟩) else preEnd n f .crlfdtcr (i + 1) out
      else .rd i fun c =>
        if c = EQ then
          if i + 1 = n then .ret (.ret ⟨n, out, .crlfeq, .none⟩) else preEnd n f .crlfeq (i + 1) out
        else .ret (.go i out)
    | .crlfdtcr => .rd i fun c => if c = LF then .ret (.ret ⟨i + 1, out, .crlf, .article⟩) else .ret (.go i out)

/-- decoder.cc:241-253, 259-272: the character after the `=` of a line start at position `i`; `k` goes on with the main loop. -/
def afterEq (i : Nat) (out : List Byte) (k : Nat → List Byte → Prog Step) : Prog Step :=
  .rd i fun d =>
    if d = LY then .ret (.ret ⟨i + 1, out, .none, .control⟩)
    else .rd i fun d => if d = CR then k i (out ++ [d - 42#8 - 64#8]) else k (i + 1) (out ++ [d - 42#8 - 64#8])

/-- decoder.cc:225-281: `for(; i < -2; i++)`, as `Dec.loopEnd`. -/
def loopEnd (n : Nat) : Nat → Nat → List Byte → Prog Step
  | 0, _, _ => .ub
  | f + 1, i, out =>
    if i + 2 < n then
      .rd i fun c =>
        if c = CR then
          .rd (i + 1) fun d =>
            if d = LF then
              .rd (i + 2) fun e =>
                if e = DOT then
                  if i + 3 = n then .ret (.ret ⟨n, out, .crlfdt, .none⟩)
                  else .rd (i + 3) fun g =>
                    if g = CR then
                      if i + 4 = n then .ret (.ret ⟨n, out, .crlfdtcr, .none⟩)
                      else .rd (i + 4) fun h => if h = LF then .ret (.ret ⟨i + 5, out, .crlf, .article⟩) else loopEnd n f (i + 4) out
                    else .rd (i + 3) fun g =>
                      if g = EQ then
                        if i + 4 = n then .ret (.ret ⟨n, out, .crlfeq, .none⟩) else afterEq (i + 4) out (loopEnd n f)
                      else loopEnd n f (i + 3) out
                else .rd (i + 2) fun e =>
                  if e = EQ then
                    if i + 3 = n then .ret (.ret ⟨n, out, .crlfeq, .none⟩) else afterEq (i + 3) out (loopEnd n f)
                  else loopEnd n f (i + 1) out
            else loopEnd n f (i + 1) out
        else if c = LF then loopEnd n f (i + 1) out
        else if c = EQ then
          .rd (i + 1) fun d => if d ≠ CR then loopEnd n f (i + 2) (out ++ [d - 42#8 - 64#8]) else loopEnd n f (i + 1) (out ++ [d - 42#8 - 64#8])
        else loopEnd n f (i + 1) (out ++ [c - 42#8])
    else .ret (.go i out)

/-- `do_decode_end_scalar<true>` on `n` bytes, decoder.cc:148-329, as `Dec.endRaw`. -/
def decodeEnd (st : Dec.State) (n : Nat) : Prog Res :=
  if n = 0 then .ret ⟨0, [], st, .none⟩
  else
    (preEnd n (n + n + 2) st 0 []).bind fun s =>
    match s with
    | .ret r => .ret r
    | .go i out =>
      (loopEnd n (n + 1) i out).bind fun s =>
      match s with
      | .ret r => .ret r
      | .go i out => (last2 true n i out).bind fun (out, st) => .ret ⟨n, out, st, .none⟩

/-! ### The entry points

The bindings of Model/Bindings.lean take a Buffer as a list; with these functions behind them only its length is used, and every read of a byte gives what `mem` holds at that time. -/

/-- The portable encoder on a Buffer that changes, encoder.cc:30-145. -/
def encImpl (mem : Nat → Nat → Byte) : Enc.Impl := fun ls col src fin =>
  ((encode ls col src.length fin).run mem src.length 0).map (·.1)

/-- The portable decoders on a Buffer that changes, decoder.cc:11-348. (`Dec.Res` counts the bytes left over by their list; only its length is used, yencode.cc:320-331.) -/
def decImpl (mem : Nat → Nat → Byte) : Dec.Impl where
  plain l := ((decodePlain l.length).run mem l.length 0).map (·.1)
  raw l := ((decodeRaw l.length).run mem l.length 0).map (·.1)
  endRaw st l := ((decodeEnd st l.length).run mem l.length 0).map fun x => ⟨l.drop x.1.pos, x.1.out, x.1.state, x.1.ended⟩

end Yenc.Shared
