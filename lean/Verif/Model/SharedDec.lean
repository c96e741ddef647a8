import Verif.Model.Shared
import Verif.Model.Dispatch
/-!
The vectorised decoders, when the bytes of the input Buffer change during the call (see Model/Shared.lean).

The scalar parts and the frame are programs of reads, as in Model/Shared.lean.  A round of a kernel loads the same bytes up to six times, into different registers, and each load may see
something else; what a round then does is over-approximated: any of the things the code of a round can do with any values at all in its registers (`X86.Torn`, `Neon.Torn`, `Rvv.Torn`; the
rounds of the kernels of the other files are among them, whatever bytes they are given: C90_rounds).  The output is the memory of the call alone; its bytes are represented by a list between
the parts.
-/
namespace Yenc.Shared.Simd
open Yenc Yenc.Vec Yenc.Dec Yenc.Dec.Simd

/-! ### Rounds -/

/-- A round with only `escFirst` kept of the registers. -/
def forget {σ : Type} (esc : σ → Bool) (r : Iter σ) : Iter Bool :=
  ⟨r.reach, match r.round with | .brk nm => .brk nm | .next stores adv s => .next stores adv (esc s)⟩

/-- What a round of `do_decode_sse`, `do_decode_avx2` can do: leave the loop when it takes something for a terminator, or store two registers, or compact two registers by some mask.
decoder_sse_base.h:138-695, decoder_avx2_base.h:84-613. -/
inductive X86.Torn (c : X86.Cfg) (md : Mode) : Iter Bool → Prop where
  | brk (reach nm : Nat) (h : md.searchEnd = true) (hr : reach ≤ 2 * c.n + 4) (hn : nm ≤ 2) : X86.Torn c md ⟨reach, .brk nm⟩
  | plain (dA dB : Vec) (esc : Bool) : X86.Torn c md ⟨2 * c.n, .next [(0, toList dA c.n), (c.n, toList dB c.n)] (2 * c.n) esc⟩
  | pack (reach : Nat) (hr : reach ≤ 2 * c.n + (if md.searchEnd then 4 else if md.isRaw then 2 else 0)) (mask : BitVec (2 * c.n)) (dA dB : Vec) (esc : Bool) :
      X86.Torn c md ⟨reach, .next (X86.compact c mask dA dB).1 (X86.compact c mask dA dB).2 esc⟩

/-- What a round of `do_decode_neon` can do, decoder_neon64.cc:63-433, decoder_neon.cc:82-449. -/
inductive Neon.Torn (a64 : Bool) (md : Mode) : Iter Bool → Prop where
  | brk (reach nm : Nat) (h : md.searchEnd = true) (hr : reach ≤ Neon.wid a64 + 16) (hn : nm ≤ 2) : Neon.Torn a64 md ⟨reach, .brk nm⟩
  | plain (d : Nat → Vec) (esc : Bool) :
      Neon.Torn a64 md ⟨Neon.wid a64, .next ((List.range (Neon.nreg a64)).map fun h => (16 * h, toList (d h) 16)) (Neon.wid a64) esc⟩
  | pack (reach : Nat) (hr : reach ≤ Neon.wid a64 + (if md.searchEnd then 16 else if md.isRaw then 2 else 0)) (mask : BitVec (Neon.wid a64)) (pk : Vec) (d : Nat → Vec) (esc : Bool) :
      Neon.Torn a64 md ⟨reach, .next (Neon.compact a64 mask pk d).1 (Neon.compact a64 mask pk d).2 esc⟩

/-- What a round of `do_decode_rvv` can do, decoder_rvv.cc:90-265. -/
inductive Rvv.Torn (vl : Nat) (md : Mode) : Iter Bool → Prop where
  | brk (reach nm : Nat) (h : md.searchEnd = true) (hr : reach ≤ vl + 4) (hn : nm ≤ 2) : Rvv.Torn vl md ⟨reach, .brk nm⟩
  | plain (c : Yenc.Rvv.Mask) (d : Vec) (esc : Bool) : Rvv.Torn vl md ⟨vl, .next [(0, toList d vl)] (Yenc.Rvv.cpop c vl) esc⟩
  | pack (reach : Nat) (hr : reach ≤ vl + (if md.searchEnd then 4 else if md.isRaw then 2 else 0)) (c : Yenc.Rvv.Mask) (d tail : Vec) (esc : Bool) :
      Rvv.Torn vl md ⟨reach, .next [(0, toList (Yenc.Rvv.compress c d tail vl) vl)] (Yenc.Rvv.cpop c vl) esc⟩

/-- The vectorised implementations: bytes per round, whether `decodeChunk` may read on to the end of the aligned 16 bytes, and what a round can do. -/
inductive IsTorn : Nat → Bool → (Mode → Iter Bool → Prop) → Prop where
  | x86 (c : X86.Cfg) (h : c.Valid) : IsTorn (2 * c.n) false (X86.Torn c)
  | neon (a64 : Bool) : IsTorn (Neon.wid a64) true (Neon.Torn a64)
  | rvv (vl : Nat) (h : vl = 32 ∨ vl = 64) : IsTorn vl false (Rvv.Torn vl)

/-- The loop of a kernel, as `Dec.Simd.loop`, when round `t` does `rs t`; `i`, `p` count from the start of the Buffers. -/
def loop (width : Nat) (rs : Nat → Iter Bool) (lim dlim nm : Nat) : (rounds t : Nat) → Mem → Nat → Nat → Bool → Option KRes
  | 0, _, m, i, p, e => some ⟨m, i, p, e, nm⟩
  | k + 1, t, m, i, p, e =>
    let r := rs t
    if i + r.reach ≤ lim then
      match r.round with
      | .brk nm' => some ⟨m, i, p, e, nm'⟩
      | .next stores adv e' =>
        if stores.all (fun st => p + st.1 + st.2.length ≤ dlim) then
          loop width rs lim dlim nm k (t + 1) (applyStores m p stores) (i + width) (p + adv) e'
        else none
    else none

/-! ### The scalar functions on a part of the input

They begin at position `i`, where `out` has been written, and end before `e`. -/

/-- `do_decode_noend_scalar<false>`, decoder.cc:12-22,107-145, as `Dec.noendPlain`. -/
def noendPlain (st : Option State) (i e : Nat) (out : List Byte) : Prog Res :=
  if i = e then .ret ⟨e, out, st.getD .crlf, .none⟩
  else
    (if st = some .eq then .rd i fun c => loopPlain e (e + 1) (i + 1) (out ++ [c - 42#8 - 64#8]) else loopPlain e (e + 1) i out).bind fun (j, out) =>
    if j + 1 = e then
      .rd j fun c => if c ≠ LF ∧ c ≠ CR ∧ c ≠ EQ then .ret ⟨e, out ++ [c - 42#8], .none, .none⟩ else .ret ⟨e, out, if c = EQ then .eq else .none, .none⟩
    else .ret ⟨e, out, .none, .none⟩

/-- decoder.cc:43-45,48-49. -/
def preCrlf (i : Nat) (out : List Byte) : Prog Step := .rd i fun c => .ret (.go (if c = DOT then i + 1 else i) out)

/-- decoder.cc:38-42; `return 0` forgets what was written before (`out0` is left). -/
def preCr (i e : Nat) (out0 out : List Byte) : Prog Step :=
  .rd i fun c =>
    if c ≠ LF then .ret (.go i out)
    else if i + 1 = e then .ret (.ret ⟨e, out0, .crlf, .none⟩)
    else preCrlf (i + 1) out

/-- decoder.cc:25-49, as `Dec.preRaw`; the byte that `case YDEC_STATE_EQ` writes must be before `dlim` also if it is forgotten. -/
def preRaw (st : Option State) (dlim i e : Nat) (out : List Byte) : Prog Step :=
  match st with
  | some .eq =>
    .rd i fun c =>
      if dlim ≤ out.length then .ub
      else if c = CR then
        if i + 1 = e then .ret (.ret ⟨e, out, .cr, .none⟩) else preCr (i + 1) e out (out ++ [c - 42#8 - 64#8])
      else .ret (.go (i + 1) (out ++ [c - 42#8 - 64#8]))
  | some .cr => preCr i e out out
  | some .crlf => preCrlf i out
  | some _ => .ret (.go i out)
  | none => preCrlf i out

/-- `do_decode_noend_scalar<true>`, decoder.cc:12-106,145, as `Dec.noendRaw`. -/
def noendRaw (st : Option State) (dlim i e : Nat) (out : List Byte) : Prog Res :=
  if i = e then .ret ⟨e, out, st.getD .crlf, .none⟩
  else
    (preRaw st dlim i e out).bind fun s =>
    match s with
    | .ret r => .ret r
    | .go i out =>
      (loopRaw e (e + 1) i out).bind fun (i, out) =>
      (last2 st.isSome e i out).bind fun (out, st) => .ret ⟨e, out, st, .none⟩

/-- `do_decode_end_scalar<true>`, decoder.cc:148-329, as `decodeEnd`. -/
def endRaw (st : State) (i e : Nat) (out : List Byte) : Prog Res :=
  if i = e then .ret ⟨e, out, st, .none⟩
  else
    (preEnd e (e + e + 2) st i out).bind fun s =>
    match s with
    | .ret r => .ret r
    | .go i out =>
      (loopEnd e (e + 1) i out).bind fun s =>
      match s with
      | .ret r => .ret r
      | .go i out => (last2 true e i out).bind fun (out, st) => .ret ⟨e, out, st, .none⟩

/-- `do_decode_scalar<isRaw, searchEnd>`, decoder.cc:331-338. -/
def scalar (md : Mode) (st : Option State) (dlim i e : Nat) (out : List Byte) : Prog Res :=
  match md with
  | .plain => noendPlain st i e out
  | .raw => noendRaw st dlim i e out
  | .endRaw => endRaw (st.getD .crlf) i e out

/-! ### The frame -/

/-- Outcome of the `switch` before the kernel is called: return, or carry on with `nextMask`. -/
inductive Straddle where
  | ended (r : Res)
  | go (nextMask : Nat)

/-- decoder_common.h:53-116, as `Dec.Simd.straddle`; the comparisons of two and three bytes are single loads in the source text, which may see bytes of different times. -/
def straddle (md : Mode) (st : State) (i : Nat) (out : List Byte) : Prog Straddle :=
  let art (n : Nat) : Prog Straddle := .ret (.ended ⟨i + n, out, .crlf, .article⟩)
  let ctl (n : Nat) : Prog Straddle := .ret (.ended ⟨i + n, out, .none, .control⟩)
  let both (o nm : Nat) : Prog Straddle :=
    if md.searchEnd then
      rds (i + o) 2 fun bs => if bs = [CR, LF] then art (o + 2) else rds (i + o) 2 fun bs => if bs = [EQ, LY] then ctl (o + 2) else .ret (.go nm)
    else .ret (.go nm)
  match st with
  | .crlf =>
    let eqy : Prog Straddle := if md.searchEnd then rds i 2 fun bs => if bs = [EQ, LY] then ctl 2 else .ret (.go 0) else .ret (.go 0)
    if md.isRaw then .rd i fun c => if c = DOT then both 1 1 else eqy else eqy
  | .cr =>
    let eqy : Prog Straddle := if md.searchEnd then rds i 4 fun bs => if bs.take 3 = [LF, EQ, LY] then ctl 3 else .ret (.go 0) else .ret (.go 0)
    if md.isRaw then rds i 2 fun bs => if bs = [LF, DOT] then both 2 2 else eqy else eqy
  | .crlfdt => if md.searchEnd ∧ md.isRaw then both 0 0 else .ret (.go 0)
  | .crlfdtcr => if md.searchEnd ∧ md.isRaw then .rd i fun c => if c = LF then art 1 else .ret (.go 0) else .ret (.go 0)
  | .crlfeq => if md.searchEnd then .rd i fun c => if c = LY then ctl 1 else .ret (.go 0) else .ret (.go 0)
  | _ => .ret (.go 0)

/-- `decoder_set_nextMask<isRaw>(src, len, nextMask)`, decoder_common.h:174-187, for `len != 0`, as `Dec.setNextMask`; `i` is the position of `src[0]`. -/
def nextMask (md : Mode) (i : Nat) : Prog Nat :=
  let two : Prog Nat := .rd (i - 1) fun b => if b = CR then .rd i fun c => if c = LF then .rd (i + 1) fun d => .ret (if d = DOT then 2 else 0) else .ret 0 else .ret 0
  if md.isRaw then
    .rd (i - 2) fun a =>
      if a = CR then .rd (i - 1) fun b => if b = LF then .rd i fun c => if c = DOT then .ret 1 else two else two
      else two
  else .ret 0

/-- decoder_common.h:136-138, 151. -/
def finish (md : Mode) (dlim i e : Nat) (out : List Byte) (st : State) : Prog Res :=
  if i < e then scalar md (some st) dlim i e out else .ret ⟨i, out, st, .none⟩

/-- Where reading must stop, counted from the start of the Buffer at address `addr`, see `Dec.Simd.readLimit`. -/
def readLimit (lax : Bool) (addr e : Nat) : Nat := Dec.Simd.readLimit lax (addr + e) - addr

/-- decoder_common.h:44-151, as `Dec.Simd.aligned`: from position `i` of `n` on. -/
def aligned (width : Nat) (lax : Bool) (rs : Nat → Iter Bool) (md : Mode) (addr n i : Nat) (out : List Byte) (st : State) : Prog Res :=
  if n - i > lenBuffer md width then
    (straddle md st i out).bind fun x =>
    match x with
    | .ended r => .ret r
    | .go _ =>
      let dLen := (n - i - lenBuffer md width + (width - 1)) / width * width
      (nextMask md (i + dLen)).bind fun nm =>
      match loop width rs (readLimit lax addr n) n nm (dLen / width) 0 (Mem.wr (fun _ => 0#8) 0 out) i out.length (st = .eq ∨ st = .crlfeq) with
      | none => .ub
      | some r => finish md n r.i n (r.m.rdn 0 r.p) (stateAfter r.esc r.nextMask)
  else finish md n i n out st

/-- `_do_decode_simd`, decoder_common.h:26-152, as `Dec.Simd.decode`, on a Buffer of `n` bytes at address `addr`, with room for `n` bytes at the destination. -/
def decode (width : Nat) (lax : Bool) (rs : Nat → Iter Bool) (md : Mode) (addr n : Nat) (st : Option State) : Prog Res :=
  if n ≤ width * 2 then scalar md st n 0 n []
  else if addr % width ≠ 0 then
    (scalar md (some (st.getD .crlf)) n 0 (width - addr % width) []).bind fun r =>
    if r.ended ≠ .none then .ret r else aligned width lax rs md addr n r.pos r.out r.state
  else aligned width lax rs md addr n 0 [] (st.getD .crlf)

/-- The vectorised decoders on a Buffer at `addr` that changes; `rs md t` is what round `t` of the kernel does. -/
def decImpl (mem : Nat → Nat → Byte) (width : Nat) (lax : Bool) (addr : Nat) (rs : Mode → Nat → Iter Bool) : Dec.Impl where
  plain l := ((decode width false (rs .plain) .plain addr l.length none).run mem l.length 0).map fun x => x.1.out
  raw l := ((decode width false (rs .raw) .raw addr l.length none).run mem l.length 0).map fun x => x.1.out
  endRaw st l := ((decode width lax (rs .endRaw) .endRaw addr l.length (some st)).run mem l.length 0).map fun x => ⟨l.drop x.1.pos, x.1.out, x.1.state, x.1.ended⟩

end Yenc.Shared.Simd
