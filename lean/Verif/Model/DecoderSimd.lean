import Verif.Model.DecoderInPlace
import Verif.Model.DecoderMask
/-!
Model of the frame around the vectorised decoders, `/repo/src/decoder_common.h:26-165`, and of the loop all kernels share.

A kernel is given by what one round of its loop does: a function of the kernel's registers and of the bytes at `src + i`, whose result is
a list of stores relative to `p`.  All kernels do their loads before their stores within a round.
-/
namespace Yenc.Dec.Simd
open Yenc Yenc.Dec

/-- The three instances of the template parameters `isRaw, searchEnd` in use. -/
inductive Mode where
  | plain | raw | endRaw
deriving DecidableEq, Repr

def Mode.isRaw : Mode → Bool
  | .plain => false
  | _ => true

def Mode.searchEnd : Mode → Bool
  | .endRaw => true
  | _ => false

/-- What a round of the kernel's loop does: leave the loop with a value for `_nextMask`, or store bytes at offsets from `p`, advance `p` by
`adv`, and continue with new register contents. -/
inductive Round (σ : Type) where
  | brk (nextMask : Nat)
  | next (stores : List (Nat × List Byte)) (adv : Nat) (regs : σ)

/-- A round together with how far from `src + i` it loads. -/
structure Iter (σ : Type) where
  reach : Nat
  round : Round σ

/-- A kernel: bytes per round, registers at the start (from `_escFirst` and `_nextMask`), `escFirst` as held in the registers, and one
round. -/
structure Kernel (σ : Type) where
  width : Nat
  init : Bool → Nat → σ
  esc : σ → Bool
  iter : σ → (Nat → Byte) → Iter σ

/-- Do the stores of a round. -/
def applyStores (m : Mem) (p : Nat) : List (Nat × List Byte) → Mem
  | [] => m
  | (o, bs) :: r => applyStores (m.wr (p + o) bs) p r

/-- State of affairs when a kernel returns: memory, `src + i`, `p`, `_escFirst`, `_nextMask`. -/
structure KRes where
  m : Mem
  i : Nat
  p : Nat
  esc : Bool
  nextMask : Nat

/-- The `for(i = -len; i; i += width)` loop of a kernel; `i` is the address `src + i`. Loads at or beyond `lim` and
stores at or beyond `dlim` are the outcome `none`. `nm` is what `_nextMask` was set to before the loop. -/
def loop {σ : Type} (K : Kernel σ) (lim dlim nm : Nat) : (rounds : Nat) → Mem → Nat → Nat → σ → Option KRes
  | 0, m, i, p, s => some ⟨m, i, p, K.esc s, nm⟩
  | k + 1, m, i, p, s =>
    let r := K.iter s (fun j => m (i + j))
    if i + r.reach ≤ lim then
      match r.round with
      | .brk nm' => some ⟨m, i, p, K.esc s, nm'⟩
      | .next stores adv s' =>
        if stores.all (fun st => p + st.1 + st.2.length ≤ dlim) then
          loop K lim dlim nm k (applyStores m p stores) (i + K.width) (p + adv) s'
        else none
    else none

/-- A call of a kernel on the `dLen` bytes at `src`. The bytes after these two that `decoder_set_nextMask` may look at have to be
readable. -/
def kernel {σ : Type} (K : Kernel σ) (md : Mode) (lim dlim : Nat) (m : Mem) (src dLen p : Nat) (esc : Bool) (nm : Nat) : Option KRes :=
  if md.isRaw = true ∧ lim < src + dLen + 2 then none
  else
    loop K lim dlim (setNextMask md.isRaw fun k => m (src + dLen - 2 + k)) (dLen / K.width) m src p (K.init esc nm)

/-- `do_decode_scalar<isRaw, searchEnd>(src, dest, len, state)`, decoder.cc:331-338; the state in the result means nothing if `st = none`, i.e. `state == NULL`
(which `searchEnd` is never used with). -/
def scalar (md : Mode) (m : Mem) (src dest len : Nat) (st : Option State) : Option M.Res :=
  match md with
  | .plain => some ⟨(M.noendPlain m src dest len st).1, src + len, dest + (M.noendPlain m src dest len st).2.1,
      ((M.noendPlain m src dest len st).2.2).getD .crlf, .none⟩
  | .raw => (M.noendRaw m src dest len st).map fun r => ⟨r.1, src + len, dest + r.2.1, r.2.2.getD .crlf, .none⟩
  | .endRaw => M.endRaw m src dest len (st.getD .crlf)

/-- Outcome of the `switch` before the kernel is called. -/
inductive Straddle where
  /-- `(*src) += n; *pState = st; return e`. -/
  | ended (n : Nat) (st : State) (e : Ended)
  /-- Carry on, with `nextMask`. -/
  | go (nextMask : Nat)

/-- decoder_common.h:53-116: sequences straddled across the start of what the kernel is given; `b k` is `(*src)[k]`. -/
def straddle (md : Mode) (st : State) (b : Nat → Byte) : Straddle :=
  match st with
  | .crlf =>
    if md.isRaw ∧ b 0 = DOT then
      if md.searchEnd ∧ b 1 = CR ∧ b 2 = LF then .ended 3 .crlf .article
      else if md.searchEnd ∧ b 1 = EQ ∧ b 2 = LY then .ended 3 .none .control
      else .go 1
    else if md.searchEnd ∧ b 0 = EQ ∧ b 1 = LY then .ended 2 .none .control
    else .go 0
  | .cr =>
    if md.isRaw ∧ b 0 = LF ∧ b 1 = DOT then
      if md.searchEnd ∧ b 2 = CR ∧ b 3 = LF then .ended 4 .crlf .article
      else if md.searchEnd ∧ b 2 = EQ ∧ b 3 = LY then .ended 4 .none .control
      else .go 2
    else if md.searchEnd ∧ b 0 = LF ∧ b 1 = EQ ∧ b 2 = LY then .ended 3 .none .control
    else .go 0
  | .crlfdt =>
    if md.searchEnd ∧ md.isRaw ∧ b 0 = CR ∧ b 1 = LF then .ended 2 .crlf .article
    else if md.searchEnd ∧ md.isRaw ∧ b 0 = EQ ∧ b 1 = LY then .ended 2 .none .control
    else .go 0
  | .crlfdtcr => if md.searchEnd ∧ md.isRaw ∧ b 0 = LF then .ended 1 .crlf .article else .go 0
  | .crlfeq => if md.searchEnd ∧ b 0 = LY then .ended 1 .none .control else .go 0
  | _ => .go 0

/-- decoder_common.h:136-138, 151: `if(len) return do_decode_scalar(...)`. -/
def finish (md : Mode) (m : Mem) (src dest len : Nat) (st : State) : Option M.Res :=
  if len ≠ 0 then scalar md m src dest len (some st) else some ⟨m, src, dest, st, .none⟩

/-- `*pState` after the kernel, decoder_common.h:125-128. -/
def stateAfter (esc : Bool) (nextMask : Nat) : State :=
  if esc then .eq else if nextMask = 1 then .crlf else if nextMask = 2 then .cr else .none

/-- `lenBuffer`, decoder_common.h:44-46. -/
def lenBuffer (md : Mode) (width : Nat) : Nat :=
  width - 1 + (match md with | .plain => 0 | .raw => 2 | .endRaw => 4)

/-- Where reading must stop: the end of the input, or (`lax`) the end of the aligned 16 bytes it ends in. Memory protection works on
larger units, so the latter never traps, but it is outside the buffer. -/
def readLimit (lax : Bool) (e : Nat) : Nat := if lax then (e + 15) / 16 * 16 else e

/-- decoder_common.h:44-151: from the aligned source on. -/
def aligned {σ : Type} (K : Kernel σ) (lax : Bool) (md : Mode) (m : Mem) (src dest len : Nat) (st : State) : Option M.Res :=
  if len > lenBuffer md K.width then
    match straddle md st (fun j => m (src + j)) with
    | .ended n st' e => some ⟨m, src + n, dest, st', e⟩
    | .go nm =>
      let dLen := (len - lenBuffer md K.width + (K.width - 1)) / K.width * K.width
      match kernel K md (readLimit lax (src + len)) (dest + len) m src dLen dest (st = .eq ∨ st = .crlfeq) nm with
      | none => none
      | some r => finish md r.m r.i r.p (src + len - r.i) (stateAfter r.esc r.nextMask)
  else finish md m src dest len st

/-- `_do_decode_simd<isRaw, searchEnd, kernel>(width, src, dest, len, state)`, decoder_common.h:26-152. (`width` is a power of two, so that masking with
`width - 1` is taking the remainder.) -/
def decode {σ : Type} (K : Kernel σ) (lax : Bool) (md : Mode) (m : Mem) (src dest len : Nat) (st : Option State) : Option M.Res :=
  if len ≤ K.width * 2 then scalar md m src dest len st
  else if src % K.width ≠ 0 then
    let amount := K.width - src % K.width
    match scalar md m src dest amount (some (st.getD .crlf)) with
    | none => none
    | some r =>
      if r.ended ≠ .none then some r
      else aligned K lax md r.m r.src r.dest (len - amount) r.state
  else aligned K lax md m src dest len (st.getD .crlf)

/-- The three functions of a vectorised implementation, one kernel instance each.  `lax`: whether the one for `decodeChunk` may read on to the end of the aligned 16
bytes; the other two are never allowed to. -/
def impl {σ : Type} (K : Mode → Kernel σ) (lax : Bool) : M.Impl where
  plain m src dest len := (decode (K .plain) false .plain m src dest len none).map fun r => (r.m, r.dest - dest)
  raw m src dest len := (decode (K .raw) false .raw m src dest len none).map fun r => (r.m, r.dest - dest)
  endRaw m src dest len st := decode (K .endRaw) lax .endRaw m src dest len (some st)

end Yenc.Dec.Simd
