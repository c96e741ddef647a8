import Verif.Basic
/-!
Model of `/repo/src/encoder.cc`, the scalar encoder.
-/
namespace Yenc.Enc

/-- `escapeLUT[256]`, encoder.cc:12-16.  Zero for the critical characters, otherwise `n+42`. -/
def escapeLUT (c : Byte) : Byte :=
  let n := c.toNat
  if n = 214 ∨ n = 13 + 214 ∨ n = 10 + 214 ∨ n = 61 - 42 then 0#8
  else BitVec.ofNat 8 (n + 42)

/-- `escapedLUT[256]`, encoder.cc:17-21 (common.h:98-106 `UINT16_PACK`, little endian).  Zero means "does not
need escaping even at the start of a line". -/
def escapedLUT (c : Byte) : BitVec 16 :=
  let n := c.toNat
  if n = 214 ∨ n = 214 + 13 ∨ n = 214 + 10 ∨ n = 61 - 42 ∨ n = 214 + 9 ∨ n = 214 + 32 ∨ n = 46 - 42 then
    61#16 ||| (BitVec.ofNat 16 ((n + 42 + 64) % 256) <<< 8)
  else 0#16

/-- Memory image of a `uint16_t` (little endian), used by `memcpy(p, &escapedLUT[c], 2)`. -/
def bytes16 (w : BitVec 16) : List Byte := [w.setWidth 8, (w >>> 8).setWidth 8]

/-- Memory image of a `uint32_t` (little endian), used by the four byte stores at line ends. -/
def bytes32 (w : BitVec 32) : List Byte :=
  [w.setWidth 8, (w >>> 8).setWidth 8, (w >>> 16).setWidth 8, (w >>> 24).setWidth 8]

/-- The destination: `out` are the bytes between `dest` and `p`; `hi` is one more than the highest
offset from `dest` written so far (stores can be wider than the advance of `p`). -/
structure W where
  out : List Byte
  hi : Nat
deriving Repr, DecidableEq

/-- Store `bs` at `p`, then advance `p` by `adv` bytes. -/
def W.put (w : W) (bs : List Byte) (adv : Nat) : W :=
  ⟨w.out ++ bs.take adv, max w.hi (w.out.length + bs.length)⟩

/-- `DO_THING(n)`, encoder.cc:54-61, and the body of encoder.cc:83-92: a character in the
middle of a line. -/
def doThing (w : W) (c : Byte) : W :=
  let escaped := escapeLUT c
  if escaped ≠ 0#8 then w.put [escaped] 1
  else w.put (bytes16 (escapedLUT c)) 2

/-- First character of a line, encoder.cc:37-47.  Returns the new destination and column. -/
def firstChar (w : W) (c : Byte) : W × Int :=
  if escapedLUT c ≠ 0#16 then (w.put (bytes16 (escapedLUT c)) 2, 2)
  else (w.put [c + 42#8] 1, 1)

/-- Last character of a line, encoder.cc:106-112. -/
def lastChar (w : W) (c : Byte) : W :=
  if escapedLUT c ≠ 0#16 ∧ c ≠ 4#8 then w.put (bytes16 (escapedLUT c)) 2
  else w.put [c + 42#8] 1

/-- Line break and first character of the next line, encoder.cc:117-129 (also encoder_common.h:75-86).
`UINT32_16_PACK(UINT16_PACK('\r','\n'), escapedLUT[c])` resp. `UINT32_PACK('\r','\n',c+42,0)`, where `c+42`
is an `int` that is not reduced modulo 256 (so it can spill into the fourth, discarded, byte). -/
def eolChar (w : W) (c : Byte) : W × Int :=
  if escapedLUT c ≠ 0#16 then
    let v : BitVec 32 := (13#32 ||| (10#32 <<< 8)) ||| ((escapedLUT c).setWidth 32 <<< 16)
    (w.put (bytes32 v) 4, 2)
  else
    let v : BitVec 32 := 13#32 ||| (10#32 <<< 8) ||| (BitVec.ofNat 32 (c.toNat + 42) <<< 16) ||| (0#32 <<< 24)
    (w.put (bytes32 v) 3, 1)

/-- What the 8-fold unrolled loop leaves behind. `sp = none` is the null pointer of encoder.cc:50, otherwise
it records `p` (as output so far) and the input position at the start of the last unrolled round. -/
structure Unrolled where
  rest : List Byte
  w : W
  col : Int
  sp : Option (List Byte × List Byte)

/-- encoder.cc:51-73: `while (i < -1-8 && line_size-col-1 > 8)`. `rest` are the bytes `es[i..]`.  `none`: `col += (int)(p - sp)`
(line 72) is more than an `int` can hold, which is undefined. -/
def unroll8 (ls : Int) (rest : List Byte) (w : W) (col : Int) (sp : Option (List Byte × List Byte)) : Option Unrolled :=
  if h : 9 < rest.length ∧ ls - col - 1 > 8 then
    let w' := (rest.take 8).foldl doThing w
    let col' := col + ((w'.out.length : Int) - w.out.length)
    if col' < 2 ^ 31 then unroll8 ls (rest.drop 8) w' col' (some (w.out, rest)) else none
  else some ⟨rest, w, col, sp⟩
termination_by rest.length
decreasing_by simp; omega

/-- encoder.cc:74-80: revert the last unrolled round if it went past the last column. -/
def revert (ls : Int) (u : Unrolled) : List Byte × W × Int :=
  match u.sp with
  | none => (u.rest, u.w, u.col)
  | some (spOut, spRest) =>
    if u.col ≥ ls - 1 then
      (spRest, ⟨spOut, u.w.hi⟩, u.col - ((u.w.out.length : Int) - spOut.length))
    else (u.rest, u.w, u.col)

/-- Outcome of the inner loop: the jump to `end`, or falling out of the loop. -/
inductive Inner where
  | ended (w : W) (col : Int)
  | cont (rest : List Byte) (w : W) (col : Int)

/-- encoder.cc:82-102: `while(col < line_size-1)`. Reading past the end of the input is `none`.  (`col` stays at most `line_size`, so it
does not overflow.) -/
def innerLoop (ls : Int) : List Byte → W → Int → Option Inner
  | [], w, col => if col < ls - 1 then none else some (.cont [] w col)
  | c :: cs, w, col =>
    if col < ls - 1 then
      let w' := doThing w c
      let col' := col + (if escapeLUT c ≠ 0#8 then 1 else 2)
      if cs = [] then some (.ended w' col') else innerLoop ls cs w' col'
    else some (.cont (c :: cs) w col)

theorem unroll8_length (ls : Int) (rest : List Byte) (w : W) (col : Int) (sp) (u : Unrolled) (hu : unroll8 ls rest w col sp = some u) :
    u.rest.length ≤ rest.length := by
  fun_induction unroll8 ls rest w col sp with
  | case1 rest w col sp h w' col' hc ih => have := ih hu; simp at this; omega
  | case2 => cases hu
  | case3 => injection hu with hu; subst hu; exact Nat.le_refl _

theorem unroll8_sp (ls : Int) (rest : List Byte) (w : W) (col : Int) (sp) (n : Nat)
    (hn : rest.length ≤ n) (hsp : ∀ a b, sp = some (a, b) → b.length ≤ n) (u : Unrolled) (hu : unroll8 ls rest w col sp = some u) :
    ∀ a b, u.sp = some (a, b) → b.length ≤ n := by
  fun_induction unroll8 ls rest w col sp with
  | case1 rest w col sp h w' col' hc ih =>
    refine ih ?_ ?_ hu
    · simp; omega
    · intro a b hab; simp at hab; obtain ⟨_, rfl⟩ := hab; exact hn
  | case2 => cases hu
  | case3 => injection hu with hu; subst hu; exact hsp

theorem revert_length (ls : Int) (rest : List Byte) (w : W) (col : Int) (u : Unrolled) (hu : unroll8 ls rest w col none = some u) :
    (revert ls u).1.length ≤ rest.length := by
  unfold revert
  have h1 := unroll8_length ls rest w col none u hu
  have h2 := unroll8_sp ls rest w col none rest.length (Nat.le_refl _) (by simp) u hu
  split
  · exact h1
  · rename_i a b hab
    split
    · exact h2 _ _ hab
    · exact h1

theorem innerLoop_length (ls : Int) (rest : List Byte) (w : W) (col : Int) (rest' w' col')
    (h : innerLoop ls rest w col = some (.cont rest' w' col')) : rest'.length ≤ rest.length := by
  induction rest generalizing w col with
  | nil => unfold innerLoop at h; split at h <;> simp_all
  | cons c cs ih =>
    unfold innerLoop at h
    split at h
    · simp only at h
      split at h
      · simp at h
      · have := ih _ _ h; simp; omega
    · simp at h; simp [← h.1]

/-- Outcome of one round of the outer loop: leave it, or go on with the next line. -/
inductive Line where
  | stop (w : W) (col : Int)
  | next (rest : List Byte) (w : W) (col : Int)

/-- encoder.cc:49-129: the body of the outer loop, i.e. the rest of a line, the line break and the first
character of the next line. -/
def line (ls : Int) (rest : List Byte) (w : W) (col : Int) : Option Line :=
  match unroll8 ls rest w col none with
  | none => none
  | some u =>
  let r := revert ls u
  match innerLoop ls r.1 r.2.1 r.2.2 with
  | none => none
  | some (.ended w' col') => some (.stop w' col')
  | some (.cont rest' w' col') =>
    if col' < ls then
      match rest' with
      | [] => none
      | [c] => some (.stop (lastChar w' c) col')
      | c :: d :: ds =>
        let e := eolChar (lastChar w' c) d
        some (.next ds e.1 e.2)
    else
      match rest' with
      | [] => some (.stop w' col')
      | d :: ds =>
        let e := eolChar w' d
        some (.next ds e.1 e.2)

theorem line_length (ls : Int) (rest : List Byte) (w : W) (col : Int) (rest' w' col')
    (h : line ls rest w col = some (.next rest' w' col')) : rest'.length < rest.length := by
  unfold line at h
  have h1 := revert_length ls rest w col
  cases hu : unroll8 ls rest w col none with
  | none => simp [hu] at h
  | some u =>
  replace h1 := h1 u hu
  simp only [hu] at h
  split at h
  · simp at h
  · simp at h
  · rename_i hi
    have h2 := innerLoop_length _ _ _ _ _ _ _ hi
    split at h
    · split at h <;> simp at h
      obtain ⟨rfl, _⟩ := h
      simp at h2; omega
    · split at h <;> simp at h
      obtain ⟨rfl, _⟩ := h
      simp at h2; omega

/-- encoder.cc:48-130: the outer `while(i < 0)`. -/
def outer (ls : Int) (rest : List Byte) (w : W) (col : Int) : Option (W × Int) :=
  if rest = [] then some (w, col)
  else
    match h : line ls rest w col with
    | none => none
    | some (.stop w' col') => some (w', col')
    | some (.next rest' w' col') => outer ls rest' w' col'
termination_by rest.length
decreasing_by exact line_length _ _ _ _ _ _ _ h

/-- encoder.cc:132-142: escape a final tab or space. `*(p-1)` with `p == dest` reads out of bounds.  `none` also if `col++` overflows. -/
def doEnd (w : W) (col : Int) : Option (W × Int) :=
  match w.out.getLast? with
  | none => none
  | some lc =>
    if lc = TAB ∨ lc = SP then
      if col + 1 ≥ 2 ^ 31 then none else some (⟨w.out.dropLast ++ [EQ, lc + 64#8], max w.hi (w.out.length + 1)⟩, col + 1)
    else some (w, col)

/-- encoder.cc:31-130: everything up to the label `end`. -/
def body (ls : Int) (col : Int) (src : List Byte) : Option (W × Int) :=
  let w0 : W := ⟨[], 0⟩
  if col = 0 then
    match src with
    | [] => none
    | c :: cs =>
      let f := firstChar w0 c
      outer ls cs f.1 f.2
  else outer ls src w0 col

/-- `do_encode_generic(line_size, &col, src, dest, len, doEnd)`, encoder.cc:30-145. `none`: the code would access memory
outside `src` (or before `dest`), or an `int` overflows. The result holds the bytes written, the high-water mark and `*colOffset`. -/
def encodeGeneric (ls : Int) (col : Int) (src : List Byte) (fin : Bool) : Option (W × Int) :=
  match body ls col src with
  | none => none
  | some (w, c) => if fin then doEnd w c else some (w, c)

end Yenc.Enc
