import Verif.Basic
/-!
Model of the portable CRC code: `/repo/src/crc.cc:19-183` and `/repo/src/crc.h:25-85`.

Little-endian target.  The lookup tables are functions of their index (the code fills them once at start-up).
-/
namespace Yenc.Crc

abbrev U32 := BitVec 32
abbrev U64 := BitVec 64

/-- The reversed generator `0xEDB88320`. -/
def poly : U32 := 0xEDB88320#32

/-- crc.cc:107: `(crc >> 1) ^ (-(int32_t)(crc & 1) & 0xEDB88320)`; also crc.cc:144. -/
def shr1 (crc : U32) : U32 := (crc >>> 1) ^^^ (-(crc &&& 1#32) &&& poly)

/-- crc.cc:104-110: `crc_base_table[v]`. -/
def base (v : Byte) : U32 := shr1 (shr1 (shr1 (shr1 (shr1 (shr1 (shr1 (shr1 (v.setWidth 32))))))))

/-- crc.cc:117, 119: `crc = (crc >> 8) ^ crc_base_table[crc & 0xff]`. -/
def advance (crc : U32) : U32 := (crc >>> 8) ^^^ base (crc.setWidth 8)

def iter {α : Type} (f : α → α) : Nat → α → α
  | 0, a => a
  | n + 1, a => iter f n (f a)

/-- crc.cc:113-121: `crc_slice_table[i*256 + v]`, for `CRC32_GENERIC_CHAINS == 4`: `4*4-5` rounds, then `i+1` more. -/
def slice (i : Nat) (v : Byte) : U32 := iter advance (i + 1) (iter advance (4 * 4 - 5) (base v))

/-- crc.cc:41, 96: one byte. -/
def step (crc : U32) (b : Byte) : U32 := (crc >>> 8) ^^^ base (crc.setWidth 8 ^^^ b)

/-- `*(uint32_t*)p`, little-endian. -/
def word (a b c d : Byte) : U32 :=
  a.setWidth 32 ||| (b.setWidth 32 <<< 8) ||| (c.setWidth 32 <<< 16) ||| (d.setWidth 32 <<< 24)

/-- crc.cc:63-65 `CRC_PROC4`. -/
def proc4 (v w : U32) : U32 :=
  let v := v ^^^ w
  slice 0 ((v >>> 24).setWidth 8) ^^^ slice 1 ((v >>> 16).setWidth 8) ^^^ slice 2 ((v >>> 8).setWidth 8) ^^^ slice 3 (v.setWidth 8)

/-- The accumulators `crc[0..3]`. -/
structure Acc where
  c0 : U32
  c1 : U32
  c2 : U32
  c3 : U32

/-- crc.cc:58-72: `while(current != end)`, `n` rounds of 16 bytes. `none`: read past the end of the data. -/
def chains : Nat → Acc → List Byte → Option (Acc × List Byte)
  | 0, a, l => some (a, l)
  | n + 1, a, p0 :: p1 :: p2 :: p3 :: p4 :: p5 :: p6 :: p7 :: p8 :: p9 :: pa :: pb :: pc :: pd :: pe :: pf :: l =>
    chains n ⟨proc4 a.c0 (word p0 p1 p2 p3), proc4 a.c1 (word p4 p5 p6 p7), proc4 a.c2 (word p8 p9 pa pb), proc4 a.c3 (word pc pd pe pf)⟩ l
  | _ + 1, _, _ => none

/-- Four single-byte steps, crc.cc:81-82, 89-90. -/
def step4 (crc : U32) (a b c d : Byte) : U32 := step (step (step (step crc a) b) c) d

/-- crc.cc:73-92: combine the accumulators, consuming 16 or 12 more bytes. -/
def aggregate (a : Acc) (l : List Byte) : Option (U32 × List Byte) :=
  if l.length &&& 16 ≠ 0 then
    match l with
    | p0 :: p1 :: p2 :: p3 :: p4 :: p5 :: p6 :: p7 :: p8 :: p9 :: pa :: pb :: pc :: pd :: pe :: pf :: l =>
      let c0 := proc4 a.c0 (word p0 p1 p2 p3)
      let c1 := step4 a.c1 p4 p5 p6 p7
      let c2 := a.c2 ^^^ c1
      let c2 := step4 c2 p8 p9 pa pb
      let c3 := a.c3 ^^^ c2
      let c3 := step4 c3 pc pd pe pf
      some (c0 ^^^ c3, l)
    | _ => none
  else
    match l with
    | p0 :: p1 :: p2 :: p3 :: p4 :: p5 :: p6 :: p7 :: p8 :: p9 :: pa :: pb :: l =>
      let c0 := step4 a.c0 p0 p1 p2 p3 ^^^ a.c1
      let c0 := step4 c0 p4 p5 p6 p7 ^^^ a.c2
      let c0 := step4 c0 p8 p9 pa pb ^^^ a.c3
      some (c0, l)
    | _ => none

/-- crc.cc:95-97: the tail loop. -/
def tail (crc : U32) (l : List Byte) : U32 := l.foldl step crc

/-- crc.cc:40-43: one byte if the address is odd. -/
def align1 (addr : Nat) (crc : U32) (l : List Byte) : Nat × U32 × List Byte :=
  match l with
  | b :: bs => if addr &&& 1 ≠ 0 then (addr + 1, step crc b, bs) else (addr, crc, b :: bs)
  | [] => (addr, crc, [])

/-- crc.cc:44-48: two bytes if the address is not a multiple of 4. -/
def align2 (addr : Nat) (crc : U32) (l : List Byte) : U32 × List Byte :=
  match l with
  | b :: c :: bs => if addr &&& 2 ≠ 0 then (step (step crc b) c, bs) else (crc, b :: c :: bs)
  | [b] => (crc, [b])
  | [] => (crc, [])

/-- crc.cc:40-48: bring the address to a multiple of 4. -/
def align (addr : Nat) (crc : U32) (l : List Byte) : U32 × List Byte :=
  let r := align1 addr crc l
  align2 r.1 r.2.1 r.2.2

/-- `do_crc32_incremental_generic(data, length, init)`, crc.cc:33-100, for data at address `addr`. -/
def generic (addr : Nat) (data : List Byte) (init : U32) : Option U32 :=
  let r := align addr (~~~init) data
  if r.2.length ≥ 8 * 4 - 4 then
    let lenMain := (r.2.length - (4 - 1) * 4) / 4
    match chains (lenMain / 4) ⟨r.1, 0, 0, 0⟩ r.2 with
    | none => none
    | some (a, l) =>
      match aggregate a l with
      | none => none
      | some (c, l) => some (~~~(tail c l))
  else some (~~~(tail r.1 r.2))

/-! ### Multiplication and powers -/

/-- crc.cc:142-146: `n` rounds of the loop. -/
def mulLoop : Nat → U32 → U32 → U32 → U32 × U32 × U32
  | 0, res, a, b => (res, a, b)
  | n + 1, res, a, b => mulLoop n (res ^^^ (-(b >>> 31) &&& a)) (shr1 a) (b <<< 1)

/-- `crc32_multiply_generic(a, b)`, crc.cc:140-149. -/
def multiply (a b : U32) : U32 :=
  let r := mulLoop 31 0 a b
  r.1 ^^^ (-(r.2.2 >>> 31) &&& r.2.1)

/-- `crc_power`, crc.cc:152-157. -/
def crcPower : List U32 := [
  0x40000000#32, 0x20000000#32, 0x08000000#32, 0x00800000#32, 0x00008000#32, 0xedb88320#32, 0xb1e6b092#32, 0xa06a2517#32,
  0xed627dae#32, 0x88d14467#32, 0xd7bbfe6a#32, 0xec447f11#32, 0x8e7ea170#32, 0x6427800e#32, 0x4d47bae0#32, 0x09fe548f#32,
  0x83852d0f#32, 0x30362f1a#32, 0x7b5a9cc3#32, 0x31fec169#32, 0x9fec022a#32, 0x6c8dedc4#32, 0x15d6874d#32, 0x5fde7a4e#32,
  0xbad90e37#32, 0x2e4e5eef#32, 0x4eaba214#32, 0xa8a472c0#32, 0x429a969e#32, 0x148d302a#32, 0xc40ba6d0#32, 0xc4e22c3c#32]

/-- `__builtin_ctz(n)`: index of the lowest set bit (undefined for 0, where the loop has ended). -/
def ctzFrom (n : U32) : Nat → Nat → Nat
  | 0, i => i
  | f + 1, i => if n.getLsbD i then i else ctzFrom n f (i + 1)
def ctz (n : U32) : Nat := ctzFrom n 32 0

/-- crc.cc:162-165: `while(n)`, at most 32 rounds (each clears one bit). The table read is in bounds: `ctz n < 32`. -/
def shiftLoop : Nat → U32 → U32 → U32
  | 0, result, _ => result
  | f + 1, result, n =>
    if n = 0#32 then result
    else shiftLoop f (multiply result (crcPower.getD (ctz n) 0#32)) (n &&& (n - 1#32))

/-- `crc32_shift_generic(crc1, n)`, crc.cc:159-183 (GNU C branch). -/
def shift (crc1 n : U32) : U32 := shiftLoop 32 crc1 n

/-- crc.cc:173-180: the branch for other compilers. -/
def shiftPortableLoop : Nat → U32 → U32 → Nat → U32
  | 0, result, _, _ => result
  | f + 1, result, n, power =>
    if n = 0#32 then result
    else shiftPortableLoop f (if n &&& 1#32 ≠ 0#32 then multiply result (crcPower.getD power 0#32) else result) (n >>> 1) (power + 1)
def shiftPortable (crc1 n : U32) : U32 := shiftPortableLoop 32 crc1 n 0

/-- `crc32_powmod(n)`, crc.h:25-30 (GNU C branch; 32-35 computes the same): add the halves, then the carry. -/
def powmod (n : U64) : U32 :=
  let hi : U32 := (n >>> 32).setWidth 32
  let lo : U32 := n.setWidth 32
  let res := hi + lo
  let carry : U32 := if hi.toNat + lo.toNat ≥ 2 ^ 32 then 1 else 0
  res + carry

/-- crc.h:37-39: the branch for other compilers. -/
def powmodPortable (n : U64) : U32 :=
  let n := (n >>> 32) + (n &&& 0xffffffff#64)
  let n := n + (n >>> 32)
  n.setWidth 32

/-- `crc32_bytepow(n)`, crc.h:43-50. -/
def bytepow (n : U64) : U32 :=
  let res := powmod n
  (res <<< 3) ||| (res >>> 29)

/-- crc.h:52-55. -/
def bytepowPortable (n : U64) : U32 :=
  let n := (n >>> 32) + (n &&& 0xffffffff#64)
  let n := n <<< 3
  let n := n + (n >>> 32)
  n.setWidth 32

end Yenc.Crc
