import Verif.Model.JsPost
import Mathlib.Data.Int.Log
import Mathlib.Data.Rat.Floor
/-!
JavaScript Numbers as far as `/repo/index.js` uses them: IEEE 754 binary64 with rounding to nearest, ties to even, the conversion of strings to Numbers, and with
these `minSize` and `maxSize` with all their arguments.  The definitions follow ECMA-262 (sections 6.1.6.1 and 7.1.4.1); the lines of index.js using them are cited.

Simplification: `-0` and `+0` are one value.  Nothing index.js does with Numbers tells them apart (no quotient has a zero divisor: `line_size||128`).
-/
namespace Yenc.Js
open Yenc

/-- A Number value. -/
inductive Number where
  | nan
  | inf (neg : Bool)
  | fin (q : ℚ)
deriving DecidableEq

namespace Number

/-- The nearest integer; the even one if two are equally near. -/
def roundEven (q : ℚ) : ℤ :=
  if q - ⌊q⌋ < 1 / 2 then ⌊q⌋
  else if 1 / 2 < q - ⌊q⌋ then ⌊q⌋ + 1
  else if ⌊q⌋ % 2 = 0 then ⌊q⌋ else ⌊q⌋ + 1

/-- Exponent of the last place of the binary64 numbers near `x`: 53 significant bits, at least `2^-1074`. -/
def lastPlace (x : ℚ) : ℤ := max (Int.log 2 |x| - 52) (-1074)

/-- The real number `x` rounded to the precision of binary64, ignoring overflow. -/
def rounded (x : ℚ) : ℚ := roundEven (x / 2 ^ lastPlace x) * 2 ^ lastPlace x

/-- "The Number value for `x`", ECMA-262 6.1.6.1. -/
def rnd (x : ℚ) : Number := if 2 ^ 1024 ≤ |rounded x| then inf (decide (x < 0)) else fin (rounded x)

/-- `a + b` (index.js:173, 181, 185-188, 311). -/
def add : Number → Number → Number
  | nan, _ => nan
  | _, nan => nan
  | inf a, inf b => if a = b then inf a else nan
  | inf a, fin _ => inf a
  | fin _, inf b => inf b
  | fin a, fin b => rnd (a + b)

/-- `-a`. -/
def neg : Number → Number
  | nan => nan
  | inf a => inf (!a)
  | fin a => fin (-a)

/-- `a - b` (index.js:311). -/
def sub (a b : Number) : Number := add a (neg b)

/-- `a * b` (index.js:174, 185, 186). -/
def mul : Number → Number → Number
  | nan, _ => nan
  | _, nan => nan
  | inf a, inf b => inf (a != b)
  | inf a, fin b => if b = 0 then nan else inf (a != decide (b < 0))
  | fin a, inf b => if a = 0 then nan else inf (decide (a < 0) != b)
  | fin a, fin b => rnd (a * b)

/-- `a / b` (index.js:174, 186); the quotient of a nonzero number by zero depends on the sign of the zero and is given as for `+0`, which does not occur. -/
def div : Number → Number → Number
  | nan, _ => nan
  | _, nan => nan
  | inf _, inf _ => nan
  | inf a, fin b => inf (a != decide (b < 0))
  | fin _, inf _ => fin 0
  | fin a, fin b => if b = 0 then (if a = 0 then nan else inf (decide (a < 0))) else rnd (a / b)

/-- `Math.floor(a)` (index.js:174, 186). -/
def floor : Number → Number
  | fin a => fin ⌊a⌋
  | a => a

/-- `Math.ceil(a)` (index.js:185). -/
def ceil : Number → Number
  | fin a => fin ⌈a⌉
  | a => a

/-- `a < b` (index.js:182, 301, 308, 313, 315, 324; `a > b` is `b < a`). -/
def lt : Number → Number → Bool
  | nan, _ => false
  | _, nan => false
  | inf a, inf b => a && !b
  | inf a, fin _ => a
  | fin _, inf b => !b
  | fin a, fin b => decide (a < b)

/-- `a != b` (index.js:311, 332, 341). -/
def ne : Number → Number → Bool
  | nan, _ => true
  | _, nan => true
  | a, b => decide (a ≠ b)

/-- `!a`. -/
def falsy : Number → Bool
  | nan => true
  | inf _ => false
  | fin a => decide (a = 0)

/-! ### Strings to Numbers -/

def isDigit (c : Nat) : Bool := 48 ≤ c && c ≤ 57

/-- Value of a digit in bases up to 16. -/
def digitVal (c : Nat) : Option Nat :=
  if isDigit c then some (c - 48)
  else if 97 ≤ c && c ≤ 102 then some (c - 87)
  else if 65 ≤ c && c ≤ 70 then some (c - 55)
  else none

/-- Value of a sequence of digits in a base, given the value of what precedes it. -/
def baseVal (base : Nat) : Nat → Str → Option Nat
  | acc, [] => some acc
  | acc, c :: s =>
    match digitVal c with
    | none => none
    | some d => if d < base then baseVal base (acc * base + d) s else none

/-- Value of decimal digits. -/
def digitsVal (s : Str) : Nat := s.foldl (fun a c => 10 * a + (c - 48)) 0

/-- An ExponentPart, or nothing. -/
def exponent : Str → Option ℤ
  | [] => some 0
  | e :: s =>
    if e = 101 ∨ e = 69 then
      match s with
      | 43 :: t => if t ≠ [] ∧ t.all isDigit then some (digitsVal t) else none
      | 45 :: t => if t ≠ [] ∧ t.all isDigit then some (-digitsVal t) else none
      | t => if t ≠ [] ∧ t.all isDigit then some (digitsVal t) else none
    else none

/-- What follows the integer part: the digits after the point, and the rest. -/
def fraction : Str → Str × Str
  | 46 :: s => (s.takeWhile isDigit, s.dropWhile isDigit)
  | s => ([], s)

/-- StrUnsignedDecimalLiteral other than `Infinity`: its mathematical value. -/
def unsignedDec (s : Str) : Option ℚ :=
  let i := s.takeWhile isDigit
  let f := (fraction (s.dropWhile isDigit)).1
  if i = [] ∧ f = [] then none
  else
    match exponent (fraction (s.dropWhile isDigit)).2 with
    | none => none
    | some e => some (digitsVal (i ++ f) * 10 ^ (e - f.length))

/-- StrUnsignedDecimalLiteral after a sign. -/
def signedDec (negative : Bool) (s : Str) : Number :=
  if s = lit "Infinity" then inf negative
  else
    match unsignedDec s with
    | none => nan
    | some q => rnd (if negative then -q else q)

/-- StrNumericLiteral. -/
def numericLiteral (s : Str) : Number :=
  match s with
  | 43 :: t => signedDec false t
  | 45 :: t => signedDec true t
  | 48 :: x :: t =>
    let radix := if x = 120 ∨ x = 88 then 16 else if x = 111 ∨ x = 79 then 8 else if x = 98 ∨ x = 66 then 2 else 0
    if radix = 0 then signedDec false s
    else if t = [] then nan
    else
      match baseVal radix 0 t with
      | none => nan
      | some n => rnd n
  | _ => signedDec false s

/-- `+s` for a string (index.js:301, 304-307, 313, 315, 324).  (The standard lets an implementation drop digits after the twentieth; V8 does not.) -/
def ofStr (s : Str) : Number := if trim s = [] then fin 0 else numericLiteral (trim s)

end Number

open Number in
/-- Text as UTF-8 (the `encoding` property as it is by default, index.js:126) and Numbers as they are. -/
def jsEnv : Env where
  toStr := utf8Decode
  Num := Number
  num := ofStr
  ofNat n := rnd n
  lt := Number.lt
  ne := Number.ne
  range b e := add (sub e b) (fin 1)

/-! ### `minSize` and `maxSize` with all arguments; `none` is `undefined` -/

/-- `line_size||128`, index.js:174, 186. -/
def lineSizeN : Option Number → Number
  | none => .fin 128
  | some l => if l.falsy then .fin 128 else l

open Number in
/-- `minSize(length, line_size)`, index.js:171-175. -/
def minSizeN (length lineSize : Option Number) : Number :=
  match length with
  | none => fin 0
  | some n => if n.falsy then fin 0 else add n (mul (fin 2) (floor (div n (lineSizeN lineSize))))

open Number in
/-- `esc_ratio` after index.js:178-181. -/
def escFactor : Option Number → Number
  | none => fin 2
  | some r => if r.falsy && ne r (fin 0) then fin 2 else add r (fin 1)

open Number in
/-- `maxSize(length, line_size, esc_ratio)`, index.js:176-189. -/
def maxSizeN (length lineSize escRatio : Option Number) : Outcome Number :=
  match length with
  | none => .ret (fin 0)
  | some n =>
    if n.falsy then .ret (fin 0)
    else
      let r := escFactor escRatio
      if lt r (fin 1) || lt (fin 2) r then .throw "yEnc escape ratio must be between 0 and 1"
      else .ret (add (add (add (ceil (mul n r)) (mul (fin 2) (floor (div (mul n r) (lineSizeN lineSize))))) (fin 2)) (fin 64))

end Yenc.Js
