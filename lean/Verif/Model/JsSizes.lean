import Verif.Model.JsArgs
/-!
`minSize` and `maxSize` (`/repo/index.js`, 171-189) with any primitive values.  `Model/Number.lean` has them for Numbers and `undefined`.
-/
namespace Yenc.Js
open Yenc

/-- `line_size||128`, index.js:174, 186. -/
def Prim.or128 (v : Prim) : Prim := if v.falsy then .num (.fin 128) else v

/-- What an operation of a BigInt and something else throws. -/
def mixed : String := "TypeError: Cannot mix BigInt and other types, use explicit conversions"

/-- What `Math.floor` and `Math.ceil` throw for a BigInt. -/
def notNumber : String := "TypeError: Cannot convert a BigInt value to a number"

/-- `Math.floor(a / b)`, index.js:174, 186; `b` is not zero. -/
def floorQuot : Prim → Prim → Outcome Number
  | .big _, .big _ => .throw notNumber
  | .big _, _ => .throw mixed
  | _, .big _ => .throw mixed
  | a, b => .ret (.floor (.div a.numeric b.numeric))

/-- `a + n` for a Number `n`, index.js:173-174: strings are concatenated. -/
def plusNumber (sh : Number → Str) : Prim → Number → Outcome Prim
  | .str s, n => .ret (.str (s ++ sh n))
  | .big _, _ => .throw mixed
  | a, n => .ret (.num (.add a.numeric n))

/-- `minSize(length, line_size)`, index.js:171-175. -/
def minSizeP (sh : Number → Str) (length lineSize : Prim) : Outcome Prim :=
  if length.falsy then .ret (.num (.fin 0))
  else (floorQuot length lineSize.or128).bind fun q => plusNumber sh length (.mul (.fin 2) q)

/-- `esc_ratio` after index.js:178-181. -/
def escP (r : Prim) : Prim :=
  if r.falsy && decide (r ≠ .num (.fin 0)) then .num (.fin 2)
  else
    match r with
    | .big z => .big (z + 1)
    | r => .num (.add r.numeric (.fin 1))

/-- `length * esc_ratio` as an argument of `Math.ceil`, index.js:185. -/
def product : Prim → Prim → Outcome Number
  | .big _, .big _ => .throw notNumber
  | .big _, _ => .throw mixed
  | _, .big _ => .throw mixed
  | a, b => .ret (.mul a.numeric b.numeric)

/-- `maxSize(length, line_size, esc_ratio)`, index.js:176-189. -/
def maxSizeP (length lineSize escRatio : Prim) : Outcome Prim :=
  if length.falsy then .ret (.num (.fin 0))
  else
    let r := escP escRatio
    if Number.lt r.numeric (.fin 1) || Number.lt (.fin 2) r.numeric then .throw "yEnc escape ratio must be between 0 and 1"
    else
      (product length r).bind fun x =>
      (floorQuot (.num x) lineSize.or128).bind fun q =>
      .ret (.num (.add (.add (.add (.ceil x) (.mul (.fin 2) q)) (.fin 2)) (.fin 64)))

end Yenc.Js
