import Verif.Model.JsText
import Verif.Model.Bindings
/-!
Model of the searches in `/repo/index.js:32-50, 56-73`, used where Buffers have no `indexOf` and `lastIndexOf` (Node.js before 1.5 and 6).
-/
namespace Yenc.Js
open Yenc

/-- `buf[i]` for an integer; `none` is `undefined`. -/
def elemAt (buf : List Byte) (i : Int) : Option Byte := if i < 0 then none else buf[i.toNat]?

/-- index.js:40-46, 63-69: the loop over `j`; `i` is `i+j` and the list what remains of `search`. -/
def matchAt (buf : List Byte) (i : Int) : List Byte → Bool
  | [] => true
  | c :: s => if elemAt buf i ≠ some c then false else matchAt buf (i + 1) s

/-- index.js:39-48: the loop over `i`, with the number of values that remain. -/
def findLoop (buf search : List Byte) : Nat → Int → Int
  | 0, _ => -1
  | n + 1, i => if matchAt buf i search then i else findLoop buf search n (i + 1)

/-- `bufferFind(buf, search, start)`, index.js:32-50. -/
def findOld (buf search : List Byte) (start : Int) : Int :=
  if search.length = 0 then -1
  else
    let start := toInt32 start
    if (search.length : Int) > buf.length - start then -1
    else findLoop buf search ((buf.length : Int) - search.length + 1 - start).toNat start

/-- index.js:62-71: the loop over `i` downwards. -/
def findRevLoop (buf search : List Byte) : Nat → Int
  | 0 => if matchAt buf 0 search then 0 else -1
  | n + 1 => if matchAt buf (n + 1 : Nat) search then (n + 1 : Nat) else findRevLoop buf search n

/-- `bufferFindRev(buf, search)`, index.js:56-73. -/
def findRevOld (buf search : List Byte) : Int :=
  if search.length = 0 then -1
  else if search.length > buf.length then -1
  else findRevLoop buf search (buf.length - search.length)

end Yenc.Js
