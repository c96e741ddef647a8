import Verif.Model.JsCharset
/-!
`from_post` called on something else than the module (`/repo/index.js`, 213-353).  The text searches use `module.exports.encoding` (index.js:29, 53), but the conversion of the
lines to text uses `this.encoding` (index.js:238, 272).  The file is in strict mode (index.js:1), so `this` is `undefined` in
`const {from_post} = require('yencode'); from_post(data)`.
-/
namespace Yenc.Js
open Yenc

/-- What `this` can be: `undefined` or `null`, which have no properties; or something with the given `encoding` property (`none`: `undefined`).  Values of `encoding` that
Node.js refuses are left out, as in `Charset`. -/
inductive This where
  | undef
  | obj (encoding : Option Charset)
deriving DecidableEq, Repr

/-- `buf.toString(this.encoding)`, index.js:238, 272; `toString(undefined)` is `toString('utf8')`. -/
def This.toStr : This → List Byte → Outcome Str
  | .undef, _ => .throw "TypeError: Cannot read properties of undefined (reading 'encoding')"
  | .obj none, b => .ret (Charset.toStr .utf8 b)
  | .obj (some cs), b => .ret (cs.toStr b)

/-- index.js:237-251, as `headerLoopC`; `cs` is the setting of the module. -/
def headerLoopT (this : This) (cs : Charset) (data : List Byte) : Nat → Nat → Option Nat → List Str → Outcome Header
  | 0, _, _, _ => .ret .noEnd
  | n + 1, sp, p, lines =>
    match p with
    | none => .ret .noEnd
    | some p =>
      if p = 0 then .ret .noEnd
      else
        (this.toStr ((data.take p).drop sp)).bind fun s =>
        let line := trim s
        let lines' := lines ++ [line]
        if line.take 6 = lit "=yend " then .ret (.empty lines' (p + 2))
        else if data[p + 2]? ≠ some EQ ∨ data[p + 3]? ≠ some LY then .ret (.dataAt lines' (p + 2))
        else headerLoopT this cs data n (p + 2) (cs.indexOf data (lit "\r\n") (p + 2)) lines'

/-- index.js:252-275, as `layoutC`. -/
def layoutT (this : This) (cs : Charset) (data : List Byte) (h : Header) : Outcome (Option Layout) :=
  match h with
  | .noEnd => .ret none
  | .empty lines e =>
    let r := parseLines lines ⟨[], none⟩ []
    .ret (some ⟨none, none, e, r.1, r.2⟩)
  | .dataAt lines ds =>
    let r := parseLines lines ⟨[], none⟩ []
    match cs.lastIndexOf (data.drop ds) (lit "\r\n=yend ") with
    | none => .ret none
    | some i =>
      let ye := ds + i
      let p := cs.indexOf data (lit "\r\n") (ye + 8)
      let stop := match p with | some p => p | none => data.length
      let ws := if p = none then r.2 ++ ["missing_yend_newline"] else r.2
      (this.toStr ((data.take stop).drop (ye + 2))).bind fun s =>
      let endLine := trim s
      let q := parseLines [endLine] r.1 []
      .ret (some ⟨some ds, some ye, match p with | some p => p + 2 | none => data.length, q.1, ws ++ q.2⟩)

/-- `from_post.call(this, data, isRaw)` while `yencode.encoding` is `cs`, index.js:213-353; `env` for Numbers only. -/
def fromPostT (lib : Lib) (env : Env) (this : This) (cs : Charset) (data : List Byte) (isRaw : Bool) : Outcome FromPost :=
  match findStartC cs data with
  | none => .ret (.error "no_start_found")
  | some start =>
    (headerLoopT this cs data data.length start (cs.indexOf data (lit "\r\n") (start + 8)) []).bind fun h =>
    (layoutT this cs data h).bind fun l =>
    match l with
    | none => .ret (.error "no_end_found")
    | some l =>
      (required l.props).bind fun s =>
      match s with
      | none => .ret (.error "missing_required_properties")
      | some size => conclude lib env data isRaw start l size

end Yenc.Js
