import Verif.Model.EncoderSimd
/-!
Model of the frame shared by the vectorised encoders for ARM (`do_encode_neon`, encoder_neon.cc) and RISC-V (`do_encode_rvv`, encoder_rvv.cc).  It differs from the x86 frame in what
happens at the end of a line: `encode_eol_handle_pre` handles the last character of the line, the line break and some characters of the next line at once.
-/
namespace Yenc.Enc.Simd
open Yenc

/-- What one round does, up to the test whether the line is full.  `adv` is what is added to `p`, `colAdv` what is added to `col`. -/
structure ERound extends Round where
  colAdv : Nat

/-- What `encode_eol_handle_pre` does. -/
structure Eol where
  /-- Stores, at offsets from `p`. -/
  stores : List (Nat × List Byte)
  /-- By how much `p` is advanced. -/
  adv : Nat
  /-- `col` afterwards, given `line_size`. -/
  col : Int → Int

/-- What distinguishes the kernels. -/
structure EKernel where
  /-- Bytes per round. -/
  width : Nat
  /-- Bytes `encode_eol_handle_pre` consumes. -/
  eolWidth : Nat
  /-- A round: the position in the input, which stands for the point in time where instructions leave values unspecified; the block. -/
  round : Nat → (Nat → Byte) → ERound
  /-- `encode_eol_handle_pre`, given the bytes from where it starts. -/
  eol : (Nat → Byte) → Eol

/-- `encode_eol_handle_pre` is called, encoder_neon.cc:58-259, encoder_rvv.cc:8-30. -/
def eolHandle (K : EKernel) (ls : Int) (src : List Byte) (d : D) (pos : Nat) : Option (D × Nat × Int) :=
  if src.length < pos + K.eolWidth then none
  else
    let e := K.eol fun j => src.getD (pos + j) 0#8
    some ((d.stores e.stores).adv e.adv, pos + K.eolWidth, e.col ls)

/-- The main loop, encoder_neon.cc:306-516, encoder_rvv.cc:87-193.  `pos` is the position in the input (`es + i` in the code, where `i` is `pos` minus the input length plus
`INPUT_OFFSET = 2 * width - 1`), `col` the column minus `line_size - 1`.  Every round consumes input, so `fuel` larger than the input suffices. -/
def eLoop (K : EKernel) (ls : Int) (src : List Byte) : Nat → D → Nat → Int → Option (D × Nat × Int)
  | 0, _, _, _ => none
  | fuel + 1, d, pos, col =>
    if (pos : Int) - src.length + (2 * K.width - 1) < 0 then
      if src.length < pos + K.width then none
      else
        let r := K.round pos fun j => src.getD (pos + j) 0#8
        let d1 := (d.stores r.stores).adv r.adv
        let col1 := col + r.colAdv
        let pos1 := pos + K.width
        if 0 ≤ col1 then
          let p2 := (d1.p : Int) + (r.revert col1).1
          let i2 := (pos1 : Int) + (r.revert col1).2
          if p2 < 0 ∨ i2 < 0 then none
          else
            match eolHandle K ls src ⟨d1.m, p2.toNat, d1.hi⟩ i2.toNat with
            | none => none
            | some (d2, pos2, col2) => eLoop K ls src fuel d2 pos2 col2
        else eLoop K ls src fuel d1 pos1 col1
    else some (d, pos, col)

/-- First character of a line, encoder_neon.cc:277-287, encoder_rvv.cc:50-60 (the same code as in the x86 kernels). -/
def eFirst (ls : Int) (src : List Byte) (d : D) (pos : Nat) (col : Int) : Option (D × Nat × Int) :=
  if col = -ls + 1 then
    match src[pos]? with
    | none => none
    | some c => some ((d.first c).1, pos + 1, col + (d.first c).2)
  else some (d, pos, col)

/-- encoder_neon.cc:288-305, encoder_rvv.cc:61-78. -/
def eFull (K : EKernel) (ls : Int) (src : List Byte) (d : D) (pos : Nat) (col : Int) : Option (D × Nat × Int) :=
  if 0 ≤ col then
    if col = 0 then eolHandle K ls src d pos
    else
      match src[pos]? with
      | none => none
      | some c => some ((d.eolFirst c).1, pos + 1, 1 - ls + (d.eolFirst c).2)
  else some (d, pos, col)

/-- `do_encode_neon`, encoder_neon.cc:264-521, and `do_encode_rvv`, encoder_rvv.cc:34-198. -/
def eRun (K : EKernel) : KernelFn := fun ls col src d =>
  if (src.length : Int) ≤ 2 * K.width - 1 ∨ ls < 2 * K.width then some (d, 0, col)
  else do
    let (d, pos, col) ← eFirst ls src d 0 (col - ls + 1)
    let (d, pos, col) ← eFull K ls src d pos col
    let (d, pos, col) ← eLoop K ls src (src.length + 1) d pos col
    some (d, pos, col + ls - 1)

end Yenc.Enc.Simd
