import Verif.Model.Bindings
import Verif.Model.CrcBindings
/-!
The entry points of `/repo/src/yencode.cc` on platforms where `size_t` has fewer than 64 bits, and in builds with the option `disable_avx256`.  `Model/Bindings.lean` computes sizes
without wrapping and is what remains of these definitions for lengths that fit (`Props/Platform.lean`).
-/
namespace Yenc

/-- What the size computations depend on: the number of bits of `size_t`, and whether `YENC_DISABLE_AVX256` is undefined (binding.gyp:42-44). -/
structure Platform where
  bits : Nat
  avx256 : Bool

/-- Conversion to `size_t`, also the result of an operation on `size_t`. -/
def Platform.size (P : Platform) (n : Nat) : Nat := n % 2 ^ P.bits

/-- `YENC_MAX_SIZE`, yencode.cc:29-42. -/
def Platform.maxSize (P : Platform) (len lineSize : Nat) : Nat :=
  let ret := P.size (P.size (len * 2) + 2 + (if P.avx256 then 64 else 32))
  if lineSize = 128 then P.size (ret + P.size (2 * (len >>> 6)))
  else P.size (ret + P.size (2 * (P.size (len * 2) / lineSize)))

/-- `encode(data, line_size, col)`, yencode.cc:105-137. -/
def Enc.apiEncodeOn (P : Platform) (impl : Enc.Impl) (args : List Arg) : Outcome (List Byte) :=
  match args with
  | .buffer src :: rest =>
    if src = [] then .ret []
    else
      (Enc.lineArgs rest).bind fun (ls, col) =>
      (Enc.runInto impl ls col src true (P.maxSize src.length ls.toNat)).bind fun (out, _) => .ret out
  | _ => .throw "You must supply a Buffer"

/-- `encodeTo(data, output, line_size, col)`, yencode.cc:139-170. -/
def Enc.apiEncodeToOn (P : Platform) (impl : Enc.Impl) (args : List Arg) : Outcome (Int × List Byte) :=
  match args with
  | .buffer src :: .buffer dest :: rest =>
    if src = [] then .ret (0, [])
    else
      (Enc.lineArgs rest).bind fun (ls, col) =>
      if dest.length < P.maxSize src.length ls.toNat then
        .throw "Destination buffer does not have enough space (use `maxSize` to compute required space)"
      else
        (Enc.runInto impl ls col src true dest.length).bind fun (out, _) => .ret (toInt32 out.length, out)
  | _ => .throw "You must supply two Buffers"

/-- `crc32_combine(crc1, crc2, len2)`, yencode.cc:375-389: the length is converted to `size_t`, then to `uint64_t` (crc.h). -/
def Crc.apiCombineOn (P : Platform) (impl : Crc.Impl) (args : List Arg) : Outcome (List Byte) :=
  if args.length < 3 then .throw "At least 3 arguments required"
  else
    (Crc.twoCrcs args).bind fun (c1, c2) =>
    (argToInt (args.getD 2 .other)).bind fun n =>
    .ret (Crc.packCrc (Crc.combine impl c1 c2 ((BitVec.ofInt P.bits n).setWidth 64)))

end Yenc
