import Verif.Basic
/-!
Byte-addressed memory, for the parts of the code where it matters that source and destination may be the same buffer, where an
address is aligned, or where more is written than is kept.
-/
namespace Yenc

/-- The contents of memory. -/
abbrev Mem := Nat → Byte

namespace Mem

/-- `*(p) = b`. -/
def set (m : Mem) (p : Nat) (b : Byte) : Mem := fun a => if a = p then b else m a

/-- Store several bytes at `p`. -/
def wr (m : Mem) : Nat → List Byte → Mem
  | _, [] => m
  | p, b :: bs => wr (m.set p b) (p + 1) bs

/-- The `n` bytes from address `a` on. -/
def rdn (m : Mem) (a : Nat) : Nat → List Byte
  | 0 => []
  | n + 1 => m a :: rdn m (a + 1) n

/-- The bytes at addresses `a, ..., e - 1`. -/
def rd (m : Mem) (a e : Nat) : List Byte := m.rdn a (e - a)

end Mem
end Yenc
