import Verif.Model.Vec
/-!
The ARM NEON instructions the encoder and the decoders use, lane by lane, as far as they differ from those of Model/Vec.lean.  A 64-bit register is a vector of which only the first
eight lanes mean anything; `vget_low_u8` therefore is the identity.  `vceqq_u8`, `vaddq_u8`, `vsubq_u8`, `vandq_u8`, `vorrq_u8` and `vdupq_n_u8` are `cmpeq`, `add`, `sub`, `and`, `or`
and `set1`.
-/
namespace Yenc.Vec

/-- `vmakeq_u8`, `vmake_u8` (common.h:159-196). -/
def make (l : List Byte) : Vec := fun j => l.getD j 0#8
/-- `vbslq_u8(m, a, b)`. -/
def bsl (m a b : Vec) : Vec := fun j => (m j &&& a j) ||| (~~~ m j &&& b j)
/-- `vbicq_u8(a, b)`. -/
def bic (a b : Vec) : Vec := fun j => a j &&& ~~~ b j
/-- `vqtbx1q_u8(fb, tbl, idx)` (`n = 16`), `vqtbx2q_s8` (`n = 32`), `vtbx1_u8` (`n = 8`): lanes with an index outside of the table keep the value of `fb`. -/
def tbx (n : Nat) (fb tbl idx : Vec) : Vec := fun j => if (idx j).toNat < n then tbl (idx j).toNat else fb j
/-- `vhaddq_s8`: half of the sum of signed lanes, rounded down. -/
def hadds (a b : Vec) : Vec := fun j => BitVec.ofInt 8 (((a j).toInt + (b j).toInt) / 2)
/-- `vpaddq_u8` (`n = 16`), `vpadd_u8` (`n = 8`). -/
def padd (n : Nat) (a b : Vec) : Vec := fun j => if j < n / 2 then a (2 * j) + a (2 * j + 1) else b (2 * (j - n / 2)) + b (2 * (j - n / 2) + 1)
/-- `vpadd_u16`. -/
def paddw (a b : Vec) : Vec := of16 fun j => if j < 2 then w16 a (2 * j) + w16 a (2 * j + 1) else w16 b (2 * (j - 2)) + w16 b (2 * (j - 2) + 1)
/-- `vdup_lane_u16(a, 0)`. -/
def dupw (a : Vec) : Vec := of16 fun _ => w16 a 0
/-- `vextq_u8(a, b, k)`. -/
def ext (a b : Vec) (k : Nat) : Vec := fun j => if j + k < 16 then a (j + k) else b (j + k - 16)
/-- `vcnt_u8`. -/
def cntv (a : Vec) : Vec := fun j => BitVec.ofNat 8 (popcnt (a j))
/-- `vcgtq_u8`. -/
def cgt (a b : Vec) : Vec := fun j => bm ((a j).toNat > (b j).toNat)
/-- `vcgeq_u8`. -/
def cge (a b : Vec) : Vec := fun j => bm ((a j).toNat ≥ (b j).toNat)
/-- `vget_high_u8`. -/
def high (a : Vec) : Vec := fun j => a (8 + j)
/-- `vcombine_u8`. -/
def combine (lo hi : Vec) : Vec := fun j => if j < 8 then lo j else hi (j - 8)
/-- `vgetq_lane_u64(a, 0)` (`w = 64`), `vget_lane_u32(a, 0)` (`w = 32`). -/
def lane (w : Nat) (a : Vec) : BitVec w := ofBits w (fun i => (a (i / 8)).getLsbD (i % 8)) w
/-- `vmov_n_u32(x)`, lanes 0 to 3. -/
def mov32 (x : BitVec 32) : Vec := fun j => (x >>> (8 * j)).setWidth 8

end Yenc.Vec
