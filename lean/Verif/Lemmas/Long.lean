import Verif.Model.Long
import Verif.Lemmas.CrcImpl
import Verif.Lemmas.Api
/-!
Lemmas about the encoders and decoders with a narrow `long`.
-/
namespace Yenc

theorem wrapLong_eq (L : Nat) (hL : 0 < L) (n : Int) (h0 : 0 ≤ n) (h : n < 2 ^ (L - 1)) : wrapLong L n = n := by
  obtain ⟨k, rfl⟩ := Int.eq_ofNat_of_zero_le h0
  have := Crc.toLong_eq L k hL (by exact_mod_cast h)
  rw [← this, wrapLong, Crc.toLong]
  rw [show ((BitVec.ofNat L k).toInt) = (k : Int) from this]
  rw [← this]; simp [Crc.toLong]

theorem pow_two_pos (L : Nat) : (0 : Int) < 2 ^ (L - 1) := Int.pow_pos (by decide)

namespace Enc

theorem lastLong_eq (L : Nat) (hL : 0 < L) (s : List Byte) (h : s.length < 2 ^ (L - 1)) : lastLong L s = some s := by
  have := pow_two_pos L
  rw [lastLong, Crc.toLong_eq L _ hL h, if_neg (by omega)]
  simp

theorem genericL_eq (L : Nat) (hL : 0 < L) (ls col : Int) (s : List Byte) (fin : Bool) (h : s.length < 2 ^ (L - 1)) :
    genericL L ls col s fin = encodeGeneric ls col s fin := by rw [genericL, lastLong_eq L hL s h]; rfl

theorem encodeL_eq (L : Nat) (hL : 0 < L) (K : Simd.KernelFn) (m0 : Mem) (ls col : Int) (s : List Byte) (fin : Bool)
    (h : s.length < 2 ^ (L - 1)) : Simd.encodeL L K m0 ls col s fin = Simd.encode K m0 ls col s fin := by
  unfold Simd.encodeL Simd.encode
  by_cases h1 : s = []
  · rw [if_pos h1, if_pos h1]
  rw [if_neg h1, if_neg h1]
  by_cases h2 : ls < 12
  · rw [if_pos h2, if_pos h2, genericL_eq L hL _ _ _ _ h]
  rw [if_neg h2, if_neg h2]
  rcases K ls (if col < 0 then 0 else col) s ⟨m0, 0, 0⟩ with _ | ⟨d, pos, col'⟩
  · rfl
  · simp only
    rw [lastLong_eq L hL _ (by rw [List.length_drop]; omega)]

theorem longKernel_encode (L : Nat) (hL : 0 < L) (K : Simd.KernelFn) (m0 : Mem) (ls col : Int) (s : List Byte) (fin : Bool)
    (h : s.length < 2 ^ (L - 1)) : Simd.encode (Simd.longKernel L K) m0 ls col s fin = Simd.encode K m0 ls col s fin := by
  unfold Simd.encode Simd.longKernel
  rw [Crc.toLong_eq L _ hL h, if_pos rfl]

theorem IsImplL.eq {L : Nat} (hL : 0 < L) {I I' : Impl} (hI : IsImplL L I I') (ls col : Int) (s : List Byte) (fin : Bool) (h : s.length < 2 ^ (L - 1)) :
    I' ls col s fin = I ls col s fin := by
  cases hI with
  | generic => exact genericL_eq L hL _ _ _ _ h
  | sse | avx2 => exact encodeL_eq L hL _ _ _ _ _ _ h
  | neon | rvv => rw [encodeL_eq L hL _ _ _ _ _ _ h, longKernel_encode L hL _ _ _ _ _ _ h]

theorem IsImplL.isImpl {L : Nat} {I I' : Impl} (hI : IsImplL L I I') : IsImpl I := by
  cases hI with
  | generic => exact .generic
  | sse c h m0 => exact .sse c h m0
  | avx2 c m0 => exact .avx2 c m0
  | neon a m0 => exact .neon a m0
  | rvv vl h j m0 => exact .rvv vl h j m0

theorem IsX86L.isImplL {L : Nat} {I I' : Impl} (hI : IsX86L L I I') : IsImplL L I I' := by
  cases hI with
  | sse c h m0 => exact .sse c h m0
  | avx2 c m0 => exact .avx2 c m0

/-! ### What an x86 kernel leaves to the scalar loop is short -/

theorem loop_rest (K : Simd.Kernel) (ls : Int) (src : List Byte) (fuel : Nat) (start : Bool) (d : Simd.D) (pos : Nat) (col : Int) (d' pos' col')
    (h : Simd.loop K ls src fuel start d pos col = some (d', pos', col')) : src.length ≤ pos' + 2 * K.width := by
  induction fuel generalizing start d pos col with
  | zero => simp [Simd.loop] at h
  | succ fuel ih =>
    rw [Simd.loop] at h
    simp only at h
    generalize (K.round start (src.getD (pos - 1) 0#8) fun j => src.getD (pos + j) 0#8) = r at h
    generalize (d.stores r.stores).adv r.adv = d1 at h
    by_cases h1 : src.length < pos + K.width ∨ (r.back = true ∧ pos = 0)
    · rw [if_pos h1] at h; cases h
    rw [if_neg h1] at h
    by_cases h2 : 0 ≤ col + (r.adv : Int)
    · rw [if_pos h2] at h
      generalize (d1.p : Int) + (r.revert (col + (r.adv : Int))).1 = p2 at h
      generalize ((pos + K.width : Nat) : Int) + (r.revert (col + (r.adv : Int))).2 = i2 at h
      by_cases h3 : p2 < 0 ∨ i2 < 0
      · rw [if_pos h3] at h; cases h
      rw [if_neg h3] at h
      cases hc : src[i2.toNat]? with
      | none => rw [hc] at h; cases h
      | some c =>
        rw [hc] at h
        simp only at h
        by_cases h4 : src.length ≤ i2.toNat + 2 * K.width
        · rw [if_pos h4] at h
          simp only [Option.some.injEq, Prod.mk.injEq] at h
          omega
        · rw [if_neg h4] at h; exact ih _ _ _ _ h
    · rw [if_neg h2] at h
      by_cases h3 : pos + K.width + 2 * K.width < src.length
      · rw [if_pos h3] at h; exact ih _ _ _ _ h
      · rw [if_neg h3] at h
        simp only [Option.some.injEq, Prod.mk.injEq] at h
        omega

theorem run_rest (K : Simd.Kernel) (ls col : Int) (src : List Byte) (d : Simd.D) (hls : 16 ≤ ls) (d' pos' col')
    (h : Simd.run K ls col src d = some (d', pos', col')) : src.length ≤ pos' + 2 * K.width := by
  unfold Simd.run at h
  by_cases h1 : src.length ≤ 2 * K.width
  · omega
  rw [if_neg (by omega)] at h
  simp only [Option.bind_eq_bind, Option.bind_eq_some_iff, Prod.exists] at h
  obtain ⟨d1, p1, c1, -, d2, p2, c2, -, d3, p3, c3, -, d4, p4, c4, h4, h5⟩ := h
  have := loop_rest _ _ _ _ _ _ _ _ _ _ _ h4
  simp only [Option.some.injEq, Prod.mk.injEq] at h5
  omega

theorem encodeL_run (L : Nat) (hL : 9 ≤ L) (K : Simd.Kernel) (hK : K.width ≤ 64) (m0 : Mem) (ls col : Int) (hls : 16 ≤ ls) (s : List Byte) (fin : Bool) :
    Simd.encodeL L (Simd.run K) m0 ls col s fin = Simd.encode (Simd.run K) m0 ls col s fin := by
  unfold Simd.encodeL Simd.encode
  by_cases h1 : s = []
  · rw [if_pos h1, if_pos h1]
  have h12 : ¬ ls < 12 := by omega
  rw [if_neg h1, if_neg h1, if_neg h12, if_neg h12]
  rcases he : Simd.run K ls (if col < 0 then 0 else col) s ⟨m0, 0, 0⟩ with _ | ⟨d, pos, col'⟩
  · rfl
  · simp only
    have := run_rest K ls _ s _ hls _ _ _ he
    have h2 : 2 ^ 8 ≤ 2 ^ (L - 1) := Nat.pow_le_pow_right (by decide) (by omega)
    rw [lastLong_eq L (by omega) _ (by rw [List.length_drop]; omega)]

theorem IsX86L.eq {L : Nat} (hL : 9 ≤ L) {I I' : Impl} (hI : IsX86L L I I') (ls col : Int) (hls : 16 ≤ ls) (s : List Byte) (fin : Bool) :
    I' ls col s fin = I ls col s fin := by
  cases hI with
  | sse c h m0 => exact encodeL_run L hL _ (by simp [Simd.X86.sse]) _ _ _ hls _ _
  | avx2 c m0 => exact encodeL_run L hL _ (by simp [Simd.X86.avx2]) _ _ _ hls _ _

end Enc

namespace Dec.Simd

theorem scalarL_eq (L : Nat) (hL : 0 < L) (md : Mode) (m : Mem) (src dest len : Nat) (st : Option State) (h : len < 2 ^ (L - 1)) :
    scalarL L md m src dest len st = scalar md m src dest len st := by
  have := pow_two_pos L
  unfold scalarL
  simp only [Crc.toLong_eq L _ hL h]
  rw [if_neg (by omega)]
  by_cases h0 : len = 0
  · rw [if_pos h0, h0]
  · rw [if_neg h0, if_pos (by omega), Int.toNat_natCast, Nat.add_sub_cancel]

theorem finishL_eq (L : Nat) (hL : 0 < L) (md : Mode) (m : Mem) (src dest len : Nat) (st : State) (h : len < 2 ^ (L - 1)) :
    finishL L md m src dest len st = finish md m src dest len st := by
  unfold finishL finish; rw [scalarL_eq L hL md m src dest len _ h]

theorem loop_ge {σ : Type} (K : Kernel σ) (lim dlim nm k : Nat) (m : Mem) (i p : Nat) (s : σ) (r : KRes) (h : loop K lim dlim nm k m i p s = some r) : i ≤ r.i := by
  induction k generalizing m i p s with
  | zero => simp [loop] at h; rw [← h]
  | succ k ih =>
    rw [loop] at h
    generalize K.iter s (fun j => m (i + j)) = t at h
    by_cases h1 : i + t.reach ≤ lim
    · rw [if_pos h1] at h
      cases hr : t.round with
      | brk nm' => rw [hr] at h; simp at h; rw [← h]
      | next stores adv s' =>
        rw [hr] at h
        simp only at h
        by_cases h2 : (stores.all fun st => decide (p + st.1 + st.2.length ≤ dlim)) = true
        · rw [if_pos h2] at h
          have := ih _ _ _ _ h
          omega
        · rw [if_neg h2] at h; cases h
    · rw [if_neg h1] at h; cases h

theorem kernel_ge {σ : Type} (K : Kernel σ) (md : Mode) (lim dlim : Nat) (m : Mem) (src dLen p : Nat) (esc : Bool) (nm : Nat) (r : KRes)
    (h : kernel K md lim dlim m src dLen p esc nm = some r) : src ≤ r.i := by
  unfold kernel at h
  split at h
  · cases h
  · exact loop_ge _ _ _ _ _ _ _ _ _ _ h

theorem dLenL_eq (L : Nat) (hL : 0 < L) (md : Mode) (w len : Nat) (hw : 0 < w) (hl : len > lenBuffer md w) (h : len < 2 ^ (L - 1)) :
    dLenL L md w len = ((len - lenBuffer md w + (w - 1)) / w * w : Nat) := by
  have hlb : w - 1 ≤ lenBuffer md w := by unfold lenBuffer; omega
  have e : ((Crc.toLong L (len - lenBuffer md w) + ((w : Int) - 1)) / w * w) = (((len - lenBuffer md w + (w - 1)) / w * w : Nat) : Int) := by
    rw [Crc.toLong_eq L _ hL (by omega)]
    push_cast
    rw [Int.natCast_sub (show 1 ≤ w by omega)]; rfl
  unfold dLenL
  rw [e]
  apply wrapLong_eq L hL
  · exact Int.natCast_nonneg _
  · have := Nat.div_mul_le_self (len - lenBuffer md w + (w - 1)) w
    have h2 : (len - lenBuffer md w + (w - 1)) / w * w < 2 ^ (L - 1) := by omega
    exact_mod_cast h2

theorem alignedL_eq {σ : Type} (L : Nat) (hL : 0 < L) (K : Kernel σ) (hw : 0 < K.width) (lax : Bool) (md : Mode) (m : Mem) (src dest len : Nat) (st : State) (h : len < 2 ^ (L - 1)) :
    alignedL L K lax md m src dest len st = aligned K lax md m src dest len st := by
  unfold alignedL aligned
  by_cases h1 : len > lenBuffer md K.width
  · rw [if_pos h1, if_pos h1]
    cases straddle md st fun j => m (src + j) with
    | ended => rfl
    | go nm =>
      simp only [dLenL_eq L hL md K.width len hw h1 h]
      have hpos : 0 < (len - lenBuffer md K.width + (K.width - 1)) / K.width * K.width :=
        Nat.mul_pos (Nat.div_pos (by omega) hw) hw
      rw [if_neg (by omega), if_neg (by omega), Int.toNat_natCast]
      rcases hr : kernel K md (readLimit lax (src + len)) (dest + len) m src ((len - lenBuffer md K.width + (K.width - 1)) / K.width * K.width) dest
        (decide (st = .eq ∨ st = .crlfeq)) nm with _ | r
      · rfl
      · have := kernel_ge _ _ _ _ _ _ _ _ _ _ _ hr
        exact finishL_eq L hL _ _ _ _ _ _ (by omega)
  · rw [if_neg h1, if_neg h1]; exact finishL_eq L hL _ _ _ _ _ _ h

theorem decodeL_eq {σ : Type} (L : Nat) (hL : 0 < L) (K : Kernel σ) (hw : 0 < K.width) (lax : Bool) (md : Mode) (m : Mem) (src dest len : Nat) (st : Option State) (h : len < 2 ^ (L - 1)) :
    decodeL L K lax md m src dest len st = decode K lax md m src dest len st := by
  unfold decodeL decode
  by_cases h1 : len ≤ K.width * 2
  · rw [if_pos h1, if_pos h1]; exact scalarL_eq L hL _ _ _ _ _ _ h
  rw [if_neg h1, if_neg h1]
  by_cases h2 : src % K.width ≠ 0
  · rw [if_pos h2, if_pos h2]
    simp only [scalarL_eq L hL md m src dest (K.width - src % K.width) _ (by omega)]
    rcases scalar md m src dest (K.width - src % K.width) (some (st.getD .crlf)) with _ | r
    · rfl
    · simp only
      rw [alignedL_eq L hL K hw lax md _ _ _ _ _ (by omega)]
  · rw [if_neg h2, if_neg h2]; exact alignedL_eq L hL K hw lax md _ _ _ _ _ h

/-- Two implementations agree on inputs of length `n`. -/
structure Agree (n : Nat) (I I' : M.Impl) : Prop where
  plain : ∀ m src dest, I'.plain m src dest n = I.plain m src dest n
  raw : ∀ m src dest, I'.raw m src dest n = I.raw m src dest n
  endRaw : ∀ m src dest st, I'.endRaw m src dest n st = I.endRaw m src dest n st

theorem implL_eq {σ : Type} (L : Nat) (hL : 0 < L) (K : Mode → Kernel σ) (hw : ∀ md, 0 < (K md).width) (lax : Bool) (n : Nat) (h : n < 2 ^ (L - 1)) : Agree n (impl K lax) (implL L K lax) where
  plain m src dest := by simp only [implL, impl, decodeL_eq L hL _ (hw _) _ _ _ _ _ _ _ h]
  raw m src dest := by simp only [implL, impl, decodeL_eq L hL _ (hw _) _ _ _ _ _ _ _ h]
  endRaw m src dest st := by simp only [implL, impl, decodeL_eq L hL _ (hw _) _ _ _ _ _ _ _ h]

theorem genericL_eq (L : Nat) (hL : 0 < L) (n : Nat) (h : n < 2 ^ (L - 1)) : Agree n M.generic (genericL L) where
  plain m src dest := by simp [genericL, M.generic, scalarL_eq L hL _ _ _ _ _ _ h, scalar]
  raw m src dest := by
    simp only [genericL, M.generic, scalarL_eq L hL _ _ _ _ _ _ h, scalar, Option.map_map]
    congr 1; funext r; simp
  endRaw m src dest st := by simp [genericL, M.generic, scalarL_eq L hL _ _ _ _ _ _ h, scalar]

theorem IsImplL.eq {L : Nat} (hL : 0 < L) {I I' : M.Impl} (hI : IsImplL L I I') (n : Nat) (h : n < 2 ^ (L - 1)) : Agree n I I' := by
  cases hI with
  | generic => exact genericL_eq L hL n h
  | simd hI =>
    cases hI with
    | x86 c hc => exact implL_eq L hL _ (fun md => by simp only [X86.kernel, X86.Cfg.n]; split <;> decide) _ n h
    | neon a64 => exact implL_eq L hL _ (fun md => by simp only [Neon.kernel]; cases a64 <;> decide) _ n h
    | rvv vl hvl junk => exact implL_eq L hL _ (fun md => by simp only [Rvv.kernel]; omega) _ n h

theorem IsImplL.isImpl {L : Nat} {I I' : M.Impl} (hI : IsImplL L I I') : M.IsImpl I := by
  cases hI with
  | generic => exact .generic
  | simd hI =>
    cases hI with
    | x86 c hc => exact .simd (.x86 c hc)
    | neon a64 => exact .simd (.neon a64)
    | rvv _ h junk => exact .simd (.rvv _ h junk)

/-! ### Lengths that do not fit -/

theorem toLong_neg (n : Nat) (h1 : 2 ^ 31 ≤ n) (h2 : n < 2 ^ 32) : Crc.toLong 32 n = (n : Int) - 2 ^ 32 := by
  rw [Crc.toLong, BitVec.toInt_eq_toNat_bmod, BitVec.toNat_ofNat, Nat.mod_eq_of_lt h2]
  simp only [Int.bmod]
  omega

theorem toLong_above (k : Nat) (h : k < 2 ^ 31) : Crc.toLong 32 (2 ^ 32 + k) = k := by
  rw [Crc.toLong, BitVec.toInt_eq_toNat_bmod, BitVec.toNat_ofNat, Nat.add_mod_left, Nat.mod_eq_of_lt (by omega)]
  simp only [Int.bmod]
  omega

theorem wrapLong_range (n : Int) (h1 : -2 ^ 31 ≤ n) (h2 : n < 2 ^ 31) : wrapLong 32 n = n := by
  rw [wrapLong, BitVec.toInt_ofInt]
  simp only [Int.bmod]
  omega

theorem dLenL_neg (md : Mode) (w len : Nat) (hw : 0 < w) (h1 : 2 ^ 31 + lenBuffer md w ≤ len) (h2 : len < 2 ^ 32) :
    dLenL 32 md w len < 0 := by
  have hlb : w - 1 ≤ lenBuffer md w := by unfold lenBuffer; omega
  unfold dLenL
  rw [toLong_neg _ (by omega) (by omega)]
  have hw' : (0 : Int) < w := by exact_mod_cast hw
  have e : (((len - lenBuffer md w : Nat) : Int) - 2 ^ 32) + ((w : Int) - 1) ≤ -1 := by omega
  have e2 : -2 ^ 31 + ((w : Int) - 1) ≤ (((len - lenBuffer md w : Nat) : Int) - 2 ^ 32) + ((w : Int) - 1) := by omega
  generalize (((len - lenBuffer md w : Nat) : Int) - 2 ^ 32) + ((w : Int) - 1) = x at e e2
  have h3 := Int.emod_add_mul_ediv x w
  have h4 := Int.emod_nonneg x (show (w : Int) ≠ 0 by omega)
  have h5 := Int.emod_lt_of_pos x hw'
  rw [Int.mul_comm] at h3
  generalize x / w * w = y at *
  generalize x % w = z at *
  rw [wrapLong_range y (by omega) (by omega)]
  omega

theorem straddle_noEnd (md : Mode) (h : md.searchEnd = false) (st : State) (b : Nat → Byte) : ∃ nm, straddle md st b = .go nm := by
  unfold straddle
  rw [h]
  cases st <;> simp only [Bool.false_eq_true, false_and, if_false] <;> (repeat' split) <;> exact ⟨_, rfl⟩

theorem alignedL_none {σ : Type} (K : Kernel σ) (hw : 0 < K.width) (lax : Bool) (md : Mode) (hmd : md.searchEnd = false) (m : Mem) (src dest len : Nat) (st : State)
    (h1 : 2 ^ 31 + lenBuffer md K.width ≤ len) (h2 : len < 2 ^ 32) : alignedL 32 K lax md m src dest len st = none := by
  unfold alignedL
  obtain ⟨nm, e⟩ := straddle_noEnd md hmd st fun j => m (src + j)
  rw [if_pos (by omega), e]
  simp only
  rw [if_pos (dLenL_neg md K.width len hw h1 h2)]

theorem scalarL_ended (L : Nat) (md : Mode) (hmd : md.searchEnd = false) (m : Mem) (src dest len : Nat) (st : Option State) (r : M.Res)
    (h : scalarL L md m src dest len st = some r) : r.ended = .none := by
  have hs : ∀ src len r, scalar md m src dest len st = some r → r.ended = .none := by
    intro src len r h
    cases md with
    | plain => simp only [scalar, Option.some.injEq] at h; rw [← h]
    | raw =>
      simp only [scalar, Option.map_eq_some_iff] at h
      obtain ⟨a, -, h⟩ := h
      rw [← h]
    | endRaw => cases hmd
  unfold scalarL at h
  simp only at h
  by_cases h1 : Crc.toLong L len = -2 ^ (L - 1)
  · rw [if_pos h1] at h; cases h
  rw [if_neg h1] at h
  by_cases h2 : len = 0
  · rw [if_pos h2] at h; exact hs _ _ _ h
  rw [if_neg h2] at h
  by_cases h3 : 0 < Crc.toLong L len
  · rw [if_pos h3] at h; exact hs _ _ _ h
  rw [if_neg h3] at h
  split at h <;> first | (cases h; done) | (injection h with h; rw [← h])

theorem decodeL_none {σ : Type} (K : Kernel σ) (hw : 0 < K.width) (lax : Bool) (md : Mode) (hmd : md.searchEnd = false) (m : Mem) (src dest len : Nat) (st : Option State)
    (h1 : 2 ^ 31 + 2 * K.width + 1 ≤ len) (h2 : len < 2 ^ 32) : decodeL 32 K lax md m src dest len st = none := by
  have hlb : lenBuffer md K.width ≤ K.width + 1 := by cases md <;> simp [lenBuffer, Mode.searchEnd] at hmd ⊢ <;> omega
  unfold decodeL
  rw [if_neg (by omega)]
  by_cases h : src % K.width ≠ 0
  · rw [if_pos h]
    simp only
    split
    · rfl
    · rename_i r hr
      have := Nat.mod_lt src hw
      rw [if_neg (by simp [scalarL_ended _ _ hmd _ _ _ _ _ _ hr]), alignedL_none K hw lax md hmd _ _ _ _ _ (by omega) (by omega)]
  · rw [if_neg h]; exact alignedL_none K hw lax md hmd _ _ _ _ _ (by omega) h2

theorem IsSimdL.none {I I' : M.Impl} {w : Nat} (hI : IsSimdL 32 I I' w) (m : Mem) (src dest len : Nat) (h1 : 2 ^ 31 + 2 * w + 1 ≤ len) (h2 : len < 2 ^ 32) :
    I'.plain m src dest len = none ∧ I'.raw m src dest len = none := by
  cases hI with
  | x86 c hc =>
    have hw : 0 < c.n := by simp only [X86.Cfg.n]; split <;> decide
    constructor <;> simp only [implL] <;> rw [decodeL_none _ (by simp only [X86.kernel]; omega) _ _ rfl _ _ _ _ _ h1 h2] <;> rfl
  | neon a64 =>
    have hw : 0 < Neon.wid a64 := by cases a64 <;> decide
    constructor <;> simp only [implL] <;> rw [decodeL_none _ hw _ _ rfl _ _ _ _ _ h1 h2] <;> rfl
  | rvv _ hvl junk =>
    constructor <;> simp only [implL] <;> rw [decodeL_none _ (by simp only [Rvv.kernel]; omega) _ _ rfl _ _ _ _ _ h1 h2] <;> rfl

end Dec.Simd

namespace Enc

theorem lastLong_neg (s : List Byte) (h1 : 2 ^ 31 ≤ s.length) (h2 : s.length < 2 ^ 32) : lastLong 32 s = none ∨ lastLong 32 s = some [] := by
  unfold lastLong
  rw [Dec.Simd.toLong_neg _ h1 h2]
  split
  · exact .inl rfl
  · rw [Int.toNat_of_nonpos (by omega)]; simp

theorem genericL_none (ls col : Int) (s : List Byte) (h1 : 2 ^ 31 ≤ s.length) (h2 : s.length < 2 ^ 32) : genericL 32 ls col s true = none := by
  unfold genericL
  rcases lastLong_neg s h1 h2 with e | e <;> rw [e]
  · rfl
  · simp only [Option.bind_some, encodeGeneric, body]
    by_cases hc : col = 0
    · rw [if_pos hc]
    · rw [if_neg hc, outer.eq_def, if_pos rfl]; rfl

theorem genericL_above (ls col : Int) (s t : List Byte) (fin : Bool) (h1 : s.length = 2 ^ 32) (h2 : t.length < 2 ^ 31) : genericL 32 ls col (s ++ t) fin = encodeGeneric ls col t fin := by
  unfold genericL lastLong
  rw [List.length_append, h1, Dec.Simd.toLong_above _ h2, if_neg (by omega), Int.toNat_natCast, Nat.add_sub_cancel, ← h1]
  simp

theorem IsX86L.correct {L : Nat} {I I' : Impl} (hI : IsX86L L I I') : CorrectTo 0 I := by
  cases hI with
  | sse c h m0 => exact simd_correct _ (Simd.run_ok _ (Simd.sse_ok c h)) m0
  | avx2 c m0 => exact simd_correct _ (Simd.run_ok _ (Simd.avx2_ok c)) m0

theorem encodeL_none (K : Simd.Kernel) (m0 : Mem) (ls col : Int) (s : List Byte) (hls : ls < 16) (h1 : 2 ^ 31 ≤ s.length) (h2 : s.length < 2 ^ 32) :
    Simd.encodeL 32 (Simd.run K) m0 ls col s true = none := by
  have hne : s ≠ [] := by rintro rfl; simp at h1
  unfold Simd.encodeL
  rw [if_neg hne]
  by_cases h : ls < 12
  · rw [if_pos h, genericL_none _ _ _ h1 h2]
  · rw [if_neg h, Simd.run, if_pos (.inr hls)]
    simp only [List.drop_zero]
    rcases lastLong_neg s h1 h2 with e | e <;> rw [e]
    simp only [if_true, Simd.rest, Simd.tail, ite_self]
    rfl

theorem IsX86L.none {I I' : Impl} (hI : IsX86L 32 I I') (ls col : Int) (s : List Byte) (hls : ls < 16) (h1 : 2 ^ 31 ≤ s.length) (h2 : s.length < 2 ^ 32) :
    I' ls col s true = none := by
  cases hI <;> exact encodeL_none _ _ _ _ _ hls h1 h2

end Enc
end Yenc
