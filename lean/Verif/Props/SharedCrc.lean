import Verif.Lemmas.SharedCrcFold
import Verif.Lemmas.SharedCrcUtil
import Verif.Props.Shared
import Verif.Props.SharedEnc
import Verif.Props.Crc
import Verif.Props.FromPost
/-! C92: the data changes during the call, in the CRC functions. -/
namespace Yenc.Props
open Yenc Yenc.Shared Yenc.Shared.SCrc Yenc.Spec

variable {p : Buf → BitVec 32 → Prog (BitVec 32)} {mem : Nat → Nat → Byte} {around : Nat → Byte} {mul shift : BitVec 32 → BitVec 32 → BitVec 32}

theorem incr_good (hp : IsIncr p) (B : Buf) (init : BitVec 32) : Good B init (p B init) := by
  cases hp with
  | generic => exact generic_good B init
  | crcutil target => exact Util.good target B init
  | clmul avx => exact X86.good avx B init
  | clmul256 avx => exact X86.good256 avx B init
  | arm L hL => exact Arm.good L hL B init
  | riscv w hw => exact Rv.good w hw B init

/-- A beginning of a copy, each byte taken at some time, can be continued to a whole copy. -/
theorem mixture_extend {n t : Nat} {s : List (Nat × Byte)} {l : List Byte} (h : l.length ≤ n) (hs : Seen s 0 l) (hr : Reads mem t s) :
    ∃ L, Mixture mem n L ∧ l <+: L := by
  refine ⟨l ++ (List.range (n - l.length)).map fun k => mem 0 (l.length + k), ⟨by simp; omega, fun k b hk => ?_⟩, List.prefix_append _ _⟩
  rcases Nat.lt_or_ge k l.length with hl | hl
  · rw [List.getElem?_append_left hl] at hk
    have := hs k b hk
    rw [Nat.zero_add] at this
    obtain ⟨τ, _, h2⟩ := hr k b this
    exact ⟨τ, h2⟩
  · rw [List.getElem?_append_right hl, List.getElem?_map] at hk
    rcases hk2 : (List.range (n - l.length))[k - l.length]? with _ | j
    · rw [hk2] at hk; cases hk
    · rw [hk2] at hk
      obtain ⟨_, hj⟩ := List.getElem?_eq_some_iff.mp hk2
      rw [List.getElem_range] at hj
      simp only [Option.map_some, Option.some.injEq] at hk
      exact ⟨0, by rw [← hk, ← hj]; congr 1; omega⟩

/-- The only copy of data that does not change is the data. -/
theorem mixture_const {data L : List Byte} (h : Mixture mem data.length L) (hc : ∀ τ k b, data[k]? = some b → mem τ k = b) : L = data := by
  obtain ⟨h1, h2⟩ := h
  apply List.ext_getElem?
  intro k
  rcases hk : L[k]? with _ | b
  · rw [List.getElem?_eq_none_iff] at hk
    rw [List.getElem?_eq_none (by omega)]
  · obtain ⟨τ, rfl⟩ := h2 k b hk
    obtain ⟨hlt, _⟩ := List.getElem?_eq_some_iff.mp hk
    have : data[k]? = some data[k] := List.getElem?_eq_getElem (by omega)
    rw [this, hc τ k _ this]

/-- The CRC function behind the bindings. -/
theorem crcImpl_incr (hp : IsIncr p) (addr : Nat) (data : List Byte) (init : BitVec 32) :
    ∃ L r, Mixture mem data.length L ∧ (crcImpl mem around p mul shift).incr addr data init = some r ∧ IsCrc32 init L r := by
  obtain ⟨r, t, s, h1, ⟨l, h2, h3, h4⟩, h5⟩ := (incr_good hp ⟨addr, data.length, around⟩ init).sound mem 0 (by intro i b h; simp at h)
  obtain ⟨L, g1, g2⟩ := mixture_extend h2 h3 h5
  exact ⟨L, r, g1, by simp only [crcImpl, h1, Option.map_some], h4 ⟨addr, L, around⟩ ⟨rfl, g1.1, g2⟩⟩

/-- `crc32` while the data changes, in every implementation: it returns, without touching anything outside the data (apart from aligned loads that begin in it), and the result is the CRC-32 of
some copy of the data, each byte taken at some time during the call. -/
theorem C92_crc32 (hp : IsIncr p) (addr : Nat) (data : List Byte) :
    ∃ L b r, Mixture mem data.length L ∧ Crc.apiCrc32 (crcImpl mem around p mul shift) addr [.buffer data] = .ret b ∧ CrcBuf b r ∧ IsCrc32 0 L r := by
  obtain ⟨L, r, h1, h2, h3⟩ := crcImpl_incr (mem := mem) (around := around) (mul := mul) (shift := shift) hp addr data 0
  exact ⟨L, _, r, h1, by simp only [Crc.apiCrc32, Crc.initArg, Outcome.bind, h2], Crc.packCrc_buf r, h3⟩

/-- The same with an initial checksum. -/
theorem C92_crc32_init (hp : IsIncr p) (addr : Nat) (data ib : List Byte) (init : BitVec 32) (hib : CrcBuf ib init) :
    ∃ L b r, Mixture mem data.length L ∧ Crc.apiCrc32 (crcImpl mem around p mul shift) addr [.buffer data, .buffer ib] = .ret b ∧ CrcBuf b r ∧ IsCrc32 init L r := by
  obtain ⟨L, r, h1, h2, h3⟩ := crcImpl_incr (mem := mem) (around := around) (mul := mul) (shift := shift) hp addr data init
  refine ⟨L, _, r, h1, ?_, Crc.packCrc_buf r, h3⟩
  simp only [Crc.apiCrc32, Crc.initArg, if_neg (show ¬ ib.length ≠ 4 by simp [hib.1]), Crc.readCrc_eq hib, Outcome.bind, h2]

/-- If the data does not change, the result is the one of every implementation on data that does not change (C25). -/
theorem C92_unchanged (hp : IsIncr p) {impl : Crc.Impl} (hi : Crc.IsImpl impl) (addr addr' : Nat) (data : List Byte) (hc : ∀ τ k b, data[k]? = some b → mem τ k = b) :
    Crc.apiCrc32 (crcImpl mem around p mul shift) addr [.buffer data] = Crc.apiCrc32 impl addr' [.buffer data] := by
  obtain ⟨L, r, h1, h2, h3⟩ := crcImpl_incr (mem := mem) (around := around) (mul := mul) (shift := shift) hp addr data 0
  have hL := mixture_const h1 hc
  subst hL
  obtain ⟨r', g1, g2⟩ := hi.incr.spec addr' L 0
  simp only [Crc.apiCrc32, Crc.initArg, Outcome.bind, h2, g1, (C25_crc32_unique 0 L).unique h3 g2]

/-! ## A post made of data that changes -/

/-- The encoders whose result for data that changes is an encoding of a copy of it (C89, C91): the portable one, and the vectorised ones whose loads agree. -/
inductive CopyEnc (mem : Nat → Nat → Byte) : Enc.Impl → Prop
  | portable : CopyEnc mem (Shared.encImpl mem)
  | simd (K : SimdEnc.KernelProg) (hK : SimdEnc.IsEnc true K) (m0 : Mem) : CopyEnc mem (SimdEnc.encImpl mem K m0)

theorem apiEncode_col0 (enc : Enc.Impl) (d : List Byte) (ls : Nat) (h1 : 1 ≤ ls) (h2 : ls + 6 < 2 ^ 31) :
    Enc.apiEncode enc [.buffer d, .int ls] = Enc.apiEncode enc [.buffer d, .int ls, .int ((0 : Nat) : Int)] := by
  unfold Enc.apiEncode
  have h4 := Enc.lineArgs_eq ls 0 h1 (by omega) (by omega) []
  have h5 : Enc.lineArgs [.int ls] = .ret ((ls : Int), 0) := by
    have h6 : ¬ ((ls : Int) = 0) := by omega
    have h7 : ¬ ((ls : Int) < 0) := by omega
    simp only [Enc.lineArgs, argToInt, Outcome.bind, toInt32_of_lt ls (by omega), if_neg h6, if_neg h7]
  simp only [h5, h4]
  rfl

theorem CopyEnc.encode {enc : Enc.Impl} (he : CopyEnc mem enc) (d : List Byte) (ls : Nat) (h1 : 1 ≤ ls) (h2 : ls + 6 < 2 ^ 31) :
    ∃ L body, Mixture mem d.length L ∧ Enc.apiEncode enc [.buffer d, .int ls] = .ret body ∧ yDecode body = L := by
  rw [apiEncode_col0 enc d ls h1 h2]
  cases he with
  | portable =>
    obtain ⟨L, g1, g2⟩ := C89_encode mem d ls 0 h1 h2 (by omega)
    exact ⟨L, _, g1, g2, Enc.yDecode_encode ls true 0 L⟩
  | simd K hK m0 =>
    obtain ⟨L, o, c, g1, g2, _, g3, _⟩ := C91_encode_copy hK mem m0 d ls 0 h1 h2 (by omega)
    exact ⟨L, _, g1, g2, g3⟩

open Yenc.Js in
/-- A single-part post made while the data changes: `crc32` reads the data first, `encode` after it, so the post has the form of a post, its data section is an encoding of one copy of the data, and its
checksum the CRC-32 of another (`memC`, `memE`: the data at the times of the two calls). -/
theorem C92_post (hp : IsIncr p) {memC memE : Nat → Nat → Byte} {enc : Enc.Impl} (he : CopyEnc memE enc) (dec : Dec.Impl) (addr : List Byte → Nat) (name : Str) (ls parts : Nat)
    (h1 : 1 ≤ ls) (h2 : ls + 6 < 2 ^ 31) (d : List Byte) (hparts : parts ≤ 1) :
    ∃ L L' nm body crc, ((multiPost name d.length parts ls).encode ⟨enc, dec, crcImpl memC around p mul shift, addr⟩ d).2 = .ret (singlePost ls d.length nm body crc) ∧
      Mixture memE d.length L ∧ yDecode body = L ∧ Mixture memC d.length L' ∧ IsCrc32 0 L' crc := by
  obtain ⟨L, body, e1, e2, e3⟩ := he.encode d ls h1 h2
  obtain ⟨L', b, r, g1, g2, g3, g4⟩ := C92_crc32 (mem := memC) (around := around) (mul := mul) (shift := shift) hp (addr d) d
  refine ⟨L, L', fileName name, body, r, ?_, e1, e3, g1, g4⟩
  have h3 : ¬ ls = 0 := by omega
  have h4 : ¬ parts > 1 := by omega
  have e : text "\r\n" = [CR, LF] := by decide
  simp only [multiPost, if_neg h3, if_neg h4, YEnc.encode, YEnc.encodeSingle, Lib.crc32, e2, g2]
  simp only [ne_eq, not_true_eq_false, if_false, singleText, singlePost, text_append, text_toString, text_hex8 _ _ g3, e, ascii_append, List.append_assoc]
  simp only [text_lit]

/-- The byte changes between the two calls: the first read is the one of `crc32`. -/
def lateMem (t _i : Nat) : Byte := if t = 0 then 65#8 else 66#8

open Yenc.Js in
/-- Then the post carries a checksum that its data does not have: `from_post` warns. -/
theorem C92_post_mismatch :
    let warnings := fun post => match fromPost genericLib natEnv (post ++ [CR, LF]) false with | .ret (.ok pr) => some (pr.data, pr.warnings) | _ => none
    ((multiPost (lit "n") 1 1 128).encode ⟨Shared.encImpl fun t => lateMem (t + 1), Dec.generic, crcImpl lateMem (fun _ => 0#8) generic Crc.multiply Crc.shift, fun _ => 0⟩ [0#8]).2 =
        .ret (text "=ybegin line=128 size=1 name=n\r\nl\r\n=yend size=1 crc32=d3d99e8b") ∧
      warnings (text "=ybegin line=128 size=1 name=n\r\nl\r\n=yend size=1 crc32=d3d99e8b") = some (some [66#8], ["crc32_mismatch"]) := by
  decide +kernel

/-! ## Examples -/

/-- Bytes that change with every read. -/
def counter (t i : Nat) : Byte := BitVec.ofNat 8 (7 * t + i)

/-- Nine bytes, at an odd address: the result is the CRC-32 of the bytes as they were loaded. -/
example : Crc.apiCrc32 (crcImpl counter (fun _ => 0#8) generic Crc.multiply Crc.shift) 3 [.buffer (List.replicate 9 0#8)] =
    Crc.apiCrc32 Crc.genericImpl 0 [.buffer ((List.range 9).map fun k => BitVec.ofNat 8 (8 * k))] := by decide +kernel

example : IsIncr (X86.crcFold false) := .clmul false

example : ∀ τ k b, (List.replicate 3 7#8)[k]? = some b → (fun _ _ => 7#8 : Nat → Nat → Byte) τ k = b := by
  intro τ k b h
  rw [List.getElem?_replicate] at h
  split at h
  · exact Option.some.inj h
  · cases h

end Yenc.Props
