import Verif.Props.SharedCrc
/-! C92, posts in several parts: the data of each part changes while the part is made. -/
namespace Yenc.Props
open Yenc Yenc.Shared Yenc.Shared.SCrc Yenc.Spec Yenc.Js

/-- A call of `encode` during which the data changes: the data when the call is made (only its length matters), the bytes as `crc32` and then `encode` find them, and where the data is. -/
structure ChangingCall where
  data : List Byte
  memC : Nat → Nat → Byte
  memE : Nat → Nat → Byte
  around : Nat → Byte
  enc : Enc.Impl
  addr : List Byte → Nat

/-- The library as it acts in such a call. -/
def ChangingCall.lib (c : ChangingCall) (dec : Dec.Impl) (p : Buf → BitVec 32 → Prog (BitVec 32)) (impl : Crc.Impl) : Lib :=
  ⟨c.enc, dec, crcImpl c.memC c.around p impl.multiply impl.shift, c.addr⟩

/-- One call after the other, with one encoder. -/
def encodeChanging (dec : Dec.Impl) (p : Buf → BitVec 32 → Prog (BitVec 32)) (impl : Crc.Impl) : YEnc → List ChangingCall → List (Outcome (List Byte))
  | _, [] => []
  | e, c :: cs => (e.encode (c.lib dec p impl) c.data).2 :: encodeChanging dec p impl (e.encode (c.lib dec p impl) c.data).1 cs

variable {name : Str} {size parts ls : Nat}

theorem enc_copy {lib : Lib} {d L body : List Byte} (hcrc : lib.crc32 d = .ret (Crc.packCrc (Crc.crc1 0 L))) (hL : L.length = d.length)
    (henc : Enc.apiEncode lib.enc [.buffer d, .int ls] = .ret body)
    (hcomb : ∀ a b : List Byte, b.length < 2 ^ 63 → Crc.apiCombine lib.crc [.buffer (Crc.packCrc (Crc.crc1 0 a)), .buffer (Crc.packCrc (Crc.crc1 0 b)), .int b.length] = .ret (Crc.packCrc (Crc.crc1 0 (a ++ b))))
    (hs : size < 2 ^ 63) {e : YEnc} {calls : Nat} {acc : List Byte}
    (hi : EncInv name size parts ls e calls acc) (ha : accepts size parts calls acc.length d.length = true) :
    (e.encode lib d).2 = .ret (partPost (calls + 1) parts ls size (fileName name) acc.length d.length body (Crc.crc1 0 L) (if calls + 1 = parts then some (Crc.crc1 0 (acc ++ L)) else none)) ∧
      EncInv name size parts ls (e.encode lib d).1 (calls + 1) (acc ++ L) := by
  simp only [accepts, Bool.and_eq_true, Bool.or_eq_true, decide_eq_true_eq] at ha
  obtain ⟨⟨ha1, ha2⟩, ha3⟩ := ha
  have g1 : ¬ calls + 1 > parts := by omega
  have g2 : ¬ acc.length + d.length > size := by omega
  have hc := hcomb acc L (by omega)
  rw [hL] at hc
  by_cases hl : calls + 1 = parts
  · have g3 : acc.length + d.length = size := by simpa [hl] using ha3
    have key : e.encode lib d = ({ e with part := calls + 1, crc := Crc.packCrc (Crc.crc1 0 (acc ++ L)), yInfo := none, pos := acc.length + d.length },
        .ret (partPost (calls + 1) parts ls size (fileName name) acc.length d.length body (Crc.crc1 0 L) (some (Crc.crc1 0 (acc ++ L))))) := by
      simp only [YEnc.encode, hi.mode, YEnc.encodeMulti, hi.part, hi.hparts, hi.pos, hi.hsize, if_neg g1, if_neg g2, YEnc.sums, hcrc,
        hi.crc (.inl ha1), hc, if_pos hl, g3, gt_iff_lt, Nat.lt_irrefl, ne_eq, not_true_eq_false, if_false, YEnc.finish, hi.info ha1, hi.hline,
        henc, (partText_eq _ _ _ _ _ _ _ _ _).2]
    rw [key, if_pos hl]
    refine ⟨rfl, ?_⟩
    constructor <;> simp [hi.hsize, hi.hparts, hi.hline, hi.mode, g3, hL]
    omega
  · have key : e.encode lib d = ({ e with part := calls + 1, crc := Crc.packCrc (Crc.crc1 0 (acc ++ L)), pos := acc.length + d.length },
        .ret (partPost (calls + 1) parts ls size (fileName name) acc.length d.length body (Crc.crc1 0 L) none)) := by
      simp only [YEnc.encode, hi.mode, YEnc.encodeMulti, hi.part, hi.hparts, hi.pos, hi.hsize, if_neg g1, if_neg g2, YEnc.sums, hcrc,
        hi.crc (.inl ha1), hc, if_neg hl, YEnc.finish, hi.info ha1, hi.hline,
        henc, (partText_eq _ _ _ _ _ _ _ _ _).1]
    rw [key, if_neg hl]
    refine ⟨rfl, ?_⟩
    constructor <;> simp [hi.hsize, hi.hparts, hi.hline, hi.mode, hi.info ha1, hL]
    omega

/-- The bytes of the data of a call as `encode` (`forEnc`) and `crc32` (`forCrc`) took them. -/
structure Copies where
  forEnc : List Byte
  forCrc : List Byte

/-- `c` are copies of the data of a call, each byte as it was at some time during the call. -/
def Copies.Of (k : Copies) (c : ChangingCall) : Prop := Mixture c.memE c.data.length k.forEnc ∧ Mixture c.memC c.data.length k.forCrc

/-- C92: a file posted in several parts while its data changes. Every part is a well-formed part with the right numbers; its data section encodes a copy of the data as it was at some time, its `pcrc32` is the
checksum of a copy, and the `crc32` of the last part is the checksum of the file made of the latter copies: the checksums always fit together, even if none of them fits the data. -/
theorem C92_post_parts {p : Buf → BitVec 32 → Prog (BitVec 32)} (hp : IsIncr p) {impl : Crc.Impl} (hi : Crc.IsImpl impl) (dec : Dec.Impl) (name : Str) (ls : Nat) (h1 : 1 ≤ ls) (h2 : ls + 6 < 2 ^ 31)
    (cs : List ChangingCall) (hcs : 1 < cs.length) (he : ∀ c ∈ cs, CopyEnc c.memE c.enc) (hs : (cs.map (·.data.length)).sum < 2 ^ 63) :
    ∃ (nm : List Byte) (ks : List Copies) (whole : BitVec 32), List.Forall₂ Copies.Of ks cs ∧ IsCrc32 0 (ks.map (·.forCrc)).flatten whole ∧
      ∀ i (hc : i < cs.length) (hk : i < ks.length), ∃ body pcrc,
        (encodeChanging dec p impl (multiPost name (cs.map (·.data.length)).sum cs.length ls) cs)[i]? =
          some (.ret (partPost (i + 1) cs.length ls (cs.map (·.data.length)).sum nm ((cs.take i).map (·.data.length)).sum cs[i].data.length body pcrc (if i + 1 = cs.length then some whole else none))) ∧
        yDecode body = ks[i].forEnc ∧ IsCrc32 0 ks[i].forCrc pcrc := by
  have hcomb : ∀ (c : ChangingCall) (a b : List Byte), b.length < 2 ^ 63 →
      Crc.apiCombine (c.lib dec p impl).crc [.buffer (Crc.packCrc (Crc.crc1 0 a)), .buffer (Crc.packCrc (Crc.crc1 0 b)), .int b.length] = .ret (Crc.packCrc (Crc.crc1 0 (a ++ b))) := by
    intro c a b hb
    have := C27_combine hi 0 0 0 a b _ _ [] hb (Crc.apiCrc32_nil hi.correct 0 a) (Crc.apiCrc32_nil hi.correct 0 b)
    rw [Crc.apiCrc32_nil hi.correct] at this
    rw [← this]; rfl
  have key : ∀ (cs : List ChangingCall) (e : YEnc) (calls size parts : Nat) (acc : List Byte), EncInv name size parts ls e calls acc → size < 2 ^ 63 → calls + cs.length = parts →
      acc.length + (cs.map (·.data.length)).sum = size → (∀ c ∈ cs, CopyEnc c.memE c.enc) →
      ∃ ks : List Copies, List.Forall₂ Copies.Of ks cs ∧
        ∀ i (hc : i < cs.length) (hk : i < ks.length), ∃ body pcrc,
        (encodeChanging dec p impl e cs)[i]? =
          some (.ret (partPost (calls + i + 1) parts ls size (fileName name) (acc.length + ((cs.take i).map (·.data.length)).sum) cs[i].data.length body pcrc
            (if calls + i + 1 = parts then some (Crc.crc1 0 (acc ++ (ks.map (·.forCrc)).flatten)) else none))) ∧
        yDecode body = ks[i].forEnc ∧ IsCrc32 0 ks[i].forCrc pcrc := by
    intro cs
    induction cs with
    | nil => intro e calls size parts acc _ _ _ _ _; exact ⟨[], .nil, fun i hc => absurd hc (by simp)⟩
    | cons c cs ih =>
      intro e calls size parts acc hinv hsz hcalls hsum he
      simp only [List.map_cons, List.sum_cons, List.length_cons] at hsum hcalls
      obtain ⟨L, body, e1, e2, e3⟩ := (he c (by simp)).encode c.data ls h1 h2
      obtain ⟨L', b, r, g1, g2, g3, g4⟩ := C92_crc32 (mem := c.memC) (around := c.around) (mul := impl.multiply) (shift := impl.shift) hp (c.addr c.data) c.data
      have g5 : r = Crc.crc1 0 L' := Crc.isCrc32_iff_eq.1 g4
      have g6 : (c.lib dec p impl).crc32 c.data = .ret (Crc.packCrc (Crc.crc1 0 L')) := by
        rw [← g5, g3.pack]; exact g2
      have hL : L'.length = c.data.length := g1.1
      have hacc : accepts size parts calls acc.length c.data.length = true := by
        simp only [accepts, Bool.and_eq_true, Bool.or_eq_true, decide_eq_true_eq]
        refine ⟨⟨by omega, by omega⟩, ?_⟩
        rcases Nat.eq_zero_or_pos cs.length with h0 | h0
        · right
          rw [List.length_eq_zero_iff.1 h0] at hsum
          simpa using hsum
        · left; omega
      obtain ⟨f1, f2⟩ := enc_copy (lib := c.lib dec p impl) g6 hL e2 (hcomb c) hsz hinv hacc
      obtain ⟨ks, k1, k2⟩ := ih _ (calls + 1) size parts (acc ++ L') f2 hsz (by omega) (by rw [List.length_append, hL]; omega) (fun c hc => he c (by simp [hc]))
      refine ⟨⟨L, L'⟩ :: ks, .cons ⟨e1, g1⟩ k1, fun i hc hk => ?_⟩
      have hlen : ks.length = cs.length := k1.length_eq
      rcases i with _ | i
      · refine ⟨body, Crc.crc1 0 L', ?_, e3, Crc.isCrc32_iff_eq.2 rfl⟩
        simp only [encodeChanging, List.getElem?_cons_zero, f1, List.take_zero, List.map_nil, List.sum_nil, Nat.add_zero, List.getElem_cons_zero]
        split
        · have : ks = [] := List.length_eq_zero_iff.1 (by omega)
          subst this
          simp
        · rfl
      · obtain ⟨body', pcrc, m1, m2, m3⟩ := k2 i (by simpa using hc) (by simpa using hk)
        refine ⟨body', pcrc, ?_, m2, m3⟩
        simp only [encodeChanging, List.getElem?_cons_succ, m1, List.take_succ_cons, List.map_cons, List.sum_cons, List.getElem_cons_succ, List.length_append, hL, List.flatten_cons, List.append_assoc]
        rw [show calls + 1 + i + 1 = calls + (i + 1) + 1 by omega, show acc.length + c.data.length + ((cs.take i).map (·.data.length)).sum = acc.length + (c.data.length + ((cs.take i).map (·.data.length)).sum) by omega]
  obtain ⟨ks, k1, k2⟩ := key cs (multiPost name (cs.map (·.data.length)).sum cs.length ls) 0 _ cs.length [] (EncInv.init hcs h1) hs (by omega) (by simp) he
  refine ⟨fileName name, ks, _, k1, Crc.isCrc32_iff_eq.2 rfl, fun i hc hk => ?_⟩
  obtain ⟨body, pcrc, m1, m2, m3⟩ := k2 i hc hk
  refine ⟨body, pcrc, ?_, m2, m3⟩
  simpa using m1

/-- Non-vacuity: two parts of one byte each, which changes between the two reads. -/
example := C92_post_parts IsIncr.generic (.generic) Dec.generic (lit "n") 128 (by decide) (by decide)
  [⟨[0#8], lateMem, fun t => lateMem (t + 1), fun _ => 0#8, Shared.encImpl fun t => lateMem (t + 1), fun _ => 0⟩,
   ⟨[0#8], lateMem, fun t => lateMem (t + 1), fun _ => 0#8, Shared.encImpl fun t => lateMem (t + 1), fun _ => 0⟩] (by decide)
  (by intro c hc; simp only [List.mem_cons, List.not_mem_nil, or_false, or_self] at hc; subst hc; exact .portable) (by decide)

end Yenc.Props
