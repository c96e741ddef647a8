import Verif.Props.Encode
import Verif.Props.Decode
import Verif.Props.Crc
/-!
Property C85: receiving an encoded stream piece by piece with `decodeChunk` and `crc32`.
-/
namespace Yenc.Props
open Spec
open Yenc.Crc (apiCrc32)

variable {eimpl : Enc.Impl} {dimpl : Dec.Impl} {cimpl : Crc.Impl}

/-- What a download has collected. -/
structure Got where
  data : List Byte
  crc : List Byte
  ended : Bool
  state : List Byte
  /-- the bytes that arrived and were not read -/
  rest : List Byte
deriving DecidableEq, Repr

/-- A download (a caller's program): every piece that arrives goes to `decodeChunk` with the last state, what it returns to `crc32` with the last CRC;
once `ended` is set, the rest is kept for whoever reads the trailer.  `addr` is where the library's results are, piece by piece. -/
def receive (dimpl : Dec.Impl) (cimpl : Crc.Impl) (addr : Nat → Nat) : Nat → List (List Byte) → List Byte → List Byte → Outcome Got
  | _, [], s, crc => .ret ⟨[], crc, false, s, []⟩
  | i, c :: cs, s, crc =>
    (Js.decodeChunk dimpl c .undef (.str s)).bind fun r =>
    (apiCrc32 cimpl (addr i) [.buffer r.output, .buffer crc]).bind fun crc =>
    if r.ended then .ret ⟨r.output, crc, true, r.state, c.drop r.read.toNat ++ cs.flatten⟩
    else (receive dimpl cimpl addr (i + 1) cs r.state crc).bind fun g => .ret { g with data := r.output ++ g.data }

theorem receive_eq (hd : Dec.IsImpl dimpl) (hc : Crc.IsImpl cimpl) (addr : Nat → Nat) (i : Nat) (cs : List (List Byte))
    (hl : ∀ c ∈ cs, c.length < 2 ^ 31) (st : Dec.State) (ib : List Byte) (v : BitVec 32) (hv : CrcBuf ib v) :
    receive dimpl cimpl addr i cs st.str ib =
      .ret ⟨(Dec.run st cs.flatten).out, Crc.packCrc (Crc.crc1 v (Dec.run st cs.flatten).out), (Dec.run st cs.flatten).ended ≠ .none,
        (Dec.run st cs.flatten).str, (Dec.run st cs.flatten).rest⟩ := by
  induction cs generalizing st ib v i with
  | nil => simp [receive, Dec.run, Dec.Res.str, Crc.crc1, hv.pack]
  | cons c cs ih =>
    rw [receive, decodeChunk_str hd c (hl c (by simp)) st]
    simp only [Outcome.bind]
    rw [Crc.apiCrc32_init hc.correct _ _ hv]
    by_cases he : (Dec.run st c).ended = .none
    · simp only
      rw [if_neg (by simp [chunkRes, he])]
      have hs : (chunkRes st c).state = (Dec.run st c).state.str := by simp [chunkRes, Dec.Res.str, he]
      rw [hs, ih (i + 1) (fun x hx => hl x (by simp [hx])) _ _ _ (Crc.packCrc_buf _)]
      simp only [chunkRes, List.flatten_cons, Dec.run_append st c cs.flatten he, Dec.Res.pre, Dec.Res.str, Crc.crc1_append]
    · simp only
      rw [if_pos (by simp [chunkRes, he])]
      have hr : c.drop (chunkRes st c).read.toNat = (Dec.run st c).rest := by
        obtain ⟨q, hq⟩ := Dec.run_consumed st c
        have hlen := congrArg List.length hq
        rw [List.length_append] at hlen
        have : (chunkRes st c).read.toNat = q.length := by
          simp only [chunkRes, Int.toNat_natCast]
          omega
        rw [this]
        conv_lhs => rw [hq]
        simp
      rw [hr]
      simp [chunkRes, List.flatten_cons, Dec.run_append_ended st c cs.flatten he, Dec.Res.str, he]

/-- The two ways in which the data of an article ends, and what `decodeChunk` leaves as the state. -/
def IsEnd (e : List Byte) : Prop := e = [CR, LF, EQ, LY] ∨ e = [CR, LF, DOT, CR, LF]

theorem run_end (ls : Nat) (h1 : 1 ≤ ls) (d e t : List Byte) (h : IsEnd e) :
    ∃ r, Dec.run .crlf (Spec.encode ls true 0 d ++ (e ++ t)) = r ∧ r.out = d ∧ r.ended ≠ .none ∧ r.str = e ∧ r.rest = t := by
  have h0 := Enc.run_encode ls h1 true 0 d .crlf (Or.inl ⟨rfl, rfl⟩)
  refine ⟨_, rfl, ?_⟩
  rw [Dec.run_append _ _ _ (by rw [h0]), h0]
  rcases h with rfl | rfl
  · by_cases hd : d = []
    · simp [hd, Dec.run, Dec.step, Dec.stepNone, Dec.Res.pre, Dec.Res.str, CR, LF, DOT, EQ, LY]
    · simp [hd, Dec.run, Dec.step, Dec.stepNone, Dec.Res.pre, Dec.Res.str, CR, LF, DOT, EQ, LY]
  · by_cases hd : d = []
    · simp [hd, Dec.run, Dec.step, Dec.stepNone, Dec.Res.pre, Dec.Res.str, CR, LF, DOT, EQ, LY]
    · simp [hd, Dec.run, Dec.step, Dec.stepNone, Dec.Res.pre, Dec.Res.str, CR, LF, DOT, EQ, LY]

/-- C85: whatever the pieces are in which an encoded body and what follows it arrive, the download collects exactly the data, its CRC-32, and stops right
behind the start of the trailer (or the end of the article): not a byte of what follows is lost or decoded. -/
theorem C85_received (he : Enc.IsImpl eimpl) (hd : Dec.IsImpl dimpl) (hc : Crc.IsImpl cimpl) (d : List Byte) (ls : Nat) (h1 : 1 ≤ ls) (h2 : ls + 6 < 2 ^ 31)
    (addr : Nat → Nat) (i a : Nat) (e t : List Byte) (hE : IsEnd e) (cs : List (List Byte)) (hl : ∀ c ∈ cs, c.length < 2 ^ 31) :
    ∃ y crc, Enc.apiEncode eimpl [.buffer d, .int ls, .int 0] = .ret y ∧ apiCrc32 cimpl a [.buffer d] = .ret crc ∧
      (cs.flatten = y ++ e ++ t →
        receive dimpl cimpl addr i cs [CR, LF] [0#8, 0#8, 0#8, 0#8] = .ret ⟨d, crc, true, e, t⟩) := by
  have h3 := C03_encode_reference he d ls 0 h1 h2 (by omega)
  rw [Nat.cast_zero] at h3
  refine ⟨_, _, h3, Crc.apiCrc32_nil hc.correct a d, fun h => ?_⟩
  have z : CrcBuf [0#8, 0#8, 0#8, 0#8] 0 := Crc.packCrc_buf 0
  have := receive_eq hd hc addr i cs hl .crlf _ _ z
  obtain ⟨r, hr, a1, a2, a3, a4⟩ := run_end ls h1 d e t hE
  rw [show Dec.State.crlf.str = [CR, LF] from rfl, h, List.append_assoc, hr, a1, a3, a4] at this
  rw [this]
  simp [a2]

/-- C85: a download cut off anywhere before that has a prefix of the data and the CRC-32 of that prefix; and continued (at any later time, in another
process) from its state and CRC with what is missing, it completes the data and its CRC-32. -/
theorem C85_resumed (he : Enc.IsImpl eimpl) (hd : Dec.IsImpl dimpl) (hc : Crc.IsImpl cimpl) (d : List Byte) (ls : Nat) (h1 : 1 ≤ ls) (h2 : ls + 6 < 2 ^ 31)
    (addr : Nat → Nat) (i a : Nat) (e t : List Byte) (hE : IsEnd e) (cs : List (List Byte)) (hl : ∀ c ∈ cs, c.length < 2 ^ 31) (b : List Byte) (hb : b ≠ []) :
    ∃ y crc, Enc.apiEncode eimpl [.buffer d, .int ls, .int 0] = .ret y ∧ apiCrc32 cimpl a [.buffer d] = .ret crc ∧
      (cs.flatten ++ b = y ++ e → ∃ g, receive dimpl cimpl addr i cs [CR, LF] [0#8, 0#8, 0#8, 0#8] = .ret g ∧
        g.ended = false ∧ g.data <+: d ∧ apiCrc32 cimpl a [.buffer g.data] = .ret g.crc ∧
        ∀ i' cs', (∀ c ∈ cs', c.length < 2 ^ 31) → cs'.flatten = b ++ t →
          ∃ d2, d = g.data ++ d2 ∧ receive dimpl cimpl addr i' cs' g.state g.crc = .ret ⟨d2, crc, true, e, t⟩) := by
  have h3 := C03_encode_reference he d ls 0 h1 h2 (by omega)
  rw [Nat.cast_zero] at h3
  refine ⟨_, _, h3, Crc.apiCrc32_nil hc.correct a d, fun h => ?_⟩
  have z : CrcBuf [0#8, 0#8, 0#8, 0#8] 0 := Crc.packCrc_buf 0
  have g := receive_eq hd hc addr i cs hl .crlf _ _ z
  rw [show Dec.State.crlf.str = [CR, LF] from rfl] at g
  obtain ⟨r, hr, a1, a2, a3, a4⟩ := run_end ls h1 d e t hE
  have hne : (Dec.run .crlf cs.flatten).ended = .none := by
    by_contra hx
    have := Dec.run_append_ended .crlf cs.flatten (b ++ t) hx
    rw [← List.append_assoc, h, List.append_assoc, hr] at this
    have := congrArg (fun r => r.rest.length) this
    simp only [a4, List.length_append] at this
    have : 0 < b.length := List.length_pos_of_ne_nil hb
    omega
  refine ⟨_, g, by simp [hne], ?_⟩
  have hr2 := Dec.run_append .crlf cs.flatten (b ++ t) hne
  rw [← List.append_assoc, h, List.append_assoc, hr] at hr2
  have ho : d = (Dec.run .crlf cs.flatten).out ++ (Dec.run (Dec.run .crlf cs.flatten).state (b ++ t)).out := by
    rw [← a1, hr2]; rfl
  refine ⟨⟨_, ho.symm⟩, Crc.apiCrc32_nil hc.correct a _, fun i' cs' hl' hb' => ⟨_, ho, ?_⟩⟩
  have g2 := receive_eq hd hc addr i' cs' hl' (Dec.run .crlf cs.flatten).state _ _ (Crc.packCrc_buf (Crc.crc1 0 (Dec.run .crlf cs.flatten).out))
  have hs : (Dec.run .crlf cs.flatten).str = (Dec.run .crlf cs.flatten).state.str := by simp [Dec.Res.str, hne]
  simp only [hs]
  rw [g2, hb']
  have e1 : (Dec.run (Dec.run .crlf cs.flatten).state (b ++ t)).ended = r.ended := by rw [hr2]; rfl
  have e2 : (Dec.run (Dec.run .crlf cs.flatten).state (b ++ t)).str = e := by rw [← a3, hr2]; rfl
  have e3 : (Dec.run (Dec.run .crlf cs.flatten).state (b ++ t)).rest = t := by
    have := congrArg Dec.Res.rest hr2
    rw [a4] at this; exact this.symm
  rw [e1, e2, e3, Crc.crc1_append, ← ho]
  simp [a2]

-- `.` and a critical byte; the pieces cut the escape sequence, the line break and the trailer's first bytes; the trailer's rest is left alone
example : receive Dec.generic Crc.genericImpl (fun _ => 0) 0
    [[0x3d#8], [0x6e#8, CR], [LF], [0x2e#8, 0x2e#8, CR], [LF, EQ], [LY, 0x65#8], [0x6e#8, 0x64#8]] [CR, LF] [0#8, 0#8, 0#8, 0#8] =
      .ret ⟨[4#8, 4#8], [0x22#8, 0xd8#8, 0x13#8, 0xe2#8], true, [CR, LF, EQ, LY], [0x65#8, 0x6e#8, 0x64#8]⟩ :=
  (receive_eq .generic .generic _ 0 _ (by decide) .crlf _ 0 (Crc.packCrc_buf 0)).trans (by decide +kernel)

-- a download of that data cut off inside the escape sequence
example : ([[0x3d#8]] : List (List Byte)).flatten ++ [0x6e#8, 0x2e#8, CR, LF, EQ, LY] = Spec.encode 128 true 0 [4#8, 4#8] ++ [CR, LF, EQ, LY] ∧
    IsEnd [CR, LF, EQ, LY] := by
  refine ⟨by decide, Or.inl rfl⟩

end Yenc.Props
