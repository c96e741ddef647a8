import Verif.Model.Dispatch
import Verif.Lemmas.EncSize
import Verif.Lemmas.EncLines
import Verif.Lemmas.DecMem
import Verif.Lemmas.DecX86Round
import Verif.Lemmas.DecNeonRound
import Verif.Lemmas.DecRvv
import Verif.Lemmas.EncX86Avx2
import Verif.Lemmas.EncNeon
import Verif.Lemmas.EncRvv
/-! What every implementation guarantees, and its consequences for the API functions. -/
namespace Yenc

theorem toInt32_of_lt (n : Nat) (h : n < 2 ^ 31) : toInt32 n = n := by
  unfold toInt32
  rw [BitVec.toInt_ofInt]
  apply Int.bmod_eq_of_le <;> simp <;> omega

theorem toInt32_of_range (n : Int) (h1 : -2 ^ 31 ≤ n) (h : n < 2 ^ 31) : toInt32 n = n := by
  unfold toInt32
  rw [BitVec.toInt_ofInt]
  apply Int.bmod_eq_of_le <;> simp <;> omega

theorem yencMaxSize_eq (len ls : Nat) : yencMaxSize len ls = 2 * len + 2 * ((2 * len) / ls) + 66 := by
  unfold yencMaxSize
  rw [Nat.mul_comm len 2]
  by_cases h : ls = 128
  · subst h
    simp only [if_true, Nat.shiftRight_eq_div_pow]
    omega
  · simp only [h, if_false]; omega

namespace Enc

/-- What the API needs from an encoder implementation, for line sizes `ls` with `ls + n` representable as an `int`. -/
def CorrectTo (n : Nat) (impl : Impl) : Prop :=
  ∀ (ls col : Nat) (src : List Byte) (fin : Bool), 1 ≤ ls → ls + n < 2 ^ 31 → col < ls → src ≠ [] →
    ∃ w col', impl ls col src fin = some (w, col') ∧ w.out = Spec.encode ls fin col src ∧
      w.hi ≤ w.out.length + 8 ∧ ColRel ls col' (Spec.endCol ls fin col src) ∧ (fin = false → 2 ≤ ls → col' ≤ ls)

/-- What all implementations guarantee: in the scalar encoder the column gets up to 6 larger than the line size. -/
abbrev Correct (impl : Impl) : Prop := CorrectTo 6 impl

theorem CorrectTo.mono {n k : Nat} {impl : Impl} (h : CorrectTo n impl) (hk : n ≤ k) : CorrectTo k impl :=
  fun ls col src fin h1 h2 h3 h4 => h ls col src fin h1 (by omega) h3 h4

theorem generic_correct : Correct encodeGeneric := by
  intro ls col src fin hls hls2 _ hne
  obtain ⟨w, col', h1, h2, h3, h4⟩ := encodeGeneric_spec ls hls hls2 col src fin hne
  exact ⟨w, col', h1, h2, by omega, h4⟩

theorem simd_correct (K : Simd.KernelFn) (hK : K.Ok) (m0 : Mem) : CorrectTo 0 (Simd.encode K m0) := by
  intro ls col src fin hls hls2 _ hne
  obtain ⟨w, col', h1, h2, h3, h4⟩ := Simd.encode_spec K hK m0 ls hls (by omega) col src fin hne
  exact ⟨w, col', h1, h2, by omega, h4⟩

/-- The vectorised implementations are right for every line size. -/
theorem IsImpl.vector {impl : Impl} (h : IsImpl impl) (hv : impl ≠ encodeGeneric) : CorrectTo 0 impl := by
  cases h with
  | generic => exact absurd rfl hv
  | sse c h m0 => exact simd_correct _ (Simd.run_ok _ (Simd.sse_ok c h)) m0
  | avx2 c m0 => exact simd_correct _ (Simd.run_ok _ (Simd.avx2_ok c)) m0
  | neon a64 m0 => exact simd_correct _ (Simd.eRun_ok _ (Simd.Neon.neon_ok a64)) m0
  | rvv vl h junk m0 => exact simd_correct _ (Simd.eRun_ok _ (Simd.Rvv.rvv_ok vl h junk)) m0

theorem IsImpl.correct {impl : Impl} (h : IsImpl impl) : Correct impl := by
  by_cases hv : impl = encodeGeneric
  · subst hv; exact generic_correct
  · exact (h.vector hv).mono (by omega)

theorem runInto_eq {n : Nat} {impl : Impl} (h : CorrectTo n impl) (ls col : Nat) (src : List Byte) (fin : Bool) (hls : 1 ≤ ls) (hls2 : ls + n < 2 ^ 31)
    (hcol : col < ls) (hne : src ≠ []) (size : Nat) (hs : yencMaxSize src.length ls ≤ size) :
    ∃ col', runInto impl ls col src fin size = .ret (Spec.encode ls fin col src, col') ∧
      ColRel ls col' (Spec.endCol ls fin col src) ∧ (fin = false → 2 ≤ ls → col' ≤ ls) := by
  obtain ⟨w, col', h1, h2, h3, h4⟩ := h ls col src fin hls hls2 hcol hne
  refine ⟨col', ?_, h4⟩
  have h5 := encode_length_le ls hls fin col hcol src
  rw [yencMaxSize_eq] at hs
  unfold runInto
  rw [h1]
  simp only
  rw [if_pos (by rw [h2] at h3 ⊢; omega), h2]

theorem lineArgs_eq (ls col : Nat) (hls : 1 ≤ ls) (hls2 : ls < 2 ^ 31) (hcol : col < ls) (rest : List Arg) :
    lineArgs (.int ls :: .int col :: rest) = .ret ((ls : Int), (col : Int)) := by
  unfold lineArgs
  simp only [argToInt, Outcome.bind, toInt32_of_lt ls hls2, toInt32_of_lt col (by omega)]
  rw [if_neg (show ¬ (ls : Int) = 0 by omega), if_neg (by omega), if_neg (by omega), if_neg (by omega)]

theorem apiEncode_eq {n : Nat} {impl : Impl} (h : CorrectTo n impl) (ls col : Nat) (src : List Byte) (hls : 1 ≤ ls)
    (hls2 : ls + n < 2 ^ 31) (hcol : col < ls) :
    apiEncode impl [.buffer src, .int ls, .int col] = .ret (Spec.encode ls true col src) := by
  unfold apiEncode
  by_cases hne : src = []
  · subst hne; simp [Spec.encode]
  · obtain ⟨col', h1, _⟩ := runInto_eq h ls col src true hls hls2 hcol hne _ (Nat.le_refl _)
    simp only [hne, if_false, lineArgs_eq ls col hls (by omega) hcol, Outcome.bind, Int.toNat_natCast, h1]

end Enc

namespace Dec

/-- The inputs on which the vectorised dot-stripping decoder may lose a byte. -/
def EscapedBreakTail (l : List Byte) : Prop := [EQ, CR, LF] <:+ l

/-- What the API needs from a decoder implementation. -/
structure Correct (impl : Impl) : Prop where
  plain : ∀ l, impl.plain l = some (Spec.decode false l)
  rawAny : ∀ l, impl.raw l = some (Spec.decode true l) ∨ (EscapedBreakTail l ∧ impl.raw l = some (Spec.decode true l).dropLast)
  endRaw : ∀ st l, impl.endRaw st l = some (run st l)

theorem Correct.raw {impl : Impl} (h : Correct impl) (l : List Byte) (hl : ¬ EscapedBreakTail l) :
    impl.raw l = some (Spec.decode true l) := (h.rawAny l).resolve_right fun h => hl h.1

theorem generic_correct : Correct generic where
  plain l := by simp [generic, noendPlain_spec, yFrom, Spec.decode]
  rawAny l := .inl (by simp [generic, noendRaw_null, nrun_crlf_spec])
  endRaw st l := endRaw_eq st l

theorem generic_raw (l : List Byte) : generic.raw l = some (Spec.decode true l) := by
  simp [generic, noendRaw_null, nrun_crlf_spec]

/-- What the API needs from a decoder implementation on memory.  What is decoded depends on the input bytes and their address only. -/
structure M.Correct (I : M.Impl) : Prop where
  plain : ∀ m src dest len, M.Safe dest src (src + len) → ∃ t, I.plain m src dest len =
    some (m.wr dest (Spec.decode false (m.rdn src len) ++ t), (Spec.decode false (m.rdn src len)).length) ∧
      (Spec.decode false (m.rdn src len) ++ t).length ≤ len
  raw : ∀ src l, ∃ out, (out = Spec.decode true l ∨ (EscapedBreakTail l ∧ out = (Spec.decode true l).dropLast)) ∧
    ∀ m dest, m.rdn src l.length = l → M.Safe dest src (src + l.length) → ∃ t, I.raw m src dest l.length =
      some (m.wr dest (out ++ t), out.length) ∧ (out ++ t).length ≤ l.length
  endRaw : ∀ m src dest len st, M.Safe dest src (src + len) → ∃ t, I.endRaw m src dest len st =
    some ⟨m.wr dest ((run st (m.rdn src len)).out ++ t), src + (len - (run st (m.rdn src len)).rest.length),
      dest + (run st (m.rdn src len)).out.length, (run st (m.rdn src len)).state, (run st (m.rdn src len)).ended⟩ ∧
      ((run st (m.rdn src len)).out ++ t).length ≤ len

theorem run_drop (st : State) (l : List Byte) : l.drop (l.length - (run st l).rest.length) = (run st l).rest := by
  induction l generalizing st with
  | nil => simp [run]
  | cons c cs ih =>
    have h1 := ih (step st c).1
    simp only [run]
    split
    · have h2 : (run (step st c).1 cs).rest.length ≤ cs.length := by
        rw [← h1]; simp
      simp only [Res.pre, List.length_cons]
      rw [show cs.length + 1 - (run (step st c).1 cs).rest.length = (cs.length - (run (step st c).1 cs).rest.length) + 1 by omega,
        List.drop_succ_cons, h1]
    · simp

theorem M.generic_correct : M.Correct M.generic where
  plain m src dest len hs := by
    obtain ⟨out, st', h1, h2, h3⟩ := M.noendPlain_sim m src dest len none hs
    have h4 : out = Spec.decode false (m.rdn src len) := by
      have := congrArg Prod.fst h1
      simp only [noendPlain_spec, yFrom, Mem.rd, Nat.add_sub_cancel_left] at this
      rw [← this]; simp [Spec.decode]
    refine ⟨[], ?_, by simpa [← h4] using h3⟩
    simp [M.generic, h2, ← h4]
  raw src l := by
    refine ⟨Spec.decode true l, .inl rfl, ?_⟩
    intro m dest hl hs
    obtain ⟨out, st', o, h1, h2, h3, h4⟩ := M.noendRaw_sim m src dest l.length none hs
    have h5 : out = Spec.decode true l := by
      have := congrArg (Option.map Prod.fst) h1
      simp only [Mem.rd, Nat.add_sub_cancel_left, hl, noendRaw_null, nrun_crlf_spec] at this
      simpa using this.symm
    obtain ⟨t, rfl⟩ := h3
    subst h5
    exact ⟨t, by simp [M.generic, h2], h4⟩
  endRaw m src dest len st hs := by
    obtain ⟨r, h1, h2, h3, h4, h5⟩ := M.endRaw_sim m src dest len st hs
    simp only [Mem.rd, Nat.add_sub_cancel_left] at h1 h2 h5
    have h6 : r = src + (len - (run st (m.rdn src len)).rest.length) := by rw [h2]; simp; omega
    refine ⟨[], ?_, by simp; omega⟩
    rw [← h6, List.append_nil]
    exact h1

theorem Simd.impl_correct {σ : Type} {K : Simd.Mode → Simd.Kernel σ} {lax : Bool} {R : Simd.Mode → σ → Bool → Nat → Prop}
    (hK : ∀ md, (K md).Ok (md.searchEnd && lax) md (R md)) : M.Correct (Simd.impl K lax) where
  plain m src dest len hs := by
    obtain ⟨t, r, h1, h2, h3, h4⟩ := Simd.decode_plain (lax := false) (hK .plain) m src dest len hs
    refine ⟨t, ?_, h4⟩
    simp only [Simd.impl, h1, Option.map_some, h2, h3, Nat.add_sub_cancel_left]
  raw src l := by
    obtain ⟨out, h0, h1⟩ := Simd.decode_raw (lax := false) (hK .raw) src l
    refine ⟨out, h0.imp id (fun h => ⟨h.1, h.2⟩), ?_⟩
    intro m dest hl hs
    obtain ⟨t, r, h1, h2, h3, h4⟩ := h1 m dest hl hs
    refine ⟨t, ?_, h4⟩
    simp only [Simd.impl, h1, Option.map_some, h2, h3, Nat.add_sub_cancel_left]
  endRaw m src dest len st hs := Simd.EndOk_decode (hK .endRaw) m src dest len st hs

theorem M.IsImpl.correct {I : M.Impl} (h : M.IsImpl I) : M.Correct I := by
  cases h with
  | generic => exact M.generic_correct
  | simd h =>
    cases h with
    | x86 c h => exact Simd.impl_correct fun md => by rw [Bool.and_false]; exact Simd.X86.kernel_ok c h md
    | neon a64 => exact Simd.impl_correct fun md => Simd.Neon.kernel_ok a64 md _ (by rintro rfl; rfl)
    | rvv _ h junk => exact Simd.impl_correct fun md => by rw [Bool.and_false]; exact Simd.Rvv.kernel_ok _ (by omega) (by omega) (by omega) junk md

/-- What dot stripping gives exactly, with a vectorised implementation. -/
def Simd.RawOk (I : M.Impl) (w : Nat) : Prop :=
  ∀ src l, ∃ out, (out = if Simd.lost w src l then (Spec.decode true l).dropLast else Spec.decode true l) ∧
    ∀ m dest, m.rdn src l.length = l → M.Safe dest src (src + l.length) → ∃ t, I.raw m src dest l.length =
      some (m.wr dest (out ++ t), out.length) ∧ (out ++ t).length ≤ l.length

theorem Simd.impl_rawOk {σ : Type} {K : Simd.Mode → Simd.Kernel σ} {lax : Bool} {R : σ → Bool → Nat → Prop}
    (hK : (K .raw).Ok false .raw R) : Simd.RawOk (Simd.impl K lax) (K .raw).width := by
  intro src l
  obtain ⟨out, h0, h1⟩ := Simd.decode_raw_exact hK src l
  refine ⟨out, ?_, ?_⟩
  · rw [h0, ← nrun_crlf_spec]
    split
    · rename_i h
      exact (Simd.lost_tail h).2
    · rfl
  · intro m dest hl hs
    obtain ⟨t, r, h1, h2, h3, h4⟩ := h1 m dest hl hs
    refine ⟨t, ?_, h4⟩
    simp only [Simd.impl, h1, Option.map_some, h2, h3, Nat.add_sub_cancel_left]

theorem M.IsSimd.rawOk {I : M.Impl} {w : Nat} (h : M.IsSimd I w) : Simd.RawOk I w := by
  cases h with
  | x86 c h => exact Simd.impl_rawOk (Simd.X86.kernel_ok c h .raw)
  | neon a64 => exact Simd.impl_rawOk (Simd.Neon.kernel_ok a64 .raw false (by simp))
  | rvv _ h junk => exact Simd.impl_rawOk (Simd.Rvv.kernel_ok _ (by omega) (by omega) (by omega) junk .raw)

theorem M.IsSimd.width {I : M.Impl} {w : Nat} (h : M.IsSimd I w) : 4 ≤ w := by
  cases h with
  | x86 c h => exact (Simd.X86.kernel_ok c h .raw).width
  | neon a64 => exact (Simd.Neon.kernel_ok a64 .raw false (by simp)).width
  | rvv _ h junk => omega

/-- `lost` in terms of the reference decoder. -/
theorem Simd.lost_iff (w src : Nat) (l : List Byte) : Simd.lost w src l ↔
    w * 2 < l.length ∧ (src + l.length) % w = 2 ∧ [EQ, CR, LF] <:+ l ∧ Spec.decode true (l.take (l.length - 2)) ≠ Spec.decode true l := by
  constructor
  · intro h
    have h1 := Simd.lost_tail h
    refine ⟨h.1, h.2.1, h1.1, ?_⟩
    rw [← nrun_crlf_spec, ← nrun_crlf_spec, h1.2]
    intro h2
    have h3 := nrun_append .crlf (l.take (l.length - 2)) (l.drop (l.length - 2))
    rw [List.take_append_drop, h.2.2.1, h.2.2.2] at h3
    rw [h3] at h2
    have := congrArg List.length h2
    simp [npre, nrun_eq_cr, nrun_none_cr, nrun_cr_cons, nrun_nil] at this
  · rintro ⟨h1, h2, ⟨t, ht⟩, h4⟩
    have h5 : l.drop (l.length - 2) = [CR, LF] := by
      rw [← ht]; simp
    refine ⟨h1, h2, ?_, h5⟩
    rw [← nrun_crlf_spec, ← nrun_crlf_spec] at h4
    have h3 := nrun_append .crlf (l.take (l.length - 2)) (l.drop (l.length - 2))
    rw [List.take_append_drop, h5] at h3
    rw [h3] at h4
    revert h4
    cases (nrun .crlf (l.take (l.length - 2))).2 <;> simp [npre, nrun, nstep, stepNone]

theorem ofMem_correct {I : M.Impl} (h : M.Correct I) (m0 : Mem) (loc : List Byte → Nat × Nat)
    (hloc : ∀ l, (loc l).2 ≤ (loc l).1 ∨ (loc l).1 + l.length ≤ (loc l).2) : Correct (ofMem I m0 loc) where
  plain l := by
    obtain ⟨t, h1, _⟩ := h.plain (m0.wr (loc l).1 l) (loc l).1 (loc l).2 l.length (hloc l)
    simp only [Mem.rdn_wr] at h1
    simp only [ofMem, h1, Option.map_some, Mem.rdn_wr_prefix]
  rawAny l := by
    obtain ⟨out, h0, h1⟩ := h.raw (loc l).1 l
    obtain ⟨t, h1, _⟩ := h1 (m0.wr (loc l).1 l) (loc l).2 (Mem.rdn_wr _ _ _) (hloc l)
    simp only [ofMem, h1, Option.map_some, Mem.rdn_wr_prefix]
    rcases h0 with h0 | ⟨h0, h2⟩
    · exact .inl (by rw [h0])
    · exact .inr ⟨h0, by rw [h2]⟩
  endRaw st l := by
    obtain ⟨t, h1, _⟩ := h.endRaw (m0.wr (loc l).1 l) (loc l).1 (loc l).2 l.length st (hloc l)
    simp only [Mem.rdn_wr] at h1
    simp only [ofMem, h1, Option.map_some, Nat.add_sub_cancel_left, Mem.rdn_wr_prefix, run_drop]

theorem IsImpl.correct {impl : Impl} (h : IsImpl impl) : Correct impl := by
  cases h with
  | generic => exact generic_correct
  | ofMem I hI m0 loc h => exact ofMem_correct hI.correct m0 loc h

theorem yDecode_length (l : List Byte) : (Spec.yDecode l).length ≤ l.length := by
  fun_induction Spec.yDecode l <;> simp_all <;> omega

theorem unstuffAux_length (p q : Byte) (l : List Byte) : (Spec.unstuffAux p q l).length ≤ l.length := by
  fun_induction Spec.unstuffAux p q l <;> simp_all <;> omega

theorem decode_length (b : Bool) (l : List Byte) : (Spec.decode b l).length ≤ l.length := by
  unfold Spec.decode
  refine Nat.le_trans (yDecode_length _) ?_
  cases b
  · simp
  · simpa [Spec.unstuff] using unstuffAux_length CR LF l

theorem step_length (st : State) (c : Byte) : (step st c).2.1.length ≤ 1 := by
  cases st <;> simp only [step, stepNone, stepEq] <;> (repeat' split) <;> simp

theorem run_length (st : State) (l : List Byte) : (run st l).out.length + (run st l).rest.length ≤ l.length := by
  induction l generalizing st with
  | nil => simp [run]
  | cons c cs ih =>
    have h1 := step_length st c
    have h2 := ih (step st c).1
    simp only [run]
    split
    · simp [Res.pre] at *; omega
    · simp; omega

theorem runPlain_eq {impl : Impl} (h : Correct impl) (b : Bool) (l : List Byte) (size : Nat) (hs : l.length ≤ size)
    (hb : b = true → impl.raw l = some (Spec.decode true l)) :
    runPlain impl b l size = .ret (Spec.decode b l) := by
  unfold runPlain
  have h2 := decode_length b l
  cases b
  · simp only [Bool.false_eq_true, if_false, h.plain]
    rw [if_pos (by omega)]
  · simp only [if_true, hb rfl]
    rw [if_pos (by omega)]

theorem apiDecode_eq {impl : Impl} (h : Correct impl) (b : Bool) (l : List Byte)
    (hb : b = true → impl.raw l = some (Spec.decode true l)) :
    apiDecode impl [.buffer l, .bool b] = .ret (Spec.decode b l) := by
  unfold apiDecode
  by_cases hne : l = []
  · subst hne; cases b <;> simp [Spec.decode, Spec.unstuff, Spec.unstuffAux, Spec.yDecode]
  · simp only [hne, if_false, rawArg, argToBool, Outcome.bind]
    exact runPlain_eq h b l _ (Nat.le_refl _) hb

/-- On any input `decode` returns what the reference decoder gives, possibly without its last byte. -/
theorem apiDecode_any {impl : Impl} (h : Correct impl) (b : Bool) (l : List Byte) :
    apiDecode impl [.buffer l, .bool b] = .ret (Spec.decode b l) ∨
      (b = true ∧ EscapedBreakTail l ∧ apiDecode impl [.buffer l, .bool b] = .ret (Spec.decode b l).dropLast) := by
  by_cases hb : b = true → impl.raw l = some (Spec.decode true l)
  · exact .inl (apiDecode_eq h b l hb)
  · simp only [Classical.not_imp] at hb
    obtain ⟨rfl, hb⟩ := hb
    obtain ⟨h1, h2⟩ := (h.rawAny l).resolve_left hb
    refine .inr ⟨rfl, h1, ?_⟩
    have hne : l ≠ [] := by rintro rfl; simp [EscapedBreakTail] at h1
    have h3 := decode_length true l
    simp only [apiDecode, hne, if_false, rawArg, argToBool, Outcome.bind, runPlain, if_true, h2]
    rw [if_pos (by simp; omega)]

/-- The state string of an internal state. -/
def State.str (st : State) : List Byte := Js.decodePrev.getD st.toNat []

theorem State.ofInt_toNat (st : State) : State.ofInt st.toNat = some st := by cases st <;> rfl

theorem normPrev_str (st : State) : Js.normPrev st.str = st.str := by cases st <;> decide
theorem stateIndex_str (st : State) : Js.stateIndex st.str = some st.toNat := by cases st <;> decide

/-- State string returned for a result. -/
def Res.str (r : Res) : List Byte :=
  match r.ended with
  | .none => r.state.str
  | .control => [CR, LF, EQ, LY]
  | .article => [CR, LF, DOT, CR, LF]

theorem decodeIncr_eq {impl : Impl} (h : Correct impl) (l : List Byte) (st : State) (dest : Option Nat)
    (hd : ∀ n ∈ dest, l.length ≤ n) (hl : l.length < 2 ^ 31) :
    decodeIncr impl l st.toNat dest =
      .ret ⟨(l.length - (run st l).rest.length : Nat), (run st l).out.length, (run st l).out,
        (run st l).ended.toNat, (run st l).state.toNat⟩ := by
  unfold decodeIncr
  have h2 := run_length st l
  rw [State.ofInt_toNat]
  simp only [h.endRaw]
  rw [if_neg, if_pos (by omega), toInt32_of_lt _ (by omega), toInt32_of_lt _ (by omega)]
  cases dest with
  | none => simp
  | some n => simpa using hd n rfl

theorem decodeChunkCore_eq {impl : Impl} (h : Correct impl) (l : List Byte) (st : State) (dest : Option Nat)
    (hd : ∀ n ∈ dest, l.length ≤ n) (hl : l.length < 2 ^ 31) :
    Js.decodeChunkCore impl l dest st.str =
      .ret ⟨(l.length - (run st l).rest.length : Nat), (run st l).out.length, (run st l).out,
        (run st l).ended ≠ .none, (run st l).str⟩ := by
  unfold Js.decodeChunkCore
  simp only [normPrev_str, stateIndex_str]
  by_cases hne : l = []
  · subst hne; simp [run, Res.str]
  · simp only [hne, if_false, decodeIncr_eq h l st dest hd hl, Outcome.bind, Res.str]
    congr 2
    · cases (run st l).ended <;> simp [Ended.toNat]
    · cases (run st l).ended <;> simp [Ended.toNat, State.str]

end Dec
end Yenc
