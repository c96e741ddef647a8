import Verif.Lemmas.SharedEncKernel
import Verif.Props.Shared
import Verif.Props.SimdEnc
/-! C91: the data changes during the call, in the vectorised encoders. -/
namespace Yenc.Props
open Yenc Yenc.Shared Yenc.Shared.SimdEnc Yenc.Enc.Simd

/-- Byte `k` of the data is at one time one that has to be escaped everywhere (NUL, LF, CR or `=` in the encoding), and at another time not. -/
def Wavers (mem : Nat → Nat → Byte) (n k : Nat) : Prop := k < n ∧ ∃ τ τ', Spec.critical (mem τ k + 42#8) = true ∧ Spec.critical (mem τ' k + 42#8) = false

theorem post_bounded {α : Type} {n : Nat} {Q : List (Nat × Byte) → α → Prop} {p : Prog α} {s : List (Nat × Byte)} (h : p.Post n Q s) (hs : ∀ i b, (i, b) ∈ s → i < n) :
    p.Post n (fun s a => Q s a ∧ ∀ i b, (i, b) ∈ s → i < n) s := by
  induction p generalizing s with
  | ret a => exact ⟨h, hs⟩
  | ub => exact h.elim
  | rd i k ih =>
    refine ⟨h.1, fun b => ih b (h.2 b) ?_⟩
    intro j c hj
    rcases List.mem_cons.mp hj with hj | hj
    · cases hj; exact h.1
    · exact hs j c hj

/-- The encoder behind the bindings. -/
theorem simdEnc_run {ex : Bool} {K : KernelProg} (hK : IsEnc ex K) (mem : Nat → Nat → Byte) (m0 : Mem) (ls col : Nat) (src : List Byte) (fin : Bool) (hls : 1 ≤ ls) (hls2 : ls + 6 < 2 ^ 31)
    (hcol : col < ls) (hne : src ≠ []) (size : Nat) (hs : yencMaxSize src.length ls ≤ size) :
    ∃ out col', Enc.runInto (SimdEnc.encImpl mem K m0) ls col src fin size = .ret (out, col') ∧
      src.length ≤ out.length ∧ out.length ≤ 2 * src.length + 2 * (2 * src.length / ls) + 3 ∧ 0 ≤ col' ∧ col' ≤ ls + 1 ∧
      (fin = true → ∀ e, out.getLast? = some e → e ≠ TAB ∧ e ≠ SP) ∧
      (ex = true → ∃ L o c, Mixture mem src.length L ∧ Spec.Loose (Wavers mem src.length) ls col L o c ∧ 1 ≤ c ∧ out = (if fin then Spec.finish o else o) ∧
        (fin = false → Enc.ColRel ls col' c)) := by
  have hn : src.length ≠ 0 := fun h => hne (List.length_eq_zero_iff.mp h)
  obtain ⟨⟨w, col'⟩, t, s, h1, ⟨h2, h0⟩, h3⟩ := (post_bounded (SimdEnc.encode_post hK m0 hls hls2 hcol hn fin) (by simp)).sound mem 0 (by intro i b h; simp at h)
  have g1 := h2.size
  have g2 := h2.hi
  have g3 := h2.len
  have g4 := h2.column
  simp only at g1 g2 g3 g4
  refine ⟨w.out, col', ?_, g3, by omega, g4.1, g4.2, h2.last, fun he => ?_⟩
  · rw [yencMaxSize_eq] at hs
    unfold Enc.runInto SimdEnc.encImpl
    rw [h1]
    simp only [Option.map_some]
    rw [if_pos (by omega)]
  · obtain ⟨L, o, c, k1, k2, k3, k4, k5, k6⟩ := h2.loose he
    refine ⟨L, o, c, mixture_of_seen k1 k2 h3, k3.mono ?_, k4, k5, k6⟩
    rintro k ⟨b, b', m1, m2, m3, m4⟩
    obtain ⟨τ, _, rfl⟩ := h3 k b m1
    obtain ⟨τ', _, rfl⟩ := h3 k b' m2
    exact ⟨h0 k _ m1, τ, τ', m3, m4⟩

/-- `encode` while the data changes, in the vectorised implementations, whether or not two loads of a byte in one round agree: it returns, nothing outside the data and the allocated memory is
touched, and the result has no more bytes than an encoding can have, and ends in neither tab nor space. -/
theorem C91_encode {ex : Bool} {K : KernelProg} (hK : IsEnc ex K) (mem : Nat → Nat → Byte) (m0 : Mem) (src : List Byte) (ls col : Nat) (hls : 1 ≤ ls) (hls2 : ls + 6 < 2 ^ 31) (hcol : col < ls) :
    ∃ out, Enc.apiEncode (SimdEnc.encImpl mem K m0) [.buffer src, .int ls, .int col] = .ret out ∧
      src.length ≤ out.length ∧ out.length ≤ 2 * src.length + 2 * (2 * src.length / ls) + 3 ∧ ∀ e, out.getLast? = some e → e ≠ TAB ∧ e ≠ SP := by
  unfold Enc.apiEncode
  by_cases hne : src = []
  · subst hne; exact ⟨[], by simp, by simp, by simp, by simp⟩
  · obtain ⟨out, col', h1, h2, h3, _, _, h4, _⟩ := simdEnc_run hK mem m0 ls col src true hls hls2 hcol hne _ (Nat.le_refl _)
    exact ⟨out, by simp only [hne, if_false, Enc.lineArgs_eq ls col hls (by omega) hcol, Outcome.bind, Int.toNat_natCast, h1], h2, h3, h4 rfl⟩

/-- `encodeTo` while the data changes, in the vectorised implementations. -/
theorem C91_encodeTo {ex : Bool} {K : KernelProg} (hK : IsEnc ex K) (mem : Nat → Nat → Byte) (m0 : Mem) (src dest : List Byte) (ls col : Nat) (hls : 1 ≤ ls) (hls2 : ls + 6 < 2 ^ 31)
    (hcol : col < ls) (hd : yencMaxSize src.length ls ≤ dest.length) :
    ∃ out, Enc.apiEncodeTo (SimdEnc.encImpl mem K m0) [.buffer src, .buffer dest, .int ls, .int col] = .ret (toInt32 out.length, out) ∧
      src.length ≤ out.length ∧ out.length ≤ dest.length ∧ ∀ e, out.getLast? = some e → e ≠ TAB ∧ e ≠ SP := by
  unfold Enc.apiEncodeTo
  by_cases hne : src = []
  · subst hne; exact ⟨[], by simp [toInt32], by simp, by simp, by simp⟩
  · obtain ⟨out, col', h1, h2, h3, _, _, h4, _⟩ := simdEnc_run hK mem m0 ls col src true hls hls2 hcol hne dest.length hd
    refine ⟨out, by simp only [hne, if_false, Enc.lineArgs_eq ls col hls (by omega) hcol, Outcome.bind, Int.toNat_natCast, h1, if_neg (show ¬ dest.length < yencMaxSize src.length ls by omega)], h2, ?_, h4 rfl⟩
    rw [yencMaxSize_eq] at hd
    omega

/-- `encodeIncr` (without an output Buffer) while the data changes, in the vectorised implementations: also the column stays within reach of the line. -/
theorem C91_encodeIncr {ex : Bool} {K : KernelProg} (hK : IsEnc ex K) (mem : Nat → Nat → Byte) (m0 : Mem) (src : List Byte) (ls col : Nat) (hls : 1 ≤ ls) (hls2 : ls + 6 < 2 ^ 31)
    (hcol : col < ls) (hne : src ≠ []) :
    ∃ out col', Enc.apiEncodeIncr (SimdEnc.encImpl mem K m0) [.buffer src, .int ls, .int col] = .ret (out, col') ∧
      src.length ≤ out.length ∧ out.length ≤ 2 * src.length + 2 * (2 * src.length / ls) + 3 ∧ 0 ≤ col' ∧ col' ≤ ls + 1 ∧
      (ex = true → ∃ L c, Mixture mem src.length L ∧ Spec.Loose (Wavers mem src.length) ls col L out c ∧ (col' = (c : Int) ∨ ((ls : Int) - 1 ≤ col' ∧ col' ≤ ls ∧ ls ≤ c))) := by
  obtain ⟨out, col', h1, h2, h3, h4, h5, _, h6⟩ := simdEnc_run hK mem m0 ls col src false hls hls2 hcol hne _ (Nat.le_refl _)
  refine ⟨out, col', ?_, h2, h3, h4, h5, fun he => by
    obtain ⟨L, o, c, k1, k2, _, rfl, k3⟩ := h6 he
    exact ⟨L, c, k1, k2, k3 rfl⟩⟩
  unfold Enc.apiEncodeIncr
  simp only [hne, if_false, Enc.lineArgs_eq ls col hls (by omega) hcol, Outcome.bind, Int.toNat_natCast, h1]

/-- If the loads of each round agree, which on ARM and RISC-V they always do, the result of `encode` is an encoding of some copy of the data, each byte taken at some time during the call, except
that a line may be one column too short if the byte that ends it has to be escaped at one time and not at another time: decoding gives that copy back, lines are at most one byte longer than
asked for, and no NUL is written. -/
theorem C91_encode_copy {K : KernelProg} (hK : IsEnc true K) (mem : Nat → Nat → Byte) (m0 : Mem) (src : List Byte) (ls col : Nat) (hls : 1 ≤ ls) (hls2 : ls + 6 < 2 ^ 31) (hcol : col < ls) :
    ∃ L o c, Mixture mem src.length L ∧ Enc.apiEncode (SimdEnc.encImpl mem K m0) [.buffer src, .int ls, .int col] = .ret (Spec.finish o) ∧
      Spec.Loose (Wavers mem src.length) ls col L o c ∧
      Spec.yDecode (Spec.finish o) = L ∧ 0#8 ∉ Spec.finish o ∧ ∀ a b z, Spec.finish o = a ++ b ++ z → CR ∉ b → LF ∉ b → b.length ≤ ls + 1 := by
  have main : ∃ L o c, Mixture mem src.length L ∧ Enc.apiEncode (SimdEnc.encImpl mem K m0) [.buffer src, .int ls, .int col] = .ret (Spec.finish o) ∧
      Spec.Loose (Wavers mem src.length) ls col L o c := by
    unfold Enc.apiEncode
    by_cases hne : src = []
    · subst hne; exact ⟨[], [], col, ⟨rfl, by simp⟩, by simp [Spec.finish], .nil⟩
    · obtain ⟨out, col', h1, _, _, _, _, _, h6⟩ := simdEnc_run hK mem m0 ls col src true hls hls2 hcol hne _ (Nat.le_refl _)
      obtain ⟨L, o, c, k1, k2, _, rfl, _⟩ := h6 rfl
      exact ⟨L, o, c, k1, by simp only [hne, if_false, Enc.lineArgs_eq ls col hls (by omega) hcol, Outcome.bind, Int.toNat_natCast, h1, if_true], k2⟩
  obtain ⟨L, o, c, h1, h2, h3⟩ := main
  obtain ⟨h4, h5, h6, _⟩ := h3.finished
  exact ⟨L, o, c, h1, h2, h3, h4, h5, h6⟩

/-- If no byte of the data wavers in that way, the result is what `encode` gives for that copy of the data; if the data does not change at all, it is the encoding of the data. -/
theorem C91_steady {K : KernelProg} (hK : IsEnc true K) (mem : Nat → Nat → Byte) (m0 : Mem) (src : List Byte) (ls col : Nat) (hls : 1 ≤ ls) (hls2 : ls + 6 < 2 ^ 31) (hcol : col < ls)
    (hw : ∀ k, k < src.length → ∀ τ τ', Spec.critical (mem τ k + 42#8) = Spec.critical (mem τ' k + 42#8)) :
    ∃ L, Mixture mem src.length L ∧ Enc.apiEncode (SimdEnc.encImpl mem K m0) [.buffer src, .int ls, .int col] = .ret (Spec.encode ls true col L) ∧
      ((∀ τ k b, src[k]? = some b → mem τ k = b) → L = src) := by
  have hsame : ∀ L, Mixture mem src.length L → (∀ τ k b, src[k]? = some b → mem τ k = b) → L = src := by
    rintro L ⟨h1, h2⟩ h
    apply List.ext_getElem?
    intro k
    rcases hk : L[k]? with _ | b
    · rw [List.getElem?_eq_none_iff] at hk
      rw [List.getElem?_eq_none (by omega)]
    · obtain ⟨τ, rfl⟩ := h2 k b hk
      obtain ⟨hlt, _⟩ := List.getElem?_eq_some_iff.mp hk
      have : src[k]? = some src[k] := List.getElem?_eq_getElem (by omega)
      rw [this, h τ k _ this]
  by_cases hne : src = []
  · subst hne; exact ⟨[], ⟨rfl, by simp⟩, by simp [Enc.apiEncode, Spec.encode], fun _ => rfl⟩
  obtain ⟨out, col', h1, _, _, _, _, _, h6⟩ := simdEnc_run hK mem m0 ls col src true hls hls2 hcol hne _ (Nat.le_refl _)
  obtain ⟨L, o, c, k1, k2, k3, rfl, _⟩ := h6 rfl
  refine ⟨L, k1, ?_, hsame L k1⟩
  have hL : L ≠ [] := by
    have := k1.1
    intro h
    rw [h] at this
    exact hne (List.length_eq_zero_iff.mp this.symm)
  have he := (k2.exact hls (by
    rintro k ⟨hk, τ, τ', g1, g2⟩
    rw [hw k hk τ τ', g2] at g1
    exact absurd g1 (by simp)) [] (Or.inr (Or.inl k3))).1
  rw [show Spec.encode ls false c [] = [] by simp [Spec.encode], List.append_nil, List.append_nil] at he
  subst he
  obtain ⟨a, lc, m1, m2, m3⟩ := Enc.encode_fin ls hls col L hL
  have hfinish : Spec.finish (Spec.encode ls false col L) = Spec.encode ls true col L := by
    unfold Spec.finish
    rw [m1]
    have g1 : (a ++ [lc]).getLast? = some lc := by simp
    have g2 : (a ++ [lc]).dropLast = a := by simp
    rw [g1, g2]
    simp only
    by_cases hlc : lc = TAB ∨ lc = SP
    · rw [if_pos hlc, (m2 hlc).1]
    · rw [if_neg hlc, (m3 hlc).1]
  unfold Enc.apiEncode
  simp only [hne, if_false, Enc.lineArgs_eq ls col hls (by omega) hcol, Outcome.bind, Int.toNat_natCast, h1, if_true, hfinish]

/-- In the column before the last, the byte at the cut is critical when first loaded and is not any more when it is loaded again. -/
def shortMem (t i : Nat) : Byte := if i = 14 ∧ t < 34 then 214#8 else 0#8

/-- The last byte of the first block changes to a carriage return (less 42) at some time. -/
def tornMem (t i : Nat) : Byte := if i = 32 ∧ t = 1000 then 227#8 else if i = 5 then 214#8 else 0#8

/-- A round in which the byte stored last, if it is read again (encoder_sse_base.h:593), is a carriage return then. -/
def tornRound (start : Bool) (prev : Byte) (b : Nat → Byte) : Round :=
  let r := (X86.sse sse2Cfg).round start prev b
  { r with stores := match r.stores with
      | (32, [_]) :: l => (32, [227#8 + 42#8]) :: l
      | l => l }

theorem tornRound_like (start : Bool) (prev : Byte) (b : Nat → Byte) : Like (tornRound start prev b) ((X86.sse sse2Cfg).round start prev b) := by
  refine ⟨?_, rfl, rfl, rfl⟩
  simp only [tornRound]
  split
  · rename_i h; rw [h]; simp
  · rfl

/-- Also if the loads of each round agree, the result need not be what `encode` gives for any copy: the byte at the end of a line may change after the line was cut, and then the line is one column short. -/
theorem C91_encode_short :
    ∃ (K : KernelProg) (mem : Nat → Nat → Byte) (out : List Byte), IsEnc true K ∧
      Enc.apiEncode (SimdEnc.encImpl mem K (fun _ => 0#8)) [.buffer (List.replicate 65 0#8), .int 16, .int 0] = .ret out ∧
      ∀ L, Mixture mem 65 L → Spec.encode 16 true 0 L ≠ out := by
  refine ⟨_, shortMem, List.replicate 15 42#8 ++ [CR, LF] ++ List.replicate 16 42#8 ++ [CR, LF] ++ List.replicate 16 42#8 ++ [CR, LF] ++ List.replicate 16 42#8 ++ [CR, LF, 42#8, 42#8],
    .sseAgree sse2Cfg ⟨by simp [sse2Cfg], by simp [sse2Cfg], by simp [sse2Cfg]⟩, by decide +kernel, ?_⟩
  rintro L ⟨h1, h2⟩ h
  have hL : L = (List.range 65).map fun k => if k = 14 then L.getD 14 0#8 else 0#8 := by
    apply List.ext_getElem
    · simp [h1]
    · intro k hk1 hk2
      simp only [List.getElem_map, List.getElem_range]
      by_cases h14 : k = 14
      · subst h14; simp [hk1]
      · obtain ⟨τ, hτ⟩ := h2 k L[k] (by simp)
        rw [if_neg h14, hτ]
        simp [shortMem, h14]
  have hx : L.getD 14 0#8 = 214#8 ∨ L.getD 14 0#8 = 0#8 := by
    obtain ⟨τ, hτ⟩ := h2 14 (L.getD 14 0#8) (by simp [h1])
    rw [hτ]
    unfold shortMem
    split <;> simp
  rw [hL] at h
  revert h
  rcases hx with hx | hx <;> rw [hx] <;> decide +kernel

/-- If two loads of a byte in a round disagree, on x86, the result need not even be an encoding of a copy: the byte stored last may be written without being escaped. -/
theorem C91_encode_torn :
    ∃ (K : KernelProg) (mem : Nat → Nat → Byte) (out : List Byte), IsEnc false K ∧
      Enc.apiEncode (SimdEnc.encImpl mem K (fun _ => 0#8)) [.buffer (List.replicate 65 0#8), .int 128, .int 0] = .ret out ∧
      ∀ L, Mixture mem 65 L → Spec.yDecode out ≠ L := by
  refine ⟨_, tornMem, List.replicate 5 42#8 ++ [EQ, 64#8] ++ List.replicate 26 42#8 ++ [CR] ++ List.replicate 32 42#8,
    .sse sse2Cfg ⟨by simp [sse2Cfg], by simp [sse2Cfg], by simp [sse2Cfg]⟩ (fun _ => tornRound) (fun _ start prev b => ⟨prev, b, tornRound_like start prev b⟩), by decide +kernel, ?_⟩
  rintro L ⟨h1, -⟩ h
  rw [← h] at h1
  revert h1
  decide +kernel

/-! ## Examples -/

/-- Every byte is 0 and 1 in turn. -/
def flicker (t _i : Nat) : Byte := BitVec.ofNat 8 (t % 2)

/-- The hypotheses are met by bytes that change all the time. -/
example : ∃ L, Mixture flicker 70 L ∧
    Enc.apiEncode (SimdEnc.encImpl flicker (eRun (Neon.neon true)) (fun _ => 0#8)) [.buffer (List.replicate 70 0#8), .int 64, .int 0] = .ret (Spec.encode 64 true 0 L) := by
  obtain ⟨L, h1, h2, _⟩ := C91_steady (.neon true) flicker (fun _ => 0#8) (List.replicate 70 0#8) 64 0 (by decide) (by decide) (by decide) (fun k _ τ τ' => by
    have h : ∀ n, Spec.critical (BitVec.ofNat 8 (n % 2) + 42#8) = false := fun n => by rcases Nat.mod_two_eq_zero_or_one n with h | h <;> rw [h] <;> decide
    simp only [flicker, h])
  exact ⟨L, h1, h2⟩

/-- A round of the kernel for ARM on them. -/
example : Enc.apiEncode (SimdEnc.encImpl flicker (eRun (Neon.neon true)) (fun _ => 0#8)) [.buffer (List.replicate 66 0#8), .int 64, .int 0] =
    .ret ((List.range 64).map (fun k => if k % 2 = 0 then 42#8 else 43#8) ++ [CR, LF, 42#8, 43#8]) := by decide +kernel

example : IsEnc false (run (X86.sse sse2Cfg) fun _ => tornRound) :=
  .sse sse2Cfg ⟨by simp [sse2Cfg], by simp [sse2Cfg], by simp [sse2Cfg]⟩ _ fun _ start prev b => ⟨prev, b, tornRound_like start prev b⟩

example : yencMaxSize (List.replicate 66 0#8).length 64 ≤ (List.replicate 300 0#8).length := by decide +kernel

/-- A byte that wavers. -/
example : Wavers shortMem 65 14 := ⟨by decide, 0, 34, by decide, by decide⟩

end Yenc.Props
