import Verif.Props.Encode
import Verif.Props.Decode
import Verif.Props.Crc
/-!
Property C106: exactly which calls of the native functions, with any arguments whatever, have no defined outcome.

The predicates here are about the arguments as JavaScript sees them; conversions to C integers are stated with remainders.
-/
namespace Yenc.Props
open Yenc Spec

variable {eimpl : Enc.Impl} {dimpl : Dec.Impl} {impl : Crc.Impl}

namespace Undef

/-- Not an integral Number. -/
def NotInt (a : Arg) : Prop := ∀ n, a ≠ .int n
/-- Not a Boolean. -/
def NotBool (a : Arg) : Prop := ∀ b, a ≠ .bool b
/-- A Buffer of 4 bytes. -/
def IsCrcBuf (a : Arg) : Prop := ∃ b, a = .buffer b ∧ b.length = 4
/-- What the code accepts for the optional CRC argument: nothing, or a Buffer of 4 bytes (and then anything). -/
def GoodInit (rest : List Arg) : Prop := ∀ a t, rest = a :: t → IsCrcBuf a
/-- Line size (if any) and column (if any) that the code converts without looking whether they are Numbers: the column only after a line size that is not refused. -/
def BadLine (rest : List Arg) : Prop :=
  ∃ a t, rest = a :: t ∧ (NotInt a ∨ ∃ n b u, a = .int n ∧ n % 2 ^ 32 < 2 ^ 31 ∧ t = b :: u ∧ NotInt b)
/-- The line size, if there is one and it is a Number, is not (as a 32-bit integer) one of the six largest. -/
def FitsLine (rest : List Arg) : Prop := ∀ n t, rest = .int n :: t → ¬ (2147483641 < n % 2 ^ 32 ∧ n % 2 ^ 32 < 2 ^ 31)

theorem notInt_iff (a : Arg) : NotInt a ↔ argToInt a = .ub := by
  cases a <;> simp [NotInt, argToInt]

theorem notBool_iff (a : Arg) : NotBool a ↔ argToBool a = .ub := by
  cases a <;> simp [NotBool, argToBool]

theorem readCrc_len (b : List Byte) (h : b.length = 4) : ∃ v, Crc.readCrc b = .ret v := by
  match b, h with
  | [a, b, c, d], _ => exact ⟨_, rfl⟩

theorem initArg_cases (v : Crc.U32) (rest : List Arg) :
    (GoodInit rest ∧ ∃ c, Crc.initArg v rest = .ret c) ∨ (¬ GoodInit rest ∧ ∃ m, Crc.initArg v rest = .throw m) := by
  cases rest with
  | nil => exact .inl ⟨(by intro a t h; cases h), _, rfl⟩
  | cons a t =>
    cases a with
    | buffer b =>
      by_cases h : b.length = 4
      · obtain ⟨c, hc⟩ := readCrc_len b h
        exact .inl ⟨(by rintro a t ⟨⟩; exact ⟨b, rfl, h⟩), c, by simp [Crc.initArg, h, hc]⟩
      · exact .inr ⟨(fun g => by obtain ⟨b', e, hb⟩ := g _ _ rfl; cases e; exact h hb), _, by simp only [Crc.initArg]; rw [if_pos h]⟩
    | int n => exact .inr ⟨(fun g => by obtain ⟨b', e, -⟩ := g _ _ rfl; cases e), _, rfl⟩
    | bool n => exact .inr ⟨(fun g => by obtain ⟨b', e, -⟩ := g _ _ rfl; cases e), _, rfl⟩
    | other => exact .inr ⟨(fun g => by obtain ⟨b', e, -⟩ := g _ _ rfl; cases e), _, rfl⟩

theorem twoCrcs_cases (a b : Arg) (t : List Arg) :
    (IsCrcBuf a ∧ IsCrcBuf b ∧ ∃ c, Crc.twoCrcs (a :: b :: t) = .ret c) ∨ (¬ (IsCrcBuf a ∧ IsCrcBuf b) ∧ ∃ m, Crc.twoCrcs (a :: b :: t) = .throw m) := by
  by_cases h : IsCrcBuf a ∧ IsCrcBuf b
  · obtain ⟨⟨x, rfl, hx⟩, ⟨y, rfl, hy⟩⟩ := h
    obtain ⟨c, hc⟩ := readCrc_len x hx
    obtain ⟨d, hd⟩ := readCrc_len y hy
    exact .inl ⟨⟨x, rfl, hx⟩, ⟨y, rfl, hy⟩, (c, d), by simp [Crc.twoCrcs, hx, hy, hc, hd, Outcome.bind]⟩
  · refine .inr ⟨h, ?_⟩
    cases a with
    | buffer x =>
      cases b with
      | buffer y =>
        refine ⟨"You must supply a 4 byte Buffer for the first two arguments", ?_⟩
        simp only [Crc.twoCrcs]
        rw [if_pos]
        by_cases hx : x.length = 4
        · exact .inr fun hy => h ⟨⟨x, rfl, hx⟩, ⟨y, rfl, hy⟩⟩
        · exact .inl hx
      | _ => exact ⟨_, rfl⟩
    | _ => exact ⟨_, rfl⟩

theorem toInt32_min (n : Int) : toInt32 n = -2 ^ 31 ↔ n % 2 ^ 32 = 2 ^ 31 := by
  simp only [toInt32, BitVec.toInt_ofInt, Int.bmod_def]
  split <;> omega

theorem toInt32_nonneg (n : Int) : 0 ≤ toInt32 n ↔ n % 2 ^ 32 < 2 ^ 31 := by
  simp only [toInt32, BitVec.toInt_ofInt, Int.bmod_def]
  split <;> omega

theorem toInt32_pos (n : Int) (h : 0 ≤ toInt32 n) : toInt32 n = n % 2 ^ 32 := by
  simp only [toInt32, BitVec.toInt_ofInt, Int.bmod_def] at h ⊢
  split at h <;> rename_i h2
  · rw [if_pos h2]; norm_cast
  · omega

end Undef
open Undef

/-- C106: `crc32` and `crc32_multiply` always return or throw. -/
theorem C106_crc (hi : Crc.IsImpl impl) (addr : Nat) (args : List Arg) : Crc.apiCrc32 impl addr args ≠ .ub ∧ Crc.apiMultiply impl args ≠ .ub := by
  constructor
  · unfold Crc.apiCrc32
    split
    · rename_i data rest
      rcases initArg_cases 0 rest with ⟨-, c, hc⟩ | ⟨-, m, hm⟩
      · obtain ⟨r, hr, -⟩ := hi.correct.incr addr data c
        simp only [hc, Outcome.bind, hr]
        intro h; cases h
      · simp only [hm, Outcome.bind]
        intro h; cases h
    · simp
  · unfold Crc.apiMultiply
    split
    · simp
    · rename_i h
      match args, h with
      | [], h => simp at h
      | [_], h => simp at h
      | a :: b :: t, _ =>
        rcases twoCrcs_cases a b t with ⟨-, -, c, hc⟩ | ⟨-, m, hm⟩
        · simp [hc, Outcome.bind]
        · simp [hm, Outcome.bind]

example := C106_crc .generic 3 [.other, .bool true]

/-- C106: `crc32_combine` is undefined exactly if two CRCs are followed by something that is not an integer. -/
theorem C106_combine (args : List Arg) :
    Crc.apiCombine impl args = .ub ↔ ∃ a b x t, args = a :: b :: x :: t ∧ IsCrcBuf a ∧ IsCrcBuf b ∧ NotInt x := by
  match args with
  | [] => simp [Crc.apiCombine]
  | [_] => simp [Crc.apiCombine]
  | [_, _] => simp [Crc.apiCombine]
  | a :: b :: x :: t =>
    have hl : ¬ (a :: b :: x :: t).length < 3 := by simp
    unfold Crc.apiCombine
    rw [if_neg hl]
    rcases twoCrcs_cases a b (x :: t) with ⟨ha, hb, c, hc⟩ | ⟨hn, m, hm⟩
    · simp only [hc, Outcome.bind, List.getD_cons_succ, List.getD_cons_zero]
      constructor
      · intro h
        refine ⟨a, b, x, t, rfl, ha, hb, (notInt_iff x).2 ?_⟩
        cases hx : argToInt x with
        | ub => rfl
        | ret n => rw [hx] at h; cases h
        | throw m => rw [hx] at h; cases h
      · rintro ⟨a', b', x', t', e, -, -, hx⟩
        cases e
        rw [(notInt_iff x).1 hx]
    · simp only [hm, Outcome.bind]
      constructor
      · intro h; cases h
      · rintro ⟨a', b', x', t', e, h1, h2, -⟩
        cases e
        exact absurd ⟨h1, h2⟩ hn

example : Crc.apiCombine Crc.genericImpl [.buffer [1#8, 2#8, 3#8, 4#8], .buffer [0#8, 0#8, 0#8, 0#8], .other] = .ub :=
  (C106_combine _).2 ⟨_, _, _, _, rfl, ⟨_, rfl, rfl⟩, ⟨_, rfl, rfl⟩, by intro n h; cases h⟩

/-- C106: `crc32_zeroes` and `crc32_shift` are undefined exactly if the CRC argument is acceptable and the number is not an integer, or is the least 32-bit integer. -/
theorem C106_count (args : List Arg) :
    (Crc.apiZeroes impl args = .ub ↔ ∃ a t, args = a :: t ∧ GoodInit t ∧ (NotInt a ∨ ∃ n, a = .int n ∧ n % 2 ^ 32 = 2 ^ 31)) ∧
    (Crc.apiShift impl args = .ub ↔ ∃ a t, args = a :: t ∧ GoodInit t ∧ (NotInt a ∨ ∃ n, a = .int n ∧ n % 2 ^ 32 = 2 ^ 31)) := by
  have key : ∀ (v : Crc.U32) (f g : Crc.U32 → Crc.U64 → List Byte) (a : Arg) (t : List Arg),
      ((Crc.initArg v t).bind fun crc1 => (argToInt a).bind fun n =>
        if toInt32 n < 0 then (Crc.negInt (toInt32 n)).bind fun m => .ret (f crc1 m) else .ret (g crc1 (BitVec.ofInt 64 (toInt32 n)))) = Outcome.ub ↔
      ∃ a' t', a :: t = a' :: t' ∧ GoodInit t' ∧ (NotInt a' ∨ ∃ n, a' = .int n ∧ n % 2 ^ 32 = 2 ^ 31) := by
    intro v f g a t
    rcases initArg_cases v t with ⟨hg, c, hc⟩ | ⟨hn, m, hm⟩
    · simp only [hc, Outcome.bind]
      cases a with
      | int n =>
        simp only [argToInt]
        constructor
        · intro h
          refine ⟨_, _, rfl, hg, .inr ⟨n, rfl, ?_⟩⟩
          by_cases h4 : toInt32 n = -2 ^ 31
          · exact (toInt32_min n).1 h4
          · rw [Crc.negInt, if_neg h4] at h
            split at h <;> cases h
        · rintro ⟨a', t', e, -, hx | ⟨k, hk, hx⟩⟩
          · cases e; exact absurd rfl (hx n)
          · cases e; cases hk
            have := (toInt32_min n).2 hx
            rw [if_pos (by omega), Crc.negInt, if_pos this]
      | _ => simp [argToInt, NotInt, hg]
    · simp only [hm, Outcome.bind]
      constructor
      · intro h; cases h
      · rintro ⟨a', t', e, h1, -⟩
        cases e
        exact absurd h1 hn
  cases args with
  | nil => simp [Crc.apiZeroes, Crc.apiShift]
  | cons a t => exact ⟨key 0 (fun c m => Crc.packCrc (Crc.unzero impl c m)) (fun c m => Crc.packCrc (Crc.zeros impl c m)) a t,
      key 0x80000000#32 (fun c m => Crc.packCrc (impl.shift c (~~~(Crc.powmod m)))) (fun c m => Crc.packCrc (impl.shift c (Crc.powmod m))) a t⟩

example : Crc.apiZeroes Crc.genericImpl [.int (2 ^ 31 + 2 ^ 32), .buffer [1#8, 2#8, 3#8, 4#8], .other] = .ub :=
  ((C106_count _).1).2 ⟨_, _, rfl, by rintro a t ⟨⟩; exact ⟨_, rfl, rfl⟩, .inr ⟨_, rfl, by decide⟩⟩

/-- C106: `decode` is undefined exactly if there is data and the second argument is there and is not a Boolean; `decodeTo` exactly if this is so for the third, and the data fits the output. -/
theorem C106_decode (hd : Dec.IsImpl dimpl) (args : List Arg) :
    (Dec.apiDecode dimpl args = .ub ↔ ∃ s a t, args = .buffer s :: a :: t ∧ s ≠ [] ∧ NotBool a) ∧
    (Dec.apiDecodeTo dimpl args = .ub ↔ ∃ s d a t, args = .buffer s :: .buffer d :: a :: t ∧ s ≠ [] ∧ s.length ≤ d.length ∧ NotBool a) := by
  have hp : ∀ (b : Bool) (s : List Byte) (n : Nat), s ≠ [] → s.length ≤ n → ∃ o, Dec.runPlain dimpl b s n = .ret o := by
    intro b s n hne hl
    have h := (C18_decode_no_ub hd s [] b).1
    simp only [Dec.apiDecode, hne, if_false, Dec.rawArg, argToBool, Outcome.bind] at h
    unfold Dec.runPlain at h ⊢
    split
    · rename_i h2; rw [h2] at h; exact absurd rfl h
    · rename_i o h2
      rw [h2] at h
      simp only at h
      split at h
      · exact ⟨o, by rw [if_pos (by omega)]⟩
      · exact absurd rfl h
  constructor
  · unfold Dec.apiDecode
    split
    · rename_i s rest
      by_cases hne : s = []
      · simp [hne]
      · rw [if_neg hne]
        cases rest with
        | nil =>
          obtain ⟨o, ho⟩ := hp false s _ hne (Nat.le_refl _)
          simp [Dec.rawArg, Outcome.bind, ho]
        | cons a t =>
          cases a with
          | bool b =>
            obtain ⟨o, ho⟩ := hp b s _ hne (Nat.le_refl _)
            simp [Dec.rawArg, argToBool, Outcome.bind, ho, NotBool]
          | _ => simp [Dec.rawArg, argToBool, Outcome.bind, NotBool, hne]
    · rename_i h
      constructor
      · intro h; cases h
      · rintro ⟨s, a, t, e, -⟩
        exact absurd e (h s (a :: t))
  · unfold Dec.apiDecodeTo
    split
    · rename_i s d rest
      by_cases hne : s = []
      · simp [hne]
      · rw [if_neg hne]
        by_cases hl : d.length < s.length
        · rw [if_pos hl]
          constructor
          · intro h; cases h
          · rintro ⟨s', d', a, t, e, -, h2, -⟩
            cases e
            omega
        · rw [if_neg hl]
          cases rest with
          | nil =>
            obtain ⟨o, ho⟩ := hp false s d.length hne (by omega)
            simp [Dec.rawArg, Outcome.bind, ho]
          | cons a t =>
            cases a with
            | bool b =>
              obtain ⟨o, ho⟩ := hp b s d.length hne (by omega)
              simp [Dec.rawArg, argToBool, Outcome.bind, ho, NotBool]
            | _ => simpa [Dec.rawArg, argToBool, Outcome.bind, NotBool, hne] using hl
    · rename_i h
      constructor
      · intro h; cases h
      · rintro ⟨s, d, a, t, e, -⟩
        exact absurd e (h s d (a :: t))

-- `decode(data, 1)` and `decode(data, undefined)` are undefined, `decode(data)` is not
example : Dec.apiDecode Dec.generic [.buffer [107#8], .int 1] = .ub ∧ Dec.apiDecode Dec.generic [.buffer [107#8], .other] = .ub ∧ Dec.apiDecode Dec.generic [.buffer [107#8]] ≠ .ub := by
  refine ⟨(C106_decode .generic _).1.2 ⟨_, _, _, rfl, by decide, by intro b h; cases h⟩, (C106_decode .generic _).1.2 ⟨_, _, _, rfl, by decide, by intro b h; cases h⟩, fun h => ?_⟩
  obtain ⟨s, a, t, e, -⟩ := (C106_decode .generic _).1.1 h
  cases e

namespace Undef

/-- What becomes of the arguments after the Buffers in `encode` and `encodeTo`. -/
theorem lineArgs_cases (rest : List Arg) :
    (BadLine rest ∧ Enc.lineArgs rest = .ub) ∨ (¬ BadLine rest ∧ ((∃ m, Enc.lineArgs rest = .throw m) ∨
      ∃ a b : Nat, Enc.lineArgs rest = .ret ((a : Int), (b : Int)) ∧ 1 ≤ a ∧ b < a ∧ a < 2 ^ 31 ∧ (FitsLine rest → a ≤ 2147483641))) := by
  cases rest with
  | nil => exact .inr ⟨(by rintro ⟨a, t, e, -⟩; cases e), .inr ⟨128, 0, rfl, by decide, by decide, by decide, fun _ => by decide⟩⟩
  | cons a t =>
    cases a with
    | int n =>
      have hbad : BadLine (.int n :: t) ↔ n % 2 ^ 32 < 2 ^ 31 ∧ ∃ b u, t = b :: u ∧ NotInt b := by
        constructor
        · rintro ⟨a, t', e, h | ⟨k, b, u, rfl, h1, h2, h3⟩⟩
          · cases e; exact absurd rfl (h n)
          · cases e; exact ⟨h1, b, u, h2, h3⟩
        · rintro ⟨h1, b, u, h2, h3⟩
          exact ⟨_, _, rfl, .inr ⟨n, b, u, rfl, h1, h2, h3⟩⟩
      have hneg : toInt32 n < 0 → (∃ m, Enc.lineArgs (.int n :: t) = .throw m) := by
        intro h
        refine ⟨"Line size must be at least 1 byte", ?_⟩
        simp only [Enc.lineArgs, argToInt, Outcome.bind]
        rw [if_pos (show (if toInt32 n = 0 then (128 : Int) else toInt32 n) < 0 by rw [if_neg (by omega)]; exact h)]
      by_cases hn : toInt32 n < 0
      · refine .inr ⟨fun h => ?_, .inl (hneg hn)⟩
        have := (toInt32_nonneg n).2 (hbad.1 h).1
        omega
      · have hnn : 0 ≤ toInt32 n := by omega
        have hr := (toInt32_nonneg n).1 hnn
        have he := toInt32_pos n hnn
        have hfit : FitsLine (.int n :: t) → toInt32 n ≤ 2147483641 := by
          intro h
          have := h n t rfl
          omega
        cases t with
        | nil =>
          refine .inr ⟨(fun h => by obtain ⟨-, b, u, e, -⟩ := hbad.1 h; cases e), .inr ?_⟩
          rcases lineArgs_ints n 0 with ⟨m, h⟩ | ⟨a, b, h, ha, hb, hab⟩
          · simp only [Enc.lineArgs, argToInt, Outcome.bind] at h
            rw [if_neg (show ¬ (if toInt32 n = 0 then (128 : Int) else toInt32 n) < 0 by split <;> omega)] at h
            rw [if_neg (show ¬ (toInt32 0 > (if toInt32 n = 0 then (128 : Int) else toInt32 n) ∨ toInt32 0 < 0) by
              rw [show toInt32 0 = 0 by decide]; split <;> omega)] at h
            cases h
          · refine ⟨(if toInt32 n = 0 then (128 : Int) else toInt32 n).toNat, 0, ?_, ?_, ?_, ?_, fun hf => ?_⟩
            · simp only [Enc.lineArgs, argToInt, Outcome.bind]
              rw [if_neg (show ¬ (if toInt32 n = 0 then (128 : Int) else toInt32 n) < 0 by split <;> omega),
                Int.toNat_of_nonneg (by split <;> omega)]
              rfl
            · split <;> omega
            · split <;> omega
            · split <;> omega
            · have := hfit hf
              split <;> omega
        | cons b u =>
          cases b with
          | int k =>
            refine .inr ⟨fun h => ?_, ?_⟩
            · obtain ⟨-, b, u, e, hb⟩ := hbad.1 h
              cases e
              exact hb k rfl
            · have e : Enc.lineArgs (.int n :: .int k :: u) = Enc.lineArgs [.int n, .int k] := rfl
              rw [e]
              rcases lineArgs_ints n k with h | ⟨a, b, h, ha, hb, hab⟩
              · exact .inl h
              · exact .inr ⟨a, b, h, ha, hb, by omega, fun hf => by have := hfit hf; omega⟩
          | _ =>
            refine .inl ⟨hbad.2 ⟨hr, _, _, rfl, by intro k h; cases h⟩, ?_⟩
            simp only [Enc.lineArgs, argToInt, Outcome.bind]
            rw [if_neg (show ¬ (if toInt32 n = 0 then (128 : Int) else toInt32 n) < 0 by split <;> omega)]
    | _ => exact .inl ⟨⟨_, _, rfl, .inl (by intro k h; cases h)⟩, rfl⟩

theorem encode_iff {n : Nat} (he : Enc.CorrectTo n eimpl) (hn : n ≤ 6) (args : List Arg)
    (hfit : n = 0 ∨ ((∀ s t, args = .buffer s :: t → FitsLine t) ∧ ∀ s d t, args = .buffer s :: .buffer d :: t → FitsLine t)) :
    (Enc.apiEncode eimpl args = .ub ↔ ∃ s t, args = .buffer s :: t ∧ s ≠ [] ∧ BadLine t) ∧
    (Enc.apiEncodeTo eimpl args = .ub ↔ ∃ s d t, args = .buffer s :: .buffer d :: t ∧ s ≠ [] ∧ BadLine t) := by
  constructor
  · unfold Enc.apiEncode
    split
    · rename_i s t
      by_cases hne : s = []
      · simp [hne]
      rw [if_neg hne]
      rcases lineArgs_cases t with ⟨hb, h⟩ | ⟨hb, ⟨m, h⟩ | ⟨a, b, h, h1, h2, h3, h4⟩⟩
      · simp [h, Outcome.bind, hne, hb]
      · simp [h, Outcome.bind, hb]
      · have hf : n = 0 ∨ a ≤ 2147483641 := hfit.imp id fun g => h4 (g.1 _ _ rfl)
        obtain ⟨c, h5, -⟩ := Enc.runInto_eq he a b s true h1 (by omega) h2 hne _ (Nat.le_refl _)
        simp only [h, Outcome.bind, Int.toNat_natCast, h5]
        simp [hb]
    · rename_i h
      constructor
      · intro h; cases h
      · rintro ⟨s, t, e, -⟩
        exact absurd e (h s t)
  · unfold Enc.apiEncodeTo
    split
    · rename_i s d t
      by_cases hne : s = []
      · simp [hne]
      rw [if_neg hne]
      rcases lineArgs_cases t with ⟨hb, h⟩ | ⟨hb, ⟨m, h⟩ | ⟨a, b, h, h1, h2, h3, h4⟩⟩
      · simp [h, Outcome.bind, hne, hb]
      · simp [h, Outcome.bind, hb]
      · have hf : n = 0 ∨ a ≤ 2147483641 := hfit.imp id fun g => h4 (g.2 _ _ _ rfl)
        simp only [h, Outcome.bind, Int.toNat_natCast]
        split
        · simp [hb]
        · rename_i hl
          obtain ⟨c, h5, -⟩ := Enc.runInto_eq he a b s true h1 (by omega) h2 hne d.length (by omega)
          simp [h5, hb]
    · rename_i h
      constructor
      · intro h; cases h
      · rintro ⟨s, d, t, e, -⟩
        exact absurd e (h s d t)

end Undef

/-- C106: `encode` and `encodeTo` are undefined exactly if there is data and one of the line size and column is looked at though it is not an integer; every implementation, line sizes that are not one of the six
largest (for those, `C106_encode_vector`, and `C11_never_ub_false`). -/
theorem C106_encode (he : Enc.IsImpl eimpl) (args : List Arg)
    (hfit : ∀ s t, args = .buffer s :: t → FitsLine t) (hfitTo : ∀ s d t, args = .buffer s :: .buffer d :: t → FitsLine t) :
    (Enc.apiEncode eimpl args = .ub ↔ ∃ s t, args = .buffer s :: t ∧ s ≠ [] ∧ BadLine t) ∧
    (Enc.apiEncodeTo eimpl args = .ub ↔ ∃ s d t, args = .buffer s :: .buffer d :: t ∧ s ≠ [] ∧ BadLine t) :=
  Undef.encode_iff he.correct (by decide) args (.inr ⟨hfit, hfitTo⟩)

-- `encode(data, undefined)` and `encode(data, 128, "0")` are undefined; `encode(data, -1, "0")` throws
example : Enc.apiEncode Enc.encodeGeneric [.buffer [1#8], .other] = .ub ∧ Enc.apiEncode Enc.encodeGeneric [.buffer [1#8], .int 128, .other] = .ub ∧
    Enc.apiEncode Enc.encodeGeneric [.buffer [1#8], .int (-1), .other] ≠ .ub := by
  refine ⟨(C106_encode .generic _ ?_ ?_).1.2 ⟨_, _, rfl, by decide, _, _, rfl, .inl (by intro b h; cases h)⟩,
    (C106_encode .generic _ ?_ ?_).1.2 ⟨_, _, rfl, by decide, _, _, rfl, .inr ⟨128, _, _, rfl, by decide, rfl, by intro b h; cases h⟩⟩, fun h => ?_⟩
  · rintro s t ⟨⟩ n u e; cases e
  · rintro s d t e; cases e
  · rintro s t ⟨⟩ n u e; cases e; decide
  · rintro s d t e; cases e
  · obtain ⟨s, t, e, -, a, t', e', h | ⟨n, b, u, e2, h, -⟩⟩ := (C106_encode .generic _ (by rintro s t ⟨⟩ n u e; cases e; decide) (by rintro s d t e; cases e)).1.1 h
    · cases e; cases e'; exact h _ rfl
    · cases e; cases e'; cases e2; exact absurd h (by decide)

/-- C106: the same for the vectorised encoders, without exception. -/
theorem C106_encode_vector (he : Enc.IsImpl eimpl) (hv : eimpl ≠ Enc.encodeGeneric) (args : List Arg) :
    (Enc.apiEncode eimpl args = .ub ↔ ∃ s t, args = .buffer s :: t ∧ s ≠ [] ∧ BadLine t) ∧
    (Enc.apiEncodeTo eimpl args = .ub ↔ ∃ s d t, args = .buffer s :: .buffer d :: t ∧ s ≠ [] ∧ BadLine t) :=
  Undef.encode_iff (he.vector hv) (by decide) args (.inl rfl)

example (he : Enc.IsImpl eimpl) (hv : eimpl ≠ Enc.encodeGeneric) := C106_encode_vector he hv [.buffer [1#8], .int 2147483647, .int 2147483640]

end Yenc.Props
