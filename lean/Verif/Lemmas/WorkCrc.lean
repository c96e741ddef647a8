import Verif.Lemmas.Work
import Verif.Model.SharedCrc
/-! The number of reads that the CRC functions make. -/
namespace Yenc.Shared.SCrc
open Yenc Yenc.Crc

theorem cost_lift {α β : Type} {Q : β → Nat → Prop} {o : Option α} {f : α → Prog β} {t : Nat} (h : ∀ a, (f a).Cost Q t) : ((lift o).bind f).Cost Q t := by
  cases o with
  | none => trivial
  | some a => exact h a

theorem cost_loadu {β : Type} {Q : β → Nat → Prop} {B : Buf} {n off : Nat} {f : Vec → Prog β} {t : Nat} (h : off + n ≤ B.len → ∀ v, (f v).Cost Q (t + n)) :
    ((loadu B n off).bind f).Cost Q t := by
  unfold loadu
  split
  · rename_i hl
    exact Prog.Cost.bind (cost_rds n fun bs _ => h hl _)
  · trivial

theorem cost_load {β : Type} {Q : β → Nat → Prop} {B : Buf} {n off : Nat} {f : Vec → Prog β} {t : Nat} (h : off < B.len → ∀ v, (f v).Cost Q (t + min n (B.len - off))) :
    ((load B n off).bind f).Cost Q t := by
  unfold load
  split
  · rename_i hl
    exact Prog.Cost.bind (cost_rds _ fun bs _ => h hl.2 _)
  · trivial

/-! ### The portable code -/

theorem chains_cost (k : Nat) (a : Acc) (i t : Nat) : (chains k a i).Cost (fun r t' => r.2 = i + 16 * k ∧ t' = t + 16 * k) t := by
  induction k generalizing a i t with
  | zero => exact ⟨rfl, rfl⟩
  | succ k ih =>
    unfold chains
    refine cost_rds 16 fun bs _ => ?_
    split
    · exact (ih ..).mono fun r t' _ h => by omega
    · trivial

theorem aggregate_cost (n : Nat) (a : Acc) (i t : Nat) : (aggregate n a i).Cost (fun r t' => i ≤ r.2 ∧ t' = t + (r.2 - i) ∧ (r.2 = i + 16 ∧ (n - i) &&& 16 ≠ 0 ∨ r.2 = i + 12)) t := by
  unfold aggregate
  split
  · refine cost_rds 16 fun bs _ => ?_
    split
    · exact ⟨by simp, by simp, .inl ⟨rfl, ‹_›⟩⟩
    · trivial
  · refine cost_rds 12 fun bs _ => ?_
    split
    · exact ⟨by simp, by simp, .inr rfl⟩
    · trivial

theorem tail_cost (k : Nat) (crc : U32) (i t : Nat) : (tail k crc i).Cost (fun _ t' => t' = t + k) t := by
  induction k generalizing crc i t with
  | zero => exact rfl
  | succ k ih => exact fun b => (ih ..).mono fun _ t' _ h => by omega

/-- Every byte is read once. -/
theorem generic_cost (B : Buf) (init : U32) (t : Nat) : (generic B init).Cost (fun _ t' => t' = t + B.len) t := by
  unfold generic
  have h1 : (align1 B (~~~init)).Cost (fun r t' => r.2.2 ≤ B.len ∧ t' = t + r.2.2) t := by
    unfold align1
    split
    · exact fun b => ⟨by simp; omega, rfl⟩
    · exact ⟨by simp, rfl⟩
  refine Prog.Cost.bind (h1.mono fun r t1 _ h1 => ?_)
  have h2 : (align2 B r.1 r.2.1 r.2.2).Cost (fun r t' => r.2 ≤ B.len ∧ t' = t + r.2) t1 := by
    unfold align2
    split
    · exact fun b c => ⟨by simp; omega, by simp; omega⟩
    · exact ⟨h1.1, h1.2⟩
  refine Prog.Cost.bind (h2.mono fun r t2 _ h2 => ?_)
  split
  · rename_i h3
    refine Prog.Cost.bind ((chains_cost ..).mono fun x t3 _ h4 => ?_)
    refine Prog.Cost.bind ((aggregate_cost ..).mono fun y t4 _ h5 => ?_)
    refine Prog.Cost.bind ((tail_cost ..).mono fun c t5 _ h6 => ?_)
    show t5 = _
    have h7 : B.len - x.2 < 28 := by omega
    have h8 : (B.len - x.2) &&& 16 ≠ 0 → 16 ≤ B.len - x.2 := by
      intro h
      have key : ∀ m, m < 16 → m &&& 16 = 0 := by decide
      rcases Nat.lt_or_ge (B.len - x.2) 16 with hm | hm
      · exact absurd (key _ hm) h
      · exact hm
    rcases h5.2.2 with ⟨h9, h10⟩ | h9
    · have := h8 h10; omega
    · omega
  · refine Prog.Cost.bind ((tail_cost ..).mono fun c t3 _ h6 => ?_)
    show t3 = _
    omega

/-! ### crcutil -/
namespace Util
open Yenc.Crc.Util

theorem cost_word {β : Type} {Q : β → Nat → Prop} {B : Buf} {off : Nat} {f : U64 → Prog β} {t : Nat} (h : off + 8 ≤ B.len → ∀ v, (f v).Cost Q (t + 8)) :
    ((load B off).bind f).Cost Q t := by
  refine Prog.Cost.bind ?_
  unfold load
  exact cost_loadu fun hl v => h hl _

theorem align_cost (tb : Tables) (B : Buf) (f : Nat) (crc : U64) (src : Nat) (hs : src ≤ B.len) (t : Nat) :
    (align tb B f crc src).Cost (fun r t' => src ≤ r.2 ∧ r.2 ≤ B.len ∧ t' = t + (r.2 - src)) t := by
  induction f generalizing crc src t with
  | zero => trivial
  | succ f ih =>
    unfold align
    split
    · split
      · exact fun b => cost_lift fun c => (ih c (src + 1) (by omega) (t + 1)).mono fun r t' _ h => by omega
      · exact ⟨by simp, hs, by simp⟩
    · exact ⟨by simp, hs, by simp⟩

theorem alignIfNeeded_cost (tb : Tables) (B : Buf) (crc : U64) (t : Nat) : (alignIfNeeded tb B crc).Cost (fun r t' => r.2 ≤ B.len ∧ t' = t + r.2) t := by
  unfold alignIfNeeded
  split
  · exact (align_cost tb B _ crc 0 (by omega) t).mono fun r t' _ h => by omega
  · exact ⟨by simp, rfl⟩

theorem words_cost (g : List (List U64) → U64 → Option U64) (tb : Tables) (B : Buf) (stop : Int) (f : Nat) (crc : U64) (src : Nat) (hs : src ≤ B.len) (t : Nat) :
    (words g tb B stop f crc src).Cost (fun r t' => src ≤ r.2 ∧ r.2 ≤ B.len ∧ t' = t + (r.2 - src)) t := by
  induction f generalizing crc src t with
  | zero => trivial
  | succ f ih =>
    unfold words
    split
    · exact cost_word fun hl b => cost_lift fun c => (ih c (src + 8) hl (t + 8)).mono fun r t' _ h => by omega
    · exact ⟨by simp, hs, by simp⟩

theorem bytes_cost (tb : Tables) (B : Buf) (f : Nat) (crc : U64) (src : Nat) (hs : src ≤ B.len) (t : Nat) :
    (bytes tb B f crc src).Cost (fun _ t' => t' = t + (B.len - src)) t := by
  induction f generalizing crc src t with
  | zero => trivial
  | succ f ih =>
    unfold bytes
    split
    · exact fun b => cost_lift fun c => (ih c (src + 1) (by omega) (t + 1)).mono fun r t' _ h => by omega
    · show t = _; omega

theorem mainLoop_cost (st : Style) (tb : Tables) (B : Buf) (stop : Int) (f src : Nat) (r : Regs) (t : Nat) :
    (mainLoop st tb B stop f src r).Cost (fun x t' => src ≤ x.2 ∧ x.2 + 32 ≤ B.len ∧ t' = t + (x.2 - src)) t := by
  induction f generalizing src r t with
  | zero => trivial
  | succ f ih =>
    unfold mainLoop
    refine Prog.Cost.bind ?_
    unfold round
    refine cost_lift fun _ => cost_lift fun _ => cost_lift fun _ => cost_lift fun _ => cost_word fun _ _ => cost_word fun _ _ => cost_word fun _ _ => cost_word fun hl _ => ?_
    dsimp only [Prog.Cost]
    split
    · exact (ih ..).mono fun x t' _ h => by omega
    · exact ⟨by simp, by simp; omega, by simp⟩

theorem interleaved_cost (st : Style) (tb : Tables) (B : Buf) (stop : Int) (crc : U64) (src : Nat) (hs : src ≤ B.len) (t : Nat) :
    (interleaved st tb B stop crc src).Cost (fun r t' => src ≤ r.2 ∧ r.2 ≤ B.len ∧ t' = t + (r.2 - src)) t := by
  unfold interleaved
  split
  · refine cost_word fun _ _ => cost_word fun _ _ => cost_word fun _ _ => cost_word fun _ _ => ?_
    refine Prog.Cost.bind ((mainLoop_cost ..).mono fun x t' _ h => ?_)
    refine cost_lift fun _ => cost_lift fun _ => cost_lift fun _ => cost_lift fun _ => ?_
    exact ⟨by simp; omega, h.2.1, by simp; omega⟩
  · exact ⟨by simp, hs, by simp⟩

theorem long_cost (st : Style) (tb : Tables) (B : Buf) (start : U64) (t : Nat) : (long st tb B start).Cost (fun _ t' => t' = t + B.len) t := by
  unfold long
  refine Prog.Cost.bind ((alignIfNeeded_cost ..).mono fun x t1 _ h1 => ?_)
  split
  · show t1 = _; omega
  · refine Prog.Cost.bind ((interleaved_cost _ _ _ _ _ _ h1.1 _).mono fun x t2 _ h2 => ?_)
    refine Prog.Cost.bind ((words_cost _ _ _ _ _ _ _ h2.2.1 _).mono fun x t3 _ h3 => ?_)
    refine Prog.Cost.bind ((bytes_cost _ _ _ _ _ h3.2.1 _).mono fun x t4 _ h4 => ?_)
    show t4 = _; omega

theorem longIntrinsic_cost (st : Style) (tb : Tables) (B : Buf) (start : U64) (t : Nat) : (longIntrinsic st tb B start).Cost (fun _ t' => t' = t + B.len) t := by
  unfold longIntrinsic
  refine Prog.Cost.bind ((alignIfNeeded_cost ..).mono fun x t1 _ h1 => ?_)
  split
  · show t1 = _; omega
  · dsimp only
    refine Prog.Cost.bind (Prog.Cost.mono (Q := fun (r : U64 × Nat) t' => x.2 ≤ r.2 ∧ r.2 ≤ B.len ∧ t' = t1 + (r.2 - x.2)) ?_ fun x t2 _ h2 => ?_)
    · split
      · exact interleaved_cost _ _ _ _ _ _ h1.1 _
      · exact ⟨Nat.le_refl _, h1.1, by simp⟩
    · refine Prog.Cost.bind (Prog.Cost.mono (Q := fun (r : U64 × Nat) t' => x.2 ≤ r.2 ∧ r.2 ≤ B.len ∧ t' = t2 + (r.2 - x.2)) ?_ fun x t3 _ h3 => ?_)
      · split
        · exact words_cost _ _ _ _ _ _ _ h2.2.1 _
        · exact ⟨Nat.le_refl _, h2.2.1, by simp⟩
      · refine Prog.Cost.bind ((bytes_cost _ _ _ _ _ h3.2.1 _).mono fun x t4 _ h4 => ?_)
        show t4 = _; omega

theorem short_cost (tb : Tables) (B : Buf) (start : U64) (t : Nat) : (short tb B start).Cost (fun _ t' => t' = t + B.len) t :=
  Prog.Cost.bind ((bytes_cost _ _ _ _ _ (Nat.zero_le _) _).mono fun x t4 _ h4 => by show t4 = _; omega)

theorem nested_cost (tb : Tables) (B : Buf) (k n : Nat) (crc : U64) (src : Nat) (hs : src ≤ B.len) (t : Nat) :
    (nested tb B k n crc src).Cost (fun r t' => src ≤ r.2 ∧ r.2 ≤ B.len ∧ t' = t + (r.2 - src)) t := by
  induction k generalizing n crc src t with
  | zero => exact ⟨by simp, hs, by simp⟩
  | succ f ih =>
    unfold nested
    split
    · exact cost_word fun hl b => cost_lift fun c => (ih _ c (src + 8) hl (t + 8)).mono fun r t' _ h => by omega
    · exact ⟨by simp, hs, by simp⟩

theorem multiword_cost (target : Target) (tb : Tables) (B : Buf) (start : U64) (t : Nat) : (multiword target tb B start).Cost (fun _ t' => t' = t + B.len) t := by
  unfold multiword
  cases target with
  | template => exact long_cost ..
  | gccAmd64 =>
    dsimp only
    split
    · refine Prog.Cost.bind ((nested_cost _ _ _ _ _ _ (Nat.zero_le _) _).mono fun x t1 _ h1 => ?_)
      refine Prog.Cost.bind ((bytes_cost _ _ _ _ _ h1.2.1 _).mono fun x t4 _ h4 => ?_)
      show t4 = _; omega
    · exact long_cost ..
  | gccI386 => 
    dsimp only
    split
    · exact short_cost ..
    · exact long_cost ..
  | clangI386 => 
    dsimp only
    split
    · exact short_cost ..
    · exact longIntrinsic_cost ..
  | clI386 => 
    dsimp only
    split
    · exact short_cost ..
    · exact long_cost ..

theorem incr_cost (target : Target) (B : Buf) (init : U32) (t : Nat) : (incr target B init).Cost (fun _ t' => t' = t + B.len) t :=
  cost_lift fun _ => Prog.Cost.bind ((multiword_cost ..).mono fun _ _ _ h => h)

end Util

/-! ### x86 -/
namespace X86
open Yenc.Crc.X86

theorem loop64_cost (avx : Bool) (B : Buf) (f off len : Nat) (r : Regs) (t : Nat) :
    (loop64 avx B f off len r).Cost (fun x t' => x.2.2 ≤ len ∧ t' ≤ t + (len - x.2.2) ∧ x.2.2 < 64) t := by
  induction f generalizing off len r t with
  | zero => trivial
  | succ f ih =>
    unfold loop64
    split
    · refine cost_load fun _ _ => cost_load fun _ _ => cost_load fun _ _ => cost_load fun _ _ => ?_
      exact (ih ..).mono fun x t' _ h => by omega
    · exact ⟨by simp, by simp, by simp; omega⟩

theorem blocks16_cost (avx : Bool) (B : Buf) (off len : Nat) (r : Regs) (t : Nat) :
    (blocks16 avx B off len r).Cost (fun x t' => x.2.2 ≤ len ∧ t' ≤ t + (len - x.2.2)) t := by
  unfold blocks16
  split
  · exact cost_load fun _ _ => cost_load fun _ _ => cost_load fun _ _ => ⟨by simp, by simp; omega⟩
  · split
    · exact cost_load fun _ _ => cost_load fun _ _ => ⟨by simp, by simp; omega⟩
    · split
      · exact cost_load fun _ _ => ⟨by simp, by simp; omega⟩
      · exact ⟨by simp, by simp⟩

theorem crcFold_cost (avx : Bool) (B : Buf) (init : U32) (t : Nat) : (crcFold avx B init).Cost (fun _ t' => t' ≤ t + B.len + 32) t := by
  unfold crcFold
  split
  · split
    · show t ≤ _; omega
    · exact cost_rds _ fun bs _ => by show t + B.len ≤ _; omega
  · dsimp only
    refine Prog.Cost.bind (Prog.Cost.mono (Q := fun _ t' => t' ≤ t + 16) ?_ fun r t1 _ h1 => ?_)
    · unfold first
      split
      · show t ≤ _; omega
      · exact cost_loadu fun _ _ => by show t + 16 ≤ _; omega
    · refine Prog.Cost.bind ((loop64_cost ..).mono fun x t2 _ h2 => ?_)
      refine Prog.Cost.bind ((blocks16_cost ..).mono fun x t3 _ h3 => ?_)
      split
      · show t3 ≤ _; omega
      · refine cost_load fun _ _ => ?_
        show t3 + _ ≤ _; omega

theorem loop64_256_cost (avx : Bool) (B : Buf) (f off len : Nat) (r : Regs2) (t : Nat) :
    (loop64_256 avx B f off len r).Cost (fun x t' => x.2.2 ≤ len ∧ t' ≤ t + (len - x.2.2)) t := by
  induction f generalizing off len r t with
  | zero => trivial
  | succ f ih =>
    unfold loop64_256
    split
    · refine cost_load fun _ _ => cost_load fun _ _ => ?_
      exact (ih ..).mono fun x t' _ h => by omega
    · exact ⟨by simp, by simp⟩

theorem block32_cost (avx : Bool) (B : Buf) (off len : Nat) (r : Regs2) (t : Nat) :
    (block32 avx B off len r).Cost (fun x t' => x.2.2 ≤ len ∧ t' ≤ t + (len - x.2.2)) t := by
  unfold block32
  split
  · exact cost_load fun _ _ => ⟨by simp, by simp; omega⟩
  · exact ⟨by simp, by simp⟩

theorem crcFold256_cost (avx : Bool) (B : Buf) (init : U32) (t : Nat) : (crcFold256 avx B init).Cost (fun _ t' => t' ≤ t + B.len + 64) t := by
  unfold crcFold256
  split
  · split
    · show t ≤ _; omega
    · exact cost_rds _ fun bs _ => by show t + B.len ≤ _; omega
  · dsimp only
    refine Prog.Cost.bind (Prog.Cost.mono (Q := fun _ t' => t' ≤ t + 32) ?_ fun r t1 _ h1 => ?_)
    · unfold first256
      split
      · show t ≤ _; omega
      · exact cost_loadu fun _ _ => by show t + 32 ≤ _; omega
    · refine Prog.Cost.bind ((loop64_256_cost ..).mono fun x t2 _ h2 => ?_)
      refine Prog.Cost.bind ((block32_cost ..).mono fun x t3 _ h3 => ?_)
      split
      · show t3 ≤ _; omega
      · refine cost_load fun _ _ => ?_
        show t3 + _ ≤ _; omega

end X86

/-! ### ARM -/
namespace Arm
open Yenc.Crc.Arm

/-- The program reads what it passes over. -/
def Passes (k : Nat) (f : U32 × Nat → Prog (U32 × Nat)) : Prop := ∀ st t, (f st).Cost (fun r t' => st.2 ≤ r.2 ∧ r.2 ≤ st.2 + k ∧ t' = t + (r.2 - st.2)) t

theorem word_passes (B : Buf) (n : Nat) : Passes n (word B n) := by
  intro st t
  exact cost_loadu fun _ _ => ⟨by simp, by simp, by simp⟩

theorem words_passes (B : Buf) (n k : Nat) : Passes (n * k) (words B n k) := by
  induction k with
  | zero => exact fun st t => ⟨Nat.le_refl _, by simp, by simp⟩
  | succ k ih =>
    intro st t
    refine Prog.Cost.bind ((word_passes B n st t).mono fun r t1 _ h1 => ?_)
    refine (ih r t1).mono fun x t2 _ h2 => ?_
    rw [Nat.mul_succ]; omega

theorem cond_passes (c : Bool) (k : Nat) (f : U32 × Nat → Prog (U32 × Nat)) (h : Passes k f) : Passes k (cond c f) := by
  intro st t
  unfold cond
  split
  · exact h st t
  · exact ⟨Nat.le_refl _, by simp, by simp⟩

theorem Passes.bind {k k' : Nat} {f g : U32 × Nat → Prog (U32 × Nat)} (hf : Passes k f) (hg : Passes k' g) : Passes (k + k') (fun st => (f st).bind g) := by
  intro st t
  refine Prog.Cost.bind ((hf st t).mono fun r t1 _ h1 => (hg r t1).mono fun x t2 _ h2 => ?_)
  omega

theorem loop_cost (W : Nat) (B : Buf) (f : Nat) (st : U32 × Nat) (len : Int) (hl : 0 ≤ len) (t : Nat) : (loop W B f st len).Cost (fun _ t' => (t' : Int) ≤ t + len) t := by
  induction f generalizing st len t with
  | zero => trivial
  | succ f ih =>
    unfold loop
    split
    · refine Prog.Cost.bind ((words_passes B W 8 st t).mono fun r t1 _ h1 => ?_)
      refine (ih r _ (by omega) t1).mono fun x t2 _ h2 => ?_
      omega
    · show (t : Int) ≤ _; omega

theorem tail_passes (L : Nat) (hL : L = 2 ∨ L = 3) (B : Buf) (len : Int) : Passes 63 (tail L B len) := by
  have h1 := words_passes B (2 ^ L) 4
  have h2 := words_passes B (2 ^ L) 2
  have h3 := words_passes B (2 ^ L) 1
  have key := (cond_passes (bitOf len (L + 2)) _ _ h1).bind ((cond_passes (bitOf len (L + 1)) _ _ h2).bind ((cond_passes (bitOf len L) _ _ h3).bind
    ((cond_passes (L = 3 ∧ bitOf len 2) _ _ (word_passes B 4)).bind ((cond_passes (bitOf len 1) _ _ (word_passes B 2)).bind (cond_passes (bitOf len 0) _ _ (word_passes B 1))))))
  intro st t
  refine (key st t).mono fun r t' _ h => ?_
  have : 2 ^ L ≤ 8 := by rcases hL with rfl | rfl <;> decide
  omega

theorem armCalc_cost (L : Nat) (hL : L = 2 ∨ L = 3) (B : Buf) (crc : U32) (t : Nat) : (armCalc L B crc).Cost (fun _ t' => t' ≤ t + B.len + 70) t := by
  unfold armCalc
  have h0 : Passes 7 (align (2 ^ L) B B.len) := by
    intro st t
    unfold align
    split
    · have key := (cond_passes ((B.addr + st.2) % 2 = 1) _ _ (word_passes B 1))
      refine Prog.Cost.bind ((key st t).mono fun r t1 _ h1 => ?_)
      refine Prog.Cost.bind ((cond_passes _ _ _ (word_passes B 2) r t1).mono fun r t2 _ h2 => ?_)
      refine (cond_passes _ _ _ (word_passes B 4) r t2).mono fun r t3 _ h3 => ?_
      omega
    · exact ⟨Nat.le_refl _, by simp, by simp⟩
  refine Prog.Cost.bind ((h0 (crc, 0) t).mono fun st t1 _ h1 => ?_)
  dsimp only at h1
  by_cases hle : (0 : Int) ≤ (B.len : Int) - st.2
  · refine Prog.Cost.bind ((loop_cost _ _ _ _ _ hle _).mono fun x t2 _ h2 => ?_)
    refine Prog.Cost.bind ((tail_passes L hL B _ _ _).mono fun x t3 _ h3 => ?_)
    show t3 ≤ _
    omega
  · -- not possible, and then the loop makes no round
    refine Prog.Cost.bind (Prog.Cost.mono (Q := fun _ t' => t' = t1) ?_ fun x t2 _ h2 => ?_)
    · unfold loop
      split
      · omega
      · exact rfl
    · refine Prog.Cost.bind ((tail_passes L hL B _ _ _).mono fun x t3 _ h3 => ?_)
      show t3 ≤ _
      omega

end Arm

/-! ### RISC-V -/
namespace Rv
open Yenc.Crc.Rv

theorem cost_full {β : Type} {Q : β → Nat → Prop} {w : Nat} {B : Buf} {off : Nat} {f : BitVec w → Prog β} {t : Nat} (h : ∀ v, (f v).Cost Q (t + w / 8)) :
    ((readFull w B off).bind f).Cost Q t := by
  refine Prog.Cost.bind ?_
  unfold readFull
  split
  · exact cost_loadu fun _ _ => h _
  · trivial

theorem cost_partial {β : Type} {Q : β → Nat → Prop} {w : Nat} {B : Buf} {off sz : Nat} {f : BitVec w → Prog β} {t : Nat} (h : ∀ v, (f v).Cost Q (t + sz)) :
    ((readPartial w B off sz).bind f).Cost Q t := by
  refine Prog.Cost.bind ?_
  unfold readPartial
  exact cost_loadu fun _ _ => h _

theorem loop_cost {w : Nat} (B : Buf) (f : Nat) (a : Crc.Rv.Acc w) (off : Nat) (len : Int) (hl : 0 ≤ len) (t : Nat) : (loop B f a off len).Cost (fun _ t' => (t' : Int) ≤ t + len) t := by
  induction f generalizing a off len t with
  | zero => trivial
  | succ f ih =>
    unfold loop
    split
    · refine cost_full fun _ => cost_full fun _ => cost_full fun _ => cost_full fun _ => ?_
      exact (ih _ _ _ (by omega) _).mono fun x t' _ h => by omega
    · show (t : Int) ≤ _; omega

theorem crcCalc_cost (w : Nat) (hw : w = 64 ∨ w = 32) (B : Buf) (crc : U32) (t : Nat) : (crcCalc w B crc).Cost (fun _ t' => t' ≤ t + B.len + 40) t := by
  unfold crcCalc
  have hw8 : w / 8 ≤ 8 ∧ 0 < w / 8 := by rcases hw with rfl | rfl <;> decide
  have h0 : (align B B.len (start w crc)).Cost (fun x t' => (0 : Int) ≤ x.2.2 ∧ (t' : Int) + x.2.2 ≤ t + B.len) t := by
    unfold align
    dsimp only
    split
    · refine cost_partial fun d => ?_
      split
      · exact ⟨by dsimp only; omega, by dsimp only; omega⟩
      · exact ⟨by dsimp only; omega, by dsimp only; omega⟩
    · exact ⟨by dsimp only; omega, by dsimp only; omega⟩
  refine Prog.Cost.bind (h0.mono fun x t1 _ h1 => ?_)
  refine Prog.Cost.bind ((loop_cost _ _ _ _ _ h1.1 _).mono fun y t2 _ h2 => ?_)
  refine Prog.Cost.bind (Prog.Cost.mono (Q := fun _ t' => t' ≤ t2 + 16) ?_ fun z t3 _ h3 => ?_)
  · unfold two
    split
    · refine cost_full fun _ => cost_full fun _ => ?_
      show _ + _ + _ ≤ _; omega
    · show t2 ≤ _; omega
  refine Prog.Cost.bind (Prog.Cost.mono (Q := fun _ t' => t' ≤ t3 + 8) ?_ fun z t4 _ h4 => ?_)
  · unfold one
    split
    · refine cost_full fun _ => ?_
      show _ + _ ≤ _; omega
    · show t3 ≤ _; omega
  refine Prog.Cost.bind (Prog.Cost.mono (Q := fun _ t' => t' ≤ t4 + 8) ?_ fun z t5 _ h5 => ?_)
  · unfold rest
    dsimp only
    split
    · refine cost_partial fun _ => ?_
      show _ + _ ≤ _
      have : (y.2.2 % ((w / 8 : Nat) : Int)).toNat < w / 8 := by
        have := Int.emod_lt_of_pos y.2.2 (b := ((w / 8 : Nat) : Int)) (by omega)
        have := Int.emod_nonneg y.2.2 (b := ((w / 8 : Nat) : Int)) (by omega)
        omega
      omega
    · show t4 ≤ _; omega
  show t5 ≤ _; omega

end Rv

/-- Whatever the implementation: one read for each byte, and at most 70 more. -/
theorem incr_cost {p : Buf → U32 → Prog U32} (h : IsIncr p) (B : Buf) (init : U32) (t : Nat) : (p B init).Cost (fun _ t' => t' ≤ t + B.len + 70) t := by
  cases h with
  | generic => exact (generic_cost B init t).mono fun _ _ _ h => by omega
  | crcutil target => exact (Util.incr_cost target B init t).mono fun _ _ _ h => by omega
  | clmul avx => exact (X86.crcFold_cost avx B init t).mono fun _ _ _ h => by omega
  | clmul256 avx => exact (X86.crcFold256_cost avx B init t).mono fun _ _ _ h => by omega
  | arm L hL => exact Prog.Cost.bind ((Arm.armCalc_cost L hL B _ t).mono fun _ _ _ h => h)
  | riscv w hw => exact Prog.Cost.bind ((Rv.crcCalc_cost w hw B _ t).mono fun _ t' _ h => by show t' ≤ _; omega)

end Yenc.Shared.SCrc
