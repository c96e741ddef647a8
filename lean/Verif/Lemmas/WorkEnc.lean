import Verif.Lemmas.Work
import Verif.Model.SharedEnc
/-! The number of reads that the vectorised encoders make. -/
namespace Yenc.Shared.SimdEnc
open Yenc Yenc.Enc Yenc.Enc.Simd

theorem tail_cost (ls : Int) (n f i : Nat) (w : W) (col : Int) (t : Nat) : (tail ls n f i w col).Cost (fun _ t' => t' ≤ t + (n - i)) t := by
  induction f generalizing i w col t with
  | zero => trivial
  | succ f ih =>
    unfold tail
    split
    · show t ≤ _; omega
    · intro c
      dsimp only
      split
      · exact (ih ..).mono fun x t' _ h => by omega
      · split
        · split
          · show t + 1 ≤ _; omega
          · intro d
            exact (ih ..).mono fun x t' _ h => by omega
        · exact (ih ..).mono fun x t' _ h => by omega

theorem rest_cost (ls : Int) (n i : Nat) (w : W) (col : Int) (t : Nat) : (rest ls n i w col).Cost (fun _ t' => t' ≤ t + n) t := by
  unfold rest
  split
  · split
    · show t ≤ _; omega
    · intro c
      exact (tail_cost ..).mono fun x t' _ h => by omega
  · exact (tail_cost ..).mono fun x t' _ h => by omega

/-- `c` bounds the reads of a kernel, for each byte of the input. -/
def Linear (c : Nat) (K : KernelProg) : Prop := ∀ ls col n d t, (K ls col n d).Cost (fun _ t' => t' ≤ t + c * (n + 1)) t

theorem loop_cost (K : Kernel) (rnd : Nat → Bool → Byte → (Nat → Byte) → Round) (ls : Int) (n f : Nat) (start : Bool) (d : D) (pos : Nat) (col : Int) (t : Nat) :
    (loop K rnd ls n f start d pos col).Cost (fun _ t' => t' ≤ t + (K.width + 2) * f) t := by
  induction f generalizing start d pos col t with
  | zero => trivial
  | succ f ih =>
    have hm : (K.width + 2) * (f + 1) = (K.width + 2) * f + K.width + 2 := by rw [Nat.mul_succ]; omega
    unfold loop
    refine cost_rds 1 fun prev _ => cost_rds _ fun bs _ => ?_
    dsimp only
    rw [hm]
    generalize (K.width + 2) * f = q at ih ⊢
    split
    · trivial
    · split
      · split
        · trivial
        · intro c
          dsimp only
          split
          · show t + 1 + K.width + 1 ≤ _; omega
          · exact (ih ..).mono fun x t' _ h => by omega
      · split
        · exact (ih ..).mono fun x t' _ h => by omega
        · show t + 1 + K.width ≤ _; omega

theorem lineStart_cost (ls : Int) (d : D) (pos : Nat) (col : Int) (t : Nat) : (lineStart ls d pos col).Cost (fun _ t' => t' ≤ t + 1) t := by
  unfold lineStart
  split
  · intro c; exact Nat.le_refl _
  · exact Nat.le_succ _

theorem run_linear (K : Kernel) (rnd : Nat → Bool → Byte → (Nat → Byte) → Round) : Linear (K.width + 5) (run K rnd) := by
  intro ls col n d t
  unfold run
  split
  · exact Nat.le_add_right _ _
  · refine Prog.Cost.bind (Prog.Cost.mono (Q := fun _ t' => t' ≤ t + 1) ?_ fun x t1 _ h1 => ?_)
    · unfold priming
      split
      · intro c; exact Nat.le_refl _
      · exact Nat.le_succ _
    refine Prog.Cost.bind (Prog.Cost.mono (Q := fun _ t' => t' ≤ t1 + 1) ?_ fun x t2 _ h2 => ?_)
    · unfold full
      split
      · intro c
        dsimp only
        split <;> exact Nat.le_refl _
      · exact Nat.le_succ _
    refine Prog.Cost.bind ((lineStart_cost ..).mono fun x t3 _ h3 => ?_)
    refine Prog.Cost.bind ((loop_cost ..).mono fun x t4 _ h4 => ?_)
    show t4 ≤ _
    have : (K.width + 5) * (n + 1) = (K.width + 2) * (n + 1) + 3 * (n + 1) := by rw [← Nat.add_mul]
    omega

theorem eolHandle_cost (K : EKernel) (ls : Int) (d : D) (pos t : Nat) : (eolHandle K ls d pos).Cost (fun _ t' => t' = t + K.eolWidth) t := by
  unfold eolHandle
  exact cost_rds _ fun bs _ => rfl

theorem eLoop_cost (K : EKernel) (ls : Int) (n f : Nat) (d : D) (pos : Nat) (col : Int) (t : Nat) :
    (eLoop K ls n f d pos col).Cost (fun _ t' => t' ≤ t + (K.width + K.eolWidth) * f) t := by
  induction f generalizing d pos col t with
  | zero => trivial
  | succ f ih =>
    have hm : (K.width + K.eolWidth) * (f + 1) = (K.width + K.eolWidth) * f + K.width + K.eolWidth := by rw [Nat.mul_succ]; omega
    unfold eLoop
    split
    · refine cost_rds _ fun bs _ => ?_
      dsimp only
      rw [hm]
      generalize (K.width + K.eolWidth) * f = q at ih ⊢
      split
      · split
        · trivial
        · refine Prog.Cost.bind ((eolHandle_cost ..).mono fun x t1 _ h1 => ?_)
          exact (ih ..).mono fun x t' _ h => by omega
      · exact (ih ..).mono fun x t' _ h => by omega
    · exact Nat.le_add_right _ _

theorem eRun_linear (K : EKernel) : Linear (K.width + 2 * K.eolWidth + 2) (eRun K) := by
  intro ls col n d t
  unfold eRun
  split
  · exact Nat.le_add_right _ _
  · refine Prog.Cost.bind ((lineStart_cost ..).mono fun x t1 _ h1 => ?_)
    refine Prog.Cost.bind (Prog.Cost.mono (Q := fun _ t' => t' ≤ t1 + K.eolWidth + 1) ?_ fun x t2 _ h2 => ?_)
    · unfold eFull
      split
      · split
        · exact (eolHandle_cost ..).mono fun _ _ _ h => by omega
        · intro c
          show t1 + 1 ≤ _; omega
      · show t1 ≤ _; omega
    refine Prog.Cost.bind ((eLoop_cost ..).mono fun x t4 _ h4 => ?_)
    show t4 ≤ _
    have : (K.width + 2 * K.eolWidth + 2) * (n + 1) = (K.width + K.eolWidth) * (n + 1) + (K.eolWidth + 2) * (n + 1) := by rw [← Nat.add_mul]; congr 1; omega
    have : K.eolWidth + 2 ≤ (K.eolWidth + 2) * (n + 1) := Nat.le_mul_of_pos_right _ (by omega)
    omega

theorem encode_cost {c : Nat} {K : KernelProg} (hK : Linear c K) (m0 : Mem) (ls col : Int) (n : Nat) (fin : Bool) (t : Nat) :
    (encode K m0 ls col n fin).Cost (fun _ t' => t' ≤ t + (c + 3) * (n + 1)) t := by
  have hm : (c + 3) * (n + 1) = c * (n + 1) + 3 * (n + 1) := Nat.add_mul ..
  unfold encode
  split
  · exact Nat.le_add_right _ _
  · split
    · exact (Shared.encode_cost ls col n ‹_› fin t).mono fun _ _ _ h => by omega
    · refine Prog.Cost.bind ((hK ..).mono fun x t1 _ h1 => ?_)
      refine Prog.Cost.bind ((rest_cost ..).mono fun x t2 _ h2 => ?_)
      split
      · split
        · trivial
        · show t2 ≤ _; omega
      · show t2 ≤ _; omega

theorem isEnc_linear {agree : Bool} {K : KernelProg} (h : IsEnc agree K) : ∃ c, Linear c K := by
  cases h with
  | sse c h rnd hr => exact ⟨_, run_linear _ _⟩
  | avx2 c rnd hr => exact ⟨_, run_linear _ _⟩
  | sseAgree c h => exact ⟨_, run_linear _ _⟩
  | avx2Agree c => exact ⟨_, run_linear _ _⟩
  | neon a64 => exact ⟨_, eRun_linear _⟩
  | rvv vl h junk => exact ⟨_, eRun_linear _⟩

end Yenc.Shared.SimdEnc
