import Verif.Lemmas.SharedCrc
/-! crcutil on data that changes. -/
namespace Yenc.Shared.SCrc
open Yenc Yenc.Crc Yenc.Crc.Util

theorem getD_of_lt {l : List Byte} {i : Nat} (d : Byte) (h : i < l.length) : l.getD i d = l[i] := by
  rw [List.getD_eq_getElem?_getD, List.getElem?_eq_getElem h]; rfl

theorem Util.load_sim (B : Buf) (off : Nat) : Sim B (Util.load B off) (fun S => Crc.Util.load S off) off (fun _ => off + 8) :=
  Sim.num (fun v => BitVec.ofNat 64 v) fun _ => rfl

theorem Util.align_sim (t : Tables) (B : Buf) (f : Nat) (crc : U64) (src : Nat) (hf : B.len < f + src) :
    Sim B (Util.align t B f crc src) (fun S => Crc.Util.align t S crc src) src (·.2) := by
  induction f generalizing crc src with
  | zero => intro s l0 h1 h2; omega
  | succ f ih =>
    rw [Util.align]
    by_cases h : (B.addr + src) % 8 ≠ 0
    · rw [if_pos h]
      by_cases hl : src < B.len
      · rw [if_pos hl]
        refine Sim.congr (Sim.rd (g := fun b S => (crcByte t crc b).bind fun crc => Crc.Util.align t S crc (src + 1)) hl fun b =>
          (Sim.lift (crcByte t crc b)).bind fun crc _ => ih crc (src + 1) (by omega)) ?_
        intro S hS hn
        rw [Crc.Util.align.eq_def, hS, if_pos h, dif_pos (by omega), getD_of_lt _ (by omega)]
      · rw [if_neg hl]
        refine Sim.congr (Sim.ret _ rfl) ?_
        intro S hS hn
        rw [Crc.Util.align.eq_def, hS, if_pos h, dif_neg (by omega)]
    · rw [if_neg h]
      refine Sim.congr (Sim.ret _ rfl) ?_
      intro S hS hn
      rw [Crc.Util.align.eq_def, hS, if_neg h]

theorem Util.alignIfNeeded_sim (t : Tables) (B : Buf) (crc : U64) : Sim B (Util.alignIfNeeded t B crc) (fun S => Crc.Util.alignIfNeeded t S crc) 0 (·.2) := by
  refine Sim.congr (Sim.ite (B.len > 1024) (fun _ => Util.align_sim t B _ crc 0 (by omega)) fun _ => Sim.ret _ rfl) ?_
  intro S _ hn
  rw [Crc.Util.alignIfNeeded, hn]

theorem Util.words_sim (f : List (List U64) → U64 → Option U64) (t : Tables) (B : Buf) (stop : Int) (fuel : Nat) (crc : U64) (src : Nat) (hf : B.len < fuel + src) :
    Sim B (Util.words f t B stop fuel crc src) (fun S => Crc.Util.words f t S stop crc src) src (·.2) := by
  induction fuel generalizing crc src with
  | zero => intro s l0 h1 h2; omega
  | succ fuel ih =>
    rw [Util.words]
    refine Sim.congr (Sim.ite ((src : Int) < stop) (fun _ => (Util.load_sim B src).bind fun buf _ => (Sim.lift (f t.word (buf ^^^ crc))).bind fun crc _ => ih crc (src + 8) (by omega))
      fun _ => Sim.ret _ rfl) ?_
    intro S _ _
    rw [Crc.Util.words.eq_def]

theorem Util.bytes_fin (t : Tables) (B : Buf) (f : Nat) (crc : U64) (src : Nat) (hf : B.len < f + src) :
    Fin B (Util.bytes t B f crc src) (fun S => Crc.Util.bytes t S crc src) src := by
  suffices h : Sim B (Util.bytes t B f crc src) (fun S => Crc.Util.bytes t S crc src) src (fun _ => max src B.len) from h.fin
  induction f generalizing crc src with
  | zero => intro s l0 h1 h2; omega
  | succ f ih =>
    rw [Util.bytes]
    by_cases hl : src < B.len
    · rw [if_pos hl]
      refine Sim.congr (Sim.rd (g := fun b S => (crcByte t crc b).bind fun crc => Crc.Util.bytes t S crc (src + 1)) hl fun b =>
        (Sim.lift (crcByte t crc b)).bind fun crc _ => (ih crc (src + 1) (by omega)).hi fun _ => by omega) ?_
      intro S hS hn
      rw [Crc.Util.bytes.eq_def, dif_pos (by omega), getD_of_lt _ (by omega)]
    · rw [if_neg hl]
      intro s l0 h1 h2 h3 h4
      refine ⟨l0, by show _ = max src B.len; omega, by show max src B.len ≤ _; omega, h3, List.prefix_refl _, ?_⟩
      intro S hS
      simp only
      have := hS.len
      rw [Crc.Util.bytes.eq_def, dif_neg (by omega)]

theorem Util.round_sim (st : Style) (t : Tables) (B : Buf) (src : Nat) (r : Regs) :
    Sim B (Util.round st t B src r) (fun S => Crc.Util.round st t S src r) src (fun _ => src + 32) :=
  (Sim.lift _).bind fun c0 _ => (Sim.lift _).bind fun c1 _ => (Sim.lift _).bind fun c2 _ => (Sim.lift _).bind fun c3 _ =>
  (Util.load_sim B src).bind fun b0 _ => (Util.load_sim B (src + 8)).bind fun b1 _ => (Util.load_sim B (src + 16)).bind fun b2 _ => (Util.load_sim B (src + 24)).bind fun b3 _ =>
  Sim.ret _ rfl

theorem Util.mainLoop_sim (st : Style) (t : Tables) (B : Buf) (stop : Int) (f src : Nat) (r : Regs) (hf : B.len < f + src + 32) :
    Sim B (Util.mainLoop st t B stop f src r) (fun S => Crc.Util.mainLoop st t S stop src r) (src + 32) (·.2 + 32) := by
  induction f generalizing src r with
  | zero => intro s l0 h1 h2; omega
  | succ f ih =>
    rw [Util.mainLoop]
    refine Sim.congr ((Util.round_sim st t B (src + 32) r).bind fun r _ =>
      Sim.ite (((src + 32 : Nat) : Int) < stop) (fun _ => ih (src + 32) r (by omega)) fun _ => Sim.ret _ rfl) ?_
    intro S _ _
    rw [Crc.Util.mainLoop.eq_def]

theorem Util.interleaved_sim (st : Style) (t : Tables) (B : Buf) (stop : Int) (crc : U64) (src : Nat) :
    Sim B (Util.interleaved st t B stop crc src) (fun S => Crc.Util.interleaved st t S stop crc src) src (·.2) :=
  Sim.ite _ (fun _ => (Util.load_sim B src).bind fun b0 _ => (Util.load_sim B (src + 8)).bind fun b1 _ => (Util.load_sim B (src + 16)).bind fun b2 _ =>
    (Util.load_sim B (src + 24)).bind fun b3 _ => (Util.mainLoop_sim st t B stop _ src _ (by omega)).bind fun x _ =>
    (Sim.lift _).bind fun c _ => (Sim.lift _).bind fun c _ => (Sim.lift _).bind fun c _ => (Sim.lift _).bind fun c _ => Sim.ret _ rfl) fun _ => Sim.ret _ rfl

theorem Util.long_fin (st : Style) (t : Tables) (B : Buf) (start : U64) : Fin B (Util.long st t B start) (fun S => Crc.Util.long st t S start) 0 := by
  refine Fin.congr ((Util.alignIfNeeded_sim t B _).bindFin fun x _ => Fin.ite (x.2 ≥ B.len) (fun _ => (Sim.ret (hi := fun _ => x.2) _ rfl).fin) fun _ =>
    (Util.interleaved_sim st t B _ x.1 x.2).bindFin fun x _ => (Util.words_sim st.word t B ((B.len : Int) - 7) (B.len + 1) x.1 x.2 (by omega)).bindFin fun x _ =>
    (Util.bytes_fin t B (B.len + 1) x.1 x.2 (by omega)).map fun crc => crc ^^^ t.base.canonize) ?_
  intro S _ hn
  rw [Crc.Util.long, hn]
  simp only [Option.bind_eq_bind, Option.map_eq_bind]
  rfl

theorem Util.longIntrinsic_fin (st : Style) (t : Tables) (B : Buf) (start : U64) : Fin B (Util.longIntrinsic st t B start) (fun S => Crc.Util.longIntrinsic st t S start) 0 := by
  refine Fin.congr ((Util.alignIfNeeded_sim t B _).bindFin fun x _ => Fin.ite (x.2 ≥ B.len) (fun _ => (Sim.ret (hi := fun _ => x.2) _ rfl).fin) fun _ =>
    (Sim.ite (B.len - x.2 - (B.len - x.2) % 32 > 4 * 8) (fun _ => Util.interleaved_sim st t B _ x.1 x.2) fun _ => Sim.ret (x.1, x.2) rfl).bindFin fun x _ =>
    (Sim.ite (B.len - x.2 - (B.len - x.2) % 8 > 0) (fun _ => Util.words_sim st.word t B _ (B.len + 1) x.1 x.2 (by omega)) fun _ => Sim.ret (x.1, x.2) rfl).bindFin fun x _ =>
    (Util.bytes_fin t B (B.len + 1) x.1 x.2 (by omega)).map fun crc => crc ^^^ t.base.canonize) ?_
  intro S _ hn
  rw [Crc.Util.longIntrinsic, hn]
  simp only [Option.bind_eq_bind, Option.map_eq_bind]
  congr 1
  funext x
  split
  · rfl
  · split
    · congr 1
      funext x
      split <;> rfl
    · rename_i h1 h2
      simp only [Option.bind_some]
      split <;> rfl

theorem Util.short_fin (t : Tables) (B : Buf) (start : U64) : Fin B (Util.short t B start) (fun S => Crc.Util.short t S start) 0 :=
  (Util.bytes_fin t B _ _ 0 (by omega)).map _

theorem Util.nested_sim (t : Tables) (B : Buf) (k n : Nat) (crc : U64) (src : Nat) :
    Sim B (Util.nested t B k n crc src) (fun S => Crc.Util.nested t S k n crc src) src (·.2) := by
  induction k generalizing n crc src with
  | zero => exact Sim.ret _ rfl
  | succ k ih =>
    rw [Util.nested]
    refine Sim.congr (Sim.ite (B.len ≥ n * 8) (fun _ => (Util.load_sim B src).bind fun buf _ => (Sim.lift (lookC t.word (buf ^^^ crc))).bind fun crc _ => ih (n + 1) crc (src + 8))
      fun _ => Sim.ret _ rfl) ?_
    intro S _ hn
    rw [Crc.Util.nested, hn]

theorem Util.shortAmd64_fin (t : Tables) (B : Buf) (start : U64) : Fin B (Util.shortAmd64 t B start) (fun S => Crc.Util.shortAmd64 t S start) 0 := by
  refine Fin.congr ((Util.nested_sim t B 5 1 _ 0).bindFin fun x _ => (Util.bytes_fin t B (B.len + 1) x.1 x.2 (by omega)).map fun crc => crc ^^^ t.base.canonize) ?_
  intro S _ _
  rw [Crc.Util.shortAmd64]
  simp only [Option.bind_eq_bind, Option.map_eq_bind]
  rfl

theorem Util.multiword_fin (target : Target) (t : Tables) (B : Buf) (start : U64) : Fin B (Util.multiword target t B start) (fun S => Crc.Util.multiword target t S start) 0 := by
  cases target with
  | template => exact Util.long_fin _ t B start
  | gccAmd64 =>
    refine Fin.congr (Fin.ite (B.len ≤ 6 * 8 - 1) (fun _ => Util.shortAmd64_fin t B start) fun _ => Util.long_fin _ t B start) ?_
    intro S _ hn
    rw [Crc.Util.multiword, hn]
  | gccI386 =>
    refine Fin.congr (Fin.ite (B.len ≤ 7) (fun _ => Util.short_fin t B start) fun _ => Util.long_fin _ t B start) ?_
    intro S _ hn
    rw [Crc.Util.multiword, hn]
  | clangI386 =>
    refine Fin.congr (Fin.ite (B.len ≤ 7) (fun _ => Util.short_fin t B start) fun _ => Util.longIntrinsic_fin _ t B start) ?_
    intro S _ hn
    rw [Crc.Util.multiword, hn]
  | clI386 =>
    refine Fin.congr (Fin.ite (B.len ≤ 12) (fun _ => Util.short_fin t B start) fun _ => Util.long_fin _ t B start) ?_
    intro S _ hn
    rw [Crc.Util.multiword, hn]

theorem Util.good (target : Target) (B : Buf) (init : U32) : Good B init (Util.incr target B init) := by
  refine Fin.good (f := fun S => Crc.Util.incr target S init) ?_ fun S _ _ => incr_spec target S init
  refine Fin.congr ((Sim.lift tables).bindFin fun t _ => (Util.multiword_fin target t B (init.setWidth 64)).map fun r => r.setWidth 32) ?_
  intro S _ _
  rw [Crc.Util.incr]
  simp only [Option.bind_eq_bind, Option.map_eq_bind]
  rfl

end Yenc.Shared.SCrc
