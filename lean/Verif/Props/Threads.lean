import Verif.Lemmas.Threads
import Verif.Props.Startup
/-! C70: loading and using the module in several threads. -/
namespace Yenc.Props
open Yenc Threads
open Startup

variable {G R : Type}

/-- C70: in every schedule of any number of threads loading the module and calling its functions, a call returns what it returns when start-up has been completed before and nothing else runs. -/
theorem C70_calls (init : List (G → G)) (g0 : G) (s : Sys G R) (h : Run init (Sys.start g0) s) : ∀ e ∈ s.log, e.2 = e.1.run (runAll init g0) :=
  (inv_run h).1

/-- C70: while a thread is in start-up code no other thread is in start-up code or in a call, so nothing is written while another thread reads or writes it.  -/
theorem C70_race_free (init : List (G → G)) (g0 : G) (s : Sys G R) (h : Run init (Sys.start g0) s) (t u : Nat) (r : List (G → G)) (ht : s.th t = .starting r) (hu : u ≠ t) :
    s.th u = .unloaded :=
  ((inv_run h).starting ht).2.2 u hu

/-- C70: start-up code runs at most once: the steps done so far are the first `k`, each done once; a thread that has loaded the module finds all of them done. -/
theorem C70_once (init : List (G → G)) (g0 : G) (s : Sys G R) (h : Run init (Sys.start g0) s) :
    (∃ k, s.g = runAll (init.take k) g0) ∧ ∀ t, s.th t = .idle ∨ (∃ f p, s.th t = .calling f p) → s.g = runAll init g0 := by
  have hi := inv_run h
  constructor
  · have h2 := hi.2
    cases ho : s.once with
    | never => rw [ho] at h2; exact ⟨0, by simpa [runAll] using h2.1⟩
    | running t =>
      rw [ho] at h2
      obtain ⟨⟨k, -, h3⟩, -⟩ := h2
      exact ⟨k, h3⟩
    | done => rw [ho] at h2; exact ⟨init.length, by rw [List.take_length]; exact h2.1⟩
  · intro t ht
    have h2 := hi.2
    rw [hi.done ht] at h2
    exact h2.1

/-- C70: no deadlock: from every state that can be reached, every thread can get to a state where the module is loaded and no call is going on. -/
theorem C70_progress (init : List (G → G)) (g0 : G) (s : Sys G R) (h : Run init (Sys.start g0) s) (t : Nat) : ∃ u, Run init s u ∧ u.th t = .idle := by
  have hi := inv_run h
  cases ht : s.th t with
  | idle => exact ⟨s, .refl _, ht⟩
  | calling f p => exact finish_call f p s t ht
  | starting r =>
    obtain ⟨u, h1, -, h2, -⟩ := finish_start (init := init) r s t ht
    exact ⟨u, h1, h2⟩
  | unloaded =>
    cases ho : s.once with
    | never =>
      obtain ⟨u, h1, -, h2, -⟩ := finish_start (init := init) init ({ s with once := .running t }.set t (.starting init)) t (set_same _ _ _)
      exact ⟨u, Run.trans (.step (.refl _) (.enter s t ht ho)) h1, h2⟩
    | done => exact ⟨_, .step (.refl _) (.load s t ht ho), set_same _ _ _⟩
    | running v =>
      have h2 := hi.2
      rw [ho] at h2
      obtain ⟨⟨k, h3, -⟩, -⟩ := h2
      have hne : t ≠ v := by rintro rfl; rw [ht] at h3; simp at h3
      obtain ⟨u, h1, h4, -, h5⟩ := finish_start (init := init) (init.drop k) s v h3
      exact ⟨_, .step h1 (.load u t ((h5 t hne).trans ht) h4), set_same _ _ _⟩

/-! ### The module -/

/-- A call and its arguments. -/
inductive Call where
  | encode (data : List Byte) (ls col : Nat)
  | decode (data : List Byte)
  | crc32 (addr : Nat) (data : List Byte)

variable {b : Build} {c : Spec.Cpu}

/-- What a call does when the shared state is `g`; undefined if the tables it needs are not there. -/
def Call.result (b : Build) (target : Crc.Util.Target) (m0 m1 : Mem) (around : Nat → List Byte → Nat → Byte) (loc : List Byte → Nat × Nat) (g : Globals) : Call → Outcome (List Byte)
  | .encode data ls col => match g.1.impl b m0 with | some e => Enc.apiEncode e [.buffer data, .int ls, .int col] | none => .ub
  | .decode data => match g.2.1.impl b with | some d => Dec.apiDecode (Dec.ofMem d m1 loc) [.buffer data, .bool false] | none => .ub
  | .crc32 addr data => Crc.apiCrc32 (g.2.2.impl b target around) addr [.buffer data]

/-- C70 on x86: whatever the processor and build, however start-up is divided into steps, and however the threads alternate: every call of `encode` returns the reference encoding of its data, every call
of `decode` what the reference decoder gives, and every call of `crc32` the CRC-32.  (Partial in the same way as C67: see C67_tables_false.) -/
theorem C70_module_partial (hw : b.Wf) (hc : Spec.Coherent c) (hb : ∀ x, b.base x = true → Spec.Usable c x) (h2 : Spec.Usable c .sse2) (hz : b.base .avx2 = true → b.base .lzcnt = true)
    (target : Crc.Util.Target) (m0 m1 : Mem) (around : Nat → List Byte → Nat → Byte) (loc : List Byte → Nat × Nat) (hloc : ∀ l, (loc l).2 ≤ (loc l).1 ∨ (loc l).1 + l.length ≤ (loc l).2)
    (init : List (Globals → Globals))
    (hinit : ∀ se sd sc, encoderInit b c .start = some se → decoderInit b c .start = some sd → crcInit b c .start = some sc → runAll init (.start, .start, .start) = (se, sd, sc))
    (s : Sys Globals (Outcome (List Byte))) (h : Run init (Sys.start (.start, .start, .start)) s) (p : Prog Globals (Outcome (List Byte))) (r : Outcome (List Byte)) (hp : (p, r) ∈ s.log)
    (k : Call) (hk : ∀ g, p.run g = k.result b target m0 m1 around loc g) :
    match k with
    | .encode data ls col => 1 ≤ ls → ls + 6 < 2 ^ 31 → col < ls → r = .ret (Spec.encode ls true col data)
    | .decode data => r = .ret (Spec.decode false data)
    | .crc32 _ data => ∃ buf v, r = .ret buf ∧ Spec.CrcBuf buf v ∧ Spec.IsCrc32 0 data v := by
  obtain ⟨se, he, -⟩ := C67_encoder_executable hw hc hb h2
  obtain ⟨sd, hd, -⟩ := C67_decoder_executable hw hc hb h2
  obtain ⟨sc, hs, -⟩ := C67_crc_executable hw hc hb h2
  obtain ⟨e, he1, he2⟩ := C67_encoder_selected_partial hw hz he m0
  obtain ⟨d, hd1, hd2⟩ := C67_decoder_selected hw hd
  have hr := C70_calls init _ s h (p, r) hp
  rw [hinit se sd sc he hd hs, hk] at hr
  simp only at hr
  subst hr
  cases k with
  | encode data ls col =>
    intro h1 h3 h4
    simp only [Call.result, he1]
    exact C03_encode_reference he2 data ls col h1 h3 h4
  | decode data =>
    simp only [Call.result, hd1]
    exact Dec.apiDecode_eq (Dec.IsImpl.ofMem d hd2 m1 loc hloc).correct false data (by simp)
  | crc32 addr data =>
    simp only [Call.result]
    exact (C25_crc32 (C67_crc_selected sc target around) addr data).1

/-- `init_all` as it is meets the condition on the steps. -/
example (se : EncState) (sd : DecState) (sc : CrcState) (h1 : encoderInit b c .start = some se) (h2 : decoderInit b c .start = some sd) (h3 : crcInit b c .start = some sc) :
    runAll (initAll b c) (.start, .start, .start) = (se, sd, sc) := by
  simp [runAll, initAll, h1, h2, h3]

/-- Two threads: the second one finds start-up going on, waits, and its call sees the last value although it reads twice. -/
example : ∃ s : Sys Nat (Nat × Nat), Run [fun _ => 1, fun _ => 2] (Sys.start 0) s ∧ s.log.map Prod.snd = [(2, 2)] ∧ s.th 0 = .idle ∧ s.th 1 = .idle := by
  let p : Prog Nat (Nat × Nat) := .read fun x => .read fun y => .ret (x, y)
  have h0 := Run.refl (init := [fun _ => 1, fun _ => 2]) (Sys.start 0 : Sys Nat (Nat × Nat))
  have h1 := h0.step (.enter _ 0 rfl rfl)
  have h2 := h1.step (.write _ 0 _ _ rfl)
  have h3 := h2.step (.write _ 0 _ _ rfl)
  have h4 := h3.step (.finish _ 0 rfl)
  have h5 := h4.step (.load _ 1 rfl rfl)
  have h6 := h5.step (.call _ 1 p rfl)
  have h7 := h6.step (.read _ 1 _ _ rfl)
  have h8 := h7.step (.reload _ 0 rfl rfl)
  have h9 := h8.step (.read _ 1 _ _ rfl)
  have h10 := h9.step (.ret _ 1 _ _ rfl)
  exact ⟨_, h10, rfl, rfl, rfl⟩

/-- C70, Node.js before 10.7: however often the module is loaded (start-up is repeated each time), the program is not stopped, only usable instructions are used, and the functions selected are right.
(Partial in the same way as C67.) -/
theorem C70_reload_partial (hw : b.Wf) (hc : Spec.Coherent c) (hb : ∀ x, b.base x = true → Spec.Usable c x) (h2 : Spec.Usable c .sse2) (hz : b.base .avx2 = true → b.base .lzcnt = true)
    (target : Crc.Util.Target) (m0 : Mem) (around : Nat → List Byte → Nat → Byte) (n : Nat) :
    ∃ se sd sc e d, loads b c n = some (se, sd, sc) ∧ se.impl b m0 = some e ∧ sd.impl b = some d ∧ Enc.IsImpl e ∧ Dec.M.IsImpl d ∧ Crc.IsImpl (sc.impl b target around) ∧
      (∀ x ∈ se.fn.uses b, Spec.Usable c x) ∧ (∀ x ∈ sd.fn.uses b, Spec.Usable c x) ∧ ∀ x ∈ sc.uses b, Spec.Usable c x := by
  have key : ∃ se sd sc, loads b c n = some (se, sd, sc) ∧ se.Good b ∧ se.Runs b c ∧ sd.Good b ∧ sd.Runs b c ∧ sc.Runs b c := by
    induction n with
    | zero => exact ⟨_, _, _, rfl, .start, .start, .start, .start, .start⟩
    | succ n ih =>
      obtain ⟨se, sd, sc, h, g1, r1, g2, r2, r3⟩ := ih
      obtain ⟨se', e1, r1'⟩ := encoderInit_runs hw hc hb h2 r1
      obtain ⟨sd', e2, r2'⟩ := decoderInit_runs hw hc hb h2 r2
      obtain ⟨sc', e3, r3'⟩ := crcInit_runs hw hc hb h2 r3
      refine ⟨se', sd', sc', ?_, encoderInit_good hw hz g1 e1, r1', decoderInit_good hw g2 e2, r2', r3'⟩
      simp only [loads, h, e1, e2, e3]
  obtain ⟨se, sd, sc, h, g1, r1, g2, r2, r3⟩ := key
  obtain ⟨e, a1, a2⟩ := g1 m0
  obtain ⟨d, a3, a4⟩ := g2
  exact ⟨se, sd, sc, e, d, h, a1, a3, a2, a4, C67_crc_selected sc target around, r1.2, r2.2, r3.2⟩

example : (loads x64 haswell 3).map (·.1.fn) = some (.avx2 .avx2 AVX2) := by rfl

end Yenc.Props
