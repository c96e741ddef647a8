import Verif.Model.Startup
import Verif.Model.Bindings
/-!
Model of several threads using the module (workers, or isolates of an embedder): `/repo/src/yencode.cc:446-490` for Node.js 10.7 and later, where the module is context aware and each
isolate that loads it runs `NODE_MODULE_INIT`, which calls `uv_once(&init_once, init_all)`.

The state the threads share is what `init_all` writes: the function pointers and tables (encoder.h:10, decoder.h:30-32, crc.h:13, 60-61, and the tables of encoder_sse_base.h:18,
encoder_avx_base.h:16-21, encoder_neon.cc:55-56, decoder_sse_base.h:38, decoder_avx2_base.h:16, decoder_neon.cc:36, decoder_neon64.cc:7, crc.cc:21; all other static data is constant).  `init_all` is a list of
steps each of which changes this state, of any granularity; the API functions only read it, any number of times.  Steps of different threads may alternate in any order.

`uv_once` is taken from the documentation of libuv: the first caller runs the function, callers meanwhile wait until it has finished, and later callers return at once.  Memory is sequentially
consistent; that suffices since there is no data race (theorem C70_race_free).  Buffers that two threads share (SharedArrayBuffer) are not modelled.
-/
namespace Yenc.Threads

/-- A call of an API function, as far as it uses the shared state `G`: it reads it, and goes on depending on what it has read. -/
inductive Prog (G R : Type) where
  | ret (r : R)
  | read (k : G → Prog G R)

/-- What the call returns if the shared state is `g` throughout. -/
def Prog.run {G R : Type} (g : G) : Prog G R → R
  | .ret r => r
  | .read k => (k g).run g

/-- What a thread does. -/
inductive Thread (G R : Type) where
  /-- The module is not loaded in its isolate, or it waits in `uv_once`. -/
  | unloaded
  /-- In `init_all`, called by `uv_once`, yencode.cc:448-452; the steps that remain. -/
  | starting (rest : List (G → G))
  /-- `NODE_MODULE_INIT` has returned; JavaScript runs. -/
  | idle
  /-- In the API function `f`; `p` remains. -/
  | calling (f p : Prog G R)

/-- `init_once`, yencode.cc:457. -/
inductive Once where
  | never
  | running (t : Nat)
  | done

/-- All threads, the shared state, and the calls that have returned. -/
structure Sys (G R : Type) where
  once : Once
  g : G
  th : Nat → Thread G R
  log : List (Prog G R × R)

variable {G R : Type}

/-- Thread `t` does `x` next. -/
def Sys.set (s : Sys G R) (t : Nat) (x : Thread G R) : Sys G R := { s with th := fun u => if u = t then x else s.th u }

/-- The process starts: nothing is loaded. -/
def Sys.start (g0 : G) : Sys G R := ⟨.never, g0, fun _ => .unloaded, []⟩

/-- One step of one thread.  `init` are the steps of `init_all`. -/
inductive Step (init : List (G → G)) : Sys G R → Sys G R → Prop
  /-- yencode.cc:484, first call. -/
  | enter (s) (t) (h : s.th t = .unloaded) (ho : s.once = .never) : Step init s ({ s with once := .running t }.set t (.starting init))
  /-- A step of `init_all`. -/
  | write (s) (t) (f) (r) (h : s.th t = .starting (f :: r)) : Step init s ({ s with g := f s.g }.set t (.starting r))
  /-- `init_all` and with it `uv_once` and `NODE_MODULE_INIT` return. -/
  | finish (s) (t) (h : s.th t = .starting []) : Step init s ({ s with once := .done }.set t .idle)
  /-- yencode.cc:484, later call (or end of waiting). -/
  | load (s) (t) (h : s.th t = .unloaded) (ho : s.once = .done) : Step init s (s.set t .idle)
  /-- The isolate loads the module again. -/
  | reload (s) (t) (h : s.th t = .idle) (ho : s.once = .done) : Step init s (s.set t .idle)
  /-- JavaScript calls an API function. -/
  | call (s) (t) (p) (h : s.th t = .idle) : Step init s (s.set t (.calling p p))
  /-- The API function reads the shared state. -/
  | read (s) (t) (f) (k) (h : s.th t = .calling f (.read k)) : Step init s (s.set t (.calling f (k s.g)))
  /-- The API function returns. -/
  | ret (s) (t) (f) (r) (h : s.th t = .calling f (.ret r)) : Step init s ({ s with log := (f, r) :: s.log }.set t .idle)
  /-- The thread ends. -/
  | exit (s) (t) (h : s.th t = .idle) : Step init s (s.set t .unloaded)

/-- Any number of steps. -/
inductive Run (init : List (G → G)) : Sys G R → Sys G R → Prop
  | refl (s) : Run init s s
  | step {s u v} (h : Run init s u) (h2 : Step init u v) : Run init s v

/-- All of `init_all` in one go. -/
def runAll (init : List (G → G)) (g : G) : G := init.foldl (fun g f => f g) g

/-- What start-up writes on x86. -/
abbrev Globals := Startup.EncState × Startup.DecState × Startup.CrcState

/-- `init_all`, yencode.cc:448-452, in three steps (a state that start-up would not reach, because the processor stops it, is left unchanged). -/
def initAll (b : Startup.Build) (c : Spec.Cpu) : List (Globals → Globals) :=
  [fun g => ((Startup.encoderInit b c g.1).getD g.1, g.2),
    fun g => (g.1, (Startup.decoderInit b c g.2.1).getD g.2.1, g.2.2),
    fun g => (g.1, g.2.1, (Startup.crcInit b c g.2.2).getD g.2.2)]

/-- Node.js before 10.7 (one thread): `yencode_init` runs each time the module is loaded and calls `init_all`, yencode.cc:459-487.  The state after `n` loads; `none` if the processor stops the program. -/
def loads (b : Startup.Build) (c : Spec.Cpu) : Nat → Option Globals
  | 0 => some (.start, .start, .start)
  | n + 1 =>
    match loads b c n with
    | none => none
    | some (e, d, r) =>
      match Startup.encoderInit b c e, Startup.decoderInit b c d, Startup.crcInit b c r with
      | some e, some d, some r => some (e, d, r)
      | _, _, _ => none

end Yenc.Threads
