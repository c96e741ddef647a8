import Verif.Model.Bindings
/-!
Model of how the native entry points manage the memory of their results, `/repo/src/yencode.cc:16-23, 129-137, 218-233, 250-255, 312-331`: `malloc`, run the coder, `realloc` to the length
used, hand the block to a Buffer with `free_buffer` as its finalizer.

Blocks have names that are never used twice, so a stale pointer is never taken for a valid one.
-/
namespace Yenc.Heap

/-- The blocks obtained from the C library and not yet given back: name and size. -/
structure Heap where
  live : List (Nat × Nat)
  /-- names from here on have not been used -/
  fresh : Nat
deriving DecidableEq, Repr

/-- A C library: which requests it grants, whether `realloc` moves the block, and whether `realloc(p, 0)` frees it and returns NULL (glibc, Windows) or
returns a pointer to an empty block (BSD, musl).  All may depend on the whole heap. -/
structure Policy where
  grant : Heap → Nat → Bool
  regrant : Heap → Nat → Nat → Bool
  moves : Heap → Nat → Nat → Bool
  zeroFrees : Heap → Bool

/-- A pointer; `none` is NULL. -/
abbrev Ptr := Option Nat

/-- `malloc(n)` of the C standard. -/
def malloc (p : Policy) (h : Heap) (n : Nat) : Heap × Ptr :=
  if p.grant h n then (⟨(h.fresh, n) :: h.live, h.fresh + 1⟩, some h.fresh) else (h, none)

/-- `free(q)` of the C standard: NULL is ignored, anything else must be live. -/
def free (h : Heap) : Ptr → Option Heap
  | none => some h
  | some q => if h.live.any (·.1 == q) then some { h with live := h.live.filter (·.1 != q) } else none

/-- `realloc(q, n)` of the C standard. -/
def realloc (p : Policy) (h : Heap) (q : Ptr) (n : Nat) : Option (Heap × Ptr) :=
  match q with
  | none => some (malloc p h n)
  | some q =>
    if h.live.any (·.1 == q) then
      if n = 0 ∧ p.zeroFrees h then some ({ h with live := h.live.filter (·.1 != q) }, none)
      else if p.regrant h q n then
        let q' := if p.moves h q n then h.fresh else q
        some (⟨(q', n) :: h.live.filter (·.1 != q), h.fresh + 1⟩, some q')
      else some (h, none)
    else none

/-- A coder using the first `n` bytes at `q` as its output: they must exist.  (Simplification: NULL is refused even if the coder happens to write nothing.) -/
def usable (h : Heap) (q : Ptr) (n : Nat) : Bool :=
  match q with
  | none => false
  | some q => h.live.any fun b => b.1 == q && decide (n ≤ b.2)

/-- A Buffer whose memory was allocated by the addon: `node::Buffer::New(isolate, data, length, free_buffer, hint)`.  `data` are its contents. -/
structure Ext where
  ptr : Ptr
  data : List Byte
deriving DecidableEq, Repr

/-- The C heap, the Buffers not yet collected, and what has been reported to V8 as external memory (Node.js 0.10, yencode.cc:94). -/
structure St where
  heap : Heap
  buffers : List Ext
  reported : Int
deriving DecidableEq, Repr

/-- What a call that does not end in undefined behaviour does: it returns or throws. -/
abbrev Res (α : Type) := Option (St × Except String α)

/-- `malloc(size)`; the coder, which touches `touched` bytes and produces `out`; `realloc` to that length; `NEW_BUFFER` and `MARK_EXT_MEM`.
yencode.cc:132-136, 221-230, 250-254, 312-327.  Node.js does not accept NULL as the data of a non-empty Buffer (it aborts), which counts as undefined here. -/
def produce (p : Policy) (s : St) (size touched : Nat) (out : List Byte) : Option St :=
  let m := malloc p s.heap size
  if usable m.1 m.2 touched then
    match realloc p m.1 m.2 out.length with
    | none => none
    | some (h, q) => if q = none ∧ out ≠ [] then none else some ⟨h, ⟨q, out⟩ :: s.buffers, s.reported + out.length⟩
  else none

/-- `encode`, yencode.cc:105-137.  `NEW_BUFFER(0)` in line 113 is memory of V8. -/
def encode (p : Policy) (impl : Enc.Impl) (args : List Arg) (s : St) : Res (List Byte) :=
  match args with
  | .buffer src :: rest =>
    if src = [] then some (s, .ok [])
    else
      match Enc.lineArgs rest with
      | .ub => none
      | .throw m => some (s, .error m)
      | .ret (ls, col) =>
        match impl ls col src true with
        | none => none
        | some (w, _) =>
          (produce p s (yencMaxSize src.length ls.toNat) (max w.hi w.out.length) w.out).map fun s' => (s', .ok w.out)
  | _ => some (s, .error "You must supply a Buffer")

/-- `encodeIncr`, yencode.cc:172-234; memory is allocated if no output is given. -/
def encodeIncr (p : Policy) (impl : Enc.Impl) (args : List Arg) (s : St) : Res (List Byte × Int) :=
  match args with
  | .buffer _ :: .buffer _ :: _ =>
    match Enc.apiEncodeIncr impl args with
    | .ub => none
    | .throw m => some (s, .error m)
    | .ret r => some (s, .ok r)
  | .buffer src :: rest =>
    match Enc.lineArgs rest with
    | .ub => none
    | .throw m => some (s, .error m)
    | .ret (ls, col) =>
      if src = [] then some (s, .ok ([], col))
      else
        match impl ls col src false with
        | none => none
        | some (w, col') =>
          (produce p s (yencMaxSize src.length ls.toNat) (max w.hi w.out.length) w.out).map fun s' => (s', .ok (w.out, col'))
  | _ => some (s, .error "You must supply a Buffer")

/-- `decode`, yencode.cc:236-255. -/
def decode (p : Policy) (impl : Dec.Impl) (args : List Arg) (s : St) : Res (List Byte) :=
  match args with
  | .buffer src :: rest =>
    if src = [] then some (s, .ok [])
    else
      match Dec.rawArg rest with
      | .ub => none
      | .throw m => some (s, .error m)
      | .ret isRaw =>
        match (if isRaw then impl.raw src else impl.plain src) with
        | none => none
        | some out => (produce p s src.length (max src.length out.length) out).map fun s' => (s', .ok out)
  | _ => some (s, .error "You must supply a Buffer")

/-- `decodeIncr`, yencode.cc:280-332, as called by index.js:160; memory is allocated if no output is given. -/
def decodeIncr (p : Policy) (impl : Dec.Impl) (src : List Byte) (state : Int) (dest : Option Nat) (s : St) : Res Dec.IncrRes :=
  match dest with
  | some _ =>
    match Dec.decodeIncr impl src state dest with
    | .ub => none
    | .throw m => some (s, .error m)
    | .ret r => some (s, .ok r)
  | none =>
    match Dec.State.ofInt state with
    | none => none
    | some st =>
      match impl.endRaw st src with
      | none => none
      | some r =>
        (produce p s src.length (max src.length r.out.length) r.out).map fun s' =>
          (s', .ok ⟨toInt32 ↑(src.length - r.rest.length), toInt32 r.out.length, r.out, r.ended.toNat, r.state.toNat⟩)

/-- The garbage collector finds the `i`th Buffer unreachable and runs its finalizer `free_buffer`, yencode.cc:16-23 (the report to V8 only with Node.js 0.10). -/
def collect (i : Nat) (s : St) : Option St :=
  match s.buffers[i]? with
  | none => some s
  | some b => (free s.heap b.ptr).map fun h => ⟨h, s.buffers.eraseIdx i, s.reported - toInt32 b.data.length⟩

/-- What can happen: calls of the functions that allocate memory, with any arguments, and collections.  (The other functions do not allocate.) -/
inductive Op where
  | encode (args : List Arg)
  | encodeIncr (args : List Arg)
  | decode (args : List Arg)
  | decodeIncr (src : List Byte) (state : Int) (dest : Option Nat)
  | collect (i : Nat)

/-- One of those. -/
def step (p : Policy) (e : Enc.Impl) (d : Dec.Impl) (s : St) : Op → Option St
  | .encode args => (Heap.encode p e args s).map (·.1)
  | .encodeIncr args => (Heap.encodeIncr p e args s).map (·.1)
  | .decode args => (Heap.decode p d args s).map (·.1)
  | .decodeIncr src st dest => (Heap.decodeIncr p d src st dest s).map (·.1)
  | .collect i => Heap.collect i s

/-- A history. -/
def run (p : Policy) (e : Enc.Impl) (d : Dec.Impl) (s : St) : List Op → Option St
  | [] => some s
  | op :: ops => (step p e d s op).bind fun s' => run p e d s' ops

end Yenc.Heap
