import Verif.Model.Api
/-
The C code that the instrumentation adds to a program
(instrumentation/c-cpp.lisp:100-283): it writes the trace.

The model is for x86-64 (little endian, 8-byte pointers, `unsigned long` and
`long long` of 8 bytes).  Not modelled: failures of `fputc`/`fputs`/`fwrite` (the
code ignores them), the buffer of the stream, and the functions of the user that
compute further instrumentation.
-/
namespace TraceDB

/-- One argument of a variadic call: an 8-byte integer/pointer slot or an 8-byte
floating point slot.  An argument narrower than 8 bytes occupies the low part of
its slot; the rest of the slot is unspecified.  For instrumentation/c-cpp.lisp:178-242, 254-262. -/
inductive Slot where
  | gp (v : U64)
  | fp (bits : U64)
  deriving DecidableEq, Repr

/-- The conversions between `float` and `double`, as functions on object
representations; left open.  For instrumentation/c-cpp.lisp:226-236. -/
structure CFloat where
  widen : U32 → U64
  narrow : U64 → U32

/-- The readable memory of the program: the `n` bytes at an address.  For instrumentation/c-cpp.lisp:252-279. -/
abbrev CMem := U64 → Nat → Option (List U8)

/-- `va_arg(ap, T)` for a 4-byte integer type.  Reading past the last argument or
an argument of another class is undefined.  For instrumentation/c-cpp.lisp:183-216. -/
def vaArg32 : List Slot → Res (U32 × List Slot)
  | .gp v :: r => .ok (v.setWidth 32, r)
  | _ => .ub .oobRead

/-- `va_arg(ap, T)` for an 8-byte integer type or a pointer.  For instrumentation/c-cpp.lisp:218-242, 262. -/
def vaArg64 : List Slot → Res (U64 × List Slot)
  | .gp v :: r => .ok (v, r)
  | _ => .ub .oobRead

/-- `va_arg(ap, double)`.  For instrumentation/c-cpp.lisp:228-233. -/
def vaArgDouble : List Slot → Res (U64 × List Slot)
  | .fp v :: r => .ok (v, r)
  | _ => .ub .oobRead

/-- The value of one variable: the `switch` on format and size
(c-cpp.lisp:197-247).  Formats and sizes without a case write nothing and consume
no argument. -/
def writeVarValue (cf : CFloat) (size format : U32) (args : List Slot) : Res (List U8 × List Slot) :=
  match format.toNat with
  | 0 | 1 =>
    match size.toNat with
    | 1 => do
      let (v, args) ← vaArg32 args
      return (leBytes 1 (v.setWidth 8).toNat, args)
    | 2 => do
      let (v, args) ← vaArg32 args
      return (leBytes 2 (v.setWidth 16).toNat, args)
    | 4 => do
      let (v, args) ← vaArg32 args
      return (leBytes 4 v.toNat, args)
    | 8 => do
      let (v, args) ← vaArg64 args
      return (leBytes 8 v.toNat, args)
    | _ => return ([], args)
  | 2 =>
    if size.toNat = 4 then do
      let (v, args) ← vaArgDouble args
      return (leBytes 4 (cf.narrow v).toNat, args)
    else do
      let (v, args) ← vaArgDouble args
      return (leBytes 8 v.toNat, args)
  | 3 => do
    let (v, args) ← vaArg64 args
    return (leBytes 8 v.toNat, args)
  | _ => return ([], args)

/-- The loop of `__write_trace_variables` (c-cpp.lisp:183-249). -/
def writeVariables (cf : CFloat) : Nat → List Slot → Res (List U8)
  | 0, _ => .ok []
  | n + 1, args => do
    let (name, args) ← vaArg32 args
    let (type, args) ← vaArg32 args
    let (size, args) ← vaArg32 args
    let (format, args) ← vaArg32 args
    let (value, args) ← writeVarValue cf size format args
    let more ← writeVariables cf n args
    return 2 :: (leBytes 4 name.toNat ++ (leBytes 4 type.toNat ++ (value ++ more)))

/-- The loop of `__write_trace_blobs` (c-cpp.lisp:257-268). -/
def writeBlobs (mem : CMem) : Nat → List Slot → Res (List U8)
  | 0, _ => .ok []
  | n + 1, args => do
    let (name, args) ← vaArg32 args
    let (type, args) ← vaArg32 args
    let (size, args) ← vaArg32 args
    let (value, args) ← vaArg64 args
    match mem value size.toNat with
    | none => .ub .oobRead
    | some bytes => do
      let more ← writeBlobs mem n args
      return 2 :: (leBytes 4 name.toNat ++ (leBytes 4 type.toNat ++ (leBytes 4 size.toNat ++ (bytes ++ more))))

/-- A call of the runtime.  For instrumentation/c-cpp.lisp:100-283. -/
inductive RtCall where
  | traceId (id : U64)
  | variables (n : U64) (args : List Slot)
  | blobs (n : U64) (args : List Slot)
  | bufferSize (address size : U64)
  | endEntry
  deriving DecidableEq, Repr

/-- The bytes a call writes: `__write_trace_id` (c-cpp.lisp:156-165),
`__write_trace_variables` (176-250), `__write_trace_blobs` (252-270),
`__write_buffer_size` (272-279), `__write_end_entry` (167-174).  The loop counter
of the variadic functions has 32 bits, so that a greater count is never reached.
Locking is in `RtCall.acts`. -/
def RtCall.bytes (cf : CFloat) (mem : CMem) : RtCall → Res (List U8)
  | .traceId id => .ok (1 :: leBytes 8 id.toNat)
  | .variables n args => if n.toNat < 2 ^ 32 then writeVariables cf n.toNat args else .hang
  | .blobs n args => if n.toNat < 2 ^ 32 then writeBlobs mem n.toNat args else .hang
  | .bufferSize a s => .ok (3 :: (leBytes 8 a.toNat ++ leBytes 8 s.toNat))
  | .endEntry => .ok [0]

/-- The bytes written by a sequence of calls.  For instrumentation/c-cpp.lisp:100-283. -/
def rtBytes (cf : CFloat) (mem : CMem) : List RtCall → Res (List U8)
  | [] => .ok []
  | c :: cs => do
    let b ← c.bytes cf mem
    let more ← rtBytes cf mem cs
    return b ++ more

/-- `__write_trace_header` (c-cpp.lisp:125-154).  `n_names` and `n_types` are the
lengths of the arrays (initialize-tracing, 1126-1134); the counter of the loops
over the names has 32 bits; `total_size` has 64 bits; the number of types is
written by taking the first four bytes of an `unsigned long`, the type table
completely.  `cStr` is the part of a name before its first NUL. -/
def writeTraceHeader (names : List Name) (types : List TypeDesc) : Res (List U8) :=
  if names.length < 2 ^ 32 then
    let total := names.foldl (fun n s => n + BitVec.ofNat 64 ((cStr s).length + 1)) (0 : U64)
    .ok (leBytes 8 total.toNat ++ ((names.flatMap fun s => cStr s ++ [0]) ++
      (leBytes 4 types.length ++ types.flatMap fun t =>
        leBytes 4 t.nameIndex.toNat ++ (leBytes 4 t.format.code ++ leBytes 4 t.size.toNat))))
  else .hang

/-- The calls inserted before a traced statement: its id, the calls computed by
the instrumentation functions, the end marker (c-cpp.lisp:456-470). -/
def pointCalls (id : U64) (body : List RtCall) : List RtCall :=
  .traceId id :: (body ++ [.endEntry])

/-- Everything a single-threaded program writes: the header (by the constructor
`__bi_setup`, c-cpp.lisp:311-338), then its points. -/
def rtRun (cf : CFloat) (mem : CMem) (names : List Name) (types : List TypeDesc)
    (points : List (U64 × List RtCall)) : Res (List U8) := do
  let header ← writeTraceHeader names types
  let body ← rtBytes cf mem (points.flatMap fun p => pointCalls p.1 p.2)
  return header ++ body

/-! ### Threads -/

/-- An elementary step of a thread.  For instrumentation/c-cpp.lisp:100-283. -/
inductive RtAct where
  | lock
  | put (b : U8)
  | unlock
  deriving DecidableEq, Repr

/-- The steps of a call that writes the given bytes: `__write_trace_id` locks the
mutex first (c-cpp.lisp:161), `__write_end_entry` unlocks it last (173), the other
functions do not touch it.  Simplification: every byte is a step of its own,
which allows at least the interleavings of the real `fputc` and `fwrite`. -/
def RtCall.acts (c : RtCall) (bytes : List U8) : List RtAct :=
  match c with
  | .traceId _ => .lock :: bytes.map .put
  | .endEntry => bytes.map .put ++ [.unlock]
  | _ => bytes.map .put

/-- The steps of a sequence of calls.  For instrumentation/c-cpp.lisp:100-283. -/
def rtActs (cf : CFloat) (mem : CMem) : List RtCall → Res (List RtAct)
  | [] => .ok []
  | c :: cs => do
    let b ← c.bytes cf mem
    let more ← rtActs cf mem cs
    return c.acts b ++ more

/-- An instrumented program while it runs: what is in the trace file, the thread
that owns the mutex (`__static_lock`, an ordinary non-recursive mutex), and the
remaining steps of each thread.  For instrumentation/c-cpp.lisp:100-283. -/
structure RtState where
  out : List U8
  owner : Option Nat
  threads : List (List RtAct)
  deriving DecidableEq, Repr

/-- One step of thread `i`.  A thread that wants the mutex while it is owned does
not move; unlocking a mutex owned by somebody else is undefined (outcome `ub`).  For instrumentation/c-cpp.lisp:100-283. -/
def RtState.step (s : RtState) (i : Nat) : Res RtState :=
  match s.threads[i]? with
  | some (.lock :: r) =>
    match s.owner with
    | none => .ok ⟨s.out, some i, s.threads.set i r⟩
    | some _ => .ok s
  | some (.put b :: r) => .ok ⟨s.out ++ [b], s.owner, s.threads.set i r⟩
  | some (.unlock :: r) =>
    if s.owner = some i then .ok ⟨s.out, none, s.threads.set i r⟩ else .ub .misuse
  | _ => .ok s

/-- The program under a schedule: the sequence of threads that move.  For instrumentation/c-cpp.lisp:100-283. -/
def RtState.run (s : RtState) : List Nat → Res RtState
  | [] => .ok s
  | i :: is => do
    let s' ← s.step i
    s'.run is

end TraceDB
