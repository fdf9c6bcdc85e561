import Verif.Model.Outcome
/-
Machine words and byte streams.
-/
namespace TraceDB

/-- A byte.  For cffi-interface/trace-db/Utils.hpp:20-36. -/
abbrev U8 := BitVec 8
/-- `uint32_t`.  For cffi-interface/trace-db/Utils.hpp:20-36. -/
abbrev U32 := BitVec 32
/-- `uint64_t`.  For cffi-interface/trace-db/Utils.hpp:20-36. -/
abbrev U64 := BitVec 64

/-- `UINT64_MAX`.  For cffi-interface/trace-db/Utils.hpp:20-36. -/
def u64Max : U64 := BitVec.allOnes 64

/-- Little-endian object representation of `v` in `n` bytes (x86-64), as
written by `BINARY_WRITE` (cffi-interface/trace-db/Utils.hpp:33-36) and by the
`fwrite` calls of the instrumentation runtime. -/
def leBytes : Nat → Nat → List U8
  | 0, _ => []
  | n + 1, v => BitVec.ofNat 8 v :: leBytes n (v / 256)

/-- Unsigned integer stored little-endian in a byte array.  For cffi-interface/trace-db/Utils.hpp:20-36. -/
def leNat : List U8 → Nat
  | [] => 0
  | b :: bs => b.toNat + 256 * leNat bs

/-- Contents of a buffer with old contents `old` after storing `got` at its
start.  For cffi-interface/trace-db/Utils.hpp:20-36. -/
def overlay (old got : List U8) : List U8 := got ++ old.drop got.length

/-- State bits of a `std::istream` as far as the code looks at them:
`good()`, or not good with `eof()`, or not good without `eof()`.  For cffi-interface/trace-db/Utils.hpp:20-36. -/
inductive SState where
  | good
  | eof
  | bad
  deriving DecidableEq, Repr

/-- A `std::istream` over a finite amount of input.  `rest` are the bytes not
read yet, `ioError` tells whether the input ends with an I/O error instead of
end of file.  For cffi-interface/trace-db/Utils.hpp:20-36. -/
structure IStream where
  rest : List U8
  ioError : Bool
  st : SState
  deriving DecidableEq, Repr

/-- A freshly opened stream over the given bytes.  For cffi-interface/trace-db/Utils.hpp:20-36. -/
def IStream.ofBytes (bs : List U8) (ioError : Bool := false) : IStream :=
  ⟨bs, ioError, .good⟩

/-- `is.good()`.  For cffi-interface/trace-db/Utils.hpp:20-36. -/
def IStream.isGood (s : IStream) : Bool := s.st == .good

/-- `std::istream::read(ptr, n)` on a good stream: stores the bytes that are
available, and when fewer than `n` are available leaves the good state (end of
file sets eofbit and failbit; an I/O error sets badbit).  Reading exactly up to
the end of the input leaves the stream good.  For cffi-interface/trace-db/Utils.hpp:20-36. -/
def IStream.read (s : IStream) (n : Nat) : List U8 × IStream :=
  if n ≤ s.rest.length then
    (s.rest.take n, { s with rest := s.rest.drop n })
  else
    (s.rest, { s with rest := [], st := if s.ioError then .bad else .eof })

/-- `BINARY_READ` (cffi-interface/trace-db/Utils.hpp:20-31): the state is
checked before the read, not after it.  Returns the bytes stored (possibly
fewer than requested) and the stream afterwards. -/
def binaryRead (s : IStream) (n : Nat) : Res (List U8 × IStream) :=
  match s.st with
  | .good => .ok (s.read n)
  | .eof => .throw .eof
  | .bad => .throw .trace

/-- `BINARY_READ` into an unsigned integer object of `n` bytes holding `old`:
bytes that were not delivered keep their old value.  For cffi-interface/trace-db/Utils.hpp:20-36. -/
def readUInt (s : IStream) (n : Nat) (old : Nat) : Res (Nat × IStream) := do
  let (got, s') ← binaryRead s n
  pure (leNat (overlay (leBytes n old) got), s')

/-- Everything about the machine that the C++ source leaves open.
`canAlloc n`: an allocation of `n` bytes succeeds.
`junk`: content of uninitialised memory; `none` means that using it is treated
as undefined behaviour (the abstract machine of the C++ standard), `some f`
that byte number `i` of the object holds `f i`.
`coin k j`: outcome of `rand() < RAND_MAX/2` in the `j`-th draw for the `k`-th
node of the memory map.  For cffi-interface/trace-db/Utils.hpp:20-36. -/
structure Env where
  canAlloc : Nat → Bool
  junk : Option (Nat → U8)
  coin : Nat → Nat → Bool

/-- The bytes of an uninitialised object of `n` bytes after storing `got` at its
start; undefined behaviour when an undelivered byte is used in the strict
policy.  For cffi-interface/trace-db/Utils.hpp:20-36. -/
def Env.fillUninit (env : Env) (n : Nat) (got : List U8) : Res (List U8) :=
  if n ≤ got.length then .ok got
  else match env.junk with
    | none => .ub .uninit
    | some f => .ok (overlay ((List.range n).map f) got)

end TraceDB
