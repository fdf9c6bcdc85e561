import Verif.Model.MemoryMap
/-
What a history of allocation records means, independently of any data
structure.  A record `(address, size)` with non-zero size says that a buffer of
that size starts at `address`; a record with size 0 says that it was freed.
-/
namespace TraceDB

/-- Size of the buffer that starts at `b` after the history `H`, if there is
one: the most recent record for `b` decides. -/
def liveSize (H : List BufferSize) (b : U64) : Option U64 :=
  match H.reverse.find? (fun r => r.address == b) with
  | some r => if r.size = 0 then none else some r.size
  | none => none

/-- `(b, s)` is the live buffer with the greatest base not above `a`.  Address
2^64-1 is reserved and does not count as a base. -/
structure IsNearest (H : List BufferSize) (a b s : U64) : Prop where
  live : liveSize H b = some s
  usable : b ≠ u64Max
  le : b ≤ a
  greatest : ∀ b' s', liveSize H b' = some s' → b' ≠ u64Max → b' ≤ a → b' ≤ b

/-- What a lookup at `a` answers after history `H`: the distance from `a` to the
(64-bit) end of the nearest buffer if `a` is not beyond that end, and otherwise
2^64-1, meaning "unknown".  Nothing is known about the reserved address. -/
def LookupSpec (H : List BufferSize) (a r : U64) : Prop :=
  (∃ b s, a ≠ u64Max ∧ IsNearest H a b s ∧ a ≤ b + s ∧ r = b + s - a) ∨
  ((∀ b s, a ≠ u64Max → IsNearest H a b s → b + s < a) ∧ r = u64Max)

/-- A record freeing the reserved address. -/
def BufferSize.freesReserved (r : BufferSize) : Bool := r.address == u64Max && r.size == 0

/-- A record allocating at the reserved address. -/
def BufferSize.allocsReserved (r : BufferSize) : Bool := r.address == u64Max && r.size != 0

/-- At no moment of the history was the reserved address freed more often than
allocated. -/
def ReservedOk (H : List BufferSize) : Prop :=
  ∀ P, P <+: H → P.countP (·.freesReserved) ≤ P.countP (·.allocsReserved)

/-- The nearest buffer, computed. -/
def nearest (H : List BufferSize) (a : U64) : Option (U64 × U64) :=
  H.foldl (fun best r =>
    match liveSize H r.address with
    | some s =>
      if r.address ≠ u64Max ∧ r.address ≤ a ∧ (∀ x ∈ best, x.1 ≤ r.address) then
        some (r.address, s)
      else best
    | none => best) none

/-- The answer of a lookup, computed. -/
def lookupSize (H : List BufferSize) (a : U64) : U64 :=
  if a = u64Max then u64Max
  else match nearest H a with
    | some (b, s) => if a ≤ b + s then b + s - a else u64Max
    | none => u64Max

end TraceDB
