import Verif.Spec.Archive
/-
What can become of the end of a serialised database whose last bytes are missing.
-/
namespace TraceDB

/-- A database with these traces, in a vector of exactly the needed size, and empty
caches. -/
def Db.fresh (ts : List Trace) : Db := ⟨ts, ts.map fun _ => [], ts.length, 0⟩

/-- A type whose size lost its last `m` digits; nothing if there are not more digits. -/
def TypeDesc.without (ty : TypeDesc) (m : Nat) : Option TypeDesc :=
  if 10 ^ m ≤ ty.size.toNat then some { ty with size := BitVec.ofNat 32 (ty.size.toNat / 10 ^ m) } else none

/-- A name whose text, the length, a space, and the bytes, lost its last `m` bytes: NULs
instead of the bytes; without the space only NULs; without digits of the length fewer
NULs. -/
def Name.without (s : Name) (m : Nat) : Option Name :=
  if m ≤ s.length then some (s.take (s.length - m) ++ List.replicate m 0)
  else if m = s.length + 1 then some (List.replicate s.length 0)
  else if 10 ^ (m - s.length - 1) ≤ s.length then some (List.replicate (s.length / 10 ^ (m - s.length - 1)) 0)
  else none

/-- A point with other data. -/
def Point.withBody (p : Point) (d : Body) : Point := ⟨p.counter, p.statement, d.sizes, d.vars, d.aux⟩

end TraceDB
