import Verif.Model.LispDb
/-
Queries with `pick` from Lisp (binary-trace-db.lisp:524-613).
-/
namespace TraceDB

/-- The query with the seed that is passed (binary-trace-db.lisp:569): a random number below
2^32 (`random`) if `pick` is given, otherwise 0. -/
def LQuery.picking (q : LQuery) (pick : Bool) (random : Nat) : LQuery :=
  { q with seed := if pick then BitVec.ofNat 32 random else 0 }

end TraceDB
