import Verif.Spec.Archive
/-
Which databases can be read without leaving the table of types.
-/
namespace TraceDB

/-- The type of every variable exists. -/
def Trace.TypesExist (t : Trace) : Prop :=
  ∀ p ∈ t.points, ∀ v ∈ p.vars, v.typeIndex.toNat < t.types.length

/-- In every trace. -/
def Db.TypesExist (db : Db) : Prop := ∀ t ∈ db.traces, t.TypesExist

/-- Databases made by calls of the interface, and by storing such databases as text and
loading them again.  The world (memory, random numbers) and the evaluator may be others for
every call. -/
inductive DbMade : Db → Prop
  | create : DbMade Db.create
  | call {σ : Type} (w : World) (ev : Evaluator σ) (db db' : Db) (s s' : σ) (c : Call) (a : Answer) :
      DbMade db → c.NamesNulFree → runCall w ev db s c = .ok (a, db', s') → DbMade db'
  | stored (version : Nat) (db db' : Db) :
      DbMade db → db.Counts → version < 2 ^ 32 → deserializeDb (serializeDb version db) = some db' → DbMade db'

end TraceDB
