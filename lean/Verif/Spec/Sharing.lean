import Verif.Model.Flyweight
import Verif.Model.Database
/-
What a program would see if points were plain values, and which points the library
makes.
-/
namespace TraceDB

/-- The same operations on plain values. -/
def runUnshared : List ShareOp → List Point → List Point
  | [], ps => ps
  | .make p :: ops, ps => runUnshared ops (ps ++ [p])
  | .drop k :: ops, ps => runUnshared ops (ps.eraseIdx k)

/-- Points the library makes: those of a trace that was read, those of a trace made
from points, and the results of a query, which have some of the variables of a
point. -/
inductive Recorded : Point → Prop
  | read (env : Env) (maxPoints : U64) (s : IStream) (t : Trace) (h : readTrace env maxPoints s = .ok t)
      (p : Point) (hp : p ∈ t.points) : Recorded p
  | made (points : List InPoint) (names : List Name) (t : Trace) (h : traceOfPoints points names = .ok t)
      (p : Point) (hp : p ∈ t.points) : Recorded p
  | restrict (p : Point) (h : Recorded p) (vs : List VarInfo) (hv : ∀ v ∈ vs, v ∈ p.vars) : Recorded { p with vars := vs }

/-- Every `make` of the list makes a point satisfying `P`. -/
def MakesOnly (P : Point → Prop) (ops : List ShareOp) : Prop := ∀ p, ShareOp.make p ∈ ops → P p

end TraceDB
