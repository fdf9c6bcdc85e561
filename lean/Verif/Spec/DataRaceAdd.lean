import Verif.Model.Concurrent
import Verif.Model.Writer
import Verif.Spec.Representable
/-
Calls of `add_trace` for files that were written from traces.
-/
namespace TraceDB

/-- The call reads a file with the bytes of `t`, and there is enough memory. -/
structure Job.Adds (j : Job) (t : Trace) : Prop where
  file : j.source = some (IStream.ofBytes (writeTrace t))
  writable : Writable t
  memory : ∀ n, j.env.canAlloc n = true

/-- The points of `t` that the limit lets through. -/
def Job.read (j : Job) (t : Trace) : List Point :=
  if j.maxPoints = 0 then t.points else t.points.take j.maxPoints.toNat

/-- One of them has an auxiliary value. -/
def Job.ReadsAux (j : Job) (t : Trace) : Prop := ∃ p ∈ j.read t, p.aux ≠ []

end TraceDB
