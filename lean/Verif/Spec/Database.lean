import Verif.Model.Database
import Verif.Spec.Export
/-
What the database should do: it is a list of traces that only grows.
-/
namespace TraceDB

/-- The trace a call adds, if any. -/
def Call.adds (env : Env) : Call → Option Trace
  | .addTrace (some s) k => match readTrace env k s with
    | .ok t => some t
    | _ => none
  | .addTracePoints ps names => match traceOfPoints ps names with
    | .ok t => some t
    | _ => none
  | _ => none

/-- The traces added by a history of calls, oldest first. -/
def added (env : Env) (cs : List Call) : List Trace := cs.filterMap (Call.adds env)

/-- What a call should answer when the given traces have been added before. -/
def Answers (w : World) (fs : FloatSys) (before : List Trace) : Call → Answer → Prop
  | .addTrace src k, a => a = .int (if ((Call.addTrace src k).adds w.env).isSome then 1 else 0)
  | .addTracePoints .., a => a = .int 1
  | .getTrace i, a => i.toNat < before.length ∧ ∃ gen, a = .ptr ⟨gen, i.toNat⟩
  | .nTraces, a => a = .int (before.length % 2 ^ 32)
  | .query i q keep, a => ∃ t rs c, before[i.toNat]? = some t ∧ a = .points rs ∧
      queryTrace w.env w.pick (plainEval fs) t q keep [] () = .ok (rs, c, ())

/-- All variables given to `add_trace_points`. -/
def allInVars (points : List InPoint) : List InVar := points.flatMap (·.vars)

/-- What a client should see for a variable it added: name, type name, value and
buffer size as given; the format is signed exactly if some variable with this type
name is negative, and unsigned otherwise. -/
def SeenInVar (points : List InPoint) (v : InVar) (c : Cell) : Prop :=
  ∃ f, c = .var { value := .word v.value, format := f, nameIndex := v.nameIndex,
                  typeNameIndex := v.typeNameIndex, size := 8, bufferSize := v.bufferSize,
                  hasBufferSize := v.hasBufferSize } ∧
    (f = .signed ↔ ∃ w ∈ allInVars points, w.typeNameIndex = v.typeNameIndex ∧ w.value.toInt < 0) ∧
    (f = .unsigned ↔ ∀ w ∈ allInVars points, w.typeNameIndex = v.typeNameIndex → 0 ≤ w.value.toInt)

/-- What a client should see for a point it added. -/
def SeenInPoint (points : List InPoint) (p : InPoint) (s : Seen) : Prop :=
  s.statement = p.statement ∧ s.aux = p.aux.map .word ∧ s.vars.length = p.vars.length ∧
    ∀ (i : Nat) (v : InVar) (c : Cell), p.vars[i]? = some v → s.vars[i]? = some c → SeenInVar points v c

end TraceDB
