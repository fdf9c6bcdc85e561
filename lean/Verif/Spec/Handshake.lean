import Verif.Model.Handshake
/-
What a collection of traces should be.
-/
namespace TraceDB

/-- The first `k` bytes of the trace of run `p`, marked with its number. -/
def outputOf (out : Nat → List U8) (p k : Nat) : List (Nat × U8) := ((out p).take k).map fun x => (p, x)

/-- The whole trace of run `p`. -/
def wholeOutput (out : Nat → List U8) (p : Nat) : List (Nat × U8) := (out p).map fun x => (p, x)

/-- The collector does not give up, nor stop in the middle of a trace, and no run is killed. -/
def HsEvent.smooth : HsEvent → Bool
  | .enough | .giveUp | .kill _ => false
  | _ => true

end TraceDB
