import Verif.Model.Signals
import Verif.Spec.Runtime
/-
What a program with signals records, in terms of whole points.
-/
namespace TraceDB

/-- After the given events (steps of threads left out), the threads have recorded the points
`order`, and thread `i` has still to record `rem[i]`.  Handlers record their points where the
thread was interrupted. -/
inductive SgReach {α : Type} (threads : List (List α)) : List (SgEvent (List α)) → List (Nat × α) → List (List α) → Prop
  | start : SgReach threads [] [] threads
  | point {es order rem i p l} : SgReach threads es order rem → rem[i]? = some (p :: l) →
      SgReach threads es (order ++ [(i, p)]) (rem.set i l)
  | signal {es order rem i h l} : SgReach threads es order rem → rem[i]? = some l →
      SgReach threads (es ++ [.signal i h]) order (rem.set i (h ++ l))
  | jump {es order rem i l} : SgReach threads es order rem → SgReach threads (es ++ [.jump i l]) order (rem.set i l)

/-- The event is not a step of a thread. -/
def SgEvent.isSignal {α : Type} : SgEvent α → Bool
  | .run _ => false
  | _ => true

/-- An event with something else as code. -/
def SgEvent.map {α β : Type} (f : α → β) : SgEvent α → SgEvent β
  | .run i => .run i
  | .signal i h => .signal i (f h)
  | .jump i l => .jump i (f l)

/-- Two events of the same kind whose code is related. -/
inductive SgEvent.Rel {α β : Type} (R : α → β → Prop) : SgEvent α → SgEvent β → Prop
  | run (i : Nat) : SgEvent.Rel R (.run i) (.run i)
  | signal (i : Nat) {h g} : R h g → SgEvent.Rel R (.signal i h) (.signal i g)
  | jump (i : Nat) {h g} : R h g → SgEvent.Rel R (.jump i h) (.jump i g)

/-- The code in an event. -/
def SgEvent.code {α : Type} : SgEvent (List α) → List α
  | .run _ => []
  | .signal _ h => h
  | .jump _ l => l

/-- Thread `i` is interrupted by a handler that records points or does not return. -/
def SgEvent.Hits {α : Type} (i : Nat) : SgEvent (List α) → Prop
  | .run _ => False
  | .signal j h => j = i ∧ h ≠ []
  | .jump j _ => j = i

/-- The threads that events are about exist. -/
def SgEvent.InRange {α : Type} (n : Nat) : SgEvent α → Prop
  | .run _ => True
  | .signal i _ => i < n
  | .jump i _ => i < n

/-- No thread is hit while it owns the mutex, that is, within a point. -/
def SgSafe (s : RtState) (events : List (SgEvent (List RtAct))) : Prop :=
  ∀ a e b s' i, events = a ++ e :: b → s.sgRun a = .ok s' → e.Hits i → s'.owner ≠ some i

end TraceDB
