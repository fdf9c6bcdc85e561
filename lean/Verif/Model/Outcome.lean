/-
Outcomes of modelled C++ code.

Everything the C++ core does is modelled in `Res`: it can return a value, throw
a C++ exception, abort on a failed assertion, reach undefined behaviour, or (in
the model only) run out of loop fuel.  The five cases are kept apart so that
"rejects the input", "kills the process" and "is undefined" cannot be confused.
-/
namespace TraceDB

/-- The exceptions thrown by the modelled code.
`eof` is `TraceEOFError`, `trace` is `TraceError`
(cffi-interface/trace-db/TraceError.hpp:8-28); `alloc` is `std::bad_alloc`
(or `std::length_error`) from `new`/`reserve`.  All of them derive from
`std::exception`.  `lisp` is an error signalled by the Lisp code around the library
(including failed Lisp assertions and checks of CFFI).  Simplification: messages are
dropped. -/
inductive Exn where
  | eof
  | trace
  | alloc
  | lisp
  deriving DecidableEq, Repr

/-- Reasons for undefined behaviour that the modelled code can run into.  For cffi-interface/trace-db/TraceError.hpp:12-26. -/
inductive UBKind where
  /-- reading outside an object -/
  | oobRead
  /-- writing outside an object -/
  | oobWrite
  /-- using the value of uninitialised memory -/
  | uninit
  /-- access through a null pointer -/
  | nullDeref
  /-- freeing something that is not a live heap block -/
  | badFree
  /-- access to an object whose lifetime has ended -/
  | dangling
  /-- calling a library function against its preconditions -/
  | misuse
  deriving DecidableEq, Repr

/-- Result of running a piece of C++ code.  For cffi-interface/trace-db/TraceError.hpp:12-26. -/
inductive Res (α : Type) where
  | ok (a : α)
  | throw (e : Exn)
  | abort
  | ub (k : UBKind)
  | hang
  deriving DecidableEq, Repr

namespace Res

/-- Sequencing of C++ code: anything but a normal return ends execution.  For cffi-interface/trace-db/TraceError.hpp:12-26. -/
def bind {α β : Type} (x : Res α) (f : α → Res β) : Res β :=
  match x with
  | .ok a => f a
  | .throw e => .throw e
  | .abort => .abort
  | .ub k => .ub k
  | .hang => .hang

instance : Monad Res where
  pure := Res.ok
  bind := Res.bind

@[simp] theorem pure_eq {α : Type} (a : α) : (pure a : Res α) = .ok a := rfl
@[simp] theorem ok_bind {α β : Type} (a : α) (f : α → Res β) : (Res.ok a >>= f) = f a := rfl
@[simp] theorem throw_bind {α β : Type} (e : Exn) (f : α → Res β) :
    ((Res.throw e : Res α) >>= f) = .throw e := rfl
@[simp] theorem abort_bind {α β : Type} (f : α → Res β) :
    ((Res.abort : Res α) >>= f) = .abort := rfl
@[simp] theorem ub_bind {α β : Type} (k : UBKind) (f : α → Res β) :
    ((Res.ub k : Res α) >>= f) = .ub k := rfl
@[simp] theorem hang_bind {α β : Type} (f : α → Res β) :
    ((Res.hang : Res α) >>= f) = .hang := rfl

theorem bind_assoc {α β γ : Type} (x : Res α) (f : α → Res β) (g : β → Res γ) :
    ((x >>= f) >>= g) = (x >>= fun a => f a >>= g) := by
  cases x <;> rfl

/-- If a sequence returns normally, so did its first part. -/
theorem bind_eq_ok {α β : Type} {x : Res α} {f : α → Res β} {b : β} :
    (x >>= f) = .ok b ↔ ∃ a, x = .ok a ∧ f a = .ok b := by
  cases x <;> simp

/-- Where undefined behaviour in a sequence comes from. -/
theorem bind_eq_ub {α β : Type} {x : Res α} {f : α → Res β} {k : UBKind} :
    (x >>= f) = .ub k ↔ x = .ub k ∨ ∃ a, x = .ok a ∧ f a = .ub k := by
  cases x <;> simp

theorem bind_eq_hang {α β : Type} {x : Res α} {f : α → Res β} :
    (x >>= f) = .hang ↔ x = .hang ∨ ∃ a, x = .ok a ∧ f a = .hang := by
  cases x <;> simp

theorem bind_eq_throw {α β : Type} {x : Res α} {f : α → Res β} {e : Exn} :
    (x >>= f) = .throw e ↔ x = .throw e ∨ ∃ a, x = .ok a ∧ f a = .throw e := by
  cases x <;> simp

theorem bind_eq_abort {α β : Type} {x : Res α} {f : α → Res β} :
    (x >>= f) = .abort ↔ x = .abort ∨ ∃ a, x = .ok a ∧ f a = .abort := by
  cases x <;> simp

/-- The code returned normally.  For cffi-interface/trace-db/TraceError.hpp:12-26. -/
def isOk {α : Type} : Res α → Bool
  | .ok _ => true
  | _ => false

/-- The code threw a C++ exception.  For cffi-interface/trace-db/TraceError.hpp:12-26. -/
def isThrow {α : Type} : Res α → Bool
  | .throw _ => true
  | _ => false

/-- The code reached undefined behaviour.  For cffi-interface/trace-db/TraceError.hpp:12-26. -/
def isUB {α : Type} : Res α → Bool
  | .ub _ => true
  | _ => false

end Res
end TraceDB
