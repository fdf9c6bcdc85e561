import Verif.Model.Programs
import Verif.Model.Project
/-
Programs whose functions are in several files of a project: the statements of each file that
are instrumented (instrumentation/c-cpp.lisp:434-512, 541-605).

Functions are numbered over all files, in the order of each file; which function a call
reaches is part of what the program does, so that functions of different files may have the
same name.
-/
namespace TraceDB

/-- The trace points of file `e`, in the order in which their code is generated
(c-cpp.lisp:453-470, 485-493). -/
def pointsInFile (fileOf : Nat → Nat) (pts : List (Nat × PointEvent)) (e : Nat) : List (Nat × PointEvent) :=
  pts.filter fun p => fileOf p.1 == e

/-- The files of a project as the instrumentation sees them (c-cpp.lisp:399-414, 551-605); `files` are
the paths of the evolve files and whether they have a function `main`. -/
def projectFiles (files : List (Name × Bool)) (fileOf : Nat → Nat) (pos : Nat → Nat → Nat)
    (parts : Nat → PointEvent → List (Bool × List ScopeVar)) (pts : List (Nat × PointEvent)) : List ProjFile :=
  files.zipIdx.map fun x =>
    ⟨x.1.1, x.1.2, (pointsInFile fileOf pts x.2).map fun p => (pos p.1 p.2.id, parts p.1 p.2)⟩

end TraceDB
