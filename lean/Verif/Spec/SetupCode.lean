import Verif.Model.SetupCode
/-
What the text of an instrumented file should be.
-/
namespace TraceDB

/-- A piece of the program. -/
def Piece.isOwn : Piece → Bool
  | .own _ => true
  | _ => false

mutual
/-- No setup code yet. -/
def TopAst.fresh : TopAst → Bool
  | .text p => p.isOwn
  | .node _ _ b cs a => b.all Piece.isOwn && freshEach cs && a.all Piece.isOwn
def freshEach : List TopAst → Bool
  | [] => true
  | c :: cs => c.fresh && freshEach cs
end

mutual
/-- The text of a file with the entry macro right before each declarator of `main`. -/
def TopAst.withMacros (holds : Nat → Bool) : TopAst → List Piece
  | .text p => [p]
  | .node k c b cs a =>
    b ++ (if k = .mainDeclarator then [.entryMacro] else []) ++
      (if c.all holds then withMacrosEach holds cs else []) ++ a
def withMacrosEach (holds : Nat → Bool) : List TopAst → List Piece
  | [] => []
  | c :: cs => c.withMacros holds ++ withMacrosEach holds cs
end

mutual
/-- Is a declarator of `main` compiled? -/
def TopAst.mainCompiled (holds : Nat → Bool) : TopAst → Bool
  | .text _ => false
  | .node k c _ cs _ => k == .mainDeclarator || (c.all holds && mainCompiledEach holds cs)
def mainCompiledEach (holds : Nat → Bool) : List TopAst → Bool
  | [] => false
  | c :: cs => c.mainCompiled holds || mainCompiledEach holds cs
end

mutual
/-- Is there a declarator of `main` at all? -/
def TopAst.hasMain : TopAst → Bool
  | .text _ => false
  | .node k _ _ cs _ => k == .mainDeclarator || hasMainEach cs
def hasMainEach : List TopAst → Bool
  | [] => false
  | c :: cs => c.hasMain || hasMainEach cs
end

mutual
/-- What stands before the first AST that is no error: blanks, comments and the like.  An error
without children counts as such an AST. -/
def leadText : TopAst → List Piece
  | .text _ => []
  | .node k _ b cs _ => b ++ if k = .error then leadTextEach cs else []
def leadTextEach : List TopAst → List Piece
  | [] => []
  | .text p :: cs => if hasNode cs then p :: leadTextEach cs else []
  | .node k c b xs a :: _ => leadText (.node k c b xs a)
/-- Is one of them more than text? -/
def hasNode : List TopAst → Bool
  | [] => false
  | .text _ :: cs => hasNode cs
  | .node _ _ _ _ _ :: _ => true
end

mutual
/-- What stands after the last AST that is no error, and what already follows it. -/
def trailText : TopAst → List Piece
  | .text _ => []
  | .node k _ _ cs a => if k = .error ∧ hasNode cs = true then trailTextEach cs ++ a else []
def trailTextEach : List TopAst → List Piece
  | [] => []
  | .text _ :: cs => trailTextEach cs
  | .node k c b xs a :: cs => if hasNode cs then trailTextEach cs else trailText (.node k c b xs a) ++ ownTexts cs
/-- The text among children. -/
def ownTexts : List TopAst → List Piece
  | [] => []
  | .text p :: cs => p :: ownTexts cs
  | _ :: cs => ownTexts cs
end

mutual
/-- The errors on the way to the first AST that is none are compiled. -/
def leadCompiled (holds : Nat → Bool) : TopAst → Bool
  | .text _ => true
  | .node k c _ cs _ => k != .error || !hasNode cs || (c.all holds && leadCompiledEach holds cs)
def leadCompiledEach (holds : Nat → Bool) : List TopAst → Bool
  | [] => true
  | .text _ :: cs => leadCompiledEach holds cs
  | .node k c b xs a :: _ => leadCompiled holds (.node k c b xs a)
end

mutual
/-- The errors on the way to the last AST that is none are compiled. -/
def trailCompiled (holds : Nat → Bool) : TopAst → Bool
  | .text _ => true
  | .node k c _ cs _ => k != .error || !hasNode cs || (c.all holds && trailCompiledEach holds cs)
def trailCompiledEach (holds : Nat → Bool) : List TopAst → Bool
  | [] => true
  | c :: cs => if hasNode cs then trailCompiledEach holds cs else c.isText || trailCompiled holds c
/-- Text? -/
def TopAst.isText : TopAst → Bool
  | .text _ => true
  | _ => false
end

end TraceDB
