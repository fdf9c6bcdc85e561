import Verif.Model.Predicate
/-
Predicates on their way from Lisp to the query engine: the s-expression, the C
structures `build-predicate` makes of it (binary-trace-db.lisp:455-522), the predicate
object made of those (cffi-interface/trace-db.cpp:199-242) and their release
(trace-db.cpp:244-262).
-/
namespace TraceDB

/-- `struct c_predicate` (trace-db.h:78-91).  `children` is the number of the block that
the pointer points to the beginning of; `none` is NULL. -/
structure CPred where
  kind : PKind
  nChildren : U64
  varIndex : U64
  unsignedValue : U64
  signedValue : U64
  floatValue : U64
  children : Option Nat
  deriving DecidableEq, Repr

/-- A block of memory with an array of `c_predicate`.  For binary-trace-db.lisp:455-522. -/
structure PBlock where
  live : Bool
  cells : List CPred
  deriving DecidableEq, Repr

/-- The blocks allocated so far.  Simplification: only blocks with predicates are
modelled, and allocation succeeds.  For binary-trace-db.lisp:455-522. -/
abbrev PHeap := List PBlock

/-- Access to element `i` of the array in block `b`.  For cffi-interface/trace-db.cpp:199-242. -/
def PHeap.load (h : PHeap) (b i : Nat) : Res CPred :=
  match h[b]? with
  | some blk => if blk.live then (match blk.cells[i]? with
      | some c => .ok c
      | none => .ub .oobRead) else .ub .dangling
  | none => .ub .oobRead

/-- `free`.  For cffi-interface/trace-db.cpp:244-262. -/
def PHeap.free (h : PHeap) : Option Nat → Res PHeap
  | none => .ok h
  | some b =>
    match h[b]? with
    | some blk => if blk.live then .ok (h.set b { blk with live := false }) else .ub .badFree
    | none => .ub .badFree

/-- `foreign-alloc`; the block is filled by the caller at once.  An array of length 0 is
a block too.  For binary-trace-db.lisp:455-522. -/
def PHeap.alloc (h : PHeap) (cells : List CPred) : Nat × PHeap := (h.length, h ++ [⟨true, cells⟩])

/-- The operators in s-expressions, by the name of the symbol
(binary-trace-db.lisp:487-503); `other` stands for all other symbols. -/
inductive LispOp where
  | distinctVars | and | or | not | vSize | vValue
  | gt | ge | lt | le | equal | eqSign | plus | minus | times | slash
  | other (n : Nat)
  deriving DecidableEq, Repr

/-- Predicates as s-expressions: integers, other numbers (by the bits of
`(coerce number 'double-float)`), symbols, the empty list and operator calls.
Simplification: a list whose head is not a symbol (an error in `make-keyword`) is
`call (.other _) _`.  For binary-trace-db.lisp:455-522. -/
inductive SExp where
  | int (i : Int)
  | float (bits : U64)
  | sym (name : Nat)
  | nil
  | call (op : LispOp) (args : List SExp)

/-- The `ecase` of `build-operator` (binary-trace-db.lisp:487-503); `none` is its
error. -/
def LispOp.kind : LispOp → Option PKind
  | .distinctVars => some .distinctVars
  | .and => some .and
  | .or => some .or
  | .not => some .not
  | .vSize => some .varSize
  | .vValue => some .varValue
  | .gt => some .greaterThan
  | .ge => some .greaterThanOrEqual
  | .lt => some .lessThan
  | .le => some .lessThanOrEqual
  | .equal => some .equal
  | .eqSign => some .equal
  | .plus => some .add
  | .minus => some .subtract
  | .times => some .multiply
  | .slash => some .divide
  | .other _ => none

/-- `(position var var-names)`.  For binary-trace-db.lisp:455-522. -/
def position (x : Nat) : List Nat → Option Nat
  | [] => none
  | y :: ys => if y = x then some 0 else (position x ys).map (· + 1)

/-- `build-number` (binary-trace-db.lisp:469-484) for integers; integers that do not fit
into the field are an error of CFFI. -/
def buildInt (i : Int) : Option CPred :=
  if 0 ≤ i then
    if i < 2 ^ 64 then some ⟨.unsignedValue, 0, 0, BitVec.ofInt 64 i, 0, 0, none⟩ else none
  else
    if -2 ^ 63 ≤ i then some ⟨.signedValue, 0, 0, 0, BitVec.ofInt 64 i, 0, none⟩ else none

mutual
/-- `helper` of `build-predicate` (binary-trace-db.lisp:509-513) with
`build-var-reference` (458-468), `build-number` (469-484) and `build-operator`
(485-508).  `none` is a Lisp error; what is allocated before one is not
modelled. -/
def buildHelper (names : List Nat) : SExp → PHeap → Option (CPred × PHeap)
  | .int i, h => (buildInt i).map (·, h)
  | .float bits, h => some (⟨.floatValue, 0, 0, 0, 0, bits, none⟩, h)
  | .sym x, h => (position x names).map fun i => (⟨.varReference, 0, BitVec.ofNat 64 i, 0, 0, 0, none⟩, h)
  | .nil, _ => none
  | .call op args, h =>
    match op.kind with
    | none => none
    | some k =>
      match buildArgs names args h with
      | none => none
      | some (cells, h) =>
        let (b, h) := h.alloc cells
        some (⟨k, BitVec.ofNat 64 args.length, 0, 0, 0, 0, some b⟩, h)
/-- `(map 'vector #'helper args)` (binary-trace-db.lisp:508). -/
def buildArgs (names : List Nat) : List SExp → PHeap → Option (List CPred × PHeap)
  | [], h => some ([], h)
  | s :: ss, h =>
    match buildHelper names s h with
    | none => none
    | some (c, h) =>
      match buildArgs names ss h with
      | none => none
      | some (cs, h) => some (c :: cs, h)
end

/-- `build-predicate` (binary-trace-db.lisp:455-522): NULL for `nil`.  Simplification:
the block for the root is numbered after those of the children although it is allocated
first. -/
def buildPredicate (names : List Nat) (s : SExp) (h : PHeap) : Option (Option Nat × PHeap) :=
  match s with
  | .nil => some (none, h)
  | s =>
    match buildHelper names s h with
    | none => none
    | some (c, h) =>
      let (b, h) := h.alloc [c]
      some (some b, h)

/-- The field copied into `union predicate_data` (trace-db.cpp:220-236). -/
def CPred.data (c : CPred) : U64 :=
  match c.kind with
  | .varReference => c.varIndex
  | .unsignedValue => c.unsignedValue
  | .signedValue => c.signedValue
  | .floatValue => c.floatValue
  | _ => c.nChildren

/-- The loop over the children (trace-db.cpp:209-216): `n` more from element `i`;
children that are null predicates are dropped. -/
def createChildren (create : CPred → Res Pred) (h : PHeap) (b : Nat) : Nat → Nat → Res (List Pred)
  | _, 0 => .ok []
  | i, n + 1 => do
    let c ← h.load b i
    let p ← create c
    let ps ← createChildren create h b (i + 1) n
    pure (if p.kind = .null then ps else p :: ps)

/-- `create_predicate_obj` (trace-db.cpp:199-242) for a pointer that is not NULL.  The
fuel bounds the depth of recursion. -/
def createPred (h : PHeap) : Nat → CPred → Res Pred
  | 0, _ => .hang
  | fuel + 1, c =>
    match c.children with
    | none => .ok (.node c.kind c.data [])
    | some b =>
      -- the loop counter has 32 bits, the bound 64 (trace-db.cpp:210)
      if 2 ^ 32 ≤ c.nChildren.toNat then .hang
      else do
        let cs ← createChildren (createPred h fuel) h b 0 c.nChildren.toNat
        pure (.node c.kind c.data cs)

/-- `create_predicate_obj` (trace-db.cpp:199-242). -/
def createPredicateObj (h : PHeap) : Option Nat → Res Pred
  | none => .ok .nullPred
  | some b => do
    let c ← h.load b 0
    createPred h (h.length + 1) c

/-- The kinds without children in `free_c_predicate_helper` (trace-db.cpp:246-249). -/
def PKind.isLeaf : PKind → Bool
  | .varReference => true
  | .signedValue => true
  | .unsignedValue => true
  | .floatValue => true
  | _ => false

/-- The loop of `free_c_predicate_helper` (trace-db.cpp:250-251). -/
def freeChildren (free : CPred → PHeap → Res PHeap) (children : Option Nat) : Nat → Nat → PHeap → Res PHeap
  | _, 0, h => .ok h
  | i, n + 1, h =>
    match children with
    | none => .ub .nullDeref
    | some b => do
      let c ← h.load b i
      let h ← free c h
      freeChildren free children (i + 1) n h

/-- `free_c_predicate_helper` (trace-db.cpp:244-254).  The fuel bounds the depth of
recursion. -/
def freePred : Nat → CPred → PHeap → Res PHeap
  | 0, _, _ => .hang
  | fuel + 1, c, h =>
    if c.kind.isLeaf then .ok h
    else if 2 ^ 32 ≤ c.nChildren.toNat then .hang
    else do
      let h ← freeChildren (freePred fuel) c.children 0 c.nChildren.toNat h
      h.free c.children

/-- `free_c_predicate` (trace-db.cpp:256-262). -/
def freeCPredicate (p : Option Nat) (h : PHeap) : Res PHeap :=
  match p with
  | none => .ok h
  | some b => do
    let c ← h.load b 0
    let h ← freePred (h.length + 1) c h
    h.free (some b)

end TraceDB
