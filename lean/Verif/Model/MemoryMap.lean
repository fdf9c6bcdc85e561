import Verif.Model.Bytes
/-
The memory map: a skip list at pointer level
(cffi-interface/trace-db/MemoryMap.hpp).

A pointer is a natural number; `0` is `&m_head`, which is a member of the
`MemoryMap` object and not a heap block.  Nodes are looked up in a heap that
maps pointers to live nodes; a dereference of anything else, or an index outside
a node's `next` array, is undefined behaviour.
-/
namespace TraceDB

/-- Pointers to `snode`; `0` is `&m_head`. -/
scoped notation "Ptr" => Nat

/-- `SKIP_LIST_MAX_HEIGHT` (MemoryMap.hpp:16). -/
def skipListMaxHeight : Nat := 32

/-- `struct snode` (MemoryMap.hpp:18-23).  `next` is the array behind the
pointer; entry 0 is allocated but never used by the code. -/
structure SNode where
  key : U64
  value : U64
  next : List Ptr
  deriving DecidableEq, Repr

/-- `class MemoryMap` (MemoryMap.hpp:25-29) together with the part of the heap
it owns.  `heap 0` is the member `m_head`.  `fresh` is the next address the
allocator hands out (addresses are never reused in the model). -/
structure MemMap where
  height : Nat
  heap : Ptr → Option SNode
  fresh : Ptr

/-- `TraceBufferSize` (cffi-interface/trace-db/TraceBufferSize.hpp:26-32). -/
structure BufferSize where
  address : U64
  size : U64
  deriving DecidableEq, Repr

namespace MemMap

/-- Set one heap cell.  For cffi-interface/trace-db/MemoryMap.hpp:43-130. -/
def setCell (m : MemMap) (p : Ptr) (c : Option SNode) : MemMap :=
  { m with heap := fun q => if q = p then c else m.heap q }

/-- `*p`.  For cffi-interface/trace-db/MemoryMap.hpp:43-130. -/
def deref (m : MemMap) (p : Ptr) : Res SNode :=
  match m.heap p with
  | some n => .ok n
  | none => .ub .dangling

/-- `p->next[i]`.  For cffi-interface/trace-db/MemoryMap.hpp:43-130. -/
def nextAt (m : MemMap) (p : Ptr) (i : Nat) : Res Ptr := do
  let n ← m.deref p
  match n.next[i]? with
  | some q => .ok q
  | none => .ub .oobRead

/-- `p->next[i] = q`.  For cffi-interface/trace-db/MemoryMap.hpp:43-130. -/
def setNext (m : MemMap) (p : Ptr) (i : Nat) (q : Ptr) : Res MemMap := do
  let n ← m.deref p
  if i < n.next.length then
    .ok (m.setCell p (some { n with next := n.next.set i q }))
  else .ub .oobWrite

/-- `delete[] p->next; delete p;`.  `m_head` is not a heap block.  For cffi-interface/trace-db/MemoryMap.hpp:43-130. -/
def free (m : MemMap) (p : Ptr) : Res MemMap :=
  if p = 0 then .ub .badFree
  else match m.heap p with
    | some _ => .ok (m.setCell p none)
    | none => .ub .badFree

/-- `construct` (MemoryMap.hpp:112-119). The value of `m_head` is never
initialised nor used; the model stores 0. -/
def construct : MemMap where
  height := 1
  heap := fun p =>
    if p = 0 then some ⟨u64Max, 0, List.replicate (skipListMaxHeight + 1) 0⟩ else none
  fresh := 1

/-- The loop of `random_level` (MemoryMap.hpp:31-36); `fuel` bounds the number
of iterations. -/
def randomLevelLoop (coin : Nat → Bool) : Nat → Nat → Nat
  | 0, level => level
  | fuel + 1, level =>
    if coin level && decide (level < skipListMaxHeight) then
      randomLevelLoop coin fuel (level + 1)
    else level

/-- `random_level` (MemoryMap.hpp:31-36), with the outcomes of
`rand() < RAND_MAX/2` supplied by `coin`.  The loop runs at most
`SKIP_LIST_MAX_HEIGHT` times. -/
def randomLevel (coin : Nat → Bool) : Nat := randomLevelLoop coin skipListMaxHeight 1

/-- `while (cont(current->next[i]->key)) current = current->next[i];`
(MemoryMap.hpp:43-44, 83-85, 102-104). -/
def walk (m : MemMap) (cont : U64 → Bool) (i : Nat) : Nat → Ptr → Res Ptr
  | 0, _ => .hang
  | fuel + 1, cur => do
    let nx ← m.nextAt cur i
    let n ← m.deref nx
    if cont n.key then walk m cont i fuel nx else pure cur

/-- Fuel for `walk`: no more steps than nodes ever allocated.  For cffi-interface/trace-db/MemoryMap.hpp:43-130. -/
def walkFuel (m : MemMap) : Nat := m.fresh + 1

/-- `for (i = m_height; i >= 1; i--) { while ...; update[i] = current; }`
(MemoryMap.hpp:42-46, 101-105).  Returns the final `current` and the entries
`update[1], update[2], ...`. -/
def descend (m : MemMap) (cont : U64 → Bool) : Nat → Ptr → List Ptr → Res (Ptr × List Ptr)
  | 0, cur, upd => .ok (cur, upd)
  | i + 1, cur, upd => do
    let c ← m.walk cont (i + 1) m.walkFuel cur
    descend m cont i c (c :: upd)

/-- `skipListFind` (MemoryMap.hpp:95-110). `none` is the null pointer. -/
def find (m : MemMap) (key : U64) : Res (Option Ptr) :=
  if key = u64Max then .ok none
  else do
    let (cur, _) ← m.descend (fun k => decide (k ≤ key)) m.height 0 []
    if cur = 0 then pure none else pure (some cur)

/-- The unlinking loop of `skipListRemove` (MemoryMap.hpp:50-54); the list holds
`update[i], update[i+1], ...`. -/
def unlink (cur : Ptr) : List Ptr → Nat → MemMap → Res MemMap
  | [], _, m => .ok m
  | u :: us, i, m => do
    let nx ← m.nextAt u i
    if nx ≠ cur then pure m
    else do
      let nx' ← m.nextAt cur i
      let m' ← m.setNext u i nx'
      unlink cur us (i + 1) m'

/-- `while (m_height > 1 && m_head.next[m_height] == &m_head) m_height--;`
(MemoryMap.hpp:58-60); returns the new height. -/
def lowerHeight (m : MemMap) : Nat → Res Nat
  | 0 => .ok 0
  | h + 1 =>
    if h + 1 > 1 then do
      let nx ← m.nextAt 0 (h + 1)
      if nx = 0 then lowerHeight m h else pure (h + 1)
    else .ok (h + 1)

/-- `skipListRemove` (MemoryMap.hpp:38-62). -/
def remove (m : MemMap) (key : U64) : Res MemMap := do
  let (cur, upd) ← m.descend (fun k => decide (k < key)) m.height 0 []
  let cur ← m.nextAt cur 1
  let n ← m.deref cur
  if n.key = key then do
    let m ← unlink cur upd 1 m
    let m ← m.free cur
    let h ← m.lowerHeight m.height
    pure { m with height := h }
  else pure m

/-- The insertion loop of `skipListUpdate` (MemoryMap.hpp:82-91). -/
def insertLevels (key : U64) (new : Ptr) (level : Nat) : Nat → MemMap → Ptr → Res MemMap
  | 0, m, _ => .ok m
  | i + 1, m, cur => do
    let cur ← m.walk (fun k => decide (k < key)) (i + 1) m.walkFuel cur
    if i + 1 ≤ level then do
      let nx ← m.nextAt cur (i + 1)
      let m ← m.setNext new (i + 1) nx
      let m ← m.setNext cur (i + 1) new
      insertLevels key new level i m cur
    else insertLevels key new level i m cur

/-- The part of `skipListUpdate` that creates a node
(MemoryMap.hpp:70-91).  Allocation of the node is assumed to succeed. The
uninitialised entries of the new `next` array hold 0 in the model; they are all
written before they are read. -/
def insertNew (m : MemMap) (key value : U64) (rnd : Nat) : Res MemMap :=
  let height := if rnd > m.height then m.height + 1 else m.height
  let level := if rnd > m.height then m.height + 1 else rnd
  let new := m.fresh
  let m : MemMap := { m with height := height, fresh := m.fresh + 1 }
  let m := m.setCell new (some ⟨key, value, List.replicate (level + 1) 0⟩)
  insertLevels key new level height m 0

/-- `skipListUpdate` (MemoryMap.hpp:64-93). -/
def update (m : MemMap) (key value : U64) (rnd : Nat) : Res MemMap := do
  let existing ← m.find key
  match existing with
  | some p => do
    let n ← m.deref p
    if n.key = key then pure (m.setCell p (some { n with value := value }))
    else insertNew m key value rnd
  | none => insertNew m key value rnd

/-- `updateMemoryMap` (MemoryMap.hpp:150-156).  The draws for the `k`-th node
ever created come from `coin k`. -/
def updateMemoryMap (coin : Nat → Nat → Bool) (m : MemMap) (r : BufferSize) : Res MemMap :=
  if r.size = 0 then m.remove r.address
  else m.update r.address r.size (randomLevel (coin m.fresh))

/-- `computeBufferSize` (MemoryMap.hpp:160-173); the addition wraps. -/
def computeBufferSize (m : MemMap) (address : U64) : Res U64 := do
  let result ← m.find address
  match result with
  | some p => do
    let n ← m.deref p
    let regionEnd := n.key + n.value
    if address ≤ regionEnd then pure (regionEnd - address) else pure u64Max
  | none => pure u64Max

/-- The loop of `destruct` (MemoryMap.hpp:121-130): frees every node reached at
level 1 (`delete[] m_head.next` is left implicit).  Returns the heap left. -/
def destructLoop : Nat → Ptr → MemMap → Res MemMap
  | 0, _, _ => .hang
  | fuel + 1, cur, m =>
    if cur = 0 then .ok m
    else do
      let nx ← m.nextAt cur 1
      let m' ← m.free cur
      destructLoop fuel nx m'

/-- `destruct` (MemoryMap.hpp:121-130). -/
def destruct (m : MemMap) : Res MemMap := do
  let first ← m.nextAt 0 1
  destructLoop m.walkFuel first m

/-- A history of `updateMemoryMap` calls.  For cffi-interface/trace-db/MemoryMap.hpp:43-130. -/
def run (coin : Nat → Nat → Bool) : List BufferSize → MemMap → Res MemMap
  | [], m => .ok m
  | r :: rs, m => do
    let m' ← updateMemoryMap coin m r
    run coin rs m'

end MemMap
end TraceDB
