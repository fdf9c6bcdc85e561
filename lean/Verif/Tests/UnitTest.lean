import Verif.Model.Reader
import Verif.Model.Writer
import Verif.Model.Query
import Verif.Model.Archive
import Verif.Model.OpenFile
import Verif.Model.Hash
import Verif.Model.TypeString
/-
The project's own tests of the C++ library
(test/cffi-interface/trace-db/unit-test.cpp), run on the model.

These are tests of the model, not proofs of properties: each `example` computes what the
test computes and compares it with what the test expects of the code.  Where a test reads
memory that was never written, the model is run with that memory holding zeros
(`testEnv`).  Results that do not depend on chance are checked with several random towers.
-/
namespace TraceDB.UnitTest

/-- Memory suffices, memory never written holds zeros, towers are drawn from `coin`. -/
def testEnv (coin : Nat → Nat → Bool) : Env := ⟨fun _ => true, some fun _ => 0, coin⟩

/-- Some ways to draw the towers. -/
def coins : List (Nat → Nat → Bool) :=
  [fun _ _ => false, fun _ _ => true, fun k _ => k % 2 == 0, fun k j => (k + j) % 3 == 0]

/-- The same outcome for all `coins`. -/
def always {α : Type} [DecidableEq α] (f : Env → α) (a : α) : Bool := coins.all fun c => f (testEnv c) == a

/-- `ASSERT_TRACE_EOF_ERROR(Trace tmp(in))` (unit-test.cpp:67-76). -/
def eofError (bytes : List U8) : Bool := always (fun e => readTraceBytes e 0 bytes) (.throw .eof)

/-- `ASSERT_TRACE_ERROR(Trace tmp(in))` (unit-test.cpp:45-54); an end-of-file error is not a
`TraceError`. -/
def traceError (bytes : List U8) : Bool := always (fun e => readTraceBytes e 0 bytes) (.throw .trace)

/-- `test_names` (unit-test.cpp:109-124). -/
def testNames : List Name :=
  ["fixed_blob", "var_blob", "int", "var", "x", "y", "z", "unsigned int", "big_positive",
   "big_negative", "int64_t", "uint64_t", "big_unsigned", "*void"].map ascii

/-- `test_types` (unit-test.cpp:126-134). -/
def testTypes : List TypeDesc :=
  [⟨2, .signed, 4⟩, ⟨0, .blob, 10⟩, ⟨1, .blob, 0⟩, ⟨7, .unsigned, 4⟩, ⟨10, .signed, 8⟩,
   ⟨11, .unsigned, 8⟩, ⟨13, .pointer, 8⟩]

/-- `namei` (unit-test.cpp:136-143). -/
def namei (name : String) : Nat := testNames.findIdx (· == ascii name)

/-- `typei` (unit-test.cpp:145-152). -/
def typei (name : String) : Nat := testTypes.findIdx fun t => t.nameIndex.toNat == namei name

/-- A record made as in unit-test.cpp:173-235. -/
def testVar (value : U64) (name type : String) (size : U32) (buffer : U64) (has : Bool) : VarInfo :=
  ⟨.word value, BitVec.ofNat 32 (namei name), BitVec.ofNat 32 (typei type),
    (testTypes[typei type]?.map TypeDesc.format).getD .invalid, size, buffer, has⟩

/-- `createTestTrace` (unit-test.cpp:159-242). -/
def testTrace : Trace :=
  ⟨testNames, testTypes,
   [⟨1, 1, [⟨0x1234, 4⟩],
     [testVar 0 "x" "unsigned int" 4 0 false, testVar 1 "y" "unsigned int" 4 0 false,
      testVar (-2) "z" "int" 4 0 false,
      testVar 0x7fffffffffffffff "big_positive" "int64_t" 8 0 false,
      testVar 0x8000000000000000 "big_negative" "int64_t" 8 0 false,
      testVar 0xffffffffffffffff "big_unsigned" "uint64_t" 8 0 false,
      testVar 0x1234 "var" "*void" 8 4 true], []⟩]⟩

/-- The trace without points that most tests start with. -/
def emptyTrace : Trace := ⟨testNames, testTypes, []⟩

/-! `test_eof_in_header` (unit-test.cpp:244-287) -/

example : eofError [] = true := by decide +kernel
example : eofError (leBytes 8 100) = true := by decide +kernel
example : eofError (leBytes 8 4 ++ ascii "foo" ++ [0] ++ leBytes 8 10) = true := by decide +kernel

/-! `test_good_header` (unit-test.cpp:289-302) -/

example : always (fun e => readTraceBytes e 0 (writeTrace emptyTrace)) (.ok emptyTrace) = true := by
  decide +kernel

/-! `test_bad_tag` (unit-test.cpp:304-315) -/

example : traceError (writeTrace emptyTrace ++ [7]) = true := by decide +kernel

/-! `test_eof_in_tag` (unit-test.cpp:317-330): the stream is at its end when another point is
read from it. -/

example : readEntries (MapImpl.skipList fun _ _ => true) (testEnv fun _ _ => true) testNames testTypes 3
    ⟨[], false, .eof⟩ MemMap.construct .empty = .throw .eof := by rfl

/-! `test_eof_in_id` (unit-test.cpp:332-344) -/

example : eofError (writeTrace emptyTrace ++ [1, 0xab]) = true := by decide +kernel

/-! `test_eof_in_variable` (unit-test.cpp:346-395) -/

example : eofError (writeTrace emptyTrace ++ [2, 0xab]) = true := by decide +kernel
example : eofError (writeTrace emptyTrace ++ [2, 0, 0, 0xab]) = true := by decide +kernel
example : eofError (writeTrace emptyTrace ++ [2] ++ leBytes 4 0 ++ leBytes 4 0 ++ [0xab]) = true := by
  decide +kernel

/-! `test_eof_in_blob_variable` (unit-test.cpp:397-454) -/

example : eofError (writeTrace emptyTrace ++ [2] ++ leBytes 4 1 ++ leBytes 4 1 ++ [0xab]) = true := by
  decide +kernel
example : eofError (writeTrace emptyTrace ++ [2] ++ leBytes 4 2 ++ leBytes 4 2 ++ [0xab]) = true := by
  decide +kernel
example : eofError (writeTrace emptyTrace ++ [2] ++ leBytes 4 2 ++ leBytes 4 2 ++ leBytes 2 3 ++ [0xab]) = true := by
  decide +kernel

/-! `test_bad_index_in_variable` (unit-test.cpp:456-499) -/

example : traceError (writeTrace emptyTrace ++ [1] ++ leBytes 8 0 ++ [2] ++ leBytes 4 testNames.length ++
    leBytes 4 0 ++ leBytes 4 0 ++ [0]) = true := by decide +kernel
example : traceError ([1] ++ leBytes 8 0 ++ [2] ++ leBytes 4 0 ++ leBytes 4 testTypes.length ++
    writeTrace emptyTrace) = true := by decide +kernel

/-! `test_bad_type` (unit-test.cpp:501-532): the bytes after the empty type table are read as
points. -/

example : traceError (writeTrace ⟨testNames, [], []⟩ ++ leBytes 4 0 ++ leBytes 4 5) = true := by decide +kernel
example : traceError (writeTrace ⟨testNames, [], []⟩ ++ leBytes 4 9999) = true := by decide +kernel

/-! `test_eof_in_buffer_size` (unit-test.cpp:534-544) -/

example : readBufferSize (IStream.ofBytes [0xab]) = .throw .eof := by decide +kernel

/-! `test_read_from_fifo` and `test_timeout_from_fifo` (unit-test.cpp:546-571): a pipe that
gets data after some seconds, and one that never does. -/

example : openWithTimeout ⟨some 3, some 2, none, false⟩ 10 [] = .ok (some 3, [3]) := by decide +kernel
example : openWithTimeout ⟨some 3, none, none, false⟩ 1 [] = .ok (none, []) := by decide +kernel

/-! `test_memory_map` (unit-test.cpp:573-610) -/

/-- What a map answers after some records. -/
def lookups (records : List BufferSize) (addresses : List U64) (coin : Nat → Nat → Bool) : Res (List U64) := do
  let m ← MemMap.run coin records MemMap.construct
  addresses.foldr (fun a r => do
    let x ← m.computeBufferSize a
    let xs ← r
    pure (x :: xs)) (.ok [])

example : coins.all (fun c => lookups [⟨3, 10⟩, ⟨100, 2⟩] [3, 100, 8, 101, 13, 102, 99, 2] c ==
    .ok [10, 2, 5, 1, 0, 0, u64Max, u64Max]) = true := by decide +kernel
example : coins.all (fun c => lookups [⟨3, 10⟩, ⟨100, 2⟩, ⟨3, 5⟩] [3] c == .ok [5]) = true := by
  decide +kernel
example : coins.all (fun c => lookups [⟨3, 10⟩, ⟨100, 2⟩, ⟨3, 5⟩, ⟨100, 0⟩] [100, u64Max] c ==
    .ok [u64Max, u64Max]) = true := by decide +kernel
example : coins.all (fun c => lookups [⟨3, 10⟩, ⟨100, 2⟩, ⟨3, 5⟩, ⟨100, 0⟩, ⟨u64Max, 5⟩] [u64Max] c ==
    .ok [u64Max]) = true := by decide +kernel

/-! Queries (unit-test.cpp:612-936) -/

/-- Fractions in place of decimal floats: exact for what the tests compute. -/
def fractions : FloatSys where
  F := Int × Int
  ofInt i := (i, 1)
  ofF32 u := (u.toNat, 1)
  ofF64 u := (u.toNat, 1)
  add x y := (x.1 * y.2 + y.1 * x.2, x.2 * y.2)
  sub x y := (x.1 * y.2 - y.1 * x.2, x.2 * y.2)
  mul x y := (x.1 * y.1, x.2 * y.2)
  div x y := (x.1 * y.2, x.2 * y.1)
  lt x y := decide (x.1 * y.2 * (x.2 * y.2) < y.1 * x.2 * (x.2 * y.2))
  le x y := decide (x.1 * y.2 * (x.2 * y.2) ≤ y.1 * x.2 * (x.2 * y.2))
  gt x y := decide (x.1 * y.2 * (x.2 * y.2) > y.1 * x.2 * (x.2 * y.2))
  ge x y := decide (x.1 * y.2 * (x.2 * y.2) ≥ y.1 * x.2 * (x.2 * y.2))
  eq x y := decide (x.1 * y.2 = y.1 * x.2)
  isZero x := x.1 == 0

/-- Name index and value of a variable. -/
def shown (v : VarInfo) : Nat × Int := (v.nameIndex.toNat, v.value.bits.toInt)

/-- `t.query(vars, hard, soft)`: the variables of the results; a variable is given by the
names of its types. -/
def ask (vars : List (List String)) (hard : Pred) (soft : List Pred) : Res (List (List (Nat × Int))) := do
  let (rs, _, _) ← query (testEnv fun _ _ => true) (fun _ _ => 0) (plainEval fractions) testTrace
    ⟨vars.map fun ts => ts.map fun t => BitVec.ofNat 32 (typei t), hard, soft, 0, 0, 0⟩ [] ()
  pure (rs.map fun r => r.vars.map shown)

/-- The number of results. -/
def count (vars : List (List String)) (hard : Pred) (soft : List Pred) : Res Nat := do
  let rs ← ask vars hard soft
  pure rs.length

/-- The names in the results. -/
def names (vars : List (List String)) (hard : Pred) (soft : List Pred) : Res (List (List Nat)) := do
  let rs ← ask vars hard soft
  pure (rs.map fun r => r.map (·.1))

def var1 : Pred := .node .varReference 0 []
def var2 : Pred := .node .varReference 1 []
def val1 : Pred := .node .varValue 1 [var1]
def val2 : Pred := .node .varValue 1 [var2]
def signed (v : U64) : Pred := .node .signedValue v []
def unsigned (v : U64) : Pred := .node .unsignedValue v []
def binary (k : PKind) (a b : Pred) : Pred := .node k 2 [a, b]
def ints : List String := ["unsigned int", "int"]

/-- `test_query_variable_binding` (unit-test.cpp:612-640). -/
example : ask [["unsigned int"], ["int"]] Pred.nullPred [] =
    .ok [[(namei "x", 0), (namei "z", -2)], [(namei "y", 1), (namei "z", -2)]] := by decide +kernel

/-! `test_query_predicates` (unit-test.cpp:642-841) -/

example : count [["unsigned int"], ["unsigned int"]] Pred.nullPred [] = .ok 4 := by decide +kernel
example : count [["unsigned int"], ["unsigned int"]] (binary .distinctVars var1 var2) [] = .ok 2 := by
  decide +kernel
/-- a > 0 -/
example : count [ints] (binary .greaterThan val1 (signed 0)) [] = .ok 1 := by decide +kernel
/-- a < -1 -/
example : count [ints] (binary .lessThan val1 (signed (-1))) [] = .ok 1 := by decide +kernel
/-- a + b == -1: two results, the first of them (z, y) -/
example : names [ints, ints] (binary .equal (binary .add val1 val2) (signed (-1))) [] =
    .ok [[namei "z", namei "y"], [namei "y", namei "z"]] := by decide +kernel
/-- a - b == 3 -/
example : names [ints, ints] (binary .equal (binary .subtract val1 val2) (signed 3)) [] =
    .ok [[namei "y", namei "z"]] := by decide +kernel
/-- a * b == 0: five results, x in each of them -/
example : count [ints, ints] (binary .equal (binary .multiply val1 val2) (signed 0)) [] = .ok 5 ∧
    (do let rs ← names [ints, ints] (binary .equal (binary .multiply val1 val2) (signed 0)) []
        pure (rs.all fun r => r.contains (namei "x"))) = Res.ok true := by decide +kernel
/-- a / b == 0: two results, x the dividend -/
example : names [ints, ints] (binary .equal (binary .divide val1 val2) (signed 0)) [] =
    .ok [[namei "x", namei "y"], [namei "x", namei "z"]] := by decide +kernel
/-- (a > 0 and a < 3) or a == -2 -/
example : names [ints] (binary .or (binary .and (binary .greaterThan val1 (signed 0))
    (binary .lessThan val1 (signed 3))) (binary .equal val1 (signed (-2)))) [] =
    .ok [[namei "y"], [namei "z"]] := by decide +kernel
/-- a + b > INT64_MAX -/
example : names [["int64_t"], ["int64_t"]]
    (binary .greaterThan (binary .add val1 val2) (signed 0x7fffffffffffffff)) [] =
    .ok [[namei "big_positive", namei "big_positive"]] := by decide +kernel
/-- a + b < INT64_MIN -/
example : names [["int64_t"], ["int64_t"]]
    (binary .lessThan (binary .add val1 val2) (signed 0x8000000000000000)) [] =
    .ok [[namei "big_negative", namei "big_negative"]] := by decide +kernel
/-- a + b > UINT64_MAX -/
example : names [["uint64_t"], ["uint64_t"]]
    (binary .greaterThan (binary .add val1 val2) (unsigned 0xffffffffffffffff)) [] =
    .ok [[namei "big_unsigned", namei "big_unsigned"]] := by decide +kernel

/-! `test_query_var_sizes` (unit-test.cpp:843-882) -/

example : count [["*void"]] Pred.nullPred [] = .ok 1 := by decide +kernel
example : count [["*void"]] (binary .equal (.node .varSize 1 [var1]) (unsigned 4)) [] = .ok 1 := by decide +kernel
example : count [["*void"]] (binary .equal (.node .varSize 1 [var1]) (unsigned 5)) [] = .ok 0 := by decide +kernel

/-! `test_query_soft_predicates` (unit-test.cpp:884-936) -/

example : count [ints, ints] Pred.nullPred [] = .ok 9 := by decide +kernel
/-- a < 1 holds for x and z -/
example : count [ints, ints] Pred.nullPred [binary .lessThan val1 (signed 1)] = .ok 6 ∧
    (do let rs ← names [ints, ints] Pred.nullPred [binary .lessThan val1 (signed 1)]
        pure (rs.all fun r => r[0]? == some (namei "z") || r[0]? == some (namei "x"))) = Res.ok true := by
  decide +kernel
/-- a < 1 and a == -2 hold for z -/
example : count [ints, ints] Pred.nullPred [binary .lessThan val1 (signed 1), binary .equal val1 (signed (-2))] =
      .ok 3 ∧
    (do let rs ← names [ints, ints] Pred.nullPred
          [binary .lessThan val1 (signed 1), binary .equal val1 (signed (-2))]
        pure (rs.all fun r => r[0]? == some (namei "z"))) = Res.ok true := by
  decide +kernel

/-! Writing and reading single objects (unit-test.cpp:938-952, 973-988, 1009-1093) -/

example : readBufferSize (IStream.ofBytes (writeBufferSize ⟨0x1000, 10⟩)) =
    .ok (⟨0x1000, 10⟩, ⟨[], false, .good⟩) := by decide +kernel
example : readType (IStream.ofBytes (writeType ⟨0, .unsigned, 2⟩)) =
    .ok (⟨0, .unsigned, 2⟩, ⟨[], false, .good⟩) := by decide +kernel

/-- Five types of `test_trace_var_info_input_output` (unit-test.cpp:1034-1040). -/
def ioTypes : List TypeDesc :=
  [⟨5, .unsigned, 4⟩, ⟨6, .signed, 4⟩, ⟨7, .float, 4⟩, ⟨8, .float, 8⟩, ⟨9, .pointer, 8⟩]

/-- The variables (unit-test.cpp:1016-1060); the pointer is some address.  FLT_MIN and DBL_MIN
are 2^-126 and 2^-1022. -/
def ioVars : List VarInfo :=
  [⟨.word 0xffffffff, 0, 0, .unsigned, 4, 0, false⟩, ⟨.word 0x7fffffff, 1, 1, .signed, 4, 0, false⟩,
   ⟨.word 0x00800000, 2, 2, .float, 4, 0, false⟩, ⟨.word 0x0010000000000000, 3, 3, .float, 8, 0, false⟩,
   ⟨.word 0x7ffc12345678, 4, 4, .pointer, 8, 0, false⟩]

/-- Some variables in a row. -/
def readVars : Nat → IStream → Res (List VarInfo)
  | 0, _ => .ok []
  | n + 1, s => do
    let (v, s) ← readVarInfo (MapImpl.skipList fun _ _ => true) (testEnv fun _ _ => true)
      (["a", "b", "c", "d", "e", "unsigned", "signed", "float", "double", "int*"].map ascii) ioTypes
      MemMap.construct s
    let vs ← readVars n s
    pure (v :: vs)

example : readVars 5 (IStream.ofBytes (ioVars.flatMap writeVarInfo)) = .ok ioVars := by decide +kernel

/-! Serialisation of single objects and of databases (unit-test.cpp:954-971, 990-1007,
1094-1206, 1240-1304) -/

/-- An archive with one thing in it, read back. -/
def archived {α : Type} (save : Save) (load : Load α) : Option α := do
  let text := (toksText (.str archiveSignature :: .num 17 :: (save .init).1)).tail
  let (a, _) ← (do loadHeader; load : Load α) ⟨text, .init⟩
  pure a

example : archived (saveBufferSize ⟨0x1000, 10⟩) loadBufferSize = some ⟨0x1000, 10⟩ := by decide +kernel
example : archived (saveType ⟨0, .signed, 2⟩) loadType = some ⟨0, .signed, 2⟩ := by decide +kernel

/-- The variables of `test_trace_var_info_serialization` (unit-test.cpp:1099-1133). -/
def archivedVars : List VarInfo :=
  [⟨.word 0xffffffff, 2, 3, .signed, 4, 5, true⟩, ⟨.word 0x7fffffff, 2, 3, .signed, 4, 5, true⟩,
   ⟨.word 0x00800000, 2, 3, .signed, 4, 5, true⟩, ⟨.word 0x0010000000000000, 2, 3, .signed, 4, 5, true⟩,
   ⟨.word 0x7ffc12345678, 2, 3, .signed, 4, 5, true⟩, ⟨.blob (ascii "hello" ++ [0]), 2, 3, .blob, 6, 5, true⟩]

example : archived (saveList saveVar archivedVars) (loadList loadVar 6) = some archivedVars := by decide +kernel

/-- The point of `test_trace_point_serialization` (unit-test.cpp:1182-1195). -/
def archivedPoint : Point := ⟨1, 2, [⟨1, 2⟩], [⟨.word 1, 1, 1, .signed, 4, 8, true⟩], [32]⟩

example : archived (savePoint archivedPoint) loadPoint = some archivedPoint := by decide +kernel

/-- `test_trace_serialization` (unit-test.cpp:1240-1283): a point and many empty ones, which
share their data.  Here with 20 points instead of 512. -/
def archivedTrace : Trace :=
  ⟨["name1", "name2", "int*", "float"].map ascii, [⟨2, .pointer, 4⟩, ⟨3, .float, 4⟩],
   ⟨1, 1, [⟨1, 1⟩], [⟨.word 1, 1, 1, .float, 4, 5, true⟩], [32]⟩ :: List.replicate 19 ⟨0, 0, [], [], []⟩⟩

example : archived (saveTrace archivedTrace) loadTrace = some archivedTrace := by decide +kernel

/-- `test_trace_db_serialization` (unit-test.cpp:1285-1304): four empty traces. -/
example : (deserializeDb (serializeDb 17 ⟨List.replicate 4 ⟨[], [], []⟩, [[], [], [], []], 4, 0⟩)).map Db.traces =
    some (List.replicate 4 ⟨[], [], []⟩) := by decide +kernel

/-! `test_trace_input_output` (unit-test.cpp:1208-1238): the value of the variable is never
set there. -/

/-- The trace written. -/
def ioTrace (value : U64) : Trace :=
  ⟨testNames, testTypes, [⟨0, 0, [⟨16, 4⟩], [⟨.word value, 5, 0, .signed, 4, 0, false⟩], [1, 2, 3, 4]⟩]⟩

/-- Reading it back gives an equal trace whatever the value. -/
def ioSame (value : U64) : Bool :=
  match readTraceBytes (testEnv fun _ _ => true) 0 (writeTrace (ioTrace value)) with
  | .ok t => (ioTrace value).eqv t
  | _ => false

example : [0, 1, 0xffffffff, 0x7fffffff, 0x123456789abcdef0, 0xffffffffffffffff].all ioSame = true := by
  decide +kernel

/-! `test_trace_point_data_equality` (unit-test.cpp:1306-1315) -/

example : ((⟨[], [], [1]⟩ : Body) == ⟨[], [], [2]⟩) = false := by decide +kernel

end TraceDB.UnitTest
