# Formal model of trace-db: design

Source modelled: `/repo` (GrammaTech trace-db), read as text only.
Language: Lean 4.33.0 (`/verif/lean`, `lake build`).

## 1. Trusted base

* Lean's kernel, and the three standard axioms `propext`, `Classical.choice`,
  `Quot.sound` (each property theorem uses a subset of them; see section 6).
  No axioms are declared here, there is no `sorry`/`admit`, no `native_decide`,
  no `bv_decide`.
* The faithfulness of the hand-written model to the C++/C/Lisp source.  Every
  model definition cites the file and lines it transcribes and says what it
  simplifies.  Definitions that transcribe nothing by themselves (states,
  events, memory, what libraries do) name the lines they are needed for:
  "For file:lines".
* The platform assumptions of the code itself: x86-64 LP64, little endian,
  signed `char`, two's complement, IEEE floats, 4-byte enums, assertions
  enabled (the Makefile does not define `NDEBUG`), guaranteed or customary copy
  elision (`PredicateValue` copies of invalid values never happen).

## 2. Shape of the model

* `Verif/Model/*`   transcription of the code, function by function.
* `Verif/Spec/*`    small, independent specifications.
* `Verif/Proofs/*`  helper lemmas.
* `Verif/Props/*`   the property theorems (one file per group, named `Cnn_...`),
  each followed by an `example` showing a non-trivial instance.

Outcomes.  C++ code is modelled in a result type with five distinct outcomes:
`ok`, `throw` (C++ exception: end-of-file / trace error / allocation failure),
`abort` (failed assertion), `ub` (undefined behaviour, with the reason) and
`hang` (loop fuel exhausted; proved unreachable where termination is claimed).
Uninitialised memory has a policy parameter: `strict` (reading it is `ub`) or
an arbitrary content chosen by the environment, so that theorems can talk about
both the abstract machine and the "garbage bytes" reading of the code.

Environment.  Memory allocation success, random numbers, the contents of
uninitialised memory, the outcome of comparing with a dangling object, the
operating system's answers and thread schedules are parameters and theorems
quantify over them.

## 3. What is modelled

| Source | Module in `Verif/Model` | Modelled as |
|---|---|---|
| C++ outcomes | `Outcome`, `Bytes` | result type with five outcomes, environment, little-endian bytes |
| `Utils.hpp` BINARY_READ/WRITE | `Bytes`, `Reader`, `Writer` | byte streams with good/eof/bad state, short reads |
| `Utils.hpp` openWithTimeout, `add_trace` with descriptors | `OpenFile` | decision logic over the answers of the operating system |
| `TypeDescription.hpp`, `TraceBufferSize.hpp`, `TraceVarInfo.hpp` | `Types`, `Equality`, `Hash` | records, read, write, ==, <, hash |
| `MemoryMap.hpp` | `MemoryMap` | heap of nodes with next-arrays (pointer level), random levels from an oracle |
| `TracePoint.hpp`, `Trace.hpp` | `Reader`, `Writer`, `Query` | read, write, query engine, caches |
| `QueryObjects.hpp` | `Predicate`, `PredicateCache` | predicates, evaluation with exact integers, floats as an uninterpreted number system, cache with object lifetimes |
| `TraceDB.hpp`, `trace.cpp`, `trace-db.cpp` | `Database`, `Export`, `Api`, `PredicateMemory` | C interface as a state machine, export arrays in heap blocks, predicate conversion and release, duplicate removal |
| boost text archive | `Archive` | the text of a database to the byte, with the flyweight dictionary |
| boost flyweight | `Flyweight` | interning table with reference counts |
| threads in `add_trace` | `Concurrent` | interleaving of accesses to the static variable, the mutex and the vector |
| C code added by the instrumentation (`instrumentation/c-cpp.lisp`) | `Runtime` | byte-level writers, variadic arguments, mutex, threads |
| `instrumentation/c-cpp.lisp` tables | `NameTable` | hash tables with their tests, emitted tables, threads |
| `instrumentation/c-cpp.lisp` type strings | `TypeString` | printing and parsing of canonical types |
| `binary-trace-db.lisp`, `sexp-trace-db.lisp` | `LispDb`, `PredicateMemory` | ids, conversion of points, queries, metadata, predicate building |
| `traceable.lisp` | `Collect` | budget and errors of a collection |
| `instrumentation/c-cpp.lisp` generated calls | `Instrument` | formats and sizes of types, calls generated per statement; the choice of statements and variables is an input |
| binary-trace-db.lisp:305-358 | `Model/LispAdd.lean` | `add-trace-points`; CFFI range checks assumed |
| `instrumentation/c-cpp.lisp` statements | `Statements` | which statements get calls, the changes of the tree, the text as read by a compiler, runs of it |
| `instrumentation/c-cpp.lisp` projects | `Project` | order and numbers of the files, tables shared by them, the headers put into files with `main` |
| `binary-trace-db.lisp` objects | `LispObjects` | several databases, restrictions with their metadata slot, storing and restoring |
| `instrumentation/c-cpp.lisp`, `instrument.lisp` removal | `Uninstrument` | removal of blocks in turn, setup code and flags of files and projects |
| `traceable.lisp:155-206`, `c-cpp.lisp:312-342` handshake | `Handshake` | collector, runs and pipes as one transition system with arbitrary schedules |
| `instrumentation/c-cpp.lisp:302-342, 942-1059, 1065-1134` text | `GenText` | generated text byte by byte: tables, calls, setup; the fixed run-time text is not parsed |
| `cffi-interface/trace-db/Trace.hpp:161-243, 282-362`, `TracePoint.hpp:69-80` with threads | `ConcurrentQuery` | each operation on a cache is one step; data races inside map operations are not modelled |
| `binary-trace-db.lisp:166-197, 360-386, 447-613` with the memory they allocate | `QueryMemory` | three separately numbered heaps for arrays, predicates and results; interrupts between allocation and `unwind-protect` are not modelled |
| `sexp-trace-db.lisp:16-83, 117-202` | `SexpObjects` | the Lisp reader is a list of objects and errors; `open-file-timeout` (lines 85-115) is its result |
| `QueryObjects.hpp:141-236` (printing) | `PrintPredicate` | doubles are printed by a parameter; fewer than 2^32 children |
| `TraceDB.hpp:46-56`, `trace-db.cpp:146-157, 305-349` (concurrent access) | `VectorRace` | `std::vector` as in libstdc++; sequentially consistent memory; the uses of a trace are looks at the whole of it |
| `instrumentation/c-cpp.lisp:285-291, 504-507, 592-604, 1113-1132, 1139-1228` (places of the setup code) | `SetupCode` | ASTs are found by their paths; conditions of the preprocessor are arbitrary Booleans; the AST library is not part of the repository |
| `instrumentation/c-cpp.lisp:609-620, 841-905` (selection of variables, enclosing statement) | `VarSelect` | `get-vars-in-scope`, `canonicalize-type` and `declarator-name` of the AST library are inputs; ASTs are found by their paths; names are bytes |
| `QueryObjects.hpp:305-678` with the numbers on the heap | `ValueMemory` | objects with pointers, constructors, destructor; any number of copies per returned value; allocation succeeds |
| `binary-trace-db.lisp:250-254` with garbage collection, `trace-db.cpp:185-189` | `LispGc` | references of the program, slots, finalizers; arbitrary collections between operations |
| `binary-trace-db.lisp:199-214`, `285-304`, `trace.cpp:7-28, 80-83` | `ReadTrace` | descriptors, `Trace` objects and other foreign memory; the copy of the file name made by CFFI left out |
| `instrumentation/c-cpp.lisp:344-367, 622-705` (groups and unparsed text) | `Groups` | which statements are ruled out as incomplete; conditions of the preprocessor are arbitrary Booleans; unparsed text belongs to the plain statement after it |
| `instrumentation/c-cpp.lisp:125-174, 311-338` (buffering of the stream, fork) | `Fork` | single-threaded processes; writes succeed; up to a buffer are written at once |
| `instrumentation/c-cpp.lisp:125-174` (failing writes) | `WriteFail` | one thread, no fork; what a failed write drops is arbitrary |
| `sexp-trace-db.lisp:55-63, 85-115` (opening with a timeout) | `OpenTimeout` | times in clock units; the other thread is given by the times at which it opens the file and ends |
| `instrumentation/c-cpp.lisp:156-174, 330-331` (signals) | `Signals` | handlers are put in front of what their thread has still to do; setting up the trace is not interrupted; relocking the mutex waits |
| `cffi-interface/trace-db.cpp:28-52`, `Trace.hpp:51-98`, `TracePoint.hpp:252-311`, `TraceVarInfo.hpp:85-185`, `MemoryMap.hpp:64-130` (allocations) | `TraceMemory` | blocks that containers and destructors free are not listed; `malloc(0)` takes no memory; the height of the map stays if a node cannot be made |
| Model/ForkThreads.lean | c-cpp.lisp:125-174, 311-338 in a program with threads and child processes: mutex, stream buffer and threads of each process, shared file | `fork` copies mutex and buffer, and one thread; every byte is a step; all threads wait while an overfull buffer is written; writing succeeds |
| Model/AddMemory.lean | binary-trace-db.lisp:259-264, 305-358, 447-453; trace-db.cpp:54-144, 159-171: the blocks of foreign memory with addresses, what C reads through them | allocations by Lisp succeed; `aux` is `NULL`; C reads each element once; the text of a stored database is that of Model/Archive.lean |
| Model/LispPick.lean | binary-trace-db.lisp:569: the seed | the random number is given |
| Spec/Documented.lean | doc/trace-database-component.texi:30-77: the tables and entries whose widths differ from the code | not modelled: the manual's claim that every type of size 0 has variable size (only blobs do) |
| Spec/QueryCost.lean | nothing new: an evaluator that writes down what it evaluates, counts of what the caches of Trace.hpp:45, 282-299 and TracePoint.hpp:69-80 hold | time and bytes are not modelled, only numbers of evaluations, entries and points |
| Model/CollectFiles.lean | traceable.lisp:80-266 with the binary, pipes, handshake file, processes, restarts and the slot traces | with-temporary-file and with-temporary-fifo (not in the repository) delete on every exit; finish-test returns; nobody else touches the binary; creating pipes succeeds; the handshake is an outcome (its steps are in C68); the metadata is the number of the test case |
| Model/Process.lean | trace-db.cpp:23-189, 305-349 as calls of one process on several databases sharing the predicate cache of TracePoint.hpp:69-80 | single-threaded; an archive exception ends the process; results of queries before their export (export is C36, its memory C71) |
| Model/Programs.lean | c-cpp.lisp:434-512 for all functions of a file, and what C programs of several functions do | actions, conditions and values are arbitrary code that may call functions and exit; runs are cut off at bounds, and theorems are about all bounds; no `longjmp`, no exceptions, one thread; one file; positions among the ASTs of the file are a parameter |
| Model/ProjectText.lean | c-cpp.lisp:399-414, 434-512, 541-605: the statements of each file of a project | functions are numbered over all files; which function a call reaches is part of what the program does; otherwise as Model/Programs.lean and Model/Project.lean |
| Model/ParallelInstrument.lean | c-cpp.lisp:551-605, 907-1036 with `num-threads`: threads that look up and store names and types in shared tables | each access to a table is one step, taken by any thread that has not finished; the number of threads is not modelled, so any file may be at work at any time; what threads do between accesses is not observable to others |
| Trace.hpp:282-299, TracePoint.hpp:69-80 (which map is accessed, and how, by every step of a query) | `Verif.Model.DataRace` | as `Verif.Model.ConcurrentQuery`, every step annotated with the map and whether it changes it |
| TracePoint.hpp:294-296, TraceDB.hpp:46-52 (accesses to the static variable and the vector) | `Verif.Model.DataRace` | accesses of the threads of `Verif.Model.Concurrent` |
| trace.h:24-96, trace-db.h:12-152, binary-trace-db.lisp:43-69, 136-165, 218-240, 411-445 (declarations of structures and functions on both sides) | `Verif.Model.ForeignBytes` | layout rules of the System V ABI and of CFFI, sizes on x86-64; registers and stack slots are 64-bit words whose unused bytes are arbitrary |
| trace.cpp:36-145, binary-trace-db.lisp:72-128, 167-198, 360-386 (export and conversion as bytes) | `Verif.Model.ForeignPoints` | every member is stored and loaded at the offset its own side computes; frees are left to C36 and C71 |
| binary-trace-db.lisp:390-613, trace-db.cpp:191-242, 305-349, QueryObjects.hpp:32-60 (a query from Lisp as bytes) | `Verif.Model.ForeignQuery` | everything exchanged passes through bytes at the offsets of either side, and through 64-bit argument slots with arbitrary unused bytes; frees are left to C36 and C71 |
| binary-trace-db.lisp:218-276, 305-358, 447-453, trace-db.cpp:54-183 (points and databases from Lisp as bytes) | `Verif.Model.ForeignAdd` | everything exchanged passes through bytes at the offsets of either side and through 64-bit argument slots with arbitrary unused bytes; frees are left to C71 and C92 |
| binary-trace-db.lisp:250-386, 524-613, trace-db.cpp:28-52, 146-151, TraceDB.hpp:46-52 (sessions as bytes) | `Verif.Model.ForeignSession` | traces keep their names and blobs in blocks of their own; other parts of the process are an arbitrary function on memory |
| Spec/Floats.lean | nothing new in the code: IEEE 754 values of the bits of `float` and `double`, and what is assumed of `cpp_dec_float_50` (used by QueryObjects.hpp:305-502) | a hypothesis of C113 only: conversions are within one part in 10^49, comparisons compare the numbers, sums, differences and products of at most fifty digits are exact; ranges of exponents and quotients are left open |
| Model/QueryFail.lean | Trace.hpp:282-299, 326-362 and TracePoint.hpp:69-80 when an allocation throws `std::bad_alloc` | the steps of Model/ConcurrentQuery.lean, cut off at any of them; failed calls of `operator[]` and `push_back` change nothing |
| `FmState.step`, `FmState.run`, `FmState.start` (Model/FailThreads.lean) | instrumentation/c-cpp.lisp:125-174, 311-338 | threads over one stream whose writes may fail; all threads wait while an overfull buffer is written |
| `lispQueryArgs`, `LispHeap.results`, `filterResults`, `LispHeap.answer` (Model/Scripts.lean) | binary-trace-db.lisp:166-197, 524-613 | points stay where they are while the vector of traces moves: buffers and names are reached through the names fetched before the first result and through copies made by query_trace |
| `handledStep`, `handledRun`, `Script.run` (Model/Scripts.lean) | the same, as used by programs | errors are handled around whole operations; predicates are already built; the state of evaluators is trivial |
| `instrumentation/c-cpp.lisp:657-671` (functions misnamed by the parser) | `FunctionNames` | one function at a time, with its name |

The project's own tests, as far as the model reaches, are run on the model in Tests/: all 28
tests of test/cffi-interface/trace-db/unit-test.cpp, and those of test/c-cpp.lisp about where
calls are put, what they record, their removal, and type strings.  They compare the model with
what the authors expect of the code; they are tests of the model and prove no property.

Not modelled: the internals of `cpp_int`/`cpp_dec_float_50` (integers are exact,
floats uninterpreted), `mt19937` (an arbitrary index below the bound), parts of
the instrumenter other than listed above, CFFI itself other than range checks and the bytes of C108-C112, process
handling.  Further simplifications are stated in the comment of the definition
they concern.

## 4. Plan per property

| Id | Model / method |
|---|---|
| C01 | writer and reader models; round trip by induction over points and entries through an entry grammar; necessity by concrete counterexamples |
| C02 | runtime writer model emits the same entry grammar; composition with the reader theorem |
| C03, C04 | reader on every `take k` of the encoded trace; induction over entries |
| C05 | reader on every `take k` of the header; exact characterisation |
| C06 | fuel never runs out (`hang` unreachable) |
| C07 | invariant: no `ub` outcome; one witness input per omitted condition |
| C08 | limited read vs unlimited read, simulation |
| C09, C13 | invariant of accepted traces |
| C10 | witness plus exact condition |
| C11 | reader on prefix ++ bad tag |
| C12 | value of little-endian bytes in Int/Nat |
| C14 | refinement: reader with skip list vs reader with allocation history |
| C15-C20 | pointer-level invariant of the skip list, refinement to histories |
| C21, C23, C35 | mixed-radix enumeration vs declarative bindings |
| C22 | computation of the empty-variable case |
| C24, C25 | filter specification; cache invariant over request histories |
| C26 | cache machine with object lifetimes; arbitrary dangling comparison |
| C27, C28 | query model with an arbitrary generator; maximality |
| C29-C33 | denotational semantics in Int vs evaluator |
| C34 | characterisation of first-occurrence filtering |
| C36 | struct layout computation, heap blocks, export specification |
| C37 | add_trace_points model, round trip through export |
| C38, C39 | API state machine, induction over histories |
| C40, C41 | token archive with dictionary, round trip by induction |
| C42 | interning table invariant |
| C43, C44, C56 | decision procedures vs equivalence/order laws, hash as arbitrary combiner |
| C45, C46, C47 | small-step interleaving machines, invariants over all schedules |
| C48, C49 | bit-vector/Nat arithmetic |
| C50 | list histories |
| C51, C52 | translation correctness; heap of blocks |
| C53 | table invariant; race as a schedule witness |
| C54 | decision table |
| C55 | induction over test cases |
| C57 | corollary of C01 on accepted traces |
| C58 | set equality of the two query models |
| C59 | vector with capacity, histories of later calls |
| C60 | printer and parser on byte lists, round trip to a normal form |
| C61 | composition of C53, C02, C48 and the Lisp conversion |
| C62 | induction over the entries and points of the stream, on top of C12 and C14 |
| C63 | the table of names finds each name; then the C interface as in C37 |
| C64 | changes at paths from the end equal one recursive change; the text has the shape of the tree; equality of meanings by induction over trees |
| C65 | the two loops are one pass over the numbered files; the first files of it are one list of statements, then C61 |
| C66 | simulation by lists of traces with metadata; caches by C25, copies by C40 |
| C67 | removal from the end equals one recursive removal; induction over trees |
| C68 | invariant of the transition system with ghost owner of the pipe; progress by cases on where run and collector are |
| C69 | composition of lexing lemmas for pieces of text; readers inverted on the tokens; invariant of the tables |
| C70 | rely/guarantee over arbitrary schedules; constructed schedules for the exceptions |
| C71 | refinement of the query on values by the program on three heaps, with the exact blocks added |
| C72 | refinement of lists of pairs by objects with two lists each, invariant over histories, and the exact shift where it fails |
| C73 | round trip through an independent reader, by induction on predicates, with counting of parentheses |
| C74 | invariant over all interleavings with a lower bound on the number of elements carried by each reader; explicit schedules for the failures |
| C75 | splitting of the text at the places of insertion, by mutual induction on trees; shapes of trees are kept by insertions |
| C76 | the parents of an AST are the nodes at prefixes of its path; mutual induction on declarators; the regular expression by induction on the name |
| C77 | composition: the recorded variables are described by their values, so equality and numbers agree with what is shown; the tables have one row per key, so names of types are distinct if keys are; then C58 and C49 |
| C78 | each evaluation makes one object that stands for the value and leaves nothing else (frame invariant by induction over predicates); queries by the simulation of C26 |
| C79 | the invariant of C47 at any state of the schedule, lifted from bytes to points; then the cut analysis of C04 |
| C80 | invariant: objects reachable from references are not collected, freed databases belong to collected base objects; simulation of the run without collections |
| C81 | composition of C54 (opening), C09 (indices of accepted traces) and C71 (`get-trace` in memory); induction over the calls for the leak |
| C82 | loaders never look beyond what they leave; nothing loads from an empty rest; so a cut lies in the last value, by induction over the lists |
| C83 | the preprocessed instrumented body is the preprocessed body with points at some of its places (relation `Chosen`, rows with open ends `RowRel`), by induction over the tree; then C64 |
| C84 | invariant of made databases by induction over their history, C09 for files, C40 for stored texts; exact export condition by induction over the points |
| C85 | invariant over schedules: the file is a sequence of complete points, the rest of every process is known; interleavings by an associative merge relation |
| C86 | invariants over all runs: file, buffer and rest are a prefix of the stream until the first failure; complete points and a subsequence of the program after it; C03 for the cut |
| C87 | induction on the iterations of the polling loop with the time passed as measure |
| C88 | invariant: simulation by a machine that records whole points; deadlock as a second invariant kept by all events |
| C89 | compositional relation between runs with refused allocations and the reader, with the blocks left as a second component |
| C90 | lengths of the unique decomposition of an accepted file; evaluation of the reader on short files |
| C91 | invariant over schedules: in each process the buffer holds a prefix of the point of the owner of the mutex; what remains to be recorded is a merge over the threads of the processes; measure for termination |
| C92 | refinement: reading the arrays through their addresses gives the points by value; induction over the points for the blocks of successes and errors, over histories for the sum |
| C93 | reduction of a query with seed to a query of a trace with one point; duplicate removal by keys |
| C94 | the bytes of an accepted file start with its own header; a string moved by zeros is zero; a wrong width is a cut inside an entry (C04) |
| C95 | the state of the evaluator is a parameter of the query model; an invariant kept by each evaluation is kept by queries and sessions |
| C96 | outcomes of the environment as a parameter; facts about one test case, then induction over test cases |
| C97 | refinement: a process and its shelves (lists of traces) are related at every step; then induction over prefixes of the history |
| C98 | induction on the depth of calls: worlds of callers agree because callees leave the same states, then C64 for each body; points passed are related to visits, then C61 and C77 |
| C99 | the tables of a project have distinct names, so queries find the types they ask for; points passed in a file are related to visits of its statements, with C65 for the numbers of files and C98 for the run |
| C100 | invariant: the tables are those of requests made in turn, up to the part of one request that the storing thread has carried out; each thread has been told the indices of the requests it has finished; the rest is C99 for tables with those requests |
| C101 | each visit of a statement is a recorded point (C62); threads of points by C79; the order found there is lifted back to visits, and the trace read is that of a program that passes the statements in this order, for which C99/C100 give the trace and the answers |
| C102 | every trace in a database was read from an added file (induction over the history); C101 tells what it shows and answers; C66 for the state after the history extended by one more operation tells that this is what the Lisp interface returns |
| C103 | C96 tells which attempts are in the database; each added a trace read from a file left by a run, so the calls of add-trace are a history as in C102; runs that ended without loss can be read (C101), so no attempt is refused |
| C104 | the search keeps, among the bindings at a point that satisfy the predicate, those with the largest number of satisfied soft predicates (induction over the bindings); truth of the trees sent is truth of the formulas of the values shown (C98); numbers of results are bounded by the bindings of the points passed, so the memory of C71 suffices |
| C105 | every statement passed records a point whose items are typed by the tables of the program (C100); C91 gives the points in the file, C08 the first of them; since they are points of statements passed, the trace is one of those C104 is about |
| C106 | either no handler comes within a point, or there is a first one, after which the file no longer grows (C88); so what is in the file is always a part of points recorded one after the other; C79 for a single thread that records them gives what reading a part shows, and since they are points of statements passed, the trace is one of those C104 is about |
| C107 | every process only looks at the map it says it accesses, and changes it only if it says so; if, running alone, two threads access the same map and one changes it, the part before the first such change of the first thread does not disturb the second, so both can be brought to the accesses; if no two do, every thread does under every schedule what it does alone, by induction over the schedule; the accesses of a query running alone are computed from the questions it has to ask |
| C108 | C's and CFFI's rounding are shown equal for all alignments, hence all layouts; writes of the loops are tracked by the ranges they touch: everything written for a point lies in blocks that were free before, so the memory at the end still holds it, for any memory that agrees on the blocks in use; then the members loaded are those stored |
| C109 | induction on the expression: everything written for it lies in blocks that were free before, so any later memory that only adds blocks still holds it, and reading it back gives the tree meant; the number of blocks bounds the depth of the reading. The parts are composed along the sequence of allocations, and the call reduces to `queryTrace` between the two conversions |
| C110 | each element of a foreign array is written to its own cell and to blocks that were free before, so later memory that only adds blocks still holds it (induction on the array); reading the structures gives the C arguments of C63, and reading strings up to NUL gives the text of C40 |
| C111 | the numbers written by each `save` are counted against the classes and the shared data that become known (an equation that composes along sequences and lists); the final state has each class and each data once, so its size is the number in the specification; each number below 2^64 has 1 to 20 digits |
| C112 | invariant: same traces and metadata, each trace's names and blobs are at its place in blocks of the database, each cached list of points is the filtered list; every operation keeps it (C108, C109, C110 for the calls), by induction on the session; the meaning is a relation on lists that is shown to be a function |
| C113 | different numbers with mantissas below 10^48 over a common power of two are further apart than the rounding; hence rounding keeps the order (rationals of Lean's core library); short terms by induction on terms; doubles by arithmetic on their bits |
| C114 | invariant of every step of a query: answers right, other lists unchanged, the own list a beginning of the right one; induction on the sequence of queries; the failing step counted through the loop of getPoints |
| C115 | C86 and the reading of cut traces (C03, C106) for the bytes; an invariant (file, buffer and what is still to be put are the whole trace; the buffer of an ended process is empty) for completeness; what is shown and answered as in C105 |
| C116 | invariant with the order of the points recorded and what is being recorded; file, buffer and the rest of the current point are header and points as long as nothing failed, and points are lost as a whole if failures lose the whole buffer; reading and queries as in C106 and C115 |
| C117 | heaps that differ in correct caches only are related by every operation and every program (induction over programs, with filters as subprograms); an operation that signals an error changes caches at most, so it can be left out |
| C118 | every kind of run is shown to leave a file that is refused (only if something was lost) or is read as a trace of statements passed of which the facts needed by C104 hold; the rest is the argument of C104, C102 and C103, for any such file |
| C119 | the sites chosen in a function of a name are those that `instrumentBody` chooses with a filter that knows the numbers of the branches without braces; then C64 |
| C120 | the operations that succeeded form a history (C117) with the same traces, to which C118 applies; caches left by queries change no answer; a filter that is a program filters as its function (C117) |
| C121 | what each part of the loader can return, by inversion; numbered point data only comes from the loader of point data; each point takes at least one byte of the text; after a padded name nothing is left, so nothing follows it; the text of the padded database up to its first NUL is a cut text of C82 |
| C122 | the answers are the combinations at the passing points, filtered by the formula of the predicate; a result determines whether it satisfies a formula, so membership in another query's answers is that filter; keeping the greatest counts does not change when all counts grow by the same number |
| C123 | bindings to positions are turned into combinations of the variables themselves, by induction over free variables and variables; then filters and permutations pass through the combinations |
| C124 | the good bindings for the new order are the old ones reordered: both lists have no element twice and the same elements; renumbered predicates read as formulas with the same truth, by mutual induction over the reading |
| C125 | removal of duplicates commutes with filters by what is bound and splits over appended lists, by induction with the set of bindings seen so far; then the laws C122-C124 |
| C126 | what is read from a predicate is unique, so well-formed predicates have a truth for given variables; induction over the rewriting steps shows that both sides are well-formed together and then equally true |
| C127 | equality of the results at each point lifts through the loop over points, random pick, filters and conversion; sessions through C26 |
| C128 | predicates read for n variables hold alike for lists of variables that are longer; combinations of n + 1 lists from those of n; ratings are unchanged |

## 5. Disagreements between expectation and code

Each of these is proved; the theorem is named.

Reader and writer

* C01 `C01_conditions_needed`: a blob of a type with fixed size, a 4-byte pointer, a
  3-byte number and a name with a NUL do not survive writing and reading.
* C02 `C02_sizes_matter`: an integer whose size is not 1, 2, 4 or 8 makes the
  runtime write nothing while the reader expects bytes.
* C05 `C05_truncated_headers_accepted`: a header cut in certain places is accepted
  as an (empty) trace.
* C07 `C07_conditions_needed`: inputs on which the reader is undefined.
* C10 `C10_accepted_trace_without_type_name`: an accepted trace on which listing the
  types reads out of bounds.
* C16: freeing the reserved address too often is undefined.

Queries

* C22 `C22_not_one_result`: without free variables a query gives two results per
  point, and any predicate but the empty one aborts (`C22_predicate_aborts`).
* C26 `C26_second_evaluation_undefined`, `C26_collision_gives_wrong_answer`: the cache
  of predicate results keeps references to dead objects.
* C33 `C33_doubles_confused`: an 8-byte float in a predicate is read as a 4-byte one.
* C35 `C35_nothing_returned`: 2^64 combinations are counted as none.

Interface

* C36 `C36_conditions_needed`, `C36_double_release`: export needs valid type indices
  and memory; releasing twice is undefined.
* C37 `C37_aux_undefined`: auxiliary values of added points are undefined.
* C59 `C59_pointer_dangles`: a pointer to a trace dangles after a later addition.
* C54 `C54_missing_file`, `C54_many_descriptors`: opening a missing file, or with
  1024 open descriptors, is undefined or waits forever.

Objects

* C40 `C40_nul_in_name`: a name with a NUL makes the saved text unreadable, or, if nothing
  comes after it, loses its bytes after the NUL.
* C42 `C42_direct_records_change`: records narrower than 8 bytes that a C++ client
  builds with different high bytes are merged.
* C44 `C44_data_ignored`, `C44_hash_differs`: traces that differ in their points are
  equal; equal traces can have different hashes.
* C56 `C56_cycle`, `C56_inconsistent_with_equality`, `C56_longer_blob_out_of_bounds`:
  the order of variables is no order.

Threads

* C46 `C46_values_mixed`: auxiliary values of traces read at the same time mix.
* C53 `C53_threads_share_index`, `C53_threads_index_outside`: instrumentation threads
  give two names one index, or an index outside the table.

Lisp

* C48 `C48_bounds_needed`: ids overflow into each other.
* C49 `C49_file_zero`: file 0 and no file are confused by queries.
* C50 `C50_points_reorder`, `C50_points_steal`: adding points puts their metadata in
  front, so that all traces have wrong metadata.
* C53 `C53_project_names_conflated`: in projects, names that differ in case only share
  an index.
* C55 `C55_exhausted_is_error`, `C55_list_based_unbounded`: an exhausted budget is
  reported as an error; the list-based database ignores the budget.
* C58 `C58_predicate_ignored`, `C58_case_conflated`, `C58_shared_type_names`,
  `C58_unknown_type`: the list-based database ignores predicates and files; results
  are compared without case; of types with one name only the first is found; an
  unknown type is an error.
* C60 `C60_declarators_conflated`, `C60_named_size_lost`, `C60_order_changed`: type
  strings lose the order of declarators, named sizes and the order of specifiers.
* C61 `C61_case_lost`, `C61_pointer_tables_as_text`, `C61_marks_split_types`: names in
  projects lose their case; `char **` is recorded with `strlen`; the key of a string type
  contains whatever `xor` returned, so that one type may get several rows.

* C63 `C63_points_returned`, `C63_refused`: `add-trace-points` (binary-trace-db.lisp:305-358)
  drops the auxiliary values of the points, turns values from 2^63 on into negative ones,
  and refuses negative values although it chooses a signed format for them.

* C64 `C64_unbraced_switch`, `C64_filtered_label`, `C64_filtered_branch`, `C64_else_text`:
  `switch (e) case 1: f();` is instrumented to `switch (e) case 1: point; f();`, where
  `f` is run always, since only bodies of loops and branches of conditionals are put
  into braces (c-cpp.lisp:622-633); a filter that rejects the labelled statement in
  `while (c) L: f();` but accepts `f();` does the same, or gives a text that does not
  compile if there is an `else`; statements like `elsewhere();` get no point, since
  their text starts with "else" (c-cpp.lisp:667-669).

* C65 `C65_later_files_not_covered`: the header of a file with `main` is written when that
  file is instrumented, so it lacks types that only files with `main` after it use
  (c-cpp.lisp:571-590).  A program that passes statements of such a file writes a trace
  that cannot be read.

* C66 `C66_lost_metadata`, `C66_restrictions_not_stored`: `add-trace` through a
  `single-file-binary-trace-db` stores the metadata in the wrapper only
  (binary-trace-db.lisp:300-302), so `get-trace` of the new trace on the database itself
  is an error, and the next trace added there gives its metadata to it; of wrappers only
  `nil` is stored (lines 632-636).

* C67 `C67_flags_left`, `C67_other_files_left`: `uninstrument` leaves the flag `-lpthread`
  (c-cpp.lisp:509-510) and, in projects, all setup code of files that are no evolve files
  (c-cpp.lisp:592-604, instrument.lisp:54-58); `instrumented-p` looks at evolve files only.

* C68 `C68_stuck_reachable`, `C68_stuck`: the file is created before the name is written
  (traceable.lisp:173-175), and `fgets` after an end of file keeps failing (c-cpp.lisp:321), so a
  run that reads too early never ends. `C68_taken`: a run that ends after `unlink` and before
  `fopen` leaves the collector at a pipe nobody writes. `C68_parallel_mixed`,
  `C68_parallel_crash`, `C68_parallel_robbed`: with several runs at once the handshake is not
  exclusive; `fopen` of the removed file is not checked (c-cpp.lisp:320).

* C69 `C69_env_not_read`: `:trace-env "NAME"` generates `fopen(getenv(NAME), "w")`
  (c-cpp.lisp:1081) with `NAME` as a C identifier. `C69_file_newline`: `~s` does not escape newlines.

* C70 `C70_missing_results`, `C70_repeated_results`: `getPoints` fills the entry of its cache in place, without a lock,
  so a second thread with the same filter sees a part of the list or appends to it. `C70_wrong_answer_early`: the
  entry of the predicate cache may be made (as false) before the answer is computed.

* C71 `C71_unknown_type_leaks`, `C71_refused_predicate_leaks`, `C71_leaks_add_up`: `query-trace` builds its arguments in the
  bindings outside the `unwind-protect`, so an error there frees nothing. `C71_error_keeps_results`: the results are
  freed by `convert-trace-points` only after its last point is converted.

* C72 `C72_metadata_shifts`: `single-file-sexp-trace-db` copies the traces of its parent when made, but
  `trace-metadata` asks the parent each time, and additions are pushed at the front, so after an addition to the parent
  all metadata are off by one. `C72_metadata_lost`: `(push metadata (trace-metadata db))` stores into a slot of the
  restriction which its reader never returns. `C72_reading`: the limit is checked after reading, so an error behind
  the last point wanted is signalled; a limit of 0 reads nothing, while it means no limit in the binary database.

* C73 `C73_aborts`: the names of `>=` and `<=` are missing in `writePredicate`. `C73_parentheses`: the closing
  parenthesis is printed by the loop over the operands. `C73_newline`: `indent` is increased before it is tested, so the
  newline at the end is missing for operators.

* C74 `C74_dangling`, `C74_number`: `getTraces` is used without the mutex of `addTrace`, whose comment says it is there
  for test cases run by several threads; a query of one thread may lose its trace to the addition of another.

* C75 `C75_link`: any declarator of a function named `main` counts as entry point, also that of a declaration, so two files
  of one executable may both define `__bi_setup`. `C75_not_parsed`: `concretize-error-ast` goes into text that was not
  parsed without regard to conditions in it. `C75_empty`: files without ASTs are an error.

* C76 `C76_pointer_results`: `function-pointer-parameter-p` leaves out only the child of the scope, so for `char *f(int x)`, where
  the function declarator is inside a pointer declarator, the parameters of `f` itself are taken for those of a function pointer and
  are never recorded; for `void (*f(int a))(int b)` the test accepts `b` and refuses `a`.

* C77 `C77_split_types`: `get-type-index` puts what `string-type-p` returns into its key; rows with different marks have the same
  name and `query-trace` uses the `position` of the name, so variables of the second row are never bound.
* C77 `C77_doubles`: consequence of C33 for programs: a query `(= (v/value d) 1.0d0)` does not find `d = 1.0`.

* C78 `C78_copied`: the copy constructor of `PredicateValue` (QueryObjects.hpp:384-398) dereferences the null pointer of a value
  that is not valid; the Makefile asks for C++11, where omitting the copies of `return PredicateValue()` is optional.

* C80 `C80_never_freed`, `C80_leak`: the finalizer `(lambda () (c-free-db (db-pointer instance)))` (binary-trace-db.lisp:254)
  closes over the object it belongs to, which keeps it alive: databases are never freed.  Restored databases have no finalizer.

* C81 `C81_leak`, `C81_leaks_add_up`: `read-binary-trace` never calls `c-free-trace` although trace.h:46 asks for it; every call
  leaks a trace.  `C81_nil`: `nil` is returned for failures and for empty traces.  `C81_long_timeouts`: `c-read-trace` takes the
  timeout as `:uint32`, `c-add-trace` as `:int`.

* C82 `C82_types`, `C82_names`, `C82_wrong_data`: a database text cut inside its last value is accepted: a type of size 16 gets
  size 1, a name gets NULs, and the last point of a trace without names and types can get the data of another point.

* C83 `C83_else_unrecorded`: a statement after a group with `#else` (or an empty group) never gets a point.
* C83 `C83_directive_between`, `C83_group_between`: with `#define` or a group that is not compiled between a qualifier in a
  group and its declaration, a call is put between them and the program no longer compiles.

* C84 `C84_cut_unsafe`: a truncated text of a database made with `add_trace_points` is loaded and then read out of bounds, because a point of
  the last trace refers to the data of a point of another trace.
* C84 `C84_type_names`: `get_types` reads out of bounds if a program gave a type the index of a name that does not exist.

* C85 `C85_fork_first`: the header is not flushed; a program that forks before its first point writes it twice and its trace cannot be read.
* C85 `C85_large_points`: points larger than the buffer of the stream are torn apart by other processes.
* C85 `C85_sizes_mix`: the buffer size of a pointer depends on allocations of other processes.

* C86 `C86_header_lost`, `C86_torn`, `C86_stale_sizes`: errors of writing are not noticed by the runtime; after a temporary failure the trace can be
  unreadable, contain invented points, or give pointers the sizes of buffers that no longer exist.

* C87 `C87_leak`: a thread destroyed between opening the file and returning it leaves the file open, and the trace is read as empty without an
  error. The declared type of `open-file-timeout` excludes the missing timeout its body handles.

* C88 `C88_within_a_point`, `C88_hangs`: an instrumented signal handler that runs while its thread writes a point waits for the mutex its own thread
  holds; the instrumented program hangs although the original does not.

* C89 `C89_left`, `C89_grows`: nothing frees the bytes of blobs, not even freeing the database; `buf` (Trace.hpp:61) is lost when an exception leaves
  the name table; a node is lost when its tower cannot be allocated (MemoryMap.hpp:76-79).  `C89_refused`: the result of `malloc` (TraceVarInfo.hpp:172) is not checked.

* C90 `C90_asked`: lengths in the file are believed before the bytes are there (Trace.hpp:61, Trace.hpp:77, TraceVarInfo.hpp:172).

* C91 `C91_child_waits`, `C91_fork_inside`, `C91_exit_inside`: the runtime has no `pthread_atfork` handlers; a fork within a point of another thread leaves the child with a locked mutex and half a point in its buffer (c-cpp.lisp:156-174).

* C92 `C92_leak`, `C92_error`, `C92_store`, `C92_history`: `create-foreign-array` allocates with `foreign-alloc` and nothing calls `foreign-free` (binary-trace-db.lisp:447-453), and the string of `serialize_trace_db` is never freed by Lisp, its `malloc` is not checked (trace-db.cpp:159-171).

* C93 `C93_zero`: `(random (expt 2 32))` may be 0 (binary-trace-db.lisp:569), which `Trace::query` takes as no pick (Trace.hpp:336), so that all results are returned. `C93_values`: a picked result need not be a result of the query without pick.

* C94: the manual (doc/trace-database-component.texi:34-37, 48, 70) gives 16 bits to the character and type counts and to the sizes of values, and 32 bits to statement ids; the code reads 64, 32, 32 and 64 bits (Trace.hpp:53-59, 76; TraceVarInfo.hpp:172; TracePoint.hpp:276). Traces written after the manual are refused or misread.

* C95: neither cache has a bound or is ever cleared. The predicate cache (TracePoint.hpp:69-80) is static and outlives all databases (C95_cache_grows); the filter cache (Trace.hpp:45) copies the points for every different filter (C95_filter_cache_grows).

* C96: with-possibly-existing-bin (traceable.lisp:80-91) says that a binary that had to be created is removed after the body; if compiling creates it and then signals an error, it stays (C96_binary). An error in add-trace leaves the test process running, and so does the error about missing traces in the list-based method, which comes before finish-test (C96_processes). The old traces are lost as soon as compiling succeeded, even if no test can be started (C96_traces).

* **Types of a project that differ only in case are merged (C99).** The tables of a project are shared by all files and compared with `equalp`. Where one file has variables of type `Node *` and a later one of type `node *`, both are recorded under the first name, and a query for `*node` is an error although a variable of that type is recorded (`C99_type_lost`).
* **Instrumentation with several threads can confuse names and types (C100).** `get-name-index` and `get-type-index` look up, count and store in separate accesses to the shared tables. Two threads can so store different names under the same index (`C100_wrong_name`: the trace shows the value of `y` as `x`), or different types (`C100_invented_points`: a run through one statement leaves a trace of five points, since the runtime writes eight bytes where the table says four).
- C107: concurrent queries are undefined behaviour even when they ask different traces of different databases (the cache of answers is a static variable without a lock, TracePoint.hpp:72), although every function involved is `const`; so is adding two traces with auxiliary values at a time (static variable, TracePoint.hpp:294), although `TraceDB::addTrace` is meant to allow it (TraceDB.hpp:47-49).
- C108: `add_trace` is declared with `:int` for the timeout in Lisp (binary-trace-db.lisp:222) and with `uint32_t` in C (trace-db.h:22): timeouts from 2^31 up are refused by CFFI, and a negative one would become one of more than 68 years if Lisp did not check it first.
- C113: a `double` variable that holds a whole number below 2^21 is equal to 0 in every predicate (QueryObjects.hpp:567-568 reads the member `f`).
- C114: a query that runs out of memory while `getPoints` fills its list (Trace.hpp:288-296) leaves the incomplete list in the cache, and all later queries with this filter silently use it. The entry should be made when the list is complete.
- C115: the runtime never looks at the result of `fwrite` and `fflush`; if the disk is full for a moment within a point, the trace can be readable and show a statement with variables of another one (C115_torn).
- C116: `exit` flushes the stream while another thread may hold the mutex and have put half of a point; then the trace cannot be read at all without a limit, though no write failed (C116_exit_while_recording). Being killed instead loses only that point.
- C117: `query-trace` reads `(nth index (trace-metadata db))` after the filter was called (binary-trace-db.lisp:604), while `add-trace-points` puts metadata in front: a filter that adds points makes the running query return the metadata of the points added (C117_metadata_of_others). An error in a filter also leaves the results allocated, since only the predicates and types are freed by `unwind-protect`.
- C119: `misidentified-function-p` (c-cpp.lisp:660-666) takes every function called `class` or `namespace` for a misparsed type. In C these are ordinary names; such functions are recorded only at branches and bodies without braces, since `can-be-made-traceable-p` (c-cpp.lisp:626-633) does not ask again (C119_unrecorded).
* C121 `C121_padded_lost`: a database text that ends inside its last name is loaded without complaint, with NULs in the name. It can be stored and
  loaded again; but after a trace is added to it, the text made from it ends at the NUL and cannot be loaded: all traces are lost.
* C122 `C122_duplicates_removed`: with duplicates removed, `(and p q)` can have an answer that `p` does not have, and a statement asked about with `p` and
  with `(not p)` can give more answers than asking about all combinations: duplicates are recognised by names, not values, and the first is kept.
* C123 `C123_types_soft`: with soft predicates, allowing more types can lose answers, since only the best at each point are kept.
* C126 `C126_limits`: `(not (< (v/size v) 5))` has answers that `(>= (v/size v) 5)` does not have, namely variables without a size.

## 6. Axioms per theorem

Trusted: Lean's kernel (vcheck replays every module), the three standard axioms
`propext`, `Classical.choice` and `Quot.sound` as listed here, and that the
definitions under `Verif/Model` and `Verif/Spec` say what section 3 claims.  No
axioms are added, and neither `sorry` nor `native_decide` nor `bv_decide` is used.

* no axioms (3): C108_structures, C36_abi_sizes, C87_leak
* `propext` (29): C01_conditions_needed, C02_sizes_matter,
  C05_truncated_headers_accepted, C07_conditions_needed,
  C10_accepted_trace_without_type_name, C36_conditions_needed, C39_answer,
  C39_failed_addition, C40_nul_in_name, C44_hash_differs, C44_trace_equality,
  C46_values_mixed, C48_bounds_needed, C50_list_based, C53_threads_index_outside,
  C53_threads_share_index, C56_cycle, C56_inconsistent_with_equality,
  C58_predicate_ignored, C68_parallel_crash, C68_parallel_mixed,
  C68_stuck_reachable, C72_pick, C82_wrong_data, C86_header_lost, C86_stale_sizes,
  C86_torn, C94_statement_misread, C96_compilation_failed
* `Quot.sound`, `propext` (104): C02_values_exact, C100_one_file, C107_same_runs,
  C107_vector, C108_arguments, C108_layout_rules, C108_negative_timeout,
  C108_results, C109_refused, C10_get_types, C110_restore, C110_store, C110_strings,
  C111_data_exist, C112_bad_index, C112_negative, C112_new, C112_one_meaning,
  C114_wrong_answer_early, C117_filter, C117_metadata_of_others, C117_programs,
  C122_duplicates_removed, C123_types_soft, C124_other_order, C126_limits,
  C128_points, C22_predicate_aborts, C23_no_repetition, C24_statement_filter,
  C24_unfiltered, C25_filter_cache_unobservable, C25_queries_unaffected,
  C26_collision_gives_wrong_answer, C26_second_evaluation_undefined, C27_contiguous,
  C27_one_point, C33_doubles_confused, C36_double_release, C36_export_faithful,
  C38_append_only, C38_bad_index, C43_types_sizes_predicates, C44_data_ignored,
  C45_all_returned, C45_no_deadlock, C45_outcomes, C45_stored_once, C46_alone,
  C46_no_aux_unaffected, C46_only_aux_values_mix, C50_points_reorder,
  C50_points_steal, C53_indices_mean_requests, C53_shared_iff_same, C53_tables_grow,
  C54_many_descriptors, C54_missing_file, C55_budget, C55_list_based_unbounded,
  C56_longer_blob_out_of_bounds, C58_case, C58_case_conflated,
  C58_predicate_disagrees, C58_shared_type_names, C63_refused, C63_unchanged,
  C64_filtered_branch, C65_files, C66_lost_metadata, C66_restrictions_not_stored,
  C67_instrumented_p, C70_no_deadlock, C70_wrong_answer_early, C71_names_needed,
  C72_reading, C72_types, C74_room, C76_enclosing, C78_copied, C78_outcomes,
  C78_values, C80_answers, C80_collection_unnoticed, C80_leak, C80_never_freed,
  C84_type_names, C85_fork_first, C85_large_points, C85_sizes_mix, C87_in_time,
  C87_left_open, C87_reads, C91_child_waits, C91_exit_inside, C91_never_undefined,
  C93_values, C93_zero, C95_filter_cache, C95_predicate_cache, C95_session,
  C95_watching, C96_test_case, C98_states
* `Classical.choice`, `Quot.sound`, `propext` (376): C01_exactly_representable,
  C01_write_read_round_trip, C02_recorded_is_read,
  C03_cut_trace_yields_complete_points, C04_cut_position_decides, C05_cut_header,
  C06_reading_terminates, C07_no_undefined_behaviour, C08_limit_ignores_damage,
  C08_limit_is_prefix, C09_variables_valid, C100_in_turn, C100_invented_points,
  C100_queries, C100_up_to_indices, C100_wrong_name, C101_queries, C102_kept,
  C102_queries, C103_all, C103_queries, C104_databases, C104_queries, C105_queries,
  C106_queries, C107_adding, C107_cold, C107_queries, C107_race_free, C107_repeated,
  C108_calls_taken, C108_get_trace, C108_points, C108_types, C109_failures,
  C109_free_variables, C109_predicates, C109_query, C110_points,
  C110_points_returned, C110_store_restore, C111_known_data, C111_size,
  C112_session, C112_stored, C113_division, C113_doubles_zero, C113_nan,
  C113_predicates, C113_query, C114_cut, C114_lost, C114_nothing_invented,
  C114_right, C115_for_a_time, C115_for_ever, C115_torn, C116_exit_while_recording,
  C116_for_a_time, C116_for_ever, C116_kept, C117_caches, C117_ends, C117_errors,
  C117_filter_function, C117_kept, C117_meaning, C118_all, C118_collections,
  C118_kept, C118_queries, C119_runs, C119_same_behaviour, C119_unrecorded,
  C11_invalid_tag_rejected, C120_filters, C120_programs, C121_counts, C121_names,
  C121_padded_lost, C121_store_again, C121_used, C122_and, C122_not, C122_or,
  C122_soft, C122_soft_hard, C122_statements, C123_order, C123_points, C123_types,
  C123_unused, C124_order, C125_connectives, C125_order, C125_points, C125_soft,
  C125_statements, C125_types, C125_unused, C126_decimal, C126_rewrite, C127_lisp,
  C127_query, C127_session, C128_unused, C12_bad_signed_size_rejected,
  C12_integers_exact, C13_counters_consecutive, C14_buffer_sizes_follow_history,
  C15_find_is_nearest_lower, C15_lookup_refines_history, C15_spec_functional,
  C16_reserved_records_unobservable, C16_undefined_iff_overfreed,
  C17_levels_unobservable, C17_reading_ignores_randomness, C18_inside_is_answered,
  C18_outside_is_unknown, C18_size_within_allocation, C19_freed_base_not_used,
  C19_later_record_replaces, C19_other_bases_unaffected, C20_memory_safe,
  C21_on_accepted_traces, C21_sound_and_complete, C22_deduplicated,
  C22_not_one_result, C22_two_results_per_point, C23_order_and_multiplicity,
  C26_cache_unobservable_without_collisions,
  C26_changing_comparison_gives_wrong_answer, C28_soft_predicates_maximised,
  C29_integer_predicates_exact, C30_exact_outcome, C30_well_formed_total,
  C31_connectives, C32_missing_values_false, C33_four_byte_floats,
  C34_first_of_each_class, C34_idempotent, C34_interface, C35_count_wraps,
  C35_nothing_returned, C36_accepted_traces, C37_aux_undefined, C37_points_returned,
  C39_written_trace_added, C40_reachable, C40_round_trip, C40_stored_once,
  C41_query, C41_same_answers, C42_direct_records_change, C42_no_leak,
  C42_shared_iff_same_data, C42_sharing_unobservable, C43_records,
  C44_database_equality, C47_all_recorded, C47_no_deadlock, C47_points_do_not_mix,
  C47_read_back, C48_injective, C48_round_trip, C48_without_file, C49_file_zero,
  C49_points_of_file, C49_selected, C50_files, C51_accepted_iff, C51_query,
  C51_translation, C52_built_and_freed, C52_free_exact, C53_project_names_conflated,
  C53_single_file_names, C54_add_trace, C54_opened_or_error, C54_succeeds_iff,
  C55_errors, C55_exhausted_is_error, C56_blobs_of_one_size, C56_types_and_sizes,
  C56_words, C57_rewriting_is_stable, C57_unchanged_variables, C58_agree,
  C58_binary, C58_list_based, C58_unknown_type, C59_pointer_dangles,
  C59_trace_pointers, C60_declarators_conflated, C60_injective, C60_named_size_lost,
  C60_order_changed, C60_round_trip, C60_stable, C61_case_lost,
  C61_marks_split_types, C61_pointer_tables_as_text, C61_single_file,
  C61_trace_shows_visits, C62_file, C62_lisp_shows_stream, C63_points_returned,
  C64_announced, C64_else_text, C64_filtered_label, C64_instrumented_runs,
  C64_no_filter, C64_same_behaviour, C64_unbraced_switch, C65_distinct,
  C65_file_numbers, C65_later_files_not_covered, C65_other_main, C65_project_trace,
  C66_exact, C66_points, C67_flags_left, C67_other_files_left, C67_project,
  C67_restored, C67_unchanged, C68_can_end, C68_complete, C68_exact,
  C68_one_trace_per_run, C68_parallel_robbed, C68_stuck, C68_taken, C69_calls,
  C69_end, C69_env_not_read, C69_env_quoted, C69_file_first, C69_file_newline,
  C69_id, C69_setup, C70_apart, C70_missing_results, C70_nothing_invented,
  C70_repeated_results, C70_uninterrupted, C71_answers_and_releases,
  C71_error_keeps_results, C71_filter_error, C71_get_trace, C71_leaks_add_up,
  C71_refused_predicate_leaks, C71_unknown_type_leaks, C72_exact, C72_metadata_lost,
  C72_metadata_of_parent, C72_metadata_shifts, C72_own_metadata, C72_points,
  C73_aborts, C73_newline, C73_parentheses, C73_reads_back, C73_unambiguous,
  C74_alone, C74_dangling, C74_number, C74_powers_of_two, C75_empty, C75_link,
  C75_not_parsed, C75_order, C75_setup, C76_calls, C76_parameters,
  C76_pointer_results, C76_prototypes, C76_recorded, C77_doubles, C77_queries,
  C77_split_types, C78_queries, C79_crash, C79_limit, C81_as_add_trace,
  C81_free_trace, C81_leak, C81_leaks_add_up, C81_long_timeouts, C81_nil,
  C81_no_trace, C82_empty, C82_names, C82_points, C82_reachable, C82_small_type,
  C82_types, C83_announced, C83_directive_between, C83_else_unrecorded,
  C83_group_between, C83_no_filter, C83_nothing_ruled_out, C83_pieces_kept,
  C83_same_behaviour, C84_cut, C84_cut_unsafe, C84_defined_iff, C84_get_points,
  C84_loaded, C84_made, C84_query, C85_all_recorded, C85_can_end, C85_forked,
  C86_fails_for_ever, C86_points_lost, C87_never, C87_nil, C88_between_points,
  C88_can_end, C88_hangs, C88_read_back, C88_within_a_point, C89_enough_memory,
  C89_grows, C89_grows_example, C89_left, C89_refused, C90_asked, C90_blobs,
  C90_bounded, C90_rewritten, C91_all_recorded, C91_can_end, C91_fork_inside,
  C91_forked, C92_added, C92_error, C92_history, C92_leak, C92_store, C93_agree,
  C93_one_point, C93_represented, C94_blob, C94_names, C94_small_files,
  C94_statement, C94_types, C95_cache_grows, C95_count, C95_evaluations,
  C95_evaluations_seed, C95_filter_cache_grows, C96_binary, C96_causes,
  C96_compilations, C96_counts, C96_normal_end, C96_processes, C96_temporary,
  C96_traces, C96_traces_any, C97_after_free, C97_databases, C97_refines,
  C97_store_load, C98_code_at_points, C98_program_runs, C98_queries, C98_trace,
  C99_code_at_points, C99_program, C99_queries, C99_type_lost
