{"id": "C01", "title": "Binary trace write/read round trip", "statement": "Writing a trace with operator<< and reading the bytes back with the Trace stream constructor yields the same names, types and points (statement ids, counters, buffer sizes, variables with values and buffer sizes, auxiliary values, in the same order), provided the trace is representable: NUL-free names, in-range indices, variable-sized blobs only, 8-byte pointers, integer sizes 1/2/4/8, float sizes 4/8, pointer buffer sizes consistent with the recorded allocations. Each representability condition is necessary: a trace whose types are portable round trips if and only if it is representable, and fixed-size blobs, 4-byte pointers and 3-byte integers do not round trip.", "quantifier": "every representable trace (any number of names, types, points, variables, blobs, allocations)", "why_tests_cant": "the unit tests check one hand-written trace; the claim is over every trace and every mix of entry kinds", "anchors": ["cffi-interface/trace-db/Trace.hpp:Trace::write", "cffi-interface/trace-db/Trace.hpp:Trace::read", "cffi-interface/trace-db/TracePoint.hpp:TracePoint::write", "cffi-interface/trace-db/TraceVarInfo.hpp:TraceVarInfo::write", "cffi-interface/trace-db/TraceVarInfo.hpp:TraceVarInfo::read"]}
{"id": "C02", "title": "What the instrumented program records is what the reader returns", "statement": "A trace stream emitted by the instrumentation runtime (header, then for each statement: id, buffer sizes, scalar variables, blobs, end marker) is read back as exactly the recorded sequence of statement ids and variable values, each value equal to the C value truncated/extended according to its declared type.", "quantifier": "every name table, type table and every sequence of runtime calls with arguments of the declared types", "why_tests_cant": "tests run a handful of compiled programs; the claim is over every emitted stream", "anchors": ["instrumentation/c-cpp.lisp:+write-trace-implementation+ (__write_trace_header, __write_trace_id, __write_trace_variables, __write_trace_blobs, __write_buffer_size, __write_end_entry)", "cffi-interface/trace-db/Trace.hpp:Trace::read"]}
{"id": "C03", "title": "Crash safety: a trace cut anywhere after its header never yields invented data", "statement": "If the traced program dies and the stream is cut at any byte after the header, add_trace/read_trace either return exactly the points that were completely written before the cut, or fail; they never return a point that was not written nor a modified one.", "quantifier": "every well-formed trace and every cut position (crash point) after the header", "why_tests_cant": "there is one crash point per byte of every possible trace", "anchors": ["cffi-interface/trace-db/Trace.hpp:Trace::read", "cffi-interface/trace-db/TracePoint.hpp:TracePoint::read", "cffi-interface/trace-db/Utils.hpp:BINARY_READ"]}
{"id": "C04", "title": "Crash outcome is decided by the cut position", "statement": "A cut that falls between two entries keeps every complete point and silently drops the unfinished one; a cut strictly inside an entry makes the whole read fail with an end-of-file error (or the trace error, if the stream ended with an I/O error), so all earlier points are lost. This assumes types the reader can hold, no use of the reserved address 2^64-1 and enough memory.", "quantifier": "every well-formed trace, every cut position after the header", "why_tests_cant": "same as C03; the tests cut four fixed streams at one position each", "anchors": ["cffi-interface/trace-db/TracePoint.hpp:TracePoint::read", "cffi-interface/trace-db/Utils.hpp:BINARY_READ"]}
{"id": "C05", "title": "Truncated headers", "statement": "A stream cut inside its header should be rejected. The code accepts some cut headers: exactly those cut at the type-count field (reading a zero count) or inside the size field of the last type; all other header cuts are rejected.", "quantifier": "every header (name table, type table) and every cut position inside it", "why_tests_cant": "tests try a few truncated headers; the accepted ones were missed", "anchors": ["cffi-interface/trace-db/Trace.hpp:Trace::read", "cffi-interface/trace-db/TypeDescription.hpp:TypeDescription::read", "cffi-interface/trace-db/Utils.hpp:BINARY_READ"]}
{"id": "C06", "title": "Reading terminates on every input", "statement": "read_trace/add_trace on any finite byte stream, however malformed, with any point limit, terminates.", "quantifier": "every finite byte string, every max_points, every random level sequence", "why_tests_cant": "tests run finitely many malformed inputs", "anchors": ["cffi-interface/trace-db/Trace.hpp:Trace::read", "cffi-interface/trace-db/TracePoint.hpp:TracePoint::read", "cffi-interface/trace-db/MemoryMap.hpp"]}
{"id": "C07", "title": "Memory safety of the reader", "statement": "Reading a byte stream has defined behaviour whenever the name table is complete and ends in NUL, every non-blob type has size at most 8, every finished point carries a statement id, address 2^64-1 is never freed more often than allocated (a cut record counts as a free), the stream does not end inside the value of a signed or blob variable, and allocation succeeds. Each of these is needed: for each there is an input that reaches undefined behaviour instead of an error.", "quantifier": "every byte string", "why_tests_cant": "tests can only exhibit particular inputs, and undefined behaviour may pass silently in a test run", "anchors": ["cffi-interface/trace-db/Trace.hpp:Trace::read", "cffi-interface/trace-db/TraceVarInfo.hpp:TraceVarInfo::read", "cffi-interface/trace-db/TracePoint.hpp:TracePoint::read", "cffi-interface/trace-db/MemoryMap.hpp:skipListRemove"]}
{"id": "C08", "title": "max_points returns a prefix", "statement": "Reading with limit k>0 returns exactly the first k points of the unlimited read (all of them if fewer); limit 0 means no limit; the names and types are unaffected; a limited read succeeds even if data after the k-th point is damaged.", "quantifier": "every byte string and every limit", "why_tests_cant": "the claim ranges over all limits and inputs including ones damaged after the limit", "anchors": ["cffi-interface/trace-db/Trace.hpp:Trace::read", "cffi-interface/trace-db.cpp:add_trace"]}
{"id": "C09", "title": "Variables of an accepted trace refer to existing names and types", "statement": "In every trace accepted by the reader every variable has a name index inside the name table and a type index inside the type table, its format is the format of that type, and its size is the type's size unless the type is a variable-sized blob.", "quantifier": "every byte string accepted by the reader", "why_tests_cant": "an invariant over all inputs", "anchors": ["cffi-interface/trace-db/TraceVarInfo.hpp:TraceVarInfo::read", "cffi-interface/trace-db/Trace.hpp:Trace::read"]}
{"id": "C10", "title": "Type names of an accepted trace exist", "statement": "get_types on an accepted trace should return the name of every type. The reader does not validate the name index of a type, so there are accepted traces on which get_types reads out of bounds; it is safe exactly when all type name indices are inside the name table.", "quantifier": "every accepted trace", "why_tests_cant": "requires reasoning about all accepted inputs; existing test for bad name index passes for an unrelated reason", "anchors": ["cffi-interface/trace.cpp:get_types", "cffi-interface/trace-db/TypeDescription.hpp:TypeDescription::read", "cffi-interface/trace-db/Trace.hpp:Trace::read"]}
{"id": "C100", "title": "Projects instrumented by several threads", "statement": "With `num-threads`, the files of a project without `main` are instrumented at the same time, and their threads share tables that allow only single accesses at a time. In any order in which all threads finish, the code of each such file has the same statements and files, and the same variables with the same formats and sizes in the same order, as without threads. If no two threads are ever both between finding that a name or type is missing and storing it, traces show the statements passed with the names, types and values of their variables, and queries answer exactly about them, as in C99; this is so if there is at most one file without `main`, and if the files are instrumented one after the other, with the result of C65. Otherwise it need not be so: two threads can give the same index to different names, and a trace shows the value of one variable as another's; or the same index to different types, and a run through one statement leaves a trace of five points.", "quantifier": "all projects of any number of files, all orders of the threads' accesses to the tables, all runs of the instrumented program, all queries", "why_tests_cant": "multi-threaded-c/cpp-instrument-test compares only the kinds of ASTs with one and four threads, which C100_up_to_indices shows to agree for files without main even when indices are confused; the race needs a particular order of accesses within a few instructions", "anchors": ["instrumentation/c-cpp.lisp:instrument", "instrumentation/c-cpp.lisp:instrument-c-exprs", "instrumentation/c-cpp.lisp:get-name-index", "instrumentation/c-cpp.lisp:get-type-index"]}
{"id": "C101", "title": "Projects whose programs run several threads and may die, from instrumentation to queries", "statement": "Instrument a project, file by file or by threads as in C100, and run the program with any number of threads in any order. It ends or dies at any moment, and any first part of what it wrote reaches the file, at least the header. Then reading the file, with or without a limit on the number of points, either fails with the error for the end of the stream, or gives a trace that shows statements passed by the threads, each with its file, the names and types of the variables in scope and the values they had, mixed so that every thread's statements are its first ones in its order, and cut off at the limit; a query over this trace succeeds and returns exactly the answers among the values shown. If nothing that was written is lost, all statements of threads that have ended are among them; if moreover all threads have ended, reading succeeds and the trace runs through all statements passed by all threads.", "quantifier": "all projects, all numbers of threads of the program, all schedules of their writes, all moments of death and all first parts that survive, all queries with predicates in the supported language", "why_tests_cant": "the project's tests trace single-threaded programs that end normally; the number of schedules and of places to cut the file is unbounded", "anchors": ["instrumentation/c-cpp.lisp:instrument", "instrumentation/c-cpp.lisp:__write_trace_id", "instrumentation/c-cpp.lisp:__write_end_entry", "trace-db.lisp:query-trace", "trace-db.lisp:get-trace"]}
{"id": "C102", "title": "Databases of program runs, from instrumentation to queries", "statement": "Programs are built from projects instrumented as in C100 and run as in C101: with any number of threads, to the end or until they die. The files they leave are added to databases with metadata telling the run, with or without a limit on the number of points, while databases are created, restricted to a file, copied by storing and restoring, read and queried in any order. Afterwards, for every trace of every database object: reading it returns this metadata and the statements passed in the run it tells, up to the limit, each with its file, the names and types of the variables in scope and the values they had (only the statements of the file the object is restricted to); and a query returns exactly the answers among these values, with this metadata. The files of all runs that ended without loss are kept, in the order of their addition.", "quantifier": "all projects, programs, schedules, deaths and losses; all histories of operations on any number of databases; all traces in them; all queries with predicates in the supported language", "why_tests_cant": "a test collects a few traces of one small program; here every run, every loss and every history of the databases is considered", "anchors": ["instrumentation/c-cpp.lisp:instrument", "binary-trace-db.lisp:add-trace", "binary-trace-db.lisp:restrict-to-file", "binary-trace-db.lisp:get-trace", "binary-trace-db.lisp:query-trace", "cffi-interface/trace-db.cpp:serialize_trace_db"]}
{"id": "C103", "title": "From a project and its test suite to answers", "statement": "collect-traces runs the test cases of a suite on a program built from an instrumented project; the runs may have threads, die or lose output, and attempts, compilations and starts may fail in any way. Afterwards the traces are in the order of their test cases and of the runs in each, not more than asked for, each with the metadata of its test case; reading one of them shows the statements passed in its run, with the values the variables had, and a query over it returns exactly the answers among these values. If every test case starts, all its runs end without loss, and it has at least one (or this is ignored), a collection without limit ends normally with one trace for every run.", "quantifier": "all projects, test suites, numbers and outcomes of runs, failures during the collection, limits on traces and points, and queries with predicates in the supported language", "why_tests_cant": "the tests of the project collect traces of one program with a few inputs; every mixture of deaths, losses and failures of the collection is a different case", "anchors": ["traceable.lisp:collect-traces", "traceable.lisp:collect-test-case-traces", "binary-trace-db.lisp:add-trace", "binary-trace-db.lisp:query-trace", "instrumentation/c-cpp.lisp:instrument"]}
{"id": "C104", "title": "Soft predicates and pick in queries about runs", "statement": "A file left by a run of an instrumented program (with threads, possibly dead before its end) is read and a query is made with any predicate, soft predicates, filter, file and pick, through memory shared with the C library. If the file is not refused, the query looks at the points the run passed in the file, with pick at exactly one of them if there is one; it returns exactly the bindings of variables of allowed types at these points for which the predicate is true of the values the variables had, and for which as many soft predicates are true as for any such binding at the same point, and which the filter accepts; results with equal values may be left out, with a filter those equal up to case are. All memory allocated for the query is freed. The same holds for queries to databases of such files after any history.", "quantifier": "all projects, runs, losses, predicates and soft predicates in the supported language, filters that do not fail, files, seeds and generators of numbers, initial contents of memory, and histories of databases", "why_tests_cant": "the tests of the project make queries with soft predicates on one recorded trace; the best binding depends on the values of every run", "anchors": ["binary-trace-db.lisp:query-trace", "cffi-interface/trace-db/Trace.hpp:collectResultsAtPoint", "cffi-interface/trace-db.cpp:query_trace", "instrumentation/c-cpp.lisp:instrument", "instrumentation/c-cpp.lisp:__write_trace_variables"]}
{"id": "C105", "title": "Programs that fork, from projects to queries", "statement": "A program built from an instrumented project passes a statement, then creates threads and child processes to any depth; no point is larger than the buffer of its stream, and no thread forks or ends its process while another thread of the process is recording a point. Under every schedule, whichever processes are killed, at every moment the file is a part of the header and the first point, or it can be read (with or without a limit) and shows the first statement followed by statements passed by the threads of all processes, each thread from its start and in its own order, each with its file and the names, types and values of its variables; a query with any predicate, soft predicates, filter, file and pick returns exactly the best answers among them and frees its memory. If nobody was killed, processes ended after their threads, and everything has ended, every statement passed by any thread of any process is shown, up to the limit.", "quantifier": "all projects, trees of processes and threads, schedules, kills, limits and queries", "why_tests_cant": "the project has no tests with programs that fork; the processes share one file, and which points are in it depends on the schedule", "anchors": ["instrumentation/c-cpp.lisp:instrument", "instrumentation/c-cpp.lisp:__write_trace_id", "instrumentation/c-cpp.lisp:__write_end_entry", "cffi-interface/trace-db/Trace.hpp:Trace", "binary-trace-db.lisp:query-trace"]}
{"id": "C106", "title": "Programs interrupted by signals, from projects to queries", "statement": "Threads of a program built from an instrumented project are interrupted by signals at any moment, also within points; handlers pass instrumented statements themselves and return or leave by longjmp. At any moment the program may be killed, and any first part of what was written after the header be in the file. Reading it (with or without a limit) fails with the error for files that end early, or gives a trace that shows, up to the limit, the first statements passed: those of each thread in its order, and those of its handlers where they interrupted it, after the first signals, each with its file and the names, types and values of its variables; a query with any predicate, soft predicates, filter, file and pick returns exactly the best answers among them and frees its memory. If no handler came within a point, all threads have ended and the whole file is there, it is read and shows every statement passed after all signals.", "quantifier": "all projects, threads, schedules, signals and their handlers, moments of death, limits and queries", "why_tests_cant": "the project has no tests with signals; whether a handler comes within a point depends on timing, and a deadlocked program has to be killed", "anchors": ["instrumentation/c-cpp.lisp:instrument", "instrumentation/c-cpp.lisp:__write_trace_id", "instrumentation/c-cpp.lisp:__write_end_entry", "cffi-interface/trace-db/Trace.hpp:Trace", "binary-trace-db.lisp:query-trace"]}
{"id": "C107", "title": "Exactly which concurrent calls have data races", "statement": "Queries made by several threads at a time (each of which succeeds alone) have a C++ data race - in some interleaving two threads are about to access the same map, one of them changing it - exactly if two of them ask the same trace and one has to make its list of points, or one of them needs an answer to a predicate that is not known yet and another one needs any answer, be it about another trace or database. With empty caches two queries of one trace always race, and two queries of different traces race exactly if both find a binding to try. Queries that have been made once before, one after another, never race when repeated by any number of threads. If queries have no race, every one gives under every schedule what it gives alone. Threads that add traces never race on the vector of traces, and race on the static variable of the reader exactly if two of the traces have auxiliary values among the points that are read.", "quantifier": "all numbers of threads, queries, traces, contents of the caches that are right, and schedules", "why_tests_cant": "a data race is undefined behaviour that usually shows nothing, and depends on the schedule; the project has no tests with threads", "anchors": ["cffi-interface/trace-db/Trace.hpp:getPoints", "cffi-interface/trace-db/TracePoint.hpp:cachedSatisfiesPredicate", "cffi-interface/trace-db/TracePoint.hpp:read", "cffi-interface/trace-db/TraceDB.hpp:addTrace"]}
{"id": "C108", "title": "The foreign interface byte by byte", "statement": "The structures that C and Lisp declare separately agree on x86-64: for every list of members CFFI computes the same offsets and size as C, and the four shared structures have the same members at the same places. Every call from Lisp that CFFI accepts gives the C function exactly the arguments of the call, whatever is left in the unused bytes of registers, and every result is taken for what it is; the one exception is a negative timeout for add_trace, declared signed in Lisp and unsigned in C, which would be taken for 2^32 more. For every trace, every set of points and every way memory is handed out, the bytes written by points_to_array, get_names and get_types, read by Lisp with its own declarations, give exactly the points, names and types meant, unless an allocation fails, and no byte in use before is changed.", "quantifier": "all lists of members, functions of the interface, arguments, traces, memories and placements of new blocks", "why_tests_cant": "the two sets of declarations are never compared by a compiler; padding, unused bytes and the placement of blocks vary", "anchors": ["cffi-interface/trace.h:c_trace_var_info_struct", "cffi-interface/trace.h:c_trace_point_struct", "cffi-interface/trace-db.h:c_predicate", "cffi-interface/trace-db.h:query_trace", "cffi-interface/trace.cpp:points_to_array", "cffi-interface/trace.cpp:get_names", "cffi-interface/trace.cpp:get_types", "binary-trace-db.lisp:convert-trace-points", "binary-trace-db.lisp:trace-types"]}
{"id": "C109", "title": "A query from Lisp byte by byte", "statement": "Every predicate in the documented syntax that Lisp writes into foreign memory is read by C++ as exactly that predicate, whatever memory held before and whatever is allocated and written in between; expressions outside the syntax are refused in Lisp and never reach C++. The types allowed for free variables arrive as they are. For every trace, query and filter, the whole query — free variables, predicate, soft predicates and cells for the result written by Lisp, arguments in registers and on the stack, query_trace, results written by C++ and converted and filtered by Lisp — gives the answer of the query meant and leaves every byte that was in use unchanged, unless memory is short: then Lisp signals an error or C++ writes to NULL. If the query aborts, so does the call.", "quantifier": "all expressions, traces, queries, filters, memories, placements of new blocks and left-over bytes in registers", "why_tests_cant": "two sets of declarations, an arbitrary memory and arbitrary placements of blocks of arbitrarily nested predicates", "anchors": ["binary-trace-db.lisp:build-predicate", "binary-trace-db.lisp:create-foreign-array", "binary-trace-db.lisp:query-trace", "cffi-interface/trace-db.cpp:query_trace", "cffi-interface/trace-db.h:c_predicate", "cffi-interface/trace-db.h:free_variable", "cffi-interface/trace-db/QueryObjects.hpp:Predicate"]}
{"id": "C11", "title": "Invalid entry tags are rejected", "statement": "Any stream in which, after any number of well-formed entries and points, the next tag byte is not one of the five defined tags is rejected with an error; no partial trace is returned.", "quantifier": "every well-formed prefix and every one of the 251 invalid tag bytes", "why_tests_cant": "tests try one bad tag at one position", "anchors": ["cffi-interface/trace-db/TracePoint.hpp:TracePoint::read"]}
{"id": "C110", "title": "Strings, points and stored databases from Lisp byte by byte", "statement": "Every string that Lisp passes to C is read there up to its first NUL, whatever memory held before and whatever is allocated and written in between. Adding points from Lisp, with names, types, points, variables, buffer sizes and auxiliary values all passing through bytes in memory and through 64-bit argument slots, ends exactly as adding the points meant, leaves all memory in use unchanged, and get-trace gives the same points back byte by byte; unless Lisp signals an error. Storing a database gives Lisp the whole text, and restoring it in any other process with any memory gives the same traces and metadata. Restoring any other text gives a database or ends the process.", "quantifier": "all strings, points, databases, texts, memories, placements of new blocks and left-over bytes in registers", "why_tests_cant": "two sets of declarations, an arbitrary memory and arbitrary placements of blocks", "anchors": ["binary-trace-db.lisp:add-trace-points", "binary-trace-db.lisp:create-foreign-array", "cffi-interface/trace-db.cpp:add_trace_points", "cffi-interface/trace-db.cpp:serialize_trace_db", "cffi-interface/trace-db.cpp:deserialize_trace_db", "cffi-interface/trace-db.h:c_trace"]}
{"id": "C111", "title": "How long the text of a stored database is", "statement": "The text that serialize_trace_db makes for a database has, besides a header of 26 bytes and the bytes of the names, between 2 and 21 bytes for each number stored (and between 3 and 22 more for each name), where the numbers are: the version and the number of traces, two for each class of object that occurs, three for each trace, point and type, and for the data of points three counts, two for each buffer size, six and the value (one number, or one for each byte of a blob) for each variable and one for each auxiliary value, with equal data counted once in the whole database. Adding a trace whose data all occur already makes the text longer by at most 21 bytes for each of three numbers for each point and type plus its names, whatever variables the points have.", "quantifier": "all databases whose counts fit 64 bits, all versions", "why_tests_cant": "a bound for all databases; sharing between arbitrary traces", "anchors": ["cffi-interface/trace-db.cpp:serialize_trace_db", "cffi-interface/trace-db/TracePoint.hpp:TracePointData", "cffi-interface/trace-db/TraceVarInfo.hpp:save", "cffi-interface/trace-db/Trace.hpp:save", "cffi-interface/trace-db/TraceDB.hpp:save"]}
{"id": "C112", "title": "A Lisp session with a database byte by byte", "statement": "Whatever Lisp does with a binary database - adding trace files and points, getting traces and types, querying, storing and restoring, in any order and any number - and whatever else is allocated, written and freed in the memory of the process in between, as long as the blocks of the database are left alone: every answer is the one given by the list of traces and metadata that the operations so far mean, with nothing depending on addresses, on left-over bytes in registers, on earlier queries or on the vector of traces having been moved; until memory is short, which is an error in Lisp, an exception in C++ or a write to NULL in C. An index that is too large and a negative number are errors in Lisp. What was stored is restored later over any other contents.", "quantifier": "all sequences of operations, all memories, all placements of new blocks and all behaviour of the rest of the process that leaves the blocks of the database alone", "why_tests_cant": "arbitrary histories, memories and placements of blocks; places of traces change when the vector grows", "anchors": ["binary-trace-db.lisp:add-trace", "binary-trace-db.lisp:add-trace-points", "binary-trace-db.lisp:get-trace", "binary-trace-db.lisp:query-trace", "cffi-interface/trace-db.cpp:add_trace", "cffi-interface/trace-db.cpp:get_trace", "cffi-interface/trace-db/TraceDB.hpp:addTrace"]}
{"id": "C113", "title": "Predicates about floats compare the recorded numbers", "statement": "If the decimal float library is accurate to one part in 10^49 and exact when fifty digits are enough, a predicate about 4-byte floats, integers, pointers and sizes holds exactly if it holds of the recorded numbers as rational numbers: comparisons of variables and constants with each other, whatever their values (also NaN, infinities, both zeros, and floats against integers that differ in the last bit), and comparisons of sums, differences and products that need no more than fifty digits. The answers at a point are the bindings for which it holds in this sense. Comparing with NaN is never true, not even NaN = NaN; a quotient by either zero is missing and no comparison with it is true. For 8-byte floats this fails: every whole number below 2^21 recorded as a double is taken to be 0.", "quantifier": "all recorded values, all predicates without division (and those that divide by zero), all float libraries with the stated accuracy", "why_tests_cant": "2^32 floats against 2^64 integers and constants; rounding that only matters for neighbouring values", "anchors": ["cffi-interface/trace-db/QueryObjects.hpp:PredicateValue", "cffi-interface/trace-db/QueryObjects.hpp:EvaluatePredicate::evaluate", "cffi-interface/trace-db/Trace.hpp:collectResultsAtPoint"]}
{"id": "C114", "title": "Queries after queries that ran out of memory", "statement": "A C++ program makes queries one after the other, and some of them end with std::bad_alloc at any point. A later query that completes gives the right answer if no earlier query with the same trace, mask and statement failed; in any case it gives the right answer for the first k points that pass its filter, for some k. The code does not recover: for every k there is a place at which a first query with a filter can fail such that all later queries with that filter, whatever else they ask, see only the first k of the matching points. Results are never invented. If the compiler makes the entry of the predicate cache before the answer is computed (allowed by C++11), a failed query also takes results away from queries of other traces.", "quantifier": "all traces, all starting caches that are right, all sequences of queries, all places at which memory can run out, all float libraries and random generators", "why_tests_cant": "the failure of every single allocation in every sequence of queries would have to be provoked", "anchors": ["cffi-interface/trace-db/Trace.hpp:getPoints", "cffi-interface/trace-db/Trace.hpp:query", "cffi-interface/trace-db/TracePoint.hpp:cachedSatisfiesPredicate"]}
{"id": "C115", "title": "Programs that cannot write all of their trace, from projects to queries", "statement": "A program is built from an instrumented project, and writing its trace fails: for ever from some moment on (disk full, reader of the pipe gone), or now and then. If failing is for ever and the header is in the file, reading it fails as for any file that ends early, or gives a trace that shows the first statements the program passed. If the header and the first point have been written, points fit into the buffer of the stream, and a failing write writes nothing and drops the buffer, the file can always be read and shows the first statement and some of the later ones, in their order. In both cases values are those the variables had, queries give the best answers about the statements shown and release their memory, and all statements are shown if no write failed and the program has ended without being killed. If a failing write wrote a part of a point, a statement can be shown with variables that it does not have.", "quantifier": "all projects and instrumentations without two threads storing at once, all programs with one process and thread, all sequences of failures, spills and kills, all limits, queries, float libraries and random generators", "why_tests_cant": "failures of single writes at every place cannot be provoked with real file systems, and the projects and queries are unbounded", "anchors": ["instrumentation/c-cpp.lisp:instrument", "instrumentation/c-cpp.lisp:__write_trace_id", "instrumentation/c-cpp.lisp:__write_end_entry", "cffi-interface/trace-db/Trace.hpp:read", "cffi-interface/trace-db/Trace.hpp:query", "binary-trace-db.lisp:query-trace"]}
{"id": "C116", "title": "Failing writes in programs with threads, from projects to queries", "statement": "A program with threads is built from an instrumented project; its threads run in any order, writing its trace fails for ever from some moment on or now and then, and it is killed or ended by `exit` at any time. It never unlocks the mutex without owning it. If failing is for ever and the header is in the file, reading it fails as for any file that ends early, or gives a trace that shows of each thread the first statements it passed, in their order; what was in the file at a moment when no thread recorded a point and nothing had failed is shown, and with a limit not above that, reading does not fail. If failing writes write nothing and drop the buffer, points fit into the buffer and the header was in the file before, the file shows all that was in it then, and of each thread some of the statements it passed later, in their order; only if `exit` comes while a thread records a point, reading can fail, and not with a limit that what was in the file reaches. In both cases values are those the variables had, queries give the best answers about the statements shown and release their memory, and all statements are shown if no write failed, nobody killed the program and it ended after its threads. If a thread calls `exit` while another records a point, the file can be unreadable although no write failed.", "quantifier": "all projects and instrumentations without two threads storing at once, all programs with one process, all numbers of threads and schedules, all sequences of failures, spills, exits and kills, all limits, queries, float libraries and random generators", "why_tests_cant": "schedules of threads together with failures of single writes at every place cannot be provoked with real systems, and the projects and queries are unbounded", "anchors": ["instrumentation/c-cpp.lisp:instrument", "instrumentation/c-cpp.lisp:__write_trace_id", "instrumentation/c-cpp.lisp:__write_end_entry", "cffi-interface/trace-db/Trace.hpp:read", "cffi-interface/trace-db/Trace.hpp:query", "binary-trace-db.lisp:query-trace"]}
{"id": "C117", "title": "Lisp programs that handle errors, and filters that use databases", "statement": "In any history of operations on databases in which errors are handled, the answers, and the objects and traces left, are those of the history of the operations that signalled no error; an operation signals an error if and only if it does after those alone; and the history ends in another way only if they and the next operation do. For programs that decide by the answers what they do next and whose filters are such programs themselves: they do not see what queries leave in caches; nothing stored is lost or renumbered; and a query gives the filter all results for the trace as it was when the query began, in order, whatever the filter does to the database, and returns those accepted without duplicates. If the filter accepts by a function of the point, the query answers as with that function. Its metadata however is looked up last: a filter that adds points makes the query return their metadata.", "quantifier": "all histories, all programs (any nesting of filters in filters), all points of failure, all evaluators of predicates, environments, random generators and growth policies", "why_tests_cant": "programs nest queries in filters to any depth and errors can be signalled at any place; tests use filters that are constant functions and no handlers", "anchors": ["binary-trace-db.lisp:query-trace", "binary-trace-db.lisp:convert-trace-points", "binary-trace-db.lisp:add-trace-points", "binary-trace-db.lisp:get-trace", "cffi-interface/trace-db.cpp:query_trace"]}
{"id": "C118", "title": "Databases and collections of traces left by runs of every kind", "statement": "Files left by runs of instrumented programs of every kind - with threads, child processes, signal handlers, with writes that fail for ever or now and then, in one thread or more - are added to databases in any history of operations (adding, copying, restricting, reading, querying; files that are refused among them). Then each trace of each object shows, through its restriction, statements passed by the run its metadata names, as far as that kind of run allows, and a query with soft predicates, pick and filter returns exactly the best answers among the points it looks at. If nothing kept the programs from writing their traces, all files are stored, in order. Collections over test suites whose attempts are such runs give traces in the order of test cases and attempts, not more than asked for, and databases for which the same holds; if nothing kept any run from writing, they have one trace for each run.", "quantifier": "all projects, programs, schedules, points of death, forks, signals and failures to write, all histories of database operations and mixtures of runs, all test suites, limits, predicates, soft predicates, filters, random generators", "why_tests_cant": "each file depends on when threads switch, processes die and writes fail, and databases mix any number of them; tests use one recorded file", "anchors": ["binary-trace-db.lisp:add-trace", "binary-trace-db.lisp:query-trace", "traceable.lisp:collect-traces", "traceable.lisp:collect-test-case-traces", "instrumentation/c-cpp.lisp:instrument", "cffi-interface/trace-db/Trace.hpp:read", "cffi-interface/trace-db/Trace.hpp:query"]}
{"id": "C119", "title": "Functions with names like keywords", "statement": "Whatever a function is called, its instrumented text does the same steps as the original one, but for the points; with a filter it does what the function does with points at the statements that get them. These are all full statements accepted by the filter, but in a function called struct, enum, class or namespace, which the code takes for a mistake of the parser, only branches of conditionals and bodies of loops without braces. class and namespace are ordinary names in C: a C function of this name without such branches is left unchanged and never recorded.", "quantifier": "all names and bodies of functions, filters, ids, conditions and actions, runs of any length", "why_tests_cant": "bodies of functions and their runs are unbounded; tests do not use such names", "anchors": ["instrumentation/c-cpp.lisp:misidentified-ast-p", "instrumentation/c-cpp.lisp:traceable-stmt-p", "instrumentation/c-cpp.lisp:can-be-made-traceable-p", "instrumentation/c-cpp.lisp:instrument"]}
{"id": "C12", "title": "Integer values are decoded exactly", "statement": "A signed variable of size 1, 2, 4 or 8 is returned as the two's complement integer of its bytes (sign extended); an unsigned variable of size up to 8 as the unsigned little-endian integer of its bytes; other signed sizes are rejected.", "quantifier": "every size and every byte pattern", "why_tests_cant": "2^64 patterns", "anchors": ["cffi-interface/trace-db/TraceVarInfo.hpp:TraceVarInfo::read"]}
{"id": "C120", "title": "Lisp programs that handle errors find the best answers about runs of every kind", "statement": "A Lisp program that handles errors and decides by the answers what it does next adds to databases files left by runs of every kind (threads, child processes, signals, failing writes), perhaps among files that are not there or from which no trace can be read, and copies, restricts, reads and queries the databases meanwhile. Whatever it has done, with whatever errors, afterwards each stored trace shows statements passed by the run its metadata names, as far as that kind of run allows, and a query to it signals no error and returns exactly the best answers among the points it looks at. The same holds if the filter of the query is itself such a program, which may add traces and make queries, as long as its value depends only on the point.", "quantifier": "all Lisp programs over the operations of databases, all projects, runs, schedules, deaths, signals and failures to write, all predicates, soft predicates, filters and random generators", "why_tests_cant": "the program, the errors it meets and the files it adds vary together; tests run one fixed sequence of operations on recorded files", "anchors": ["binary-trace-db.lisp:add-trace", "binary-trace-db.lisp:query-trace", "binary-trace-db.lisp:get-trace", "instrumentation/c-cpp.lisp:instrument", "cffi-interface/trace-db/Trace.hpp:query"]}
{"id": "C121", "title": "What can be loaded from an arbitrary text", "statement": "Deserialising any text at all (written by another program, edited, damaged or cut off) either throws or gives a database whose counts fit the integers they are stored in and whose blobs have the bytes their sizes say. Its names are C strings, except that the last name may be padded with NULs if the text ended inside it. Serialising that database and deserialising the result gives exactly the same database again, also in the exceptional case. If its names are C strings, this also holds for its traces after any further sequence of calls; if the last name is padded with NULs and a trace is added, the text of the database can no longer be loaded.", "quantifier": "all byte sequences shorter than 2^64, all library versions, all sequences of calls afterwards", "why_tests_cant": "the texts are arbitrary; the tests of the project only load what they stored themselves", "anchors": ["cffi-interface/trace-db.cpp:deserialize_trace_db", "cffi-interface/trace-db.cpp:serialize_trace_db", "cffi-interface/trace-db/Trace.hpp:load", "cffi-interface/trace-db/TraceVarInfo.hpp:load", "cffi-interface/trace-db/TracePoint.hpp:load"]}
{"id": "C122", "title": "Laws of queries", "statement": "Without removal of duplicates, query answers obey the laws of logic: the answers to (and p q) are exactly the answers to p that are also answers to q (and the other way round, in the same order); those to (or p q) are the combinations that are answers to p or to q; every combination is an answer to p or to (not p) but not to both, and the numbers add up; restricting the query to some statements gives exactly those of all answers that are about them. Soft predicates only choose among the answers, in the same order; the order of the soft predicates does not matter, and giving the hard predicate also as a soft predicate changes nothing. With removal of duplicates these laws fail.", "quantifier": "all traces with values as the reader leaves them, all lists of free variables, all well-formed hard and soft predicates, masks and statements, all float systems; sizes such that the combinations at a point can be counted and allocated", "why_tests_cant": "the laws relate the answers to different queries for all predicates of any depth; the tests ask single queries", "anchors": ["cffi-interface/trace-db/Trace.hpp:collectResultsAtPoint", "cffi-interface/trace-db/Trace.hpp:query", "cffi-interface/trace-db/TracePoint.hpp:satisfiesPredicate", "cffi-interface/trace-db.cpp:query_trace"]}
{"id": "C123", "title": "Laws of free variables and points", "statement": "Without removal of duplicates: if a query allows fewer types for its free variables, its answers are exactly those of the wider query whose variables have the fewer types, in the same order; variables whose type no free variable allows can be removed from the trace without changing any answer; the order of the variables at a point only changes the order of the answers; and the answers about a trace with more points are the old answers followed by those at the new points. The last three also hold with soft predicates; the first does not: allowing more types can then lose answers.", "quantifier": "all traces with values as the reader leaves them, all lists of free variables, all well-formed hard and soft predicates, all reorderings, masks and statements, all float systems; sizes such that the combinations at a point can be counted and allocated", "why_tests_cant": "the laws relate the answers about different traces and to different queries; the tests ask single queries about fixed traces", "anchors": ["cffi-interface/trace-db/Trace.hpp:collectResultsAtPoint", "cffi-interface/trace-db/Trace.hpp:typeCompatible", "cffi-interface/trace-db/Trace.hpp:cartesian", "cffi-interface/trace-db/Trace.hpp:query"]}
{"id": "C124", "title": "The order of free variables", "statement": "Listing the free variables of a query in another order, with the references in its hard and soft predicates renumbered accordingly, gives the same answers with their variables in the new order; only the order of the answers may differ (no removal of duplicates).", "quantifier": "all traces with values as the reader leaves them, all lists of free variables and all permutations of them, all well-formed hard and soft predicates, masks and statements, all float systems; sizes such that the combinations at a point can be counted and allocated", "why_tests_cant": "the law relates the answers to two different queries, for every permutation and every trace; the tests ask single queries with at most two free variables", "anchors": ["cffi-interface/trace-db/Trace.hpp:collectResultsAtPoint", "cffi-interface/trace-db/Trace.hpp:cartesian", "cffi-interface/trace-db/Trace.hpp:query"]}
{"id": "C125", "title": "Laws of queries without duplicates", "statement": "When duplicates are removed (answers that bind the same names and types at the same statement): a query about some statements has exactly the answers of the query about all statements that are at these; a query allowing fewer types has exactly the answers of the wider query with these types; variables whose type no free variable allows do not matter; more points only add answers at the end, namely those at the new points that bind something new; what answers to `or` bind is what answers to either side bind, what answers to `and` bind is bound by answers to both sides, and every binding is one of a predicate or of its negation; the order of soft predicates does not matter and they only choose among bindings; and another order of the free variables gives the same bindings in that order.", "quantifier": "all traces with values as the reader leaves them, all lists of free variables and permutations, all well-formed hard and soft predicates, masks and statements, all float systems; sizes such that the combinations at a point can be counted and allocated", "why_tests_cant": "the laws relate the answers to different queries or about different traces; the tests ask single queries about fixed traces", "anchors": ["cffi-interface/trace-db.cpp:deduplicate_results", "cffi-interface/trace-db.cpp:query_trace", "cffi-interface/trace-db/Trace.hpp:query"]}
{"id": "C126", "title": "Rewriting predicates", "statement": "Rewriting hard and soft predicates by laws of logic, anywhere inside and any number of times, changes no answer of a query, with or without duplicates: other orders, nesting and repetition of the arguments of `and` and `or`, double negation, De Morgan's laws, contradiction, distribution, absorption, comparisons read from the other side, and `<=` as `<` or `=`. It does not hold that `not` of `<` is `>=`: sizes that are not known are neither. Nor does the order of arguments not matter if one of them is not a predicate.", "quantifier": "all traces with values as the reader leaves them, all lists of free variables, all well-formed predicates and all sequences of rewriting steps, masks and statements; all float systems for the laws of logic, those whose comparisons can be read from either side for the laws of comparisons", "why_tests_cant": "infinitely many pairs of predicates and traces; the tests evaluate single predicates", "anchors": ["cffi-interface/trace-db/QueryObjects.hpp:evaluate_binary_op", "cffi-interface/trace-db/QueryObjects.hpp:predicateSatisfied", "cffi-interface/trace-db/Trace.hpp:query"]}
{"id": "C127", "title": "Rewriting predicates in sessions and from Lisp", "statement": "A call of `query_trace` whose hard and soft predicates are rewritten by the laws of C126 does the same as before, with or without random pick and duplicates and whatever points of the trace are in the cache of filtered points; so do sessions of queries that share the predicate cache, if no hashes collide, and queries from Lisp with any file, filter and random pick.", "quantifier": "all traces with values as the reader leaves them, all sensible queries and sessions, all sequences of rewriting steps, random choices, caches of filtered points, files and filters; hashes without collisions on the keys of the session", "why_tests_cant": "infinitely many sessions and rewritings; the tests make single queries", "anchors": ["cffi-interface/trace-db.cpp:query_trace", "cffi-interface/trace-db/Trace.hpp:query", "cffi-interface/trace-db/TracePoint.hpp:satisfiesPredicate", "binary-trace-db.lisp:query-trace"]}
{"id": "C128", "title": "Free variables that predicates do not mention", "statement": "If a free variable is added to a query at the end and neither the hard nor the soft predicates mention it, then the answers at each point are those of the query without it, each extended by every variable of the point that has one of the types of the new free variable, in the order of these variables; at points without such a variable there are no answers, though there were before.", "quantifier": "all traces with values as the reader leaves them, all lists of free variables, all types of the new one, all well-formed hard and soft predicates, all masks", "why_tests_cant": "infinitely many traces, predicates and numbers of free variables; the tests compare no two queries", "anchors": ["cffi-interface/trace-db/Trace.hpp:collectResultsAtPoint", "cffi-interface/trace-db/Trace.hpp:query", "cffi-interface/trace-db.cpp:query_trace"]}
{"id": "C13", "title": "Points are numbered consecutively", "statement": "The i-th point of an accepted trace has counter i.", "quantifier": "every accepted trace", "why_tests_cant": "an invariant over all inputs", "anchors": ["cffi-interface/trace-db/Trace.hpp:Trace::read"]}
{"id": "C14", "title": "Buffer sizes of pointer variables follow the allocation history", "statement": "The buffer size reported for a pointer variable is determined by the buffer-size entries that precede it in the stream (in all earlier points and earlier in its own point): the distance to the end of the live allocation with the greatest base not above the pointer when the pointer is inside or one past it, otherwise none.", "quantifier": "every accepted trace, every allocation history, every pointer", "why_tests_cant": "depends on whole histories of allocations and frees", "anchors": ["cffi-interface/trace-db/TracePoint.hpp:TracePoint::read", "cffi-interface/trace-db/TraceVarInfo.hpp:TraceVarInfo::read", "cffi-interface/trace-db/MemoryMap.hpp:computeBufferSize"]}
{"id": "C15", "title": "The memory map is a sorted map", "statement": "After any history of allocation and free records, a lookup returns the live record with the greatest address not above the argument; it equals a plain finite map specification, whatever the random tower heights were.", "quantifier": "every history of updates, every random level sequence, every lookup address", "why_tests_cant": "the random levels and histories form an infinite space; the structure has rare configurations", "anchors": ["cffi-interface/trace-db/MemoryMap.hpp:skipListFind", "cffi-interface/trace-db/MemoryMap.hpp:skipListUpdate", "cffi-interface/trace-db/MemoryMap.hpp:skipListRemove"]}
{"id": "C16", "title": "The reserved address 2^64-1", "statement": "Records at address 2^64-1 never influence any lookup. Freeing address 2^64-1 when it has not been allocated more often than freed is undefined behaviour (the list head is deleted); it is the only way for the memory map to reach undefined behaviour.", "quantifier": "every history of updates", "why_tests_cant": "exact characterisation over all histories", "anchors": ["cffi-interface/trace-db/MemoryMap.hpp:skipListRemove", "cffi-interface/trace-db/MemoryMap.hpp:skipListFind"]}
{"id": "C17", "title": "Random tower heights are unobservable", "statement": "Reading the same bytes twice with different random number sequences gives the same result.", "quantifier": "every input and every pair of random sequences", "why_tests_cant": "tests cannot range over random sequences", "anchors": ["cffi-interface/trace-db/MemoryMap.hpp:random_level", "cffi-interface/trace-db/Trace.hpp:Trace::read"]}
{"id": "C18", "title": "A reported buffer size never reaches past the allocation", "statement": "When a lookup reports size n for address a, there is a live allocation (b, s) with b <= a and a + n = b + s, so [a, a+n) lies inside the allocation; if live allocations are disjoint and non-wrapping, every address strictly inside a live allocation gets a size and an address in no allocation (nor one past one) gets none.", "quantifier": "every history of updates and every address", "why_tests_cant": "depends on whole histories and 64-bit wrap-around", "anchors": ["cffi-interface/trace-db/MemoryMap.hpp:computeBufferSize"]}
{"id": "C19", "title": "Freed and re-allocated buffers", "statement": "After a free record for base b no lookup is answered from b until it is allocated again; a second allocation record for b replaces the first; records for other bases are unaffected.", "quantifier": "every history and address", "why_tests_cant": "interference between records over unbounded histories", "anchors": ["cffi-interface/trace-db/MemoryMap.hpp:updateMemoryMap"]}
{"id": "C20", "title": "The skip list never exceeds its maximum height and never loses its ordering", "statement": "All pointer dereferences made by the memory map hit live nodes at levels they own: no out-of-range level, no dangling node, no endless walk, for every history that does not over-free address 2^64-1; destroying the map frees every node exactly once.", "quantifier": "every history and level sequence", "why_tests_cant": "memory-safety over all histories", "anchors": ["cffi-interface/trace-db/MemoryMap.hpp:MemoryMap"]}
{"id": "C21", "title": "Queries are sound and complete", "statement": "With free variables v1..vn, the results at a point are exactly the bindings of v1..vn to variables of that point with allowed types that satisfy the hard predicate: nothing else is returned and nothing is missed, as long as the number of candidate combinations is below 2^64.", "quantifier": "every trace point, list of free variables and well-typed predicate", "why_tests_cant": "all combinations of bindings over unbounded points", "anchors": ["cffi-interface/trace-db/Trace.hpp:collectResultsAtPoint", "cffi-interface/trace-db/Trace.hpp:cartesian", "cffi-interface/trace-db/Trace.hpp:typeCompatible"]}
{"id": "C22", "title": "Queries without free variables", "statement": "The documentation promises one result per matching trace point when there are no free variables. The code returns two: an empty one and one carrying buffer sizes and auxiliary data. With duplicate removal exactly the first per statement remains.", "quantifier": "every trace", "why_tests_cant": "the existing tests only check non-emptiness/one configuration", "anchors": ["cffi-interface/trace-db/Trace.hpp:collectResultsAtPoint", "cffi-interface/trace-db/Trace.hpp:query", "cffi-interface/trace-db.cpp:query_trace"]}
{"id": "C23", "title": "Result order and multiplicity", "statement": "Results appear in trace point order; at one point each binding occurs exactly once and bindings are ordered with the first free variable varying fastest.", "quantifier": "every trace and query", "why_tests_cant": "ordering over unbounded result lists", "anchors": ["cffi-interface/trace-db/Trace.hpp:cartesian", "cffi-interface/trace-db/Trace.hpp:query"]}
{"id": "C24", "title": "Statement filter", "statement": "A query with mask m and statement s examines exactly the points whose statement id ANDed with m equals s, in trace order; m = s = 0 examines all points.", "quantifier": "every trace, mask and statement", "why_tests_cant": "2^128 filters and unbounded traces", "anchors": ["cffi-interface/trace-db/Trace.hpp:getPoints", "cffi-interface/trace-db/Trace.hpp:query"]}
{"id": "C25", "title": "The point-filter cache is unobservable", "statement": "Whatever filters were requested before, a filter request returns the same points as on a fresh trace.", "quantifier": "every history of filter requests", "why_tests_cant": "histories", "anchors": ["cffi-interface/trace-db/Trace.hpp:getPoints"]}
{"id": "C26", "title": "The predicate cache is unobservable", "statement": "Whatever predicates were evaluated before, evaluating a predicate should give the same answer as without the cache. The cache keys hold references to dead stack objects: a second evaluation whose key hashes to an existing entry reads a dangling reference (undefined behaviour). If that read is treated as an arbitrary comparison result that does not change between the three lookups of one evaluation, answers are still correct as long as no two evaluated keys with different answers have the same hash; with such a collision, or with a comparison that changes between lookups, an answer can be wrong.", "quantifier": "every history of evaluations, every outcome of comparing with a dead key", "why_tests_cant": "histories and collisions; undefined behaviour passes silently in tests", "anchors": ["cffi-interface/trace-db/TracePoint.hpp:cachedSatisfiesPredicate", "cffi-interface/trace-db/QueryObjects.hpp:EvaluatePredicate"]}
{"id": "C27", "title": "Random pick", "statement": "With a non-zero seed a query returns exactly the results of one of the points passing the filter (nothing when no point passes), hence a contiguous part of the unseeded results.", "quantifier": "every trace, query, seed and generator", "why_tests_cant": "ranges over generators and traces", "anchors": ["cffi-interface/trace-db/Trace.hpp:query"]}
{"id": "C28", "title": "Soft predicates are maximised per point", "statement": "With soft predicates, the results kept at a point are exactly those hard results which satisfy the greatest number of soft predicates, in unchanged order; at least one is kept whenever there is a hard result.", "quantifier": "every point, query and list of soft predicates", "why_tests_cant": "maximality over all bindings", "anchors": ["cffi-interface/trace-db/Trace.hpp:collectResultsAtPoint"]}
{"id": "C29", "title": "Integer predicates are exact", "statement": "Comparisons and +,-,* over integer constants, integer/pointer variable values and buffer sizes are evaluated as over the mathematical integers: no overflow, and signed/unsigned operands mix correctly.", "quantifier": "every predicate over integers and every 64-bit value", "why_tests_cant": "2^64 values per operand and unbounded nesting", "anchors": ["cffi-interface/trace-db/QueryObjects.hpp:PredicateValue", "cffi-interface/trace-db/QueryObjects.hpp:EvaluatePredicate::evaluate"]}
{"id": "C30", "title": "Well-typed predicates evaluate without aborting", "statement": "Evaluating a well-formed predicate (right argument counts and kinds, variable indices below the number of free variables) always yields a truth value; the ill-formed ones that are reached abort the process or are undefined.", "quantifier": "every predicate", "why_tests_cant": "all predicate trees", "anchors": ["cffi-interface/trace-db/QueryObjects.hpp:EvaluatePredicate::predicateSatisfied", "cffi-interface/trace-db/QueryObjects.hpp:EvaluatePredicate::evaluate"]}
{"id": "C31", "title": "Logical connectives", "statement": "and/or/not/distinct mean conjunction, disjunction, negation and inequality of the bound variable records; evaluation stops at the first deciding argument, so later ill-formed arguments are not reached.", "quantifier": "every predicate", "why_tests_cant": "all predicate trees", "anchors": ["cffi-interface/trace-db/QueryObjects.hpp:EvaluatePredicate::predicateSatisfied"]}
{"id": "C32", "title": "Missing values make comparisons false", "statement": "Any comparison with an operand that involves the size of a variable without a known buffer size, the value of a blob, or a division by zero is false, for all five comparison operators, at any nesting depth.", "quantifier": "every arithmetic expression", "why_tests_cant": "all expression trees", "anchors": ["cffi-interface/trace-db/QueryObjects.hpp:PredicateValue"]}
{"id": "C33", "title": "Floating point variables in predicates", "statement": "The value of a float variable should be the recorded number for both 4- and 8-byte floats. The code uses the low 4 bytes as a float whatever the size, so two doubles with equal low halves are indistinguishable to every predicate that does not use distinct; for 4-byte floats the value is right.", "quantifier": "every predicate and every recorded value", "why_tests_cant": "2^64 values and all predicates", "anchors": ["cffi-interface/trace-db/QueryObjects.hpp:EvaluatePredicate::evaluate"]}
{"id": "C34", "title": "Duplicate removal", "statement": "Duplicate removal keeps, in order, the first result of each class of results with equal statement id and equal list of (name, type) indices, and nothing else; it is idempotent.", "quantifier": "every result list", "why_tests_cant": "all result lists", "anchors": ["cffi-interface/trace-db.cpp:deduplicate_results"]}
{"id": "C35", "title": "Combination counting overflow", "statement": "When the number of candidate combinations at a point is 2^64 or more the count wraps and results are missed: with 64 free variables having two candidates each the query returns nothing although 2^64 bindings satisfy it.", "quantifier": "every point and free variable list", "why_tests_cant": "needs reasoning about astronomically large products", "anchors": ["cffi-interface/trace-db/Trace.hpp:cartesian"]}
{"id": "C36", "title": "Export to C structs is faithful and in bounds", "statement": "points_to_array writes only inside the memory it allocates and the returned array reproduces, for every point in order, statement id, auxiliary values and for every variable name index, type name index, value, format, size and buffer size; releasing it with free_trace_points frees every block exactly once. NULL is returned exactly for an empty list.", "quantifier": "every trace with in-range type indices and every result list", "why_tests_cant": "the allocation uses the size of another struct; only layout reasoning shows it suffices", "anchors": ["cffi-interface/trace.cpp:points_to_array", "cffi-interface/trace.cpp:free_trace_points", "cffi-interface/trace.h"]}
{"id": "C37", "title": "Points added from memory are returned unchanged", "statement": "get_points after add_trace_points returns the same statements and variables (name, type name, value, buffer size) in the same order; the format of a type is signed exactly if some variable of the type has a negative value. A point with auxiliary values is undefined behaviour.", "quantifier": "every array of points", "why_tests_cant": "all inputs", "anchors": ["cffi-interface/trace-db.cpp:add_trace_points", "cffi-interface/trace.cpp:points_to_array"]}
{"id": "C38", "title": "The database is an append-only sequence", "statement": "After any sequence of API calls, trace i is the i-th successfully added trace, n_traces counts the successful additions, and no call changes an already stored trace.", "quantifier": "every history of API calls", "why_tests_cant": "histories", "anchors": ["cffi-interface/trace-db.cpp:add_trace", "cffi-interface/trace-db.cpp:get_trace", "cffi-interface/trace-db.cpp:n_traces", "cffi-interface/trace-db/TraceDB.hpp:addTrace"]}
{"id": "C39", "title": "Failed additions change nothing", "statement": "If add_trace returns 0 the database is unchanged, and it returns 0 for every stream the reader rejects, and 1 for every stream the reader accepts.", "quantifier": "every byte stream and database", "why_tests_cant": "all inputs and states", "anchors": ["cffi-interface/trace-db.cpp:add_trace"]}
{"id": "C40", "title": "Database serialisation round trip", "statement": "deserialize_trace_db(serialize_trace_db(db)) yields a database with the same traces: names, types, points and all their data, although shared point data is stored only once.", "quantifier": "every database whose names contain no NUL byte and whose table sizes fit 32 bits", "why_tests_cant": "all databases; sharing patterns", "anchors": ["cffi-interface/trace-db/TraceDB.hpp:save", "cffi-interface/trace-db/TraceDB.hpp:load", "cffi-interface/trace-db/Trace.hpp:save", "cffi-interface/trace-db/TracePoint.hpp:TracePoint::serialize", "cffi-interface/trace-db.cpp:serialize_trace_db", "cffi-interface/trace-db.cpp:deserialize_trace_db"]}
{"id": "C41", "title": "Serialisation preserves query answers", "statement": "Every query gives the same results on a deserialised database as on the original.", "quantifier": "every database and query", "why_tests_cant": "all databases and queries", "anchors": ["cffi-interface/trace-db.cpp:query_trace", "cffi-interface/trace-db.cpp:deserialize_trace_db"]}
{"id": "C42", "title": "Sharing of variable records is unobservable", "statement": "Replacing a variable record by the shared one the program already holds never changes a recorded value for records produced by the reader or by add_trace_points; it can change the high bits of records with a size below 8 built directly by a C++ caller.", "quantifier": "every history of interned records", "why_tests_cant": "histories; depends on what was interned before", "anchors": ["cffi-interface/trace-db/TraceVarInfo.hpp:operator==", "cffi-interface/trace-db/TracePoint.hpp:TracePoint::read"]}
{"id": "C43", "title": "Equality and hashing agree", "statement": "For variable records, types, buffer sizes and predicates, equality is an equivalence relation and equal values have equal hashes.", "quantifier": "all pairs and triples of values", "why_tests_cant": "all pairs", "anchors": ["cffi-interface/trace-db/TraceVarInfo.hpp:operator==", "cffi-interface/trace-db/TraceVarInfo.hpp:hash_value", "cffi-interface/trace-db/TypeDescription.hpp", "cffi-interface/trace-db/TraceBufferSize.hpp", "cffi-interface/trace-db/QueryObjects.hpp:Predicate"]}
{"id": "C44", "title": "Trace equality", "statement": "Two traces should compare equal only if they have the same content. The point comparison compares the data member with itself, so traces that differ in variables, buffer sizes and auxiliary values compare equal (and can hash differently); equality is exactly equality of names, types, counters and statements.", "quantifier": "all pairs of traces", "why_tests_cant": "all pairs; the round-trip unit tests rely on this operator and therefore cannot notice", "anchors": ["cffi-interface/trace-db/TracePoint.hpp:TracePoint::operator==", "cffi-interface/trace-db/Trace.hpp:operator=="]}
{"id": "C45", "title": "Concurrent add_trace calls", "statement": "If several threads add traces to one database concurrently, under every interleaving each successful call's trace is stored exactly once, earlier entries keep their index, and no trace is lost.", "quantifier": "every number of threads and every schedule", "why_tests_cant": "schedules", "anchors": ["cffi-interface/trace-db/TraceDB.hpp:addTrace", "cffi-interface/trace-db.cpp:add_trace"]}
{"id": "C46", "title": "Concurrent reads do not mix trace contents", "statement": "A trace read by one thread should contain only the values from its own stream. Auxiliary values pass through a static variable shared by all threads, so there is a schedule in which one trace receives the other's auxiliary value; traces without auxiliary entries are unaffected under every schedule.", "quantifier": "every pair of streams and every schedule", "why_tests_cant": "schedules", "anchors": ["cffi-interface/trace-db/TracePoint.hpp:TracePoint::read"]}
{"id": "C47", "title": "Threads of an instrumented program do not interleave inside a point", "statement": "When several threads of the instrumented program record points concurrently, under every schedule the stream is a sequence of complete points, each thread's points appear in its program order, and each recorded point occurs exactly once.", "quantifier": "every number of threads, programs and schedules", "why_tests_cant": "schedules", "anchors": ["instrumentation/c-cpp.lisp:__write_trace_id", "instrumentation/c-cpp.lisp:__write_end_entry"]}
{"id": "C48", "title": "Statement ids round trip", "statement": "Packing a file id below 2^23 and an AST id below 2^40 into a statement id and unpacking it gives back both; ids without file information unpack to the id alone.", "quantifier": "every pair of ids", "why_tests_cant": "2^63 ids", "anchors": ["instrumentation/c-cpp.lisp:get-ast-id", "binary-trace-db.lisp:statement unpacking"]}
{"id": "C49", "title": "File filter agrees with file ids", "statement": "Querying with a file id selects exactly the points recorded in that file. This holds when every id carries the file flag; with file id 0 the binary database also selects points without file information, unlike get-trace.", "quantifier": "every trace and file id", "why_tests_cant": "all ids", "anchors": ["binary-trace-db.lisp:query-trace", "binary-trace-db.lisp:get-trace"]}
{"id": "C50", "title": "Metadata stays attached to its trace", "statement": "The metadata returned with trace i is the metadata given when trace i was added. True for any sequence of add-trace; false when traces are added with add-trace-points, which prepends metadata while traces are appended. In the list-based database it always holds.", "quantifier": "every history of additions", "why_tests_cant": "histories", "anchors": ["binary-trace-db.lisp:add-trace", "binary-trace-db.lisp:add-trace-points", "sexp-trace-db.lisp:add-trace"]}
{"id": "C51", "title": "Predicate translation", "statement": "A predicate given as an s-expression is translated to a structure on which the query engine computes the truth value the s-expression denotes, for every assignment.", "quantifier": "every s-expression predicate of the documented grammar", "why_tests_cant": "all trees", "anchors": ["binary-trace-db.lisp:build-predicate", "cffi-interface/trace-db.cpp:create_predicate_obj"]}
{"id": "C52", "title": "Predicate memory", "statement": "free_c_predicate releases every block allocated for a predicate exactly once.", "quantifier": "every predicate tree", "why_tests_cant": "all trees", "anchors": ["cffi-interface/trace-db.cpp:free_c_predicate", "binary-trace-db.lisp:build-predicate"]}
{"id": "C53", "title": "Name and type tables are faithful", "statement": "For every sequence of requests the index handed out for a name (type) points at that name (type) in the emitted table, equal names share an index and different names never do. With the case-insensitive tables used for projects two names that differ in case share an index; with several instrumentation threads two names can receive the same index.", "quantifier": "every request sequence and schedule", "why_tests_cant": "histories and schedules", "anchors": ["instrumentation/c-cpp.lisp:get-name-index", "instrumentation/c-cpp.lisp:get-type-index", "instrumentation/c-cpp.lisp:initialize-tracing"]}
{"id": "C54", "title": "Opening a trace with a timeout", "statement": "Opening succeeds exactly when the file opens and becomes readable within the timeout, otherwise an error is reported. A file that cannot be opened should be an error; the code passes descriptor -1 on (undefined behaviour) and with timeout 0 waits forever.", "quantifier": "every outcome of the operating system calls", "why_tests_cant": "environment outcomes", "anchors": ["cffi-interface/trace-db/Utils.hpp:openWithTimeout"]}
{"id": "C55", "title": "Trace collection respects its budget", "statement": "collect-traces with num-traces n never leaves more than n traces in a binary database; test cases after the budget is exhausted signal an error instead of being skipped.", "quantifier": "every sequence of test cases and outcomes", "why_tests_cant": "histories", "anchors": ["traceable.lisp:collect-traces", "traceable.lisp:collect-test-case-traces"]}
{"id": "C56", "title": "Orderings", "statement": "The ordering on types and buffer sizes is a strict total order consistent with equality; the ordering on variable records is one only between non-blob records, and comparing a longer blob with a shorter one reads out of bounds.", "quantifier": "all pairs and triples", "why_tests_cant": "all values", "anchors": ["cffi-interface/trace-db/TypeDescription.hpp:operator<", "cffi-interface/trace-db/TraceBufferSize.hpp:operator<", "cffi-interface/trace-db/TraceVarInfo.hpp:operator<"]}
{"id": "C57", "title": "Re-writing a trace is stable", "statement": "Writing an accepted trace and reading it back once normalises it; doing so again changes nothing: write after read after write produces the same bytes. Only pointer buffer sizes can change in the first pass, namely for pointers recorded before a buffer-size entry of the same point.", "quantifier": "every accepted trace with representable types", "why_tests_cant": "all accepted inputs and entry orders", "anchors": ["cffi-interface/trace-db/TracePoint.hpp:TracePoint::write", "cffi-interface/trace-db/TracePoint.hpp:TracePoint::read"]}
{"id": "C58", "title": "The list-based and the binary database agree", "statement": "For the same recorded points, free variables and filter, the list-based database and the binary database return the same bindings, apart from the documented difference that the list-based one never binds two free variables to the same trace variable, and up to the case of names. The predicate and file of a query are only honoured by the binary one; to get the same bindings from the list-based one the filter has to express them. A type name that occurs twice in a trace, or not at all, is where they differ further.", "quantifier": "every trace and query in the common fragment", "why_tests_cant": "all queries", "anchors": ["sexp-trace-db.lisp:query-trace", "binary-trace-db.lisp:query-trace"]}
{"id": "C59", "title": "Pointers handed out by get_trace", "statement": "A pointer returned by get_trace keeps referring to the trace with that index. True while the traces added later fit into the capacity the vector had; once they do not, the vector is reallocated and using the pointer is undefined behaviour.", "quantifier": "every database and every history of later calls", "why_tests_cant": "whether a dangling pointer is noticed depends on the allocator and on how many traces happen to be added", "anchors": ["cffi-interface/trace-db.cpp:146-151", "cffi-interface/trace-db/TraceDB.hpp:46-52"]}
{"id": "C60", "title": "Type strings describe types", "statement": "Parsing the type string that the instrumentation writes for a type gives the type back in normal form (pointers before arrays, qualifiers, storage classes, then the rest, sizes only if they are integers); doing so again changes nothing; two types have the same string exactly if they have the same specifiers and the same declarators up to this normal form. The code does not keep more: an array of pointers and a pointer to an array have the same string, named sizes are lost and the order of specifiers changes.", "quantifier": "every type whose specifiers are single words", "why_tests_cant": "types are unbounded combinations of declarators and specifiers", "anchors": ["instrumentation/c-cpp.lisp:type-trace-string", "instrumentation/c-cpp.lisp:type-from-trace-string-common"]}
{"id": "C61", "title": "From instrumented program to trace", "statement": "Instrument any statements, run the program through them in any states that fit the types, and load what it wrote: there is one trace point per visit, with the statement and file visited, showing exactly the variables of supported types, the scalars before the strings, each with its name, its type string, its value and no size. For single files this determines the points completely; for projects names and types are the same up to case.", "quantifier": "every list of statements and variables, every sequence of visits and states, both kinds of tables", "why_tests_cant": "the tables depend on everything instrumented before, and values and orders are unbounded", "anchors": ["instrumentation/c-cpp.lisp:instrument-c-exprs", "instrumentation/c-cpp.lisp:type-format-and-size", "binary-trace-db.lisp:convert-trace-points"]}
{"id": "C62", "title": "Points as Lisp data", "statement": "For every trace stream that is read, whole, cut off or limited, what get-trace returns in Lisp shows the complete points of the stream in order: statement and file id, auxiliary values in order, and per variable its name, type, value by the format of its type (signed, unsigned, float bits, pointer, bytes) and the buffer size that follows from the allocation records before it. With a file id it returns exactly the points whose statement id belongs to that file.", "quantifier": "every header whose types have names, every body and split of it into points, every limit", "why_tests_cant": "streams, values and allocation histories are unbounded", "anchors": ["binary-trace-db.lisp:expand-from-foreign", "binary-trace-db.lisp:convert-trace-points", "binary-trace-db.lisp:get-trace", "cffi-interface/trace-db/Trace.hpp:Trace"]}
{"id": "C63", "title": "Points added from Lisp are returned", "statement": "Points given to add-trace-points as Lisp data become one new last trace, and get-trace returns for it the same points: same order, statement and file ids, names, types, buffer sizes, and the same values if they are below 2^63. Values from 2^63 on come back negative, auxiliary values are dropped, and values that are no integers from 0 to 2^64-1, also negative ones, are refused without adding anything.", "quantifier": "every list of points with ids in range and names without NUL, every database before", "why_tests_cant": "lists of points, tables of names and values are unbounded", "anchors": ["binary-trace-db.lisp:add-trace-points", "binary-trace-db.lisp:get-trace", "cffi-interface/trace-db.cpp:add_trace_points"]}
{"id": "C64", "title": "Instrumented functions do what they did, and announce each full statement", "statement": "The text of an instrumented function, as a compiler reads it, performs the same actions and evaluations in the same order with the same final state and end as before, and records a point with the id of the statement before each full statement that the filter accepts (and after it, if asked for), also with hanging bodies, labels, goto, switch and breaks. This fails where a labelled statement is the body of a switch, and where a filter accepts a statement after a label but not the labelled one that is a branch or body; and statements whose text starts with \"else\" have no points.", "quantifier": "every function body, every filter, all actions and conditions, all lengths of runs, also cut off or endless ones", "why_tests_cant": "statement trees, programs and runs are unbounded", "anchors": ["instrumentation/c-cpp.lisp:instrument", "instrumentation/c-cpp.lisp:can-be-made-traceable-p", "instrumentation/c-cpp.lisp:traceable-stmt-p", "instrumentation/c-cpp.lisp:wrap-before-after-asts"]}
{"id": "C65", "title": "Instrumenting a project", "statement": "Instrumenting a project goes through exactly its evolve files, those with a main function last; each gets its position as file number, also across the two loops, so that different statements have different ids. A program linked from them whose main is in any evolve file that comes no earlier than the files whose statements it passes, or in any other file of the project, writes a trace that loads and shows, for each statement passed, its number, file number and variables. The tables of a program do not cover files instrumented after the one with its main.", "quantifier": "every project of at most 2^23 files with ASTs numbered below 2^40, every run of every program of it", "why_tests_cant": "projects, statements, variables and runs are unbounded", "anchors": ["instrumentation/c-cpp.lisp:instrument", "instrumentation/c-cpp.lisp:instrumentation-files", "instrumentation/c-cpp.lisp:initialize-tracing"]}
{"id": "C66", "title": "Restricted and stored databases in Lisp", "statement": "Whatever is done with databases as Lisp objects - making them, restricting them (or restrictions) to files, adding files and points through any object, reading, querying, storing and restoring - every answer shows the points that lists of traces would show: restrictions show all traces of their database with their own file unless another one is asked for, and copies have the traces of the original at that time and are independent afterwards. If only files are added, and not through restrictions, every answer has the metadata given for its trace too. Additions through a restriction leave the database without the metadata, and later additions then give the trace theirs; storing a restriction loses it.", "quantifier": "every history of operations on any number of objects, within the counts of the formats", "why_tests_cant": "histories, numbers of objects, and nesting of restrictions and copies are unbounded", "anchors": ["binary-trace-db.lisp:restrict-to-file", "binary-trace-db.lisp:single-file-binary-trace-db", "binary-trace-db.lisp:add-trace", "binary-trace-db.lisp:get-trace", "binary-trace-db.lisp:query-trace", "cffi-interface/trace-db.cpp:serialize_trace_db"]}
{"id": "C67", "title": "Removing the instrumentation", "statement": "uninstrument after instrument gives back the tree of a file as it was, whatever filter, ids and functions were used and however blocks were put around branches and bodies, without setup code; instrumented-p holds in between and not afterwards; a file that was not instrumented is left as it is. But the compiler flag added by instrument stays, once more for each round, and in projects the setup code of other files with a main function stays although instrumented-p says no.", "quantifier": "every file, filter and numbering of statements, every project, any number of rounds", "why_tests_cant": "trees, filters and nestings of added blocks are unbounded", "anchors": ["instrumentation/c-cpp.lisp:uninstrument", "instrumentation/c-cpp.lisp:instrument", "instrumentation/c-cpp.lisp:instrumented-p", "instrumentation/instrument.lisp:uninstrument"]}
{"id": "C68", "title": "One trace per run through the handshake", "statement": "When the runs of an instrumented program follow one another, then in every interleaving with the collector no run uses a null pointer, each trace collected is what one run wrote from its beginning on, at most one trace per run and in the order of the runs, and the whole of it if the run came to its end. If the collector does not give up, every run that ended has its whole trace in the database or will have it at the collector's next step; if also no run is killed and no trace is cut, the database is exactly the whole traces of the first runs, and every run under way can be brought to its end. Two exceptions: a run that reads the handshake file while it is still empty waits forever, and a run that ends between removing the file and opening the pipe leaves the collector waiting. With runs at the same time traces can mix, a run can use a null pointer, and a run can remove the file meant for the next.", "quantifier": "every number of runs, every trace, every schedule of events", "why_tests_cant": "schedules are unbounded and the races have windows of microseconds; the rare ones end in a time-out that looks like a slow machine", "anchors": ["traceable.lisp:collect-test-case-traces", "instrumentation/c-cpp.lisp:+write-trace-initialization+"]}
{"id": "C69", "title": "Generated C text says what was meant", "statement": "For any statements whose variables have identifiers as names, the C text generated for them, split into tokens and read as C, is: for each call, the right function with as many arguments as its count says, and per variable its name index, type index, size on x86-64, format and the variable, or for strings strlen or length and the start of the string as fits the language; for the setup code, opening of the file or stream asked for (with quotes and backslashes in the name kept, and the handshake buffer if nothing is given), and tables of names and types equal to the ones built, with their numbers. A file given takes precedence over a variable of the environment. Exception: the name given as trace-env appears as a word, not as a string, so the code never opens the file named by that variable unless quotes are part of the argument; and a newline in a file name gives no C text.", "quantifier": "every list of statements and variables with any types, every file name, every table", "why_tests_cant": "text generation is checked by compiling a few programs; names with quotes or types over several lines, and the environment argument, are not among them", "anchors": ["instrumentation/c-cpp.lisp:instrument-c-exprs", "instrumentation/c-cpp.lisp:initialize-tracing", "instrumentation/c-cpp.lisp:write-trace-id", "instrumentation/c-cpp.lisp:write-end-entry", "instrumentation/c-cpp.lisp:+write-trace-initialization+"]}
{"id": "C70", "title": "Queries made by several threads at a time", "statement": "If the operations on the two caches a query uses are taken as indivisible: threads that query different traces, or with different statement filters, or with filters whose points are cached already, get exactly the answers they would get alone, whatever the schedule, provided an answer of a predicate is computed before its entry in the shared cache is made. Whatever the threads ask and in whatever order, no result is invented: each result stands for a point of the trace that passes the filter and a binding for which the hard predicate holds; nothing blocks; an uninterrupted query gets the right answer. Exceptions: when two threads use the same filter on a trace for which it is not cached, then for every k there is a schedule in which one of them gets the results of the first k points only, and a schedule in which one gets the results of all points twice; and if the entry is made before the answer is computed (which C++11 leaves open), a query loses results to a query of another trace with the same predicate.", "quantifier": "every number of threads, every query, every schedule, every contents of the caches", "why_tests_cant": "the tests query from one thread; wrong results need a switch between two particular map operations", "anchors": ["cffi-interface/trace-db/Trace.hpp:Trace::getPoints", "cffi-interface/trace-db/TracePoint.hpp:TracePointData::cachedSatisfiesPredicate", "cffi-interface/trace-db/Trace.hpp:Trace::query"]}
{"id": "C71", "title": "Foreign memory of Lisp queries", "statement": "A query made from Lisp that reaches the C interface gets, through the arrays and predicates it builds in foreign memory and the array of results it reads back, exactly the answer to the query that was written, and when it returns every block allocated on the way has been freed exactly once and no other block was touched; the same holds for reading back a whole trace. If an error is signalled after the call (by the filter or by a conversion) the arrays and predicates are freed but none of the results. If a type name is not in the trace, or a predicate is refused, nothing allocated so far is freed: the leak is exactly the array of free variables and the arrays of types up to the offending one, or all of them and what was built of the predicates. Failing queries therefore use up memory without bound.", "quantifier": "every trace, every query, every predicate expression, every filter, every contents of memory, every number of repetitions", "why_tests_cant": "the tests look at answers, not at memory; a leak of a few blocks for each failing query is not seen", "anchors": ["binary-trace-db.lisp:query-trace", "binary-trace-db.lisp:convert-trace-points", "binary-trace-db.lisp:build-predicate", "binary-trace-db.lisp:create-foreign-array", "cffi-interface/trace-db.cpp:query_trace"]}
{"id": "C72", "title": "List-based databases as objects", "statement": "A file of a list-based database gives the points at its beginning, up to the first nil, :eof or other end, and no more than asked for; one object more is taken from it, and if that cannot be read the error is signalled although the limit was reached. Databases keep their traces newest first; additions of nothing and failed additions change nothing; stored copies are independent; a restriction to a file shows, in every later history, the points of the file in the traces its parent had when it was made, and is not stored. Unrestricted databases give every trace its own metadata. A restriction gives the trace with an index the metadata its parent has for that index at the time of asking: its own as long as neither has been added to, but those of other traces after any addition to the parent, and metadata given with additions to a restriction are returned nowhere. The types of a trace are those of its variables, each once, and a query with pick is the query of one point, any of them.", "quantifier": "every history of operations on any number of databases and restrictions, every file contents and limit, with errors in between", "why_tests_cant": "restrictions go wrong only in histories that add after restricting, and the error is in the pairing of two lists, not in either of them", "anchors": ["sexp-trace-db.lisp:read-trace-stream", "sexp-trace-db.lisp:add-trace", "sexp-trace-db.lisp:restrict-to-file", "sexp-trace-db.lisp:get-trace", "sexp-trace-db.lisp:trace-metadata", "sexp-trace-db.lisp:query-trace"]}
{"id": "C73", "title": "Printing of predicates", "statement": "Printing a predicate ends the process exactly if >= or <= is printed, and otherwise gives a text. If every operator has operands and no operand is the null predicate, a reader of nested lists gets from the text the operator names, variables and numbers in the structure of the predicate, so predicates without floating point numbers are printed alike exactly if they are the same up to whether a number is held signed or unsigned. An operator without operands is not closed: as many closing parentheses are missing as there are such operators. The text ends in a newline exactly for variables and numbers, and is empty exactly for the null predicate.", "quantifier": "every predicate, of any depth and width, every way of printing doubles", "why_tests_cant": "nothing tests the printed form; the two comparisons that abort are used in queries but never printed, and ambiguity is a statement about all pairs", "anchors": ["cffi-interface/trace-db/QueryObjects.hpp:writePredicate", "cffi-interface/trace-db/QueryObjects.hpp:operator<<"]}
{"id": "C74", "title": "Readers while traces are being added", "statement": "Threads that count the traces of a database or look at one of them do not take the mutex that additions take. As long as the additions fit into the memory the vector of traces already has, this is harmless: in every interleaving the count lies between the number before and the number after, a trace that was there at the start is found, a trace that is found is the right one, and readers never wait. An addition on its own puts the trace at the end also when the vector has to grow. But when it is full - for a database filled from empty exactly when the number of its traces is a power of two - one addition is enough: for every thread looking at any trace there is an interleaving in which it uses freed memory, and for every thread counting the traces one in which it subtracts pointers into different blocks.", "quantifier": "every database, any number of additions and of readers, every interleaving of their steps", "why_tests_cant": "the bad interleavings depend on timing and on the capacity of the vector, and are often unnoticed when they happen", "anchors": ["cffi-interface/trace-db/TraceDB.hpp:addTrace", "cffi-interface/trace-db/TraceDB.hpp:getTraces", "cffi-interface/trace-db.cpp:get_trace", "cffi-interface/trace-db.cpp:n_traces", "cffi-interface/trace-db.cpp:query_trace"]}
{"id": "C75", "title": "The setup code of an instrumented file", "statement": "Instrumenting a file that has anything but blanks and comments in it succeeds, and its text is then, under whatever conditions its preprocessor directives are compiled: what stands before the first AST, the forward declarations, the program with the entry macro right before each declarator of main, the implementation, the initialization if there is such a declarator, and what stands after the last AST. After preprocessing the initialization, which defines the log variables and opens the trace, is there once if a declarator of main is compiled and otherwise not. So an executable has it exactly once if and only if exactly one of its files compiles such a declarator; a file that only declares main is one too many. If the file starts or ends with text that was not parsed, the code goes into it, and is lost where that text is inside a branch that is left out, also if main is compiled. A file with nothing in it is an error.", "quantifier": "every tree of ASTs, every choice of the conditions, every number of files of an executable", "why_tests_cant": "the tests instrument small files with one main and no preprocessor conditions around it; what is compiled depends on the configuration", "anchors": ["instrumentation/c-cpp.lisp:instrument", "instrumentation/c-cpp.lisp:initialize-tracing", "instrumentation/c-cpp.lisp:main-declarators", "instrumentation/c-cpp.lisp:concretize-error-ast", "instrumentation/c-cpp.lisp:prepend-instrumentation-setup-code", "instrumentation/c-cpp.lisp:append-instrumentation-setup-code"]}
{"id": "C76", "title": "Which variables in scope are recorded", "statement": "For any list of names in scope, the calls generated at a statement are made for exactly those entries, in order, that are declared as variables (not enumerators, functions, types or macros), have an identifier as name (one newline at its end is overlooked) that does not start with __attribute, and are not declared inside the parameter list of a function declarator nested below the child of their scope; each with the type of the first declarator of that name in its declaration, and with no such declarator nothing is recorded. Hence whatever names are in scope, each generated call reads as the call it should be. Of all parameters in the head of a function that returns no pointer exactly its own are taken, not those of functions that they point to; parameters in prototypes are never taken. Of a function that returns a pointer, however, no parameter is ever recorded, and of one that returns a pointer to a function the parameters of the latter are taken instead of its own. The statement found around an AST is the innermost one that is instrumented.", "quantifier": "every list of entries, every tree of ASTs, every declarator, every path", "why_tests_cant": "the tests have a few ordinary functions; declarators nest without bound, and names in scope come from any headers", "anchors": ["instrumentation/c-cpp.lisp:var-instrument", "instrumentation/c-cpp.lisp:var-instrument-p", "instrumentation/c-cpp.lisp:get-canonicalized-type", "instrumentation/c-cpp.lisp:+identifier-regex+", "instrumentation/c-cpp.lisp:enclosing-traceable-stmt"]}
{"id": "C77", "title": "Queries answer about the states of the program", "statement": "Instrument any single-file program, run it through any sequence of its statements in any states that fit the types, load the trace it writes, and query it with any predicate of the documented grammar and any free variables whose types are recorded somewhere, with or without file and filter. Provided that types that print alike are treated alike and no double is asked for, the query succeeds; each result is a statement visited (in the file), with variables recorded there of the types asked for, and the predicate is true of the values these variables had in that state; and for every such choice of variables at every visit there is a result with the same statement, names and types (up to case if a filter is given, and then no two results agree up to case). The conditions are needed: two string variables whose types have different marks share a type name and the query finds only the first, and a double equal to 1.0 is not found by a query for 1.0.", "quantifier": "every program (list of statements with variables), every run, every predicate, all types, files and filters", "why_tests_cant": "the tests of the database use hand-made traces and those of the instrumentation look at the trace only; no test relates query results to the states of a program", "anchors": ["instrumentation/c-cpp.lisp:instrument-c-exprs", "cffi-interface/trace-db/Trace.hpp:Trace::query", "binary-trace-db.lisp:query-trace", "binary-trace-db.lisp:build-predicate", "cffi-interface/trace-db/TracePoint.hpp:TracePoint::satisfiesPredicate"]}
{"id": "C78", "title": "Numbers computed for predicates are freed", "statement": "Evaluating a predicate allocates a number on the heap for every value computed. If the compiler omits the copies of values that functions return, or no part of the predicate has a missing value, then evaluation with these heap objects has exactly the outcome it has with plain values, whatever copies are made; every number allocated has been deleted once, no pointer is used wrongly, and the rest of the heap is unchanged. The same holds for whole queries. In any other case the only additional outcome is that a null pointer is followed. C++11 permits the copies, and if a compiler makes them, every comparison with a missing value (for example the size of a variable that has none) follows a null pointer instead of being false.", "quantifier": "every predicate object, all variables, every heap, every choice of how many copies are made at each return; every query on every trace", "why_tests_cant": "compilers omit the copies by default, so tests never see the copy constructor; leaks and double frees do not show in results", "anchors": ["cffi-interface/trace-db/QueryObjects.hpp:PredicateValue", "cffi-interface/trace-db/QueryObjects.hpp:evaluate_binary_op", "cffi-interface/trace-db/QueryObjects.hpp:EvaluatePredicate::evaluate", "cffi-interface/trace-db/QueryObjects.hpp:predicateSatisfied"]}
{"id": "C79", "title": "The trace of a multi-threaded program that dies", "statement": "Several threads record points concurrently and the program dies at an arbitrary moment; any first part of what it wrote, at least the header, reaches the file. Then the file holds complete points, which contain for each thread its first ones in program order, followed by a part of at most one further point, which is the next one of its thread. If the file ends between two entries, reading it returns exactly these complete points with the values that were recorded; otherwise it fails with the error for the end of the stream. If nothing that was written is lost, all points of every thread that has ended are returned. With a limit on the number of points, reading returns the first complete ones up to the limit, and fails only if the file ends inside an entry and has fewer complete points than the limit.", "quantifier": "all programs, numbers of threads, recorded values, schedules, moments of the crash, and positions of the cut after the header", "why_tests_cant": "crashes and schedules are not reproducible, and a test cannot cut the file at every byte for every interleaving", "anchors": ["instrumentation/c-cpp.lisp:__write_trace_id", "instrumentation/c-cpp.lisp:__write_end_entry", "cffi-interface/trace-db/Trace.hpp:Trace", "cffi-interface/trace-db/TracePoint.hpp:TracePoint"]}
{"id": "C80", "title": "Garbage collection and databases", "statement": "Whatever the garbage collector collects and whenever it does, a Lisp program that creates, restricts, copies, fills and queries databases and forgets about them has the same outcome and gets the same answers as if nothing were ever collected: no database is freed while an object through which it can be used is left, also not through restrictions of restrictions, and none is freed twice. However, no database is ever freed while the program runs: the finalizer registered for a database refers to the object it belongs to and keeps it alive, so that a program that has forgotten all its databases does not get their memory back. With a finalizer that refers to the pointer only it would, and the first part would still hold.", "quantifier": "all histories of operations, forgotten references and collections, all choices of what is collected", "why_tests_cant": "collections happen at arbitrary times, and a leak does not change any result", "anchors": ["binary-trace-db.lisp:initialize-instance", "binary-trace-db.lisp:restrict-to-file", "cffi-interface/trace-db.cpp:free_db"]}
{"id": "C81", "title": "Reading a trace without a database", "statement": "`read-binary-trace` returns the points that adding the same file to any database with `add-trace` and asking for the newest trace with `get-trace` returns, `nil` when adding fails, and has the same error, crash or endless wait otherwise; only timeouts of 2^31 seconds and more are accepted by the one and an error for the other. `nil` is also the result for a trace without points, so it does not tell failure. On return the file is closed and the converted arrays are freed, but the C++ trace object is not: each call that reads a trace leaves one allocated, so n calls leave n; a conversion error leaves the points allocated as well. The pointer returned by `read_trace` could be given to `free_trace` exactly once, after which nothing is left.", "quantifier": "all files, timeouts, limits, behaviours of the operating system, databases; any number of calls", "why_tests_cant": "leaks do not change results, and the timing of pipes and signals is not under the control of a test", "anchors": ["binary-trace-db.lisp:read-binary-trace", "cffi-interface/trace.cpp:read_trace", "cffi-interface/trace.cpp:free_trace", "binary-trace-db.lisp:add-trace"]}
{"id": "C82", "title": "Truncated database texts", "statement": "If bytes are missing at the end of the text made by `serialize_trace_db`, `deserialize_trace_db` throws, except that the very last value may be cut unnoticed: the size of the last type loses digits; or, if the last trace has no types, the last name gets NULs for its missing bytes; or, if it has points only, its last point gets other data. Which it is, and the result, is determined by the number of missing bytes. All other traces, the numbers of names, types and points and the statements are as saved whenever a text is accepted. If the size of the last type is a single digit, or the last trace is empty, or there is no trace, every shortened text is rejected.", "quantifier": "all databases made by the interface whose counts fit, all versions of the library, every number of missing bytes", "why_tests_cant": "all cut positions of all databases; the accepted ones depend on the last number only", "anchors": ["cffi-interface/trace-db.cpp:deserialize_trace_db", "cffi-interface/trace-db/TraceDB.hpp:load", "cffi-interface/trace-db/Trace.hpp:load", "cffi-interface/trace-db/TypeDescription.hpp:serialize", "cffi-interface/trace-db/TracePoint.hpp:TracePoint::serialize"]}
{"id": "C83", "title": "Instrumentation and conditional compilation", "statement": "For every setting of the conditions of `#if`, `#ifdef` and `#elif` in a function, preprocessing the instrumented function gives a text that compiles whenever the preprocessed original does, and that does the same steps with the same final state and end apart from the trace points. Groups may be nested, have several parts, and may end with the beginning of the plain statement that directly follows them. If all text was parsed and every group ends with a statement, then in every setting each action has its point directly before it. Nothing is ever put next to unparsed text or directly after a group that may end with a piece of a statement; the price is that a statement after a group with `#else` is never recorded. If a directive or another group comes between such a piece and its statement, the instrumented function does not compile.", "quantifier": "all function bodies, all nestings of groups, all settings of the conditions, all filters and ids, all actions and conditions of the program", "why_tests_cant": "exponentially many configurations of each function, and unbounded nesting of groups and statements", "anchors": ["instrumentation/c-cpp.lisp:possibly-incomplete-ast-p", "instrumentation/c-cpp.lisp:traceable-stmt-p", "instrumentation/c-cpp.lisp:can-be-made-traceable-p", "instrumentation/c-cpp.lisp:+traceable-parent-types+", "instrumentation/c-cpp.lisp:instrument"]}
{"id": "C84", "title": "Databases can be read without leaving the table of types", "statement": "Handing out points (get_points and the answers of query_trace) looks up the type of every variable without a check; it is defined exactly if the types exist. They exist in every database a program makes with the interface: by any sequence of add_trace (of any file), add_trace_points (with any points) and queries, and by storing the database as text and loading it again any number of times in between. So all points and all answers of queries of such a database can be handed out. A database loaded from any other text keeps the property if it has it. A text that lost its end and is loaded nevertheless is safe if its last trace has a name or a type; otherwise it need not be: a program that adds points twice has a text that is loaded without its last character and then read out of bounds. The names of types, which get_types looks up, are never checked.", "quantifier": "all histories of calls with all files and points, all storing and loading in between, all queries and evaluators, all texts, all positions of a cut, all heaps", "why_tests_cant": "histories, files and texts are unbounded; an access outside the table usually goes unnoticed in a test", "anchors": ["cffi-interface/trace.cpp:points_to_array", "cffi-interface/trace.cpp:get_types", "cffi-interface/trace-db.cpp:deserialize_trace_db", "cffi-interface/trace-db.cpp:add_trace_points", "cffi-interface/trace-db.cpp:query_trace"]}
{"id": "C85", "title": "Points of a program that forks are complete and in order", "statement": "A program that records a point before it forks for the first time, and whose later points fit into the buffer of its stream, writes a readable trace: at every moment the file holds either a part of the header and the first point, or the header and complete points of its processes, each process in its own order, and reading it gives just these points; processes may fork again, be scheduled in any way and be killed at any time. If nobody is killed, at the end every point of every process has been recorded once, and such an end is always reachable. Both conditions are needed: a program that forks before its first point writes the unflushed header twice and its trace cannot be read, and larger points are written in pieces that mix with the points of other processes, so that points are read that nobody recorded. The buffer sizes of pointers do mix: a pointer of one process is looked up among the buffers of all of them.", "quantifier": "all programs with any tree of forks, all points and values, all schedules, all sets of killed processes at any time, all buffer sizes", "why_tests_cant": "schedules, trees of processes and moments of death are unbounded; what is in a buffer when a process forks depends on all that it did before", "anchors": ["instrumentation/c-cpp.lisp:+write-trace-implementation+", "cffi-interface/trace.cpp:read_trace"]}
{"id": "C86", "title": "Traces of programs that cannot write all of them", "statement": "The runtime never looks whether writing succeeded. If writing fails at some moment and nothing can be written from then on, the file holds a first part of what would have been written, and if it contains the header and can be read, the result are exactly the first points that are in the file completely. If writing fails only for a time, after the first point was written and with points that fit into the buffer, and a failing write loses the whole buffer, reading gives the first point and a subsequence of the others. Each condition is needed: if the write of the first point fails, the header is lost and the trace cannot be read; if a failing write wrote a part of a point, points and buffers are read that nobody recorded. When points are lost, the buffer sizes of later pointers can be wrong: a pointer is said to lie in a buffer that no longer contains it.", "quantifier": "all programs and points, all moments and kinds of failures, all buffer sizes, being killed at any time", "why_tests_cant": "failures of writes cannot be produced at every byte in a test, and programs are unbounded", "anchors": ["instrumentation/c-cpp.lisp:+write-trace-implementation+", "cffi-interface/trace.cpp:read_trace"]}
{"id": "C87", "title": "Opening a list-based trace with a timeout", "statement": "Opening a file with a timeout returns the stream, or signals the error that opening it signalled, if opening ends before the timeout or there is none, however long the sleeps take. It returns nil only after the timeout and only if opening had not ended when the thread was destroyed. If the file is never opened, nil is returned at the deadline, up to one sleep that took too long and the time to destroy the thread; without a timeout the function never returns. Reading a list-based trace that opens in time reads its points and closes the file; the file is left open exactly if the thread was destroyed after it had opened the file and before it could return it, which happens, and then the trace is read as empty.", "quantifier": "all times of opening the file and of the end of the thread, all timeouts (also negative), all lengths of sleeps", "why_tests_cant": "timing is not under the control of a test", "anchors": ["sexp-trace-db.lisp:open-file-timeout", "sexp-trace-db.lisp:read-sexp-trace"]}
{"id": "C88", "title": "Signals in instrumented programs", "statement": "If no signal with an instrumented or non-returning handler interrupts a thread within a point, then at any time the trace consists of the header, the whole points recorded so far, in an order that respects every thread with the points of handlers where the thread was interrupted, and a part of the point being written; all threads can still end; and the trace read once they have ended holds these points. If such a signal interrupts a thread within a point, nothing is written any more, whatever happens; neither that thread nor any other thread with points left ever ends, unless a handler leaves by longjmp; and this happens.", "quantifier": "all programs, numbers of threads, interleavings, signals, nested handlers and non-local exits", "why_tests_cant": "the moment at which a signal arrives is not under the control of a test, and a deadlock cannot be told from a slow program by running it", "anchors": ["instrumentation/c-cpp.lisp:__write_trace_id", "instrumentation/c-cpp.lisp:__write_end_entry"]}
{"id": "C89", "title": "Memory while traces are added", "statement": "add_trace, when any of its allocations may fail: it answers as with enough memory, or answers 0 with the database unchanged, or stores through a null pointer, the latter two only if one of its own allocations failed. After a call that returns, the stream, its buffer and all nodes of the memory map are freed and no earlier block is touched; what a successful call leaves behind is one block for each non-empty blob of the added trace and of a point that the end of the file cut off, and nothing for a cut point if all wanted points were read; what a failing call leaves is blobs, or the buffer of names (only if the file ended within its first 8 bytes or an allocation failed), or blobs and one node (only if an allocation failed). Adding a trace to a new database and freeing the database leaves its blobs each time, so n rounds leave at least n times as many blocks.", "quantifier": "all files, databases, limits, random heights, sets of failing allocations and memory contents before", "why_tests_cant": "there are as many ways for memory to run out as there are sets of allocations, and a leak does not change any answer", "anchors": ["cffi-interface/trace-db.cpp:add_trace", "cffi-interface/trace-db/Trace.hpp:read", "cffi-interface/trace-db/TraceVarInfo.hpp:read", "cffi-interface/trace-db/MemoryMap.hpp:skipListUpdate"]}
{"id": "C90", "title": "Size of a trace and of its file", "statement": "A trace that add_trace/read_trace accept is no bigger than its file: each name, type, point, allocation record, auxiliary value, variable and byte of a value has its own bytes in the file. Saving the trace again at most doubles its size if every point has a statement. The memory asked for while reading is not bounded by the file: 8 bytes make the reader ask for any number of bytes below 2^63, 12 bytes for up to 2^32-1 types, and 39 bytes for a blob of any length below 2^32, which is used even if it could not be allocated.", "quantifier": "all byte streams, limits and machines; all requested lengths", "why_tests_cant": "the bound has to hold for every malformed file, and a test cannot wait for allocations of every size", "anchors": ["cffi-interface/trace-db/Trace.hpp:read", "cffi-interface/trace-db/Trace.hpp:write", "cffi-interface/trace-db/TracePoint.hpp:read", "cffi-interface/trace-db/TraceVarInfo.hpp:read"]}
{"id": "C91", "title": "Programs with threads that fork", "statement": "In a program with threads and child processes (created by any thread, to any depth) that records a point before it forks or creates threads, and whose points fit in the buffer of the stream, as long as no thread forks or ends its process while another thread of the process is recording a point: under every schedule and whichever processes are killed, the file holds complete points of the threads, each thread in its own order, and reading it gives just these; if nobody is killed and processes end after their threads, every point of every thread is there once; and everything can always still end. Without the condition: a child that was forked while another thread was recording a point waits for ever at its own first point, since it has a copy of the locked mutex but not the thread that would unlock it; a child that records nothing writes a copy of the incomplete point when it exits, and the trace cannot be read.", "quantifier": "all trees of threads and processes, all points, all schedules, kills and pieces in which overfull buffers are written", "why_tests_cant": "the moment of the fork within a point of another thread decides, and schedules cannot be enumerated", "anchors": ["instrumentation/c-cpp.lisp:__write_trace_id", "instrumentation/c-cpp.lisp:__write_end_entry", "instrumentation/c-cpp.lisp:__bi_setup"]}
{"id": "C92", "title": "Foreign memory of adding points and storing databases from Lisp", "statement": "add-trace-points builds arrays of variables, points and names in foreign memory and passes their addresses to C. For all points whose names and variables can be counted in 32 bits, and whatever memory there is: C reads only elements that were stored, so the result (success or error) is what it is when the points are passed by value (C63). Nothing that is allocated is ever freed: an addition leaves a block for each point and each name and two more, with exactly the given number of bytes; an error leaves the arrays of the points before the one at fault, and the array of that point too if its values are numbers that do not fit, and all arrays if a statement does not fit. Storing a database gives a string that restores it and leaves the block C allocated for it; if malloc fails, C writes to NULL. After any history of additions and storings the memory holds everything all of them allocated.", "quantifier": "all lists of points, values, names, databases, contents of memory, histories of additions and storings, and sizes malloc refuses", "why_tests_cant": "a leak is invisible to tests of results, and its size depends on all points; where an error leaves memory depends on the values", "anchors": ["binary-trace-db.lisp:add-trace-points", "binary-trace-db.lisp:create-foreign-array", "cffi-interface/trace-db.cpp:add_trace_points", "cffi-interface/trace-db.cpp:serialize_trace_db"]}
{"id": "C93", "title": "Queries with pick from Lisp", "statement": "query-trace with :pick draws a random number below 2^32 and passes it as the seed. For every number but 0 the answer is that of the same query without pick on a trace with a single point: one of the points the query is about (those of its file), if there is one; which one does not depend on types, predicates or filter. Each result has the statement, names and types of a result of the query without pick (up to case, with a filter), but not always the values, since the query without pick returns one of several bindings of the same variables at a statement. If the list-based database picks the same point it returns the same results up to case, except for bindings of one variable twice. The number 0 means no pick: all results are returned.", "quantifier": "all traces, queries, files, evaluators, random numbers, and generators of positions", "why_tests_cant": "the answer is random; the case of the number 0 has probability 2^-32", "anchors": ["binary-trace-db.lisp:query-trace", "sexp-trace-db.lisp:query-trace", "cffi-interface/trace-db/Trace.hpp:query"]}
{"id": "C94", "title": "The documented trace format", "statement": "The manual describes traces with a 16-bit character count, a 16-bit type count, 32-bit statement ids and 16-bit sizes of values of variable size. No trace in that format with a non-empty name is read with its names, whatever else it contains; files below 64 KiB whose first name is not empty are always refused. The other three fields are wrong too: a file that differs from what the reader wants only in the type count is never read with its types (unless all are the all-zero type); a file that differs only in the statement id of a last point, or only in the size of the last value, is refused as a whole. In other places such a statement is read as another one together with further points.", "quantifier": "all names, types, points, values, environments, limits, and whatever follows in the file", "why_tests_cant": "tests read what the writer or the instrumenter wrote, not what the manual describes; the claim is about all files", "anchors": ["doc/trace-database-component.texi:Binary Trace Format", "cffi-interface/trace-db/Trace.hpp:Trace::read", "cffi-interface/trace-db/TracePoint.hpp:TracePoint::read", "cffi-interface/trace-db/TraceVarInfo.hpp:TraceVarInfo::read"]}
{"id": "C95", "title": "What queries evaluate and what they leave behind", "statement": "A query evaluates, at each point that passes the filter (or at the one point chosen by the seed), the hard predicate exactly once for every binding, in the order of the results, and then each soft predicate once for every hard result; nothing else. So without soft predicates the number of evaluations is the sum over the points of the product of the numbers of candidates. The process-wide predicate cache never loses an entry, gains at most one per evaluation, and keeps the hash of every key ever evaluated, also when the traces are gone; if the hashes differ, a session over n traces leaves n entries, for every n. The filter cache of a trace has one entry for each different (mask, statement) ever asked for, each holding all points that pass: n masks that let everything pass keep the trace n times.", "quantifier": "all traces, queries, evaluators (with or without cache), histories of filter requests, sessions, hash functions, outcomes of comparing dead keys", "why_tests_cant": "tests look at results, not at how often predicates are evaluated or what stays in memory; the growth is unbounded", "anchors": ["cffi-interface/trace-db/Trace.hpp:collectResultsAtPoint", "cffi-interface/trace-db/Trace.hpp:getPoints", "cffi-interface/trace-db/Trace.hpp:query", "cffi-interface/trace-db/TracePoint.hpp:cachedSatisfiesPredicate"]}
{"id": "C96", "title": "What collecting traces leaves behind", "statement": "However collect-traces is left, no pipe and no handshake file stays. The binary is there afterwards exactly if it was there before, or if the compilation made it and then signalled an error (missing-bin is evaluated outside unwind-protect). A process is left running exactly when the collection ends by an error in add-trace or, for list-based traces, by the error about a test case without traces. The old traces are replaced, also when the collection ends in an error, by what the test cases that were run provide, in order, with the test case in their metadata, up to the number asked for (binary traces) or one for each (list-based, whatever the number). If compiling fails the restarts leave the traces or drop them all. A compiler that returns without making the binary is run once more for every test case.", "quantifier": "all outcomes of compiling, starting, handshakes and adding traces, all choices of restarts, all budgets, all numbers of test cases, both kinds of traces", "why_tests_cant": "failing compilers, tests that cannot be started and errors in the middle of a collection are not tested, nor is what remains on disk or running", "anchors": ["traceable.lisp:with-possibly-existing-bin", "traceable.lisp:collect-traces", "traceable.lisp:collect-test-case-traces", "traceable.lisp:reset-traces"]}
{"id": "C97", "title": "A process with several databases", "statement": "A process that makes databases, adds traces and points, counts, queries, stores, loads and frees, in any order, does exactly what lists of traces would do: same answers (up to addresses of traces), same traces at the end, and it fails exactly when and how the lists say; this with the caches of filtered points, the reallocations of vectors and the predicate cache shared by all databases, as long as keys with different outcomes have different hashes. So each database holds what it was made with and what was added to it, whatever happens to the others; a text stored and loaded later gives the traces of the time of storing; and no run that uses a freed database goes on to its end.", "quantifier": "all sequences of calls on any number of databases, all traces, queries, predicates, growth policies and random numbers, all hashes without such collisions", "why_tests_cant": "tests use one database at a time; histories that mix databases, storing and freeing with one shared cache are unbounded", "anchors": ["cffi-interface/trace-db.cpp:create_db", "cffi-interface/trace-db.cpp:free_db", "cffi-interface/trace-db.cpp:add_trace", "cffi-interface/trace-db.cpp:add_trace_points", "cffi-interface/trace-db.cpp:query_trace", "cffi-interface/trace-db.cpp:serialize_trace_db", "cffi-interface/trace-db.cpp:deserialize_trace_db", "cffi-interface/trace-db/TracePoint.hpp:cachedSatisfiesPredicate"]}
{"id": "C98", "title": "From the text of a program to its trace and queries", "statement": "Instrument all functions of a file. What a compiler reads then behaves like the original program, wherever functions call each other and whether it returns, exits or is cut off: it leaves the same states, and before (and after) each full statement selected by the filter it passes a trace point in the state at that time, in the order of execution across all calls. For each point passed there is exactly one place in the generated code. If the code at these places is executed in those states, the trace can be loaded and shows one trace point for each point passed, in order, with its statement, file and variables with their values in that state; and queries answer exactly about those states.", "quantifier": "all programs of any number of functions with any actions, conditions and values calling any functions in any order, all filters, all states and runs (any bounds on loops, jumps and calls), all variables and queries", "why_tests_cant": "the chain has five links (instrumentation, compiler, run, trace reader, query engine), and tests check one or two of them on a few fixed programs", "anchors": ["instrumentation/c-cpp.lisp:instrument", "instrumentation/c-cpp.lisp:get-ast-ids-ht", "instrumentation/c-cpp.lisp:can-be-made-traceable-p", "instrumentation/c-cpp.lisp:instrument-c-exprs", "trace-db.lisp:get-trace", "trace-db.lisp:query-trace"]}
{"id": "C99", "title": "From the text of a project of several files to its trace and queries", "statement": "Instrument all functions in all files of a project. The program that results passes the points of its functions as the original executes its statements (C98), across files; each point has exactly one place in the code generated for its file, which carries the file's number: files without `main` first. For a program whose `main` is in a file instrumented no earlier than the files it passes through, or in a file not otherwise instrumented, the trace can be loaded, shows each point passed in order with statement, file and variables with their values (names and types up to case), and queries for types in its tables, by file or over all files, answer exactly about the points shown. Type names that differ only in case are merged: a query for one of them may be an error although variables of that type are recorded.", "quantifier": "all projects of any number of files and functions with any calls between them, all filters, states and runs, all variables, predicates and queries with or without file and filter", "why_tests_cant": "the project's tests have projects of one or two tiny files and check that traces are not empty; numbers of files, shared tables and the order of files only matter in combination", "anchors": ["instrumentation/c-cpp.lisp:instrument", "instrumentation/c-cpp.lisp:instrument-c-exprs", "instrumentation/c-cpp.lisp:initialize-tracing", "trace-db.lisp:get-trace", "trace-db.lisp:query-trace"]}
