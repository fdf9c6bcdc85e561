{
 "claims": [
  {
   "property": "C01",
   "status": "proved",
   "theorems": [
    "TraceDB.C01_write_read_round_trip",
    "TraceDB.C01_conditions_needed",
    "TraceDB.C01_exactly_representable"
   ],
   "note": "round trip for all representable traces; the second theorem gives counterexamples for the omitted conditions"
  },
  {
   "property": "C02",
   "status": "proved",
   "theorems": [
    "TraceDB.C02_recorded_is_read",
    "TraceDB.C02_values_exact",
    "TraceDB.C02_sizes_matter"
   ],
   "note": "The runtime of the instrumentation (header, ids, scalars, blobs, buffer sizes) with C argument passing for variadic calls on x86-64. Conditions: values of their declared types, no signalling NaN among floats, indices in the tables, the reserved address is not freed more often than allocated, memory suffices. C02_sizes_matter shows that a size without a case in the runtime breaks the stream."
  },
  {
   "property": "C03",
   "status": "proved",
   "theorems": [
    "TraceDB.C03_cut_trace_yields_complete_points"
   ],
   "note": "every cut position after the header; the case of failing reads is characterised by C04"
  },
  {
   "property": "C04",
   "status": "proved",
   "theorems": [
    "TraceDB.C04_cut_position_decides"
   ],
   "note": "the error is end-of-file, or the trace error when the stream ends with an I/O error"
  },
  {
   "property": "C05",
   "status": "proved",
   "theorems": [
    "TraceDB.C05_cut_header",
    "TraceDB.C05_truncated_headers_accepted"
   ],
   "note": "exact outcome for every cut position; the natural claim (all cuts rejected) is false and its negation is proved"
  },
  {
   "property": "C06",
   "status": "proved",
   "theorems": [
    "TraceDB.C06_reading_terminates"
   ],
   "note": ""
  },
  {
   "property": "C07",
   "status": "proved",
   "theorems": [
    "TraceDB.C07_no_undefined_behaviour",
    "TraceDB.C07_conditions_needed"
   ],
   "note": "defined behaviour under explicit conditions, and a witness input for each condition"
  },
  {
   "property": "C08",
   "status": "proved",
   "theorems": [
    "TraceDB.C08_limit_is_prefix",
    "TraceDB.C08_limit_ignores_damage"
   ],
   "note": ""
  },
  {
   "property": "C09",
   "status": "proved",
   "theorems": [
    "TraceDB.C09_variables_valid"
   ],
   "note": ""
  },
  {
   "property": "C10",
   "status": "proved",
   "theorems": [
    "TraceDB.C10_get_types",
    "TraceDB.C10_accepted_trace_without_type_name"
   ],
   "note": "the reader accepts traces on which get_types is undefined (second theorem)"
  },
  {
   "property": "C100",
   "status": "proved",
   "theorems": [
    "TraceDB.C100_queries",
    "TraceDB.C100_in_turn",
    "TraceDB.C100_one_file",
    "TraceDB.C100_up_to_indices",
    "TraceDB.C100_wrong_name",
    "TraceDB.C100_invented_points"
   ],
   "note": "C100_queries assumes that no two threads are storing at once; C100_wrong_name and C100_invented_points show orders where this fails and what the traces then show. C100_up_to_indices holds for all orders."
  },
  {
   "property": "C101",
   "status": "proved",
   "theorems": [
    "TraceDB.C101_queries"
   ],
   "note": "combines C100, C79, C47 and C99; projects without instrumentation threads are covered by C100_in_turn."
  },
  {
   "property": "C102",
   "status": "proved",
   "theorems": [
    "TraceDB.C102_queries",
    "TraceDB.C102_kept"
   ],
   "note": "combines C101 (with a limit on the points read) with C66."
  },
  {
   "property": "C103",
   "status": "proved",
   "theorems": [
    "TraceDB.C103_queries",
    "TraceDB.C103_all"
   ],
   "note": "combines C96 and C102; what an attempt reads is a file left by a run (C68 for the handshake)."
  },
  {
   "property": "C104",
   "status": "proved",
   "theorems": [
    "TraceDB.C104_queries",
    "TraceDB.C104_databases"
   ],
   "note": "combines C71, C101 and C102 with the selection by soft predicates; rows of one point with equal values count as one answer."
  },
  {
   "property": "C105",
   "status": "proved",
   "theorems": [
    "TraceDB.C105_queries"
   ],
   "note": "combines C91 and C104; the conditions on points and forks are those of C91, where they are shown to be needed."
  },
  {
   "property": "C106",
   "status": "proved",
   "theorems": [
    "TraceDB.C106_queries"
   ],
   "note": "combines C88, C79 and C104; no condition on when signals come: after the first one within a point nothing is written any more (C88)."
  },
  {
   "property": "C107",
   "status": "proved",
   "theorems": [
    "TraceDB.C107_same_runs",
    "TraceDB.C107_queries",
    "TraceDB.C107_cold",
    "TraceDB.C107_repeated",
    "TraceDB.C107_race_free",
    "TraceDB.C107_vector",
    "TraceDB.C107_adding"
   ],
   "note": "a race is taken as two conflicting accesses that some sequentially consistent interleaving makes adjacent; operator[] counts as a change only if it inserts (libstdc++). The interleaved programs are those of C70 (C107_same_runs) and C45. Sharing of interned records is protected by locks of boost and not part of this; get_trace and n_traces while adding is C74."
  },
  {
   "property": "C108",
   "status": "proved",
   "theorems": [
    "TraceDB.C108_layout_rules",
    "TraceDB.C108_structures",
    "TraceDB.C108_arguments",
    "TraceDB.C108_calls_taken",
    "TraceDB.C108_negative_timeout",
    "TraceDB.C108_results",
    "TraceDB.C108_points",
    "TraceDB.C108_get_trace",
    "TraceDB.C108_types"
   ],
   "note": "memory is a byte at every address, little-endian; blocks come from any allocator that hands out addresses not in use, below 2^64 and not 0, or fails. C++ objects are not laid out as bytes except the names (with NUL) and the blobs the exported pointers point to. A failed allocation is a write through a null pointer (C36). What is freed is C36 and C71."
  },
  {
   "property": "C109",
   "status": "proved",
   "theorems": [
    "TraceDB.C109_predicates",
    "TraceDB.C109_refused",
    "TraceDB.C109_free_variables",
    "TraceDB.C109_query",
    "TraceDB.C109_failures"
   ],
   "note": "memory as in C108. The cells for the results and the array of soft predicates come from the same allocator as everything else, though Lisp may put them on its stack. The filter is a total function on points. What is freed afterwards is C36 and C71. The number of results times 40 must be below 2^64."
  },
  {
   "property": "C11",
   "status": "proved",
   "theorems": [
    "TraceDB.C11_invalid_tag_rejected"
   ],
   "note": ""
  },
  {
   "property": "C110",
   "status": "proved",
   "theorems": [
    "TraceDB.C110_strings",
    "TraceDB.C110_points",
    "TraceDB.C110_points_returned",
    "TraceDB.C110_store",
    "TraceDB.C110_store_restore",
    "TraceDB.C110_restore"
   ],
   "note": "memory as in C108; a Lisp string is its encoding. What is freed afterwards is C92 and C71. The text of the archive is C40."
  },
  {
   "property": "C111",
   "status": "proved",
   "theorems": [
    "TraceDB.C111_size",
    "TraceDB.C111_data_exist",
    "TraceDB.C111_known_data"
   ],
   "note": "the archive format is the one of C40."
  },
  {
   "property": "C112",
   "status": "proved",
   "theorems": [
    "TraceDB.C112_new",
    "TraceDB.C112_session",
    "TraceDB.C112_one_meaning",
    "TraceDB.C112_stored",
    "TraceDB.C112_bad_index",
    "TraceDB.C112_negative"
   ],
   "note": "memory as in C108. Freeing what calls allocate is part of 'whatever else happens' here; that it frees exactly that is C71 and C92. Blobs get a new place with their trace when the vector grows (in C++ they are shared, so they would stay)."
  },
  {
   "property": "C113",
   "status": "proved",
   "theorems": [
    "TraceDB.C113_predicates",
    "TraceDB.C113_nan",
    "TraceDB.C113_query",
    "TraceDB.C113_division",
    "TraceDB.C113_doubles_zero"
   ],
   "note": "what is assumed of boost's cpp_dec_float_50 is the structure DecimalFloats in Spec/Floats.lean, a hypothesis of the theorems (not an axiom); an example library that rounds is shown to satisfy it. Nothing is assumed or said about the value of quotients. The last part is a defect of the code."
  },
  {
   "property": "C114",
   "status": "proved",
   "theorems": [
    "TraceDB.C114_right",
    "TraceDB.C114_cut",
    "TraceDB.C114_lost",
    "TraceDB.C114_nothing_invented",
    "TraceDB.C114_wrong_answer_early"
   ],
   "note": "a property of the C++ interface: through the C functions the exception ends the process. The positive parts are for compilers that compute the answer first; C114_lost and C114_wrong_answer_early are defects. A failed allocation is possible before every step of the model (also where the code makes none), so the statements cover more failures than can happen."
  },
  {
   "property": "C115",
   "status": "proved",
   "theorems": [
    "TraceDB.C115_for_a_time",
    "TraceDB.C115_for_ever",
    "TraceDB.C115_torn"
   ],
   "note": "composition of C86 with C101-C106; C115_torn shows that the assumption on failing writes is needed. One process with one thread."
  },
  {
   "property": "C116",
   "status": "proved",
   "theorems": [
    "TraceDB.C116_for_ever",
    "TraceDB.C116_for_a_time",
    "TraceDB.C116_kept",
    "TraceDB.C116_exit_while_recording"
   ],
   "note": "generalises C115 to several threads; C116_exit_while_recording shows that the exception for `exit` is needed. One process."
  },
  {
   "property": "C117",
   "status": "proved",
   "theorems": [
    "TraceDB.C117_errors",
    "TraceDB.C117_ends",
    "TraceDB.C117_meaning",
    "TraceDB.C117_caches",
    "TraceDB.C117_kept",
    "TraceDB.C117_programs",
    "TraceDB.C117_filter",
    "TraceDB.C117_filter_function",
    "TraceDB.C117_metadata_of_others"
   ],
   "note": "operations on objects as in C66; memory lost by errors in filters is C71's matter. C117_metadata_of_others is the violation found."
  },
  {
   "property": "C118",
   "status": "proved",
   "theorems": [
    "TraceDB.C118_queries",
    "TraceDB.C118_kept",
    "TraceDB.C118_collections",
    "TraceDB.C118_all"
   ],
   "note": "as C66, C96, C101, C105, C106, C115 and C116; the kinds are not mixed within one run."
  },
  {
   "property": "C119",
   "status": "proved",
   "theorems": [
    "TraceDB.C119_runs",
    "TraceDB.C119_same_behaviour",
    "TraceDB.C119_unrecorded"
   ],
   "note": "statements as in C64; functions inside functions are not modelled. C119_unrecorded is the violation found."
  },
  {
   "property": "C12",
   "status": "proved",
   "theorems": [
    "TraceDB.C12_integers_exact",
    "TraceDB.C12_bad_signed_size_rejected"
   ],
   "note": ""
  },
  {
   "property": "C120",
   "status": "proved",
   "theorems": [
    "TraceDB.C120_programs",
    "TraceDB.C120_filters"
   ],
   "note": "as C117 and C118."
  },
  {
   "property": "C121",
   "status": "proved",
   "theorems": [
    "TraceDB.C121_counts",
    "TraceDB.C121_names",
    "TraceDB.C121_store_again",
    "TraceDB.C121_used",
    "TraceDB.C121_padded_lost"
   ],
   "note": "for all texts; tracked objects are simplified (see the comment on loadObject)."
  },
  {
   "property": "C122",
   "status": "proved",
   "theorems": [
    "TraceDB.C122_and",
    "TraceDB.C122_or",
    "TraceDB.C122_not",
    "TraceDB.C122_statements",
    "TraceDB.C122_soft",
    "TraceDB.C122_soft_hard",
    "TraceDB.C122_duplicates_removed"
   ],
   "note": "for all well-formed predicates; the duplicates case is a concrete counterexample."
  },
  {
   "property": "C123",
   "status": "proved",
   "theorems": [
    "TraceDB.C123_types",
    "TraceDB.C123_unused",
    "TraceDB.C123_order",
    "TraceDB.C123_points",
    "TraceDB.C123_types_soft"
   ],
   "note": "for all well-formed predicates; the case of soft predicates with more types is a concrete counterexample."
  },
  {
   "property": "C124",
   "status": "proved",
   "theorems": [
    "TraceDB.C124_order",
    "TraceDB.C124_other_order"
   ],
   "note": "for all permutations and well-formed predicates; that the order of the answers can differ is a concrete case."
  },
  {
   "property": "C125",
   "status": "proved",
   "theorems": [
    "TraceDB.C125_statements",
    "TraceDB.C125_types",
    "TraceDB.C125_unused",
    "TraceDB.C125_points",
    "TraceDB.C125_connectives",
    "TraceDB.C125_soft",
    "TraceDB.C125_order"
   ],
   "note": "for all well-formed predicates; which of the laws without removal fail here is shown by `C122_duplicates_removed`."
  },
  {
   "property": "C126",
   "status": "proved",
   "theorems": [
    "TraceDB.C126_rewrite",
    "TraceDB.C126_decimal",
    "TraceDB.C126_limits"
   ],
   "note": "for all predicates connected by the laws; the limits are concrete cases; `C126_decimal` meets the hypothesis about comparisons for the decimal floats of C113."
  },
  {
   "property": "C127",
   "status": "proved",
   "theorems": [
    "TraceDB.C127_query",
    "TraceDB.C127_session",
    "TraceDB.C127_lisp"
   ],
   "note": "for all sensible queries; predicates from Lisp are already built."
  },
  {
   "property": "C128",
   "status": "proved",
   "theorems": [
    "TraceDB.C128_unused",
    "TraceDB.C128_points"
   ],
   "note": "with C124 the added variable may be at any place."
  },
  {
   "property": "C13",
   "status": "proved",
   "theorems": [
    "TraceDB.C13_counters_consecutive"
   ],
   "note": ""
  },
  {
   "property": "C14",
   "status": "proved",
   "theorems": [
    "TraceDB.C14_buffer_sizes_follow_history"
   ],
   "note": ""
  },
  {
   "property": "C15",
   "status": "proved",
   "theorems": [
    "TraceDB.C15_lookup_refines_history",
    "TraceDB.C15_find_is_nearest_lower",
    "TraceDB.C15_spec_functional"
   ],
   "note": "pointer-level skip list against the history specification"
  },
  {
   "property": "C16",
   "status": "proved",
   "theorems": [
    "TraceDB.C16_undefined_iff_overfreed",
    "TraceDB.C16_reserved_records_unobservable"
   ],
   "note": ""
  },
  {
   "property": "C17",
   "status": "proved",
   "theorems": [
    "TraceDB.C17_levels_unobservable",
    "TraceDB.C17_reading_ignores_randomness"
   ],
   "note": ""
  },
  {
   "property": "C18",
   "status": "proved",
   "theorems": [
    "TraceDB.C18_size_within_allocation",
    "TraceDB.C18_inside_is_answered",
    "TraceDB.C18_outside_is_unknown"
   ],
   "note": ""
  },
  {
   "property": "C19",
   "status": "proved",
   "theorems": [
    "TraceDB.C19_freed_base_not_used",
    "TraceDB.C19_later_record_replaces",
    "TraceDB.C19_other_bases_unaffected"
   ],
   "note": ""
  },
  {
   "property": "C20",
   "status": "proved",
   "theorems": [
    "TraceDB.C20_memory_safe"
   ],
   "note": ""
  },
  {
   "property": "C21",
   "status": "proved",
   "theorems": [
    "TraceDB.C21_sound_and_complete",
    "TraceDB.C21_on_accepted_traces"
   ],
   "note": "evaluation without the predicate cache; C26 relates it to the cached one"
  },
  {
   "property": "C22",
   "status": "proved",
   "theorems": [
    "TraceDB.C22_two_results_per_point",
    "TraceDB.C22_not_one_result",
    "TraceDB.C22_deduplicated",
    "TraceDB.C22_predicate_aborts"
   ],
   "note": "the code contradicts the documentation: two results per point"
  },
  {
   "property": "C23",
   "status": "proved",
   "theorems": [
    "TraceDB.C23_order_and_multiplicity",
    "TraceDB.C23_no_repetition"
   ],
   "note": "whole queries; no binding occurs twice at a point"
  },
  {
   "property": "C24",
   "status": "proved",
   "theorems": [
    "TraceDB.C24_statement_filter",
    "TraceDB.C24_unfiltered"
   ],
   "note": ""
  },
  {
   "property": "C25",
   "status": "proved",
   "theorems": [
    "TraceDB.C25_filter_cache_unobservable",
    "TraceDB.C25_queries_unaffected"
   ],
   "note": ""
  },
  {
   "property": "C26",
   "status": "proved",
   "theorems": [
    "TraceDB.C26_cache_unobservable_without_collisions",
    "TraceDB.C26_second_evaluation_undefined",
    "TraceDB.C26_collision_gives_wrong_answer",
    "TraceDB.C26_changing_comparison_gives_wrong_answer"
   ],
   "note": "holds under explicit conditions on hashes and dangling comparisons; the second theorem proves the undefined behaviour, the third the wrong answer"
  },
  {
   "property": "C27",
   "status": "proved",
   "theorems": [
    "TraceDB.C27_one_point",
    "TraceDB.C27_contiguous"
   ],
   "note": "the random generator is an arbitrary function into the range"
  },
  {
   "property": "C28",
   "status": "proved",
   "theorems": [
    "TraceDB.C28_soft_predicates_maximised"
   ],
   "note": ""
  },
  {
   "property": "C29",
   "status": "proved",
   "theorems": [
    "TraceDB.C29_integer_predicates_exact"
   ],
   "note": ""
  },
  {
   "property": "C30",
   "status": "proved",
   "theorems": [
    "TraceDB.C30_well_formed_total",
    "TraceDB.C30_exact_outcome"
   ],
   "note": ""
  },
  {
   "property": "C31",
   "status": "proved",
   "theorems": [
    "TraceDB.C31_connectives"
   ],
   "note": ""
  },
  {
   "property": "C32",
   "status": "proved",
   "theorems": [
    "TraceDB.C32_missing_values_false"
   ],
   "note": ""
  },
  {
   "property": "C33",
   "status": "proved",
   "theorems": [
    "TraceDB.C33_four_byte_floats",
    "TraceDB.C33_doubles_confused"
   ],
   "note": "the code violates the natural claim for doubles; proved for every float library"
  },
  {
   "property": "C34",
   "status": "proved",
   "theorems": [
    "TraceDB.C34_first_of_each_class",
    "TraceDB.C34_idempotent",
    "TraceDB.C34_interface"
   ],
   "note": ""
  },
  {
   "property": "C35",
   "status": "proved",
   "theorems": [
    "TraceDB.C35_count_wraps",
    "TraceDB.C35_nothing_returned"
   ],
   "note": "general wrap-around law and the concrete failure"
  },
  {
   "property": "C36",
   "status": "proved",
   "theorems": [
    "TraceDB.C36_accepted_traces",
    "TraceDB.C36_abi_sizes",
    "TraceDB.C36_export_faithful",
    "TraceDB.C36_conditions_needed",
    "TraceDB.C36_double_release"
   ],
   "note": "the conditions are exact type indices, sizes below 2^32 and successful allocation; the second theorem shows each is needed"
  },
  {
   "property": "C37",
   "status": "proved",
   "theorems": [
    "TraceDB.C37_points_returned",
    "TraceDB.C37_aux_undefined"
   ],
   "note": "the exported array is read back by a client"
  },
  {
   "property": "C38",
   "status": "proved",
   "theorems": [
    "TraceDB.C38_append_only",
    "TraceDB.C38_bad_index"
   ],
   "note": "histories of all database calls, with the getPoints caches; undefined and aborting calls end a history"
  },
  {
   "property": "C39",
   "status": "proved",
   "theorems": [
    "TraceDB.C39_failed_addition",
    "TraceDB.C39_answer",
    "TraceDB.C39_written_trace_added"
   ],
   "note": "the reader model decides what is rejected"
  },
  {
   "property": "C40",
   "status": "proved",
   "theorems": [
    "TraceDB.C40_round_trip",
    "TraceDB.C40_reachable",
    "TraceDB.C40_stored_once",
    "TraceDB.C40_nul_in_name"
   ],
   "note": "the text archive of Boost is modelled to the byte; for every database, and for all that the interface can make"
  },
  {
   "property": "C41",
   "status": "proved",
   "theorems": [
    "TraceDB.C41_same_answers",
    "TraceDB.C41_query"
   ],
   "note": "for all further calls on both databases, also with a predicate cache"
  },
  {
   "property": "C42",
   "status": "proved",
   "theorems": [
    "TraceDB.C42_sharing_unobservable",
    "TraceDB.C42_no_leak",
    "TraceDB.C42_shared_iff_same_data",
    "TraceDB.C42_direct_records_change"
   ],
   "note": "histories of making and destroying points with reference-counted sharing; hash functions and addresses arbitrary"
  },
  {
   "property": "C43",
   "status": "proved",
   "theorems": [
    "TraceDB.C43_records",
    "TraceDB.C43_types_sizes_predicates"
   ],
   "note": "also for point data; hash functions arbitrary"
  },
  {
   "property": "C44",
   "status": "proved",
   "theorems": [
    "TraceDB.C44_trace_equality",
    "TraceDB.C44_database_equality",
    "TraceDB.C44_data_ignored",
    "TraceDB.C44_hash_differs"
   ],
   "note": "the natural claim is false; exact characterisation and negation proved"
  },
  {
   "property": "C45",
   "status": "proved",
   "theorems": [
    "TraceDB.C45_stored_once",
    "TraceDB.C45_all_returned",
    "TraceDB.C45_outcomes",
    "TraceDB.C45_no_deadlock"
   ],
   "note": "any number of threads, all schedules; push_back is two steps so the mutex matters; also outcomes independent of the schedule and absence of deadlock"
  },
  {
   "property": "C46",
   "status": "proved",
   "theorems": [
    "TraceDB.C46_only_aux_values_mix",
    "TraceDB.C46_no_aux_unaffected",
    "TraceDB.C46_alone",
    "TraceDB.C46_values_mixed"
   ],
   "note": "all schedules; the mixing of auxiliary values is proved by a concrete schedule (the code violates the natural claim)"
  },
  {
   "property": "C47",
   "status": "proved",
   "theorems": [
    "TraceDB.C47_points_do_not_mix",
    "TraceDB.C47_all_recorded",
    "TraceDB.C47_no_deadlock",
    "TraceDB.C47_read_back"
   ],
   "note": "Every schedule over byte-sized steps with the mutex taken by __write_trace_id and released by __write_end_entry. C47_read_back combines it with the reader."
  },
  {
   "property": "C48",
   "status": "proved",
   "theorems": [
    "TraceDB.C48_round_trip",
    "TraceDB.C48_without_file",
    "TraceDB.C48_injective",
    "TraceDB.C48_bounds_needed"
   ],
   "note": "Round trip for all ids in range, injectivity, ids without file; the bounds are shown to be needed."
  },
  {
   "property": "C49",
   "status": "proved",
   "theorems": [
    "TraceDB.C49_selected",
    "TraceDB.C49_points_of_file",
    "TraceDB.C49_file_zero"
   ],
   "note": "A query for a file equals the query on the points get-trace selects, if every id carries the flag (or the file is not 0 and unflagged ids are below 2^40); for file 0 the disagreement is proved."
  },
  {
   "property": "C50",
   "status": "proved",
   "theorems": [
    "TraceDB.C50_files",
    "TraceDB.C50_points_reorder",
    "TraceDB.C50_points_steal",
    "TraceDB.C50_list_based"
   ],
   "note": "Holds for histories of files; the exact order of metadata after add-trace-points is proved, which violates the property; always holds in the list-based database."
  },
  {
   "property": "C51",
   "status": "proved",
   "theorems": [
    "TraceDB.C51_translation",
    "TraceDB.C51_query",
    "TraceDB.C51_accepted_iff"
   ],
   "note": "all s-expressions of the documented grammar, all assignments; plus which expressions are rejected"
  },
  {
   "property": "C52",
   "status": "proved",
   "theorems": [
    "TraceDB.C52_free_exact",
    "TraceDB.C52_built_and_freed"
   ],
   "note": "all predicate trees in memory; freeing twice or reading freed memory would be undefined in the model"
  },
  {
   "property": "C53",
   "status": "proved",
   "theorems": [
    "TraceDB.C53_indices_mean_requests",
    "TraceDB.C53_shared_iff_same",
    "TraceDB.C53_tables_grow",
    "TraceDB.C53_single_file_names",
    "TraceDB.C53_project_names_conflated",
    "TraceDB.C53_threads_share_index",
    "TraceDB.C53_threads_index_outside"
   ],
   "note": "Sequential requests with equal and equalp tables, growth of tables; conflation by case and the two races of instrumentation threads are proved as violations."
  },
  {
   "property": "C54",
   "status": "proved",
   "theorems": [
    "TraceDB.C54_succeeds_iff",
    "TraceDB.C54_opened_or_error",
    "TraceDB.C54_missing_file",
    "TraceDB.C54_many_descriptors",
    "TraceDB.C54_add_trace"
   ],
   "note": "exact outcome for every environment; missing files and descriptors of 1024 and above are proved to be undefined behaviour or an endless wait"
  },
  {
   "property": "C55",
   "status": "proved",
   "theorems": [
    "TraceDB.C55_budget",
    "TraceDB.C55_errors",
    "TraceDB.C55_exhausted_is_error",
    "TraceDB.C55_list_based_unbounded"
   ],
   "note": "Bound for all outcomes and error handling; exact counts and exactly the test cases that signal an error; the list-based database ignores the number."
  },
  {
   "property": "C56",
   "status": "proved",
   "theorems": [
    "TraceDB.C56_types_and_sizes",
    "TraceDB.C56_words",
    "TraceDB.C56_blobs_of_one_size",
    "TraceDB.C56_longer_blob_out_of_bounds",
    "TraceDB.C56_cycle",
    "TraceDB.C56_inconsistent_with_equality"
   ],
   "note": "also proved for blobs of one size; negations for the other cases"
  },
  {
   "property": "C57",
   "status": "proved",
   "theorems": [
    "TraceDB.C57_rewriting_is_stable",
    "TraceDB.C57_unchanged_variables"
   ],
   "note": ""
  },
  {
   "property": "C58",
   "status": "proved",
   "theorems": [
    "TraceDB.C58_binary",
    "TraceDB.C58_list_based",
    "TraceDB.C58_agree",
    "TraceDB.C58_case",
    "TraceDB.C58_predicate_ignored",
    "TraceDB.C58_predicate_disagrees",
    "TraceDB.C58_case_conflated",
    "TraceDB.C58_shared_type_names",
    "TraceDB.C58_unknown_type"
   ],
   "note": "C58_binary and C58_list_based characterise what each database returns by bindings by name; C58_agree compares them when the list-based filter expresses the predicate; C58_case gives exact agreement when no names differ in case only. The code's deviations are proved as C58_predicate_ignored, C58_predicate_disagrees, C58_case_conflated, C58_shared_type_names and C58_unknown_type. Assumes distinct type names, at least one free variable and enough memory for the combinations."
  },
  {
   "property": "C59",
   "status": "proved",
   "theorems": [
    "TraceDB.C59_trace_pointers",
    "TraceDB.C59_pointer_dangles"
   ],
   "note": "the natural claim (pointers stay valid) is false and the negation is proved for libstdc++ growth"
  },
  {
   "property": "C60",
   "status": "proved",
   "theorems": [
    "TraceDB.C60_round_trip",
    "TraceDB.C60_stable",
    "TraceDB.C60_injective",
    "TraceDB.C60_declarators_conflated",
    "TraceDB.C60_named_size_lost",
    "TraceDB.C60_order_changed"
   ],
   "note": "Round trip to the normal form, stability and injectivity for all printable types; the losses are proved with witnesses (C60_declarators_conflated, C60_named_size_lost, C60_order_changed)."
  },
  {
   "property": "C61",
   "status": "proved",
   "theorems": [
    "TraceDB.C61_trace_shows_visits",
    "TraceDB.C61_single_file",
    "TraceDB.C61_case_lost",
    "TraceDB.C61_pointer_tables_as_text",
    "TraceDB.C61_marks_split_types"
   ],
   "note": "C61_trace_shows_visits composes tables, generated calls, runtime, reader and Lisp conversion; C61_single_file adds that the result is the only one possible. Deviations: C61_case_lost, C61_pointer_tables_as_text, C61_marks_split_types. The evaluation of the generated C arguments is an assumption (Visit.RunsAs), sizeof is that of x86-64."
  },
  {
   "property": "C62",
   "status": "proved",
   "theorems": [
    "TraceDB.C62_lisp_shows_stream",
    "TraceDB.C62_file"
   ],
   "note": "end to end from the bytes of the stream to the Lisp data; statements read from uninitialised memory (C16) are left open"
  },
  {
   "property": "C63",
   "status": "proved",
   "theorems": [
    "TraceDB.C63_points_returned",
    "TraceDB.C63_unchanged",
    "TraceDB.C63_refused"
   ],
   "note": "C63_refused rests on the assumption that CFFI checks the range of uint64 members"
  },
  {
   "property": "C64",
   "status": "proved",
   "theorems": [
    "TraceDB.C64_instrumented_runs",
    "TraceDB.C64_same_behaviour",
    "TraceDB.C64_announced",
    "TraceDB.C64_no_filter",
    "TraceDB.C64_unbraced_switch",
    "TraceDB.C64_filtered_label",
    "TraceDB.C64_filtered_branch",
    "TraceDB.C64_else_text"
   ],
   "note": "Statement trees with their text as a compiler reads it (only the first statement of a body belongs to it); the changes at paths in the order of path-later-p; arbitrary actions, conditions and values. Preprocessor directives and unparsed fragments are left out."
  },
  {
   "property": "C65",
   "status": "proved",
   "theorems": [
    "TraceDB.C65_files",
    "TraceDB.C65_file_numbers",
    "TraceDB.C65_distinct",
    "TraceDB.C65_project_trace",
    "TraceDB.C65_other_main",
    "TraceDB.C65_later_files_not_covered"
   ],
   "note": "Files in turn (num-threads zero; tables shared by threads are C53). Which declarations are main functions and which files are evolve files is given."
  },
  {
   "property": "C66",
   "status": "proved",
   "theorems": [
    "TraceDB.C66_points",
    "TraceDB.C66_exact",
    "TraceDB.C66_lost_metadata",
    "TraceDB.C66_restrictions_not_stored"
   ],
   "note": "Objects on a heap with their slots and C++ databases; texts of databases can be decoded and encoded by Lisp; CFFI range checks of indices are left out."
  },
  {
   "property": "C67",
   "status": "proved",
   "theorems": [
    "TraceDB.C67_restored",
    "TraceDB.C67_unchanged",
    "TraceDB.C67_instrumented_p",
    "TraceDB.C67_flags_left",
    "TraceDB.C67_project",
    "TraceDB.C67_other_files_left"
   ],
   "note": "Trees without preprocessor directives and comments, as in C64; the mutation operations of the AST library are changes at paths; cutting of annotated ASTs is done all at once."
  },
  {
   "property": "C68",
   "status": "proved",
   "theorems": [
    "TraceDB.C68_one_trace_per_run",
    "TraceDB.C68_complete",
    "TraceDB.C68_exact",
    "TraceDB.C68_can_end",
    "TraceDB.C68_stuck",
    "TraceDB.C68_stuck_reachable",
    "TraceDB.C68_taken",
    "TraceDB.C68_parallel_mixed",
    "TraceDB.C68_parallel_crash",
    "TraceDB.C68_parallel_robbed"
   ],
   "note": "Time is left out: whoever waits may wait any number of rounds and the collector may give up at any time. The name of the pipe is written and read at once; the contents of a pipe are read at the end of the trace (reading itself is C01 to C04). The second and later handshakes of one collection are modelled as in the code, with a new pipe each."
  },
  {
   "property": "C69",
   "status": "proved",
   "theorems": [
    "TraceDB.C69_calls",
    "TraceDB.C69_id",
    "TraceDB.C69_end",
    "TraceDB.C69_setup",
    "TraceDB.C69_file_first",
    "TraceDB.C69_env_not_read",
    "TraceDB.C69_env_quoted",
    "TraceDB.C69_file_newline"
   ],
   "note": "What C text means is a small specification: tokens without comments, trigraphs and directives, and readers for exactly these declarations and calls; the sizes of types are those of x86-64. The handshake part of the setup code is C68."
  },
  {
   "property": "C70",
   "status": "proved",
   "theorems": [
    "TraceDB.C70_apart",
    "TraceDB.C70_nothing_invented",
    "TraceDB.C70_no_deadlock",
    "TraceDB.C70_uninterrupted",
    "TraceDB.C70_missing_results",
    "TraceDB.C70_repeated_results",
    "TraceDB.C70_wrong_answer_early"
   ],
   "note": "In favour of the code each map operation is one step and keys are compared by value; in C++ overlapping map operations are data races: C107 says exactly for which calls."
  },
  {
   "property": "C71",
   "status": "proved",
   "theorems": [
    "TraceDB.C71_answers_and_releases",
    "TraceDB.C71_error_keeps_results",
    "TraceDB.C71_filter_error",
    "TraceDB.C71_names_needed",
    "TraceDB.C71_unknown_type_leaks",
    "TraceDB.C71_refused_predicate_leaks",
    "TraceDB.C71_leaks_add_up",
    "TraceDB.C71_get_trace"
   ],
   "note": "A C++ exception that leaves the library ends the process. The address space is big enough for the array of results."
  },
  {
   "property": "C72",
   "status": "proved",
   "theorems": [
    "TraceDB.C72_reading",
    "TraceDB.C72_points",
    "TraceDB.C72_exact",
    "TraceDB.C72_own_metadata",
    "TraceDB.C72_metadata_of_parent",
    "TraceDB.C72_metadata_shifts",
    "TraceDB.C72_metadata_lost",
    "TraceDB.C72_types",
    "TraceDB.C72_pick"
   ],
   "note": "A file is a list of what the Lisp reader finds in it. Waiting for the file to open is not modelled; its result is a parameter."
  },
  {
   "property": "C73",
   "status": "proved",
   "theorems": [
    "TraceDB.C73_aborts",
    "TraceDB.C73_reads_back",
    "TraceDB.C73_unambiguous",
    "TraceDB.C73_parentheses",
    "TraceDB.C73_newline"
   ],
   "note": "How doubles are printed is a parameter, assumed to give a non-empty word. Asserts are enabled."
  },
  {
   "property": "C74",
   "status": "proved",
   "theorems": [
    "TraceDB.C74_room",
    "TraceDB.C74_alone",
    "TraceDB.C74_powers_of_two",
    "TraceDB.C74_dangling",
    "TraceDB.C74_number"
   ],
   "note": "The vector is modelled after libstdc++. In favour of the code: memory is sequentially consistent, and a pointer or a trace is read, written or copied in one step. Additions are serialised by the mutex, so all adding threads are one."
  },
  {
   "property": "C75",
   "status": "proved",
   "theorems": [
    "TraceDB.C75_order",
    "TraceDB.C75_setup",
    "TraceDB.C75_link",
    "TraceDB.C75_not_parsed",
    "TraceDB.C75_empty"
   ],
   "note": "Each condition of the program is an arbitrary Boolean; the macros of the setup code are assumed not to be used by the program. ASTs are found by identity, modelled by their paths."
  },
  {
   "property": "C76",
   "status": "proved",
   "theorems": [
    "TraceDB.C76_recorded",
    "TraceDB.C76_calls",
    "TraceDB.C76_parameters",
    "TraceDB.C76_pointer_results",
    "TraceDB.C76_prototypes",
    "TraceDB.C76_enclosing"
   ],
   "note": "The entries come from get-vars-in-scope of the AST library and are arbitrary; canonicalize-type and declarator-name are given with the declaration. Scopes of parameters are function definitions. Shapes of trees of declarators as made by tree-sitter."
  },
  {
   "property": "C77",
   "status": "proved",
   "theorems": [
    "TraceDB.C77_queries",
    "TraceDB.C77_split_types",
    "TraceDB.C77_doubles"
   ],
   "note": "Composition of C61, C51, C49 and C58. The conversion of the program's tables and code by the C compiler, evaluation of arguments and rewriting of ASTs are as in C61; the predicate evaluator without cache (C26 relates it to the one with cache); seed 0 and no soft predicates; allocation succeeds."
  },
  {
   "property": "C78",
   "status": "proved",
   "theorems": [
    "TraceDB.C78_values",
    "TraceDB.C78_outcomes",
    "TraceDB.C78_copied",
    "TraceDB.C78_queries"
   ],
   "note": "Allocation succeeds. The copies of a value on its way to the variable of the caller are made before the locals of the function are destroyed. The numbers themselves (cpp_int, cpp_dec_float_50) are single cells."
  },
  {
   "property": "C79",
   "status": "proved",
   "theorems": [
    "TraceDB.C79_crash",
    "TraceDB.C79_limit"
   ],
   "note": "Types the reader can hold, no use of the reserved address 2^64-1, enough memory, and uninitialised memory read harmlessly, as in C04; cuts inside the header are C05."
  },
  {
   "property": "C80",
   "status": "proved",
   "theorems": [
    "TraceDB.C80_collection_unnoticed",
    "TraceDB.C80_answers",
    "TraceDB.C80_never_freed",
    "TraceDB.C80_leak"
   ],
   "note": "The collector of SBCL: it collects only what is unreachable, and keeps the functions of finalizers with everything they refer to. Operations are atomic with respect to collections."
  },
  {
   "property": "C81",
   "status": "proved",
   "theorems": [
    "TraceDB.C81_as_add_trace",
    "TraceDB.C81_leak",
    "TraceDB.C81_no_trace",
    "TraceDB.C81_nil",
    "TraceDB.C81_free_trace",
    "TraceDB.C81_long_timeouts",
    "TraceDB.C81_leaks_add_up"
   ],
   "note": "Memory suffices (FitsMemory); points with 2^32 or more variables are left out as in C71."
  },
  {
   "property": "C82",
   "status": "proved",
   "theorems": [
    "TraceDB.C82_types",
    "TraceDB.C82_small_type",
    "TraceDB.C82_names",
    "TraceDB.C82_points",
    "TraceDB.C82_empty",
    "TraceDB.C82_reachable",
    "TraceDB.C82_wrong_data"
   ],
   "note": "The exception of the archive ends the process when it reaches Lisp."
  },
  {
   "property": "C83",
   "status": "proved",
   "theorems": [
    "TraceDB.C83_same_behaviour",
    "TraceDB.C83_no_filter",
    "TraceDB.C83_announced",
    "TraceDB.C83_pieces_kept",
    "TraceDB.C83_nothing_ruled_out",
    "TraceDB.C83_else_unrecorded",
    "TraceDB.C83_directive_between",
    "TraceDB.C83_group_between"
   ],
   "note": "The preprocessor is modelled on trees: a group leaves one of its parts; unparsed text before a plain statement becomes part of it. Siblings are those of the AST library."
  },
  {
   "property": "C84",
   "status": "proved",
   "theorems": [
    "TraceDB.C84_defined_iff",
    "TraceDB.C84_made",
    "TraceDB.C84_get_points",
    "TraceDB.C84_query",
    "TraceDB.C84_loaded",
    "TraceDB.C84_cut",
    "TraceDB.C84_cut_unsafe",
    "TraceDB.C84_type_names"
   ],
   "note": "Allocation is assumed to succeed (C36 shows what happens otherwise)."
  },
  {
   "property": "C85",
   "status": "proved",
   "theorems": [
    "TraceDB.C85_forked",
    "TraceDB.C85_all_recorded",
    "TraceDB.C85_can_end",
    "TraceDB.C85_fork_first",
    "TraceDB.C85_large_points",
    "TraceDB.C85_sizes_mix"
   ],
   "note": "Processes are single-threaded; writes succeed and up to a buffer's size are atomic on the shared file; memory is the same at all times (as in C02)."
  },
  {
   "property": "C86",
   "status": "proved",
   "theorems": [
    "TraceDB.C86_fails_for_ever",
    "TraceDB.C86_points_lost",
    "TraceDB.C86_header_lost",
    "TraceDB.C86_torn",
    "TraceDB.C86_stale_sizes"
   ],
   "note": "One process with one thread; what a failed write drops is arbitrary in the model (all of the buffer in glibc and musl)."
  },
  {
   "property": "C87",
   "status": "proved",
   "theorems": [
    "TraceDB.C87_in_time",
    "TraceDB.C87_nil",
    "TraceDB.C87_never",
    "TraceDB.C87_left_open",
    "TraceDB.C87_reads",
    "TraceDB.C87_leak"
   ],
   "note": "Times are natural numbers of clock units; sleeping takes at least as long as asked for; the declared type of the timeout is not enforced."
  },
  {
   "property": "C88",
   "status": "proved",
   "theorems": [
    "TraceDB.C88_between_points",
    "TraceDB.C88_read_back",
    "TraceDB.C88_can_end",
    "TraceDB.C88_within_a_point",
    "TraceDB.C88_hangs"
   ],
   "note": "Locking the default mutex again in the thread that holds it is taken to wait for ever; setting up the trace is not interrupted; a thread and its handlers share one list of steps."
  },
  {
   "property": "C89",
   "status": "proved",
   "theorems": [
    "TraceDB.C89_enough_memory",
    "TraceDB.C89_refused",
    "TraceDB.C89_left",
    "TraceDB.C89_grows",
    "TraceDB.C89_grows_example"
   ],
   "note": "Memory of containers and objects with destructors is only counted as an allocation that may fail; malloc(0) takes no memory."
  },
  {
   "property": "C90",
   "status": "proved",
   "theorems": [
    "TraceDB.C90_bounded",
    "TraceDB.C90_blobs",
    "TraceDB.C90_rewritten",
    "TraceDB.C90_asked"
   ],
   "note": "The unbounded requests are disagreements, proved with concrete families of files."
  },
  {
   "property": "C91",
   "status": "proved",
   "theorems": [
    "TraceDB.C91_forked",
    "TraceDB.C91_all_recorded",
    "TraceDB.C91_can_end",
    "TraceDB.C91_never_undefined",
    "TraceDB.C91_child_waits",
    "TraceDB.C91_fork_inside",
    "TraceDB.C91_exit_inside"
   ],
   "note": "The failures when forking or exiting within a point of another thread are disagreements, proved in general (child waits for ever) and with concrete runs."
  },
  {
   "property": "C92",
   "status": "proved",
   "theorems": [
    "TraceDB.C92_added",
    "TraceDB.C92_leak",
    "TraceDB.C92_error",
    "TraceDB.C92_store",
    "TraceDB.C92_history"
   ],
   "note": "The leaks and the unchecked malloc are disagreements; they are proved with the exact number of blocks and bytes."
  },
  {
   "property": "C93",
   "status": "proved",
   "theorems": [
    "TraceDB.C93_one_point",
    "TraceDB.C93_represented",
    "TraceDB.C93_values",
    "TraceDB.C93_zero",
    "TraceDB.C93_agree"
   ],
   "note": "The number 0 (C93_zero) and the values (C93_values) are disagreements with what pick promises."
  },
  {
   "property": "C94",
   "status": "proved",
   "theorems": [
    "TraceDB.C94_names",
    "TraceDB.C94_small_files",
    "TraceDB.C94_types",
    "TraceDB.C94_statement",
    "TraceDB.C94_statement_misread",
    "TraceDB.C94_blob"
   ],
   "note": "A disagreement between the manual and the reader; C94_statement_misread is a concrete file."
  },
  {
   "property": "C95",
   "status": "proved",
   "theorems": [
    "TraceDB.C95_watching",
    "TraceDB.C95_evaluations",
    "TraceDB.C95_evaluations_seed",
    "TraceDB.C95_count",
    "TraceDB.C95_predicate_cache",
    "TraceDB.C95_session",
    "TraceDB.C95_cache_grows",
    "TraceDB.C95_filter_cache",
    "TraceDB.C95_filter_cache_grows"
   ],
   "note": "Evaluations are observed by an evaluator that also writes them down (C95_watching: this changes nothing)."
  },
  {
   "property": "C96",
   "status": "proved",
   "theorems": [
    "TraceDB.C96_temporary",
    "TraceDB.C96_binary",
    "TraceDB.C96_processes",
    "TraceDB.C96_traces",
    "TraceDB.C96_compilation_failed",
    "TraceDB.C96_traces_any",
    "TraceDB.C96_causes",
    "TraceDB.C96_test_case",
    "TraceDB.C96_normal_end",
    "TraceDB.C96_compilations",
    "TraceDB.C96_counts"
   ],
   "note": "C96_counts ties the model to the counting model of C55. with-temporary-file and with-temporary-fifo are assumed to delete what they made however they are left."
  },
  {
   "property": "C97",
   "status": "proved",
   "theorems": [
    "TraceDB.C97_refines",
    "TraceDB.C97_databases",
    "TraceDB.C97_store_load",
    "TraceDB.C97_after_free"
   ],
   "note": "Collisions are C26; pointers returned by get_trace are C59; concurrent calls are C45, C70 and C74."
  },
  {
   "property": "C98",
   "status": "proved",
   "theorems": [
    "TraceDB.C98_program_runs",
    "TraceDB.C98_states",
    "TraceDB.C98_code_at_points",
    "TraceDB.C98_trace",
    "TraceDB.C98_queries"
   ],
   "note": "Composes C64, C61 and C77. One file; sequential programs that leave functions only by returning or exiting; functions as C64 has them."
  },
  {
   "property": "C99",
   "status": "proved",
   "theorems": [
    "TraceDB.C99_queries",
    "TraceDB.C99_program",
    "TraceDB.C99_code_at_points",
    "TraceDB.C99_type_lost"
   ],
   "note": "Composes C98, C65 and the query theorems. Needs that types that print alike up to case are treated alike; C99_type_lost shows what goes wrong with names that differ only in case."
  }
 ]
}